import Verif.ApiTight
import Verif.AtNumber
import Verif.RegProps
/-!
# The exact law of PSM responses (C47)
-/

namespace Cellular.Spec
open Cellular Cellular.Api Cellular.Props

/-- The value of field number `i` of a PSM response that starts with the number `z` (`none`: with no number): the mode is one
byte, the others are timers of which the low eight bits count.  `none`: illegal. -/
def psmValue (i : Nat) (z : Option Int) : Option Nat :=
  z.bind (fun z => if z < 0 then none
    else if i = 0 then (if z < 256 then some z.toNat else none)
    else if i < 5 then timerSeconds (psmTable i) (z.toNat % 256) else none)

/-- The value that the fields with the numbers `zs` give to member `i`, which had the value `old`: that of field `i` if it is there and legal. -/
def psmMember (zs : List (Option Int)) (i : Nat) (old : Nat) : Nat := ((zs[i]?).bind (psmValue i)).getD old

/-- The record after the fields. -/
def psmRecord (zs : List (Option Int)) (p : Psm) : Psm :=
  ⟨psmMember zs 0 p.mode, psmMember zs 1 p.rau, psmMember zs 2 p.rdy, psmMember zs 3 p.tau, psmMember zs 4 p.active⟩

end Cellular.Spec

namespace Cellular.Props
open Cellular Cellular.Spec Cellular.Api Cellular.Signal Cellular.Tok
open Cellular.AtCore (strtoi AtErr)
open Cellular.AtStr

/-- Setting one member. -/
def psmSet (i : Nat) (v : Option Nat) (p : Psm) : Psm :=
  match i, v with
  | 0, some v => { p with mode := v }
  | 1, some v => { p with rau := v }
  | 2, some v => { p with rdy := v }
  | 3, some v => { p with tau := v }
  | 4, some v => { p with active := v }
  | _, _ => p

/-- One field. -/
theorem psmToken_exact (lm : Nat) (i : Nat) (t : Str) (z : Option Int) (hz : TextNumber 2 t z) (p : Psm) :
    ((parsePsmToken lm t i p).1 = .success ↔ (psmValue i (z.map (asInt32 lm))).isSome) ∧
    (parsePsmToken lm t i p).2 = psmSet i (psmValue i (z.map (asInt32 lm))) p := by
  unfold psmSet
  have hs := C08_exact lm 2 (by omega) hz
  cases z with
  | none =>
    rw [if_pos rfl] at hs
    obtain ⟨e1, e2⟩ := (timers_any_text lm t).2.2 _ _ hs (by decide)
    match i with
    | 0 => simp [parsePsmToken, parseCpsmsMode, hs, psmValue]
    | 1 => simp [parsePsmToken, storeTimer, e1, psmValue]
    | 2 => simp [parsePsmToken, storeTimer, e2, psmValue]
    | 3 => simp [parsePsmToken, storeTimer, e1, psmValue]
    | 4 => simp [parsePsmToken, storeTimer, e2, psmValue]
    | n + 5 => simp [parsePsmToken, psmValue]
  | some z =>
    rw [if_neg (by simp)] at hs
    simp only [Option.map_some] at hs ⊢
    generalize asInt32 lm z = v at hs ⊢
    by_cases hv : v < 0
    · obtain ⟨e1, e2⟩ := (timers_any_text lm t).2.1 _ hs hv
      match i with
      | 0 => simp [parsePsmToken, parseCpsmsMode, hs, psmValue, hv, show ¬ (0 ≤ v ∧ v ≤ 255) by omega]
      | 1 => simp [parsePsmToken, storeTimer, e1, psmValue, hv]
      | 2 => simp [parsePsmToken, storeTimer, e2, psmValue, hv]
      | 3 => simp [parsePsmToken, storeTimer, e1, psmValue, hv]
      | 4 => simp [parsePsmToken, storeTimer, e2, psmValue, hv]
      | n + 5 => simp [parsePsmToken, psmValue, hv]
    · obtain ⟨e1, e2⟩ := (timers_any_text lm t).1 _ hs (by omega)
      match i with
      | 0 =>
        by_cases h : v < 256
        · simp [parsePsmToken, parseCpsmsMode, hs, psmValue, hv, h, show 0 ≤ v ∧ v ≤ 255 by omega]
        · simp [parsePsmToken, parseCpsmsMode, hs, psmValue, hv, h, show ¬ (0 ≤ v ∧ v ≤ 255) by omega]
      | 1 => cases h : timerSeconds unitT3412 (v.toNat % 256) <;> simp [parsePsmToken, storeTimer, e1, psmValue, hv, h, psmTable]
      | 2 => cases h : timerSeconds unitT3324 (v.toNat % 256) <;> simp [parsePsmToken, storeTimer, e2, psmValue, hv, h, psmTable]
      | 3 => cases h : timerSeconds unitT3412 (v.toNat % 256) <;> simp [parsePsmToken, storeTimer, e1, psmValue, hv, h, psmTable]
      | 4 => cases h : timerSeconds unitT3324 (v.toNat % 256) <;> simp [parsePsmToken, storeTimer, e2, psmValue, hv, h, psmTable]
      | n + 5 => simp [parsePsmToken, psmValue, hv, show ¬ (n + 5 < 5) by omega]

/-- All fields, from number `i` on. -/
theorem psmFold_exact (lm : Nat) : ∀ (fs : List Str) (zs : List (Option Int)) (i : Nat) (e : AtErr) (p : Psm),
    List.Forall₂ (TextNumber 2) fs zs → fs ≠ [] →
    ((psmFold lm i fs e p).1 = .success ↔ ∃ z, zs.getLast? = some z ∧ (psmValue (i + fs.length - 1) (z.map (asInt32 lm))).isSome) ∧
    (psmFold lm i fs e p).2 =
      ((zs.map (Option.map (asInt32 lm))).zipIdx i).foldl (fun p x => psmSet x.2 (psmValue x.2 x.1) p) p := by
  intro fs
  induction fs with
  | nil => intro _ _ _ _ _ h; exact absurd rfl h
  | cons f fs ih =>
    intro zs i e p h _
    cases h with
    | @cons _ z _ zs hz hzs =>
      obtain ⟨g1, g2⟩ := psmToken_exact lm i f z hz p
      by_cases hn : fs = []
      · subst hn
        cases hzs
        simp only [psmFold, List.getLast?_singleton, Option.some.injEq, exists_eq_left', List.length_singleton, Nat.add_sub_cancel, List.map_cons, List.map_nil,
          List.zipIdx_cons, List.zipIdx_nil, List.foldl_cons, List.foldl_nil]
        exact ⟨g1, g2⟩
      · obtain ⟨h1, h2⟩ := ih zs (i + 1) (parsePsmToken lm f i p).1 (parsePsmToken lm f i p).2 hzs hn
        have hzn : zs ≠ [] := by rintro rfl; cases hzs; exact hn rfl
        refine ⟨?_, ?_⟩
        · rw [psmFold, h1]
          have : (z :: zs).getLast? = zs.getLast? := by
            obtain ⟨a, l, rfl⟩ := List.exists_cons_of_ne_nil hzn
            simp [List.getLast?_cons_cons]
          rw [this]
          have : i + 1 + fs.length - 1 = i + (f :: fs).length - 1 := by simp
          rw [this]
        · rw [psmFold, h2, g2]
          simp

/-- Setting all members is the record. -/
theorem psmSets_record (zs : List (Option Int)) (p : Psm) :
    zs.zipIdx.foldl (fun p x => psmSet x.2 (psmValue x.2 x.1) p) p = psmRecord zs p := by
  have tail : ∀ (zs : List (Option Int)) (i : Nat) (p : Psm), 5 ≤ i →
      (zs.zipIdx i).foldl (fun p x => psmSet x.2 (psmValue x.2 x.1) p) p = p := by
    intro zs
    induction zs with
    | nil => intro i p _; rfl
    | cons z zs ih =>
      intro i p hi
      rw [List.zipIdx_cons, List.foldl_cons, ih _ _ (by omega)]
      obtain ⟨n, rfl⟩ : ∃ n, i = n + 5 := ⟨i - 5, by omega⟩
      rfl
  have set0 : ∀ o p, psmSet 0 o p = { p with mode := o.getD p.mode } := by intro o p; cases o <;> rfl
  have set1 : ∀ o p, psmSet 1 o p = { p with rau := o.getD p.rau } := by intro o p; cases o <;> rfl
  have set2 : ∀ o p, psmSet 2 o p = { p with rdy := o.getD p.rdy } := by intro o p; cases o <;> rfl
  have set3 : ∀ o p, psmSet 3 o p = { p with tau := o.getD p.tau } := by intro o p; cases o <;> rfl
  have set4 : ∀ o p, psmSet 4 o p = { p with active := o.getD p.active } := by intro o p; cases o <;> rfl
  match zs with
  | [] => rfl
  | [a] => simp [List.zipIdx_cons, set0, set1, set2, set3, set4, psmRecord, psmMember]
  | [a, b] => simp [List.zipIdx_cons, set0, set1, set2, set3, set4, psmRecord, psmMember]
  | [a, b, c] => simp [List.zipIdx_cons, set0, set1, set2, set3, set4, psmRecord, psmMember]
  | [a, b, c, d] => simp [List.zipIdx_cons, set0, set1, set2, set3, set4, psmRecord, psmMember]
  | a :: b :: c :: d :: e :: r =>
    simp only [List.zipIdx_cons, List.foldl_cons, Nat.zero_add, Nat.reduceAdd, set0, set1, set2, set3, set4]
    rw [tail r 5 _ (by omega)]
    simp [psmRecord, psmMember]

/-- The loop over the rest of the text is the fold over its fields. -/
theorem psmTokens_all (lm : Nat) : ∀ (n : Nat) (rest tok : Str) (i : Nat) (p : Psm) (e : AtErr), rest.length ≤ n → rest.length ≤ 256 →
    psmTokens lm i tok rest p = psmFold lm i (tok :: reportedFields rest) e p := by
  intro n
  induction n with
  | zero =>
    intro rest tok i p e h _
    have : rest = [] := List.length_eq_zero_iff.mp (by omega)
    subst this
    rw [reportedFields_nil]
    exact psmTokens_join lm [] tok i p e (by simp) (by simp) (by simp [joinComma])
  | succ n ih =>
    intro rest tok i p e h h2
    by_cases hne : rest = []
    · subst hne
      rw [reportedFields_nil]
      exact psmTokens_join lm [] tok i p e (by simp) (by simp) (by simp [joinComma])
    · have hg := RegLemmas.getNextTok_cons rest hne h2
      have hlt := Reg.getNextTok_rest_lt _ _ _ hg
      rw [reportedFields_cons rest hne]
      unfold psmTokens
      simp only [psmFold]
      split
      · rename_i rest' tok' heq
        rw [hg] at heq
        simp only [Prod.mk.injEq, Option.some.injEq, true_and] at heq
        obtain ⟨rfl, rfl⟩ := heq
        have := ih _ (rest.takeWhile (fun b => b != 44)) (i + 1) (parsePsmToken lm tok i p).2 (parsePsmToken lm tok i p).1
          (by omega) (by omega : ((rest.dropWhile (fun b => b != 44)).drop 1).length ≤ 256)
        simpa [psmFold] using this
      · rename_i hh
        exact (hh _ _ hg).elim

/-- C47, the exact law: for every answer line, each member of the record is that of its field if the field is there and legal and
unchanged otherwise; the query succeeds exactly if the last field is a legal one (so illegal fields before it are masked). -/
theorem C47_exact (lm : Nat) (pre body : Str) (rest : List Str) (p : Psm) (hpre : (58 : Byte) ∉ pre)
    (hl : (pre ++ 58 :: body).length ≤ 256) (zs : List (Option Int))
    (hz : List.Forall₂ (TextNumber 2) (reportedFields (noQuote body)) zs) :
    (recvPsm lm ((pre ++ 58 :: body) :: rest) p).2 = psmRecord (zs.map (Option.map (asInt32 lm))) p ∧
    ((recvPsm lm ((pre ++ 58 :: body) :: rest) p).1 = .ok ↔
      ∃ z, zs.getLast? = some z ∧ (psmValue (zs.length - 1) (z.map (asInt32 lm))).isSome) := by
  have hbl : body.length ≤ 256 := by
    simp only [List.length_append, List.length_cons] at hl; omega
  have hq := noQuote_len body
  have tr : ∀ e : AtErr, translateAt e = .ok ↔ e = .success := by intro e; cases e <;> simp [translateAt]
  by_cases hqe : noQuote body = []
  · rw [hqe, reportedFields_nil] at hz
    cases hz
    unfold recvPsm
    simp only
    rw [removePrefix_eq hpre hl]
    simp only
    by_cases hb0 : body = []
    · subst hb0
      have : removeAllDoubleQuote [] = (.badParameter, []) := by decide
      rw [this]
      exact ⟨rfl, by simp [translateAt]⟩
    · rw [removeAllDoubleQuote_eq hb0 hbl, hqe]
      have : getNextTok [] = (.badParameter, [], none) := by decide
      simp only [this]
      exact ⟨rfl, by simp [translateAt]⟩
  · have hbne : body ≠ [] := ne_nil_of_filter hqe
    have hg := RegLemmas.getNextTok_cons (noQuote body) hqe (by omega)
    have hlt := Reg.getNextTok_rest_lt _ _ _ hg
    have hrun : recvPsm lm ((pre ++ 58 :: body) :: rest) p =
        (translateAt (psmFold lm 0 (reportedFields (noQuote body)) .success p).1,
          (psmFold lm 0 (reportedFields (noQuote body)) .success p).2) := by
      rw [reportedFields_cons _ hqe]
      unfold recvPsm
      simp only
      rw [removePrefix_eq hpre hl]
      simp only
      rw [removeAllDoubleQuote_eq hbne hbl]
      simp only
      rw [hg]
      simp only
      rw [psmTokens_all lm _ _ _ 0 p .success (Nat.le_refl _) (by omega)]
    have hne : reportedFields (noQuote body) ≠ [] := by rw [reportedFields_cons _ hqe]; simp
    obtain ⟨h1, h2⟩ := psmFold_exact lm (reportedFields (noQuote body)) zs 0 .success p hz hne
    rw [hrun, h2, psmSets_record]
    refine ⟨rfl, ?_⟩
    rw [tr, h1, Nat.zero_add, hz.length_eq]

/-- Every answer line has such numbers. -/
theorem psm_numbers (fs : List Str) : ∃ zs, List.Forall₂ (TextNumber 2) fs zs := by
  induction fs with
  | nil => exact ⟨[], .nil⟩
  | cons f fs ih =>
    obtain ⟨zs, h⟩ := ih
    obtain ⟨z, hz⟩ := C08_every_text 2 f
    exact ⟨z :: zs, .cons hz h⟩

/-- C47 for the API: the caller's record after any answer to `AT+CPSMS?`, and whether the query succeeds. -/
theorem C47_query_exact (lm : Nat) (w : World) (ho : LibraryOpen w) (old : Psm) (pre body : Str) (rest : List Str)
    (hpre : (58 : Byte) ∉ pre) (hl : (pre ++ 58 :: body).length ≤ 256)
    (ha : w.modem w.sent ⟨str "AT+CPSMS?", .withPrefix, some (str "+CPSMS")⟩ = .lines ((pre ++ 58 :: body) :: rest))
    (zs : List (Option Int)) (hz : List.Forall₂ (TextNumber 2) (reportedFields (noQuote body)) zs) :
    (getPsmSettings lm w (some old)).out = some (psmRecord (zs.map (Option.map (asInt32 lm))) ⟨0xFF, 0, 0, 0, 0⟩) ∧
    ((getPsmSettings lm w (some old)).err = .success ↔
      ∃ z, zs.getLast? = some z ∧ (psmValue (zs.length - 1) (z.map (asInt32 lm))).isSome) := by
  obtain ⟨h1, h2⟩ := C47_exact lm pre body rest ⟨0xFF, 0, 0, 0, 0⟩ hpre hl zs hz
  unfold getPsmSettings
  rw [checkLib_open ho]
  simp only [request_answer (r := ⟨str "AT+CPSMS?", .withPrefix, some (str "+CPSMS")⟩) (by decide) ha, h1, true_and]
  rw [← h2]
  have tr : ∀ e : PktStatus, translatePkt e = .success ↔ e = .ok := by intro e; cases e <;> simp [translatePkt]
  exact tr _

theorem textNumber_numeral {base : Nat} (hb : base ≠ 16) {s : Str} {v : Nat} (h : Numeral base s v) :
    TextNumber base s (some (v : Int)) := by
  have := TextNumber.number (ws := []) (sg := []) (rest := []) (by simp) .none h (by intro b hb; cases hb) (fun e => absurd e hb)
  simpa using this

/-- An answer with an illegal second field, an empty third one and a legal fourth one: success, and the values of the first and
the fourth. -/
example : List.Forall₂ (TextNumber 2) (reportedFields (noQuote (str " 1,\"11000000\",,\"00000001\"")))
      [some 1, some 192, none, some 1] ∧
    psmRecord [some 1, some 192, none, some 1] ⟨0xFF, 0, 0, 0, 0⟩ = ⟨1, 0, 0, 600, 0⟩ ∧
    recvPsm (2 ^ 31 - 1) [str "+CPSMS: 1,\"11000000\",,\"00000001\""] ⟨0xFF, 0, 0, 0, 0⟩ = (.ok, ⟨1, 0, 0, 600, 0⟩) := by
  refine ⟨?_, by decide, by decide +kernel⟩
  rw [show reportedFields (noQuote (str " 1,\"11000000\",,\"00000001\"")) = [str " 1", binText 8 192, [], binText 8 1] by decide +kernel]
  refine .cons ?_ (.cons (textNumber_numeral (by decide) (binText_numeral 8 192 (by decide)))
    (.cons ?_ (.cons (textNumber_numeral (by decide) (binText_numeral 8 1 (by decide))) .nil)))
  · exact TextNumber.number (ws := [32]) (sg := []) (s := binText 1 1) (rest := []) (neg := false) (v := 1) (by simp [White]) .none
      (binText_numeral 1 1 (by decide)) (by intro b hb; cases hb) (by simp)
  · exact TextNumber.none (ws := []) (sg := []) (rest := []) (neg := false) (by simp) .none (by intro b hb; cases hb) (by simp)

end Cellular.Props
