import Verif.ApiTimeExact
/-!
# The exact laws of the operator, address, SIM lock and eDRX answers (C48, C51, C53, C54, C57)

What the queries make of every answer of the modem.
-/

namespace Cellular.Spec
open Cellular Api

/-! ## Operators -/

/-- A field for a number below `max`: without number it changes nothing, a legal number is stored, others are illegal (`none`). -/
def numberEffect (lm max : Nat) (z : Option Int) (store : Nat → OpInfo) (o : OpInfo) : Option OpInfo :=
  match z with
  | none => some o
  | some z => if 0 ≤ asInt32 lm z ∧ asInt32 lm z < max then some (store (asInt32 lm z).toNat) else none

/-- The operator: a name in the formats 0 and 1, three digits of country and two or three of network code in format 2. -/
def operatorEffect (f : Str) (o : OpInfo) : Option OpInfo :=
  if o.format ≤ 1 then some { o with name := f.take 32 }
  else if o.format = 2 ∧ (f.length = 5 ∨ f.length = 6) then some { o with mcc := f.take 3, mnc := f.drop 3 }
  else none

/-- What field number `i` (mode, format, operator, access technology) does. -/
def copsEffect (lm : Nat) (i : Nat) (f : Str) (z : Option Int) (o : OpInfo) : Option OpInfo :=
  if i = 0 then numberEffect lm 5 z (fun v => { o with mode := v }) o
  else if i = 1 then numberEffect lm 10 z (fun v => { o with format := v }) o
  else if i = 2 then operatorEffect f o
  else if i = 3 then numberEffect lm 10 z (fun v => { o with rat := v }) o
  else some o

/-- The fields from the left, up to the first illegal one; whether there was none. -/
def copsResult (lm : Nat) : Nat → List (Str × Option Int) → OpInfo → OpInfo × Bool
  | _, [], o => (o, true)
  | i, f :: fs, o =>
    match copsEffect lm i f.1 f.2 o with
    | some o => copsResult lm (i + 1) fs o
    | none => (o, false)

/-- Texts with the numbers they start with. -/
def Numbered (base : Nat) (fs : List (Str × Option Int)) : Prop := ∀ f ∈ fs, TextNumber base f.1 f.2

/-- A text without quotes and white space. -/
def bareText (s : Str) : Str := s.filter (fun b => decide (¬ White b ∧ b ≠ 34))

/-! ## eDRX -/

/-- A value that fits a byte. -/
def byteValue (lm : Nat) (z : Option Int) : Option Nat :=
  z.bind (fun z => if 0 ≤ asInt32 lm z ∧ asInt32 lm z ≤ 255 then some (asInt32 lm z).toNat else none)

/-- What a line of the answer to the eDRX query says: nothing is set, not readable, or an entry with what is legal of access
technology and cycle. -/
inductive EdrxMeaning | unset | unreadable | entry (rat value : Option Nat)
  deriving DecidableEq, Repr

def NothingSet (line : Str) : Prop := line = str "+CEDRXS: 0" ∨ line = str "+CEDRXS:"

/-- The meaning of a line; the cycle is written in binary. -/
inductive EdrxReads (lm : Nat) : Str → EdrxMeaning → Prop
  | unset {line : Str} : NothingSet line → EdrxReads lm line .unset
  | long {line : Str} : ¬ NothingSet line → 256 < line.length → EdrxReads lm line .unreadable
  | noColon {line : Str} : ¬ NothingSet line → (58 : Byte) ∉ line → EdrxReads lm line .unreadable
  | noText {pre body : Str} : ¬ NothingSet (pre ++ 58 :: body) → (58 : Byte) ∉ pre → (pre ++ 58 :: body).length ≤ 256 →
      (∀ b ∈ body, b = 34) → EdrxReads lm (pre ++ 58 :: body) .unreadable
  | one {pre body f : Str} {z : Option Int} : ¬ NothingSet (pre ++ 58 :: body) → (58 : Byte) ∉ pre →
      (pre ++ 58 :: body).length ≤ 256 → Props.reportedFields (body.filter (· ≠ 34)) = [f] → TextNumber 10 f z →
      EdrxReads lm (pre ++ 58 :: body) (.entry (byteValue lm z) none)
  | more {pre body f g : Str} {fs : List Str} {z y : Option Int} : ¬ NothingSet (pre ++ 58 :: body) → (58 : Byte) ∉ pre →
      (pre ++ 58 :: body).length ≤ 256 → Props.reportedFields (body.filter (· ≠ 34)) = f :: g :: fs → TextNumber 10 f z →
      TextNumber 2 g y → EdrxReads lm (pre ++ 58 :: body) (.entry (byteValue lm z) (byteValue lm y))

/-- The entries up to the first line that is not readable. -/
def edrxEntries : List EdrxMeaning → List (Option Nat × Option Nat)
  | .entry r v :: ms => (r, v) :: edrxEntries ms
  | .unset :: ms => edrxEntries ms
  | _ => []

/-- There is something to store beyond the fourth entry. -/
def edrxOverrun (es : List (Option Nat × Option Nat)) : Prop := ∃ e ∈ es.drop 4, e.1 ≠ none ∨ e.2 ≠ none

/-- The caller's list for these entries. -/
def edrxStored (es : List (Option Nat × Option Nat)) : EdrxList :=
  { list := (es.take 4).map (fun e => ⟨e.1.getD 0, e.2.getD 0⟩) ++ List.replicate (4 - es.length) ⟨0, 0⟩
    count := es.length % 256 }

end Cellular.Spec

namespace Cellular.Props
open Cellular Spec Api Signal Tok
open Cellular.AtCore (strtoi AtErr)
open Cellular.AtStr

theorem bare_eq (s : Str) : noWhite (noQuote s) = bareText s := by
  unfold noWhite noQuote bareText
  rw [List.filter_filter]
  congr 1; funext b
  by_cases hw : White b <;> by_cases hb : b = 34 <;> simp_all

theorem copsNum_exact (lm max : Nat) (tok : Str) (z : Option Int) (hz : TextNumber 10 tok z) (m : Int) (hm : m = max)
    (store : Nat → OpInfo → OpInfo) (o : OpInfo) :
    copsNum lm tok m store o = match numberEffect lm max z (fun v => store v o) o with
      | some o' => (true, o')
      | none => (false, o) := by
  unfold copsNum numberEffect
  rw [C08_exact lm 10 (by omega) hz]
  subst hm
  cases z with
  | none => rfl
  | some z =>
    simp only [Option.map_some, reduceCtorEq, if_false]
    by_cases h : 0 ≤ asInt32 lm z ∧ asInt32 lm z < (max : Int)
    · rw [if_pos h, if_pos h]
    · rw [if_neg h, if_neg h]

theorem copsName_exact (tok : Str) (o : OpInfo) :
    copsName tok o = match operatorEffect tok o with
      | some o' => (true, o')
      | none => (false, o) := by
  unfold copsName operatorEffect
  by_cases h : o.format ≤ 1
  · rw [if_pos h, if_pos (by omega)]; rfl
  · rw [if_neg h, if_neg (by omega)]
    by_cases h2 : o.format = 2
    · rw [if_pos h2]
      by_cases h3 : tok.length = 5 ∨ tok.length = 6
      · rw [if_pos (by omega : tok.length = 3 + 3 ∨ tok.length = 3 + 3 - 1), if_pos ⟨h2, h3⟩]
      · rw [if_neg (by omega : ¬ (tok.length = 3 + 3 ∨ tok.length = 3 + 3 - 1)), if_neg (fun x => h3 x.2)]
    · rw [if_neg h2, if_neg (fun x => h2 x.1)]

/-- A text that is not at its end: the first field, its number and those of the rest. -/
theorem fields_step (base : Nat) {s : Str} (hl : s.length ≤ 256) {fs : List (Str × Option Int)} (hn : Numbered base fs)
    (hf : fs.map Prod.fst = reportedFields s) :
    (s = [] ∧ fs = [] ∧ getNextTok s = (.badParameter, [], none)) ∨
    ∃ tok rest z fs', getNextTok s = (.success, rest, some tok) ∧ rest.length ≤ 256 ∧ fs = (tok, z) :: fs' ∧
      TextNumber base tok z ∧ Numbered base fs' ∧ fs'.map Prod.fst = reportedFields rest := by
  by_cases hne : s = []
  · subst hne
    rw [reportedFields_nil] at hf
    exact Or.inl ⟨rfl, List.map_eq_nil_iff.mp hf, by decide⟩
  · right
    have hg := RegLemmas.getNextTok_cons s hne hl
    have hlt := Reg.getNextTok_rest_lt _ _ _ hg
    rw [reportedFields_cons s hne] at hf
    cases fs with
    | nil => simp at hf
    | cons f fs' =>
      obtain ⟨t, z⟩ := f
      simp only [List.map_cons, List.cons.injEq] at hf
      refine ⟨_, _, z, fs', hg, by omega, ?_, ?_, fun f hf => hn f (by simp [hf]), hf.2⟩
      · rw [← hf.1]
      · have := hn (t, z) (by simp)
        rw [← hf.1]; exact this

theorem copsResult_four (lm : Nat) (fs : List (Str × Option Int)) (i : Nat) (hi : 4 ≤ i) (o : OpInfo) :
    copsResult lm i fs o = (o, true) := by
  induction fs generalizing i with
  | nil => rfl
  | cons f fs ih =>
    unfold copsResult copsEffect
    rw [if_neg (by omega), if_neg (by omega), if_neg (by omega), if_neg (by omega)]
    exact ih (i + 1) (by omega)

theorem parseCops_exact (lm : Nat) (s : Str) (hl : s.length ≤ 256) (o : OpInfo) (fs : List (Str × Option Int))
    (hn : Numbered 10 fs) (hf : fs.map Prod.fst = reportedFields s) :
    (parseCops lm s o).2 = (copsResult lm 0 fs o).1 ∧ ((parseCops lm s o).1 = .error ↔ (copsResult lm 0 fs o).2 = false) := by
  unfold parseCops
  rcases fields_step 10 hl hn hf with ⟨rfl, rfl, hg⟩ | ⟨t0, r0, z0, fs0, hg, hl0, rfl, hz0, hn0, hf0⟩
  · rw [hg]; simp [copsResult]
  rw [hg]
  simp only
  have e0 := copsNum_exact lm 5 t0 z0 hz0 5 rfl (fun v o => { o with mode := v }) o
  have c0 : copsEffect lm 0 t0 z0 o = numberEffect lm 5 z0 (fun v => { o with mode := v }) o := rfl
  simp only [copsResult, c0]
  cases h0 : numberEffect lm 5 z0 (fun v => { o with mode := v }) o with
  | none => simp only [h0] at e0; rw [e0]; simp
  | some o0 =>
  simp only [h0] at e0
  rw [e0]
  simp only [Nat.zero_add]
  rcases fields_step 10 hl0 hn0 hf0 with ⟨rfl, rfl, hg⟩ | ⟨t1, r1, z1, fs1, hg, hl1, rfl, hz1, hn1, hf1⟩
  · rw [hg]; simp [copsResult]
  rw [hg]
  simp only
  have e1 := copsNum_exact lm 10 t1 z1 hz1 10 rfl (fun v o => { o with format := v }) o0
  have c1 : copsEffect lm 1 t1 z1 o0 = numberEffect lm 10 z1 (fun v => { o0 with format := v }) o0 := rfl
  simp only [copsResult, c1]
  cases h1 : numberEffect lm 10 z1 (fun v => { o0 with format := v }) o0 with
  | none => simp only [h1] at e1; rw [e1]; simp
  | some o1 =>
  simp only [h1] at e1
  rw [e1]
  simp only [Nat.reduceAdd]
  rcases fields_step 10 hl1 hn1 hf1 with ⟨rfl, rfl, hg⟩ | ⟨t2, r2, z2, fs2, hg, hl2, rfl, hz2, hn2, hf2⟩
  · rw [hg]; simp [copsResult]
  rw [hg]
  simp only
  have e2 := copsName_exact t2 o1
  have c2 : copsEffect lm 2 t2 z2 o1 = operatorEffect t2 o1 := rfl
  simp only [copsResult, c2]
  cases h2 : operatorEffect t2 o1 with
  | none => simp only [h2] at e2; rw [e2]; simp
  | some o2 =>
  simp only [h2] at e2
  rw [e2]
  simp only [Nat.reduceAdd]
  rcases fields_step 10 hl2 hn2 hf2 with ⟨rfl, rfl, hg⟩ | ⟨t3, r3, z3, fs3, hg, hl3, rfl, hz3, hn3, hf3⟩
  · rw [hg]; simp [copsResult]
  rw [hg]
  simp only
  have e3 := copsNum_exact lm 10 t3 z3 hz3 (ratMax : Int) rfl (fun v o => { o with rat := v }) o2
  have c3 : copsEffect lm 3 t3 z3 o2 = numberEffect lm 10 z3 (fun v => { o2 with rat := v }) o2 := rfl
  simp only [copsResult, c3]
  cases h3 : numberEffect lm 10 z3 (fun v => { o2 with rat := v }) o2 with
  | none => simp only [h3] at e3; rw [e3]; simp
  | some o3 =>
  simp only [h3] at e3
  rw [e3]
  simp only [Nat.reduceAdd, copsResult_four lm fs3 4 (Nat.le_refl _)]
  simp

/-- C53, the exact law: for every answer line of at most 256 characters with a colon.  Quotes and white space are removed, the
text is cut at the commas, and the fields are stored up to the first illegal one; the result is failure exactly if there is an
illegal field - a field without number, missing fields and an empty text count as success. -/
theorem C53_exact (lm : Nat) (pre body : Str) (more : List Str) (o : OpInfo) (hpre : (58 : Byte) ∉ pre)
    (hl : (pre ++ 58 :: body).length ≤ 256) (fs : List (Str × Option Int)) (hn : Numbered 10 fs)
    (hf : fs.map Prod.fst = reportedFields (bareText body)) :
    recvCops lm ((pre ++ 58 :: body) :: more) o =
      (if (copsResult lm 0 fs o).2 then .ok else .failure, (copsResult lm 0 fs o).1) := by
  have hbl : body.length ≤ 256 := by
    simp only [List.length_append, List.length_cons] at hl; omega
  have hbare : (bareText body).length ≤ 256 := Nat.le_trans (List.length_filter_le _ _) hbl
  have key : (copsLine lm (pre ++ 58 :: body) o).2 = (copsResult lm 0 fs o).1 ∧
      ((copsLine lm (pre ++ 58 :: body) o).1 = .error ↔ (copsResult lm 0 fs o).2 = false) := by
    unfold copsLine
    rw [removePrefix_eq hpre hl]
    simp only
    by_cases hb : body = []
    · subst hb
      have : fs = [] := by
        rw [show bareText [] = [] from rfl, reportedFields_nil] at hf
        exact List.map_eq_nil_iff.mp hf
      subst this
      rw [show removeAllDoubleQuote [] = (.badParameter, []) by decide]
      simp [copsResult]
    · rw [removeAllDoubleQuote_eq hb hbl]
      simp only
      by_cases hq : noQuote body = []
      · have : fs = [] := by
          rw [← bare_eq, hq, show noWhite [] = [] from rfl, reportedFields_nil] at hf
          exact List.map_eq_nil_iff.mp hf
        subst this
        rw [hq, show removeAllWhiteSpaces [] = (.badParameter, []) by decide]
        simp [copsResult]
      · rw [removeAllWhiteSpaces_eq hq (Nat.le_trans (noQuote_len _) hbl), bare_eq]
        exact parseCops_exact lm _ hbare o fs hn hf
  unfold recvCops
  simp only [key.1]
  congr 1
  cases h : (copsResult lm 0 fs o).2 with
  | true => rw [if_neg (by rw [key.2, h]; simp)]; rfl
  | false => rw [if_pos (key.2.mpr h)]; rfl

/-- Lines that cannot be read - too long, or without colon - count as success too, with nothing stored. -/
theorem C53_unreadable (lm : Nat) (line : Str) (more : List Str) (o : OpInfo) (h : 256 < line.length ∨ (58 : Byte) ∉ line) :
    recvCops lm (line :: more) o = (.ok, o) := by
  have : ∃ x, removePrefix line = (.badParameter, x) := by
    unfold removePrefix
    split
    · rename_i hv
      have := valid_len hv
      rw [if_neg]
      · exact ⟨_, rfl⟩
      · rcases h with h | h
        · omega
        · simpa using h
    · exact ⟨_, rfl⟩
  obtain ⟨x, hx⟩ := this
  unfold recvCops copsLine
  simp only [hx]
  rfl

theorem numberEffect_cases {lm max : Nat} {z : Option Int} {store : Nat → OpInfo} {o o' : OpInfo}
    (h : numberEffect lm max z store o = some o') : o' = o ∨ ∃ v, v < max ∧ o' = store v := by
  unfold numberEffect at h
  cases z with
  | none => simp at h; exact Or.inl h.symm
  | some z =>
    simp only at h
    split at h
    · rename_i hc
      simp only [Option.some.injEq] at h
      exact Or.inr ⟨_, by omega, h.symm⟩
    · simp at h

theorem copsResult_rat (lm : Nat) (fs : List (Str × Option Int)) (i : Nat) (o : OpInfo) (h : o.rat < 10) :
    (copsResult lm i fs o).1.rat < 10 := by
  induction fs generalizing i o with
  | nil => exact h
  | cons f fs ih =>
    unfold copsResult
    cases he : copsEffect lm i f.1 f.2 o with
    | none => exact h
    | some o' =>
      refine ih (i + 1) o' ?_
      unfold copsEffect at he
      split at he
      · rcases numberEffect_cases he with rfl | ⟨v, _, rfl⟩ <;> exact h
      · split at he
        · rcases numberEffect_cases he with rfl | ⟨v, _, rfl⟩ <;> exact h
        · split at he
          · unfold operatorEffect at he
            split at he
            · cases he; exact h
            · split at he
              · cases he; exact h
              · cases he
          · split at he
            · rcases numberEffect_cases he with rfl | ⟨v, hv, rfl⟩
              · exact h
              · exact hv
            · cases he; exact h

/-- C54, the exact law: if the modem accepts both commands and answers the second with a readable line, the query succeeds exactly
if no field of the line is illegal, and then gives the operator codes of the line - none if it has none. -/
theorem C54_exact (lm : Nat) (w : World) (ho : LibraryOpen w) (old : Plmn) (l0 : List Str) (pre body : Str) (more : List Str)
    (h1 : w.modem w.sent copsSelect = .lines l0)
    (h2 : w.modem (w.sent ++ [copsSelect]) copsQuery = .lines ((pre ++ 58 :: body) :: more))
    (hpre : (58 : Byte) ∉ pre) (hl : (pre ++ 58 :: body).length ≤ 256)
    (fs : List (Str × Option Int)) (hn : Numbered 10 fs) (hf : fs.map Prod.fst = reportedFields (bareText body)) :
    let r := copsResult lm 0 fs ⟨[], [], 0, 0, 0, []⟩
    (getRegisteredNetwork lm true w (some old)).err = (if r.2 then .success else .internalFailure) ∧
    (getRegisteredNetwork lm true w (some old)).out = some (if r.2 then ⟨r.1.mcc, r.1.mnc⟩ else old) := by
  intro r
  have e1 : (str "AT+COPS=3,2").length ≤ cmdMax := by decide
  have e2 : (str "AT+COPS?").length ≤ cmdMax := by decide
  have hx := C53_exact lm pre body more OpInfo.zero hpre hl fs hn hf
  have hr : r.1.rat < 10 := copsResult_rat lm fs 0 _ (by decide)
  unfold getRegisteredNetwork
  rw [checkLib_open ho]
  unfold updateMccMnc requestNoCb request
  simp only [show ¬ (str "AT+COPS=3,2").length > cmdMax by omega, show ¬ (str "AT+COPS?").length > cmdMax by omega, if_false]
  rw [show (⟨str "AT+COPS=3,2", .noResult, none⟩ : Req) = copsSelect from rfl]
  rw [show (⟨str "AT+COPS?", .withPrefix, some (str "+COPS")⟩ : Req) = copsQuery from rfl]
  simp only [h1, h2, hx]
  rw [show copsResult lm 0 fs OpInfo.zero = r from rfl]
  cases hb : r.2 with
  | true =>
    have : r.1.rat ≠ ratInvalid := by unfold ratInvalid; omega
    simp [translatePkt, this]
  | false => simp [translatePkt]

/-! ## SIM lock -/

/-- C51, the exact law: for every answer line of at most 256 characters with a colon and something after it that is not white
space, the query succeeds, and the state is "ready" exactly if the first field, without white space, is `READY`, otherwise
"unknown" - all names of locked states contain white space. -/
theorem C51_exact (pre body : Str) (more : List Str) (old : SimLock) (hpre : (58 : Byte) ∉ pre)
    (hl : (pre ++ 58 :: body).length ≤ 256) (hne : ∃ b ∈ body, ¬ White b) :
    recvSimLock ((pre ++ 58 :: body) :: more) old =
      (.ok, if (body.filter (fun b => decide (¬ White b))).takeWhile (· ≠ 44) = str "READY" then .ready else .unknown) := by
  have hnw : ∀ s : Str, noWhite s = s.filter (fun b => decide (¬ White b)) := by
    intro s; unfold noWhite; congr 1; funext b; simp
  have hsplit : noWhite (pre ++ 58 :: body) = noWhite pre ++ 58 :: noWhite body := by
    simp [noWhite, show ¬ White 58 by simp [White]]
  have hlen : (noWhite pre ++ 58 :: noWhite body).length ≤ 256 := by
    rw [← hsplit]; exact Nat.le_trans (List.length_filter_le _ _) hl
  have hpre' : (58 : Byte) ∉ noWhite pre := fun h => hpre (List.mem_filter.mp h).1
  have hbne : noWhite body ≠ [] := by
    obtain ⟨b, hb, hw⟩ := hne
    intro e
    have : b ∈ noWhite body := List.mem_filter.mpr ⟨hb, by simpa using hw⟩
    rw [e] at this; simp at this
  have hbl : (noWhite body).length ≤ 256 := by
    simp only [List.length_append, List.length_cons] at hlen; omega
  unfold recvSimLock
  simp only
  rw [removeAllWhiteSpaces_eq (by simp) hl]
  simp only
  rw [hsplit, removePrefix_eq hpre' hlen]
  simp only
  rw [RegLemmas.getNextTok_cons _ hbne hbl, bne_fun]
  simp only
  congr 1
  rw [← hnw body]
  have hnoW : ∀ b ∈ (noWhite body).takeWhile (fun b => decide (b ≠ 44)), ¬ White b := by
    intro b hb
    have := (List.takeWhile_sublist (p := fun b : Byte => decide (b ≠ 44)) (l := noWhite body)).subset hb
    simpa using (List.mem_filter.mp this).2
  generalize (noWhite body).takeWhile (fun b => decide (b ≠ 44)) = t at hnoW
  have hsp : ∀ u : Str, (32 : Byte) ∈ u → t ≠ u := by
    intro u hu e; subst e
    exact hnoW 32 hu (by simp [White])
  unfold getSimLockState
  by_cases h : t = str "READY"
  · rw [if_pos h, if_pos h]
  · rw [if_neg h, if_neg h]
    repeat rw [if_neg (hsp _ (by decide +kernel))]

/-- All other answers are refused and change nothing. -/
theorem C51_refused (old : SimLock) : recvSimLock [] old = (.badParam, old) ∧
    (∀ line more, (256 < line.length ∨ (58 : Byte) ∉ line) → recvSimLock (line :: more) old = (.badParam, old)) ∧
    (∀ pre body more, (58 : Byte) ∉ pre → (∀ b ∈ body, White b) →
      recvSimLock ((pre ++ 58 :: body) :: more) old = (.badParam, old)) := by
  have long : ∀ line more, 256 < line.length → recvSimLock (line :: more) old = (.badParam, old) := by
    intro line more h
    unfold recvSimLock removeAllWhiteSpaces
    simp only
    rw [if_neg (by intro hv; have := valid_len hv; omega)]
    rfl
  refine ⟨rfl, ?_, ?_⟩
  · intro line more h
    by_cases hl : 256 < line.length
    · exact long line more hl
    · have h : (58 : Byte) ∉ line := h.resolve_left hl
      unfold recvSimLock
      simp only
      by_cases hn : line = []
      · subst hn; rfl
      · rw [removeAllWhiteSpaces_eq hn (by omega)]
        simp only
        have h58 : (58 : Byte) ∉ noWhite line := fun hm => h (List.mem_filter.mp hm).1
        have : ∃ x, removePrefix (noWhite line) = (.badParameter, x) := by
          unfold removePrefix
          split
          · rw [if_neg (by simpa using h58)]; exact ⟨_, rfl⟩
          · exact ⟨_, rfl⟩
        obtain ⟨x, hx⟩ := this
        rw [hx]
        rfl
  · intro pre body more hpre hw
    by_cases hl : (pre ++ 58 :: body).length ≤ 256
    · unfold recvSimLock
      simp only
      rw [removeAllWhiteSpaces_eq (by simp) hl]
      simp only
      have hb : noWhite body = [] := by
        unfold noWhite
        rw [List.filter_eq_nil_iff]
        intro b hb; simp [hw b hb]
      have hsplit : noWhite (pre ++ 58 :: body) = noWhite pre ++ 58 :: [] := by
        rw [← hb]; simp [noWhite, show ¬ White 58 by simp [White]]
      have h58 : (58 : Byte) ∉ noWhite pre := fun h => hpre (List.mem_filter.mp h).1
      rw [hsplit, removePrefix_eq (pre := noWhite pre) h58
        (by rw [← hsplit]; exact Nat.le_trans (List.length_filter_le _ _) hl)]
      rfl
    · exact long _ _ (by omega)

/-! ## IP address -/

/-- C57, the exact law: for every answer line of at most 256 characters with a colon and something after it, what follows the first
comma after the colon is copied, cut after `n` characters or filled up with NULs to `n`, where `n` is the length of the buffer
(modulo 65536); the rest of the buffer is unchanged and the query succeeds. -/
theorem C57_exact (pre body : Str) (more : List Str) (n : Nat) (buf : Mem) (hn : 0 < n) (hb : n ≤ buf.length)
    (hpre : (58 : Byte) ∉ pre) (hne : body ≠ []) (hl : (pre ++ 58 :: body).length ≤ 256) :
    let addr := (body.dropWhile (· ≠ 44)).drop 1
    recvIp ((pre ++ 58 :: body) :: more) n buf =
      some (.ok, (addr.take n ++ List.replicate (n - addr.length) 0) ++ buf.drop n) := by
  intro addr
  have hbl : body.length ≤ 256 := by
    simp only [List.length_append, List.length_cons] at hl; omega
  unfold recvIp
  simp only
  rw [if_neg (by omega), removePrefix_eq hpre hl]
  simp only
  rw [RegLemmas.getNextTok_cons _ hne hbl, bne_fun]
  simp only
  rw [show (body.dropWhile (fun b => decide (b ≠ 44))).drop 1 = addr from rfl]
  by_cases ha : addr = []
  · rw [if_neg (by simp [ha])]
    unfold memset0
    rw [if_pos hb, ha]
    simp [translateAt]
  · rw [if_pos ha]
    unfold strncpy
    rw [if_pos hb]
    simp [translateAt]

/-- All other answers are refused and change nothing. -/
theorem C57_refused (n : Nat) (buf : Mem) (hn : 0 < n) : recvIp [] n buf = some (.failure, buf) ∧
    (∀ line more, (256 < line.length ∨ (58 : Byte) ∉ line) → recvIp (line :: more) n buf = some (.badParam, buf)) ∧
    (∀ pre more, (58 : Byte) ∉ pre → recvIp ((pre ++ [58]) :: more) n buf = some (.badParam, buf)) := by
  refine ⟨rfl, ?_, ?_⟩
  · intro line more h
    have : ∃ x, removePrefix line = (.badParameter, x) := by
      unfold removePrefix
      split
      · rename_i hv
        have := valid_len hv
        rw [if_neg]
        · exact ⟨_, rfl⟩
        · rcases h with h | h
          · omega
          · simpa using h
      · exact ⟨_, rfl⟩
    obtain ⟨x, hx⟩ := this
    unfold recvIp
    simp only
    rw [if_neg (by omega), hx]
    rfl
  · intro pre more hpre
    unfold recvIp
    simp only
    rw [if_neg (by omega)]
    by_cases hl : (pre ++ [58]).length ≤ 256
    · rw [removePrefix_eq hpre hl]
      rfl
    · unfold removePrefix
      rw [if_neg (by intro hv; have := valid_len hv; omega)]
      rfl

/-! ## eDRX -/

theorem edrxToken_exact (lm : Nat) (tok : Str) (k : Nat) (l : EdrxList) :
    (∀ z, TextNumber 10 tok z → parseEdrxToken lm tok 0 k l = match byteValue lm z with
      | none => some l
      | some v => l.upd k (fun e => { e with rat := v })) ∧
    (∀ z, TextNumber 2 tok z → parseEdrxToken lm tok 1 k l = match byteValue lm z with
      | none => some l
      | some v => l.upd k (fun e => { e with value := v })) := by
  constructor <;>
  · intro z hz
    unfold parseEdrxToken
    simp only
    rw [C08_exact lm _ (by omega) hz]
    cases z with
    | none => rfl
    | some z =>
      simp only [byteValue, Option.map_some, Option.bind_some, reduceCtorEq, if_false]
      by_cases h : 0 ≤ asInt32 lm z ∧ asInt32 lm z ≤ 255
      · rw [if_pos h, if_pos h]
      · rw [if_neg h, if_neg h]

theorem edrxTokens_rest (lm : Nat) : ∀ (n : Nat) (rest tok : Str) (i k : Nat) (l : EdrxList), rest.length ≤ n → 2 ≤ i →
    edrxTokens lm i k tok rest l = some l := by
  intro n
  induction n with
  | zero =>
    intro rest tok i k l hn hi
    obtain ⟨j, rfl⟩ : ∃ j, i = j + 2 := ⟨i - 2, by omega⟩
    unfold edrxTokens
    simp only [parseEdrxToken]
    split
    · rename_i heq; have := Reg.getNextTok_rest_lt _ _ _ heq; omega
    · rfl
  | succ n ih =>
    intro rest tok i k l hn hi
    obtain ⟨j, rfl⟩ : ∃ j, i = j + 2 := ⟨i - 2, by omega⟩
    unfold edrxTokens
    simp only [parseEdrxToken]
    split
    · rename_i heq; have := Reg.getNextTok_rest_lt _ _ _ heq; exact ih _ _ _ _ _ (by omega) (by omega)
    · rfl

/-- What storing an entry at index `k` does. -/
def edrxPut (k : Nat) (r v : Option Nat) (l : EdrxList) : Option EdrxList :=
  match r with
  | none => match v with
    | none => some l
    | some v => l.upd k (fun e => { e with value := v })
  | some r => match v with
    | none => l.upd k (fun e => { e with rat := r })
    | some v => l.upd k (fun _ => ⟨r, v⟩)

theorem upd_upd (l : EdrxList) (k : Nat) (r v : Nat) :
    (match l.upd k (fun e => { e with rat := r }) with
      | none => none
      | some l => l.upd k (fun e => { e with value := v })) = l.upd k (fun _ => ⟨r, v⟩) := by
  unfold EdrxList.upd
  cases h : l.list[k]? with
  | none => rfl
  | some e =>
    have hk := (List.getElem?_eq_some_iff.mp h).1
    simp only
    rw [List.getElem?_set_self hk]
    simp

theorem edrxLine_exact (lm : Nat) {line : Str} {r v : Option Nat} (h : EdrxReads lm line (.entry r v)) (k : Nat) (l : EdrxList) :
    parseEdrxLine lm line k l = (edrxPut k r v l).map (fun l => (.success, l)) := by
  have start : ∀ {pre body f : Str} {fs : List Str}, (58 : Byte) ∉ pre → (pre ++ 58 :: body).length ≤ 256 →
      reportedFields (body.filter (· ≠ 34)) = f :: fs → ∃ rest, rest.length ≤ 256 ∧ reportedFields rest = fs ∧
      parseEdrxLine lm (pre ++ 58 :: body) k l = (edrxTokens lm 0 k f rest l).map (fun l => (.success, l)) := by
    intro pre body f fs hpre hl hf
    have hbl : body.length ≤ 256 := by
      simp only [List.length_append, List.length_cons] at hl; omega
    have hq : body.filter (· ≠ 34) = noQuote body := by
      unfold noQuote; rw [bne_fun]
    rw [hq] at hf
    have hqne : noQuote body ≠ [] := by intro e; rw [e, reportedFields_nil] at hf; cases hf
    have hql := Nat.le_trans (noQuote_len body) hbl
    have hg := RegLemmas.getNextTok_cons _ hqne hql
    have hlt := Reg.getNextTok_rest_lt _ _ _ hg
    rw [reportedFields_cons _ hqne] at hf
    simp only [List.cons.injEq] at hf
    refine ⟨_, ?_, hf.2, ?_⟩
    · omega
    · unfold parseEdrxLine
      rw [removePrefix_eq hpre hl]
      simp only
      rw [removeAllDoubleQuote_eq (ne_nil_of_filter hqne) hbl]
      simp only
      rw [hg]
      simp only [hf.1]
  cases h with
  | @one pre body f z _ hpre hl hf hz =>
    obtain ⟨rest, hrl, hr, e⟩ := start hpre hl hf
    rw [e]
    have hr0 : rest = [] := by
      refine Classical.byContradiction (fun hne => ?_)
      rw [reportedFields_cons rest hne] at hr
      cases hr
    subst hr0
    congr 1
    unfold edrxTokens
    rw [(edrxToken_exact lm f k l).1 z hz]
    have hg : getNextTok [] = (.badParameter, [], none) := by decide
    have fin : ∀ l : EdrxList, (match h : getNextTok [] with
        | (.success, rest', some tok') => edrxTokens lm (0 + 1) k tok' rest' l
        | _ => some l) = some l := by
      intro l
      split
      · rename_i heq; rw [hg] at heq; simp at heq
      · rfl
    cases byteValue lm z with
    | none => simp only; exact fin l
    | some r =>
      simp only [edrxPut]
      cases l.upd k (fun e => { e with rat := r }) with
      | none => rfl
      | some l' => simp only; exact fin l'
  | @more pre body f g fs z y _ hpre hl hf hz hy =>
    obtain ⟨rest, hrl, hr, e⟩ := start hpre hl hf
    rw [e]
    congr 1
    have hrne : rest ≠ [] := by intro e; rw [e, reportedFields_nil] at hr; cases hr
    have hg := RegLemmas.getNextTok_cons rest hrne hrl
    rw [reportedFields_cons rest hrne] at hr
    simp only [List.cons.injEq] at hr
    rw [hr.1] at hg
    have second : ∀ l : EdrxList, (match h : getNextTok rest with
        | (.success, rest', some tok') => edrxTokens lm (0 + 1) k tok' rest' l
        | _ => some l) = match byteValue lm y with
          | none => some l
          | some v => l.upd k (fun e => { e with value := v }) := by
      intro l
      split
      · rename_i rest' tok' heq
        rw [hg] at heq
        simp only [Prod.mk.injEq, Option.some.injEq, true_and] at heq
        obtain ⟨rfl, rfl⟩ := heq
        unfold edrxTokens
        rw [(edrxToken_exact lm g k l).2 y hy]
        have fin : ∀ (l : EdrxList) (r2 : Str), (match h : getNextTok r2 with
            | (.success, rest', some tok') => edrxTokens lm (0 + 1 + 1) k tok' rest' l
            | _ => some l) = some l := by
          intro l r2
          split
          · exact edrxTokens_rest lm _ _ _ _ _ _ (Nat.le_refl _) (by omega)
          · rfl
        cases byteValue lm y with
        | none => simp only; exact fin l _
        | some v =>
          simp only
          cases l.upd k (fun e => { e with value := v }) with
          | none => rfl
          | some l' => simp only; exact fin l' _
      · rename_i hh; exact (hh _ _ hg).elim
    unfold edrxTokens
    rw [(edrxToken_exact lm f k l).1 z hz]
    cases byteValue lm z with
    | none => simp only [edrxPut]; refine Eq.trans (second l) ?_; cases byteValue lm y <;> rfl
    | some r =>
      simp only [edrxPut]
      cases hv : byteValue lm y with
      | none =>
        cases l.upd k (fun e => { e with rat := r }) with
        | none => rfl
        | some l' => simp only; refine Eq.trans (second l') ?_; rw [hv]
      | some v =>
        simp only
        rw [← upd_upd]
        cases l.upd k (fun e => { e with rat := r }) with
        | none => rfl
        | some l' => simp only; refine Eq.trans (second l') ?_; rw [hv]

theorem edrxLine_unreadable (lm : Nat) {line : Str} (h : EdrxReads lm line .unreadable) (k : Nat) (l : EdrxList) :
    parseEdrxLine lm line k l = some (.badParameter, l) := by
  have bad : (256 < line.length ∨ (58 : Byte) ∉ line) → parseEdrxLine lm line k l = some (.badParameter, l) := by
    intro h
    have : ∃ x, removePrefix line = (.badParameter, x) := by
      unfold removePrefix
      split
      · rename_i hv
        have := valid_len hv
        rw [if_neg]
        · exact ⟨_, rfl⟩
        · rcases h with h | h
          · omega
          · simpa using h
      · exact ⟨_, rfl⟩
    obtain ⟨x, hx⟩ := this
    unfold parseEdrxLine
    rw [hx]
  cases h with
  | long _ h => exact bad (Or.inl h)
  | noColon _ h => exact bad (Or.inr h)
  | @noText pre body _ hpre hl hq =>
    have hbl : body.length ≤ 256 := by
      simp only [List.length_append, List.length_cons] at hl; omega
    have hqe : noQuote body = [] := by
      unfold noQuote
      rw [List.filter_eq_nil_iff]
      intro b hb; simp [hq b hb]
    unfold parseEdrxLine
    rw [removePrefix_eq hpre hl]
    simp only
    by_cases hb : body = []
    · subst hb
      rw [show removeAllDoubleQuote [] = (.badParameter, []) by decide]
    · rw [removeAllDoubleQuote_eq hb hbl]
      simp only [hqe]
      rw [show getNextTok [] = (.badParameter, [], none) by decide]

/-- Storing the next entry. -/
theorem edrxPut_stored (es : List (Option Nat × Option Nat)) (r v : Option Nat) (c : Nat) (hl : es.length < 256) :
    edrxPut (es.length % 256) r v { edrxStored es with count := c } =
      if es.length < 4 ∨ (r = none ∧ v = none) then some { edrxStored (es ++ [(r, v)]) with count := c } else none := by
  rw [Nat.mod_eq_of_lt hl]
  by_cases h4 : es.length < 4
  · rw [if_pos (Or.inl h4)]
    have ht : es.take 4 = es := List.take_of_length_le (by omega)
    have ht2 : (es ++ [(r, v)]).take 4 = es ++ [(r, v)] := List.take_of_length_le (by simp; omega)
    have hget : (edrxStored es).list[es.length]? = some ⟨0, 0⟩ := by
      unfold edrxStored
      rw [ht, List.getElem?_append_right (by simp)]
      simp [List.getElem?_replicate]; omega
    have hset : ∀ x : Edrx, (edrxStored es).list.set es.length x =
        es.map (fun e => (⟨e.1.getD 0, e.2.getD 0⟩ : Edrx)) ++ [x] ++ List.replicate (4 - (es.length + 1)) ⟨0, 0⟩ := by
      intro x
      unfold edrxStored
      rw [ht, List.set_append_right _ _ (by simp)]
      obtain ⟨n, hn⟩ : ∃ n, 4 - es.length = n + 1 := ⟨4 - es.length - 1, by omega⟩
      have hn2 : 4 - (es.length + 1) = n := by omega
      rw [hn, hn2]
      simp [List.replicate_succ]
    have hres : ({ edrxStored (es ++ [(r, v)]) with count := c } : EdrxList) =
        ⟨es.map (fun e => (⟨e.1.getD 0, e.2.getD 0⟩ : Edrx)) ++ [⟨r.getD 0, v.getD 0⟩] ++
          List.replicate (4 - (es.length + 1)) ⟨0, 0⟩, c⟩ := by
      unfold edrxStored
      simp only [ht2]
      simp
    rw [hres]
    have hupd : ∀ f : Edrx → Edrx, EdrxList.upd { edrxStored es with count := c } es.length f =
        some ⟨es.map (fun e => (⟨e.1.getD 0, e.2.getD 0⟩ : Edrx)) ++ [f ⟨0, 0⟩] ++
          List.replicate (4 - (es.length + 1)) ⟨0, 0⟩, c⟩ := by
      intro f
      unfold EdrxList.upd
      simp only [hget]
      rw [hset]
    cases r with
    | none =>
      cases v with
      | none =>
        simp only [edrxPut]
        unfold edrxStored
        obtain ⟨n, hn⟩ : ∃ n, 4 - es.length = n + 1 := ⟨4 - es.length - 1, by omega⟩
        have hn2 : 4 - (es.length + 1) = n := by omega
        rw [ht, hn, hn2]
        simp [List.replicate_succ]
      | some v => simp only [edrxPut]; rw [hupd]; rfl
    | some r =>
      cases v with
      | none => simp only [edrxPut]; rw [hupd]; rfl
      | some v => simp only [edrxPut]; rw [hupd]; rfl
  · have hnone : ∀ f : Edrx → Edrx, EdrxList.upd { edrxStored es with count := c } es.length f = none := by
      intro f
      unfold EdrxList.upd
      have : (edrxStored es).list[es.length]? = none := by
        rw [List.getElem?_eq_none_iff]
        unfold edrxStored
        simp; omega
      simp only [this]
    have hsame : (edrxStored (es ++ [(r, v)])).list = (edrxStored es).list := by
      unfold edrxStored
      rw [List.take_append_of_le_length (by omega)]
      have e1 : 4 - es.length = 0 := by omega
      have e2 : 4 - (es ++ [(r, v)]).length = 0 := by simp; omega
      rw [e1, e2]
    cases r with
    | none =>
      cases v with
      | none => rw [if_pos (by simp)]; simp only [edrxPut, hsame]
      | some v => rw [if_neg (by simp; omega)]; simp only [edrxPut]; exact hnone _
    | some r =>
      rw [if_neg (by simp; omega)]
      cases v <;> (simp only [edrxPut]; exact hnone _)

theorem edrxOverrun_append (es fs : List (Option Nat × Option Nat)) (h : edrxOverrun es) : edrxOverrun (es ++ fs) := by
  obtain ⟨e, he, hv⟩ := h
  refine ⟨e, ?_, hv⟩
  rw [List.drop_append]
  exact List.mem_append_left _ he

theorem edrxOverrun_snoc (es : List (Option Nat × Option Nat)) (r v : Option Nat) (h : ¬ edrxOverrun es) :
    edrxOverrun (es ++ [(r, v)]) ↔ ¬ (es.length < 4 ∨ (r = none ∧ v = none)) := by
  unfold edrxOverrun at h ⊢
  rw [List.drop_append]
  constructor
  · rintro ⟨e, he, hv⟩
    rcases List.mem_append.mp he with h1 | h1
    · exact absurd ⟨e, h1, hv⟩ h
    · have hm := List.mem_of_mem_drop h1
      simp only [List.mem_singleton] at hm
      subst hm
      have : es.length < 4 → False := by
        intro hlt
        obtain ⟨n, hn⟩ : ∃ n, 4 - es.length = n + 1 := ⟨4 - es.length - 1, by omega⟩
        rw [hn] at h1
        simp at h1
      rintro (h2 | ⟨rfl, rfl⟩)
      · exact this h2
      · simp at hv
  · intro hn
    refine ⟨(r, v), ?_, ?_⟩
    · have : 4 - es.length = 0 := by omega
      rw [this]; simp
    · by_cases h1 : r = none
      · exact Or.inr (fun h2 => hn (Or.inr ⟨h1, h2⟩))
      · exact Or.inl h1

theorem edrxLoop_exact (lm : Nat) {ls : List Str} {ms : List EdrxMeaning} (h : List.Forall₂ (EdrxReads lm) ls ms) :
    ∀ (done : List (Option Nat × Option Nat)), ¬ edrxOverrun done → (done ++ edrxEntries ms).length ≤ 256 →
      (edrxOverrun (done ++ edrxEntries ms) → recvEdrxLoop lm ls (done.length % 256) (edrxStored done) = none) ∧
      (¬ edrxOverrun (done ++ edrxEntries ms) → recvEdrxLoop lm ls (done.length % 256) (edrxStored done) =
        some (if .unreadable ∈ ms then .badParam else .ok, edrxStored (done ++ edrxEntries ms))) := by
  induction h with
  | nil =>
    intro done hd _
    simp only [edrxEntries, List.append_nil]
    exact ⟨fun h => absurd h hd, fun _ => by simp [recvEdrxLoop]⟩
  | @cons line m ls ms hm _ ih =>
    intro done hd hlen
    cases m with
    | unset =>
      have hs : NothingSet line := by cases hm; assumption
      simp only [edrxEntries] at hlen ⊢
      have := ih done hd hlen
      simp only [recvEdrxLoop]
      unfold NothingSet at hs
      rw [if_pos hs]
      have e : ({ edrxStored done with count := done.length % 256 } : EdrxList) = edrxStored done := rfl
      rw [e]
      simpa using this
    | unreadable =>
      have hs : ¬ NothingSet line := by cases hm <;> assumption
      simp only [edrxEntries, List.append_nil]
      refine ⟨fun h => absurd h hd, fun _ => ?_⟩
      simp only [recvEdrxLoop]
      unfold NothingSet at hs
      rw [if_neg hs, edrxLine_unreadable lm hm]
      simp [translateAt, edrxStored]
    | entry r v =>
      have hs : ¬ NothingSet line := by cases hm <;> assumption
      simp only [edrxEntries, List.length_append, List.length_cons] at hlen
      have hlt : done.length < 256 := by omega
      simp only [recvEdrxLoop]
      unfold NothingSet at hs
      rw [if_neg hs, edrxLine_exact lm hm]
      have hput := edrxPut_stored done r v (done.length % 256) hlt
      rw [show ({ edrxStored done with count := done.length % 256 } : EdrxList) = edrxStored done from rfl] at hput
      rw [hput]
      have happ : done ++ edrxEntries (.entry r v :: ms) = (done ++ [(r, v)]) ++ edrxEntries ms := by simp [edrxEntries]
      rw [happ]
      by_cases hc : done.length < 4 ∨ (r = none ∧ v = none)
      · rw [if_pos hc]
        have hd' : ¬ edrxOverrun (done ++ [(r, v)]) := by
          rw [edrxOverrun_snoc done r v hd]; exact not_not.mpr hc
        have := ih (done ++ [(r, v)]) hd' (by simp; omega)
        simp only [Option.map_some, translateAt]
        have e1 : (done.length % 256 + 1) % 256 = (done ++ [(r, v)]).length % 256 := by simp
        have e2 : ({ edrxStored (done ++ [(r, v)]) with count := (done.length % 256 + 1) % 256 } : EdrxList) =
            edrxStored (done ++ [(r, v)]) := by
          rw [e1]; rfl
        rw [e1] at e2 ⊢
        simp only [e2]
        simpa using this
      · rw [if_neg hc]
        have hov := edrxOverrun_append _ (edrxEntries ms) ((edrxOverrun_snoc done r v hd).mpr hc)
        exact ⟨fun _ => rfl, fun h => absurd hov h⟩

/-- C48, the exact law: for every answer with at most 256 entries.  The entries are those of the lines up to the first one that is
not readable; the query writes outside the caller's list exactly if an entry beyond the fourth has a legal value; otherwise the
first four are stored, with 0 for what is not legal, and the number of all is reported (modulo 256); the result is success exactly
if every line is readable. -/
theorem C48_exact (lm : Nat) (ls : List Str) (hne : ls ≠ []) (ms : List EdrxMeaning) (h : List.Forall₂ (EdrxReads lm) ls ms)
    (hlen : (edrxEntries ms).length ≤ 256) :
    (edrxOverrun (edrxEntries ms) → recvEdrx lm ls EdrxList.zero = none) ∧
    (¬ edrxOverrun (edrxEntries ms) → recvEdrx lm ls EdrxList.zero =
      some (if .unreadable ∈ ms then .badParam else .ok, edrxStored (edrxEntries ms))) := by
  have := edrxLoop_exact lm h [] (by simp [edrxOverrun]) (by simpa using hlen)
  have e : recvEdrx lm ls EdrxList.zero = recvEdrxLoop lm ls 0 EdrxList.zero := by
    cases ls with
    | nil => exact absurd rfl hne
    | cons => rfl
  rw [e, show EdrxList.zero = edrxStored [] from rfl]
  simpa using this

theorem first_colon {line : Str} (h : (58 : Byte) ∈ line) : ∃ pre body : Str, line = pre ++ 58 :: body ∧ (58 : Byte) ∉ pre := by
  induction line with
  | nil => cases h
  | cons a t ih =>
    by_cases ha : a = 58
    · exact ⟨[], t, by rw [ha]; rfl, by simp⟩
    · have : (58 : Byte) ∈ t := by
        rcases List.mem_cons.mp h with h | h
        · exact absurd h.symm ha
        · exact h
      obtain ⟨pre, body, rfl, hp⟩ := ih this
      refine ⟨a :: pre, body, rfl, ?_⟩
      intro hm
      rcases List.mem_cons.mp hm with h | h
      · exact ha h.symm
      · exact hp h

theorem colon_unique {p q b c : Str} (hp : (58 : Byte) ∉ p) (hq : (58 : Byte) ∉ q) (h : p ++ 58 :: b = q ++ 58 :: c) :
    p = q ∧ b = c := by
  induction p generalizing q with
  | nil =>
    cases q with
    | nil => simpa using h
    | cons a q => simp only [List.nil_append, List.cons_append, List.cons.injEq] at h; exact absurd (by rw [← h.1]; simp) hq
  | cons a p ih =>
    cases q with
    | nil => simp only [List.nil_append, List.cons_append, List.cons.injEq] at h; exact absurd (by rw [h.1]; simp) hp
    | cons d q =>
      simp only [List.cons_append, List.cons.injEq] at h
      obtain ⟨rfl, h⟩ := h
      obtain ⟨rfl, rfl⟩ := ih (fun h => hp (List.mem_cons_of_mem _ h)) (fun h => hq (List.mem_cons_of_mem _ h)) h
      exact ⟨rfl, rfl⟩

/-- Every line has exactly one meaning. -/
theorem C48_meaning (lm : Nat) (line : Str) : ∃ m, EdrxReads lm line m ∧ ∀ m', EdrxReads lm line m' → m' = m := by
  by_cases hs : NothingSet line
  · exact ⟨.unset, .unset hs, fun m' h => by cases h <;> first | rfl | contradiction⟩
  by_cases hl : 256 < line.length
  · refine ⟨.unreadable, .long hs hl, fun m' h => ?_⟩
    cases h <;> first | rfl | contradiction | omega
  by_cases hc : (58 : Byte) ∈ line
  swap
  · refine ⟨.unreadable, .noColon hs hc, fun m' h => ?_⟩
    cases h <;> first | rfl | contradiction | (exfalso; exact hc (by simp))
  obtain ⟨pre, body, rfl, hpre⟩ := first_colon hc
  have hl' : (pre ++ 58 :: body).length ≤ 256 := by omega
  by_cases hq : ∀ b ∈ body, b = 34
  · refine ⟨.unreadable, .noText hs hpre hl' hq, fun m' h => ?_⟩
    have hnil : body.filter (· ≠ 34) = [] := by
      rw [List.filter_eq_nil_iff]; intro b hb; simp [hq b hb]
    generalize hL : pre ++ 58 :: body = L at h
    cases h with
    | unset h => rw [← hL] at h; contradiction
    | long | noColon | noText => rfl
    | one _ hp _ hf | more _ hp _ hf =>
      obtain ⟨rfl, rfl⟩ := colon_unique hpre hp hL
      rw [hnil, reportedFields_nil] at hf; cases hf
  have hne : body.filter (· ≠ 34) ≠ [] := by
    intro e
    rw [List.filter_eq_nil_iff] at e
    exact hq (fun b hb => by simpa using e b hb)
  have hfields := reportedFields_cons _ hne
  obtain ⟨f, fs, hfields⟩ : ∃ f fs, reportedFields (body.filter (· ≠ 34)) = f :: fs := ⟨_, _, hfields⟩
  obtain ⟨z, hz⟩ := C08_every_text 10 f
  cases fs with
  | nil =>
    refine ⟨_, .one hs hpre hl' hfields hz, fun m' h => ?_⟩
    generalize hL : pre ++ 58 :: body = L at h
    cases h with
    | unset h => rw [← hL] at h; contradiction
    | long _ h => rw [← hL] at h; omega
    | noColon _ h => rw [← hL] at h; contradiction
    | noText _ hp _ h => obtain ⟨rfl, rfl⟩ := colon_unique hpre hp hL; contradiction
    | one _ hp _ hf hz' =>
      obtain ⟨rfl, rfl⟩ := colon_unique hpre hp hL
      rw [hfields] at hf; cases hf
      rw [C08_one_number 10 (by omega) hz hz']
    | more _ hp _ hf =>
      obtain ⟨rfl, rfl⟩ := colon_unique hpre hp hL
      rw [hfields] at hf; cases hf
  | cons g fs =>
    obtain ⟨y, hy⟩ := C08_every_text 2 g
    refine ⟨_, .more hs hpre hl' hfields hz hy, fun m' h => ?_⟩
    generalize hL : pre ++ 58 :: body = L at h
    cases h with
    | unset h => rw [← hL] at h; contradiction
    | long _ h => rw [← hL] at h; omega
    | noColon _ h => rw [← hL] at h; contradiction
    | noText _ hp _ h => obtain ⟨rfl, rfl⟩ := colon_unique hpre hp hL; contradiction
    | one _ hp _ hf hz' =>
      obtain ⟨rfl, rfl⟩ := colon_unique hpre hp hL
      rw [hfields] at hf; cases hf
    | more _ hp _ hf hz' hy' =>
      obtain ⟨rfl, rfl⟩ := colon_unique hpre hp hL
      rw [hfields] at hf; cases hf
      rw [C08_one_number 10 (by omega) hz hz', C08_one_number 2 (by omega) hy hy']

/-! ## The laws are met by real answers -/

theorem numDigit {base : Nat} (hb : base ≠ 16) (b : Byte) (d : Nat) (h : digit? b = some d) (hd : d < base) :
    TextNumber base [b] (some (d : Int)) := textNumber_numeral hb (.one h hd)

/-- A numeric operator, then an illegal access technology: the operator is stored, the query fails. -/
example : (∃ fs, Numbered 10 fs ∧ fs.map Prod.fst = reportedFields (bareText (str " 0,2,\"26201\",77")) ∧
      copsResult (2 ^ 31 - 1) 0 fs OpInfo.zero = (⟨str "262", str "01", 0, 0, 2, []⟩, false)) ∧
    recvCops (2 ^ 31 - 1) [str "+COPS: 0,2,\"26201\",77"] OpInfo.zero = (.failure, ⟨str "262", str "01", 0, 0, 2, []⟩) := by
  refine ⟨⟨[([48], some 0), ([50], some 2), (str "26201", some 26201), (str "77", some 77)], ?_, by decide +kernel, by decide +kernel⟩,
    by decide +kernel⟩
  intro f hf
  simp only [List.mem_cons, List.not_mem_nil, or_false] at hf
  rcases hf with rfl | rfl | rfl | rfl
  · exact numDigit (by decide) _ 0 (by decide) (by decide)
  · exact numDigit (by decide) _ 2 (by decide) (by decide)
  · exact textNumber_numeral (by decide) (.snoc (v := 2620) (d := 1) (s := str "2620") (.snoc (v := 262) (d := 0) (s := str "262")
      (.snoc (v := 26) (d := 2) (s := str "26") (.snoc (v := 2) (d := 6) (s := [50]) (.one (by decide) (by decide)) (by decide)
        (by decide)) (by decide) (by decide)) (by decide) (by decide)) (by decide) (by decide))
  · exact textNumber_numeral (by decide) (.snoc (v := 7) (d := 7) (s := [55]) (.one (by decide) (by decide)) (by decide) (by decide))

example : recvSimLock [str "+CPIN: READY"] .unknown = (.ok, .ready) ∧ recvSimLock [str "+CPIN: SIM PIN"] .ready = (.ok, .unknown) ∧
    recvSimLock [str "+CPIN: "] .ready = (.badParam, .ready) := by decide +kernel

example : recvIp [str "+CGPADDR: 1,10.0.0.1"] 6 (List.replicate 8 7) =
    some (.ok, [49, 48, 46, 48, 46, 48] ++ [7, 7]) := by decide +kernel

/-- Two entries; the cycle of the second is illegal. -/
example : List.Forall₂ (EdrxReads (2 ^ 31 - 1)) [str "+CEDRXS: 0", str "+CEDRXS: 4,\"101\"", str "+CEDRXS:5,\"x\",9"]
      [.unset, .entry (some 4) (some 5), .entry (some 5) none] ∧
    recvEdrx (2 ^ 31 - 1) [str "+CEDRXS: 0", str "+CEDRXS: 4,\"101\"", str "+CEDRXS:5,\"x\",9"] EdrxList.zero =
      some (.ok, ⟨[⟨4, 5⟩, ⟨5, 0⟩, ⟨0, 0⟩, ⟨0, 0⟩], 2⟩) := by
  refine ⟨.cons (.unset (Or.inl rfl)) (.cons ?_ (.cons ?_ .nil)), by decide +kernel⟩
  · exact .more (pre := str "+CEDRXS") (body := str " 4,\"101\"") (f := str " 4") (g := str "101") (fs := [])
      (z := some 4) (y := some 5) (by unfold NothingSet; decide +kernel) (by decide +kernel) (by decide +kernel) (by decide +kernel)
      (TextNumber.number (ws := [32]) (sg := []) (s := [52]) (rest := []) (neg := false) (v := 4) (by simp [White]) .none
        (.one (by decide) (by decide)) (by intro b hb; cases hb) (by simp))
      (textNumber_numeral (by decide) (.snoc (v := 2) (d := 1) (s := str "10") (.snoc (v := 1) (d := 0) (s := [49])
        (.one (by decide) (by decide)) (by decide) (by decide)) (by decide) (by decide)))
  · exact .more (pre := str "+CEDRXS") (body := str "5,\"x\",9") (f := str "5") (g := str "x") (fs := [str "9"])
      (z := some 5) (y := none) (by unfold NothingSet; decide +kernel) (by decide +kernel) (by decide +kernel) (by decide +kernel)
      (numDigit (by decide) _ 5 (by decide) (by decide))
      (TextNumber.none (ws := []) (sg := []) (rest := str "x") (neg := false) (by simp) .none
        (by intro b hb d hd; revert hd; revert hb; simp [str]; rintro rfl hd; rw [show digit? 120 = some 33 by decide] at hd; cases hd; decide) (by simp [White]; decide))

/-- Five entries overrun the caller's list. -/
example : edrxOverrun [(some 1, none), (none, none), (some 2, none), (some 3, none), (none, some 1)] ∧
    ¬ edrxOverrun [(some 1, none), (none, none), (some 2, none), (some 3, none), (none, none)] ∧
    recvEdrx (2 ^ 31 - 1) (List.replicate 5 (str "+CEDRXS: 4,\"101\"")) EdrxList.zero = none := by
  refine ⟨⟨(none, some 1), by decide, by decide⟩, ?_, by decide +kernel⟩
  rintro ⟨e, he, hv⟩
  simp at he
  subst he
  simp at hv

end Cellular.Props
