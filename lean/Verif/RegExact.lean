import Verif.RegProps
import Verif.AtNumber
/-!
# The exact law of registration texts (C44)

What `_Cellular_ParseRegStatus` makes of every text: which fields are taken, what is stored, what is reported.
-/

namespace Cellular.Spec
open Cellular

/-- What a field of a registration text means (3GPP TS 27.007). -/
inductive Meaning | net | stat | area | cell | act | rac | rejType | rejCause
  deriving DecidableEq, Repr

/-- The fields of a report in order; an answer to a query begins with the report mode. -/
def meanings (urc : Bool) (t : Reg.RegType) : List Meaning :=
  (if urc then [] else [.net]) ++ [.stat, .area, .cell, .act] ++ (if t = .cgreg then [.rac] else []) ++ [.rejType, .rejCause]

/-- Area codes and cell ids are hexadecimal. -/
def Meaning.base : Meaning → Nat
  | .area | .cell | .rac => 16
  | _ => 10

/-- The largest legal value (cell ids: of an `int32_t`). -/
def Meaning.limit : Meaning → Nat
  | .stat => 8
  | .area => 65535
  | .cell => 2 ^ 31 - 1
  | .act => 9
  | _ => 255

/-- The value of a field that starts with the number `z`; `none`: not legal. The report mode is not looked at. -/
def fieldValue (lm : Nat) (m : Meaning) (z : Option Int) : Option Nat :=
  if m = .net then some 0
  else z.bind (fun z => if 0 ≤ asInt32 lm z ∧ asInt32 lm z ≤ m.limit then some (asInt32 lm z).toNat else none)

/-- The values of the fields `fs` with the meanings `ms`; fields without meaning do not count. -/
inductive RegValues (lm : Nat) : List Meaning → List Str → List (Meaning × Option Nat) → Prop
  | noMeaning (fs) : RegValues lm [] fs []
  | noField (ms) : RegValues lm ms [] []
  | field {m ms f fs z vs} : TextNumber m.base f z → RegValues lm ms fs vs →
      RegValues lm (m :: ms) (f :: fs) ((m, fieldValue lm m z) :: vs)

/-- The value taken for a meaning: its field is there, and it and all fields before it are legal. -/
def taken : List (Meaning × Option Nat) → Meaning → Option Nat
  | (m, some v) :: vs, m' => if m = m' then some v else taken vs m'
  | _, _ => none

/-- What is stored of an access technology: those the library knows. -/
def knownAct (v : Nat) : Nat := if v = 0 ∨ v = 3 ∨ v = 7 ∨ v = 8 ∨ v = 9 then v else 255

/-- The record after a text of type `t` of which the values `v` are taken. -/
def regRecord (t : Reg.RegType) (v : Meaning → Option Nat) (d : Reg.AtData) : Reg.AtData :=
  -- a status other than 1 (home) and 5 (roaming) clears the location
  let lost : Bool := match v .stat with | some s => s != 1 && s != 5 | none => false
  let cs := if t = .creg then (v .stat).getD d.cs else d.cs
  let ps := if t = .creg then d.ps else (v .stat).getD d.ps
  { cs := cs
    ps := ps
    lac := (if t = .cereg then none else v .area).getD (if lost then 65535 else d.lac)
    tac := (if t = .cereg then v .area else none).getD d.tac
    cellId := (v .cell).getD (if lost then 4294967295 else d.cellId)
    rat := ((v .act).map knownAct).getD (if lost then 255 else d.rat)
    rac := (v .rac).getD (if lost then 255 else d.rac)
    csRejType := (if t = .creg ∧ cs = 3 then v .rejType else none).getD d.csRejType
    csRejCause := (if t = .creg ∧ cs = 3 then v .rejCause else none).getD d.csRejCause
    psRejType := (if t ≠ .creg ∧ ps = 3 then v .rejType else none).getD d.psRejType
    psRejCause := (if t ≠ .creg ∧ ps = 3 then v .rejCause else none).getD d.psRejCause }

end Cellular.Spec

namespace Cellular.Props
open Cellular Spec Reg Tok RegLemmas Signal
open Cellular.AtCore (strtoi AtErr)

/-- What one legal field does. -/
def put (t : RegType) (m : Meaning) (v : Nat) (d : AtData) : AtData :=
  match m with
  | .net => d
  | .stat =>
    let d := if t = .creg then { d with cs := v } else { d with ps := v }
    if v = 1 ∨ v = 5 then d else clearLoc d
  | .area => if t = .cereg then { d with tac := v } else { d with lac := v }
  | .cell => { d with cellId := v }
  | .act => { d with rat := knownAct v }
  | .rac => { d with rac := v }
  | .rejType => if t = .creg then (if d.cs = 3 then { d with csRejType := v } else d)
      else (if d.ps = 3 then { d with psRejType := v } else d)
  | .rejCause => if t = .creg then (if d.cs = 3 then { d with csRejCause := v } else d)
      else (if d.ps = 3 then { d with psRejCause := v } else d)

/-- The position in the table of the code. -/
def posOf : Meaning → Pos
  | .net => .netReg | .stat => .stat | .area => .lacTac | .cell => .cellId | .act => .rat | .rac => .rac
  | .rejType => .rejType | .rejCause => .rejCause

theorem table_meanings (t : RegType) : table t = .none :: (meanings false t).map posOf := by cases t <;> rfl

theorem knownAct_eq (v : Nat) (d : AtData) :
    (if v = ratGsm ∨ v = ratEdge ∨ v = ratCatM1 ∨ v = ratNbIot then { d with rat := v }
      else if v = ratLte then { d with rat := ratLte }
      else { d with rat := ratInvalid }) = { d with rat := knownAct v } := by
  unfold knownAct
  have e1 : ratGsm = 0 := rfl
  have e2 : ratEdge = 3 := rfl
  have e3 : ratCatM1 = 8 := rfl
  have e4 : ratNbIot = 9 := rfl
  have e5 : ratLte = 7 := rfl
  have e6 : ratInvalid = 255 := rfl
  rw [e1, e2, e3, e4, e5, e6]
  by_cases h0 : v = 0
  · simp [h0]
  by_cases h3 : v = 3
  · simp [h3]
  by_cases h8 : v = 8
  · simp [h8]
  by_cases h9 : v = 9
  · simp [h9]
  by_cases h7 : v = 7
  · simp [h7]
  · simp [h0, h3, h7, h8, h9]

theorem field_none (lm base : Nat) (hb : 2 ≤ base) (tok : Str) (hz : TextNumber base tok none) (ok : Int → Bool)
    (store : Nat → AtData → AtData) (d : AtData) : field lm base tok ok store d = (translateAt .error, d) := by
  unfold field
  rw [C08_exact lm base hb hz]
  rfl

theorem field_some (lm base : Nat) (hb : 2 ≤ base) (tok : Str) (z : Int) (hz : TextNumber base tok (some z)) (ok : Int → Bool)
    (store : Nat → AtData → AtData) (d : AtData) :
    field lm base tok ok store d =
      if ok (asInt32 lm z) then (.ok, store (asInt32 lm z).toNat d) else (translateAt .error, d) := by
  unfold field
  rw [C08_exact lm base hb hz]
  rfl

theorem fieldValue_some (lm : Nat) (m : Meaning) (hm : m ≠ .net) (L : Nat) (hL : m.limit = L) (z : Int) :
    fieldValue lm m (some z) = if 0 ≤ asInt32 lm z ∧ asInt32 lm z ≤ L then some (asInt32 lm z).toNat else none := by
  subst hL
  simp [fieldValue, hm]

/-- One field: taken if legal, otherwise refused without effect. -/
theorem parsePos_exact (lm : Nat) (t : RegType) (m : Meaning) (tok : Str) {z : Option Int} (hz : TextNumber m.base tok z)
    (d : AtData) :
    parsePos lm (posOf m) t tok d =
      match fieldValue lm m z with
      | some v => (.ok, put t m v d)
      | none => (translateAt .error, d) := by
  have hlt : ∀ z : Int, asInt32 lm z ≤ 2 ^ 31 - 1 := by
    intro z
    have := Int.bmod_lt (x := clampLong lm z) (m := 2 ^ 32) (by omega)
    unfold asInt32; omega
  cases m with
  | net => rfl
  | stat =>
    simp only [parsePos, posOf, parseStat]
    cases z with
    | none => rw [field_none lm 10 (by omega) tok hz]; rfl
    | some z =>
      rw [field_some lm 10 (by omega) tok z hz]
      rw [fieldValue_some lm .stat (by decide) (8) rfl z]
      have e : (stMax : Int) = 9 := rfl
      by_cases h : 0 ≤ asInt32 lm z ∧ asInt32 lm z ≤ (8 : Nat)
      · rw [if_pos (by rw [e]; simp; omega), if_pos h]
        simp only [put, stHome, stRoaming]
        congr 1
        by_cases h1 : (asInt32 lm z).toNat = 1 <;> by_cases h5 : (asInt32 lm z).toNat = 5 <;> simp [h1, h5]
      · rw [if_neg (by rw [e]; simp; omega), if_neg h]
  | area =>
    simp only [parsePos, posOf, parseLacTac]
    cases z with
    | none => rw [field_none lm 16 (by omega) tok hz]; rfl
    | some z =>
      rw [field_some lm 16 (by omega) tok z hz]
      rw [fieldValue_some lm .area (by decide) (65535) rfl z]
      by_cases h : 0 ≤ asInt32 lm z ∧ asInt32 lm z ≤ (65535 : Nat)
      · rw [if_pos (by simp; omega), if_pos h]
        cases t <;> simp [put]
      · rw [if_neg (by simp; omega), if_neg h]
  | cell =>
    simp only [parsePos, posOf, parseCellId]
    cases z with
    | none => rw [field_none lm 16 (by omega) tok hz]; rfl
    | some z =>
      rw [field_some lm 16 (by omega) tok z hz]
      rw [fieldValue_some lm .cell (by decide) (2 ^ 31 - 1) rfl z]
      have := hlt z
      by_cases h : 0 ≤ asInt32 lm z ∧ asInt32 lm z ≤ (2 ^ 31 - 1 : Nat)
      · rw [if_pos (by simp; omega), if_pos h]
        rfl
      · rw [if_neg (by simp; omega), if_neg h]
  | act =>
    simp only [parsePos, posOf, parseRat]
    cases z with
    | none => rw [field_none lm 10 (by omega) tok hz]; rfl
    | some z =>
      rw [field_some lm 10 (by omega) tok z hz]
      rw [fieldValue_some lm .act (by decide) (9) rfl z]
      have e : (ratMax : Int) = 10 := rfl
      by_cases h : 0 ≤ asInt32 lm z ∧ asInt32 lm z ≤ (9 : Nat)
      · rw [if_pos (by rw [e]; simp; omega), if_pos h]
        simp only [put, knownAct_eq]
      · rw [if_neg (by rw [e]; simp; omega), if_neg h]
  | rac =>
    simp only [parsePos, posOf, parseRac]
    cases z with
    | none => rw [field_none lm 16 (by omega) tok hz]; rfl
    | some z =>
      rw [field_some lm 16 (by omega) tok z hz]
      rw [fieldValue_some lm .rac (by decide) (255) rfl z]
      by_cases h : 0 ≤ asInt32 lm z ∧ asInt32 lm z ≤ (255 : Nat)
      · rw [if_pos (by simp; omega), if_pos h]
        rfl
      · rw [if_neg (by simp; omega), if_neg h]
  | rejType =>
    simp only [parsePos, posOf, parseRejType]
    cases z with
    | none => rw [field_none lm 10 (by omega) tok hz]; rfl
    | some z =>
      rw [field_some lm 10 (by omega) tok z hz]
      rw [fieldValue_some lm .rejType (by decide) (255) rfl z]
      by_cases h : 0 ≤ asInt32 lm z ∧ asInt32 lm z ≤ (255 : Nat)
      · rw [if_pos (by simp; omega), if_pos h]
        cases t <;> rfl
      · rw [if_neg (by simp; omega), if_neg h]
  | rejCause =>
    simp only [parsePos, posOf, parseRejCause]
    cases z with
    | none => rw [field_none lm 10 (by omega) tok hz]; rfl
    | some z =>
      rw [field_some lm 10 (by omega) tok z hz]
      rw [fieldValue_some lm .rejCause (by decide) (255) rfl z]
      by_cases h : 0 ≤ asInt32 lm z ∧ asInt32 lm z ≤ (255 : Nat)
      · rw [if_pos (by simp; omega), if_pos h]
        cases t <;> rfl
      · rw [if_neg (by simp; omega), if_neg h]

/-- The legal fields from the left. -/
def puts (t : RegType) : List (Meaning × Option Nat) → AtData → AtData
  | (m, some v) :: vs, d => puts t vs (put t m v d)
  | _, d => d

theorem run_beyond (lm : Nat) (t : RegType) : ∀ (fs : List Str) (i : Nat) (d : AtData), (table t).length ≤ i →
    run lm t i fs d = (.ok, d) := by
  intro fs
  induction fs with
  | nil => intro i d _; rfl
  | cons f fs ih =>
    intro i d hi
    have : parseField lm t i f d = (.ok, d) := by
      unfold parseField
      rw [List.getElem?_eq_none_iff.mpr hi]
    rw [run_ok this]
    exact ih _ _ (by omega)

theorem run_exact (lm : Nat) (t : RegType) : ∀ (ms : List Meaning) (fs : List Str) (vs : List (Meaning × Option Nat)) (i : Nat)
    (d : AtData), RegValues lm ms fs vs → (∀ k, (table t)[i + k]? = (ms[k]?).map posOf) →
    run lm t i fs d = (if vs.all (fun v => v.2.isSome) then .ok else .failure, puts t vs d) := by
  intro ms fs vs i d h
  induction h generalizing i d with
  | noMeaning fs =>
    intro ht
    have := ht 0
    simp at this
    simp [puts, run_beyond lm t fs i d this]
  | noField ms => intro _; simp [puts, run]
  | @field m ms f fs z vs hz _ ih =>
    intro ht
    have h0 := ht 0
    simp at h0
    have hp : parseField lm t i f d = parsePos lm (posOf m) t f d := by
      unfold parseField; rw [h0]
    rw [parsePos_exact lm t m f hz] at hp
    cases hv : fieldValue lm m z with
    | none =>
      rw [hv] at hp
      rw [run_err hp (by decide)]
      simp [puts]
      rfl
    | some v =>
      rw [hv] at hp
      rw [run_ok hp, ih (i + 1) _ (fun k => by rw [Nat.add_assoc, Nat.add_comm 1 k]; simpa using ht (k + 1))]
      simp only [puts, List.all_cons, Option.isSome_some, Bool.true_and]

/-- Different meanings, and only the report mode comes before the status. -/
def StatusFirst (ms : List Meaning) : Prop := ms.Pairwise (fun a b => a ≠ b ∧ (b = .stat → a = .net))

theorem meanings_statusFirst (urc : Bool) (t : RegType) : StatusFirst (meanings urc t) := by
  unfold StatusFirst; cases urc <;> cases t <;> decide

theorem values_sublist {lm : Nat} {ms : List Meaning} {fs : List Str} {vs : List (Meaning × Option Nat)}
    (h : RegValues lm ms fs vs) : List.Sublist (vs.map Prod.fst) ms := by
  induction h with
  | noMeaning => exact List.Sublist.slnil
  | noField ms => exact List.nil_sublist ms
  | field _ _ ih => exact ih.cons₂ _

theorem taken_absent {vs : List (Meaning × Option Nat)} {m : Meaning} (h : m ∉ vs.map Prod.fst) : taken vs m = none := by
  induction vs with
  | nil => rfl
  | cons x vs ih =>
    obtain ⟨m', v⟩ := x
    simp only [List.map_cons, List.mem_cons, not_or] at h
    cases v with
    | none => rfl
    | some v => simp only [taken, if_neg (Ne.symm h.1)]; exact ih h.2

theorem regRecord_nothing (t : RegType) (d : AtData) : regRecord t (fun _ => none) d = d := by
  cases t <;> simp [regRecord]

theorem put_record (t : RegType) (m : Meaning) (v : Nat) (w : Meaning → Option Nat) (d : AtData) (hm : w m = none)
    (hs : m ≠ .net → w .stat = none) (hv : m = .net → v = 0) :
    regRecord t w (put t m v d) = regRecord t (fun m' => if m = m' then some v else w m') d := by
  cases m with
  | net => rfl
  | stat =>
    simp only [regRecord, put, hm]
    by_cases h1 : v = 1
    · cases t <;> simp [h1]
    · by_cases h5 : v = 5
      · cases t <;> simp [h5]
      · cases t <;> simp [h1, h5, clearLoc, ratInvalid]
  | _ =>
    have hs := hs (by decide)
    cases t <;> simp [regRecord, put, hm, hs] <;> split <;> simp_all

theorem puts_record (t : RegType) (vs : List (Meaning × Option Nat)) (d : AtData) (h : StatusFirst (vs.map Prod.fst))
    (hn : ∀ v, (.net, some v) ∈ vs → v = 0) : puts t vs d = regRecord t (taken vs) d := by
  induction vs generalizing d with
  | nil => exact (regRecord_nothing t d).symm
  | cons x vs ih =>
    obtain ⟨m, v⟩ := x
    simp only [StatusFirst, List.map_cons, List.pairwise_cons] at h
    cases v with
    | none => exact (regRecord_nothing t d).symm
    | some v =>
      rw [puts, ih _ h.2 (fun v hv => hn v (List.mem_cons_of_mem _ hv))]
      have ha : taken vs m = none := taken_absent (fun hm => (h.1 _ hm).1 rfl)
      rw [put_record t m v _ d ha]
      · rfl
      · intro hm
        exact taken_absent (fun hs => hm ((h.1 _ hs).2 rfl))
      · intro e; subst e; exact hn v (by simp)

theorem values_net {lm : Nat} {ms : List Meaning} {fs : List Str} {vs : List (Meaning × Option Nat)}
    (h : RegValues lm ms fs vs) : ∀ v, (.net, some v) ∈ vs → v = 0 := by
  induction h with
  | noMeaning => simp
  | noField => simp
  | @field m ms f fs z vs hz _ ih =>
    intro v hv
    rcases List.mem_cons.mp hv with e | e
    · simp only [Prod.mk.injEq] at e
      obtain ⟨rfl, e⟩ := e
      simp [fieldValue] at e
      exact e
    · exact ih v e

/-- Every list of fields has values, and only one list of them. -/
theorem C44_values (lm : Nat) (ms : List Meaning) (fs : List Str) : ∃ vs, RegValues lm ms fs vs ∧ ∀ vs', RegValues lm ms fs vs' → vs' = vs := by
  induction ms generalizing fs with
  | nil => exact ⟨[], .noMeaning fs, fun vs' h => by cases h <;> rfl⟩
  | cons m ms ih =>
    cases fs with
    | nil => exact ⟨[], .noField _, fun vs' h => by cases h; rfl⟩
    | cons f fs =>
      obtain ⟨z, hz⟩ := C08_every_text m.base f
      obtain ⟨vs, hv, hu⟩ := ih fs
      refine ⟨_, .field hz hv, fun vs' h => ?_⟩
      cases h with
      | @field _ _ _ _ z' vs' hz' hv' =>
        rw [hu _ hv', C08_one_number m.base (by cases m <;> decide) hz' hz]

/-- C44, the exact law: for every registration text of at most 256 characters, URC or answer.  After quotes and white space are
removed, the text is cut at the commas (an empty field at the end does not count); the fields are taken from the left as long as
they are legal, those without a meaning are ignored; the record gets the values taken; the result is success exactly if all fields
with a meaning are legal; and the registration callback, if there is one, is called once - with the record - exactly if the
status of the text's domain changed, whether or not a later field was refused. -/
theorem C44_exact (lm : Nat) (cb urc : Bool) (t : RegType) (s : Str) (d : AtData) (vs : List (Meaning × Option Nat))
    (hl : s.length ≤ 256) (hne : ∃ b ∈ s, ¬ White b ∧ b ≠ 34)
    (hv : RegValues lm (meanings urc t) (reportedFields (s.filter (fun b => decide (¬ White b ∧ b ≠ 34)))) vs) :
    let d' := regRecord t (taken vs) d
    parseRegStatus lm cb (some s) urc t d =
      { status := if vs.all (fun v => v.2.isSome) then .ok else .failure
        data := d'
        events := if cb = true ∧ (if t = .creg then d'.cs ≠ d.cs else d'.ps ≠ d.ps) then
            [{ csDomain := decide (t = .creg)
               info := { rat := d'.rat, cs := d'.cs, ps := d'.ps, csRejCause := d'.csRejCause, csRejType := d'.csRejType,
                         psRejCause := d'.psRejCause, psRejType := d'.psRejType } }]
          else [] } := by
  have hcl : s.filter (fun b => decide (¬ White b ∧ b ≠ 34)) = clean s := by
    unfold clean
    rw [List.filter_filter]
    congr 1; funext b
    have := isSpace_iff b
    by_cases hw : White b <;> by_cases hb : b = 34 <;> simp_all
  have hne' : clean s ≠ [] := by
    obtain ⟨b, hb, hb'⟩ := hne
    rw [← hcl]
    intro e
    have : b ∈ s.filter (fun b => decide (¬ White b ∧ b ≠ 34)) := List.mem_filter.mpr ⟨hb, by simpa using hb'⟩
    rw [e] at this
    simp at this
  rw [hcl] at hv
  have ht : ∀ k, (table t)[(if urc then 2 else 1) + k]? = ((meanings urc t)[k]?).map posOf := by
    intro k
    rw [table_meanings, ← List.getElem?_map]
    cases urc
    · rw [Nat.add_comm]; simp
    · rw [show meanings false t = .net :: meanings true t by cases t <;> rfl, Nat.add_comm]
      simp
  have hr := run_exact lm t _ _ vs (if urc then 2 else 1) d hv ht
  rw [puts_record t vs d ((meanings_statusFirst urc t).sublist (values_sublist hv)) (values_net hv)] at hr
  intro d'
  rw [parse_eq lm cb s urc t d hl hne', hr]
  simp only [Out.mk.injEq, true_and]
  have hb : (t == RegType.creg) = decide (t = RegType.creg) := by cases t <;> rfl
  cases t <;> cases cb <;> simp [eventChanged, genEvent, d', bne] <;> (split <;> simp_all)

/-- Texts that are too long or empty change nothing and are refused. -/
theorem C44_refused_text (lm : Nat) (cb urc : Bool) (t : RegType) (s : Str) (d : AtData)
    (h : 256 < s.length ∨ ∀ b ∈ s, White b ∨ b = 34) :
    (parseRegStatus lm cb (some s) urc t d).data = d ∧ (parseRegStatus lm cb (some s) urc t d).events = [] ∧
    (parseRegStatus lm cb (some s) urc t d).status ≠ .ok := by
  rcases parse_cases lm cb (some s) urc t d with h1 | ⟨s', e, hl, hne⟩
  · exact h1
  · cases e
    exfalso
    rcases h with h | h
    · omega
    · apply hne
      unfold clean
      rw [List.filter_filter, List.filter_eq_nil_iff]
      intro b hb
      have := isSpace_iff b
      rcases h b hb with e | e <;> simp_all

/-- The law applied: a report with an illegal area code; the status is taken (and the location cleared), the fields after
the area code are not. -/
example : ∃ vs, RegValues (2 ^ 63 - 1) (meanings true .creg) (reportedFields ((str "2,\"-1\",\"A\"").filter
      (fun b => decide (¬ White b ∧ b ≠ 34)))) vs ∧ vs.map Prod.snd = [some 2, none, some 10] ∧
    taken vs .stat = some 2 ∧ taken vs .cell = none := by
  have e : reportedFields ((str "2,\"-1\",\"A\"").filter (fun b => decide (¬ White b ∧ b ≠ 34))) =
      [[50], [45, 49], [65]] := by decide +kernel
  have n1 : TextNumber 10 [50] (some 2) :=
    TextNumber.number (base := 10) (ws := []) (sg := []) (s := [50]) (rest := []) (neg := false) (v := 2) (by simp) .none
      (.one (by decide) (by decide)) (by intro b hb; simp at hb) (by simp)
  have n2 : TextNumber 16 [45, 49] (some (-1)) :=
    TextNumber.number (base := 16) (ws := []) (sg := [45]) (s := [49]) (rest := []) (neg := true) (v := 1) (by simp) .minus
      (.one (by decide) (by decide)) (by intro b hb; simp at hb) (by simp)
  have n3 : TextNumber 16 [65] (some 10) :=
    TextNumber.number (base := 16) (ws := []) (sg := []) (s := [65]) (rest := []) (neg := false) (v := 10) (by simp) .none
      (.one (by decide) (by decide)) (by intro b hb; simp at hb) (by simp)
  have h : RegValues (2 ^ 63 - 1) (meanings true .creg) [[50], [45, 49], [65]] _ :=
    .field n1 (.field n2 (.field n3 (.noField _)))
  rw [e]
  exact ⟨_, h, by decide +kernel, by decide +kernel, by decide +kernel⟩

example : (parseRegStatus (2 ^ 63 - 1) true (some (str "2,\"-1\",\"A\"")) true .creg { initAtData with cs := 1, cellId := 7 }) =
    ⟨.failure, initAtData, [⟨true, ⟨255, 2, 2, 0, 0, 0, 0⟩⟩]⟩ := by decide +kernel

end Cellular.Props
