import Verif.TokLemmas
import Verif.AtNumber
/-!
# C40-C44: registration texts

`lm` is `LONG_MAX` (at least 2^31-1); `cb` says whether a registration callback is registered.
-/

namespace Cellular.Spec
open Cellular

/-- The ranges of the stored registration record. -/
structure InRange (d : Reg.AtData) : Prop where
  cs : d.cs ≤ 8
  ps : d.ps ≤ 8
  lac : d.lac ≤ 65535
  tac : d.tac ≤ 65535
  rac : d.rac ≤ 255
  cellId : d.cellId < 2 ^ 32
  rat : d.rat = 0 ∨ d.rat = 3 ∨ d.rat = 7 ∨ d.rat = 8 ∨ d.rat = 9 ∨ d.rat = 255
  csRejType : d.csRejType ≤ 255
  csRejCause : d.csRejCause ≤ 255
  psRejType : d.psRejType ≤ 255
  psRejCause : d.psRejCause ≤ 255

/-- The registration record holds no location: LAC, cell id, RAC and RAT are the invalid values. -/
def NoLocation (d : Reg.AtData) : Prop :=
  d.lac = 0xFFFF ∧ d.cellId = 0xFFFFFFFF ∧ d.rac = 0xFF ∧ d.rat = 255

/-- Base and largest allowed value of the k-th field after `<stat>` included (k = 0 is `<stat>`) of a
registration text of each kind (3GPP TS 27.007 7.2, 10.1.20, 10.1.22); `none` for the cell id, whose
only limit is 31 bits, and for fields that are not read. -/
def fieldLimit (t : Reg.RegType) (k : Nat) : Option (Nat × Nat) :=
  match k with
  | 0 => some (10, 8)
  | 1 => some (16, 65535)
  | 3 => some (10, 9)
  | 4 => if t = .cgreg then some (16, 255) else some (10, 255)
  | 5 => some (10, 255)
  | 6 => if t = .cgreg then some (10, 255) else none
  | _ => none

end Cellular.Spec

namespace Cellular.RegLemmas
open Cellular Spec Props Reg Tok Signal
open Cellular.AtCore (strtoi AtErr)
open Cellular.AtStr

/-- The loop, on a list of tokens. -/
def run (lm : Nat) (t : RegType) (i : Nat) : List Str → AtData → PktStatus × AtData
  | [], d => (.ok, d)
  | tok :: ts, d =>
    match parseField lm t i tok d with
    | (.ok, d) => run lm t (i + 1) ts d
    | (e, d) => (e, d)

theorem getNextTok_nil : getNextTok ([] : Str) = (.badParameter, [], none) := by decide

theorem getNextTok_cons (s : Str) (hne : s ≠ []) (hl : s.length ≤ 256) :
    getNextTok s = (.success, (s.dropWhile (fun b => b != 44)).drop 1,
      some (s.takeWhile (fun b => b != 44))) := by
  unfold getNextTok getTok
  rw [if_pos ((valid_iff s).mpr ⟨hne, hl⟩)]

theorem drop_len (s : Str) : ((s.dropWhile (fun b => b != (44 : Byte))).drop 1).length ≤ s.length := by
  have h0 := congrArg List.length
    (List.takeWhile_append_dropWhile (p := fun b => b != (44 : Byte)) (l := s))
  rw [List.length_append] at h0
  simp; omega

theorem run_ok {lm t i tok ts d d'} (h : parseField lm t i tok d = (.ok, d')) :
    run lm t i (tok :: ts) d = run lm t (i + 1) ts d' := by
  rw [run, h]

theorem run_err {lm t i tok ts d e d'} (h : parseField lm t i tok d = (e, d')) (he : e ≠ .ok) :
    run lm t i (tok :: ts) d = (e, d') := by
  rw [run, h]; cases e <;> first | rfl | exact absurd rfl he

theorem loop_nil {lm t i tok d d'} (h : parseField lm t i tok d = (.ok, d')) :
    loop lm t i tok [] d = (.ok, d') := by
  rw [loop, h]; simp [getNextTok_nil]

theorem loop_err {lm t i tok rest d e d'} (h : parseField lm t i tok d = (e, d')) (he : e ≠ .ok) :
    loop lm t i tok rest d = (e, d') := by
  rw [loop, h]; cases e <;> first | rfl | exact absurd rfl he

theorem loop_ok {lm t i tok rest d d' rest' tok'} (h : parseField lm t i tok d = (.ok, d'))
    (hg : getNextTok rest = (.success, rest', some tok')) :
    loop lm t i tok rest d = loop lm t (i + 1) tok' rest' d' := by
  rw [loop, h]
  simp only
  split
  · rename_i r1 t1 heq
    rw [hg] at heq
    simp only [Prod.mk.injEq, true_and, Option.some.injEq] at heq
    rw [heq.1, heq.2]
  · rename_i hcontra
    exact absurd hg (hcontra _ _)

theorem loop_eq_run (lm : Nat) (t : RegType) (n : Nat) : ∀ (i : Nat) (tok rest : Str) (d : AtData),
    rest.length ≤ n → rest.length ≤ 256 →
    loop lm t i tok rest d = run lm t i (tok :: reportedFields rest) d := by
  have hnil : ∀ (i : Nat) (tok : Str) (d : AtData),
      loop lm t i tok [] d = run lm t i (tok :: reportedFields []) d := by
    intro i tok d
    cases hp : parseField lm t i tok d with
    | mk e d' =>
      by_cases he : e = .ok
      · subst he; rw [loop_nil hp, run_ok hp, reportedFields_nil]; rfl
      · rw [loop_err hp he, run_err hp he]
  induction n with
  | zero =>
    intro i tok rest d h _
    have : rest = [] := by simpa using h
    subst this
    exact hnil i tok d
  | succ n ih =>
    intro i tok rest d h h2
    by_cases hne : rest = []
    · subst hne; exact hnil i tok d
    · cases hp : parseField lm t i tok d with
      | mk e d' =>
        by_cases he : e = .ok
        · subst he
          have hg := getNextTok_cons rest hne h2
          have hlt := getNextTok_rest_lt _ _ _ hg
          rw [loop_ok hp hg, run_ok hp, reportedFields_cons rest hne]
          exact ih _ _ _ _ (by omega) (by have := drop_len rest; omega)
        · rw [loop_err hp he, run_err hp he]

/-- The text without quotes and white space. -/
def clean (s : Str) : Str := (s.filter (fun b => !(b == 34))).filter (fun b => !isSpace b)

/-- The parser, as a function of the fields of the cleaned text. -/
theorem parse_eq (lm : Nat) (cb : Bool) (s : Str) (u : Bool) (t : RegType) (d : AtData)
    (hl : s.length ≤ 256) (hne : clean s ≠ []) :
    parseRegStatus lm cb (some s) u t d =
      let r := run lm t (if u then 2 else 1) (reportedFields (clean s)) d
      ⟨r.1, r.2, if eventChanged r.2 t d.cs d.ps then genEvent cb t r.2 else []⟩ := by
  have hl1 : (s.filter (fun b => !(b == 34))).length ≤ 256 :=
    Nat.le_trans (List.length_filter_le _ _) hl
  have hl2 : (clean s).length ≤ 256 := Nat.le_trans (List.length_filter_le _ _) hl1
  have hne1 : s.filter (fun b => !(b == 34)) ≠ [] := by
    intro e; unfold clean at hne; rw [e] at hne; exact hne rfl
  have hne0 : s ≠ [] := by intro e; subst e; exact hne1 rfl
  have e1 : removeAllDoubleQuote s = (.success, s.filter (fun b => !(b == 34))) := by
    unfold removeAllDoubleQuote; rw [if_pos ((valid_iff s).mpr ⟨hne0, hl⟩)]
  have e2 : removeAllWhiteSpaces (s.filter (fun b => !(b == 34))) = (.success, clean s) := by
    unfold removeAllWhiteSpaces; rw [if_pos ((valid_iff _).mpr ⟨hne1, hl1⟩)]; rfl
  have e3 := getNextTok_cons (clean s) hne hl2
  unfold parseRegStatus
  simp only [e1, e2, e3]
  rw [loop_eq_run lm t _ _ _ _ _ (Nat.le_refl _) (by have := drop_len (clean s); omega),
    ← reportedFields_cons _ hne]

/-- Every call either leaves everything unchanged or runs over the fields. -/
theorem parse_cases (lm : Nat) (cb : Bool) (p : Option Str) (u : Bool) (t : RegType) (d : AtData) :
    ((parseRegStatus lm cb p u t d).data = d ∧ (parseRegStatus lm cb p u t d).events = [] ∧
      (parseRegStatus lm cb p u t d).status ≠ .ok) ∨
    ∃ s, p = some s ∧ s.length ≤ 256 ∧ clean s ≠ [] := by
  cases p with
  | none => exact Or.inl ⟨rfl, rfl, by simp [parseRegStatus]⟩
  | some s =>
    by_cases hl : s.length ≤ 256
    · by_cases hne : clean s = []
      · left
        unfold parseRegStatus
        have hcase : ∀ x : Str, x.length ≤ 256 →
            removeAllDoubleQuote x = (.success, x.filter (fun b => !(b == 34))) ∨
            removeAllDoubleQuote x = (.badParameter, x) := by
          intro x _; unfold removeAllDoubleQuote; split <;> simp
        rcases hcase s hl with h | h
        · simp only [h]
          have hcase2 : removeAllWhiteSpaces (s.filter (fun b => !(b == 34))) = (.success, []) ∨
              removeAllWhiteSpaces (s.filter (fun b => !(b == 34))) =
                (.badParameter, s.filter (fun b => !(b == 34))) := by
            unfold removeAllWhiteSpaces
            split
            · left; rw [← hne]; rfl
            · right; rfl
          rcases hcase2 with h2 | h2
          · simp only [h2, getNextTok_nil]; exact ⟨trivial, trivial, by decide⟩
          · simp only [h2]; exact ⟨trivial, trivial, by decide⟩
        · simp only [h]; exact ⟨trivial, trivial, by decide⟩
      · exact Or.inr ⟨s, rfl, hl, hne⟩
    · left
      have hv : valid s = false := by
        cases h : valid s
        · rfl
        · exact absurd ((valid_iff s).mp h).2 hl
      unfold parseRegStatus removeAllDoubleQuote
      simp only [hv, Bool.false_eq_true, if_false]
      exact ⟨trivial, trivial, by decide⟩

/-- Any property preserved by each field is preserved by the parser. -/
theorem run_ind (lm : Nat) (t : RegType) (P : AtData → Prop)
    (h : ∀ i tok d, P d → P (parseField lm t i tok d).2) (ts : List Str) :
    ∀ i d, P d → P (run lm t i ts d).2 := by
  induction ts with
  | nil => intro i d hd; exact hd
  | cons tok ts ih =>
    intro i d hd
    have h1 := h i tok d hd
    rw [run]
    split
    · rename_i d' heq; rw [heq] at h1; exact ih _ _ h1
    · rename_i e d' _ heq; rw [heq] at h1; exact h1

theorem parse_ind (lm : Nat) (cb : Bool) (p : Option Str) (u : Bool) (t : RegType)
    (P : AtData → Prop) (h : ∀ i tok d, P d → P (parseField lm t i tok d).2) (d : AtData)
    (hd : P d) : P (parseRegStatus lm cb p u t d).data := by
  rcases parse_cases lm cb p u t d with h1 | ⟨s, rfl, hl, hne⟩
  · rw [h1.1]; exact hd
  · rw [parse_eq lm cb s u t d hl hne]
    exact run_ind lm t P h _ _ _ hd

theorem field_cases (lm base : Nat) (tok : Str) (ok : Int → Bool) (store : Nat → AtData → AtData)
    (d : AtData) :
    (∃ v, strtoi lm (some tok) base = (.success, some v) ∧ ok v = true ∧ v < 2 ^ 31 ∧
      field lm base tok ok store d = (.ok, store v.toNat d)) ∨
    ((field lm base tok ok store d).1 ≠ .ok ∧ (field lm base tok ok store d).2 = d) := by
  unfold field
  cases hs : strtoi lm (some tok) base with
  | mk e o =>
    rcases strtoi_success hs with ⟨rfl, v, rfl, h1, h2⟩ | ⟨rfl, rfl⟩
    · cases hok : ok v
      · right; simp [hok, translateAt]
      · left; exact ⟨v, rfl, hok, h2, by simp [hok]⟩
    · right; simp [translateAt]

end Cellular.RegLemmas

namespace Cellular.Props
open Cellular Spec Reg Tok RegLemmas Signal
open Cellular.AtCore (strtoi AtErr)

/-! ## C40 -/

theorem parseField_inRange (lm : Nat) (t : RegType) (i : Nat) (tok : Str) (d : AtData)
    (h : InRange d) : InRange (parseField lm t i tok d).2 := by
  have hcl : ∀ d, InRange d → InRange (clearLoc d) := by
    intro d h
    exact ⟨h.cs, h.ps, by simp [clearLoc], h.tac, by simp [clearLoc], by simp [clearLoc],
      by simp [clearLoc, ratInvalid], h.csRejType, h.csRejCause, h.psRejType, h.psRejCause⟩
  unfold parseField
  split
  · exact h
  · rename_i pos _
    cases pos with
    | none => exact h
    | netReg => exact h
    | stat =>
      rcases field_cases lm 10 tok (fun v => 0 ≤ v && v < (stMax : Int))
        (fun v d =>
          let d := if t = .creg then { d with cs := v } else { d with ps := v }
          if v = stHome then d else if v = stRoaming then d else clearLoc d) d with
        ⟨v, _, hok, _, e⟩ | ⟨_, e⟩
      · simp only [parsePos, parseStat, e]
        have hv : v.toNat ≤ 8 := by
          rw [show (stMax : Int) = 9 from rfl] at hok; simp at hok; omega
        have h1 : InRange (if t = .creg then { d with cs := v.toNat } else { d with ps := v.toNat }) := by
          split
          · exact { h with cs := hv }
          · exact { h with ps := hv }
        split
        · exact h1
        · split
          · exact h1
          · exact hcl _ h1
      · simp only [parsePos, parseStat, e]; exact h
    | lacTac =>
      rcases field_cases lm 16 tok (fun v => 0 ≤ v && v ≤ 65535)
        (fun v d => if t = .creg ∨ t = .cgreg then { d with lac := v } else { d with tac := v }) d with
        ⟨v, _, hok, _, e⟩ | ⟨_, e⟩
      · simp only [parsePos, parseLacTac, e]
        have hv : v.toNat ≤ 65535 := by simp at hok; omega
        split
        · exact { h with lac := hv }
        · exact { h with tac := hv }
      · simp only [parsePos, parseLacTac, e]; exact h
    | cellId =>
      rcases field_cases lm 16 tok (fun v => 0 ≤ v) (fun v d => { d with cellId := v }) d with
        ⟨v, _, hok, hlt, e⟩ | ⟨_, e⟩
      · simp only [parsePos, parseCellId, e]
        exact { h with cellId := by simp; omega }
      · simp only [parsePos, parseCellId, e]; exact h
    | rat =>
      rcases field_cases lm 10 tok (fun v => !(v ≥ (ratMax : Int) || v < 0))
        (fun v d =>
          if v = ratGsm ∨ v = ratEdge ∨ v = ratCatM1 ∨ v = ratNbIot then { d with rat := v }
          else if v = ratLte then { d with rat := ratLte }
          else { d with rat := ratInvalid }) d with
        ⟨v, _, hok, _, e⟩ | ⟨_, e⟩
      · simp only [parsePos, parseRat, e]
        split
        · rename_i hr
          exact { h with rat := by simp only [ratGsm, ratEdge, ratCatM1, ratNbIot] at hr; simp only; omega }
        · split
          · exact { h with rat := by simp [ratLte] }
          · exact { h with rat := by simp [ratInvalid] }
      · simp only [parsePos, parseRat, e]; exact h
    | rejType =>
      rcases field_cases lm 10 tok (fun v => 0 ≤ v && v ≤ 255)
        (fun v d =>
          if t = .cgreg ∨ t = .cereg then (if d.ps = stDenied then { d with psRejType := v } else d)
          else (if d.cs = stDenied then { d with csRejType := v } else d)) d with
        ⟨v, _, hok, _, e⟩ | ⟨_, e⟩
      · simp only [parsePos, parseRejType, e]
        have hv : v.toNat ≤ 255 := by simp at hok; omega
        split <;> split <;> first
          | exact h | exact { h with psRejType := hv } | exact { h with csRejType := hv }
      · simp only [parsePos, parseRejType, e]; exact h
    | rejCause =>
      rcases field_cases lm 10 tok (fun v => 0 ≤ v && v ≤ 255)
        (fun v d =>
          if t = .cgreg ∨ t = .cereg then (if d.ps = stDenied then { d with psRejCause := v } else d)
          else (if d.cs = stDenied then { d with csRejCause := v } else d)) d with
        ⟨v, _, hok, _, e⟩ | ⟨_, e⟩
      · simp only [parsePos, parseRejCause, e]
        have hv : v.toNat ≤ 255 := by simp at hok; omega
        split <;> split <;> first
          | exact h | exact { h with psRejCause := hv } | exact { h with csRejCause := hv }
      · simp only [parsePos, parseRejCause, e]; exact h
    | rac =>
      rcases field_cases lm 16 tok (fun v => 0 ≤ v && v ≤ 255) (fun v d => { d with rac := v }) d with
        ⟨v, _, hok, _, e⟩ | ⟨_, e⟩
      · simp only [parsePos, parseRac, e]
        exact { h with rac := by simp at hok ⊢; omega }
      · simp only [parsePos, parseRac, e]; exact h

/-- Whatever registration texts arrive (URCs or query answers, any order, any bytes), starting from
the initial record, every stored value stays in its range. -/
theorem C40_in_range (lm : Nat) (cb : Bool) (texts : List (Option Str × Bool × RegType)) :
    InRange (texts.foldl (fun d x => (parseRegStatus lm cb x.1 x.2.1 x.2.2 d).data) initAtData) := by
  have h0 : InRange initAtData := by constructor <;> decide
  generalize initAtData = d at h0
  induction texts generalizing d with
  | nil => exact h0
  | cons x xs ih =>
    exact ih _ (parse_ind lm cb x.1 x.2.1 x.2.2 InRange
      (fun i tok d h => parseField_inRange lm x.2.2 i tok d h) d h0)

example : parseRegStatus (2 ^ 63 - 1) true (some (str " 1,\"00C3\",\"1A2D\",8")) true .creg initAtData =
    ⟨.ok, { initAtData with cs := 1, lac := 0xC3, cellId := 0x1A2D, rat := 8 },
      [⟨true, ⟨8, 1, 2, 0, 0, 0, 0⟩⟩]⟩ := by decide +kernel

/-- A run over a text of fields stops at the first refused one. -/
theorem run_append (lm : Nat) (t : RegType) (pre : List Str) : ∀ (i : Nat) (post : List Str) (d : AtData),
    run lm t i (pre ++ post) d =
      if (run lm t i pre d).1 = .ok then run lm t (i + pre.length) post (run lm t i pre d).2
      else run lm t i pre d := by
  induction pre with
  | nil => intro i post d; simp [run]
  | cons f fs ih =>
    intro i post d
    cases hp : parseField lm t i f d with
    | mk e d' =>
      by_cases he : e = .ok
      · subst he
        rw [List.cons_append, run_ok hp, run_ok hp, ih]
        simp only [List.length_cons]
        rw [show i + 1 + fs.length = i + (fs.length + 1) by omega]
      · rw [List.cons_append, run_err hp he, run_err hp he]; simp [he]

theorem pf_net (lm t tok d) : parseField lm t 1 tok d = (.ok, d) := by cases t <;> rfl
theorem pf_stat (lm t tok d) : parseField lm t 2 tok d = parseStat lm t tok d := by cases t <;> rfl
theorem pf_lac (lm t tok d) : parseField lm t 3 tok d = parseLacTac lm t tok d := by cases t <;> rfl
theorem pf_cell (lm t tok d) : parseField lm t 4 tok d = parseCellId lm tok d := by cases t <;> rfl
theorem pf_rat (lm t tok d) : parseField lm t 5 tok d = parseRat lm tok d := by cases t <;> rfl
theorem pf_6 (lm t tok d) : parseField lm t 6 tok d =
    if t = .cgreg then parseRac lm tok d else parseRejType lm t tok d := by cases t <;> rfl
theorem pf_7 (lm t tok d) : parseField lm t 7 tok d =
    if t = .cgreg then parseRejType lm t tok d else parseRejCause lm t tok d := by cases t <;> rfl
theorem pf_8 (lm t tok d) : parseField lm t 8 tok d =
    if t = .cgreg then parseRejCause lm t tok d else (.ok, d) := by cases t <;> rfl

theorem parseField_refused (lm : Nat) (hlm : 2 ^ 31 - 1 ≤ lm) (t : RegType) (k base max : Nat)
    (hk : fieldLimit t k = some (base, max)) (s : Str) (v : Nat) (hs : Numeral base s v)
    (h1 : max < v) (h2 : v < 2 ^ 31) (d : AtData) :
    parseField lm t (k + 2) s d = (.failure, d) := by
  have e : ∀ ok store, ok (v : Int) = false → field lm base s ok store d = (.failure, d) := by
    intro ok store hok
    simp only [field, strtoi_numeral hlm hs h2, hok]
    rfl
  have e9 : (stMax : Int) = 9 := rfl
  have e10 : (ratMax : Int) = 10 := rfl
  unfold fieldLimit at hk
  split at hk
  · simp only [Option.some.injEq, Prod.mk.injEq] at hk; obtain ⟨rfl, rfl⟩ := hk
    rw [pf_stat]; refine e _ _ ?_; rw [e9]; simp; omega
  · simp only [Option.some.injEq, Prod.mk.injEq] at hk; obtain ⟨rfl, rfl⟩ := hk
    rw [pf_lac]; refine e _ _ ?_; simp; omega
  · simp only [Option.some.injEq, Prod.mk.injEq] at hk; obtain ⟨rfl, rfl⟩ := hk
    rw [pf_rat]; refine e _ _ ?_; rw [e10]; simp; omega
  · rw [pf_6]
    split at hk <;> simp only [Option.some.injEq, Prod.mk.injEq] at hk <;> obtain ⟨rfl, rfl⟩ := hk
    · rename_i ht; rw [if_pos ht]; refine e _ _ ?_; simp; omega
    · rename_i ht; rw [if_neg ht]; refine e _ _ ?_; simp; omega
  · simp only [Option.some.injEq, Prod.mk.injEq] at hk; obtain ⟨rfl, rfl⟩ := hk
    rw [pf_7]; split <;> (refine e _ _ ?_; simp; omega)
  · rw [pf_8]
    split at hk
    · simp only [Option.some.injEq, Prod.mk.injEq] at hk; obtain ⟨rfl, rfl⟩ := hk
      rename_i ht; rw [if_pos ht]; refine e _ _ ?_; simp; omega
    · simp at hk
  · simp at hk

theorem filter_join (fs : List Str) (h : ∀ f ∈ fs, Plain f) : Plain (joinComma fs) := by
  induction fs with
  | nil => intro b hb; simp [joinComma] at hb
  | cons f t ih =>
    cases t with
    | nil => exact h f (by simp)
    | cons g t =>
      intro b hb
      simp only [joinComma, List.mem_append, List.mem_cons] at hb
      rcases hb with hb | hb | hb
      · exact h f (by simp) b hb
      · subst hb; constructor <;> decide
      · exact ih (fun x hx => h x (by simp [hx])) b hb

theorem clean_plain {s : Str} (h : Plain s) : clean s = s := by
  unfold clean; rw [plain_noQuote h, plain_noSpace h]

/-- The parser on a text given by its fields. -/
theorem parse_fields (lm : Nat) (cb : Bool) (fs : List Str) (u : Bool) (t : RegType) (d : AtData)
    (s : Str) (hs : clean s = joinComma fs) (hl : s.length ≤ 256)
    (h1 : ∀ f ∈ fs, NoComma f) (h2 : fs ≠ []) (h3 : fs.getLast? ≠ some []) :
    parseRegStatus lm cb (some s) u t d =
      let r := run lm t (if u then 2 else 1) fs d
      ⟨r.1, r.2, if eventChanged r.2 t d.cs d.ps then genEvent cb t r.2 else []⟩ := by
  have hne := joinComma_ne_nil fs h2 h3
  rw [parse_eq lm cb s u t d hl (by rw [hs]; exact hne), hs, reported_join fs h1 h3]

/-- Refusal: whatever fields come before (`pre`) and after (`post`), a field whose value exceeds the
range documented for its position makes the URC fail, and the record is the one obtained from the
fields before it alone: the previous value of the refused field is kept and nothing after it is
stored.  MISSING for the full C40: values of 2^31 and more (see the witness below). -/
theorem C40_out_of_range_refused_partial (lm : Nat) (hlm : 2 ^ 31 - 1 ≤ lm) (cb : Bool) (t : RegType)
    (base max : Nat) (pre post : List Str) (s : Str) (v : Nat) (d : AtData)
    (hk : fieldLimit t pre.length = some (base, max)) (hs : Numeral base s v)
    (h1 : max < v) (h2 : v < 2 ^ 31)
    (hpre : ∀ f ∈ pre, Plain f ∧ NoComma f ∧ f ≠ []) (hpost : ∀ f ∈ post, Plain f ∧ NoComma f)
    (hlast : post.getLast? ≠ some [])
    (hlen : (joinComma (pre ++ s :: post)).length ≤ 256) :
    (urcProcess lm cb t (some (joinComma (pre ++ s :: post))) d).status ≠ .ok ∧
    (urcProcess lm cb t (some (joinComma (pre ++ s :: post))) d).data =
      (urcProcess lm cb t (some (joinComma pre)) d).data := by
  have hplain : ∀ f ∈ pre ++ s :: post, Plain f ∧ NoComma f := by
    intro f hf
    simp only [List.mem_append, List.mem_cons] at hf
    rcases hf with hf | rfl | hf
    · exact ⟨(hpre f hf).1, (hpre f hf).2.1⟩
    · exact ⟨numeral_plain hs, numeral_noComma hs⟩
    · exact hpost f hf
  have hl3 : (pre ++ s :: post).getLast? ≠ some [] := by
    rw [List.getLast?_append]
    cases post with
    | nil =>
      simp only [List.getLast?_singleton, Option.some_or]
      intro e; injection e with e; exact numeral_ne_nil hs e
    | cons g gs =>
      rw [List.getLast?_cons_cons]
      cases hg : (g :: gs).getLast? with
      | none => simp at hg
      | some x => rw [hg] at hlast; simpa using hlast
  have e1 := parse_fields lm cb (pre ++ s :: post) true t d _
    (clean_plain (filter_join _ (fun f hf => (hplain f hf).1))) hlen
    (fun f hf => (hplain f hf).2) (by simp) hl3
  have hrun : run lm t 2 (pre ++ s :: post) d =
      if (run lm t 2 pre d).1 = .ok then (.failure, (run lm t 2 pre d).2) else run lm t 2 pre d := by
    rw [run_append]
    split
    · rw [show 2 + pre.length = pre.length + 2 by omega,
        run_err (parseField_refused lm hlm t _ base max hk s v hs h1 h2 _) (by decide)]
    · rfl
  unfold urcProcess
  rw [e1]
  simp only [if_true, hrun]
  by_cases hp : pre = []
  · subst hp
    simp only [run, if_true]
    exact ⟨by decide, rfl⟩
  · have hlen2 : (joinComma pre).length ≤ 256 := by
      have : ∀ (a b : List Str), (joinComma a).length ≤ (joinComma (a ++ b)).length := by
        intro a
        induction a with
        | nil => intro b; simp [joinComma]
        | cons x xs ih =>
          intro b
          cases xs with
          | nil => cases b <;> simp [joinComma]
          | cons y ys =>
            have := ih b
            simp only [List.cons_append, joinComma, List.length_append, List.length_cons] at this ⊢
            omega
      exact Nat.le_trans (this pre (s :: post)) hlen
    have hl4 : pre.getLast? ≠ some [] := by
      intro e
      exact (hpre [] (List.mem_of_getLast? e)).2.2 rfl
    have e2 := parse_fields lm cb pre true t d _
      (clean_plain (filter_join _ (fun f hf => (hpre f hf).1))) hlen2
      (fun f hf => (hpre f hf).2.1) hp hl4
    rw [e2]
    simp only [if_true]
    split
    · exact ⟨by simp, rfl⟩
    · rename_i h; exact ⟨h, rfl⟩

example : fieldLimit .creg 1 = some (16, 65535) ∧ joinComma ([str "1"] ++ str "10000" :: [str "2"]) =
      str "1,10000,2" ∧
    urcProcess (2 ^ 63 - 1) true .creg (some (str "1,10000,2")) initAtData =
      ⟨.failure, { initAtData with cs := 1 }, [⟨true, ⟨255, 1, 2, 0, 0, 0, 0⟩⟩]⟩ := by decide +kernel

/-- Not refused: with a 64-bit `long`, LAC 10000C3F1 (hex, far above 16 bits) is stored as C3F1. -/
theorem C40_witness_wrapped_lac :
    urcProcess (2 ^ 63 - 1) true .creg (some (str "1,\"10000C3F1\"")) { initAtData with cs := 1 } =
      ⟨.ok, { initAtData with cs := 1, lac := 0xC3F1 }, []⟩ := by decide +kernel

/-! ## C41 -/

/-- For every URC text (any bytes) and every previous record: the callback is called exactly once if
one is registered and the status of the text's domain (circuit switched for CREG, packet switched
for CGREG and CEREG) is different from before, and not at all otherwise; it gets the domain and the
record as stored.  MISSING for the full C41: answers to queries call it as well (witness below). -/
theorem C41_urc_event_partial (lm : Nat) (cb : Bool) (t : RegType) (line : Option Str) (d : AtData) :
    let o := urcProcess lm cb t line d
    let changed := (t = .creg ∧ o.data.cs ≠ d.cs) ∨ (t ≠ .creg ∧ o.data.ps ≠ d.ps)
    (cb = true ∧ changed → o.events =
      [⟨decide (t = .creg), ⟨o.data.rat, o.data.cs, o.data.ps, o.data.csRejCause, o.data.csRejType,
        o.data.psRejCause, o.data.psRejType⟩⟩]) ∧
    (¬ (cb = true ∧ changed) → o.events = []) := by
  intro o changed
  simp only [o, urcProcess] at changed ⊢
  rcases parse_cases lm cb line true t d with ⟨h1, h2, _⟩ | ⟨s, rfl, hl, hne⟩
  · refine ⟨?_, fun _ => h2⟩
    rintro ⟨_, hc⟩
    simp only [changed, o, urcProcess, h1] at hc
    simp at hc
  · simp only [changed, o, urcProcess]
    rw [parse_eq lm cb s true t d hl hne]
    generalize run lm t _ _ d = r
    cases t <;> cases cb <;> simp [eventChanged, genEvent] <;> (intro h; simp [h]; try rfl)

example : (urcProcess (2 ^ 63 - 1) true .cereg (some (str "5")) initAtData).events =
      [⟨false, ⟨255, 2, 5, 0, 0, 0, 0⟩⟩] ∧
    (urcProcess (2 ^ 63 - 1) true .cereg (some (str "2")) initAtData).events = [] := by decide +kernel

/-- A query answer does call the callback. -/
theorem C41_witness_query_fires :
    (parseRegStatus (2 ^ 63 - 1) true (some (str "2,1")) false .creg initAtData).events =
      [⟨true, ⟨255, 1, 2, 0, 0, 0, 0⟩⟩] := by decide +kernel

/-! ## C42 -/

theorem clearLoc_stat (lm : Nat) (t : RegType) (tok : Str) (d : AtData)
    (v : Int) (hv : strtoi lm (some tok) 10 = (.success, some v)) (hr : 0 ≤ v ∧ v ≤ 8)
    (h1 : v ≠ 1) (h5 : v ≠ 5) :
    parseStat lm t tok d = (.ok, clearLoc (if t = .creg then { d with cs := v.toNat }
      else { d with ps := v.toNat })) := by
  unfold parseStat field
  rw [hv]
  have hok : (decide (0 ≤ v) && decide (v < (stMax : Int))) = true := by
    rw [show (stMax : Int) = 9 from rfl]; simp; omega
  have e1 : v.toNat ≠ stHome := by unfold stHome; omega
  have e5 : v.toNat ≠ stRoaming := by unfold stRoaming; omega
  simp only [hok, if_true, if_neg e1, if_neg e5]

/-- A URC or query answer reporting any status other than registered (1 or 5), with no further
fields, leaves no location: LAC, cell id, RAC and RAT are the invalid values and the status is stored.
`n` is the leading report-mode field of a query answer.  MISSING for the full C42: the tracking area
code is never invalidated, and fields that follow a not-registered status are stored (witnesses). -/
theorem C42_status_only_partial (lm : Nat) (hlm : 2 ^ 31 - 1 ≤ lm) (cb : Bool) (t : RegType)
    (n st : Nat) (hst : st ≤ 8) (h1 : st ≠ 1) (h5 : st ≠ 5) (urc : Bool) (d : AtData)
    (hlen : (joinComma [decText n, decText st]).length ≤ 256) :
    let text := if urc then decText st else joinComma [decText n, decText st]
    let o := parseRegStatus lm cb (some text) urc t d
    o.status = .ok ∧ NoLocation o.data ∧ (if t = .creg then o.data.cs else o.data.ps) = st ∧
    o.data = { d with lac := 0xFFFF, rac := 0xFF, cellId := 0xFFFFFFFF, rat := 255,
                      cs := if t = .creg then st else d.cs, ps := if t = .creg then d.ps else st } := by
  intro text o
  have hnum := decText_numeral st
  have hsi := strtoi_numeral hlm hnum (by omega)
  have hrun : run lm t (if urc then 2 else 1) (if urc then [decText st] else [decText n, decText st]) d =
      (.ok, clearLoc (if t = .creg then { d with cs := st } else { d with ps := st })) := by
    have hp : parseField lm t 2 (decText st) d = (.ok, clearLoc (if t = .creg then { d with cs := st }
        else { d with ps := st })) := by
      have : parseField lm t 2 (decText st) d = parseStat lm t (decText st) d := by
        cases t <;> rfl
      rw [this, clearLoc_stat lm t _ d st hsi (by omega) (by omega) (by omega)]
      simp
    cases urc
    · have h0 : parseField lm t 1 (decText n) d = (.ok, d) := by cases t <;> rfl
      simp only [Bool.false_eq_true, if_false]
      rw [run_ok h0, run_ok hp]; rfl
    · simp only [if_true]; rw [run_ok hp]; rfl
  have hn := decText_numeral n
  have ho : o = (⟨.ok, clearLoc (if t = .creg then { d with cs := st } else { d with ps := st }),
      o.events⟩ : Out) := by
    have e := parse_fields lm cb (if urc then [decText st] else [decText n, decText st]) urc t d text
      (by
        cases urc
        · exact clean_plain (filter_join _ (by simp; exact ⟨numeral_plain hn, numeral_plain hnum⟩))
        · exact clean_plain (numeral_plain hnum))
      (by
        cases urc
        · exact hlen
        · refine Nat.le_trans ?_ hlen; simp [text, joinComma]; omega)
      (by cases urc <;> simp [numeral_noComma hnum, numeral_noComma hn])
      (by cases urc <;> simp)
      (by cases urc <;> simp [numeral_ne_nil hnum])
    rw [hrun] at e
    simp only [o]; rw [e]
  rw [ho]
  refine ⟨rfl, ⟨rfl, rfl, rfl, rfl⟩, ?_, ?_⟩
  · cases t <;> rfl
  · cases t <;> rfl

/-- No stale location: for any text (any fields after the status) whose status field is a number
other than 1 and 5, the outcome does not depend on the location and RAT stored before. -/
theorem C42_no_stale_location (lm : Nat) (cb : Bool) (t : RegType) (s st : Str) (urc : Bool)
    (d : AtData) (v : Int)
    (hst : (fields 44 (s.filter (fun b => decide (¬ White b ∧ b ≠ 34))))[if urc then 0 else 1]? = some st)
    (hv : ReadsAs lm 10 st v) (hr : 0 ≤ v ∧ v ≤ 8) (h1 : v ≠ 1) (h5 : v ≠ 5)
    (lac rac cellId rat : Nat) :
    (parseRegStatus lm cb (some s) urc t { d with lac := lac, rac := rac, cellId := cellId, rat := rat }) =
      parseRegStatus lm cb (some s) urc t d ∨ 256 < s.length := by
  replace hv := (strtoi_iff_reads lm 10 (by omega) st v).mpr hv
  by_cases hl : s.length ≤ 256
  · left
    have hcl : s.filter (fun b => decide (¬ White b ∧ b ≠ 34)) = clean s := by
      unfold clean
      rw [List.filter_filter]
      congr 1; funext b
      have := isSpace_iff b
      by_cases hw : White b <;> by_cases hb : b = 34 <;> simp_all
    rw [hcl] at hst
    have hstne : st ≠ [] := by
      intro e; subst e
      have : ∀ lm, strtoi lm (some []) 10 = (.error, none) := by
        intro lm; rfl
      rw [this] at hv; simp at hv
    have hrep : (reportedFields (clean s))[if urc then 0 else 1]? = some st := by
      generalize (if urc then 0 else 1) = k at hst ⊢
      unfold reportedFields
      split
      · rename_i hlast
        rw [List.getElem?_dropLast]
        split
        · exact hst
        · rename_i hge
          exfalso
          rw [List.getLast?_eq_getElem?] at hlast
          have hlt := (List.getElem?_eq_some_iff.mp hst).1
          have : k = (fields 44 (clean s)).length - 1 := by omega
          rw [← this, hst] at hlast
          injection hlast with hlast
          exact hstne hlast
      · exact hst
    have hne : clean s ≠ [] := by
      intro e; rw [e, reportedFields_nil] at hrep; simp at hrep
    rw [parse_eq lm cb s urc t _ hl hne, parse_eq lm cb s urc t _ hl hne]
    have hstat : ∀ d, parseField lm t 2 st d = (.ok, clearLoc (if t = .creg then { d with cs := v.toNat }
        else { d with ps := v.toNat })) := by
      intro d
      have : parseField lm t 2 st d = parseStat lm t st d := by cases t <;> rfl
      rw [this, clearLoc_stat lm t _ d v hv hr h1 h5]
    have key : run lm t (if urc then 2 else 1) (reportedFields (clean s))
          { d with lac := lac, rac := rac, cellId := cellId, rat := rat } =
        run lm t (if urc then 2 else 1) (reportedFields (clean s)) d := by
      cases urc
      · simp only [Bool.false_eq_true, if_false] at hrep ⊢
        match hF : reportedFields (clean s), hrep with
        | a :: b :: fs, hrep =>
          simp at hrep
          subst hrep
          have h0 : ∀ d, parseField lm t 1 a d = (.ok, d) := by intro d; cases t <;> rfl
          rw [run_ok (h0 _), run_ok (h0 _), run_ok (hstat _), run_ok (hstat _)]
          cases t <;> rfl
      · simp only [if_true] at hrep ⊢
        match hF : reportedFields (clean s), hrep with
        | a :: fs, hrep =>
          simp at hrep
          subst hrep
          rw [run_ok (hstat _), run_ok (hstat _)]
          cases t <;> rfl
    simp only [key]
  · right; omega

example : (urcProcess (2 ^ 63 - 1) true .creg (some (str "2"))
      { initAtData with cs := 1, lac := 7, cellId := 9, rac := 3, rat := 8 }).data = initAtData := by
  decide +kernel

/-- Before the first registration text both domains are searching (2), there is no location, the tracking area code and the reject information are zero; and
clearing the record after a loss changes the location and the RAT only. -/
theorem C42_initial : NoLocation initAtData ∧
    initAtData = { cs := 2, ps := 2, lac := 65535, rac := 255, tac := 0, cellId := 4294967295, rat := 255,
                   csRejType := 0, csRejCause := 0, psRejType := 0, psRejCause := 0 } ∧
    ∀ d, NoLocation (clearLoc d) ∧ clearLoc d = { d with lac := 65535, rac := 255, cellId := 4294967295, rat := 255 } :=
  ⟨by unfold NoLocation; decide, by decide, fun _ => ⟨by unfold NoLocation; exact ⟨rfl, rfl, rfl, rfl⟩, rfl⟩⟩

/-- Fields following a not-registered status are stored: location and RAT are then not invalid. -/
theorem C42_witness_location_after_loss :
    (urcProcess (2 ^ 63 - 1) true .creg (some (str "2,\"00C3\",\"1A\",8")) initAtData).data =
      { initAtData with lac := 0xC3, cellId := 0x1A, rat := 8 } := by decide +kernel

/-- The tracking area code (the LTE location area) survives the loss of registration. -/
theorem C42_witness_stale_tac :
    (urcProcess (2 ^ 63 - 1) true .cereg (some (str "0"))
      { initAtData with ps := 1, tac := 0x1234 }).data = { initAtData with ps := 0, tac := 0x1234 } := by
  decide +kernel

/-! ## C43 -/

theorem reported_getElem (s : Str) (k : Nat) (x : Str) (h : (reportedFields s)[k]? = some x) :
    (fields 44 s)[k]? = some x := by
  unfold reportedFields at h
  split at h
  · rw [List.getElem?_dropLast] at h
    split at h
    · exact h
    · simp at h
  · exact h

/-- The rejection information of a record. -/
def rej (d : AtData) : Nat × Nat × Nat × Nat := (d.csRejType, d.csRejCause, d.psRejType, d.psRejCause)

theorem parseField_later (lm : Nat) (t : RegType) (i : Nat) (tok : Str) (d : AtData) (hi : i ≠ 2) :
    (parseField lm t i tok d).2.cs = d.cs ∧ (parseField lm t i tok d).2.ps = d.ps ∧
    ((if t = .creg then d.cs else d.ps) ≠ 3 → rej (parseField lm t i tok d).2 = rej d) := by
  unfold parseField
  split
  · exact ⟨rfl, rfl, fun _ => rfl⟩
  · rename_i pos hpos
    have hns : pos ≠ .stat := by
      intro e; subst e
      rcases t with _ | _ | _ <;> simp only [table] at hpos <;>
        (match i, hpos with
          | 0, hpos => simp at hpos
          | 1, hpos => simp at hpos
          | 2, _ => exact hi rfl
          | 3, hpos => simp at hpos
          | 4, hpos => simp at hpos
          | 5, hpos => simp at hpos
          | 6, hpos => simp at hpos
          | 7, hpos => simp at hpos
          | 8, hpos => simp at hpos
          | n + 9, hpos => simp at hpos)
    cases pos with
    | none => exact ⟨rfl, rfl, fun _ => rfl⟩
    | netReg => exact ⟨rfl, rfl, fun _ => rfl⟩
    | stat => exact absurd rfl hns
    | lacTac =>
      simp only [parsePos, parseLacTac]
      rcases field_cases lm 16 tok _ _ d with ⟨v, _, _, _, e⟩ | ⟨_, e⟩ <;> rw [e]
      · split <;> exact ⟨rfl, rfl, fun _ => rfl⟩
      · exact ⟨rfl, rfl, fun _ => rfl⟩
    | cellId =>
      simp only [parsePos, parseCellId]
      rcases field_cases lm 16 tok _ _ d with ⟨v, _, _, _, e⟩ | ⟨_, e⟩ <;> rw [e] <;>
        exact ⟨rfl, rfl, fun _ => rfl⟩
    | rat =>
      simp only [parsePos, parseRat]
      rcases field_cases lm 10 tok _ _ d with ⟨v, _, _, _, e⟩ | ⟨_, e⟩ <;> rw [e]
      · simp only; split
        · exact ⟨rfl, rfl, fun _ => rfl⟩
        · split <;> exact ⟨rfl, rfl, fun _ => rfl⟩
      · exact ⟨rfl, rfl, fun _ => rfl⟩
    | rejType =>
      simp only [parsePos, parseRejType]
      rcases field_cases lm 10 tok _ _ d with ⟨v, _, _, _, e⟩ | ⟨_, e⟩ <;> rw [e]
      · clear e
        by_cases hc : d.cs = 3 <;> by_cases hp : d.ps = 3 <;> cases t <;> simp [stDenied, rej, hc, hp]
      · exact ⟨rfl, rfl, fun _ => rfl⟩
    | rejCause =>
      simp only [parsePos, parseRejCause]
      rcases field_cases lm 10 tok _ _ d with ⟨v, _, _, _, e⟩ | ⟨_, e⟩ <;> rw [e]
      · clear e
        by_cases hc : d.cs = 3 <;> by_cases hp : d.ps = 3 <;> cases t <;> simp [stDenied, rej, hc, hp]
      · exact ⟨rfl, rfl, fun _ => rfl⟩
    | rac =>
      simp only [parsePos, parseRac]
      rcases field_cases lm 16 tok _ _ d with ⟨v, _, _, _, e⟩ | ⟨_, e⟩ <;> rw [e] <;>
        exact ⟨rfl, rfl, fun _ => rfl⟩

theorem run_later (lm : Nat) (t : RegType) (ts : List Str) : ∀ (i : Nat) (d : AtData), 2 < i →
    (run lm t i ts d).2.cs = d.cs ∧ (run lm t i ts d).2.ps = d.ps ∧
    ((if t = .creg then d.cs else d.ps) ≠ 3 → rej (run lm t i ts d).2 = rej d) := by
  induction ts with
  | nil => intro i d _; exact ⟨rfl, rfl, fun _ => rfl⟩
  | cons tok ts ih =>
    intro i d hi
    have h1 := parseField_later lm t i tok d (by omega)
    cases hp : parseField lm t i tok d with
    | mk e d' =>
      rw [hp] at h1
      by_cases he : e = .ok
      · subst he
        rw [run_ok hp]
        have h2 := ih (i + 1) d' (by omega)
        refine ⟨h2.1.trans h1.1, h2.2.1.trans h1.2.1, fun h => ?_⟩
        rw [h2.2.2 (by rw [h1.1, h1.2.1]; exact h), h1.2.2 h]
      · rw [run_err hp he]; exact h1

theorem parseStat_cases (lm : Nat) (t : RegType) (tok : Str) (d : AtData) :
    ((parseStat lm t tok d).1 ≠ .ok ∧ (parseStat lm t tok d).2 = d) ∨
    ∃ v : Int, strtoi lm (some tok) 10 = (.success, some v) ∧ 0 ≤ v ∧ v ≤ 8 ∧
      (parseStat lm t tok d).1 = .ok ∧ rej (parseStat lm t tok d).2 = rej d ∧
      (parseStat lm t tok d).2.cs = (if t = .creg then v.toNat else d.cs) ∧
      (parseStat lm t tok d).2.ps = (if t = .creg then d.ps else v.toNat) := by
  simp only [parseStat]
  rcases field_cases lm 10 tok (fun v => 0 ≤ v && v < (stMax : Int)) _ d with
    ⟨v, hv, hok, _, e⟩ | ⟨h1, h2⟩
  · right
    refine ⟨v, hv, ?_⟩
    rw [show (stMax : Int) = 9 from rfl] at hok
    simp only [Bool.and_eq_true, decide_eq_true_eq] at hok
    refine ⟨hok.1, by omega, ?_⟩
    rw [e]
    rcases t with _ | _ | _ <;> simp only [if_true, if_false, reduceCtorEq] <;>
      (split <;> [skip; split]) <;> exact ⟨trivial, rfl, rfl, rfl⟩
  · exact Or.inl ⟨h1, h2⟩

/-- For every registration text, URC or query answer, any bytes: rejection types and causes are
changed only by a text whose own status field (the first field of a URC, the second of an answer)
reads as 3 (registration denied), only in the domain of the text, and the stored status of that
domain is then 3. -/
theorem C43_reject_only_when_denied (lm : Nat) (cb : Bool) (t : RegType) (line : Option Str)
    (urc : Bool) (d : AtData) :
    let o := parseRegStatus lm cb line urc t d
    (t = .creg → o.data.psRejType = d.psRejType ∧ o.data.psRejCause = d.psRejCause) ∧
    (t ≠ .creg → o.data.csRejType = d.csRejType ∧ o.data.csRejCause = d.csRejCause) ∧
    ((o.data.csRejType ≠ d.csRejType ∨ o.data.csRejCause ≠ d.csRejCause ∨
      o.data.psRejType ≠ d.psRejType ∨ o.data.psRejCause ≠ d.psRejCause) →
      (if t = .creg then o.data.cs else o.data.ps) = 3 ∧
      ∃ s st, line = some s ∧
        (fields 44 (s.filter (fun b => decide (¬ White b ∧ b ≠ 34))))[if urc then 0 else 1]? = some st ∧
        ReadsAs lm 10 st 3) := by
  simp (config := {zeta := false}) only [← strtoi_iff_reads lm 10 (by omega)]
  intro o
  have hdom : ∀ i tok (d : AtData),
      (t = .creg → (parseField lm t i tok d).2.psRejType = d.psRejType ∧
        (parseField lm t i tok d).2.psRejCause = d.psRejCause) ∧
      (t ≠ .creg → (parseField lm t i tok d).2.csRejType = d.csRejType ∧
        (parseField lm t i tok d).2.csRejCause = d.csRejCause) := by
    intro i tok d
    by_cases hi : i = 2
    · subst hi; rw [pf_stat]
      rcases parseStat_cases lm t tok d with ⟨_, h⟩ | ⟨v, _, _, _, _, h, _, _⟩
      · rw [h]; simp
      · simp only [rej, Prod.mk.injEq] at h; simp [h]
    · unfold parseField
      split
      · simp
      · rename_i pos _
        cases pos with
        | none => simp [parsePos]
        | netReg => simp [parsePos]
        | stat =>
          simp only [parsePos]
          rcases parseStat_cases lm t tok d with ⟨_, h⟩ | ⟨v, _, _, _, _, h, _, _⟩
          · rw [h]; simp
          · simp only [rej, Prod.mk.injEq] at h; simp [h]
        | lacTac =>
          simp only [parsePos, parseLacTac]
          rcases field_cases lm 16 tok _ _ d with ⟨v, _, _, _, e⟩ | ⟨_, e⟩ <;> rw [e]
          · simp only; split <;> simp
          · simp
        | cellId =>
          simp only [parsePos, parseCellId]
          rcases field_cases lm 16 tok _ _ d with ⟨v, _, _, _, e⟩ | ⟨_, e⟩ <;> rw [e] <;> simp
        | rat =>
          simp only [parsePos, parseRat]
          rcases field_cases lm 10 tok _ _ d with ⟨v, _, _, _, e⟩ | ⟨_, e⟩ <;> rw [e]
          · simp only; split
            · simp
            · split <;> simp
          · simp
        | rejType =>
          simp only [parsePos, parseRejType]
          rcases field_cases lm 10 tok _ _ d with ⟨v, _, _, _, e⟩ | ⟨_, e⟩ <;> rw [e]
          · clear e
            by_cases hc : d.cs = 3 <;> by_cases hp : d.ps = 3 <;> cases t <;> simp [stDenied, hc, hp]
          · simp
        | rejCause =>
          simp only [parsePos, parseRejCause]
          rcases field_cases lm 10 tok _ _ d with ⟨v, _, _, _, e⟩ | ⟨_, e⟩ <;> rw [e]
          · clear e
            by_cases hc : d.cs = 3 <;> by_cases hp : d.ps = 3 <;> cases t <;> simp [stDenied, hc, hp]
          · simp
        | rac =>
          simp only [parsePos, parseRac]
          rcases field_cases lm 16 tok _ _ d with ⟨v, _, _, _, e⟩ | ⟨_, e⟩ <;> rw [e] <;> simp
  refine ⟨fun ht => ?_, fun ht => ?_, ?_⟩
  · exact parse_ind lm cb line urc t (fun x => x.psRejType = d.psRejType ∧ x.psRejCause = d.psRejCause)
      (fun i tok x hx => by have := (hdom i tok x).1 ht; rw [this.1, this.2]; exact hx) d ⟨rfl, rfl⟩
  · exact parse_ind lm cb line urc t (fun x => x.csRejType = d.csRejType ∧ x.csRejCause = d.csRejCause)
      (fun i tok x hx => by have := (hdom i tok x).2 ht; rw [this.1, this.2]; exact hx) d ⟨rfl, rfl⟩
  · intro hch
    have hch' : rej o.data ≠ rej d := by
      intro e; simp only [rej, Prod.mk.injEq] at e; simp [e] at hch
    rcases parse_cases lm cb line urc t d with ⟨h1, _⟩ | ⟨s, rfl, hl, hne⟩
    · exact absurd (by simp only [o]; rw [h1]) hch'
    · have hcl : s.filter (fun b => decide (¬ White b ∧ b ≠ 34)) = clean s := by
        unfold clean
        rw [List.filter_filter]
        congr 1; funext b
        have := isSpace_iff b
        by_cases hw : White b <;> by_cases hb : b = 34 <;> simp_all
      have hp := parse_eq lm cb s urc t d hl hne
      -- the run starting at the status field
      have key : ∀ (st : Str) (fs : List Str), rej (run lm t 2 (st :: fs) d).2 ≠ rej d →
          (if t = .creg then (run lm t 2 (st :: fs) d).2.cs else (run lm t 2 (st :: fs) d).2.ps) = 3 ∧
          strtoi lm (some st) 10 = (.success, some 3) := by
        intro st fs hrej
        cases hq : parseField lm t 2 st d with
        | mk e d' =>
          rcases parseStat_cases lm t st d with ⟨h1, h2⟩ | ⟨v, hv, hv0, hv8, h1, h2, h3, h4⟩
          · rw [pf_stat] at hq; rw [hq] at h1 h2
            rw [run_err (by rw [pf_stat]; exact hq) h1] at hrej
            exact absurd (by rw [show d' = d from h2]) hrej
          · rw [pf_stat] at hq; rw [hq] at h1 h2 h3 h4
            have h1' : e = .ok := h1
            subst h1'
            rw [run_ok (by rw [pf_stat]; exact hq)] at hrej ⊢
            have hl := run_later lm t fs 3 d' (by omega)
            have h3' : (if t = .creg then d'.cs else d'.ps) = 3 := by
              apply Classical.byContradiction
              intro hc
              exact hrej ((hl.2.2 hc).trans h2)
            rw [hl.1, hl.2.1]
            refine ⟨h3', ?_⟩
            simp only at h3 h4
            rw [h3, h4] at h3'
            have : v = 3 := by split at h3' <;> simp_all <;> omega
            rw [hv, this]
      have hdata : o.data = (run lm t (if urc then 2 else 1) (reportedFields (clean s)) d).2 := by
        simp only [o]; rw [hp]
      rw [hdata] at hch' ⊢
      cases urc
      · simp only [Bool.false_eq_true, if_false] at hch' ⊢
        match hF : reportedFields (clean s), hch' with
        | [], hch' => exact absurd rfl hch'
        | [a], hch' =>
          rw [run_ok (pf_net lm t a d)] at hch'; exact absurd rfl hch'
        | a :: b :: fs, hch' =>
          rw [run_ok (pf_net lm t a d)] at hch' ⊢
          obtain ⟨k1, k2⟩ := key b fs hch'
          exact ⟨k1, s, b, rfl, by rw [hcl]; exact reported_getElem _ 1 _ (by rw [hF]; rfl), k2⟩
      · simp only [if_true] at hch' ⊢
        match hF : reportedFields (clean s), hch' with
        | [], hch' => exact absurd rfl hch'
        | b :: fs, hch' =>
          obtain ⟨k1, k2⟩ := key b fs hch'
          exact ⟨k1, s, b, rfl, by rw [hcl]; exact reported_getElem _ 0 _ (by rw [hF]; rfl), k2⟩

example : (urcProcess (2 ^ 63 - 1) true .cereg (some (str "3,\"1\",\"2\",7,0,15")) initAtData).data =
    { initAtData with ps := 3, tac := 1, cellId := 2, rat := 7, psRejType := 0, psRejCause := 15 } ∧
    (urcProcess (2 ^ 63 - 1) true .cereg (some (str "1,\"1\",\"2\",7,0,15")) initAtData).data =
    { initAtData with ps := 1, tac := 1, cellId := 2, rat := 7 } := by decide +kernel

/-! ## C44 -/

theorem clean_append (a b : Str) : clean (a ++ b) = clean a ++ clean b := by
  simp [clean, List.filter_append]

theorem clean_comma (s : Str) : clean (44 :: s) = 44 :: clean s := by
  simp [clean, isSpace]

theorem clean_join (fs : List Str) : clean (joinComma fs) = joinComma (fs.map clean) := by
  induction fs with
  | nil => rfl
  | cons f t ih =>
    cases t with
    | nil => rfl
    | cons g t => simp only [joinComma, List.map_cons, clean_append, clean_comma] at ih ⊢; rw [ih]

theorem clean_quoted {s : Str} (h : Plain s) : clean (quoted s) = s := by
  unfold quoted
  rw [show (34 : Byte) :: (s ++ [34]) = [34] ++ (s ++ [34]) from rfl, clean_append, clean_append,
    clean_plain h]
  have : clean [34] = [] := by decide
  simp [this]

/-- The fields of a registration text: report mode (answers only), status, area code, cell id, access
technology, then for CGREG the routing area code, then type and cause of a rejection if given. -/
def regFields (urc : Bool) (t : RegType) (n st : Nat) (hl hc : Str) (act : Nat) (hr : Str)
    (rj : Option (Nat × Nat)) : List Str :=
  (if urc then [] else [decText n]) ++ [decText st, quoted hl, quoted hc, decText act] ++
  (if t = .cgreg then [quoted hr] else []) ++
  (match rj with | none => [] | some (a, b) => [decText a, decText b])

/-- Every well formed registration text is decoded exactly: the domain's status, LAC (TAC for CEREG),
cell id, access technology, RAC (CGREG) and, for a denied registration, rejection type and cause are
the ones in the text; the other domain's values are untouched.  MISSING for the full C44: access
technologies 1, 2, 4, 5, 6 are stored as invalid, cell ids need 31 bits, and texts in which an optional
field is left empty are refused (witnesses below). -/
theorem C44_decoded_partial (lm : Nat) (hlm : 2 ^ 31 - 1 ≤ lm) (cb urc : Bool) (t : RegType)
    (n st lac ci act rac : Nat) (hl hc hr : Str) (rj : Option (Nat × Nat)) (d : AtData)
    (h1 : Numeral 16 hl lac) (h2 : Numeral 16 hc ci) (h3 : Numeral 16 hr rac)
    (hst : st ≤ 8) (hlac : lac ≤ 65535) (hci : ci < 2 ^ 31) (hrac : rac ≤ 255)
    (hact : act = 0 ∨ act = 3 ∨ act = 7 ∨ act = 8 ∨ act = 9)
    (hrj : ∀ a b, rj = some (a, b) → a ≤ 255 ∧ b ≤ 255)
    (hlen : (joinComma (regFields urc t n st hl hc act hr rj)).length ≤ 256) :
    let o := parseRegStatus lm cb (some (joinComma (regFields urc t n st hl hc act hr rj))) urc t d
    o.status = .ok ∧
    (if t = .creg then o.data.cs = st ∧ o.data.ps = d.ps else o.data.ps = st ∧ o.data.cs = d.cs) ∧
    (if t = .cereg then o.data.tac = lac else o.data.lac = lac ∧ o.data.tac = d.tac) ∧
    o.data.cellId = ci ∧ o.data.rat = act ∧ (t = .cgreg → o.data.rac = rac) ∧
    (∀ a b, rj = some (a, b) → st = 3 →
      if t = .creg then o.data.csRejType = a ∧ o.data.csRejCause = b
      else o.data.psRejType = a ∧ o.data.psRejCause = b) := by
  intro o
  have hs := strtoi_numeral hlm (decText_numeral st) (by omega : st < 2 ^ 31)
  have e9 : (stMax : Int) = 9 := rfl
  have e10 : (ratMax : Int) = 10 := rfl
  -- each field
  have f1 : ∀ d, ∃ d', parseField lm t 2 (decText st) d = (.ok, d') ∧
      (if t = .creg then d'.cs = st ∧ d'.ps = d.ps else d'.ps = st ∧ d'.cs = d.cs) ∧ d'.tac = d.tac := by
    intro d
    refine ⟨(if st = 1 then id else if st = 5 then id else clearLoc)
        (if t = .creg then { d with cs := st } else { d with ps := st }), ?_, ?_⟩
    · rw [pf_stat]
      simp only [parseStat, field, hs, e9]
      rw [if_pos (by simp; omega)]
      simp only [Int.toNat_natCast, stHome, stRoaming]
      by_cases ha : st = 1
      · simp [ha]
      · by_cases hb : st = 5
        · simp [hb]
        · simp [ha, hb]
    · cases t <;> (by_cases ha : st = 1 <;> [skip; by_cases hb : st = 5]) <;> simp_all [clearLoc]
  have f2 : ∀ d, parseField lm t 3 hl d =
      (.ok, if t = .cereg then { d with tac := lac } else { d with lac := lac }) := by
    intro d
    rw [pf_lac]
    simp only [parseLacTac, field, strtoi_numeral hlm h1 (by omega)]
    rw [if_pos (by simp; omega)]
    cases t <;> simp
  have f3 : ∀ d, parseField lm t 4 hc d = (.ok, { d with cellId := ci }) := by
    intro d
    rw [pf_cell]
    simp only [parseCellId, field, strtoi_numeral hlm h2 hci]
    rw [if_pos (by simp)]
    simp
  have f4 : ∀ d, parseField lm t 5 (decText act) d = (.ok, { d with rat := act }) := by
    intro d
    rw [pf_rat]
    simp only [parseRat, field, strtoi_numeral hlm (decText_numeral act) (by omega), e10]
    rw [if_pos (by simp; omega)]
    simp only [Int.toNat_natCast, ratGsm, ratEdge, ratCatM1, ratNbIot, ratLte]
    by_cases h7 : act = 7
    · subst h7; simp
    · have hc' : act = 0 ∨ act = 3 ∨ act = 8 ∨ act = 9 := by omega
      simp only [hc', if_true]
  have f5 : ∀ d, t = .cgreg → parseField lm t 6 hr d = (.ok, { d with rac := rac }) := by
    intro d ht
    rw [pf_6, if_pos ht]
    simp only [parseRac, field, strtoi_numeral hlm h3 (by omega)]
    rw [if_pos (by simp; omega)]
    simp
  have f6 : ∀ d a, a ≤ 255 → parseRejType lm t (decText a) d = (.ok,
      if t = .creg then (if d.cs = 3 then { d with csRejType := a } else d)
      else (if d.ps = 3 then { d with psRejType := a } else d)) := by
    intro d a ha
    simp only [parseRejType, field, strtoi_numeral hlm (decText_numeral a) (by omega)]
    rw [if_pos (by simp; omega)]
    clear f5
    by_cases hc1 : d.cs = 3 <;> by_cases hp1 : d.ps = 3 <;> cases t <;> simp [stDenied, hc1, hp1]
  have f7 : ∀ d a, a ≤ 255 → parseRejCause lm t (decText a) d = (.ok,
      if t = .creg then (if d.cs = 3 then { d with csRejCause := a } else d)
      else (if d.ps = 3 then { d with psRejCause := a } else d)) := by
    intro d a ha
    simp only [parseRejCause, field, strtoi_numeral hlm (decText_numeral a) (by omega)]
    rw [if_pos (by simp; omega)]
    clear f5
    by_cases hc1 : d.cs = 3 <;> by_cases hp1 : d.ps = 3 <;> cases t <;> simp [stDenied, hc1, hp1]
  -- the cleaned fields
  have hq : ∀ {s : Str} {v : Nat}, Numeral 16 s v → clean (quoted s) = s :=
    fun h => clean_quoted (numeral_plain h)
  have hd : ∀ k, clean (decText k) = decText k := fun k => clean_plain (numeral_plain (decText_numeral k))
  have hmap : (regFields urc t n st hl hc act hr rj).map clean =
      (if urc then [] else [decText n]) ++ [decText st, hl, hc, decText act] ++
      (if t = .cgreg then [hr] else []) ++
      (match rj with | none => [] | some (a, b) => [decText a, decText b]) := by
    unfold regFields
    cases urc <;> cases t <;> cases rj <;> simp [hq h1, hq h2, hq h3, hd]
  have hall : ∀ f ∈ (regFields urc t n st hl hc act hr rj).map clean, NoComma f ∧ f ≠ [] := by
    rw [hmap]
    have hD : ∀ k, NoComma (decText k) ∧ decText k ≠ [] :=
      fun k => ⟨numeral_noComma (decText_numeral k), numeral_ne_nil (decText_numeral k)⟩
    have hN : ∀ {s : Str} {v : Nat}, Numeral 16 s v → NoComma s ∧ s ≠ [] :=
      fun h => ⟨numeral_noComma h, numeral_ne_nil h⟩
    cases urc <;> cases t <;> cases rj <;> simp [hN h1, hN h2, hN h3, hD]
  have hpe := parse_fields lm cb _ urc t d _ (clean_join (regFields urc t n st hl hc act hr rj)) hlen
    (fun f hf => (hall f hf).1) (by rw [hmap]; simp)
    (by intro e; exact (hall [] (List.mem_of_getLast? e)).2 rfl)
  have hrunpre : ∀ fs, run lm t (if urc then 2 else 1) ((if urc then [] else [decText n]) ++ fs) d =
      run lm t 2 fs d := by
    intro fs
    cases urc
    · simp only [Bool.false_eq_true, if_false, List.cons_append, List.nil_append]
      rw [run_ok (pf_net lm t _ d)]
    · rfl
  rw [hmap] at hpe
  obtain ⟨d1, g1, g1a, g1b⟩ := f1 d
  simp only [List.append_assoc] at hpe
  rw [hrunpre] at hpe
  simp only [List.cons_append, List.nil_append] at hpe
  rw [run_ok g1, run_ok (f2 _), run_ok (f3 _), run_ok (f4 _)] at hpe
  simp only [o]
  rw [hpe]
  cases rj with
  | none =>
    cases t <;> simp only [if_true, if_false, reduceCtorEq, List.nil_append] at g1a ⊢
    · simp only [run]; exact ⟨trivial, g1a, ⟨trivial, g1b⟩, trivial, trivial, by simp, by simp⟩
    · simp only [List.append_nil]; rw [run_ok (f5 _ rfl)]
      simp only [run]; exact ⟨trivial, g1a, ⟨trivial, g1b⟩, trivial, trivial, by simp, by simp⟩
    · simp only [run]; exact ⟨trivial, g1a, trivial, trivial, trivial, by simp, by simp⟩
  | some ab =>
    obtain ⟨a, b⟩ := ab
    obtain ⟨ha, hb⟩ := hrj a b rfl
    cases t <;> simp only [if_true, if_false, reduceCtorEq, List.nil_append] at g1a f6 f7 ⊢
    · rw [run_ok (by rw [pf_6]; simp only [reduceCtorEq, if_false]; exact f6 _ a ha),
        run_ok (by rw [pf_7]; simp only [reduceCtorEq, if_false]; exact f7 _ b hb)]
      by_cases h : st = 3 <;> simp_all [run]
    · simp only [List.cons_append, List.nil_append]
      rw [run_ok (f5 _ rfl), run_ok (by rw [pf_7]; simp only [if_true]; exact f6 _ a ha),
        run_ok (by rw [pf_8]; simp only [if_true]; exact f7 _ b hb)]
      by_cases h : st = 3 <;> simp_all [run]
    · rw [run_ok (by rw [pf_6]; simp only [reduceCtorEq, if_false]; exact f6 _ a ha),
        run_ok (by rw [pf_7]; simp only [reduceCtorEq, if_false]; exact f7 _ b hb)]
      by_cases h : st = 3 <;> simp_all [run]

example : joinComma (regFields false .cgreg 2 1 (str "00C3") (str "1A2D") 0 (str "7F") none) =
      str "2,1,\"00C3\",\"1A2D\",0,\"7F\"" ∧
    (parseRegStatus (2 ^ 31 - 1) true (some (str "2,1,\"00C3\",\"1A2D\",0,\"7F\"")) false .cgreg
      initAtData).data = { initAtData with ps := 1, lac := 0xC3, cellId := 0x1A2D, rat := 0, rac := 0x7F } := by
  decide +kernel

/-- Access technology 2 (UTRAN, `CELLULAR_RAT_WCDMA`) is stored as invalid. -/
theorem C44_witness_wcdma :
    (urcProcess (2 ^ 63 - 1) true .creg (some (str "1,\"C3\",\"1A\",2")) initAtData).status = .ok ∧
    (urcProcess (2 ^ 63 - 1) true .creg (some (str "1,\"C3\",\"1A\",2")) initAtData).data.rat = 255 := by
  decide +kernel

/-- A text leaving out an optional field (allowed by 3GPP TS 27.007) is refused half way. -/
theorem C44_witness_empty_field :
    urcProcess (2 ^ 63 - 1) false .creg (some (str "1,,,7")) initAtData =
      ⟨.failure, { initAtData with cs := 1 }, []⟩ := by decide +kernel

/-- A cell id with the top bit set is refused on platforms with a 64-bit `long` and stored as
7FFFFFFF on those with a 32-bit `long`. -/
theorem C44_witness_large_cell_id :
    (urcProcess (2 ^ 63 - 1) false .creg (some (str "1,\"1\",\"80000001\"")) initAtData).status = .failure ∧
    (urcProcess (2 ^ 31 - 1) false .creg (some (str "1,\"1\",\"80000001\"")) initAtData).data.cellId =
      0x7FFFFFFF := by decide +kernel

end Cellular.Props
