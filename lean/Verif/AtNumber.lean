import Verif.AtStrtoi
/-!
# What every text is read as (C08)
-/

namespace Cellular.Spec
open Cellular Cellular.Props

/-- The text does not go on with a digit of this base. -/
def NoDigit (base : Nat) (t : Str) : Prop := ∀ b, t.head? = some b → ∀ d, digit? b = some d → ¬ d < base

/-- The letter of the prefix `0x`. -/
def IsX (b : Byte) : Prop := b = 120 ∨ b = 88

/-- The number that a text starts with, of any size, in the way the C library sees it: white space, a sign, in base 16
the prefix `0x`, digits, anything else.  `none`: there is no number. -/
inductive TextNumber (base : Nat) : Str → Option Int → Prop
  | number {ws sg s rest neg v} : (∀ b ∈ ws, White b) → SignText sg neg → Numeral base s v → NoDigit base rest →
      (base = 16 → ¬ (s = [48] ∧ ∃ x, rest.head? = some x ∧ IsX x)) →
      TextNumber base (ws ++ sg ++ s ++ rest) (some (if neg then -(v : Int) else v))
  | hex {ws sg s rest neg v x} : base = 16 → (∀ b ∈ ws, White b) → SignText sg neg → IsX x → Numeral 16 s v →
      NoDigit 16 rest → TextNumber base (ws ++ sg ++ (48 :: x :: s ++ rest)) (some (if neg then -(v : Int) else v))
  | bare {ws sg rest neg x} : base = 16 → (∀ b ∈ ws, White b) → SignText sg neg → IsX x → NoDigit 16 rest →
      TextNumber base (ws ++ sg ++ (48 :: x :: rest)) (some 0)
  | none {ws sg rest neg} : (∀ b ∈ ws, White b) → SignText sg neg → NoDigit base rest →
      (sg = [] → ∀ b, rest.head? = some b → ¬ White b ∧ b ≠ 43 ∧ b ≠ 45) → TextNumber base (ws ++ sg ++ rest) none

/-- The nearest number a `long` can hold. -/
def clampLong (longMax : Nat) (z : Int) : Int := max (-((longMax : Int) + 1)) (min (longMax : Int) z)

/-- The value reported for the number `z`: what a `long` holds of it, reduced modulo 2^32 to the range of `int32_t`. -/
def asInt32 (longMax : Nat) (z : Int) : Int := (clampLong longMax z).bmod (2 ^ 32)

/-- The text begins with a number that is stored as the `int32_t` value `v`. -/
def ReadsAs (longMax base : Nat) (t : Str) (v : Int) : Prop := ∃ z, TextNumber base t (some z) ∧ asInt32 longMax z = v

end Cellular.Spec

namespace Cellular.Props
open Cellular Cellular.Spec Cellular.AtCore

theorem toInt32_bmod (v : Int) : toInt32 v = v.bmod (2 ^ 32) := by
  unfold toInt32
  rw [Int.bmod_def]
  split <;> omega

theorem clamp_signed (longMax : Nat) (neg : Bool) (v : Nat) :
    (if neg then (if v ≤ longMax + 1 then -(v : Int) else -((longMax : Int) + 1))
      else (if v ≤ longMax then (v : Int) else (longMax : Int))) = clampLong longMax (if neg then -(v : Int) else v) := by
  unfold clampLong
  cases neg
  · simp only [Bool.false_eq_true, if_false]
    split <;> omega
  · simp only [if_true]
    split <;> omega

theorem digitsLoop_none {base : Nat} {rest : Str} (h : NoDigit base rest) (acc : Nat) (any : Bool) :
    digitsLoop base rest acc any = (acc, any) := by
  cases rest with
  | nil => rfl
  | cons b r =>
    have := h b rfl
    rw [digitsLoop, digitVal_eq]
    cases hb : digit? b with
    | none => simp
    | some d => simp [this d hb]

theorem strtol_none (longMax base : Nat) (hb : 2 ≤ base) {ws sg rest : Str} {neg : Bool} (hws : ∀ b ∈ ws, White b)
    (hsg : SignText sg neg) (hno : NoDigit base rest)
    (hfirst : sg = [] → ∀ b, rest.head? = some b → ¬ White b ∧ b ≠ 43 ∧ b ≠ 45) :
    strtol longMax base (ws ++ sg ++ rest) = (0, false) := by
  have hr : rest.head? ≠ some 48 := fun h => hno 48 h 0 (by decide) (by omega)
  have hskip : skip0x base rest = rest := by
    unfold skip0x
    split
    · rename_i heq; simp at hr
    · rfl
  have hloop := digitsLoop_none hno 0 false
  have hdw : (ws ++ sg ++ rest).dropWhile isSpace = sg ++ rest := by
    rw [List.append_assoc, List.dropWhile_append_of_pos (fun b hb => (isSpace_iff b).mpr (hws b hb))]
    cases hsg with
    | none =>
      cases rest with
      | nil => rfl
      | cons b r =>
        have : isSpace b = false := by
          cases hh : isSpace b
          · rfl
          · exact absurd ((isSpace_iff b).mp hh) (hfirst rfl b rfl).1
        simp [this]
    | plus => simp [isSpace]
    | minus => simp [isSpace]
  unfold strtol
  rw [hdw]
  cases hsg with
  | none =>
    have hm : splitSign ([] ++ rest) = (false, rest) := by
      cases rest with
      | nil => rfl
      | cons b r =>
        have h3 := hfirst rfl b rfl
        simp only [List.nil_append]
        unfold splitSign
        split
        · rename_i heq; simp only [List.cons.injEq] at heq; exact absurd heq.1 h3.2.2
        · rename_i heq; simp only [List.cons.injEq] at heq; exact absurd heq.1 h3.2.1
        · rfl
    simp only [hm, hskip, hloop]; simp
  | plus => simp [splitSign, hskip, hloop]
  | minus => simp [splitSign, hskip, hloop]

/-- Digits, at least one. -/
theorem numeral_exists (base : Nat) : ∀ (n : Nat) (s : Str), s.length = n + 1 → (∀ b ∈ s, ∃ d, digit? b = some d ∧ d < base) →
    ∃ v, Numeral base s v := by
  intro n
  induction n with
  | zero =>
    intro s hl h
    match s, hl with
    | [b], _ =>
      obtain ⟨d, h1, h2⟩ := h b (by simp)
      exact ⟨d, .one h1 h2⟩
  | succ n ih =>
    intro s hl h
    have hne : s ≠ [] := by rintro rfl; simp at hl
    rw [← List.dropLast_append_getLast hne] at h ⊢
    obtain ⟨v, hv⟩ := ih s.dropLast (by simp [hl]) (fun b hb => h b (by simp [hb]))
    obtain ⟨d, h1, h2⟩ := h (s.getLast hne) (by simp)
    exact ⟨_, .snoc hv h1 h2⟩

/-- The digits at the beginning of a text. -/
theorem leading_digits (base : Nat) (t : Str) :
    ∃ s rest, t = s ++ rest ∧ NoDigit base rest ∧ (s = [] ∨ ∃ v, Numeral base s v) := by
  let f : Byte → Bool := fun b => match digit? b with | some d => decide (d < base) | none => false
  refine ⟨t.takeWhile f, t.dropWhile f, (List.takeWhile_append_dropWhile).symm, ?_, ?_⟩
  · intro b hb d hd hlt
    have := List.head?_dropWhile_not f t
    rw [hb] at this
    simp [f, hd, hlt] at this
  · by_cases hn : t.takeWhile f = []
    · exact Or.inl hn
    · right
      have hl := List.length_pos_iff.mpr hn
      refine numeral_exists base ((t.takeWhile f).length - 1) _ (by omega) ?_
      intro b hb
      have := List.mem_takeWhile_imp hb
      simp only [f] at this
      split at this
      · rename_i d hd
        exact ⟨d, hd, by simpa using this⟩
      · cases this

/-- White space and sign at the beginning of a text. -/
theorem leading_sign (t : Str) : ∃ ws sg rest neg, t = ws ++ sg ++ rest ∧ (∀ b ∈ ws, White b) ∧ SignText sg neg ∧
    (sg = [] → ∀ b, rest.head? = some b → ¬ White b ∧ b ≠ 43 ∧ b ≠ 45) := by
  have hw : ∀ b ∈ t.takeWhile isSpace, White b := fun b hb => (isSpace_iff b).mp (List.mem_takeWhile_imp hb)
  have ht : t = t.takeWhile isSpace ++ t.dropWhile isSpace := (List.takeWhile_append_dropWhile).symm
  have hh := List.head?_dropWhile_not isSpace t
  match hd : t.dropWhile isSpace with
  | [] => exact ⟨_, [], [], false, by rw [hd] at ht; simpa using ht, hw, .none, by simp⟩
  | b :: r =>
    rw [hd] at ht hh
    by_cases h1 : b = 43
    · subst h1; exact ⟨_, [43], r, false, by simpa using ht, hw, .plus, by simp⟩
    by_cases h2 : b = 45
    · subst h2; exact ⟨_, [45], r, true, by simpa using ht, hw, .minus, by simp⟩
    refine ⟨_, [], b :: r, false, by simpa using ht, hw, .none, fun _ c hc => ?_⟩
    simp only [List.head?_cons, Option.some.injEq] at hc
    subst hc
    refine ⟨fun hx => ?_, h1, h2⟩
    simp [(isSpace_iff b).mpr hx] at hh

/-- Every text has a leading number or none. -/
theorem C08_every_text (base : Nat) (t : Str) : ∃ r, TextNumber base t r := by
  obtain ⟨ws, sg, u, neg, rfl, hws, hsg, hfirst⟩ := leading_sign t
  obtain ⟨s, rest, rfl, hno, hs⟩ := leading_digits base u
  rcases hs with rfl | ⟨v, hv⟩
  · exact ⟨none, .none hws hsg (by simpa using hno) (by simpa using hfirst)⟩
  · by_cases hx : base = 16 ∧ s = [48] ∧ ∃ x, rest.head? = some x ∧ IsX x
    · obtain ⟨rfl, rfl, x, hh, hX⟩ := hx
      obtain ⟨r, rfl⟩ : ∃ r, rest = x :: r := by
        cases rest with
        | nil => simp at hh
        | cons y r => simp at hh; exact ⟨r, by rw [hh]⟩
      obtain ⟨s, rest, rfl, hno', hs⟩ := leading_digits 16 r
      rcases hs with rfl | ⟨v, hv⟩
      · exact ⟨_, .bare rfl hws hsg hX (by simpa using hno')⟩
      · exact ⟨_, .hex rfl hws hsg hX hv hno'⟩
    · refine ⟨_, by rw [← List.append_assoc]; exact .number hws hsg hv hno (fun h16 h => hx ⟨h16, h.1, h.2⟩)⟩

theorem strtol_leading (longMax base : Nat) (hb : 2 ≤ base) {t : Str} {r : Option Int} (h : TextNumber base t r) :
    strtol longMax base t = ((r.map (clampLong longMax)).getD 0, r.isSome) := by
  cases h with
  | none hws hsg hno hfirst => exact strtol_none longMax base hb hws hsg hno hfirst
  | @number ws sg s rest neg v hws hsg hs hno hx =>
    rw [strtol_numeral longMax base ws sg s rest neg v hws hsg hs hno hx, clamp_signed]
    rfl
  | @hex ws sg s rest neg v x h16 hws hsg hX hs hno =>
    subst h16
    have hskip : skip0x 16 (48 :: x :: s ++ rest) = s ++ rest := by
      obtain ⟨hne, hdig⟩ := numeral_digits hs
      obtain ⟨c, t, hct⟩ := List.exists_cons_of_ne_nil hne
      obtain ⟨d0, hd0, hlt0⟩ := hdig c (by simp [hct])
      rw [hct]
      simp only [List.cons_append, skip0x]
      rw [if_pos ⟨trivial, hX, by rw [digitVal_eq, hd0]; simp [hlt0]⟩]
    have hloop : digitsLoop 16 (s ++ rest) 0 false = (v, true) := by
      rw [numeral_digitsLoop hs]
      exact digitsLoop_none hno _ _
    rw [strtol_hex longMax ws sg (48 :: x :: s ++ rest) neg v hws hsg rfl (by rw [hskip]; exact hloop), clamp_signed]
    rfl
  | @bare ws sg rest neg x h16 hws hsg hX hno =>
    subst h16
    have hskip : skip0x 16 (48 :: x :: rest) = 48 :: x :: rest := by
      unfold skip0x
      split
      · rename_i y d t heq
        simp only [List.cons.injEq, true_and] at heq
        rw [if_neg]
        rintro ⟨_, _, h⟩
        have := hno d (by rw [heq.2]; rfl)
        rw [digitVal_eq] at h
        cases hd : digit? d with
        | none => rw [hd] at h; simp at h
        | some k => rw [hd] at h; simp [this k hd] at h
      · rfl
    have hloop : digitsLoop 16 (48 :: x :: rest) 0 false = (0, true) := by
      have h0 : digitVal 16 48 = some 0 := by decide
      have h1 : digitVal 16 x = none := by rcases hX with rfl | rfl <;> decide
      simp [digitsLoop, h0, h1]
    rw [strtol_hex longMax ws sg (48 :: x :: rest) neg 0 hws hsg rfl (by rw [hskip]; exact hloop), clamp_signed]
    cases neg <;> rfl

/-- ... and only one. -/
theorem C08_one_number (base : Nat) (hb : 2 ≤ base) {t : Str} {r r' : Option Int} (h : TextNumber base t r)
    (h' : TextNumber base t r') : r = r' := by
  have e := fun lm => (strtol_leading lm base hb h).symm.trans (strtol_leading lm base hb h')
  cases r with
  | none => cases r' with
    | none => rfl
    | some z => have := (Prod.mk.inj (e 0)).2; simp at this
  | some z => cases r' with
    | none => have := (Prod.mk.inj (e 0)).2; simp at this
    | some z' =>
      have := (Prod.mk.inj (e (z.natAbs + z'.natAbs))).1
      simp only [Option.map_some, Option.getD_some, clampLong] at this
      congr 1
      omega

/-- C08, the exact law: for every text, a text without leading number is refused and nothing is stored; otherwise success is
reported and the number is stored as `int32_t`, by way of `long`: outside its range with another value. -/
theorem C08_exact (longMax base : Nat) (hb : 2 ≤ base) {t : Str} {r : Option Int} (h : TextNumber base t r) :
    strtoi longMax (some t) base = (if r = none then .error else .success, r.map (asInt32 longMax)) := by
  unfold strtoi
  simp only [strtol_leading longMax base hb h]
  cases r with
  | none => rfl
  | some z => simp [toInt32_bmod, asInt32]

theorem strtoi_iff_reads (longMax base : Nat) (hb : 2 ≤ base) (t : Str) (v : Int) :
    strtoi longMax (some t) base = (.success, some v) ↔ ReadsAs longMax base t v := by
  constructor
  · intro h
    obtain ⟨r, hr⟩ := C08_every_text base t
    rw [C08_exact longMax base hb hr] at h
    cases r with
    | none => simp at h
    | some z => exact ⟨z, hr, by simpa using h⟩
  · rintro ⟨z, hz, rfl⟩
    rw [C08_exact longMax base hb hz]; rfl

/-- The value is the number itself exactly if it fits (with a `long` of at least 64 bits: modulo 2^32 for numbers that fit the
`long`). -/
theorem C08_faithful_iff (longMax : Nat) (hlm : 2 ^ 31 - 1 ≤ longMax) (z : Int) :
    asInt32 longMax z = z ↔ -(2 ^ 31) ≤ z ∧ z < 2 ^ 31 := by
  unfold asInt32
  have h1 := Int.le_bmod (x := clampLong longMax z) (m := 2 ^ 32) (by omega)
  have h2 := Int.bmod_lt (x := clampLong longMax z) (m := 2 ^ 32) (by omega)
  constructor
  · intro h
    rw [h] at h1 h2
    omega
  · rintro ⟨h3, h4⟩
    have : clampLong longMax z = z := by unfold clampLong; omega
    rw [this, ← toInt32_bmod, toInt32_id z h3 h4]

/-- The theorems apply: a number beyond 32 bits, one in hexadecimal notation followed by other text, and none. -/
example : TextNumber 10 (str " -4294967297,x") (some (-4294967297)) ∧ asInt32 (2 ^ 63 - 1) (-4294967297) = -1 ∧
    asInt32 (2 ^ 31 - 1) (-4294967297) = -2147483648 ∧ TextNumber 10 (str "- 5") none ∧
    strtoi (2 ^ 63 - 1) (some (str " -4294967297,x")) 10 = (.success, some (-1)) := by
  refine ⟨?_, by decide, by decide, ?_, by decide +kernel⟩
  · have := TextNumber.number (base := 10) (ws := [32]) (sg := [45]) (s := decText 4294967297) (rest := str ",x") (neg := true)
      (v := 4294967297) (by simp [White]) .minus (decText_numeral _) (by
        intro b hb d hd
        have e : (str ",x").head? = some 44 := by decide
        rw [e] at hb
        cases hb
        exact absurd hd (by simp [digit?])) (by simp)
    rw [show ([32] ++ [45] ++ decText 4294967297 ++ str ",x" : Str) = str " -4294967297,x" by decide +kernel] at this
    simpa using this
  · exact TextNumber.none (ws := []) (sg := [45]) (rest := str " 5") (by simp) .minus (by
      intro b hb
      have : b = 32 := by
        have e : (str " 5").head? = some 32 := by decide
        rw [e] at hb; exact (Option.some.inj hb).symm
      subst this
      intro d hd; exact absurd hd (by simp [digit?])) (by simp)

end Cellular.Props
