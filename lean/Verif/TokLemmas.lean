import Verif.Reg
import Verif.AtCoreProps
/-!
# Lemmas shared by the parsers of comma separated text
-/

namespace Cellular.Spec
open Cellular

/-- Fields put together with commas. -/
def joinComma : List Str → Str
  | [] => []
  | [f] => f
  | f :: fs => f ++ 44 :: joinComma fs

/-- Text without comma. -/
def NoComma (s : Str) : Prop := (44 : Byte) ∉ s

/-- Text without white space and double quotes. -/
def Plain (s : Str) : Prop := ∀ b ∈ s, ¬ White b ∧ b ≠ 34

/-- Text in double quotes. -/
def quoted (s : Str) : Str := 34 :: (s ++ [34])

end Cellular.Spec

namespace Cellular.Tok
open Cellular Spec Props
open Cellular.AtCore (strtoi AtErr)

theorem reported_join (fs : List Str) (h : ∀ f ∈ fs, NoComma f) (hl : fs.getLast? ≠ some []) :
    reportedFields (joinComma fs) = fs := by
  induction fs with
  | nil => exact reportedFields_nil
  | cons f t ih =>
    cases t with
    | nil =>
      have hf : f ≠ [] := by intro e; subst e; simp at hl
      simp only [joinComma]
      rw [reportedFields_cons f hf]
      have hc : (44 : Byte) ∉ f := h f (by simp)
      obtain ⟨e1, e2⟩ := notMem_dropWhile hc
      rw [e1, e2]; simp [reportedFields_nil]
    | cons g t =>
      have hc : (44 : Byte) ∉ f := h f (by simp)
      have hne : f ++ 44 :: joinComma (g :: t) ≠ [] := by simp
      simp only [joinComma]
      rw [reportedFields_cons _ hne]
      have hp : ∀ b ∈ f, (b != (44 : Byte)) = true := by
        intro b hb
        simp only [bne_iff_ne, ne_eq]
        intro e; subst e; exact hc hb
      rw [List.takeWhile_append_of_pos hp, List.dropWhile_append_of_pos hp]
      simp only [List.takeWhile_cons, bne_self_eq_false, Bool.false_eq_true, if_false,
        List.append_nil, List.dropWhile_cons, List.drop_one, List.tail_cons]
      rw [ih (fun x hx => h x (by simp [hx])) (by simpa [List.getLast?_cons_cons] using hl)]

theorem joinComma_ne_nil (fs : List Str) (hne : fs ≠ []) (hl : fs.getLast? ≠ some []) :
    joinComma fs ≠ [] := by
  cases fs with
  | nil => exact absurd rfl hne
  | cons f t =>
    cases t with
    | nil => intro e; simp only [joinComma] at e; subst e; simp at hl
    | cons g t => simp [joinComma]

theorem numeral_plain {base : Nat} {s : Str} {v : Nat} (h : Numeral base s v) : Plain s := by
  intro b hb
  obtain ⟨_, hd⟩ := numeral_digits h
  obtain ⟨d, hd, _⟩ := hd b hb
  obtain ⟨h1, h2, h3, _⟩ := digit?_some hd
  refine ⟨fun hw => ?_, ?_⟩
  · rw [(isSpace_iff b).mpr hw] at h1; simp at h1
  · intro e; subst e; revert hd; simp [digit?]

theorem numeral_noComma {base : Nat} {s : Str} {v : Nat} (h : Numeral base s v) : NoComma s := by
  intro hb
  obtain ⟨_, hd⟩ := numeral_digits h
  obtain ⟨d, hd, _⟩ := hd 44 hb
  revert hd; simp [digit?]

theorem numeral_ne_nil {base : Nat} {s : Str} {v : Nat} (h : Numeral base s v) : s ≠ [] :=
  (numeral_digits h).1

theorem plain_noSpace {s : Str} (h : Plain s) : s.filter (fun b => !isSpace b) = s := by
  rw [List.filter_eq_self]
  intro b hb
  have := (h b hb).1
  cases hh : isSpace b
  · rfl
  · exact absurd ((isSpace_iff b).mp hh) this

theorem plain_noQuote {s : Str} (h : Plain s) : s.filter (fun b => !(b == 34)) = s := by
  rw [List.filter_eq_self]
  intro b hb
  simp [(h b hb).2]

/-- A number text is read as its value. -/
theorem strtoi_numeral {lm : Nat} (hlm : 2 ^ 31 - 1 ≤ lm) {base : Nat} {s : Str} {v : Nat}
    (h : Numeral base s v) (hv : v < 2 ^ 31) : strtoi lm (some s) base = (.success, some (v : Int)) := by
  have := C08_strtoi_faithful_partial lm hlm base [] [] s [] false v (by simp) .none h (by simp)
    (by simp) (by simpa using hv)
  simpa using this

theorem strtoi_success {lm : Nat} {s : Str} {base : Nat} {e : AtErr} {o : Option Int}
    (h : strtoi lm (some s) base = (e, o)) :
    (e = .success ∧ ∃ v, o = some v ∧ -(2 ^ 31) ≤ v ∧ v < 2 ^ 31) ∨ (e = .error ∧ o = none) := by
  unfold strtoi at h
  simp only at h
  split at h
  · simp only [Prod.mk.injEq] at h
    refine Or.inl ⟨h.1.symm, _, h.2.symm, ?_⟩
    unfold AtCore.toInt32; omega
  · simp only [Prod.mk.injEq] at h
    exact Or.inr ⟨h.1.symm, h.2.symm⟩

end Cellular.Tok
