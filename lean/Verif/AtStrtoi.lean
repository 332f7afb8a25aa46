import Verif.AtCoreProps
/-!
# Number reading in base 16 with the prefix `0x` (C08)

Together with `C08_strtoi_faithful_partial` these theorems give the value of every text that starts with a number.
-/

namespace Cellular.Props
open Cellular Cellular.Spec Cellular.AtCore

theorem strtol_hex (longMax : Nat) (ws sg r : Str) (neg : Bool) (v : Nat) (hws : ∀ b ∈ ws, White b)
    (hsg : SignText sg neg) (hr : r.head? = some 48) (hloop : digitsLoop 16 (skip0x 16 r) 0 false = (v, true)) :
    strtol longMax 16 (ws ++ sg ++ r) =
      (if neg then (if v ≤ longMax + 1 then -(v : Int) else -((longMax : Int) + 1))
       else (if v ≤ longMax then (v : Int) else (longMax : Int)), true) := by
  cases r with
  | nil => simp at hr
  | cons c t =>
    simp only [List.head?_cons, Option.some.injEq] at hr
    subst hr
    have hdw : (ws ++ sg ++ 48 :: t).dropWhile isSpace = sg ++ 48 :: t := by
      rw [List.append_assoc, List.dropWhile_append_of_pos (fun b hb => (isSpace_iff b).mpr (hws b hb))]
      cases hsg <;> simp [isSpace]
    unfold strtol
    rw [hdw]
    cases hsg with
    | none => simp [splitSign, hloop]
    | plus => simp [splitSign, hloop]
    | minus => simp [splitSign, hloop]

/-- In base 16 the number may be preceded by `0x` or `0X`. -/
theorem C08_hex_prefix (longMax : Nat) (hlm : 2 ^ 31 - 1 ≤ longMax)
    (ws sg s rest : Str) (neg : Bool) (v : Nat) (x : Byte) (hx : x = 120 ∨ x = 88) (hws : ∀ b ∈ ws, White b)
    (hsg : SignText sg neg) (hs : Numeral 16 s v)
    (hrest : ∀ b, rest.head? = some b → ∀ d, digit? b = some d → ¬ d < 16)
    (hv : if neg then v ≤ 2 ^ 31 else v < 2 ^ 31) :
    strtoi longMax (some (ws ++ sg ++ (48 :: x :: s ++ rest))) 16 =
      (.success, some (if neg then -(v : Int) else (v : Int))) := by
  obtain ⟨hne, hdig⟩ := numeral_digits hs
  obtain ⟨c, t, hct⟩ := List.exists_cons_of_ne_nil hne
  obtain ⟨d0, hd0, hlt0⟩ := hdig c (by simp [hct])
  have hskip : skip0x 16 (48 :: x :: s ++ rest) = s ++ rest := by
    rw [hct]
    simp only [List.cons_append, skip0x]
    rw [if_pos ⟨trivial, hx, by rw [digitVal_eq, hd0]; simp [hlt0]⟩]
  have hloop : digitsLoop 16 (s ++ rest) 0 false = (v, true) := by
    rw [numeral_digitsLoop hs]
    cases rest with
    | nil => rfl
    | cons b r =>
      have := hrest b rfl
      rw [digitsLoop, digitVal_eq]
      cases hb : digit? b with
      | none => simp
      | some d => simp [this d hb]
  unfold strtoi
  simp only [strtol_hex longMax ws sg (48 :: x :: s ++ rest) neg v hws hsg rfl (by rw [hskip]; exact hloop)]
  cases neg with
  | false =>
    simp only [Bool.false_eq_true, if_false] at hv ⊢
    rw [if_pos (by omega), toInt32_id _ (by omega) (by omega)]
  | true =>
    simp only [if_true] at hv ⊢
    rw [if_pos (by omega), toInt32_id _ (by omega) (by omega)]

/-- `0x` that no hexadecimal digit follows is the number 0. -/
theorem C08_hex_prefix_alone (longMax : Nat) (ws sg rest : Str) (neg : Bool) (x : Byte) (hx : x = 120 ∨ x = 88)
    (hws : ∀ b ∈ ws, White b) (hsg : SignText sg neg)
    (hrest : ∀ b, rest.head? = some b → ∀ d, digit? b = some d → ¬ d < 16) :
    strtoi longMax (some (ws ++ sg ++ (48 :: x :: rest))) 16 = (.success, some 0) := by
  have hskip : skip0x 16 (48 :: x :: rest) = 48 :: x :: rest := by
    unfold skip0x
    split
    · rename_i y d t heq
      simp only [List.cons.injEq, true_and] at heq
      rw [if_neg]
      rintro ⟨_, _, h⟩
      have := hrest d (by rw [heq.2]; rfl)
      rw [digitVal_eq] at h
      cases hd : digit? d with
      | none => rw [hd] at h; simp at h
      | some k => rw [hd] at h; simp [this k hd] at h
    · rfl
  have hloop : digitsLoop 16 (48 :: x :: rest) 0 false = (0, true) := by
    have h0 : digitVal 16 48 = some 0 := by decide
    have h1 : digitVal 16 x = none := by rcases hx with rfl | rfl <;> decide
    simp [digitsLoop, h0, h1]
  unfold strtoi
  simp only [strtol_hex longMax ws sg (48 :: x :: rest) neg 0 hws hsg rfl (by rw [hskip]; exact hloop)]
  cases neg <;> simp [toInt32]

example : strtoi (2 ^ 31 - 1) (some (str " -0xFfz")) 16 = (.success, some (-255)) ∧
    strtoi (2 ^ 31 - 1) (some (str "0x,1")) 16 = (.success, some 0) := by decide +kernel

end Cellular.Props
