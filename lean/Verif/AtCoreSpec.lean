import Verif.CStr
/-!
# Specification vocabulary for the AT string helpers (C01-C09)

Independent of the model: plain definitions a reader can check against the English property.
-/

namespace Cellular.Spec
open Cellular

/-- White space: space, tab, newline, vertical tab, form feed, carriage return. -/
def White (b : Byte) : Prop := b = 32 ∨ b = 9 ∨ b = 10 ∨ b = 11 ∨ b = 12 ∨ b = 13

instance (b : Byte) : Decidable (White b) := by unfold White; infer_instance

/-- The two objects have the same size and agree outside positions `lo ..< hi`. -/
def SameOutside (m m' : Mem) (lo hi : Nat) : Prop :=
  m'.length = m.length ∧ ∀ i, (i < lo ∨ hi ≤ i) → m'[i]? = m[i]?

/-- The fields of a text separated by `d`: always at least one, possibly empty ones. -/
def fields (d : Byte) : Str → List Str
  | [] => [[]]
  | b :: t =>
    if b = d then [] :: fields d t
    else match fields d t with
      | [] => [[b]]
      | f :: fs => (b :: f) :: fs

/-- A character allowed in the name of a response prefix: letter, digit, '_' or '+'. -/
def PrefixChar (b : Byte) : Prop :=
  (65 ≤ b ∧ b ≤ 90) ∨ (97 ≤ b ∧ b ≤ 122) ∨ (48 ≤ b ∧ b ≤ 57) ∨ b = 95 ∨ b = 43

/-- Hexadecimal digit of a value below 16; `up` selects upper case. -/
def hexDigit (up : Bool) (n : Nat) : Byte :=
  if n < 10 then UInt8.ofNat (48 + n)
  else if up then UInt8.ofNat (55 + n) else UInt8.ofNat (87 + n)

/-- Hexadecimal text of a byte sequence, two digits per byte, most significant digit first. -/
def hexText (up : Bool) : List Byte → Str
  | [] => []
  | b :: t => hexDigit up (b.toNat / 16) :: hexDigit up (b.toNat % 16) :: hexText up t

/-- Value of a digit character in any base up to 36. -/
def digit? (b : Byte) : Option Nat :=
  if 48 ≤ b ∧ b ≤ 57 then some (b.toNat - 48)
  else if 97 ≤ b ∧ b ≤ 122 then some (b.toNat - 87)
  else if 65 ≤ b ∧ b ≤ 90 then some (b.toNat - 55)
  else none

/-- `s` is a non-empty numeral in `base` with value `v` (any number of leading zeros). -/
inductive Numeral (base : Nat) : Str → Nat → Prop
  | one {b d} : digit? b = some d → d < base → Numeral base [b] d
  | snoc {s v b d} : Numeral base s v → digit? b = some d → d < base →
      Numeral base (s ++ [b]) (v * base + d)

/-- Decimal text of a number, as printed by `%d`. -/
def decText (n : Nat) : Str :=
  if n < 10 then [UInt8.ofNat (48 + n)] else decText (n / 10) ++ [UInt8.ofNat (48 + n % 10)]
termination_by n

/-- Decimal text of an integer. -/
def intText : Int → Str
  | .ofNat n => decText n
  | .negSucc n => 45 :: decText (n + 1)

end Cellular.Spec
