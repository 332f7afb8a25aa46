import Verif.AtStrtoi
/-!
# C68 (refused inputs, digit test) and the hex decoder on arbitrary text (C06)
-/

namespace Cellular.Spec

/-- Value of a hexadecimal digit character of either case. -/
def hexVal? (b : Byte) : Option Nat :=
  if 48 ≤ b.toNat ∧ b.toNat ≤ 57 then some (b.toNat - 48)
  else if 97 ≤ b.toNat ∧ b.toNat ≤ 102 then some (b.toNat - 87)
  else if 65 ≤ b.toNat ∧ b.toNat ≤ 70 then some (b.toNat - 55)
  else none

/-- The byte two characters stand for: 0xFF when either is not a hexadecimal digit. -/
def pairVal (a b : Byte) : Byte :=
  match hexVal? a, hexVal? b with
  | some x, some y => UInt8.ofNat (16 * x + y)
  | _, _ => 255

/-- The bytes of a text read two characters at a time; an odd last character is ignored. -/
def pairs : Str → List Byte
  | a :: b :: t => pairVal a b :: pairs t
  | _ => []

end Cellular.Spec

namespace Cellular.Props
open Cellular Cellular.Spec Cellular.AtCore

/-- A text no helper accepts: empty, or longer than 256 characters. -/
def BadText (s : Str) : Prop := s = [] ∨ 256 < s.length

theorem valid_of_not_bad {s : Str} : BadText s ↔ AtStr.valid s = false := by
  constructor
  · intro hbad
    cases hh : AtStr.valid s
    · rfl
    · obtain ⟨g1, g2⟩ := (valid_iff s).mp hh
      rcases hbad with hb | hb
      · exact absurd hb g1
      · simp only [maxStringSize] at g2; omega
  · intro hv
    rcases Nat.lt_or_ge 256 s.length with h | h
    · exact .inr h
    · left
      cases s with
      | nil => rfl
      | cons a t =>
        have := (valid_iff (a :: t)).mpr ⟨by simp, by simp only [maxStringSize]; omega⟩
        rw [this] at hv; exact absurd hv (by simp)

/-- C68: a NULL text is refused by every helper with the status BAD_PARAMETER; no result is stored and nothing is
written. -/
theorem C68_null_refused (m : Mem) (p : Option Nat) (longMax base fuel : Nat) (delim : Str)
    (alloc : Nat → Option Mem) (dst : Option Mem) (cap : Nat) (keys : Option (List (Mem × Nat))) (k : Mem) :
    isPrefixPresent m none = some (.badParameter, none) ∧
    strStartWith m none k p = some (.badParameter, none) ∧
    strStartWith m p k none = some (.badParameter, none) ∧
    removePrefix m none = some (.badParameter, none) ∧
    removeLeadingWhiteSpaces m none = some (.badParameter, none) ∧
    removeTrailingWhiteSpaces m none = some (.badParameter, m) ∧
    removeAllWhiteSpaces m none = some (.badParameter, m) ∧
    removeAllDoubleQuote m none = some (.badParameter, m) ∧
    removeOutermostDoubleQuote m none = some (.badParameter, none, m) ∧
    getNextTok m none = some ⟨.badParameter, none, none, m⟩ ∧
    getSpecificNextTok m none delim = some ⟨.badParameter, none, none, m⟩ ∧
    hexStrToHex m none dst cap = some (.badParameter, dst) ∧
    hexStrToHex m p none cap = some (.badParameter, none) ∧
    isStrDigit m none = some (.badParameter, none) ∧
    checkErrorCode fuel m none keys = .done (.badParameter, none) ∧
    checkErrorCode fuel m p none = .done (.badParameter, none) ∧
    strDup alloc m none = some (.badParameter, none) ∧
    strtoi longMax none base = (.badParameter, none) := by
  refine ⟨rfl, rfl, ?_, rfl, rfl, rfl, rfl, rfl, rfl, rfl, rfl, rfl, ?_, rfl, rfl, ?_, rfl, rfl⟩
  · cases p <;> rfl
  · cases p <;> rfl
  · cases p <;> rfl

/-- C68: an empty or over-long text is refused by every helper with the status BAD_PARAMETER; no result is stored, the
caller's pointer stays where it was, and no byte of the object (or of the destination) changes. -/
theorem C68_bad_text_refused (m : Mem) (p : Nat) (s : Str) (h : CStrAt m p s) (hbad : BadText s)
    (delim : Str) (alloc : Nat → Option Mem) (dst : Mem) (cap fuel : Nat) (keys : List (Mem × Nat))
    (k : Mem) (q : Nat) (t : Str) (hk : CStrAt k q t) :
    isPrefixPresent m (some p) = some (.badParameter, none) ∧
    strStartWith m (some p) k (some q) = some (.badParameter, none) ∧
    strStartWith k (some q) m (some p) = some (.badParameter, none) ∧
    removePrefix m (some p) = some (.badParameter, some p) ∧
    removeLeadingWhiteSpaces m (some p) = some (.badParameter, some p) ∧
    removeTrailingWhiteSpaces m (some p) = some (.badParameter, m) ∧
    removeAllWhiteSpaces m (some p) = some (.badParameter, m) ∧
    removeAllDoubleQuote m (some p) = some (.badParameter, m) ∧
    removeOutermostDoubleQuote m (some p) = some (.badParameter, some p, m) ∧
    getSpecificNextTok m (some p) delim = some ⟨.badParameter, some p, none, m⟩ ∧
    hexStrToHex m (some p) (some dst) cap = some (.badParameter, some dst) ∧
    isStrDigit m (some p) = some (.badParameter, none) ∧
    checkErrorCode fuel m (some p) (some keys) = .done (.badParameter, none) ∧
    strDup alloc m (some p) = some (.badParameter, none) := by
  obtain ⟨v, g1, g2⟩ := validateString_invalid h (valid_of_not_bad.mp hbad)
  have hk' := validateString_str hk
  refine ⟨?_, ?_, ?_, ?_, ?_, ?_, ?_, ?_, ?_, ?_, ?_, ?_, ?_, ?_⟩
  · simp [isPrefixPresent, g1, g2]
  · simp [strStartWith, g1, g2]
  · simp only [strStartWith, hk', g1, Option.bind_eq_bind, Option.bind_some]
    split
    · rfl
    · simp [g2]
  · simp [removePrefix, g1, g2]
  · simp [removeLeadingWhiteSpaces, g1, g2]
  · simp [removeTrailingWhiteSpaces, g1, g2]
  · simp [removeAllWhiteSpaces, g1, g2]
  · simp [removeAllDoubleQuote, g1, g2]
  · simp [removeOutermostDoubleQuote, g1, g2]
  · simp [getSpecificNextTok, g1, g2]
  · simp [hexStrToHex, g1, g2]
  · simp [isStrDigit, g1, g2]
  · simp [checkErrorCode, g1, g2]
  · simp [strDup, g1, g2]

/-- C68: on every other text the digit test succeeds and says whether all characters are decimal digits. -/
theorem C68_is_str_digit (m : Mem) (p : Nat) (s : Str) (h : CStrAt m p s) (hs : ¬ BadText s) :
    isStrDigit m (some p) =
      some (.success, some (decide (∀ b ∈ s, 48 ≤ b.toNat ∧ b.toNat ≤ 57))) := by
  have hv : AtStr.valid s = true := by
    cases hh : AtStr.valid s
    · exact absurd (valid_of_not_bad.mpr hh) hs
    · rfl
  rw [isStrDigit_refines h]
  simp only [AtStr.isStrDigit, hv, if_true]
  congr 3
  rw [Bool.eq_iff_iff]
  simp only [List.all_eq_true, decide_eq_true_eq]
  constructor
  · intro g b hb
    have := g b hb
    simp [isDigit, UInt8.le_iff_toNat_le] at this
    exact this
  · intro g b hb
    have := g b hb
    simp [isDigit, UInt8.le_iff_toNat_le]
    exact this

example : BadText [] ∧ CStrAt (demoMem "") 2 [] ∧ ¬ BadText (str "12a") ∧ CStrAt (demoMem "12a") 2 (str "12a") ∧
    isStrDigit (demoMem "12a") (some 2) = some (.success, some false) ∧
    isStrDigit (demoMem "128") (some 2) = some (.success, some true) :=
  ⟨.inl rfl, demoMem_at "" (by decide), by unfold BadText; decide, demoMem_at _ (by decide), by decide, by decide⟩

/-! ## C06 on arbitrary text -/

theorem hexByte_pairVal : ∀ a b : Byte, hexByte a b = pairVal a b := by
  have hn : ∀ a : Byte, charToNibble a = (match hexVal? a with | some x => UInt8.ofNat x | none => 255) := by
    intro a
    have : ∀ n : Fin 256, charToNibble (UInt8.ofNat n.1) =
        (match hexVal? (UInt8.ofNat n.1) with | some x => UInt8.ofNat x | none => 255) := by decide +kernel
    have h := this ⟨a.toNat, a.toNat_lt⟩
    simpa using h
  have hb : ∀ (a : Byte) (x : Nat), hexVal? a = some x → x < 16 := by
    intro a x h
    unfold hexVal? at h
    split at h
    · injection h with h; omega
    split at h
    · injection h with h; omega
    split at h
    · injection h with h; omega
    · exact absurd h (by simp)
  intro a b
  unfold hexByte pairVal
  rw [hn a, hn b]
  cases ha : hexVal? a with
  | none => simp
  | some x =>
    have hx := hb a x ha
    have hx' : UInt8.ofNat x ≠ 255 := by
      have : ∀ n : Fin 16, UInt8.ofNat n.1 ≠ 255 := by decide
      exact this ⟨x, hx⟩
    simp only [hx', if_false]
    cases hb' : hexVal? b with
    | none =>
      have : ∀ n : Fin 16, (UInt8.ofNat n.1 <<< 4) ||| 255 = (255 : UInt8) := by decide
      exact this ⟨x, hx⟩
    | some y =>
      have : ∀ n k : Fin 16, (UInt8.ofNat n.1 <<< 4) ||| UInt8.ofNat k.1 = UInt8.ofNat (16 * n.1 + k.1) := by decide
      exact this ⟨x, hx⟩ ⟨y, hb b y hb'⟩

theorem pairs_length : ∀ s : Str, (pairs s).length = s.length / 2
  | [] => rfl
  | [_] => by simp [pairs]
  | a :: b :: t => by simp [pairs, pairs_length t]; omega

theorem hexLoop_pairs : ∀ (s pre post done rest : List Byte), s.length / 2 ≤ rest.length →
    hexLoop (pre ++ (s ++ post)) pre.length (done ++ rest) done.length (s.length / 2) =
      some (done ++ pairs s ++ rest.drop (s.length / 2))
  | [], pre, post, done, rest, _ => by simp [hexLoop, pairs]
  | [a], pre, post, done, rest, _ => by simp [hexLoop, pairs]
  | a :: b :: t, pre, post, done, [], h => by
    exfalso; simp only [List.length_cons, List.length_nil] at h; omega
  | a :: b :: t, pre, post, done, r :: rest, h => by
    have e : (a :: b :: t).length / 2 = t.length / 2 + 1 := by simp only [List.length_cons]; omega
    rw [e] at h ⊢
    have h1 : rd (pre ++ (a :: b :: t ++ post)) pre.length = some a := by simp [rd]
    have h2 : rd (pre ++ (a :: b :: t ++ post)) (pre.length + 1) = some b := by
      simp [rd, List.getElem?_append_right]
    have h3 : wr (done ++ r :: rest) done.length (hexByte a b) = some (done ++ pairVal a b :: rest) := by
      rw [hexByte_pairVal]; simp [wr]
    simp only [hexLoop, h1, h2, h3]
    have := hexLoop_pairs t (pre ++ [a, b]) post (done ++ [pairVal a b]) rest (by
      simp only [List.length_cons] at h; omega)
    simp only [List.length_append, List.length_cons, List.length_nil, List.append_assoc, List.cons_append,
      List.nil_append] at this
    rw [show pre.length + 2 = pre.length + (0 + 1 + 1) from by omega]
    simpa [pairs, List.append_assoc] using this

/-- C06: the exact result on every accepted text, hexadecimal or not.  A pair with a character that is not a
hexadecimal digit is stored as 0xFF and the call still succeeds; an odd last character is dropped. -/
theorem C06_hex_any_text (m : Mem) (p : Nat) (s : Str) (dst : Mem) (cap : Nat)
    (h : CStrAt m p s) (hs : ¬ BadText s) (hcap : s.length / 2 < cap) (hdst : cap ≤ dst.length) :
    hexStrToHex m (some p) (some dst) cap =
      some (.success, some (pairs s ++ dst.drop (s.length / 2))) := by
  have hv : AtStr.valid s = true := by
    cases hh : AtStr.valid s
    · exact absurd (valid_of_not_bad.mpr hh) hs
    · rfl
  have hV := validateString_valid h hv
  have hL := strlen_str h
  obtain ⟨hn, pre, post, rfl, rfl⟩ := h
  have := hexLoop_pairs s pre (0 :: post) [] dst (by omega)
  simp only [List.nil_append, List.length_nil] at this
  simp only [hexStrToHex, hV, hL, this, Option.bind_eq_bind, Option.bind_some]
  rw [if_neg (by simp), if_neg (by omega)]
  rfl

/-- Text that is not hexadecimal decodes without an error. -/
theorem C06_witness_not_hex :
    hexStrToHex (demoMem "4g12zz7") (some 2) (some [1, 2, 3, 4, 5]) 5 =
      some (.success, some [255, 0x12, 255, 4, 5]) ∧ ¬ BadText (str "4g12zz7") :=
  ⟨by decide, by unfold BadText; decide⟩

end Cellular.Props
