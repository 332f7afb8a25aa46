import Verif.AtCoreRefine
import Mathlib.Data.List.Forall2
/-!
# Helper lemmas: hex decoding, result-code matching, duplication, integer parsing
-/

namespace Cellular
open AtCore Spec

/-! ### Bytes as numbers -/

theorem byte_eq_iff (a b : Byte) : a = b ↔ a.toNat = b.toNat := UInt8.toNat_inj.symm
theorem byte_le_iff (a b : Byte) : a ≤ b ↔ a.toNat ≤ b.toNat := UInt8.le_iff_toNat_le

theorem isSpace_iff (b : Byte) : isSpace b = true ↔ White b := by
  simp only [isSpace, White, Bool.or_eq_true, Bool.and_eq_true, decide_eq_true_eq, beq_iff_eq,
    byte_eq_iff, byte_le_iff, UInt8.toNat_ofNat]
  omega

theorem isDigit_iff (b : Byte) : isDigit b = true ↔ 48 ≤ b.toNat ∧ b.toNat ≤ 57 := by
  simp only [isDigit, Bool.and_eq_true, decide_eq_true_eq, byte_le_iff, UInt8.toNat_ofNat]

theorem notPrefixChar_iff (b : Byte) : notPrefixChar b = false ↔ PrefixChar b := by
  have h1 : isAlpha b = true ↔ (65 ≤ b ∧ b ≤ 90) ∨ (97 ≤ b ∧ b ≤ 122) := by
    simp [isAlpha]
  have h2 : isDigit b = true ↔ 48 ≤ b ∧ b ≤ 57 := by simp [isDigit]
  unfold notPrefixChar PrefixChar isPrefixLeading
  cases ha : isAlpha b <;> cases hd : isDigit b <;>
    simp_all <;> by_cases h95 : b = 95 <;> by_cases h43 : b = 43 <;> simp_all
  rcases h1 with h | h <;> simp [h]

/-! ### Hex -/

theorem charToNibble_hexDigit (up : Bool) (n : Nat) (h : n < 16) :
    charToNibble (hexDigit up n) = UInt8.ofNat n := by
  revert h n; cases up <;> decide

theorem hexByte_hexDigits (up : Bool) (b : Byte) :
    hexByte (hexDigit up (b.toNat / 16)) (hexDigit up (b.toNat % 16)) = b := by
  have hb := b.toNat_lt
  unfold hexByte
  rw [charToNibble_hexDigit up _ (by omega), charToNibble_hexDigit up _ (by omega)]
  have h1 : UInt8.ofNat (b.toNat / 16) ≠ 255 := by
    rw [ne_eq, byte_eq_iff]; simp; omega
  rw [if_neg h1]
  have key : ∀ x : Nat, x < 16 → ∀ y : Nat, y < 16 →
      (UInt8.ofNat x <<< 4) ||| UInt8.ofNat y = UInt8.ofNat (x * 16 + y) := by decide
  rw [key _ (by omega) _ (by omega)]
  have e : b.toNat / 16 * 16 + b.toNat % 16 = b.toNat := by omega
  rw [e]; simp

theorem hexText_length (up : Bool) (bs : List Byte) : (hexText up bs).length = 2 * bs.length := by
  induction bs with
  | nil => simp [hexText]
  | cons b t ih => simp [hexText, ih]; omega

theorem hexDigit_ne_zero (up : Bool) (n : Nat) (h : n < 16) : hexDigit up n ≠ 0 := by
  revert h n; cases up <;> decide

theorem hexText_noNul (up : Bool) (bs : List Byte) : NoNul (hexText up bs) := by
  induction bs with
  | nil => intro b hb; simp [hexText] at hb
  | cons b t ih =>
    have hb := b.toNat_lt
    intro x hx
    simp only [hexText, List.mem_cons] at hx
    rcases hx with h | h | h
    · rw [h]; exact hexDigit_ne_zero up _ (by omega)
    · rw [h]; exact hexDigit_ne_zero up _ (by omega)
    · exact ih x h

/-- The decoding loop writes exactly the decoded bytes. -/
theorem hexLoop_hexText (up : Bool) (bs : List Byte) :
    ∀ (pre post done rest : List Byte), bs.length ≤ rest.length →
      hexLoop (pre ++ (hexText up bs ++ post)) pre.length (done ++ rest) done.length bs.length =
        some (done ++ bs ++ rest.drop bs.length) := by
  induction bs with
  | nil => intro pre post done rest _; simp [hexLoop]
  | cons b t ih =>
    intro pre post done rest hl
    cases rest with
    | nil => simp at hl
    | cons r rest =>
      simp only [List.length_cons, Nat.add_le_add_iff_right] at hl
      have h1 : rd (pre ++ (hexText up (b :: t) ++ post)) pre.length
          = some (hexDigit up (b.toNat / 16)) := rd_append' pre _ _ _ rfl
      have h2 : rd (pre ++ (hexText up (b :: t) ++ post)) (pre.length + 1)
          = some (hexDigit up (b.toNat % 16)) := by
        have := rd_append' (pre ++ [hexDigit up (b.toNat / 16)]) (hexText up t ++ post)
          (hexDigit up (b.toNat % 16)) (pre.length + 1) (by simp)
        simpa [hexText] using this
      have h3 : wr (done ++ r :: rest) done.length b = some (done ++ b :: rest) := wr_append _ _ _ _
      simp only [List.length_cons, hexLoop, h1, h2, hexByte_hexDigits, h3]
      have := ih (pre ++ [hexDigit up (b.toNat / 16), hexDigit up (b.toNat % 16)]) post
        (done ++ [b]) rest hl
      simp only [List.length_append, List.length_cons, List.length_nil] at this
      simpa [hexText] using this

/-- The decoding loop never leaves the objects, whatever the text. -/
theorem hexLoop_isSome (m : Mem) (n : Nat) : ∀ (r : Nat) (dst : Mem) (i : Nat),
    r + 2 * n ≤ m.length → i + n ≤ dst.length →
    ∃ dst', hexLoop m r dst i n = some dst' ∧ SameOutside dst dst' i (i + n) := by
  induction n with
  | zero => intro r dst i _ _; exact ⟨dst, rfl, SameOutside.refl _ _ _⟩
  | succ n ih =>
    intro r dst i h1 h2
    have e1 : rd m r = some m[r] := by simp [rd]
    have e2 : rd m (r + 1) = some m[r + 1] := by simp [rd]
    obtain ⟨dst1, hw⟩ : ∃ d, wr dst i (hexByte m[r] m[r + 1]) = some d := by
      unfold wr; rw [if_pos (by omega)]; exact ⟨_, rfl⟩
    have hs := SameOutside.wr hw
    obtain ⟨dst', h3, h4⟩ := ih (r + 2) dst1 (i + 1) (by omega) (by rw [hs.1]; omega)
    refine ⟨dst', ?_, (hs.mono (by omega) (by omega)).trans (h4.mono (by omega) (by omega))⟩
    simp [hexLoop, e1, e2, hw, h3]

/-! ### Result codes -/

theorem strStartWith_cases (s t : Str) :
    AtStr.strStartWith s t = (.success, some true) ∨ (AtStr.strStartWith s t).2 ≠ some true := by
  unfold AtStr.strStartWith
  split
  · cases List.isPrefixOf t s <;> simp
  · simp

theorem checkLoop_small {m : Mem} {p : Nat} {s : Str} (h : CStrAt m p s)
    {keys : List (Mem × Nat)} {ts : List Str}
    (hk : List.Forall₂ (fun (k : Mem × Nat) t => CStrAt k.1 k.2 t) keys ts)
    (hlen : keys.length ≤ 255) :
    ∀ (n : Nat) (i : Nat) (fuel : Nat), keys.length - i = n → i ≤ keys.length → n < fuel →
      checkLoop m p keys fuel (UInt8.ofNat i) =
        .done ((ts.drop i).any (fun k => (AtStr.strStartWith s k).2 == some true)) := by
  have htl : keys.length = ts.length := hk.length_eq
  intro n
  induction n with
  | zero =>
    intro i fuel h1 h2 h3
    have hi : i = keys.length := by omega
    obtain ⟨fuel, rfl⟩ : ∃ f, fuel = f + 1 := ⟨fuel - 1, by omega⟩
    have : (UInt8.ofNat i).toNat = i := by simp; omega
    rw [checkLoop, this, if_neg (by omega)]
    have : ts.drop i = [] := by rw [List.drop_eq_nil_iff]; omega
    simp [this]
  | succ n ih =>
    intro i fuel h1 h2 h3
    obtain ⟨fuel, rfl⟩ : ∃ f, fuel = f + 1 := ⟨fuel - 1, by omega⟩
    have hi : (UInt8.ofNat i).toNat = i := by simp; omega
    have hlt : i < keys.length := by omega
    have hlt' : i < ts.length := by omega
    have hki : CStrAt keys[i].1 keys[i].2 ts[i] := by
      have := List.forall₂_iff_get.mp hk
      simpa using this.2 i hlt hlt'
    rw [checkLoop, hi, if_pos hlt, List.getElem?_eq_getElem hlt]
    simp only []
    rw [strStartWith_refines h hki, List.drop_eq_getElem_cons hlt', List.any_cons]
    have hn : UInt8.ofNat i + 1 = UInt8.ofNat (i + 1) := by
      rw [byte_eq_iff]; simp
    have hrec := ih (i + 1) fuel (by omega) (by omega) (by omega)
    rw [hn, hrec]
    rcases strStartWith_cases s ts[i] with hc | hc
    · simp [hc]
    · have hb : ((AtStr.strStartWith s ts[i]).2 == some true) = false := by simpa using hc
      rw [hb, Bool.false_or]
      split
      · simp_all
      · simp_all
      · rfl

theorem checkLoop_hangs {m : Mem} {p : Nat} {s : Str} (h : CStrAt m p s)
    {keys : List (Mem × Nat)} {ts : List Str}
    (hk : List.Forall₂ (fun (k : Mem × Nat) t => CStrAt k.1 k.2 t) keys ts)
    (hlen : 256 ≤ keys.length)
    (hno : ∀ i, i < 256 → ∀ t, ts[i]? = some t → (AtStr.strStartWith s t).2 ≠ some true) :
    ∀ (fuel : Nat) (i : UInt8), checkLoop m p keys fuel i = .outOfFuel := by
  intro fuel
  induction fuel with
  | zero => intro i; rfl
  | succ fuel ih =>
    intro i
    have hi := i.toNat_lt
    have hlt : i.toNat < keys.length := by omega
    have hlt' : i.toNat < ts.length := by rw [← hk.length_eq]; omega
    have hki : CStrAt keys[i.toNat].1 keys[i.toNat].2 ts[i.toNat] := by
      have := List.forall₂_iff_get.mp hk
      simpa using this.2 i.toNat hlt hlt'
    rw [checkLoop, if_pos hlt, List.getElem?_eq_getElem hlt]
    simp only []
    rw [strStartWith_refines h hki]
    have := hno i.toNat hi _ (List.getElem?_eq_getElem hlt')
    have hih := ih (i + 1)
    split <;> simp_all

/-! ### Duplication -/

theorem dupLoop_str (s : Str) (hs : NoNul s) (post : List Byte) :
    ∀ (done rest : List Byte), rest.length = s.length + 1 →
      dupLoop (s ++ 0 :: post) (done ++ rest) done.length = some (done ++ s ++ [0]) := by
  induction s with
  | nil =>
    intro done rest h
    obtain ⟨r, rfl⟩ : ∃ r, rest = [r] := List.length_eq_one_iff.mp (by simpa using h)
    simp only [List.nil_append, dupLoop, if_true]
    simpa using wr_append done [] r 0
  | cons b t ih =>
    intro done rest h
    obtain ⟨hb, ht⟩ := hs.cons
    cases rest with
    | nil => simp at h
    | cons r rest =>
      simp only [List.cons_append, dupLoop, if_neg hb, wr_append]
      have := ih ht (done ++ [b]) rest (by simpa using h)
      simp only [List.length_append, List.length_cons, List.length_nil] at this
      simpa using this

/-! ### Integers -/

theorem digitVal_eq (base : Nat) (b : Byte) :
    digitVal base b = (digit? b).bind (fun d => if d < base then some d else none) := by
  unfold digitVal digit?
  have h2 : isDigit b = true ↔ 48 ≤ b ∧ b ≤ 57 := by simp [isDigit]
  by_cases h : 48 ≤ b ∧ b ≤ 57
  · simp [h2.mpr h, h]
  · have h' : isDigit b = false := by
      cases hh : isDigit b
      · rfl
      · exact absurd (h2.mp hh) h
    simp only [h', Bool.false_eq_true, if_false, if_neg h]
    by_cases ha : 97 ≤ b ∧ b ≤ 122
    · have := (byte_le_iff _ _).mp ha.1
      simp only [UInt8.toNat_ofNat] at this
      have e : b.toNat - 97 + 10 = b.toNat - 87 := by omega
      simp [ha, e]
    · by_cases hA : 65 ≤ b ∧ b ≤ 90
      · have := (byte_le_iff _ _).mp hA.1
        simp only [UInt8.toNat_ofNat] at this
        have e : b.toNat - 65 + 10 = b.toNat - 55 := by omega
        simp [ha, hA, e]
      · simp [ha, hA]

theorem numeral_digitsLoop {base : Nat} {s : Str} {v : Nat} (h : Numeral base s v)
    (t : Str) (any : Bool) : digitsLoop base (s ++ t) 0 any = digitsLoop base t v true := by
  induction h generalizing t any with
  | one h1 h2 =>
    simp [digitsLoop, digitVal_eq _ _, h1, h2]
  | snoc _ h1 h2 ih =>
    rw [List.append_assoc, ih]
    simp [digitsLoop, digitVal_eq _ _, h1, h2]

theorem numeral_digits {base : Nat} {s : Str} {v : Nat} (h : Numeral base s v) :
    s ≠ [] ∧ ∀ b ∈ s, ∃ d, digit? b = some d ∧ d < base := by
  induction h with
  | one h1 h2 => exact ⟨by simp, by intro b hb; simp at hb; subst hb; exact ⟨_, h1, h2⟩⟩
  | snoc _ h1 h2 ih =>
    refine ⟨by simp, fun b hb => ?_⟩
    rcases List.mem_append.mp hb with hb | hb
    · exact ih.2 b hb
    · simp at hb; subst hb; exact ⟨_, h1, h2⟩

theorem digit?_some {b : Byte} {d : Nat} (h : digit? b = some d) :
    isSpace b = false ∧ b ≠ 45 ∧ b ≠ 43 ∧ b ≠ 0 := by
  have h45 : b ≠ 45 := by rintro rfl; revert h; decide +revert
  have h43 : b ≠ 43 := by rintro rfl; revert h; decide +revert
  have h0 : b ≠ 0 := by rintro rfl; revert h; decide +revert
  refine ⟨?_, h45, h43, h0⟩
  cases hs : isSpace b
  · rfl
  · exfalso
    rcases (isSpace_iff b).mp hs with h' | h' | h' | h' | h' | h' <;> subst h' <;>
      simp [digit?] at h

theorem decText_numeral (n : Nat) : Numeral 10 (decText n) n := by
  induction n using Nat.strongRecOn with
  | _ n ih =>
    have hd : ∀ k, k < 10 → digit? (UInt8.ofNat (48 + k)) = some k := by decide
    rw [decText]
    split
    · exact Numeral.one (hd n (by omega)) (by omega)
    · have := Numeral.snoc (ih (n / 10) (by omega)) (hd (n % 10) (by omega)) (by omega)
      have e : n / 10 * 10 + n % 10 = n := by omega
      rwa [e] at this

end Cellular
