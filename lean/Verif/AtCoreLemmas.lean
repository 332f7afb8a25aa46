import Verif.AtStr
/-!
# Helper lemmas: the byte-buffer model of cellular_at_core.c computes the string-value functions
-/

namespace Cellular
open AtCore

theorem NoNul.cons {b : Byte} {s : Str} (h : NoNul (b :: s)) : b ≠ 0 ∧ NoNul s :=
  ⟨h b (by simp), fun x hx => h x (by simp [hx])⟩

theorem NoNul.append {s t : Str} : NoNul (s ++ t) ↔ NoNul s ∧ NoNul t := by
  constructor
  · intro h; exact ⟨fun x hx => h x (by simp [hx]), fun x hx => h x (by simp [hx])⟩
  · rintro ⟨h1, h2⟩ x hx
    rcases List.mem_append.mp hx with h | h
    · exact h1 x h
    · exact h2 x h

theorem NoNul.filter {s : Str} (h : NoNul s) (f : Byte → Bool) : NoNul (s.filter f) :=
  fun x hx => h x (List.mem_filter.mp hx).1

theorem NoNul.sub {s t : Str} (h : NoNul s) (hs : ∀ x ∈ t, x ∈ s) : NoNul t :=
  fun x hx => h x (hs x hx)

theorem rd_append (pre post : List Byte) (b : Byte) :
    rd (pre ++ b :: post) pre.length = some b := by
  simp [rd]

theorem rd_append' (pre post : List Byte) (b : Byte) (n : Nat) (h : n = pre.length) :
    rd (pre ++ b :: post) n = some b := by
  subst h; simp [rd]

theorem wr_append (pre post : List Byte) (b c : Byte) :
    wr (pre ++ b :: post) pre.length c = some (pre ++ c :: post) := by
  simp [wr]

theorem wr_append' (pre post : List Byte) (b c : Byte) (n : Nat) (h : n = pre.length) :
    wr (pre ++ b :: post) n c = some (pre ++ c :: post) := by
  subst h; simp [wr]

theorem memchr0L_str (s post : List Byte) (n : Nat) (hs : NoNul s) :
    memchr0L (s ++ 0 :: post) n = some (if s.length < n then some s.length else none) := by
  induction s generalizing n with
  | nil => cases n <;> simp [memchr0L]
  | cons b t ih =>
    obtain ⟨hb, ht⟩ := hs.cons
    cases n with
    | zero => simp [memchr0L]
    | succ n =>
      simp only [List.cons_append, memchr0L, if_neg hb, ih n ht, Option.map_some,
        List.length_cons, Nat.add_lt_add_iff_right]
      split <;> simp

theorem strlenL_str (s post : List Byte) (hs : NoNul s) :
    strlenL (s ++ 0 :: post) = some s.length := by
  induction s with
  | nil => simp [strlenL]
  | cons b t ih =>
    obtain ⟨hb, ht⟩ := hs.cons
    simp [strlenL, hb, ih ht]

theorem strchrL_str (c : Byte) (hc : c ≠ 0) (s post : List Byte) (hs : NoNul s) :
    strchrL c (s ++ 0 :: post) =
      some (if c ∈ s then some (s.takeWhile (fun b => b != c)).length else none) := by
  induction s with
  | nil => simp [strchrL, Ne.symm hc]
  | cons b t ih =>
    obtain ⟨hb, ht⟩ := hs.cons
    by_cases h : b = c
    · subst h; simp [strchrL]
    · have h' : ¬ c = b := fun e => h e.symm
      simp only [List.cons_append, strchrL, if_neg h, if_neg hb, ih ht, Option.map_some,
        List.mem_cons, h', false_or]
      split <;> simp [h]

theorem spanL_str (f : Byte → Bool) (s post : List Byte) (hs : NoNul s) :
    spanL f (s ++ 0 :: post) = some (s.takeWhile f).length := by
  induction s with
  | nil => simp [spanL]
  | cons b t ih =>
    obtain ⟨hb, ht⟩ := hs.cons
    by_cases h : f b = true
    · simp [spanL, hb, h, ih ht]
    · simp [spanL, h]

theorem leadingLoop_str (s post : List Byte) (hs : NoNul s) :
    leadingLoop (s ++ 0 :: post) = some (s.takeWhile isSpace).length := by
  induction s with
  | nil => simp [leadingLoop]
  | cons b t ih =>
    obtain ⟨hb, ht⟩ := hs.cons
    by_cases h : isSpace b = true
    · simp [leadingLoop, hb, h, ih ht]
    · simp [leadingLoop, h]

theorem isDigitLoop_str (s post : List Byte) (acc : Bool) (hs : NoNul s) :
    isDigitLoop (s ++ 0 :: post) acc = some (acc && s.all isDigit) := by
  induction s generalizing acc with
  | nil => simp [isDigitLoop]
  | cons b t ih =>
    obtain ⟨hb, ht⟩ := hs.cons
    simp only [List.cons_append, isDigitLoop, if_neg hb, ih _ ht, List.all_cons]
    cases isDigit b <;> simp

theorem startWithLoop_str (s k post post' : List Byte) (hk : NoNul k) (hs : NoNul s) :
    startWithLoop (s ++ 0 :: post) (k ++ 0 :: post') = some (k.isPrefixOf s) := by
  induction k generalizing s with
  | nil => cases s <;> simp [startWithLoop]
  | cons b t ih =>
    obtain ⟨hb, ht⟩ := hk.cons
    cases s with
    | nil => simp [startWithLoop, hb]
    | cons c s =>
      obtain ⟨hc, hs'⟩ := hs.cons
      by_cases h : b = c
      · subst h
        simp [startWithLoop, hb, ih s ht hs', List.isPrefixOf]
      · simp [startWithLoop, hb, h, List.isPrefixOf]

theorem prefixLoop_str (s post : List Byte) (n : Nat) (hn : n ≤ s.length) :
    prefixLoop (s ++ post) n = some ((s.take n).all (fun b => !notPrefixChar b)) := by
  induction s generalizing n with
  | nil => simp at hn; subst hn; simp [prefixLoop]
  | cons b t ih =>
    cases n with
    | zero => simp [prefixLoop]
    | succ n =>
      simp only [List.length_cons, Nat.add_le_add_iff_right] at hn
      by_cases h : notPrefixChar b = true
      · simp [prefixLoop, h]
      · simp [prefixLoop, h, ih n hn]

/-! ### Strings inside an object -/

theorem CStrAt.noNul {m : Mem} {p : Nat} {s : Str} (h : CStrAt m p s) : NoNul s := h.1

theorem CStrAt.mk {pre s post : List Byte} (h : NoNul s) :
    CStrAt (pre ++ (s ++ 0 :: post)) pre.length s := ⟨h, pre, post, rfl, rfl⟩

theorem CStrAt.drop {m : Mem} {p : Nat} {s : Str} (h : CStrAt m p s) :
    ∃ post, m.drop p = s ++ 0 :: post := by
  obtain ⟨_, pre, post, rfl, rfl⟩ := h
  exact ⟨post, by simp⟩

theorem CStrAt.suffix {m : Mem} {p : Nat} {s t : Str} (h : CStrAt m p (s ++ t)) :
    CStrAt m (p + s.length) t := by
  obtain ⟨hn, pre, post, rfl, rfl⟩ := h
  exact ⟨(NoNul.append.mp hn).2, pre ++ s, post, by simp, by simp⟩

theorem validateString_str {m : Mem} {p : Nat} {s : Str} (h : CStrAt m p s) :
    validateString m p =
      some (if s = [] then .empty else if s.length ≤ maxStringSize then .valid else .tooLarge) := by
  obtain ⟨post, hd⟩ := h.drop
  unfold validateString
  rw [hd, memchr0L_str _ _ _ h.noNul]
  by_cases he : s = []
  · subst he; simp [maxStringSize]
  · have hl : s.length ≠ 0 := by simpa using he
    by_cases hle : s.length ≤ maxStringSize
    · rw [if_pos (by omega)]
      simp only [he, if_false, hle, if_true]
    · rw [if_neg (by omega)]; simp [he, hle]

theorem valid_iff (s : Str) : AtStr.valid s = true ↔ s ≠ [] ∧ s.length ≤ maxStringSize := by
  simp [AtStr.valid]

theorem validateString_valid {m : Mem} {p : Nat} {s : Str} (h : CStrAt m p s)
    (hv : AtStr.valid s = true) : validateString m p = some .valid := by
  obtain ⟨h1, h2⟩ := (valid_iff s).mp hv
  rw [validateString_str h]; simp [h1, h2]

theorem validateString_invalid {m : Mem} {p : Nat} {s : Str} (h : CStrAt m p s)
    (hv : AtStr.valid s = false) : ∃ v, validateString m p = some v ∧ v ≠ .valid := by
  refine ⟨_, validateString_str h, ?_⟩
  have : ¬ (s ≠ [] ∧ s.length ≤ maxStringSize) := by
    intro h'; rw [(valid_iff s).mpr h'] at hv; exact absurd hv (by simp)
  by_cases he : s = []
  · simp [he]
  · by_cases hl : s.length ≤ maxStringSize
    · exact absurd ⟨he, hl⟩ this
    · simp [he, hl]

theorem strlen_str {m : Mem} {p : Nat} {s : Str} (h : CStrAt m p s) :
    strlen m p = some s.length := by
  obtain ⟨post, hd⟩ := h.drop
  unfold strlen
  rw [hd, strlenL_str _ _ h.noNul]

/-! ### The compaction loop -/

theorem compactLoop_step (del : Byte → Bool) (m : Mem) (r w : Nat) :
    compactLoop del m r w =
      match rd m r with
      | none => none
      | some b =>
        if b = 0 then wr m w 0
        else if del b then compactLoop del m (r + 1) w
        else match wr m w b with
          | none => none
          | some m' => compactLoop del m' (r + 1) (w + 1) := by
  conv => lhs; unfold compactLoop
  cases h : rd m r with
  | none => simp
  | some b =>
    simp only []
    split
    · rfl
    · split
      · rfl
      · cases hw : wr m w b <;> simp

theorem compactLoop_str (del : Byte → Bool) (s : Str) (hs : NoNul s) :
    ∀ (pre out gap post : List Byte),
      compactLoop del (pre ++ out ++ gap ++ (s ++ 0 :: post))
          (pre.length + out.length + gap.length) (pre.length + out.length) =
        some (pre ++ out ++ s.filter (fun b => !del b) ++
          0 :: (gap ++ s ++ 0 :: post).drop ((s.filter (fun b => !del b)).length + 1)) := by
  induction s with
  | nil =>
    intro pre out gap post
    rw [compactLoop_step]
    have h1 : rd (pre ++ out ++ gap ++ ([] ++ 0 :: post)) (pre.length + out.length + gap.length)
        = some 0 := by
      rw [List.nil_append]
      exact rd_append' (pre ++ out ++ gap) post 0 _ (by simp; omega)
    rw [h1]
    simp only [if_true]
    cases gap with
    | nil =>
      have := wr_append' (pre ++ out) post 0 0 (pre.length + out.length) (by simp)
      simpa using this
    | cons g gap =>
      have := wr_append' (pre ++ out) (gap ++ 0 :: post) g 0 (pre.length + out.length) (by simp)
      simpa using this
  | cons b t ih =>
    intro pre out gap post
    obtain ⟨hb, ht⟩ := hs.cons
    rw [compactLoop_step]
    have h1 : rd (pre ++ out ++ gap ++ ((b :: t) ++ 0 :: post))
        (pre.length + out.length + gap.length) = some b :=
      rd_append' (pre ++ out ++ gap) (t ++ 0 :: post) b _ (by simp; omega)
    rw [h1]
    simp only [if_neg hb]
    by_cases hd : del b = true
    · simp only [hd, if_true]
      have := ih ht pre out (gap ++ [b]) post
      simp only [List.length_append, List.length_cons, List.length_nil] at this
      have e : pre ++ out ++ (gap ++ [b]) ++ (t ++ 0 :: post)
          = pre ++ out ++ gap ++ ((b :: t) ++ 0 :: post) := by simp
      rw [e] at this
      simpa [hd, Nat.add_assoc] using this
    · have hd' : del b = false := by simpa using hd
      simp only [hd', Bool.false_eq_true, if_false]
      cases gap with
      | nil =>
        have hw : wr (pre ++ out ++ [] ++ ((b :: t) ++ 0 :: post)) (pre.length + out.length) b
            = some (pre ++ (out ++ [b]) ++ [] ++ (t ++ 0 :: post)) := by
          have := wr_append' (pre ++ out) (t ++ 0 :: post) b b (pre.length + out.length) (by simp)
          simpa using this
        rw [hw]
        simp only []
        have := ih ht pre (out ++ [b]) [] post
        simp only [List.length_append, List.length_cons, List.length_nil] at this
        simpa [hd', Nat.add_assoc] using this
      | cons g gap =>
        have hw : wr (pre ++ out ++ (g :: gap) ++ ((b :: t) ++ 0 :: post)) (pre.length + out.length) b
            = some (pre ++ (out ++ [b]) ++ (gap ++ [b]) ++ (t ++ 0 :: post)) := by
          have := wr_append' (pre ++ out) (gap ++ b :: (t ++ 0 :: post)) g b
            (pre.length + out.length) (by simp)
          simpa using this
        rw [hw]
        simp only []
        have := ih ht pre (out ++ [b]) (gap ++ [b]) post
        simp only [List.length_append, List.length_cons, List.length_nil] at this
        have e1 : pre.length + (out.length + (0 + 1)) + (gap.length + (0 + 1))
            = pre.length + out.length + (gap.length + 1) + 1 := by omega
        rw [e1] at this
        simpa [hd', Nat.add_assoc] using this

end Cellular
