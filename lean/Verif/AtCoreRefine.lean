import Verif.AtCoreLemmas
import Verif.AtCoreSpec
import Mathlib.Data.List.Induction
import Mathlib.Data.List.TakeWhile
/-!
# Helper lemmas: each byte-buffer function refines its string-value counterpart, with frame
-/

namespace Cellular
open AtCore Spec

theorem Spec.SameOutside.of_mid (pre mid mid' post : List Byte) (h : mid'.length = mid.length) :
    SameOutside (pre ++ (mid ++ post)) (pre ++ (mid' ++ post)) pre.length
      (pre.length + mid.length) := by
  refine ⟨by simp [h], fun i hi => ?_⟩
  rcases hi with hi | hi
  · rw [List.getElem?_append_left hi, List.getElem?_append_left hi]
  · rw [List.getElem?_append_right (by omega), List.getElem?_append_right (by omega),
      List.getElem?_append_right (by omega), List.getElem?_append_right (by omega), h]

theorem Spec.SameOutside.refl (m : Mem) (lo hi : Nat) : SameOutside m m lo hi := ⟨rfl, fun _ _ => rfl⟩

theorem Spec.SameOutside.mono {m m' : Mem} {lo hi lo' hi' : Nat} (h : SameOutside m m' lo hi)
    (h1 : lo' ≤ lo) (h2 : hi ≤ hi') : SameOutside m m' lo' hi' :=
  ⟨h.1, fun i hi => h.2 i (by omega)⟩

theorem Spec.SameOutside.trans {m m' m'' : Mem} {lo hi : Nat} (h : SameOutside m m' lo hi)
    (h' : SameOutside m' m'' lo hi) : SameOutside m m'' lo hi :=
  ⟨h'.1.trans h.1, fun i hi => (h'.2 i hi).trans (h.2 i hi)⟩

theorem compactLoop_refines (del : Byte → Bool) {m : Mem} {p : Nat} {s : Str} (h : CStrAt m p s) :
    ∃ m', compactLoop del m p p = some m' ∧ CStrAt m' p (s.filter (fun b => !del b)) ∧
      SameOutside m m' p (p + s.length + 1) := by
  obtain ⟨hn, pre, post, rfl, rfl⟩ := h
  have hc := compactLoop_str del s hn pre [] [] post
  simp only [List.append_nil, List.length_nil, Nat.add_zero, List.nil_append] at hc
  refine ⟨_, hc, ⟨hn.filter _, pre,
    (s ++ 0 :: post).drop ((s.filter (fun b => !del b)).length + 1), by simp, rfl⟩, ?_⟩
  have hle : (s.filter (fun b => !del b)).length ≤ s.length := List.length_filter_le _ _
  generalize s.filter (fun b => !del b) = f at hle ⊢
  have hlt : f.length + 1 ≤ (s ++ [0]).length := by simpa using hle
  have e : List.drop (f.length + 1) (s ++ 0 :: post) = List.drop (f.length + 1) (s ++ [0]) ++ post := by
    have : s ++ 0 :: post = (s ++ [0]) ++ post := by simp
    rw [this, List.drop_append_of_le_length hlt]
  rw [e]
  have key := SameOutside.of_mid pre (s ++ [0]) (f ++ 0 :: List.drop (f.length + 1) (s ++ [0])) post
    (by simp at hlt ⊢; omega)
  simpa [Nat.add_assoc] using key

theorem removeAllWhiteSpaces_refines {m : Mem} {p : Nat} {s : Str} (h : CStrAt m p s) :
    ∃ m', AtCore.removeAllWhiteSpaces m (some p) = some ((AtStr.removeAllWhiteSpaces s).1, m') ∧
      CStrAt m' p (AtStr.removeAllWhiteSpaces s).2 ∧ SameOutside m m' p (p + s.length + 1) := by
  cases hv : AtStr.valid s with
  | true =>
    obtain ⟨m', h1, h2, h3⟩ := compactLoop_refines isSpace h
    refine ⟨m', ?_, ?_, h3⟩
    · simp [AtCore.removeAllWhiteSpaces, AtStr.removeAllWhiteSpaces, validateString_valid h hv, hv, h1]
    · simpa [AtStr.removeAllWhiteSpaces, hv] using h2
  | false =>
    obtain ⟨v, h1, h2⟩ := validateString_invalid h hv
    refine ⟨m, ?_, ?_, SameOutside.refl _ _ _⟩
    · simp [AtCore.removeAllWhiteSpaces, AtStr.removeAllWhiteSpaces, h1, hv, h2]
    · simpa [AtStr.removeAllWhiteSpaces, hv] using h

theorem removeAllDoubleQuote_refines {m : Mem} {p : Nat} {s : Str} (h : CStrAt m p s) :
    ∃ m', AtCore.removeAllDoubleQuote m (some p) = some ((AtStr.removeAllDoubleQuote s).1, m') ∧
      CStrAt m' p (AtStr.removeAllDoubleQuote s).2 ∧ SameOutside m m' p (p + s.length + 1) := by
  cases hv : AtStr.valid s with
  | true =>
    obtain ⟨m', h1, h2, h3⟩ := compactLoop_refines (fun b => b == 34) h
    refine ⟨m', ?_, ?_, h3⟩
    · simp [AtCore.removeAllDoubleQuote, AtStr.removeAllDoubleQuote, validateString_valid h hv, hv, h1]
    · simpa [AtStr.removeAllDoubleQuote, hv] using h2
  | false =>
    obtain ⟨v, h1, h2⟩ := validateString_invalid h hv
    refine ⟨m, ?_, ?_, SameOutside.refl _ _ _⟩
    · simp [AtCore.removeAllDoubleQuote, AtStr.removeAllDoubleQuote, h1, hv, h2]
    · simpa [AtStr.removeAllDoubleQuote, hv] using h

theorem removeLeadingWhiteSpaces_refines {m : Mem} {p : Nat} {s : Str} (h : CStrAt m p s) :
    ∃ q, AtCore.removeLeadingWhiteSpaces m (some p) =
        some ((AtStr.removeLeadingWhiteSpaces s).1, some q) ∧
      CStrAt m q (AtStr.removeLeadingWhiteSpaces s).2 ∧ p ≤ q ∧ q ≤ p + s.length := by
  cases hv : AtStr.valid s with
  | true =>
    obtain ⟨post, hd⟩ := h.drop
    refine ⟨p + (s.takeWhile isSpace).length, ?_, ?_, by omega, ?_⟩
    · simp [AtCore.removeLeadingWhiteSpaces, AtStr.removeLeadingWhiteSpaces,
        validateString_valid h hv, hv, hd, leadingLoop_str _ _ h.noNul]
    · simp only [AtStr.removeLeadingWhiteSpaces, hv, if_true]
      apply CStrAt.suffix (s := s.takeWhile isSpace)
      rwa [List.takeWhile_append_dropWhile]
    · have : (s.takeWhile isSpace).length ≤ s.length := (List.takeWhile_sublist _).length_le
      omega
  | false =>
    obtain ⟨v, h1, h2⟩ := validateString_invalid h hv
    refine ⟨p, ?_, ?_, by omega, by omega⟩
    · simp [AtCore.removeLeadingWhiteSpaces, AtStr.removeLeadingWhiteSpaces, h1, hv, h2]
    · simpa [AtStr.removeLeadingWhiteSpaces, hv] using h

theorem split_at_char {c : Byte} {s : Str} (hc : c ∈ s) :
    s = s.takeWhile (fun b => b != c) ++ c :: (s.dropWhile (fun b => b != c)).drop 1 := by
  induction s with
  | nil => simp at hc
  | cons b t ih =>
    by_cases h : b = c
    · subst h; simp
    · have : c ∈ t := by
        rcases List.mem_cons.mp hc with h' | h'
        · exact absurd h'.symm h
        · exact h'
      have hb : (b != c) = true := by simpa using h
      simp only [List.takeWhile_cons, hb, if_true, List.dropWhile_cons, List.cons_append]
      rw [← ih this]

theorem notMem_dropWhile {c : Byte} {s : Str} (hc : c ∉ s) :
    s.takeWhile (fun b => b != c) = s ∧ s.dropWhile (fun b => b != c) = [] := by
  induction s with
  | nil => simp
  | cons b t ih =>
    have h1 : b ≠ c := fun e => hc (by simp [e])
    have h2 : c ∉ t := fun e => hc (by simp [e])
    simp [h1, ih h2]

theorem take_length_takeWhile (f : Byte → Bool) (s : Str) :
    s.take (s.takeWhile f).length = s.takeWhile f := by
  induction s with
  | nil => simp
  | cons b t ih => by_cases h : f b = true <;> simp [h, ih]

theorem removePrefix_refines {m : Mem} {p : Nat} {s : Str} (h : CStrAt m p s) :
    match AtStr.removePrefix s with
    | (e, none) => AtCore.removePrefix m (some p) = some (e, none)
    | (e, some t) => ∃ q, AtCore.removePrefix m (some p) = some (e, some q) ∧ CStrAt m q t ∧
        p ≤ q ∧ q + t.length = p + s.length := by
  cases hv : AtStr.valid s with
  | true =>
    obtain ⟨post, hd⟩ := h.drop
    by_cases hc : (58 : Byte) ∈ s
    · have hsc : AtStr.removePrefix s = (.success, some ((s.dropWhile (fun b => b != 58)).drop 1)) := by
        simp [AtStr.removePrefix, hv, hc]
      rw [hsc]
      simp only []
      have hsplit := split_at_char hc
      refine ⟨p + (s.takeWhile (fun b => b != 58)).length + 1, ?_, ?_, by omega, ?_⟩
      · simp [AtCore.removePrefix, validateString_valid h hv, hd,
          strchrL_str 58 (by decide) _ _ h.noNul, hc]
      · have : CStrAt m p ((s.takeWhile (fun b => b != 58) ++ [58]) ++ (s.dropWhile (fun b => b != 58)).drop 1) := by
          rw [List.append_assoc, List.singleton_append, ← hsplit]; exact h
        simpa [Nat.add_assoc] using this.suffix
      · have := congrArg List.length hsplit
        simp only [List.length_append, List.length_cons] at this
        omega
    · have hsc : AtStr.removePrefix s = (.badParameter, none) := by
        simp [AtStr.removePrefix, hv, hc]
      rw [hsc]
      simp [AtCore.removePrefix, validateString_valid h hv, hd,
          strchrL_str 58 (by decide) _ _ h.noNul, hc]
  | false =>
    obtain ⟨v, h1, h2⟩ := validateString_invalid h hv
    have hsc : AtStr.removePrefix s = (.badParameter, some s) := by simp [AtStr.removePrefix, hv]
    rw [hsc]
    exact ⟨p, by simp [AtCore.removePrefix, h1, h2], h, by omega, by omega⟩

theorem isPrefixPresent_refines {m : Mem} {p : Nat} {s : Str} (h : CStrAt m p s) :
    AtCore.isPrefixPresent m (some p) = some (AtStr.isPrefixPresent s) := by
  cases hv : AtStr.valid s with
  | true =>
    obtain ⟨post, hd⟩ := h.drop
    have hne := ((valid_iff s).mp hv).1
    obtain ⟨c, t, rfl⟩ := List.exists_cons_of_ne_nil hne
    have hr : rd m p = some c := by
      obtain ⟨_, pre, post', rfl, rfl⟩ := h
      exact rd_append' pre (t ++ 0 :: post') c _ rfl
    have hS := strchrL_str 58 (by decide) (c :: t) post h.noNul
    have hn : (List.takeWhile (fun b => b != (58 : Byte)) (c :: t)).length ≤ (c :: t).length :=
      (List.takeWhile_sublist _).length_le
    have hP := prefixLoop_str (c :: t) (0 :: post) _ hn
    rw [take_length_takeWhile] at hP
    rw [← hd] at hS hP
    have hV := validateString_valid h hv
    unfold AtCore.isPrefixPresent AtStr.isPrefixPresent
    simp only [hV, hS, hr, hv, Option.bind_eq_bind, Option.bind_some]
    by_cases hc : (58 : Byte) ∈ c :: t
    · have hc' : (c :: t).contains 58 = true := by simpa using hc
      simp only [hc, if_true, hc', List.head?_cons]
      by_cases hl : c = 43
      · subst hl; rw [hP]; rfl
      · simp [isPrefixLeading, hl]
    · have hc' : (c :: t).contains 58 = false := by simpa using hc
      simp only [hc, if_false, hc']
      simp
  | false =>
    obtain ⟨v, h1, h2⟩ := validateString_invalid h hv
    simp [AtCore.isPrefixPresent, AtStr.isPrefixPresent, h1, h2, hv]

theorem strStartWith_refines {m k : Mem} {p q : Nat} {s t : Str} (h : CStrAt m p s)
    (h' : CStrAt k q t) :
    AtCore.strStartWith m (some p) k (some q) = some (AtStr.strStartWith s t) := by
  obtain ⟨post, hd⟩ := h.drop
  obtain ⟨post', hd'⟩ := h'.drop
  cases hv : AtStr.valid s with
  | true =>
    cases hv' : AtStr.valid t with
    | true =>
      simp [AtCore.strStartWith, AtStr.strStartWith, validateString_valid h hv, hv, hv',
        validateString_valid h' hv', hd, hd', startWithLoop_str _ _ _ _ h'.noNul h.noNul]
    | false =>
      obtain ⟨v, h1, h2⟩ := validateString_invalid h' hv'
      simp [AtCore.strStartWith, AtStr.strStartWith, validateString_valid h hv, hv, hv', h1, h2]
  | false =>
    obtain ⟨v, h1, h2⟩ := validateString_invalid h hv
    simp [AtCore.strStartWith, AtStr.strStartWith, hv, h1, h2]

theorem isStrDigit_refines {m : Mem} {p : Nat} {s : Str} (h : CStrAt m p s) :
    AtCore.isStrDigit m (some p) = some (AtStr.isStrDigit s) := by
  obtain ⟨post, hd⟩ := h.drop
  cases hv : AtStr.valid s with
  | true => simp [AtCore.isStrDigit, AtStr.isStrDigit, validateString_valid h hv, hv, hd,
      isDigitLoop_str _ _ _ h.noNul]
  | false =>
    obtain ⟨v, h1, h2⟩ := validateString_invalid h hv
    simp [AtCore.isStrDigit, AtStr.isStrDigit, hv, h1, h2]

/-! ### Frames -/

theorem CStrAt.lt {m : Mem} {p : Nat} {s : Str} (h : CStrAt m p s) : p + s.length < m.length := by
  obtain ⟨_, pre, post, rfl, rfl⟩ := h
  simp

theorem cstrAt_iff {m : Mem} {p : Nat} {s : Str} :
    CStrAt m p s ↔ NoNul s ∧ (∀ i, i < s.length → m[p + i]? = s[i]?) ∧
      m[p + s.length]? = some 0 := by
  constructor
  · rintro ⟨hn, pre, post, rfl, rfl⟩
    refine ⟨hn, fun i hi => ?_, ?_⟩
    · rw [List.getElem?_append_right (by omega)]
      rw [List.getElem?_append_left (by omega)]
      simp
    · rw [List.getElem?_append_right (by omega), List.getElem?_append_right (by omega)]
      have : pre.length + s.length - pre.length - s.length = 0 := by omega
      rw [this]; simp
  · rintro ⟨hn, h1, h2⟩
    have hlt : p + s.length < m.length := by
      rcases Nat.lt_or_ge (p + s.length) m.length with h | h
      · exact h
      · rw [List.getElem?_eq_none h] at h2; simp at h2
    refine ⟨hn, m.take p, m.drop (p + s.length + 1), ?_, by simp; omega⟩
    apply List.ext_getElem?
    intro i
    rcases Nat.lt_or_ge i p with hi | hi
    · rw [List.getElem?_append_left (by simp; omega), List.getElem?_take_of_lt hi]
    · rw [List.getElem?_append_right (by simp; omega)]
      have e : (m.take p).length = p := by simp; omega
      rw [e]
      rcases Nat.lt_or_ge (i - p) s.length with hi2 | hi2
      · rw [List.getElem?_append_left hi2, ← h1 _ hi2]; congr 1; omega
      · rw [List.getElem?_append_right hi2]
        rcases Nat.eq_or_lt_of_le hi2 with hi3 | hi3
        · have : i = p + s.length := by omega
          subst this
          rw [h2]; simp
        · obtain ⟨k, hk⟩ : ∃ k, i - p - s.length = k + 1 := ⟨i - p - s.length - 1, by omega⟩
          rw [hk, List.getElem?_cons_succ, List.getElem?_drop]; congr 1; omega

/-- A string not touched by a change survives it. -/
theorem CStrAt.frame {m m' : Mem} {p lo hi : Nat} {s : Str} (h : CStrAt m p s)
    (hs : SameOutside m m' lo hi) (hd : p + s.length + 1 ≤ lo ∨ hi ≤ p) : CStrAt m' p s := by
  rw [cstrAt_iff] at h ⊢
  refine ⟨h.1, fun i hi' => ?_, ?_⟩
  · rw [hs.2 (p + i) (by omega)]; exact h.2.1 i hi'
  · rw [hs.2 (p + s.length) (by omega)]; exact h.2.2

theorem Spec.SameOutside.wr {m m' : Mem} {i : Nat} {b : Byte} (h : wr m i b = some m') :
    SameOutside m m' i (i + 1) := by
  unfold Cellular.wr at h
  split at h
  · injection h with h
    subst h
    refine ⟨by simp, fun j hj => ?_⟩
    rw [List.getElem?_set_ne (by omega)]
  · simp at h

/-- Writing a NUL inside a string splits it in two. -/
theorem CStrAt.cut {m : Mem} {p : Nat} {a b : Str} (h : CStrAt m p (a ++ b)) :
    ∃ m', Cellular.wr m (p + a.length) 0 = some m' ∧ CStrAt m' p a ∧
      (∀ c b', b = c :: b' → CStrAt m' (p + a.length + 1) b') ∧
      SameOutside m m' (p + a.length) (p + a.length + 1) := by
  obtain ⟨hn, pre, post, rfl, rfl⟩ := h
  obtain ⟨hna, hnb⟩ := NoNul.append.mp hn
  cases b with
  | nil =>
    refine ⟨pre ++ (a ++ 0 :: post), ?_, ⟨hna, pre, post, rfl, rfl⟩, by simp, ?_⟩
    · have := wr_append' (pre ++ a) post 0 0 (pre.length + a.length) (by simp)
      simpa using this
    · simpa using SameOutside.refl _ _ _
  | cons c b =>
    have hw := wr_append' (pre ++ a) (b ++ 0 :: post) c 0 (pre.length + a.length) (by simp)
    have hw' : Cellular.wr (pre ++ (a ++ c :: b ++ 0 :: post)) (pre.length + a.length) 0 =
      some (pre ++ (a ++ 0 :: (b ++ 0 :: post))) := by simpa using hw
    refine ⟨_, hw', ⟨hna, pre, _, rfl, rfl⟩, ?_, SameOutside.wr hw'⟩
    intro c' b' e
    injection e with e1 e2
    subst e2
    exact ⟨hnb.cons.2, pre ++ a ++ [0], post, by simp, by simp; omega⟩

theorem rd_str {m : Mem} {p : Nat} {s : Str} (h : CStrAt m p s) (i : Nat) :
    i ≤ s.length → rd m (p + i) = some (if h : i < s.length then s[i] else 0) := by
  intro hi
  have h' := cstrAt_iff.mp h
  rcases Nat.eq_or_lt_of_le hi with e | e
  · subst e; simp [rd, h'.2.2]
  · simp [rd, h'.2.1 i e, e]

theorem rd_head {m : Mem} {p : Nat} {c : Byte} {t : Str} (h : CStrAt m p (c :: t)) :
    rd m p = some c := by
  have := rd_str h 0 (by simp)
  simpa using this

/-! ### Trailing white space -/

theorem dropTrailing_snoc (f : Byte → Bool) (l : Str) (b : Byte) :
    AtStr.dropTrailing f (l ++ [b]) = if f b then AtStr.dropTrailing f l else l ++ [b] := by
  unfold AtStr.dropTrailing
  by_cases h : f b = true <;> simp [h]

theorem dropTrailing_prefix (f : Byte → Bool) (l : Str) :
    ∃ r, l = AtStr.dropTrailing f l ++ r ∧ ∀ b ∈ r, f b = true := by
  induction l using List.reverseRecOn with
  | nil => exact ⟨[], by simp [AtStr.dropTrailing]⟩
  | append_singleton l b ih =>
    rw [dropTrailing_snoc]
    by_cases h : f b = true
    · obtain ⟨r, h1, h2⟩ := ih
      refine ⟨r ++ [b], ?_, ?_⟩
      · rw [if_pos h, ← List.append_assoc, ← h1]
      · intro x hx
        rcases List.mem_append.mp hx with hx | hx
        · exact h2 x hx
        · simp at hx; subst hx; exact h
    · exact ⟨[], by simp [h], by simp⟩

theorem trailingLoop_str {m : Mem} {p : Nat} {c : Byte} {t : Str} (h : CStrAt m p (c :: t))
    (n : Nat) (hn : n ≤ t.length) :
    trailingLoop m p (n + 1) = some (AtStr.dropTrailing isSpace (t.take n)).length := by
  induction n with
  | zero => simp [trailingLoop, AtStr.dropTrailing]
  | succ n ih =>
    rw [trailingLoop]
    have hr : rd m (p + (n + 1)) = some t[n] := by
      rw [rd_str h (n + 1) (by simp; omega)]
      have : n < t.length := by omega
      simp [this]
    have e : t.take (n + 1) = t.take n ++ [t[n]] := by
      rw [List.take_succ_eq_append_getElem (by omega)]
    rw [if_neg (by omega), hr, e, dropTrailing_snoc]
    simp only []
    split
    · exact ih (by omega)
    · simp; omega

theorem removeTrailingWhiteSpaces_refines {m : Mem} {p : Nat} {s : Str} (h : CStrAt m p s) :
    ∃ m', AtCore.removeTrailingWhiteSpaces m (some p) =
        some ((AtStr.removeTrailingWhiteSpaces s).1, m') ∧
      CStrAt m' p (AtStr.removeTrailingWhiteSpaces s).2 ∧ SameOutside m m' p (p + s.length + 1) := by
  cases hv : AtStr.valid s with
  | true =>
    by_cases hl : s.length > 2
    · obtain ⟨c, t, rfl⟩ := List.exists_cons_of_ne_nil ((valid_iff s).mp hv).1
      obtain ⟨r, hr, -⟩ := dropTrailing_prefix isSpace t
      have hloop := trailingLoop_str h t.length (Nat.le_refl _)
      rw [List.take_length] at hloop
      have h' : CStrAt m p ((c :: AtStr.dropTrailing isSpace t) ++ r) := by
        rw [List.cons_append, ← hr]; exact h
      obtain ⟨m', hw, hc, -, hso⟩ := h'.cut
      have hlen := congrArg List.length hr
      simp only [List.length_append] at hlen
      refine ⟨m', ?_, ?_, hso.mono (by omega) (by simp; omega)⟩
      · have e : p + (AtStr.dropTrailing isSpace t).length + 1
            = p + (c :: AtStr.dropTrailing isSpace t).length := by simp; omega
        unfold AtCore.removeTrailingWhiteSpaces AtStr.removeTrailingWhiteSpaces
        simp only [validateString_valid h hv, strlen_str h, hv, Option.bind_eq_bind,
          Option.bind_some, hloop, List.length_cons, e, if_true, ne_eq,
          not_true_eq_false, if_false]
        rw [List.length_cons] at hl
        simp only [if_pos hl]
        rw [← List.length_cons (a := c), hw]; rfl
      · simp only [AtStr.removeTrailingWhiteSpaces, hv, if_true, if_pos hl]
        simpa using hc
    · refine ⟨m, ?_, ?_, SameOutside.refl _ _ _⟩
      · simp [AtCore.removeTrailingWhiteSpaces, AtStr.removeTrailingWhiteSpaces,
          validateString_valid h hv, strlen_str h, hv, hl]
      · simpa [AtStr.removeTrailingWhiteSpaces, hv, hl] using h
  | false =>
    obtain ⟨v, h1, h2⟩ := validateString_invalid h hv
    refine ⟨m, ?_, ?_, SameOutside.refl _ _ _⟩
    · simp [AtCore.removeTrailingWhiteSpaces, AtStr.removeTrailingWhiteSpaces, h1, hv, h2]
    · simpa [AtStr.removeTrailingWhiteSpaces, hv] using h

/-! ### Outermost quotes -/

theorem removeOutermostDoubleQuote_refines {m : Mem} {p : Nat} {s : Str} (h : CStrAt m p s) :
    ∃ q m', AtCore.removeOutermostDoubleQuote m (some p) =
        some ((AtStr.removeOutermostDoubleQuote s).1, some q, m') ∧
      CStrAt m' q (AtStr.removeOutermostDoubleQuote s).2 ∧
      SameOutside m m' p (p + s.length + 1) ∧ p ≤ q ∧ q ≤ p + 1 := by
  cases hv : AtStr.valid s with
  | true =>
    by_cases hl : s.length > 2
    · obtain ⟨c, t, rfl⟩ := List.exists_cons_of_ne_nil ((valid_iff s).mp hv).1
      have hrc := rd_head h
      -- the string after the optional leading quote
      obtain ⟨q, s1, hq, hs1, hs1e, hqp, hqp', hne, hql⟩ : ∃ q s1, q = (if c = 34 then p + 1 else p) ∧
          CStrAt m q s1 ∧ s1 = (if (c :: t).head? = some 34 then (c :: t).drop 1 else c :: t) ∧
          p ≤ q ∧ q ≤ p + 1 ∧ s1 ≠ [] ∧ q + s1.length = p + (c :: t).length := by
        by_cases hc : c = 34
        · refine ⟨p + 1, t, by simp [hc], ?_, by simp [hc], by omega, by omega, ?_, by simp; omega⟩
          · exact CStrAt.suffix (s := [c]) h
          · intro e; subst e; simp at hl
        · exact ⟨p, c :: t, by simp [hc], h, by simp [hc], by omega, by omega, by simp, by simp⟩
      have hsplit : s1 = s1.dropLast ++ [s1.getLast hne] := (List.dropLast_concat_getLast hne).symm
      have hlp : s1.length = s1.dropLast.length + 1 := by
        have := congrArg List.length hsplit; simpa using this
      have he : rd m (q + s1.length - 1) = some (s1.getLast hne) := by
        have := rd_str hs1 (s1.length - 1) (by omega)
        have e : q + s1.length - 1 = q + (s1.length - 1) := by omega
        rw [e, this, dif_pos (by omega), List.getLast_eq_getElem]
      have hls := strlen_str hs1
      by_cases hlast : s1.getLast hne = 34
      · have h' := hs1
        rw [hsplit] at h'
        obtain ⟨m', hw, hc, -, hso⟩ := h'.cut
        refine ⟨q, m', ?_, ?_, hso.mono (by omega) (by omega), hqp, hqp'⟩
        · unfold AtCore.removeOutermostDoubleQuote AtStr.removeOutermostDoubleQuote
          have e : q + s1.length - 1 = q + s1.dropLast.length := by omega
          rw [← e] at hw
          have hz : ¬ (q + s1.length = 0) := by omega
          simp [validateString_valid h hv, strlen_str h, hv, hrc, ← hq, hls,
            he, hlast, hw, hne]; rw [List.length_cons] at hl; exact fun hh => absurd hh (by omega)
        · have : (AtStr.removeOutermostDoubleQuote (c :: t)).2 = s1.dropLast := by
            simp only [AtStr.removeOutermostDoubleQuote, hv, if_true, if_pos hl, ← hs1e]
            rw [List.getLast?_eq_some_getLast hne, hlast]; simp
          rw [this]; exact hc
      · refine ⟨q, m, ?_, ?_, SameOutside.refl _ _ _, hqp, hqp'⟩
        · unfold AtCore.removeOutermostDoubleQuote AtStr.removeOutermostDoubleQuote
          have hz : ¬ (q + s1.length = 0) := by omega
          simp [validateString_valid h hv, strlen_str h, hv, hrc, ← hq, hls,
            he, hlast, hne]; rw [List.length_cons] at hl; exact fun hh => absurd hh (by omega)
        · have : (AtStr.removeOutermostDoubleQuote (c :: t)).2 = s1 := by
            simp only [AtStr.removeOutermostDoubleQuote, hv, if_true, if_pos hl, ← hs1e]
            rw [List.getLast?_eq_some_getLast hne]; simp [hlast]
          rw [this]; exact hs1
    · refine ⟨p, m, ?_, ?_, SameOutside.refl _ _ _, by omega, by omega⟩
      · simp [AtCore.removeOutermostDoubleQuote, AtStr.removeOutermostDoubleQuote,
          validateString_valid h hv, strlen_str h, hv, hl]
      · simpa [AtStr.removeOutermostDoubleQuote, hv, hl] using h
  | false =>
    obtain ⟨v, h1, h2⟩ := validateString_invalid h hv
    refine ⟨p, m, ?_, ?_, SameOutside.refl _ _ _, by omega, by omega⟩
    · simp [AtCore.removeOutermostDoubleQuote, AtStr.removeOutermostDoubleQuote, h1, hv, h2]
    · simpa [AtStr.removeOutermostDoubleQuote, hv] using h

/-! ### Tokens -/

theorem getTok_refines {m : Mem} {p : Nat} {s : Str} (d : Byte) (hd : d ≠ 0) (h : CStrAt m p s)
    (hv : AtStr.valid s = true) :
    ∃ q m', AtCore.getSpecificNextTok m (some p) [d] = some ⟨.success, some q, some p, m'⟩ ∧
      CStrAt m' p (s.takeWhile (fun b => b != d)) ∧
      CStrAt m' q ((s.dropWhile (fun b => b != d)).drop 1) ∧
      SameOutside m m' p (p + s.length) ∧
      ((s.dropWhile (fun b => b != d)).drop 1 ≠ [] →
        q = p + (s.takeWhile (fun b => b != d)).length + 1) ∧
      p ≤ q ∧ q + ((s.dropWhile (fun b => b != d)).drop 1).length ≤ p + s.length := by
  have hne := ((valid_iff s).mp hv).1
  have hV := validateString_valid h hv
  have hL := strlen_str h
  by_cases hc : d ∈ s
  · have hsplit := split_at_char hc
    generalize hT : s.takeWhile (fun b => b != d) = T at *
    generalize hR : (s.dropWhile (fun b => b != d)).drop 1 = R at *
    have hTd : d ∉ T := by
      rw [← hT]; intro hm
      have : ∀ (l : Str), d ∉ l.takeWhile (fun b => b != d) := by
        intro l; induction l with
        | nil => simp
        | cons x l ih => by_cases hx : x = d <;> simp [hx, ih]; exact fun e => hx e.symm
      exact this s hm
    have h' : CStrAt m p (T ++ d :: R) := hsplit ▸ h
    obtain ⟨m', hw, hcT, hcR, hso⟩ := h'.cut
    have hcR' := hcR d R rfl
    have hlen : s.length = T.length + (R.length + 1) := by
      rw [hsplit]; simp
    have hstep : (if (T ++ d :: R).headD 0 = d then
        (do let m' ← wr m p 0; return (some p, m'))
        else strtok m p [d]) = some (some p, m') := by
      cases T with
      | nil => simp only [List.nil_append, List.headD_cons, if_true]
               simp at hw; simp [hw]
      | cons x T' =>
        have hx : x ≠ d := fun e => hTd (by simp [e])
        simp only [List.cons_append, List.headD_cons]
        obtain ⟨post, hdrop⟩ := h'.drop
        have e1 : List.takeWhile (fun b => List.contains [d] b) (x :: T' ++ d :: R) = [] := by
          simp [hx]
        have e2 : ∀ (l : Str), d ∉ l → List.takeWhile (fun b => !List.contains [d] b) (l ++ d :: R) = l := by
          intro l; induction l with
          | nil => simp
          | cons y l ih =>
            intro hy
            have h1 : y ≠ d := fun e => hy (by simp [e])
            have h2 : d ∉ l := fun e => hy (by simp [e])
            have := ih h2
            simp [h1] at this ⊢; exact this
        have e3 := e2 (x :: T') hTd
        have hx0 : x ≠ 0 := h'.noNul x (by simp)
        have hrE : rd m (p + (x :: T').length) = some d := by
          have := rd_str h' (x :: T').length (by simp)
          rw [this]; simp
        have hrX : rd m p = some x := rd_head h'
        simp only [strtok, hdrop, spanL_str _ _ _ h'.noNul, e1, e3, Option.bind_eq_bind,
          Option.bind_some, List.length_nil, Nat.add_zero, hrX, hrE, hw, hx0, hd, if_false]
        rw [if_neg hx]; rfl
    have hhead : rd m p = some ((T ++ d :: R).headD 0) := by
      cases T with
      | nil => simpa using rd_head h'
      | cons x T' => simpa using rd_head h'
    have htl := strlen_str hcT
    have hnb : rd m' (p + T.length + 1) = some (R.headD 0) := by
      cases R with
      | nil => simpa [rd] using (cstrAt_iff.mp hcR').2.2
      | cons r R => simpa using rd_head hcR'
    have key : AtCore.getSpecificNextTok m (some p) [d] =
        some ⟨.success, some (if R.headD 0 ≠ 0 then p + T.length + 1 else p + T.length), some p, m'⟩ := by
      have hstep' : (if (T ++ d :: R).headD 0 = ([d] : Str).headD 0 then
        (do let m' ← wr m p 0; return (some p, m'))
        else strtok m p [d]) = some (some p, m') := hstep
      unfold AtCore.getSpecificNextTok
      simp only [hV, hL, hhead, Option.bind_eq_bind, Option.bind_some, ne_eq,
        not_true_eq_false, if_false]
      rw [Option.bind_eq_bind] at hstep'
      rw [hstep']
      simp only [Option.bind_some, htl, hnb]
      rw [if_pos (by omega)]
      split
      · rfl
      · rfl
    refine ⟨_, m', key, hcT, ?_, hso.mono (by omega) (by omega), ?_, ?_, ?_⟩
    · cases R with
      | nil => simpa using CStrAt.suffix (s := T) (t := []) (by simpa using hcT)
      | cons r R =>
        have : r ≠ 0 := hcR'.noNul r (by simp)
        simpa [this] using hcR'
    · intro hR0
      cases R with
      | nil => exact absurd rfl hR0
      | cons r R =>
        have : r ≠ 0 := hcR'.noNul r (by simp)
        simp [this]
    · split <;> omega
    · split <;> omega
  · obtain ⟨e1, e2⟩ := notMem_dropWhile hc
    rw [e1, e2]
    obtain ⟨x, T, rfl⟩ := List.exists_cons_of_ne_nil hne
    have hx : x ≠ d := fun e => hc (by simp [e])
    have hx0 : x ≠ 0 := h.noNul x (by simp)
    obtain ⟨post, hdrop⟩ := h.drop
    have e3 : List.takeWhile (fun b => List.contains [d] b) (x :: T) = [] := by
      simp [hx]
    have e4 : List.takeWhile (fun b => !List.contains [d] b) (x :: T) = x :: T := by
      rw [List.takeWhile_eq_self_iff]
      intro y hy
      have : y ≠ d := fun e => hc (e ▸ hy)
      simpa using this
    have hrE : rd m (p + (x :: T).length) = some 0 := by
      have := rd_str h (x :: T).length (by simp)
      rw [this]; simp
    have hst : strtok m p [d] = some (some p, m) := by
      simp only [strtok, hdrop, spanL_str _ _ _ h.noNul, e3, e4, Option.bind_eq_bind,
          Option.bind_some, List.length_nil, Nat.add_zero, rd_head h, hrE, hx0, if_false]
      rfl
    refine ⟨p + (x :: T).length, m, ?_, h, ?_, SameOutside.refl _ _ _, by simp, by omega, by simp⟩
    · unfold AtCore.getSpecificNextTok
      simp only [hV, hL, rd_head h, List.headD_cons, Option.bind_eq_bind, Option.bind_some, ne_eq,
        not_true_eq_false, if_false, if_neg hx, hst]
      rw [if_neg (by omega)]
      rfl
    · simpa using CStrAt.suffix (s := x :: T) (t := []) (by simpa using h)

theorem getTok_refines_invalid {m : Mem} {p : Nat} {s : Str} (d : Str) (h : CStrAt m p s)
    (hv : AtStr.valid s = false) :
    AtCore.getSpecificNextTok m (some p) d = some ⟨.badParameter, some p, none, m⟩ := by
  obtain ⟨v, h1, h2⟩ := validateString_invalid h hv
  simp [AtCore.getSpecificNextTok, h1, h2]

end Cellular
