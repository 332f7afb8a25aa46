import Verif.AtCoreRefine2
/-!
# Properties C01-C09: the AT string helpers of cellular_at_core.c

`CStrAt m p s`: the object `m` holds the NUL-terminated text `s` at offset `p`.
`SameOutside m m' lo hi`: no byte of the object outside `lo ..< hi` changed.
Model functions return `none` for undefined behaviour (out-of-object access).
-/

namespace Cellular.Props
open Cellular AtCore Spec

/-- A concrete object used by the examples: the text starts at offset 2 and is followed by junk. -/
def demoMem (s : String) : Mem := [7, 7] ++ (str s ++ 0 :: [9, 9, 9])

theorem demoMem_at (s : String) (h : NoNul (str s)) : CStrAt (demoMem s) 2 (str s) :=
  ⟨h, [7, 7], [9, 9, 9], rfl, rfl⟩

/-! ## C01 -/

/-- White space removal deletes exactly the white space, and nothing outside the string changes. -/
theorem C01_remove_all_whitespace (m : Mem) (p : Nat) (s : Str) (h : CStrAt m p s)
    (h1 : 1 ≤ s.length) (h2 : s.length ≤ 256) :
    ∃ m', removeAllWhiteSpaces m (some p) = some (.success, m') ∧
      CStrAt m' p (s.filter (fun b => ¬ White b)) ∧ SameOutside m m' p (p + s.length + 1) := by
  have hv : AtStr.valid s = true := (valid_iff s).mpr ⟨by intro e; simp [e] at h1, h2⟩
  obtain ⟨m', e1, e2, e3⟩ := removeAllWhiteSpaces_refines h
  refine ⟨m', ?_, ?_, e3⟩
  · simpa [AtStr.removeAllWhiteSpaces, hv] using e1
  · have : (AtStr.removeAllWhiteSpaces s).2 = s.filter (fun b => ¬ White b) := by
      simp only [AtStr.removeAllWhiteSpaces, hv, if_true]
      apply List.filter_congr
      intro b _
      have := isSpace_iff b
      by_cases hw : White b
      · simp [hw, this.mpr hw]
      · have : isSpace b = false := by
          cases hh : isSpace b
          · rfl
          · exact absurd (this.mp hh) hw
        simp [hw, this]
    rw [this] at e2; exact e2

/-- Quote removal deletes exactly the double quotes, and nothing outside the string changes. -/
theorem C01_remove_all_quotes (m : Mem) (p : Nat) (s : Str) (h : CStrAt m p s)
    (h1 : 1 ≤ s.length) (h2 : s.length ≤ 256) :
    ∃ m', removeAllDoubleQuote m (some p) = some (.success, m') ∧
      CStrAt m' p (s.filter (fun b => ¬ b = 34)) ∧ SameOutside m m' p (p + s.length + 1) := by
  have hv : AtStr.valid s = true := (valid_iff s).mpr ⟨by intro e; simp [e] at h1, h2⟩
  obtain ⟨m', e1, e2, e3⟩ := removeAllDoubleQuote_refines h
  refine ⟨m', ?_, ?_, e3⟩
  · simpa [AtStr.removeAllDoubleQuote, hv] using e1
  · have : (AtStr.removeAllDoubleQuote s).2 = s.filter (fun b => ¬ b = 34) := by
      simp only [AtStr.removeAllDoubleQuote, hv, if_true]
      apply List.filter_congr
      intro b _
      by_cases hw : b = 34 <;> simp [hw]
    rw [this] at e2; exact e2

/-- Empty strings, strings above 256 characters and NULL are refused and nothing changes. -/
theorem C01_remove_all_refused (m : Mem) (p : Nat) (s : Str) (h : CStrAt m p s)
    (hbad : s = [] ∨ 256 < s.length) :
    removeAllWhiteSpaces m (some p) = some (.badParameter, m) ∧
    removeAllDoubleQuote m (some p) = some (.badParameter, m) ∧
    removeAllWhiteSpaces m none = some (.badParameter, m) ∧
    removeAllDoubleQuote m none = some (.badParameter, m) := by
  have hv : AtStr.valid s = false := by
    cases hh : AtStr.valid s
    · rfl
    · obtain ⟨g1, g2⟩ := (valid_iff s).mp hh
      rcases hbad with hb | hb
      · exact absurd hb g1
      · simp only [maxStringSize] at g2; omega
  obtain ⟨v, g1, g2⟩ := validateString_invalid h hv
  simp [removeAllWhiteSpaces, removeAllDoubleQuote, g1, g2]

example : 1 ≤ (str " a \"b\" c").length ∧ (str " a \"b\" c").length ≤ 256 ∧
    CStrAt (demoMem " a \"b\" c") 2 (str " a \"b\" c") ∧
    (str " a \"b\" c").filter (fun b => ¬ White b) = str "a\"b\"c" ∧
    (str " a \"b\" c").filter (fun b => ¬ b = 34) = str " a b c" :=
  ⟨by decide, by decide, demoMem_at _ (by decide), by decide, by decide⟩

/-! ## C02 -/

/-- Leading white space: the pointer moves to the first non-space character (or the terminator);
the memory is not written. -/
theorem C02_remove_leading (m : Mem) (p : Nat) (ws s : Str) (h : CStrAt m p (ws ++ s))
    (hw : ∀ b ∈ ws, White b) (hs : ∀ b, s.head? = some b → ¬ White b)
    (h1 : 1 ≤ (ws ++ s).length) (h2 : (ws ++ s).length ≤ 256) :
    removeLeadingWhiteSpaces m (some p) = some (.success, some (p + ws.length)) ∧
      CStrAt m (p + ws.length) s := by
  have hv : AtStr.valid (ws ++ s) = true :=
    (valid_iff _).mpr ⟨by intro e; rw [e] at h1; simp at h1, h2⟩
  have htw : (ws ++ s).takeWhile isSpace = ws := by
    have h3 : s.takeWhile isSpace = [] := by
      cases s with
      | nil => rfl
      | cons b t =>
        have := hs b rfl
        have : isSpace b = false := by
          cases hh : isSpace b
          · rfl
          · exact absurd ((isSpace_iff b).mp hh) this
        simp [this]
    rw [List.takeWhile_append_of_pos (fun b hb => (isSpace_iff b).mpr (hw b hb)), h3]; simp
  obtain ⟨post, hd⟩ := h.drop
  refine ⟨?_, h.suffix⟩
  simp [removeLeadingWhiteSpaces, validateString_valid h hv, hd]
  rw [← List.append_assoc, leadingLoop_str _ _ h.noNul, htw]; rfl

example : CStrAt (demoMem " \t x y ") 2 (str " \t " ++ str "x y ") :=
  demoMem_at " \t x y " (by decide)

/-- Trailing white space, the part that holds: for more than two characters of which some
non-white one remains, exactly the trailing white space is removed.  MISSING for the full C02: one-
and two-character strings, and strings of white space only (see the witnesses below). -/
theorem C02_remove_trailing_partial (m : Mem) (p : Nat) (s ws : Str) (h : CStrAt m p (s ++ ws))
    (hw : ∀ b ∈ ws, White b) (hne : s ≠ []) (hs : ∀ b, s.getLast? = some b → ¬ White b)
    (h1 : 2 < (s ++ ws).length) (h2 : (s ++ ws).length ≤ 256) :
    ∃ m', removeTrailingWhiteSpaces m (some p) = some (.success, m') ∧ CStrAt m' p s ∧
      SameOutside m m' p (p + (s ++ ws).length + 1) := by
  have hv : AtStr.valid (s ++ ws) = true :=
    (valid_iff _).mpr ⟨by intro e; rw [e] at h1; simp at h1, h2⟩
  obtain ⟨m', e1, e2, e3⟩ := removeTrailingWhiteSpaces_refines h
  refine ⟨m', ?_, ?_, e3⟩
  · simpa [AtStr.removeTrailingWhiteSpaces, hv] using e1
  · have : (AtStr.removeTrailingWhiteSpaces (s ++ ws)).2 = s := by
      simp only [AtStr.removeTrailingWhiteSpaces, hv, if_true, h1]
      obtain ⟨c, t, rfl⟩ := List.exists_cons_of_ne_nil hne
      have hgen : ∀ (ws : Str) (t : Str), (∀ b ∈ ws, White b) →
          (∀ b, t.getLast? = some b → ¬ White b) → AtStr.dropTrailing isSpace (t ++ ws) = t := by
        intro ws
        induction ws using List.reverseRecOn with
        | nil =>
          intro t _ ht
          rw [List.append_nil]
          induction t using List.reverseRecOn with
          | nil => rfl
          | append_singleton t b _ =>
            rw [dropTrailing_snoc]
            have hb := ht b (by simp)
            have : isSpace b = false := by
              cases hh : isSpace b
              · rfl
              · exact absurd ((isSpace_iff b).mp hh) hb
            simp [this]
        | append_singleton ws b ih =>
          intro t hw ht
          rw [← List.append_assoc, dropTrailing_snoc,
            if_pos ((isSpace_iff b).mpr (hw b (by simp)))]
          exact ih t (fun x hx => hw x (by simp [hx])) ht
      simp only [List.cons_append, List.take_succ_cons, List.take_zero, List.drop_succ_cons,
        List.drop_zero, List.cons.injEq, true_and, List.nil_append]
      apply hgen ws t hw
      intro b hb
      apply hs b
      cases t with
      | nil => simp at hb
      | cons x t => rw [List.getLast?_cons_cons]; exact hb
    rw [this] at e2; exact e2

example : CStrAt (demoMem " ab  ") 2 (str " ab" ++ str "  ") ∧ 2 < (str " ab" ++ str "  ").length :=
  ⟨demoMem_at " ab  " (by decide), by decide⟩

/-- The full C02 is false of the code: two-character strings are left alone ... -/
theorem C02_witness_two_chars :
    removeTrailingWhiteSpaces (str "a " ++ [0]) (some 0) = some (.success, str "a " ++ [0]) := by
  decide

/-- ... and a string of white space only keeps its first character. -/
theorem C02_witness_all_white :
    removeTrailingWhiteSpaces (str "   " ++ [0]) (some 0) = some (.success, str " " ++ [0, 32, 0]) := by
  decide

/-! ## C03 -/

/-- A quoted text of 1..254 characters is unquoted exactly (inner quotes are kept). -/
theorem C03_unquote (m : Mem) (p : Nat) (t : Str) (h : CStrAt m p (34 :: (t ++ [34])))
    (h1 : 1 ≤ t.length) (h2 : t.length ≤ 254) :
    ∃ m', removeOutermostDoubleQuote m (some p) = some (.success, some (p + 1), m') ∧
      CStrAt m' (p + 1) t ∧ SameOutside m m' p (p + t.length + 3) := by
  have hv : AtStr.valid (34 :: (t ++ [34])) = true :=
    (valid_iff _).mpr ⟨by simp, by simp [maxStringSize]; omega⟩
  have hl : 2 < (34 :: (t ++ [34]) : Str).length := by simp; omega
  have hval : (AtStr.removeOutermostDoubleQuote (34 :: (t ++ [34]))) = (.success, t) := by
    simp only [AtStr.removeOutermostDoubleQuote, hv, if_true, hl]
    simp
  obtain ⟨q, m', e1, e2, e3, e4, e5⟩ := removeOutermostDoubleQuote_refines h
  rw [hval] at e1 e2
  have hq : q = p + 1 := by
    rcases Nat.lt_or_ge p q with hlt | hge
    · omega
    · exfalso
      have : q = p := by omega
      subst this
      have e6 := e1
      simp only [removeOutermostDoubleQuote, validateString_valid h hv, strlen_str h,
        Option.bind_eq_bind, Option.bind_some, rd_head h, if_true] at e6
      rw [if_neg (by simp), if_pos hl] at e6
      have hs : CStrAt m (q + 1) (t ++ [34]) := CStrAt.suffix (s := [34]) h
      simp only [strlen_str hs, Option.bind_some] at e6
      split at e6
      · simp at e6
      · cases hr : rd m (q + 1 + (t ++ [34]).length - 1) with
        | none => rw [hr] at e6; simp at e6
        | some e =>
          rw [hr] at e6; simp only [Option.bind_some] at e6
          split at e6
          · cases hw : wr m (q + 1 + (t ++ [34]).length - 1) 0 with
            | none => rw [hw] at e6; simp at e6
            | some m2 => rw [hw] at e6; simp at e6
          · simp at e6
  subst hq
  refine ⟨m', e1, e2, ?_⟩
  have e : p + (34 :: (t ++ [34]) : Str).length + 1 = p + t.length + 3 := by simp; omega
  rw [e] at e3; exact e3

/-- A string that neither starts nor ends with a quote is left unchanged. -/
theorem C03_unquoted_unchanged (m : Mem) (p : Nat) (s : Str) (h : CStrAt m p s)
    (h1 : 1 ≤ s.length) (h2 : s.length ≤ 256) (ha : s.head? ≠ some 34) (hb : s.getLast? ≠ some 34) :
    removeOutermostDoubleQuote m (some p) = some (.success, some p, m) := by
  have hv : AtStr.valid s = true := (valid_iff s).mpr ⟨by intro e; simp [e] at h1, h2⟩
  obtain ⟨c, t, rfl⟩ := List.exists_cons_of_ne_nil ((valid_iff s).mp hv).1
  have hc : c ≠ 34 := fun e => ha (by simp [e])
  have hlast : rd m (p + (c :: t).length - 1) = some ((c :: t).getLast (by simp)) := by
    have := rd_str h ((c :: t).length - 1) (by omega)
    have e : p + (c :: t).length - 1 = p + ((c :: t).length - 1) := by simp
    rw [e, this, dif_pos (by simp), List.getLast_eq_getElem]
  have hl34 : (c :: t).getLast (by simp) ≠ 34 := by
    intro e; apply hb; rw [List.getLast?_eq_some_getLast (by simp), e]
  simp only [removeOutermostDoubleQuote, validateString_valid h hv, strlen_str h,
    Option.bind_eq_bind, Option.bind_some, rd_head h, if_neg hc, hlast, if_neg hl34]
  rw [if_neg (by simp)]
  split
  · rw [if_neg (by simp)]; rfl
  · rfl

example : CStrAt (demoMem "\"a\"b\"") 2 (34 :: (str "a\"b" ++ [34])) :=
  demoMem_at "\"a\"b\"" (by decide)

/-- C03 is false for the empty quoted text: `""` is returned as is. -/
theorem C03_witness_empty :
    removeOutermostDoubleQuote (str "\"\"" ++ [0]) (some 0)
      = some (.success, some 0, str "\"\"" ++ [0]) := by decide

/-! ## C04 -/

/-- How every caller drives the tokenizer: ask for the next token until it refuses; collect the
token pointers (e.g. cellular_3gpp_urc_handler.c:735-761, cellular_3gpp_api.c:2985-3000). -/
def tokLoop : Nat → Mem → Nat → Option (List Nat × Mem)
  | 0, m, _ => some ([], m)
  | fuel + 1, m, p =>
    match getNextTok m (some p) with
    | none => none
    | some r =>
      match r.status, r.next, r.tok with
      | .success, some q, some t => (tokLoop fuel r.mem q).map (fun x => (t :: x.1, x.2))
      | _, _, _ => some ([], r.mem)

/-- The list of fields a caller gets: a last empty field is not reported. -/
def reportedFields (s : Str) : List Str :=
  if (fields 44 s).getLast? = some [] then (fields 44 s).dropLast else fields 44 s

theorem fields_ne_nil (d : Byte) (s : Str) : fields d s ≠ [] := by
  cases s with
  | nil => simp [fields]
  | cons b t => simp only [fields]; split <;> [simp; (split <;> simp)]

theorem fields_split (d : Byte) (s : Str) :
    fields d s = if d ∈ s then s.takeWhile (fun b => b != d) ::
      fields d ((s.dropWhile (fun b => b != d)).drop 1) else [s] := by
  induction s with
  | nil => simp [fields]
  | cons b t ih =>
    by_cases h : b = d
    · subst h; simp [fields]
    · simp only [fields, if_neg h]
      have hm : (d ∈ b :: t) ↔ d ∈ t := by
        simp only [List.mem_cons]; constructor
        · rintro (e | e)
          · exact absurd e.symm h
          · exact e
        · exact Or.inr
      rw [ih]
      by_cases hd : d ∈ t
      · simp [hd, h]
      · have : ¬ d = b := fun e => h e.symm
        simp [hd, this]

theorem reportedFields_nil : reportedFields [] = [] := by decide

theorem reportedFields_cons (s : Str) (hne : s ≠ []) :
    reportedFields s = s.takeWhile (fun b => b != 44) ::
      reportedFields ((s.dropWhile (fun b => b != 44)).drop 1) := by
  unfold reportedFields
  conv => lhs; rw [fields_split]
  by_cases h : (44 : Byte) ∈ s
  · simp only [h, if_true]
    generalize hF : fields 44 ((s.dropWhile (fun b => b != 44)).drop 1) = F
    obtain ⟨f, fs, rfl⟩ := List.exists_cons_of_ne_nil (hF ▸ fields_ne_nil _ _ : F ≠ [])
    rw [List.getLast?_cons_cons]
    split <;> simp
  · obtain ⟨e1, e2⟩ := notMem_dropWhile h
    rw [e1, e2]
    simp [h, hne, fields]

theorem tokLoop_spec (fuel : Nat) : ∀ (m : Mem) (p : Nat) (s : Str), CStrAt m p s →
    s.length ≤ 256 → s.length < fuel →
    ∃ ts m', tokLoop fuel m p = some (ts, m') ∧
      List.Forall₂ (fun t f => CStrAt m' t f) ts (reportedFields s) ∧
      SameOutside m m' p (p + s.length) := by
  induction fuel with
  | zero => intro m p s _ _ h; omega
  | succ fuel ih =>
    intro m p s h hle hlt
    by_cases hne : s = []
    · subst hne
      have hv : AtStr.valid [] = false := by decide
      refine ⟨[], m, ?_, ?_, SameOutside.refl _ _ _⟩
      · simp [tokLoop, getNextTok, getTok_refines_invalid _ h hv]
      · rw [reportedFields_nil]; exact List.Forall₂.nil
    · have hv : AtStr.valid s = true := (valid_iff s).mpr ⟨hne, hle⟩
      obtain ⟨q, m', e1, e2, e3, e4, e5, e6, e7⟩ := getTok_refines 44 (by decide) h hv
      generalize hT : s.takeWhile (fun b => b != 44) = T at *
      generalize hR : (s.dropWhile (fun b => b != 44)).drop 1 = R at *
      have hRl : R.length < s.length := by
        have h0 := congrArg List.length
          (List.takeWhile_append_dropWhile (p := fun b => b != (44 : Byte)) (l := s))
        rw [List.length_append, hT] at h0
        have : R.length = (s.dropWhile (fun b => b != 44)).length - 1 := by rw [← hR]; simp
        have hsl : s.length ≠ 0 := by simpa using hne
        omega
      obtain ⟨ts, m'', f1, f2, f3⟩ := ih m' q R e3 (by omega) (by omega)
      refine ⟨p :: ts, m'', ?_, ?_, ?_⟩
      · simp [tokLoop, getNextTok, e1, f1]
      · rw [reportedFields_cons s hne, hT, hR]
        refine List.Forall₂.cons ?_ f2
        by_cases hR0 : R = []
        · subst hR0
          have hz : SameOutside m' m'' q q := by simpa using f3
          rcases Nat.lt_or_ge (p + T.length) q with hlt' | hge'
          · exact e2.frame hz (by omega)
          · -- nothing changed at all
            have : m'' = m' := by
              apply List.ext_getElem?
              intro i
              exact hz.2 i (by omega)
            rw [this]; exact e2
        · have := e5 hR0
          exact e2.frame f3 (Or.inl (by omega))
      · exact (e4.trans (f3.mono e6 e7))

/-- Tokenising a valid string to the end yields exactly its comma separated fields, in order,
empty ones included, except that an empty last field is not reported.  The tokens are valid strings
in the final memory and nothing outside the text is written. -/
theorem C04_tokens_are_fields (m : Mem) (p : Nat) (s : Str) (h : CStrAt m p s)
    (h2 : s.length ≤ 256) (fuel : Nat) (hf : s.length < fuel) :
    ∃ ts m', tokLoop fuel m p = some (ts, m') ∧
      List.Forall₂ (fun t f => CStrAt m' t f) ts
        (if (fields 44 s).getLast? = some [] then (fields 44 s).dropLast else fields 44 s) ∧
      SameOutside m m' p (p + s.length) :=
  tokLoop_spec fuel m p s h h2 hf

example : CStrAt (demoMem "1,,\"x\",") 2 (str "1,,\"x\",") ∧
    (fields 44 (str "1,,\"x\",")) = [str "1", [], str "\"x\"", []] ∧
    (tokLoop 20 (demoMem "1,,\"x\",") 2).map (·.1) = some [2, 4, 5] :=
  ⟨demoMem_at _ (by decide), by decide, by decide⟩

/-! ## C05 -/

/-- Prefix recognition, for every valid string. -/
theorem C05_prefix_present_iff (m : Mem) (p : Nat) (s : Str) (h : CStrAt m p s)
    (h1 : 1 ≤ s.length) (h2 : s.length ≤ 256) :
    ∃ r, isPrefixPresent m (some p) = some (.success, some r) ∧
      (r = true ↔ ∃ name rest, s = 43 :: name ++ 58 :: rest ∧
        (∀ b ∈ name, PrefixChar b)) := by
  have hv : AtStr.valid s = true := (valid_iff s).mpr ⟨by intro e; simp [e] at h1, h2⟩
  rw [isPrefixPresent_refines h]
  simp only [AtStr.isPrefixPresent, hv, if_true]
  refine ⟨_, rfl, ?_⟩
  have h58 : ∀ b : Byte, PrefixChar b → b ≠ 58 := by
    rintro b hb rfl; revert hb; unfold PrefixChar; decide
  constructor
  · intro hh
    simp only [Bool.and_eq_true, beq_iff_eq, List.contains_iff_mem, List.all_eq_true,
      Bool.not_eq_true'] at hh
    obtain ⟨⟨hc, hhd⟩, hall⟩ := hh
    obtain ⟨c, t, rfl⟩ := List.exists_cons_of_ne_nil ((valid_iff s).mp hv).1
    simp only [List.head?_cons, Option.some.injEq] at hhd
    subst hhd
    have hsp := split_at_char hc
    have e : List.takeWhile (fun b => b != (58 : Byte)) (43 :: t)
        = 43 :: List.takeWhile (fun b => b != (58 : Byte)) t := by simp
    rw [e] at hsp hall
    refine ⟨_, _, hsp, fun b hb => ?_⟩
    exact (notPrefixChar_iff b).mp (hall b (by simp [hb]))
  · rintro ⟨name, rest, rfl, hn⟩
    have h43 : PrefixChar 43 := by simp [PrefixChar]
    have htw : List.takeWhile (fun b => b != (58 : Byte)) (43 :: name ++ 58 :: rest) = 43 :: name := by
      rw [List.takeWhile_append_of_pos]
      · simp
      · intro b hb
        rcases List.mem_cons.mp hb with hb | hb
        · subst hb; decide
        · simpa using h58 b (hn b hb)
    rw [htw]
    simp only [Bool.and_eq_true, List.all_eq_true, Bool.not_eq_true']
    refine ⟨⟨by simp, by simp⟩, fun b hb => (notPrefixChar_iff b).mpr ?_⟩
    rcases List.mem_cons.mp hb with hb | hb
    · subst hb; exact h43
    · exact hn b hb

/-- Prefix removal leaves exactly the text after the first ':'. -/
theorem C05_remove_prefix (m : Mem) (p : Nat) (a b : Str) (h : CStrAt m p (a ++ 58 :: b))
    (ha : 58 ∉ a) (h2 : (a ++ 58 :: b).length ≤ 256) :
    removePrefix m (some p) = some (.success, some (p + a.length + 1)) ∧
      CStrAt m (p + a.length + 1) b := by
  have hv : AtStr.valid (a ++ 58 :: b) = true := (valid_iff _).mpr ⟨by simp, h2⟩
  obtain ⟨post, hd⟩ := h.drop
  have htw : (a ++ 58 :: b).takeWhile (fun x => x != (58 : Byte)) = a := by
    rw [List.takeWhile_append_of_pos]
    · simp
    · intro x hx; have : x ≠ 58 := fun e => ha (e ▸ hx)
      simpa using this
  constructor
  · have hS := strchrL_str 58 (by decide) (a ++ 58 :: b) post h.noNul
    rw [← hd, htw] at hS
    simp [removePrefix, validateString_valid h hv, hS]
  · have : CStrAt m p ((a ++ [58]) ++ b) := by simpa using h
    have := this.suffix
    simpa [Nat.add_assoc] using this

/-- Strings without ':' are refused. -/
theorem C05_remove_prefix_refused (m : Mem) (p : Nat) (s : Str) (h : CStrAt m p s)
    (hs : 58 ∉ s) : ∃ q, removePrefix m (some p) = some (.badParameter, q) := by
  obtain ⟨post, hd⟩ := h.drop
  cases hv : AtStr.valid s with
  | true =>
    refine ⟨none, ?_⟩
    simp [removePrefix, validateString_valid h hv, hd, strchrL_str 58 (by decide) _ _ h.noNul, hs]
  | false =>
    obtain ⟨v, g1, g2⟩ := validateString_invalid h hv
    exact ⟨some p, by simp [removePrefix, g1, g2]⟩

example : str "+CSQ: 9:1" = 43 :: str "CSQ" ++ 58 :: str " 9:1" ∧ (∀ b ∈ str "CSQ", PrefixChar b) ∧
    CStrAt (demoMem "+CSQ: 9:1") 2 (str "+CSQ" ++ 58 :: str " 9:1") :=
  ⟨by decide, by unfold PrefixChar; decide, demoMem_at "+CSQ: 9:1" (by decide)⟩

/-! ## C06 -/

/-- Decoding inverts encoding when the stated capacity is larger than the number of bytes; nothing
beyond the decoded bytes is written. -/
theorem C06_hex_roundtrip (up : Bool) (bs : List Byte) (m : Mem) (p : Nat) (dst : Mem) (cap : Nat)
    (h : CStrAt m p (hexText up bs)) (h1 : 1 ≤ bs.length) (h2 : bs.length ≤ 128)
    (hcap : bs.length < cap) (hdst : cap ≤ dst.length) :
    hexStrToHex m (some p) (some dst) cap = some (.success, some (bs ++ dst.drop bs.length)) := by
  have hl := hexText_length up bs
  have hv : AtStr.valid (hexText up bs) = true :=
    (valid_iff _).mpr ⟨by intro e; rw [e] at hl; simp at hl; omega,
      by simp only [maxStringSize]; omega⟩
  have hV := validateString_valid h hv
  have hL := strlen_str h
  obtain ⟨hn, pre, post, rfl, rfl⟩ := h
  have := hexLoop_hexText up bs pre (0 :: post) [] dst (by omega)
  simp only [List.nil_append, List.length_nil] at this
  have e : 2 * bs.length / 2 = bs.length := by omega
  simp only [hexStrToHex, hV, hL, hl, e, this, Option.bind_eq_bind, Option.bind_some]
  rw [if_neg (by simp), if_neg (by omega)]
  rfl

/-- A destination that is too small is refused and not written at all. -/
theorem C06_hex_too_small (m : Mem) (p : Nat) (s : Str) (dst : Mem) (cap : Nat)
    (h : CStrAt m p s) (hcap : cap ≤ s.length / 2) :
    ∃ e, e ≠ .success ∧ hexStrToHex m (some p) (some dst) cap = some (e, some dst) := by
  cases hv : AtStr.valid s with
  | true =>
    refine ⟨.noMemory, by simp, ?_⟩
    simp only [hexStrToHex, validateString_valid h hv, strlen_str h, Option.bind_eq_bind,
      Option.bind_some]
    rw [if_neg (by simp), if_pos hcap]
    rfl
  | false =>
    obtain ⟨v, g1, g2⟩ := validateString_invalid h hv
    exact ⟨.badParameter, by simp, by simp [hexStrToHex, g1, g2]⟩

/-- Whatever the text and capacity, at most the first `cap` bytes of the destination are written. -/
theorem C06_hex_bounded (m : Mem) (p : Nat) (s : Str) (dst : Mem) (cap : Nat)
    (h : CStrAt m p s) (hdst : cap ≤ dst.length) :
    ∃ e dst', hexStrToHex m (some p) (some dst) cap = some (e, some dst') ∧
      SameOutside dst dst' 0 cap := by
  rcases Nat.lt_or_ge (s.length / 2) cap with hlt | hge
  · cases hv : AtStr.valid s with
    | true =>
      have hlm := h.lt
      obtain ⟨dst', h3, h4⟩ := hexLoop_isSome m (s.length / 2) p dst 0 (by omega) (by omega)
      refine ⟨.success, dst', ?_, h4.mono (by omega) (by omega)⟩
      simp only [hexStrToHex, validateString_valid h hv, strlen_str h, Option.bind_eq_bind,
        Option.bind_some, h3]
      rw [if_neg (by simp), if_neg (by omega)]
      rfl
    | false =>
      obtain ⟨v, g1, g2⟩ := validateString_invalid h hv
      exact ⟨.badParameter, dst, by simp [hexStrToHex, g1, g2], SameOutside.refl _ _ _⟩
  · obtain ⟨e, _, h2⟩ := C06_hex_too_small m p s dst cap h hge
    exact ⟨e, dst, h2, SameOutside.refl _ _ _⟩

example : CStrAt (demoMem "00fFa9") 2 (str "00fFa9") ∧ hexText false [0, 255, 0xa9] = str "00ffa9" ∧
    CStrAt (demoMem "00ffa9") 2 (hexText false [0, 255, 0xa9]) :=
  ⟨demoMem_at _ (by decide), by decide, demoMem_at "00ffa9" (by decide)⟩

/-- A destination of exactly the decoded size is refused (the check is `>=`): "large enough" in C06
must be read as "one byte larger". -/
theorem C06_witness_exact_fit :
    hexStrToHex (str "41" ++ [0]) (some 0) (some [0]) 1 = some (.noMemory, some [0]) := by decide

/-! ## C07 -/

/-- Up to 255 keys: the function returns, and says true exactly when a valid key is a prefix of the
input.  MISSING for the full C07: longer key lists (see `C07_witness_hang`). -/
theorem C07_check_error_code_partial (m : Mem) (p : Nat) (s : Str) (h : CStrAt m p s)
    (h1 : 1 ≤ s.length) (h2 : s.length ≤ 256)
    (keys : List (Mem × Nat)) (ts : List Str)
    (hk : List.Forall₂ (fun (k : Mem × Nat) t => CStrAt k.1 k.2 t) keys ts)
    (hlen : keys.length ≤ 255) :
    ∃ r : Bool, (∀ fuel, keys.length < fuel →
        checkErrorCode fuel m (some p) (some keys) = .done (.success, some r)) ∧
      (r = true ↔ ∃ t ∈ ts, t ≠ [] ∧ t.length ≤ 256 ∧ t <+: s) := by
  have hv : AtStr.valid s = true := (valid_iff s).mpr ⟨by intro e; simp [e] at h1, h2⟩
  refine ⟨ts.any (fun k => (AtStr.strStartWith s k).2 == some true), ?_, ?_⟩
  · intro fuel hf
    have := checkLoop_small h hk hlen keys.length 0 fuel (by omega) (by omega) hf
    simp only [List.drop_zero] at this
    have e0 : UInt8.ofNat 0 = 0 := rfl
    rw [e0] at this
    simp [checkErrorCode, validateString_valid h hv, this]
  · simp only [List.any_eq_true, beq_iff_eq]
    constructor
    · rintro ⟨t, ht, he⟩
      refine ⟨t, ht, ?_⟩
      simp only [AtStr.strStartWith] at he
      split at he
      · rename_i hvv
        simp only [Bool.and_eq_true] at hvv
        obtain ⟨g1, g2⟩ := (valid_iff t).mp hvv.2
        refine ⟨g1, g2, ?_⟩
        simpa using he
      · simp at he
    · rintro ⟨t, ht, g1, g2, g3⟩
      refine ⟨t, ht, ?_⟩
      have hvt : AtStr.valid t = true := (valid_iff t).mpr ⟨g1, g2⟩
      simp only [AtStr.strStartWith, hv, hvt, Bool.and_self, if_true, Option.some.injEq]
      simpa using g3

example : List.Forall₂ (fun (k : Mem × Nat) t => CStrAt k.1 k.2 t)
    [(demoMem "ERROR", 2), (demoMem "+CME ERROR", 2)] [str "ERROR", str "+CME ERROR"] ∧
    str "ERROR" <+: str "ERROR 3" :=
  ⟨.cons (demoMem_at _ (by decide)) (.cons (demoMem_at _ (by decide)) .nil), by decide⟩

/-- C07 fails for 256 or more keys: when none of the first 256 matches, the 8-bit index wraps and
the function never returns, whatever the number of steps allowed. -/
theorem C07_witness_hang (m : Mem) (p : Nat) (s : Str) (h : CStrAt m p s)
    (h1 : 1 ≤ s.length) (h2 : s.length ≤ 256)
    (keys : List (Mem × Nat)) (ts : List Str)
    (hk : List.Forall₂ (fun (k : Mem × Nat) t => CStrAt k.1 k.2 t) keys ts)
    (hlen : 256 ≤ keys.length) (hno : ∀ t ∈ ts.take 256, ¬ t <+: s) (fuel : Nat) :
    checkErrorCode fuel m (some p) (some keys) = .outOfFuel := by
  have hv : AtStr.valid s = true := (valid_iff s).mpr ⟨by intro e; simp [e] at h1, h2⟩
  have := checkLoop_hangs h hk hlen (by
    intro i hi t ht he
    have hm : t ∈ ts.take 256 := by
      apply List.mem_of_getElem? (i := i)
      rw [List.getElem?_take_of_lt hi]; exact ht
    apply hno t hm
    simp only [AtStr.strStartWith] at he
    split at he
    · simpa using he
    · simp at he) fuel 0
  simp [checkErrorCode, validateString_valid h hv, this]

example : ∀ t ∈ (List.replicate 300 (str "X")).take 256, ¬ t <+: str "AB" := by
  intro t ht
  have := List.eq_of_mem_replicate (List.mem_of_mem_take ht)
  subst this; decide

/-! ## C08 -/

/-- Text before the digits: optional '-' or '+'. -/
inductive SignText : Str → Bool → Prop
  | none : SignText [] false
  | plus : SignText [43] false
  | minus : SignText [45] true

theorem strtol_numeral (longMax : Nat) (base : Nat) (ws sg s rest : Str)
    (neg : Bool) (v : Nat) (hws : ∀ b ∈ ws, White b) (hsg : SignText sg neg)
    (hs : Numeral base s v)
    (hrest : ∀ b, rest.head? = some b → ∀ d, digit? b = some d → ¬ d < base)
    (hx : base = 16 → ¬ (s = [48] ∧ ∃ x, rest.head? = some x ∧ (x = 120 ∨ x = 88))) :
    strtol longMax base (ws ++ sg ++ s ++ rest) =
      (if neg then (if v ≤ longMax + 1 then -(v : Int) else -((longMax : Int) + 1))
       else (if v ≤ longMax then (v : Int) else (longMax : Int)), true) := by
  obtain ⟨hne, hdig⟩ := numeral_digits hs
  obtain ⟨c, t, hct⟩ := List.exists_cons_of_ne_nil hne
  obtain ⟨d0, hd0, _⟩ := hdig c (by simp [hct])
  obtain ⟨hsp, h45, h43, _⟩ := digit?_some hd0
  have hdw : (ws ++ sg ++ s ++ rest).dropWhile isSpace = sg ++ s ++ rest := by
    rw [List.append_assoc, List.append_assoc,
      List.dropWhile_append_of_pos (fun b hb => (isSpace_iff b).mpr (hws b hb))]
    cases hsg with
    | none => rw [hct]; simp [hsp]
    | plus => simp [isSpace]
    | minus => simp [isSpace]
  have hskip : skip0x base (s ++ rest) = s ++ rest := by
    unfold skip0x
    split
    · rename_i x d t' heq
      split
      · rename_i hcond
        exfalso
        obtain ⟨hb16, hxx, _⟩ := hcond
        cases t with
        | nil =>
          rw [hct] at heq
          simp only [List.cons_append, List.nil_append, List.cons.injEq] at heq
          exact hx hb16 ⟨by rw [hct, heq.1], x, by rw [heq.2]; rfl, hxx⟩
        | cons y t =>
          rw [hct] at heq
          simp only [List.cons_append, List.cons.injEq] at heq
          obtain ⟨dd, hdd, hlt⟩ := hdig y (by simp [hct])
          rw [heq.2.1] at hdd
          subst hb16
          rcases hxx with hxx | hxx <;> subst hxx
          · have : digit? 120 = some 33 := by decide
            rw [this] at hdd; injection hdd with hdd; omega
          · have : digit? 88 = some 33 := by decide
            rw [this] at hdd; injection hdd with hdd; omega
      · rfl
    · rfl
  have hloop : digitsLoop base (s ++ rest) 0 false = (v, true) := by
    rw [numeral_digitsLoop hs]
    cases rest with
    | nil => rfl
    | cons b r =>
      have := hrest b rfl
      rw [digitsLoop, digitVal_eq]
      cases hb : digit? b with
      | none => simp
      | some d => simp [this d hb]
  unfold strtol
  rw [hdw]
  cases hsg with
  | none =>
    have hm : splitSign ([] ++ s ++ rest) = (false, s ++ rest) := by
      rw [hct]
      simp only [List.nil_append, List.cons_append]
      unfold splitSign
      split
      · rename_i heq; simp only [List.cons.injEq] at heq; exact absurd heq.1 h45
      · rename_i heq; simp only [List.cons.injEq] at heq; exact absurd heq.1 h43
      · rfl
    simp only [hm, hskip, hloop]; simp
  | plus => simp [splitSign, hskip, hloop]
  | minus => simp [splitSign, hskip, hloop]

theorem toInt32_id (v : Int) (h1 : -(2 ^ 31) ≤ v) (h2 : v < 2 ^ 31) : toInt32 v = v := by
  unfold toInt32; omega

/-- Faithful part of C08: text with optional white space and sign, digits of value `v`, then
anything not continuing the number, is read as ±v when that fits 32 bits.  MISSING for the full
C08: numbers outside 32 bits are reported as success with another value (witnesses below). -/
theorem C08_strtoi_faithful_partial (longMax : Nat) (hlm : 2 ^ 31 - 1 ≤ longMax) (base : Nat)
    (ws sg s rest : Str) (neg : Bool) (v : Nat) (hws : ∀ b ∈ ws, White b)
    (hsg : SignText sg neg) (hs : Numeral base s v)
    (hrest : ∀ b, rest.head? = some b → ∀ d, digit? b = some d → ¬ d < base)
    (hx : base = 16 → ¬ (s = [48] ∧ ∃ x, rest.head? = some x ∧ (x = 120 ∨ x = 88)))
    (hv : if neg then v ≤ 2 ^ 31 else v < 2 ^ 31) :
    strtoi longMax (some (ws ++ sg ++ s ++ rest)) base =
      (.success, some (if neg then -(v : Int) else (v : Int))) := by
  unfold strtoi
  simp only [strtol_numeral longMax base ws sg s rest neg v hws hsg hs hrest hx]
  cases neg with
  | false =>
    simp only [Bool.false_eq_true, if_false] at hv ⊢
    rw [if_pos (by omega), toInt32_id _ (by omega) (by omega)]
  | true =>
    simp only [if_true] at hv ⊢
    rw [if_pos (by omega), toInt32_id _ (by omega) (by omega)]

/-- Round trip: the decimal text of every 32-bit integer is read back. -/
theorem C08_strtoi_roundtrip (longMax : Nat) (hlm : 2 ^ 31 - 1 ≤ longMax) (v : Int)
    (h1 : -(2 ^ 31) ≤ v) (h2 : v < 2 ^ 31) :
    strtoi longMax (some (intText v)) 10 = (.success, some v) := by
  cases v with
  | ofNat n =>
    have := C08_strtoi_faithful_partial longMax hlm 10 [] [] (decText n) [] false n (by simp) .none
      (decText_numeral n) (by simp) (by simp) (by simp; simp at h2; omega)
    simpa [intText] using this
  | negSucc n =>
    have := C08_strtoi_faithful_partial longMax hlm 10 [] [45] (decText (n + 1)) [] true (n + 1)
      (by simp) .minus (decText_numeral _) (by simp) (by simp) (by simp; omega)
    simpa [intText, Int.negSucc_eq] using this

/-- Text without digits (after white space and sign) is refused and the result is not written. -/
theorem C08_strtoi_no_digits (longMax base : Nat) (ws sg rest : Str) (neg : Bool)
    (hws : ∀ b ∈ ws, White b) (hsg : SignText sg neg)
    (hrest : ∀ b, rest.head? = some b → ¬ White b ∧ b ≠ 43 ∧ b ≠ 45 ∧
      ∀ d, digit? b = some d → ¬ d < base) (hb : 2 ≤ base) :
    strtoi longMax (some (ws ++ sg ++ rest)) base = (.error, none) := by
  have hr : rest.head? ≠ some 48 := by
    intro h
    exact (hrest 48 h).2.2.2 0 (by decide) (by omega)
  have hskip : skip0x base rest = rest := by
    unfold skip0x
    split
    · rename_i heq; simp at hr
    · rfl
  have hloop : digitsLoop base rest 0 false = (0, false) := by
    cases rest with
    | nil => rfl
    | cons b r =>
      have := (hrest b rfl).2.2.2
      rw [digitsLoop, digitVal_eq]
      cases hb : digit? b with
      | none => simp
      | some d => simp [this d hb]
  have hdw : (ws ++ sg ++ rest).dropWhile isSpace = sg ++ rest := by
    rw [List.append_assoc,
      List.dropWhile_append_of_pos (fun b hb => (isSpace_iff b).mpr (hws b hb))]
    cases hsg with
    | none =>
      cases rest with
      | nil => rfl
      | cons b r =>
        have : isSpace b = false := by
          cases hh : isSpace b
          · rfl
          · exact absurd ((isSpace_iff b).mp hh) (hrest b rfl).1
        simp [this]
    | plus => simp [isSpace]
    | minus => simp [isSpace]
  have : strtol longMax base (ws ++ sg ++ rest) = (0, false) := by
    unfold strtol
    rw [hdw]
    cases hsg with
    | none =>
      have hm : splitSign ([] ++ rest) = (false, rest) := by
        cases rest with
        | nil => rfl
        | cons b r =>
          have h3 := hrest b rfl
          simp only [List.nil_append]
          unfold splitSign
          split
          · rename_i heq; simp only [List.cons.injEq] at heq; exact absurd heq.1 h3.2.2.1
          · rename_i heq; simp only [List.cons.injEq] at heq; exact absurd heq.1 h3.2.1
          · rfl
      simp only [hm, hskip, hloop]; simp
    | plus => simp [splitSign, hskip, hloop]
    | minus => simp [splitSign, hskip, hloop]
  simp only [strtoi, this]

example : intText (-2147483648) = str "-2147483648" ∧
    strtoi (2 ^ 31 - 1) (some (str "-2147483648")) 10 = (.success, some (-2147483648)) ∧
    strtoi (2 ^ 31 - 1) (some (str "  x")) 10 = (.error, none) := by decide +kernel

/-- With a 64-bit `long` the value is truncated modulo 2^32 and success is reported. -/
theorem C08_witness_wrap_64bit :
    strtoi (2 ^ 63 - 1) (some (str "4294967297")) 10 = (.success, some 1) := by decide +kernel

/-- With a 32-bit `long` it saturates, and success is reported. -/
theorem C08_witness_saturate_32bit :
    strtoi (2 ^ 31 - 1) (some (str "2147483648")) 10 = (.success, some 2147483647) := by
  decide +kernel

/-! ## C09 -/

/-- No helper ever leaves the caller's object, for any text at any position: every call has a
defined outcome, and writing helpers change nothing outside the text (terminator included). -/
theorem C09_helpers_memory_safe (m : Mem) (p : Nat) (s : Str) (h : CStrAt m p s) :
    (isPrefixPresent m (some p)).isSome ∧
    (removePrefix m (some p)).isSome ∧
    (removeLeadingWhiteSpaces m (some p)).isSome ∧
    (isStrDigit m (some p)).isSome ∧
    (∃ e m', removeTrailingWhiteSpaces m (some p) = some (e, m') ∧
      SameOutside m m' p (p + s.length + 1)) ∧
    (∃ e m', removeAllWhiteSpaces m (some p) = some (e, m') ∧
      SameOutside m m' p (p + s.length + 1)) ∧
    (∃ e m', removeAllDoubleQuote m (some p) = some (e, m') ∧
      SameOutside m m' p (p + s.length + 1)) ∧
    (∃ e q m', removeOutermostDoubleQuote m (some p) = some (e, q, m') ∧
      SameOutside m m' p (p + s.length + 1)) ∧
    (∃ r, getNextTok m (some p) = some r ∧ SameOutside m r.mem p (p + s.length + 1)) ∧
    (∀ d : Byte, d ≠ 0 → ∃ r, getSpecificNextTok m (some p) [d] = some r ∧
      SameOutside m r.mem p (p + s.length + 1)) ∧
    (∀ k q t, CStrAt k q t → (strStartWith m (some p) k (some q)).isSome) ∧
    (∀ dst cap, cap ≤ dst.length → ∃ e dst', hexStrToHex m (some p) (some dst) cap
      = some (e, some dst') ∧ SameOutside dst dst' 0 cap) := by
  have htok : ∀ d : Byte, d ≠ 0 → ∃ r, getSpecificNextTok m (some p) [d] = some r ∧
      SameOutside m r.mem p (p + s.length + 1) := by
    intro d hd
    cases hv : AtStr.valid s with
    | true =>
      obtain ⟨q, m', e1, _, _, e4, _⟩ := getTok_refines d hd h hv
      exact ⟨_, e1, e4.mono (by omega) (by omega)⟩
    | false => exact ⟨_, getTok_refines_invalid [d] h hv, SameOutside.refl _ _ _⟩
  refine ⟨?_, ?_, ?_, ?_, ?_, ?_, ?_, ?_, htok 44 (by decide), htok, ?_, ?_⟩
  · rw [isPrefixPresent_refines h]; rfl
  · have := removePrefix_refines h
    split at this
    · rw [this]; rfl
    · obtain ⟨q, e, _⟩ := this; rw [e]; rfl
  · obtain ⟨q, e, _⟩ := removeLeadingWhiteSpaces_refines h; rw [e]; rfl
  · rw [isStrDigit_refines h]; rfl
  · obtain ⟨m', e1, _, e3⟩ := removeTrailingWhiteSpaces_refines h; exact ⟨_, m', e1, e3⟩
  · obtain ⟨m', e1, _, e3⟩ := removeAllWhiteSpaces_refines h; exact ⟨_, m', e1, e3⟩
  · obtain ⟨m', e1, _, e3⟩ := removeAllDoubleQuote_refines h; exact ⟨_, m', e1, e3⟩
  · obtain ⟨q, m', e1, _, e3, _⟩ := removeOutermostDoubleQuote_refines h; exact ⟨_, _, m', e1, e3⟩
  · intro k q t hk; rw [strStartWith_refines h hk]; rfl
  · intro dst cap hc; exact C06_hex_bounded m p s dst cap h hc

/-- `Cellular_ATStrDup` gives a fresh object holding exactly the string, for every allocator. -/
theorem C09_strdup (alloc : Nat → Option Mem) (halloc : ∀ n o, alloc n = some o → o.length = n)
    (m : Mem) (p : Nat) (s : Str) (h : CStrAt m p s) (h1 : 1 ≤ s.length) (h2 : s.length ≤ 256) :
    strDup alloc m (some p) =
      some (if (alloc (s.length + 1)).isSome then (.success, some (s ++ [0]))
            else (.noMemory, none)) := by
  have hv : AtStr.valid s = true := (valid_iff s).mpr ⟨by intro e; simp [e] at h1, h2⟩
  obtain ⟨post, hd⟩ := h.drop
  simp only [strDup, validateString_valid h hv, strlen_str h, Option.bind_eq_bind,
    Option.bind_some, hd]
  rw [if_neg (by simp)]
  cases ha : alloc (s.length + 1) with
  | none => simp
  | some o =>
    have := dupLoop_str s h.noNul post [] o (halloc _ _ ha)
    simp only [List.nil_append, List.length_nil] at this
    simp [this]

/-- `Cellular_ATcheckErrorCode` never leaves its strings, for any number of keys. -/
theorem C09_check_error_code_no_ub (m : Mem) (p : Nat) (s : Str) (h : CStrAt m p s)
    (keys : List (Mem × Nat)) (hk : ∀ k ∈ keys, ∃ t, CStrAt k.1 k.2 t) (fuel : Nat) :
    checkErrorCode fuel m (some p) (some keys) ≠ .ub := by
  have hloop : ∀ (fuel : Nat) (i : UInt8), checkLoop m p keys fuel i ≠ .ub := by
    intro fuel
    induction fuel with
    | zero => intro i; simp [checkLoop]
    | succ fuel ih =>
      intro i
      rw [checkLoop]
      split
      · rename_i hlt
        rw [List.getElem?_eq_getElem hlt]
        obtain ⟨t, ht⟩ := hk _ (List.getElem_mem hlt)
        simp only []
        rw [strStartWith_refines h ht]
        have := ih (i + 1)
        split <;> simp_all
      · simp
  have h1 := validateString_str h
  simp only [checkErrorCode, h1]
  have := hloop fuel 0
  split
  · simp
  · cases hc : checkLoop m p keys fuel 0 <;> simp_all <;> split <;> simp

example : CStrAt (demoMem "+X: 1,\"a\" ") 2 (str "+X: 1,\"a\" ") := demoMem_at _ (by decide)

/-- C09 fails for delimiter strings of several characters (not used by the library itself): when the
text consists of delimiters other than the first one, `strtok` returns NULL and the code takes its
length. -/
theorem C09_witness_multichar_delimiter :
    getSpecificNextTok (str ";" ++ [0]) (some 0) (str ",;") = none := by decide

end Cellular.Props
