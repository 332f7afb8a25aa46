import Verif.AtRefuse
/-!
# C79: tokens separated by any of several delimiter characters; C07 at the level of texts
-/

namespace Cellular.Spec

/-- A text without delimiters. -/
def Free (ds : Str) (t : Str) : Prop := ∀ b ∈ t, b ∉ ds

/-- A text of delimiters only. -/
def Seps (ds : Str) (t : Str) : Prop := ∀ b ∈ t, b ∈ ds

/-- The token `tok` is at `p`, and the caller's pointer is then at the text `rest`; nothing outside the text was
changed. -/
def Cut (m : Mem) (p : Nat) (s : Str) (r : AtCore.TokRes) (at_ : Nat) (tok rest : Str) : Prop :=
  r.status = .success ∧ r.tok = some at_ ∧ CStrAt r.mem at_ tok ∧ SameOutside m r.mem p (p + s.length) ∧
    ∃ q, r.next = some q ∧ CStrAt r.mem q rest

end Cellular.Spec

namespace Cellular.Props
open Cellular Cellular.Spec Cellular.AtCore

theorem takeWhile_sep {ds lead x : Str} (hl : Seps ds lead) (hx : ∀ b t, x = b :: t → b ∉ ds) :
    (lead ++ x).takeWhile (fun b => ds.contains b) = lead := by
  induction lead with
  | nil =>
    cases x with
    | nil => rfl
    | cons b t => simp [hx b t rfl]
  | cons a l ih =>
    have ha : a ∈ ds := hl a (by simp)
    simp only [List.cons_append]
    rw [List.takeWhile_cons_of_pos (by simpa using ha), ih (fun b hb => hl b (by simp [hb]))]

theorem takeWhile_tok {ds tok x : Str} (hl : Free ds tok) (hx : ∀ b t, x = b :: t → b ∈ ds) :
    (tok ++ x).takeWhile (fun b => !ds.contains b) = tok := by
  induction tok with
  | nil =>
    cases x with
    | nil => rfl
    | cons b t => simp [hx b t rfl]
  | cons a l ih =>
    have ha : a ∉ ds := hl a (by simp)
    simp only [List.cons_append]
    rw [List.takeWhile_cons_of_pos (by simpa using ha), ih (fun b hb => hl b (by simp [hb]))]

/-- `strtok` on a text `lead ++ tok ++ d :: rest`. -/
theorem strtok_cut {m : Mem} {p : Nat} {ds lead tok rest : Str} {d : Byte} (h : CStrAt m p (lead ++ (tok ++ d :: rest)))
    (hl : Seps ds lead) (ht : Free ds tok) (htn : tok ≠ []) (hd : d ∈ ds) :
    ∃ m', strtok m p ds = some (some (p + lead.length), m') ∧ wr m (p + lead.length + tok.length) 0 = some m' := by
  obtain ⟨post, hdrop⟩ := h.drop
  obtain ⟨x, tok', rfl⟩ := List.exists_cons_of_ne_nil htn
  have hx : x ∉ ds := ht x (by simp)
  have h1 := takeWhile_sep (x := x :: tok' ++ d :: rest) hl (by intro b t e; cases e; exact hx)
  have hsuf := h.suffix
  obtain ⟨post2, hdrop2⟩ := hsuf.drop
  have h2 := takeWhile_tok (x := d :: rest) ht (by intro b t e; cases e; exact hd)
  have hr1 : rd m (p + lead.length) = some x := rd_head hsuf
  have hr2 : rd m (p + lead.length + (x :: tok').length) = some d := by
    rw [rd_str hsuf (x :: tok').length (by simp)]
    simp
  have hx0 : x ≠ 0 := hsuf.noNul x (by simp)
  have hd0 : d ≠ 0 := hsuf.noNul d (by simp)
  obtain ⟨m', hw, -⟩ := (show CStrAt m p ((lead ++ x :: tok') ++ d :: rest) by simpa using h).cut
  have hw' : wr m (p + lead.length + (x :: tok').length) 0 = some m' := by
    rw [← hw]; congr 1; simp; omega
  refine ⟨m', ?_, hw'⟩
  simp only [strtok, hdrop, spanL_str _ _ _ h.noNul, h1, Option.bind_eq_bind, Option.bind_some, hr1, hx0, if_false, hdrop2,
    spanL_str _ _ _ hsuf.noNul, h2, hr2, hd0, hw']
  rfl

/-- `strtok` on a text `lead ++ tok`. -/
theorem strtok_end {m : Mem} {p : Nat} {ds lead tok : Str} (h : CStrAt m p (lead ++ tok))
    (hl : Seps ds lead) (ht : Free ds tok) (htn : tok ≠ []) :
    strtok m p ds = some (some (p + lead.length), m) := by
  obtain ⟨post, hdrop⟩ := h.drop
  obtain ⟨x, tok', rfl⟩ := List.exists_cons_of_ne_nil htn
  have hx : x ∉ ds := ht x (by simp)
  have h1 := takeWhile_sep (x := x :: tok') hl (by intro b t e; cases e; exact hx)
  have hsuf := h.suffix
  obtain ⟨post2, hdrop2⟩ := hsuf.drop
  have h2 := takeWhile_tok (x := []) ht (by intro b t e; cases e)
  rw [List.append_nil] at h2
  have hr1 : rd m (p + lead.length) = some x := rd_head hsuf
  have hr2 : rd m (p + lead.length + (x :: tok').length) = some 0 := by
    rw [rd_str hsuf (x :: tok').length (by simp)]
    simp
  have hx0 : x ≠ 0 := hsuf.noNul x (by simp)
  simp only [strtok, hdrop, spanL_str _ _ _ h.noNul, h1, Option.bind_eq_bind, Option.bind_some, hr1, hx0, if_false, hdrop2,
    spanL_str _ _ _ hsuf.noNul, h2, hr2]
  rfl

/-- The text starts with the first delimiter: an empty token, and the rest follows. -/
theorem C79_first_delimiter {m : Mem} {p : Nat} {d0 : Byte} {ds t : Str} (h : CStrAt m p (d0 :: t))
    (hlen : (d0 :: t).length ≤ 256) :
    ∃ r, getSpecificNextTok m (some p) (d0 :: ds) = some r ∧ Cut m p (d0 :: t) r p [] t := by
  have hv : AtStr.valid (d0 :: t) = true := (valid_iff _).mpr ⟨by simp, hlen⟩
  obtain ⟨m', hw, hc1, hc2, hso⟩ := CStrAt.cut (a := []) (b := d0 :: t) h
  have hc3 := hc2 d0 t rfl
  simp only [List.length_nil, Nat.add_zero] at hw hc3 hso
  have hl0 : strlen m' p = some 0 := by simpa using strlen_str hc1
  have hr : rd m' (p + 0 + 1) = some (t.headD 0) := by
    cases t with
    | nil => simpa [rd] using (cstrAt_iff.mp hc3).2.2
    | cons a t => simpa using rd_head hc3
  have hso' : SameOutside m m' p (p + (d0 :: t).length) := hso.mono (by omega) (by simp)
  unfold getSpecificNextTok
  simp only [validateString_valid h hv, strlen_str h, rd_head h, Option.bind_eq_bind, Option.bind_some, ne_eq,
    not_true_eq_false, if_false, List.headD_cons, if_true, hw, Option.pure_def, hl0, hr]
  rw [if_pos (by simp)]
  by_cases h0 : t.headD 0 = 0
  · have : t = [] := by
      cases t with
      | nil => rfl
      | cons a t => exact absurd h0 (h.noNul a (by simp))
    subst this
    exact ⟨_, by simp; rfl, rfl, rfl, hc1, hso', p, by simp, hc1⟩
  · rw [if_pos h0]
    exact ⟨_, rfl, rfl, rfl, hc1, hso', p + 1, by simp, hc3⟩

/-- The text starts with something else, and a token is followed by a delimiter: `lead` delimiters are
skipped.  The rest is what follows the delimiter, unless exactly one was skipped: then it is lost. -/
theorem C79_token_exact {m : Mem} {p : Nat} {d0 d : Byte} {ds lead tok rest : Str}
    (h : CStrAt m p (lead ++ (tok ++ d :: rest))) (hlen : (lead ++ (tok ++ d :: rest)).length ≤ 256)
    (hl : Seps (d0 :: ds) lead) (h0 : lead.head? ≠ some d0) (ht : Free (d0 :: ds) tok) (htn : tok ≠ [])
    (hd : d ∈ d0 :: ds) :
    ∃ r, getSpecificNextTok m (some p) (d0 :: ds) = some r ∧
      Cut m p (lead ++ (tok ++ d :: rest)) r (p + lead.length) tok (if lead.length = 1 then [] else rest) := by
  have hv : AtStr.valid (lead ++ (tok ++ d :: rest)) = true := (valid_iff _).mpr ⟨by simp, hlen⟩
  obtain ⟨m', hst, hw⟩ := strtok_cut h hl ht htn hd
  have hsuf := h.suffix
  obtain ⟨m2, hw2, hc1, hc2, hso⟩ := hsuf.cut
  rw [hw] at hw2
  cases hw2
  have hc3 := hc2 d rest rfl
  have hso' : SameOutside m m' p (p + (lead ++ (tok ++ d :: rest)).length) := hso.mono (by omega) (by simp; omega)
  have hstl := strlen_str hc1
  obtain ⟨c, hc, hcne⟩ : ∃ c, rd m p = some c ∧ c ≠ d0 := by
    cases lead with
    | nil =>
      obtain ⟨x, t, rfl⟩ := List.exists_cons_of_ne_nil htn
      exact ⟨x, rd_head h, fun e => ht x (by simp) (by simp [e])⟩
    | cons x l => exact ⟨x, rd_head h, fun e => h0 (by simp [e])⟩
  have key : ∀ nb, rd m' (p + tok.length + 1) = some nb →
      getSpecificNextTok m (some p) (d0 :: ds) = some ⟨.success,
        some (if nb ≠ 0 then p + lead.length + tok.length + 1 else p + lead.length + tok.length),
        some (p + lead.length), m'⟩ := by
    intro nb hnb
    unfold getSpecificNextTok
    simp only [validateString_valid h hv, strlen_str h, hc, Option.bind_eq_bind, Option.bind_some, ne_eq,
      not_true_eq_false, if_false, List.headD_cons, if_neg hcne, hst, hstl, hnb]
    rw [if_pos (by simp; omega)]
    split <;> rfl
  have hend : CStrAt m' (p + lead.length + tok.length) [] := by
    simpa using CStrAt.suffix (s := tok) (t := []) (by simpa using hc1)
  rcases Nat.lt_trichotomy lead.length 1 with hl1 | hl1 | hl1
  · have hl0 : lead = [] := by cases lead with | nil => rfl | cons a l => simp at hl1
    subst hl0
    simp only [List.length_nil, Nat.add_zero] at *
    rw [if_neg (by omega)]
    have hnb : rd m' (p + tok.length + 1) = some (rest.headD 0) := by
      cases rest with
      | nil => simpa [rd] using (cstrAt_iff.mp hc3).2.2
      | cons a t => simpa using rd_head hc3
    refine ⟨_, key _ hnb, rfl, rfl, hc1, hso', _, rfl, ?_⟩
    cases rest with
    | nil => simpa using hend
    | cons a t =>
      have : a ≠ 0 := hc3.noNul a (by simp)
      simpa [this] using hc3
  · rw [if_pos hl1]
    have hnb : rd m' (p + tok.length + 1) = some 0 := by
      have := (cstrAt_iff.mp hend).2.2
      rw [hl1] at this
      simp only [List.length_nil, Nat.add_zero] at this
      have e : p + tok.length + 1 = p + 1 + tok.length := by omega
      rw [e]
      exact this
    refine ⟨_, key _ hnb, rfl, rfl, hc1, hso', _, rfl, ?_⟩
    simpa using hend
  · rw [if_neg (by omega)]
    obtain ⟨nb, hnb, hnb0⟩ : ∃ nb, rd m' (p + tok.length + 1) = some nb ∧ nb ≠ 0 := by
      have hi : tok.length + 1 < (lead ++ (tok ++ d :: rest)).length := by simp; omega
      refine ⟨(lead ++ (tok ++ d :: rest))[tok.length + 1], ?_, h.noNul _ (List.getElem_mem hi)⟩
      have h1 := rd_str h (tok.length + 1) (by omega)
      rw [dif_pos hi] at h1
      unfold rd at h1 ⊢
      rw [hso.2 (p + tok.length + 1) (by omega)]
      simpa [Nat.add_assoc] using h1
    refine ⟨_, key _ hnb, rfl, rfl, hc1, hso', _, rfl, ?_⟩
    simpa [hnb0] using hc3

/-- The last token: the pointer is then at the end of the text, unless two or more delimiters were skipped: then
it is behind the terminating NUL. -/
theorem C79_last_exact {m : Mem} {p : Nat} {d0 : Byte} {ds lead tok : Str}
    (h : CStrAt m p (lead ++ tok)) (hlen : (lead ++ tok).length ≤ 256)
    (hl : Seps (d0 :: ds) lead) (h0 : lead.head? ≠ some d0) (ht : Free (d0 :: ds) tok) (htn : tok ≠ []) :
    getSpecificNextTok m (some p) (d0 :: ds) = some ⟨.success,
      some (if lead.length ≤ 1 then p + (lead ++ tok).length else p + (lead ++ tok).length + 1),
      some (p + lead.length), m⟩ := by
  have hne : lead ++ tok ≠ [] := by simp [htn]
  have hv : AtStr.valid (lead ++ tok) = true := (valid_iff _).mpr ⟨hne, hlen⟩
  have hst := strtok_end h hl ht htn
  have hsuf := h.suffix
  have hstl := strlen_str hsuf
  obtain ⟨c, hc, hcne⟩ : ∃ c, rd m p = some c ∧ c ≠ d0 := by
    cases lead with
    | nil =>
      obtain ⟨x, t, rfl⟩ := List.exists_cons_of_ne_nil htn
      exact ⟨x, rd_head h, fun e => ht x (by simp) (by simp [e])⟩
    | cons x l => exact ⟨x, rd_head h, fun e => h0 (by simp [e])⟩
  unfold getSpecificNextTok
  simp only [validateString_valid h hv, strlen_str h, hc, Option.bind_eq_bind, Option.bind_some, ne_eq,
    not_true_eq_false, if_false, List.headD_cons, if_neg hcne, hst, hstl]
  rcases Nat.lt_trichotomy lead.length 1 with hl1 | hl1 | hl1
  · have hl0 : lead = [] := by cases lead with | nil => rfl | cons a l => simp at hl1
    subst hl0
    simp
  · rw [if_pos (by simp; omega), if_pos (by omega)]
    have hnb : rd m (p + tok.length + 1) = some 0 := by
      have := rd_str h (lead ++ tok).length (by omega)
      rw [dif_neg (by omega)] at this
      rw [← this]; congr 1; simp; omega
    rw [hnb]
    simp [Nat.add_assoc]
  · rw [if_pos (by simp; omega), if_neg (by omega)]
    have hi : tok.length + 1 < (lead ++ tok).length := by simp; omega
    have h1 := rd_str h (tok.length + 1) (by omega)
    rw [dif_pos hi] at h1
    have hnz : (lead ++ tok)[tok.length + 1] ≠ 0 := h.noNul _ (List.getElem_mem hi)
    rw [← Nat.add_assoc] at h1
    rw [h1]
    simp [hnz, Nat.add_assoc]

/-- A text of delimiters only, which does not start with the first one: undefined behaviour. -/
theorem C79_only_delimiters {m : Mem} {p : Nat} {d0 : Byte} {ds lead : Str} (h : CStrAt m p lead) (hlen : lead.length ≤ 256)
    (hn : lead ≠ []) (hl : Seps (d0 :: ds) lead) (h0 : lead.head? ≠ some d0) :
    getSpecificNextTok m (some p) (d0 :: ds) = none := by
  have hv : AtStr.valid lead = true := (valid_iff _).mpr ⟨hn, hlen⟩
  obtain ⟨x, l, rfl⟩ := List.exists_cons_of_ne_nil hn
  have hx : x ≠ d0 := fun e => h0 (by simp [e])
  obtain ⟨post, hdrop⟩ := h.drop
  have h1 := takeWhile_sep (x := []) hl (by intro b t e; cases e)
  rw [List.append_nil] at h1
  have hr2 : rd m (p + (x :: l).length) = some 0 := by
    rw [rd_str h (x :: l).length (by simp)]
    simp
  have hst : strtok m p (d0 :: ds) = some (none, m) := by
    simp only [strtok, hdrop, spanL_str _ _ _ h.noNul, h1, Option.bind_eq_bind, Option.bind_some, hr2, if_true]
    rfl
  unfold getSpecificNextTok
  simp only [validateString_valid h hv, strlen_str h, rd_head h, Option.bind_eq_bind, Option.bind_some, ne_eq,
    not_true_eq_false, if_false, List.headD_cons, if_neg hx, hst]

/-- A text that does not start with one of the other delimiters: the token is the text before the first delimiter
(nothing if it starts with the first one), the rest is the text after it. -/
theorem C79_next_token_partial {m : Mem} {p : Nat} {s : Str} {d0 : Byte} {ds : Str} (h : CStrAt m p s) (h1 : 1 ≤ s.length)
    (h2 : s.length ≤ 256) (h0 : ∀ b, s.head? = some b → b ∉ ds ∨ b = d0) :
    ∃ r, getSpecificNextTok m (some p) (d0 :: ds) = some r ∧
      Cut m p s r p (s.takeWhile (fun b => decide (b ∉ d0 :: ds))) ((s.dropWhile (fun b => decide (b ∉ d0 :: ds))).drop 1) := by
  have hfree : Free (d0 :: ds) (s.takeWhile (fun b => decide (b ∉ d0 :: ds))) := by
    intro b hb
    simpa using List.mem_takeWhile_imp hb
  have hsplit := (List.takeWhile_append_dropWhile (p := fun b => decide (b ∉ d0 :: ds)) (l := s))
  cases s with
  | nil => simp at h1
  | cons c t =>
    by_cases hc : c = d0
    · subst hc
      obtain ⟨r, e, hr⟩ := C79_first_delimiter (ds := ds) h h2
      exact ⟨r, e, by simpa using hr⟩
    · have hcd : c ∉ d0 :: ds := by
        rcases h0 c rfl with h | h
        · simp [hc, h]
        · exact absurd h hc
      have htn : (c :: t).takeWhile (fun b => decide (b ∉ d0 :: ds)) ≠ [] := by
        rw [List.takeWhile_cons_of_pos (by simpa using hcd)]
        simp
      generalize hT : (c :: t).takeWhile (fun b => decide (b ∉ d0 :: ds)) = T at *
      cases hD : (c :: t).dropWhile (fun b => decide (b ∉ d0 :: ds)) with
      | nil =>
        rw [hD, List.append_nil] at hsplit
        have e := C79_last_exact (d0 := d0) (ds := ds) (lead := []) (tok := T) (m := m) (p := p) (by simpa [hsplit] using h)
          (by simpa [hsplit] using h2) nofun (by simp) hfree htn
        have hT' : CStrAt m p T := by rw [hsplit]; exact h
        refine ⟨_, e, rfl, by simp, by simpa using hT', SameOutside.refl _ _ _, _, rfl, ?_⟩
        simpa using CStrAt.suffix (s := T) (t := []) (by simpa using hT')
      | cons d rest =>
        rw [hD] at hsplit
        have hd : d ∈ d0 :: ds := by
          have := List.head_dropWhile_not (fun b => decide (b ∉ d0 :: ds)) (l := c :: t) (by rw [hD]; simp)
          simp only [hD, List.head_cons] at this
          simpa [Decidable.or_iff_not_imp_left] using this
        obtain ⟨r, e, hr⟩ := C79_token_exact (d0 := d0) (ds := ds) (lead := []) (tok := T) (rest := rest) (d := d) (m := m) (p := p)
          (by simpa [hsplit] using h) (by simpa [hsplit] using h2) nofun (by simp) hfree htn hd
        refine ⟨r, e, ?_⟩
        rw [← hsplit]
        simpa using hr

example : CStrAt (demoMem "ab;c,d") 2 (str "ab;c,d") ∧
    (str "ab;c,d").takeWhile (fun b => decide (b ∉ (44 : Byte) :: str ";")) = str "ab" ∧
    ((str "ab;c,d").dropWhile (fun b => decide (b ∉ (44 : Byte) :: str ";"))).drop 1 = str "c,d" :=
  ⟨demoMem_at _ (by decide), by decide, by decide⟩

/-- C79 is false for texts that start with another delimiter: one is skipped and the rest of the text is lost ... -/
theorem C79_witness_lost :
    (getSpecificNextTok (str ";ab;c" ++ [0]) (some 0) (str ",;")) =
      some ⟨.success, some 3, some 1, str ";ab" ++ [0] ++ str "c" ++ [0]⟩ := by decide

/-- ... and if two are skipped the caller's pointer is left behind the end of the text: the next call reads there. -/
theorem C79_witness_behind_the_end :
    (getSpecificNextTok (str ";;a" ++ [0]) (some 0) (str ",;")) = some ⟨.success, some 4, some 2, str ";;a" ++ [0]⟩ ∧
    getSpecificNextTok (str ";;a" ++ [0]) (some 4) (str ",;") = none := by decide

/-! ## C07 -/

/-- The version for texts of `Cellular_ATcheckErrorCode`, which the packet layer's model uses, is the function. -/
theorem C07_texts {m : Mem} {p : Nat} {s : Str} (h : CStrAt m p s) {keys : List (Mem × Nat)} {ts : List Str}
    (hk : List.Forall₂ (fun (k : Mem × Nat) t => CStrAt k.1 k.2 t) keys ts) (hlen : keys.length ≤ 255)
    {fuel : Nat} (hf : keys.length < fuel) :
    checkErrorCode fuel m (some p) (some keys) = .done (AtStr.checkErrorCode s (some ts)) ∧
    checkErrorCode fuel m (some p) none = .done (AtStr.checkErrorCode s none) := by
  refine ⟨?_, rfl⟩
  cases hv : AtStr.valid s with
  | false =>
    obtain ⟨v, g1, g2⟩ := validateString_invalid h hv
    simp [checkErrorCode, AtStr.checkErrorCode, g1, g2, hv]
  | true =>
    obtain ⟨g1, g2⟩ := (valid_iff s).mp hv
    obtain ⟨r, hr, hiff⟩ := C07_check_error_code_partial m p s h (List.length_pos_iff.mpr g1) g2 keys ts hk hlen
    rw [hr fuel hf]
    simp only [AtStr.checkErrorCode, hv, if_true]
    congr 3
    rw [Bool.eq_iff_iff, hiff]
    simp only [List.any_eq_true, Bool.and_eq_true, List.isPrefixOf_iff_prefix]
    constructor
    · rintro ⟨t, ht, a, b, c⟩
      exact ⟨t, ht, (valid_iff t).mpr ⟨a, b⟩, c⟩
    · rintro ⟨t, ht, a, c⟩
      exact ⟨t, ht, ((valid_iff t).mp a).1, ((valid_iff t).mp a).2, c⟩

end Cellular.Props
