import Verif.PktioRecv
import Verif.PktioDataSpec
/-!
# Binary data in responses (C16)
-/

namespace Cellular.Props
open Cellular Cellular.Spec Cellular.Pktio

/-! ## The elements of a stream do not depend on how it is cut -/

theorem parse_cons_end (R : Recogniser) {b : Byte} (h : LineEnd b) (r : Str) : parse R (b :: r) = parse R r := by
  rw [parse]; simp [h]

theorem parse_incomplete (R : Recogniser) {t : Str} {b : Byte} {r : Str} (ht : t = b :: r) (hb : ¬ LineEnd b)
    (h : R.hdr t = .incomplete) : parse R t = ([], .text t) := by
  subst ht; rw [parse]; simp [hb, h]

theorem parse_block (R : Recogniser) {t : Str} {b : Byte} {r : Str} (ht : t = b :: r) (hb : ¬ LineEnd b)
    {l e n : Nat} (h : R.hdr t = .block l e n) :
    parse R t = if n ≤ (t.drop (l + e)).length then
        (.header (t.take l) :: .data ((t.drop (l + e)).take n) :: (parse R (t.drop (l + e + n))).1,
          (parse R (t.drop (l + e + n))).2)
      else ([.header (t.take l)], .data (t.drop (l + e)) n) := by
  have hs := R.shape t l e n h
  subst ht
  rw [parse]
  simp only [hb, if_false, h]
  rw [show (b :: r).drop (l + e + n) = r.drop (l + e + n - 1) by
    rw [show l + e + n = (l + e + n - 1) + 1 by omega]; simp]

theorem parse_partial (R : Recogniser) {t : Str} {b : Byte} {r : Str} (ht : t = b :: r) (hb : ¬ LineEnd b)
    (h : R.hdr t = .no) (hn : NoEol t) : parse R t = ([], .text t) := by
  subst ht; rw [parse]
  simp only [hb, if_false, h]
  rw [show (b :: r).findIdx? (fun c => decide (LineEnd c)) = none by
    rw [List.findIdx?_eq_none_iff]
    intro x hx
    simpa using hn x hx]

theorem findIdx_line {l : Str} (hl : NoEol l) {e : Byte} (he : LineEnd e) (r : Str) :
    (l ++ e :: r).findIdx? (fun c => decide (LineEnd c)) = some l.length := by
  rw [List.findIdx?_eq_some_iff_getElem]
  refine ⟨by simp, by simp [he], ?_⟩
  intro j hj
  rw [List.getElem_append_left hj]
  simpa using hl _ (List.getElem_mem hj)

theorem parse_line (R : Recogniser) {t l r : Str} {e : Byte} (ht : t = l ++ e :: r) (hne : l ≠ [])
    (hl : NoEol l) (he : LineEnd e) (h : R.hdr t = .no) :
    parse R t = (.line l :: (parse R r).1, (parse R r).2) := by
  obtain ⟨b, l', rfl⟩ := List.exists_cons_of_ne_nil hne
  have hb : ¬ LineEnd b := hl b (by simp)
  subst ht
  have hfi := findIdx_line hl he r
  rw [List.cons_append] at h hfi ⊢
  rw [parse]
  simp only [hb, if_false, h, hfi]
  have h1 : List.drop (b :: l').length (l' ++ e :: r) = r := by
    rw [show l' ++ e :: r = (l' ++ [e]) ++ r by simp]
    exact List.drop_left' (by simp)
  have h2 : List.take (b :: l').length (b :: (l' ++ e :: r)) = b :: l' := by simp
  rw [h1, h2]

theorem split_line {t : Str} (h : ∃ b ∈ t, LineEnd b) (b : Byte) (r : Str) (ht : t = b :: r) (hb : ¬ LineEnd b) :
    ∃ l e r', t = l ++ e :: r' ∧ l ≠ [] ∧ NoEol l ∧ LineEnd e := by
  cases hf : t.findIdx? isEol with
  | none =>
    obtain ⟨x, hx, hx2⟩ := h
    exact absurd hx2 (findIdx_none hf x hx)
  | some i =>
    obtain ⟨e, h1, h2, h3, h4⟩ := findIdx_split hf
    refine ⟨_, _, _, h1, ?_, h3, h2⟩
    intro h0
    rw [h0, List.nil_append, ht] at h1
    have : b = e := by simpa using congrArg List.head? h1
    exact hb (this ▸ h2)

/-- The elements of a longer stream are those of its beginning and those completed by the rest. -/
theorem parse_append (R : Recogniser) : ∀ (k : Nat) (t c : Str), t.length ≤ k →
    parse R (t ++ c) = ((parse R t).1 ++ (resume R (parse R t).2 c).1, (resume R (parse R t).2 c).2) := by
  intro k
  induction k with
  | zero =>
    intro t c h
    have : t = [] := List.length_eq_zero_iff.mp (by omega)
    subst this
    simp [parse, resume]
  | succ k ih =>
    intro t c hk
    match ht : t with
    | [] => simp [parse, resume]
    | b :: r =>
      rw [← ht] at hk ⊢
      by_cases hb : LineEnd b
      · rw [ht, List.cons_append, parse_cons_end R hb, parse_cons_end R hb]
        exact ih r c (by simp [ht] at hk; omega)
      · have hbr : t ++ c = b :: (r ++ c) := by rw [ht]; rfl
        cases hh : R.hdr t with
        | incomplete =>
          rw [parse_incomplete R ht hb hh]
          simp [resume]
        | block l e n =>
          obtain ⟨h1, h2, h3, h4, h5, h6⟩ := R.shape t l e n hh
          rw [parse_block R ht hb hh, parse_block R hbr hb (R.block_ext t c l e n hh)]
          have e1 : (t ++ c).take l = t.take l := List.take_append_of_le_length (by omega)
          have e2 : (t ++ c).drop (l + e) = t.drop (l + e) ++ c := List.drop_append_of_le_length (by omega)
          rw [e1, e2]
          by_cases hn : n ≤ (t.drop (l + e)).length
          · rw [if_pos hn, if_pos (by simp at hn ⊢; omega)]
            have e3 : (t ++ c).drop (l + e + n) = t.drop (l + e + n) ++ c :=
              List.drop_append_of_le_length (by simp at hn; omega)
            have e4 : (t.drop (l + e) ++ c).take n = (t.drop (l + e)).take n :=
              List.take_append_of_le_length hn
            rw [e3, e4, ih (t.drop (l + e + n)) c (by simp; omega)]
            simp
          · rw [if_neg hn]
            simp only [resume]
            by_cases hn2 : n ≤ (t.drop (l + e) ++ c).length
            · rw [if_pos hn2, if_pos hn2]
              have e3 : (t ++ c).drop (l + e + n) = (t.drop (l + e) ++ c).drop n := by
                rw [← e2, List.drop_drop]
              rw [e3]
              rfl
            · rw [if_neg hn2, if_neg hn2]
              rfl
        | no =>
          by_cases hne : ∃ x ∈ t, LineEnd x
          · obtain ⟨l, e, r', hs, hl0, hl, he⟩ := split_line hne b r ht hb
            rw [parse_line R hs hl0 hl he hh,
              parse_line R (t := t ++ c) (l := l) (e := e) (r := r' ++ c) (by rw [hs]; simp) hl0 hl he
                (R.no_ext t c hh hne),
              ih r' c (by rw [hs] at hk; simp at hk; omega)]
            simp
          · have hno : NoEol t := fun x hx he => hne ⟨x, hx, he⟩
            rw [parse_partial R ht hb hh hno]
            simp [resume]

/-- The rest after several reads. -/
def resumes (R : Recogniser) (q : Rest) : List Str → List Elem × Rest
  | [] => ([], q)
  | c :: t => ((resume R q c).1 ++ (resumes R (resume R q c).2 t).1, (resumes R (resume R q c).2 t).2)

theorem resumes_eq (R : Recogniser) (chunks : List Str) (t : Str) :
    parse R (t ++ chunks.flatten) =
      ((parse R t).1 ++ (resumes R (parse R t).2 chunks).1, (resumes R (parse R t).2 chunks).2) := by
  induction chunks generalizing t with
  | nil => simp [resumes]
  | cons c u ih =>
    rw [List.flatten_cons, ← List.append_assoc, ih (t ++ c), parse_append R _ t c (Nat.le_refl _)]
    simp [resumes]

/-! ## Streams without header -/

theorem NoHeader.drop {R : Recogniser} {t : Str} (h : NoHeader R t) {x y : Str} (e : t = x ++ y) :
    NoHeader R y := fun z hz hs => h z hz (e ▸ hs.trans (List.suffix_append x y))

/-- Complete lines without header followed by `u`. -/
theorem parse_lines (R : Recogniser) : ∀ (k : Nat) (t u : Str), t.length ≤ k → NoHeader R t →
    (unfinished t = [] ∨ u = []) →
    parse R (t ++ u) = ((linesOf t).map .line ++ (if unfinished t = [] then (parse R u).1 else []),
      if unfinished t = [] then (parse R u).2 else .text (unfinished t)) := by
  intro k
  induction k with
  | zero =>
    intro t u h
    have : t = [] := List.length_eq_zero_iff.mp (by omega)
    subst this
    simp [linesOf, unfinished, linesFrom]
  | succ k ih =>
    intro t u hk hnh hu
    match ht : t with
    | [] => simp [linesOf, unfinished, linesFrom]
    | b :: r =>
      rw [← ht] at hk hnh hu ⊢
      by_cases hb : LineEnd b
      · have e1 : linesFrom [] t = linesFrom [] r := by rw [ht]; simp [linesFrom, hb]
        rw [ht, List.cons_append, parse_cons_end R hb]
        have := ih r u (by simp [ht] at hk; omega) (NoHeader.drop hnh (x := [b]) (by rw [ht]; rfl)) (by
          simpa [unfinished, e1] using hu)
        rw [← ht, show linesOf t = linesOf r from congrArg Prod.fst e1,
          show unfinished t = unfinished r from congrArg Prod.snd e1]
        exact this
      · have hhd : R.hdr t = .no := hnh t (by rw [ht]; simp) (List.suffix_refl t)
        by_cases hne : ∃ x ∈ t, LineEnd x
        · obtain ⟨l, e, r', hs, hl0, hl, he⟩ := split_line hne b r ht hb
          have e1 : linesFrom [] t = (l :: (linesFrom [] r').1, (linesFrom [] r').2) := by
            rw [hs]; exact linesFrom_line hl hl0 he r'
          rw [parse_line R (t := t ++ u) (l := l) (e := e) (r := r' ++ u) (by rw [hs]; simp) hl0 hl he
                (R.no_ext t u hhd hne)]
          have := ih r' u (by rw [hs] at hk; simp at hk; omega)
            (NoHeader.drop hnh (x := l ++ [e]) (by rw [hs]; simp)) (by simpa [unfinished, e1] using hu)
          rw [this, show linesOf t = l :: linesOf r' from congrArg Prod.fst e1,
            show unfinished t = unfinished r' by unfold unfinished; rw [e1]]
          rfl
        · have hno : NoEol t := fun x hx he => hne ⟨x, hx, he⟩
          have e1 : linesFrom [] t = ([], t) := linesFrom_noEol' hno
          have htn : t ≠ [] := by rw [ht]; simp
          have hun : unfinished t ≠ [] := by simpa [unfinished, e1] using htn
          have hu' : u = [] := hu.resolve_left hun
          subst hu'
          rw [List.append_nil, parse_partial R ht hb hhd hno]
          simp [linesOf, unfinished, e1, htn]

/-! ## The buffer machine -/

theorem handleUndefined_cb (cfg : Cfg) (s : St) (line : Str) : SameCb s (handleUndefined cfg s line).2 := by
  unfold handleUndefined
  simp only []
  split <;> exact ⟨rfl, rfl⟩

theorem handleMsgType_cb {cfg : Cfg} {s : St} {p : Nat} {line : Str} {r : PktStatus × MsgType × St}
    (h : handleMsgType cfg s p line = some r) : SameCb s r.2.2 := by
  unfold handleMsgType at h
  split at h
  · split at h <;> cases h
    exact ⟨rfl, rfl⟩
  · simp only [] at h
    split at h
    · split at h <;> cases h
      exact ⟨rfl, rfl⟩
    · cases h; exact ⟨rfl, rfl⟩
    · cases h; exact ⟨rfl, rfl⟩
    · cases h; exact handleUndefined_cb cfg { s with resp := _ } line
  · cases h
    exact handleUndefined_cb cfg s line

/-- A complete line at the cursor. -/
theorem handleLine_refines {cfg : Cfg} {s : St} {a a' : Rx} {P N i : Nat} {sd : Option Nat} {line : Str}
    (hu : ∀ l, (cfg.urcEdit l).length ≤ l.length) (hl : s.buf.length = cfg.size + 1) (hPN : P + N ≤ cfg.size)
    (hi : i < N) (hd : s.dataLen = 0) (hline : LineAt s.buf P line) (hll : line.length = i)
    (hr : Rep s a P) (h : a.line cfg line = some a') :
    ∃ c' s', handleLine cfg s ⟨P, N, sd⟩ i = some (some c', s') ∧ Rep s' a' c'.p ∧
      txt s'.buf c'.p c'.n = txt s.buf (P + (i + 1)) (N - (i + 1)) ∧ c'.n = N - (i + 1) ∧
      c'.p + c'.n ≤ P + N ∧ s'.buf.length = s.buf.length ∧ s'.dataLen = 0 ∧ SameCb s s' := by
  obtain ⟨st, ty, s2, e2, hst, hlen2, hsame, hrep2, hfin, hd2⟩ :=
    (handleMsgType_refines (cfg := cfg) (s := s) hu (by omega) hr hline h).ex
  have hcb := handleMsgType_cb e2
  simp only [] at hcb
  have hdl : s2.dataLen = 0 := hd2.trans hd
  have hrest : txt s2.buf (P + (i + 1)) (N - (i + 1)) = txt s.buf (P + (i + 1)) (N - (i + 1)) := by
    apply txt_congr
    intro k h1 h2
    exact hsame k (by omega)
  have hHL : handleLine cfg s ⟨P, N, sd⟩ i =
      (getNextLine s2 P N i st ty).map (fun r => (some ⟨r.1, r.2.1, sd⟩, r.2.2)) := by
    unfold handleLine
    simp only [hline.readStr, e2]
    rcases hst with rfl | rfl | rfl
    · rfl
    · rfl
    · simp [hdl]
  rw [hHL]
  unfold getNextLine
  simp only []
  by_cases hgc : st = .ok ∧ ty = .solicited
  · rw [if_pos hgc, slice_some (by omega)]
    simp only []
    obtain ⟨m3, em3, h31, h32⟩ := put_some (m := s2.buf) (p := 0)
      (t := txt s2.buf (P + (i + 1)) (N - (i + 1))) (by rw [txt_length (by omega)]; omega)
    have em3' : put s2.buf 0 (List.take (N - (i + 1)) (List.drop (P + (i + 1)) s2.buf)) = some m3 := em3
    rw [em3']
    refine ⟨_, _, rfl, ⟨hrep2.cmd, hrep2.pfx, hrep2.events, ?_, hrep2.idle⟩, ?_, rfl, ?_, ?_, hdl, hcb⟩
    · have hnil := hfin hgc.1 hgc.2
      have := hrep2.items
      rw [hnil] at this ⊢
      exact itemsAt_nil this
    · simp only []
      have := txt_put em3
      rw [txt_length (by omega)] at this
      rw [this, hrest]
    · simp only []; omega
    · simp only []; omega
  · rw [if_neg hgc]
    refine ⟨_, _, rfl, ?_, ?_, rfl, ?_, hlen2, hdl, hcb⟩
    · simp only []
      rw [show P + (i + 1) = P + line.length + 1 by omega]
      exact ⟨hrep2.cmd, hrep2.pfx, hrep2.events, hrep2.items, hrep2.idle⟩
    · simp only []; rw [hrest]
    · simp only []; omega

/-- The callbacks of a port whose data prefix callback works as `R` says. -/
structure DataPort (cfg : Cfg) (R : Recogniser) (s : St) : Prop where
  input : cfg.inputCb = none
  send : s.sendCb = none
  data : ∃ f, s.dataCb = some f ∧ Implements R f
  urc : ∀ l, (cfg.urcEdit l).length ≤ l.length

theorem DataPort.of_same {cfg : Cfg} {R : Recogniser} {s s' : St} (h : DataPort cfg R s) (hs : SameCb s s') :
    DataPort cfg R s' := by
  obtain ⟨f, h1, h2⟩ := h.data
  exact ⟨h.input, hs.1.trans h.send, ⟨f, hs.2.trans h1, h2⟩, h.urc⟩

/-- Between reads, with text up to position `E`. -/
structure BetweenD (cfg : Cfg) (s : St) (a : Rx) (q : Rest) (E : Nat) : Prop where
  len : s.buf.length = cfg.size + 1
  pos : s.readPtr.getD 0 + s.partialLen ≤ E
  rep : Rep s a (s.readPtr.getD 0)
  rest : match q with
    | .text cur => txt s.buf (s.readPtr.getD 0) s.partialLen = cur ∧ s.dataLen = 0
    | .data got n => txt s.buf (s.readPtr.getD 0) s.partialLen = got ∧ s.dataLen = n ∧ s.partialLen < n ∧
        s.resp ≠ none

theorem put_txt {m : Mem} {p n : Nat} (h : p + n ≤ m.length) : put m p (txt m p n) = some m := by
  unfold put
  rw [txt_length h, if_pos h]
  simp only [txt, Option.some.injEq]
  rw [List.append_assoc, ← List.drop_drop, List.take_append_drop, List.take_append_drop]

theorem Rep.mono {s : St} {a : Rx} {b b' : Nat} (h : Rep s a b) (hb : b ≤ b') : Rep s a b' :=
  ⟨h.cmd, h.pfx, h.events, h.items.congr hb (fun _ _ => rfl), h.idle⟩

theorem parse_skip (R : Recogniser) (t : Str) : parse R (t.dropWhile isEol) = parse R t := by
  induction t with
  | nil => rfl
  | cons b t ih =>
    by_cases hb : isEol b = true
    · rw [List.dropWhile_cons_of_pos hb, ih, parse_cons_end R ((isEol_iff b).mp hb)]
    · rw [List.dropWhile_cons_of_neg hb]

theorem Rx.elems_append (cfg : Cfg) (a : Rx) (l m : List Elem) :
    Rx.elems cfg a (l ++ m) = (Rx.elems cfg a l).bind (fun a => Rx.elems cfg a m) := by
  induction l generalizing a with
  | nil => rfl
  | cons x t ih =>
    simp only [List.cons_append, Rx.elems]
    cases Rx.elem cfg a x with
    | none => rfl
    | some b => exact ih b

/-- A header line at the cursor: it is saved and the data follows. -/
theorem handleMsgType_header {cfg : Cfg} {s : St} {a a' : Rx} {p : Nat} {line : Str}
    (hr : Rep s a p) (hl : LineAt s.buf p line) (h : a.header cfg line = some a') :
    ∃ r, handleMsgType cfg s p line = some (.pendingBuffer, .solicited, { s with resp := some r }) ∧
      Rep { s with resp := some r } a' (p + line.length + 1) := by
  unfold Rx.header at h
  split at h
  · rename_i hc
    obtain ⟨h1, h2, h3, h4, h5, h6, h7⟩ := hc
    cases h
    have hmt : getMsgType cfg s.cmd s.pfx line = .solicited := by rw [hr.cmd, hr.pfx]; exact h2
    have hsc : s.cmd = .multiDataWoPrefix := hr.cmd.trans h1
    generalize hq : s.resp.getD ⟨false, []⟩ = r0
    have hres := (hr.mono (show p ≤ p + line.length + 1 by omega)).items
    unfold ItemsAt at hres
    rw [hq] at hres
    refine ⟨{ r0 with items := r0.items ++ [.line p] }, ?_, ?_⟩
    · unfold handleMsgType
      rw [hmt]
      simp only []
      rw [hq]
      have : processLine cfg line (.line p) r0 s.cmd =
          (.pendingBuffer, { r0 with items := r0.items ++ [.line p] }) := by
        unfold processLine
        rw [if_pos ⟨Option.isSome_iff_ne_none.mpr h3, Option.isSome_iff_ne_none.mpr h4⟩]
        rw [if_neg (by simp [h5, h6]), if_neg (by simp [h7]), hsc]
        rfl
      rw [this]
    · exact ⟨hr.cmd, hr.pfx, hr.events,
        ⟨hres.1, forall₂_append_one hres.2 (Or.inl ⟨p, rfl, hl, by omega⟩)⟩, by simp⟩
  · cases h

/-- What one iteration of the loop does, in terms of the elements of the text before the cursor's end. -/
theorem iter_data {cfg : Cfg} {R : Recogniser} {s : St} {a : Rx} {c : Cur} {E : Nat}
    (hl : s.buf.length = cfg.size + 1)
    (hn : DataPort cfg R s) (hE : E ≤ cfg.size) (hp : c.p + c.n ≤ E) (hr : Rep s a c.p) (hd : s.dataLen = 0)
    (hok : Rx.elems cfg a (parse R (txt s.buf c.p c.n)).1 ≠ none) :
    (∃ s' a', iter cfg s c = some (none, s') ∧ SameCb s s' ∧
      Rx.elems cfg a (parse R (txt s.buf c.p c.n)).1 = some a' ∧
      BetweenD cfg s' a' (parse R (txt s.buf c.p c.n)).2 E) ∨
    (∃ c' s' a' es, iter cfg s c = some (some c', s') ∧ SameCb s s' ∧ Rx.elems cfg a es = some a' ∧
      parse R (txt s.buf c.p c.n) = (es ++ (parse R (txt s'.buf c'.p c'.n)).1, (parse R (txt s'.buf c'.p c'.n)).2) ∧
      Rep s' a' c'.p ∧ c'.n < c.n ∧ c'.p + c'.n ≤ E ∧ s'.buf.length = cfg.size + 1 ∧ s'.dataLen = 0) := by
  obtain ⟨f, hf, himp⟩ := hn.data
  generalize ht : txt s.buf c.p c.n = t at hok ⊢
  have htl : t.length = c.n := by rw [← ht]; exact txt_length (by omega)
  generalize hj : (t.takeWhile isEol).length = j
  have hskip : skipEol s.buf c.p c.n = some (c.p + j, c.n - j) := by
    rw [skipEol_eq s.buf c.n c.p (by omega), ht, hj]
  have ht1 : t.dropWhile isEol = txt s.buf (c.p + j) (c.n - j) := by
    rw [dropWhile_eq_drop, hj, ← ht, txt_drop]
  have hjn : j ≤ c.n := by
    rw [← hj, ← htl]; exact (List.takeWhile_sublist _).length_le
  have hin : preprocessInput cfg s (c.p + j) (c.n - j) = some (true, s, c.p + j, c.n - j) := by
    simp [preprocessInput, hn.input]
  have hIter : iter cfg s c = (match preprocessLine cfg s (c.p + j) (c.n - j) c.sd with
      | none => none
      | some (false, s, _, _) => some (none, s)
      | some (true, s, n, sd) =>
        match findLine s (c.p + j) n with
        | none => none
        | some (s, none) => some (none, s)
        | some (s, some len) => handleLine cfg s ⟨c.p + j, n, sd⟩ len) := by
    unfold iter
    rw [hskip]
    simp only []
    rw [hin]
    rfl
  rw [hIter]
  clear hIter
  rw [← parse_skip R t, ht1] at hok ⊢
  generalize hP : c.p + j = P at *
  generalize hN : c.n - j = N at *
  have hPN : P + N ≤ cfg.size := by omega
  have hPE : P + N ≤ E := by omega
  have hNc : N ≤ c.n := by omega
  have hrP : Rep s a P := hr.mono (by omega)
  have hTl : (txt s.buf P N).length = N := txt_length (by omega)
  by_cases hN0 : N = 0
  · have hpre : preprocessLine cfg s P N c.sd =
        some (false, { s with readPtr := some P, partialLen := 0 }, N, c.sd) := by
      simp [preprocessLine, hN0]
    rw [hpre]
    have hT : txt s.buf P N = [] := by simp [txt, hN0]
    rw [hT]
    refine Or.inl ⟨_, a, rfl, ⟨rfl, rfl⟩, by simp [parse, Rx.elems], hl, by simp; omega, ?_, ?_⟩
    · exact ⟨hrP.cmd, hrP.pfx, hrP.events, hrP.items, hrP.idle⟩
    · simp [parse, txt, hd]
  · have hsl : slice s.buf P N = some (txt s.buf P N) := slice_some (by omega)
    have hput : put s.buf P (txt s.buf P N) = some s.buf := put_txt (by omega)
    have hTne : txt s.buf P N ≠ [] := by
      intro h0; rw [h0] at hTl; simp at hTl; omega
    obtain ⟨b, r, hbr⟩ := List.exists_cons_of_ne_nil hTne
    have hb : ¬ LineEnd b := by
      intro hb
      have h2 := List.head?_dropWhile_not isEol t
      rw [ht1, hbr] at h2
      simp [(isEol_iff b).mpr hb] at h2
    have hcb := himp _ hTne
    have hpre0 : ∀ st out t' m, f (txt s.buf P N) = (st, t', out) → put s.buf P t' = some m →
        preprocessLine cfg s P N c.sd =
          (let r : St × Option Nat := match out with
            | some (start, len) => ({ { s with buf := m } with dataLen := len }, some (P + start))
            | none => ({ s with buf := m }, c.sd)
           some ((handleCallbackResult cfg r.1 st P N).1, (handleCallbackResult cfg r.1 st P N).2, N, r.2)) := by
      intro st out t' m h1 h2
      unfold preprocessLine
      rw [if_neg hN0]
      simp only [hn.send, hf, hsl, h1, h2]
      cases out <;> rfl
    cases hh : R.hdr (txt s.buf P N) with
    | incomplete =>
      rw [hh] at hcb
      simp only [] at hcb
      rw [hpre0 _ _ _ _ hcb hput, parse_incomplete R hbr hb hh]
      simp only [handleCallbackResult]
      exact Or.inl ⟨_, a, rfl, ⟨rfl, rfl⟩, rfl, hl, by simpa using hPE,
        ⟨hrP.cmd, hrP.pfx, hrP.events, hrP.items, hrP.idle⟩, rfl, hd⟩
    | no =>
      rw [hh] at hcb
      simp only [] at hcb
      have hpre : preprocessLine cfg s P N c.sd = some (true, s, N, c.sd) := by
        rcases hcb with hcb | hcb <;> rw [hpre0 _ _ _ _ hcb hput] <;> rfl
      rw [hpre]
      simp only []
      unfold findLine
      rw [hsl]
      simp only []
      have hsl' : (List.take N (List.drop P s.buf)) = txt s.buf P N := rfl
      cases hfi : (txt s.buf P N).findIdx? isEol with
      | none =>
        have hno := findIdx_none hfi
        rw [parse_partial R hbr hb hh hno]
        exact Or.inl ⟨_, a, rfl, ⟨rfl, rfl⟩, rfl, hl, by simpa using hPE,
          ⟨hrP.cmd, hrP.pfx, hrP.events, hrP.items, hrP.idle⟩, rfl, hd⟩
      | some i =>
        obtain ⟨e, hsplit, he, hno, hi⟩ := findIdx_split hfi
        rw [hTl] at hi
        have hline0 : (txt s.buf P N).take i ≠ [] := by
          intro h0
          rw [h0, List.nil_append, hbr] at hsplit
          have : b = e := by simpa using congrArg List.head? hsplit
          exact hb (this ▸ he)
        have htk : (txt s.buf P N).take i = txt s.buf P i := txt_take _ _ _ _ (by omega)
        have hdr : (txt s.buf P N).drop (i + 1) = txt s.buf (P + (i + 1)) (N - (i + 1)) := txt_drop _ _ _ _
        rw [parse_line R hsplit hline0 hno he hh] at hok ⊢
        generalize hline : (txt s.buf P N).take i = line at *
        have hll : line.length = i := by rw [← hline]; simp [hTl]; omega
        have hwr : wr s.buf (P + i) 0 = some (s.buf.set (P + i) 0) := wr_some (by omega)
        simp only [hwr, Option.map_some]
        generalize hm : s.buf.set (P + i) 0 = m
        have hml : m.length = s.buf.length := by rw [← hm]; simp
        have hmo : ∀ k, k ≠ P + i → m[k]? = s.buf[k]? := by
          intro k hk
          rw [← hm, List.getElem?_set_ne (by omega)]
        have hLine : LineAt m P line := by
          refine ⟨hno.noNul, ?_, ?_⟩
          · rw [txt_congr (m := s.buf) (fun k h1 h2 => hmo k (by omega)), hll, ← htk]
          · rw [hll, ← hm]; exact List.getElem?_set_self (by omega)
        have hrm : Rep { s with buf := m } a P :=
          ⟨hrP.cmd, hrP.pfx, hrP.events, hrP.items.congr (Nat.le_refl _) (fun k hk => hmo k (by omega)), hrP.idle⟩
        have hla : ∃ a1, a.line cfg line = some a1 := by
          cases hx : a.line cfg line with
          | none => exact absurd (by simp [Rx.elems, Rx.elem, hx]) hok
          | some a1 => exact ⟨a1, rfl⟩
        obtain ⟨a1, hla⟩ := hla
        obtain ⟨c', s', e1, hr1, htx, hcn, hcp, hbl, hdl, hcb'⟩ :=
          handleLine_refines (cfg := cfg) (s := { s with buf := m }) (sd := c.sd) (N := N) hn.urc (by simp only []; omega)
            hPN (i := i) (by omega) hd hLine hll hrm hla
        rw [e1]
        have htx' : txt s'.buf c'.p c'.n = (txt s.buf P N).drop (i + 1) := by
          rw [htx, hdr]
          exact txt_congr (fun k h1 h2 => hmo k (by omega))
        refine Or.inr ⟨c', s', a1, [.line line], rfl, hcb', by simp [Rx.elems, Rx.elem, hla],
          by rw [htx']; rfl, hr1, by omega,
          by omega, by rw [hbl]; simp only []; omega, hdl⟩
    | block l e n =>
      rw [hh] at hcb
      simp only [] at hcb
      obtain ⟨t', hft, ht'l, ht'k, ⟨b', hb'1, hb'2⟩, ht'd⟩ := hcb
      obtain ⟨hs1, hs2, hs3, hs4, hs5, hs6⟩ := R.shape _ l e n hh
      rw [hTl] at ht'l hs4
      obtain ⟨m0, em0, hm01, hm02⟩ := put_some (m := s.buf) (p := P) (t := t') (by omega)
      rw [hpre0 _ _ _ _ hft em0]
      simp only [handleCallbackResult]
      have htm0 : txt m0 P N = t' := by rw [← ht'l]; exact txt_put em0
      unfold findLine
      have hsl0 : slice m0 P N = some (txt m0 P N) := slice_some (by omega)
      simp only [hsl0]
      have hfi : (txt m0 P N).findIdx? isEol = some l := by
        rw [htm0, List.findIdx?_eq_some_iff_getElem]
        refine ⟨by omega, ?_, ?_⟩
        · rw [List.getElem?_eq_getElem (by omega)] at hb'1
          simp only [Option.some.injEq] at hb'1
          rw [hb'1]; exact (isEol_iff b').mpr hb'2
        · intro k hk
          have h1 : t'[k]'(by omega) ∈ t'.take l := by
            rw [List.mem_iff_getElem]
            exact ⟨k, by simp; omega, by simp⟩
          rw [ht'k] at h1
          have := hs5 _ h1
          rw [← isEol_iff] at this
          exact this
      have hwr : wr m0 (P + l) 0 = some (m0.set (P + l) 0) := wr_some (by omega)
      simp only [hfi, hwr, Option.map_some]
      generalize hline : (txt s.buf P N).take l = line at *
      have hll : line.length = l := by rw [← hline]; simp [hTl]; omega
      generalize hm : m0.set (P + l) 0 = m
      have hml : m.length = s.buf.length := by rw [← hm]; simp [hm01]
      have hmo : ∀ k, k ≠ P + l → m[k]? = m0[k]? := by
        intro k hk
        rw [← hm, List.getElem?_set_ne (by omega)]
      have hmo' : ∀ k, k < P → m[k]? = s.buf[k]? := fun k hk => (hmo k (by omega)).trans (hm02 k (Or.inl hk))
      have hLine : LineAt m P line := by
        refine ⟨NoEol.noNul hs5, ?_, ?_⟩
        · rw [txt_congr (m := m0) (fun k h1 h2 => hmo k (by omega)), hll, ← txt_take m0 P N l (by omega), htm0, ht'k]
        · rw [hll, ← hm]; exact List.getElem?_set_self (by omega)
      -- the data part is unchanged
      have hdat : ∀ k, P + (l + e) ≤ k → k < P + N → m[k]? = s.buf[k]? := by
        intro k h1 h2
        rw [hmo k (by omega)]
        have g1 : (txt m0 P N)[k - P]? = m0[P + (k - P)]? := txt_getElem? _ _ _ _ (by omega)
        have g2 : (txt s.buf P N)[k - P]? = s.buf[P + (k - P)]? := txt_getElem? _ _ _ _ (by omega)
        rw [show P + (k - P) = k by omega] at g1 g2
        rw [← g1, ← g2, htm0]
        have : (t'.drop (l + e))[k - P - (l + e)]? = ((txt s.buf P N).drop (l + e))[k - P - (l + e)]? := by rw [ht'd]
        rw [List.getElem?_drop, List.getElem?_drop, show l + e + (k - P - (l + e)) = k - P by omega] at this
        exact this
      rw [parse_block R hbr hb hh] at hok ⊢
      rw [hline] at hok ⊢
      have hdropl : ((txt s.buf P N).drop (l + e)).length = N - (l + e) := by simp [hTl]
      rw [hdropl] at hok ⊢
      have hha : ∃ a1, a.header cfg line = some a1 := by
        cases hx : a.header cfg line with
        | none =>
          exfalso; apply hok
          split <;> simp [Rx.elems, Rx.elem, hx]
        | some a1 => exact ⟨a1, rfl⟩
      obtain ⟨a1, hha⟩ := hha
      have hrm : Rep { s with buf := m, dataLen := n } a P :=
        ⟨hrP.cmd, hrP.pfx, hrP.events, hrP.items.congr (Nat.le_refl _) hmo', hrP.idle⟩
      obtain ⟨rr, hmt, hrep1⟩ := handleMsgType_header (cfg := cfg) hrm hLine hha
      have hHL : handleLine cfg { s with buf := m, dataLen := n } ⟨P, N, some (P + (l + e))⟩ l =
          (handleData { s with buf := m, dataLen := n, resp := some rr } (P + (l + e)) P N).map (fun r =>
            (if r.1 = 0 then none else some ⟨r.2.1, r.1, some (P + (l + e))⟩, r.2.2)) := by
        unfold handleLine
        simp only [hLine.readStr, hmt]
        rw [if_pos (by omega)]
      rw [hHL]
      unfold handleData
      rw [if_neg (by omega)]
      simp only [show P + (l + e) - P = l + e by omega]
      have hbodytxt : ∀ k, k ≤ N - (l + e) → txt m (P + (l + e)) k = ((txt s.buf P N).drop (l + e)).take k := by
        intro k hk
        rw [txt_drop, txt_take _ _ _ _ hk]
        exact txt_congr (fun x h1 h2 => hdat x (by omega) (by omega))
      by_cases hle : n ≤ N - (l + e)
      · rw [if_pos hle] at hok ⊢
        rw [if_pos hle]
        simp only [Option.map_some]
        -- the data is complete
        generalize hD : ((txt s.buf P N).drop (l + e)).take n = D at *
        have hDl : D.length = n := by rw [← hD]; simp [hTl]; omega
        generalize hs' : ({ s with
          buf := m, readPtr := some (P + (l + e) + n), partialLen := N - (l + e) - n,
          dataLen := 0, resp := some ⟨rr.status, rr.items ++ [.data (P + (l + e)) n]⟩ } : St) = s'
        have hrep2 : Rep s' { a1 with lines := a1.lines ++ [D] } (P + (l + e) + n) := by
          have h0 := (hrep1.mono (show P + line.length + 1 ≤ P + (l + e) + n by omega))
          rw [← hs']
          refine ⟨h0.cmd, h0.pfx, h0.events, ⟨h0.items.1, forall₂_append_one h0.items.2 (Or.inr ?_)⟩, by simp⟩
          refine ⟨P + (l + e), by rw [hDl], ?_, by omega, by simp only []; omega⟩
          rw [hDl, hbodytxt n hle, hD]
        have hrun : Rx.elems cfg a [.header line, .data D] = some { a1 with lines := a1.lines ++ [D] } := by
          simp [Rx.elems, Rx.elem, hha]
        have hrest : txt m (P + (l + e) + n) (N - (l + e) - n) = (txt s.buf P N).drop (l + e + n) := by
          rw [txt_drop, show P + (l + e + n) = P + (l + e) + n by omega, show N - (l + e + n) = N - (l + e) - n by omega]
          exact txt_congr (fun x h1 h2 => hdat x (by omega) (by omega))
        by_cases h0 : N - (l + e) - n = 0
        · rw [if_pos h0]
          left
          have hnil : (txt s.buf P N).drop (l + e + n) = [] := List.drop_eq_nil_of_le (by omega)
          rw [hnil]
          refine ⟨s', _, rfl, by rw [← hs']; exact ⟨rfl, rfl⟩, by simpa [parse] using hrun, ?_, ?_, ?_, ?_⟩
          · rw [← hs']; simp only []; omega
          · rw [← hs']; simp only [Option.getD_some]; omega
          · rw [← hs'] at hrep2 ⊢; exact hrep2
          · rw [← hs']; simp [parse, txt, h0]
        · rw [if_neg h0]
          right
          refine ⟨_, s', _, [.header line, .data D], rfl, by rw [← hs']; exact ⟨rfl, rfl⟩, hrun, ?_, hrep2, ?_, ?_, ?_, ?_⟩
          · simp only []
            rw [show s'.buf = m by rw [← hs'], hrest]
            rfl
          · simp only []; omega
          · simp only []; omega
          · rw [← hs']; simp only []; omega
          · rw [← hs']
      · rw [if_neg hle] at hok ⊢
        rw [if_neg hle]
        simp only [Option.map_some]
        left
        refine ⟨_, a1, rfl, ⟨rfl, rfl⟩, by simp [Rx.elems, Rx.elem, hha], ?_, ?_, ?_, ?_⟩
        · simp only []; omega
        · simp only [Option.getD_some]; omega
        · have h0 := (hrep1.mono (show P + line.length + 1 ≤ P + (l + e) by omega))
          exact ⟨h0.cmd, h0.pfx, h0.events, h0.items, h0.idle⟩
        · simp only [Option.getD_some]
          refine ⟨?_, trivial, by omega, by simp⟩
          rw [hbodytxt _ (Nat.le_refl _)]
          exact List.take_of_length_le (by omega)

theorem loop_data {cfg : Cfg} {R : Recogniser} : ∀ (k : Nat) {s : St} {c : Cur} {a a' : Rx} {E : Nat},
    s.buf.length = cfg.size + 1 → DataPort cfg R s → E ≤ cfg.size → c.p + c.n ≤ E → c.n < k → Rep s a c.p →
    s.dataLen = 0 → Rx.elems cfg a (parse R (txt s.buf c.p c.n)).1 = some a' →
    ∃ s', loop cfg k s c = some s' ∧ SameCb s s' ∧ BetweenD cfg s' a' (parse R (txt s.buf c.p c.n)).2 E := by
  intro k
  induction k with
  | zero => intro s c a a' E _ _ _ _ h; omega
  | succ k ih =>
    intro s c a a' E hl hn hE hp hk hr hd hrun
    unfold loop
    rcases iter_data hl hn hE hp hr hd (by rw [hrun]; simp) with
      ⟨s', a1, e, sc, h1, hb⟩ | ⟨c', s', a1, es, e, sc, h1, hpa, hr', hcn, hcp, hl', hd'⟩
    · rw [hrun] at h1
      cases h1
      rw [e]
      exact ⟨s', rfl, sc, hb⟩
    · rw [e]
      simp only []
      rw [hpa] at hrun ⊢
      simp only [] at hrun ⊢
      rw [Rx.elems_append, h1] at hrun
      obtain ⟨s2, e2, sc2, hb2⟩ := ih hl' (hn.of_same sc) hE hcp (by omega) hr' hd' hrun
      exact ⟨s2, e2, sc.trans sc2, hb2⟩

/-- The bytes received that are not handled yet. -/
def restBytes : Rest → Str
  | .text cur => cur
  | .data got _ => got

theorem resume_nil_parse (R : Recogniser) (t : Str) : resume R (parse R t).2 [] = ([], (parse R t).2) := by
  have h := parse_append R _ t [] (Nat.le_refl _)
  rw [List.append_nil] at h
  have h1 := congrArg Prod.fst h
  have h2 := congrArg Prod.snd h
  simp only [] at h1 h2
  have h3 : (resume R (parse R t).2 []).1 = [] := by
    have := congrArg List.length h1
    simp at this
    exact this
  exact Prod.ext h3 h2.symm

theorem resume_nil (R : Recogniser) (q : Rest) (c : Str) :
    resume R (resume R q c).2 [] = ([], (resume R q c).2) := by
  cases q with
  | text cur => exact resume_nil_parse R _
  | data got n =>
    by_cases h : n ≤ (got ++ c).length
    · rw [show (resume R (.data got n) c).2 = (parse R ((got ++ c).drop n)).2 by simp only [resume, if_pos h]]
      exact resume_nil_parse R _
    · rw [show (resume R (.data got n) c).2 = .data (got ++ c) n by simp only [resume, if_neg h]]
      simp only [resume, List.append_nil, if_neg h]

theorem rest_txt {cfg : Cfg} {s : St} {a : Rx} {q : Rest} {E : Nat} (hb : BetweenD cfg s a q E) :
    restBytes q = txt s.buf (s.readPtr.getD 0) s.partialLen := by
  have := hb.rest
  cases q <;> exact this.1.symm

/-- The text may be moved to the start of the buffer before a read. -/
theorem readPos_data {cfg : Cfg} {s : St} {a : Rx} {q : Rest} {E : Nat} (hE : E ≤ cfg.size)
    (hb : BetweenD cfg s a q E) :
    ∃ s' p pr e, readPos cfg s = some (s', p, pr, e) ∧ BetweenD cfg s' a q E ∧ s'.readPtr.getD 0 = p ∧
      s'.partialLen = s.partialLen ∧ pr = p + s.partialLen ∧ (pr : Int) + e = cfg.size ∧ SameCb s s' ∧
      p ≤ s.readPtr.getD 0 := by
  have hpos := hb.pos
  have hl := hb.len
  unfold readPos
  cases hr : s.readPtr with
  | none => exact ⟨_, _, _, _, rfl, hb, by simp [hr], rfl, by simp, by omega, ⟨rfl, rfl⟩, by simp⟩
  | some p =>
    simp only [hr, Option.getD_some] at hpos
    have hbi := hb.rep.items
    have hbt := hb.rest
    simp only [hr, Option.getD_some] at hbi hbt
    simp only []
    split
    · rename_i hc
      rw [slice_some (by omega)]
      simp only []
      have htl : (txt s.buf p s.partialLen).length = s.partialLen := txt_length (by omega)
      obtain ⟨m, em, h1, h2⟩ := put_some (m := s.buf) (p := 0) (t := txt s.buf p s.partialLen) (by omega)
      have em' : put s.buf 0 (List.take s.partialLen (List.drop p s.buf)) = some m := em
      rw [em']
      simp only []
      rw [wr_some (by omega)]
      have hrest : txt (m.set s.partialLen 0) 0 s.partialLen = txt s.buf p s.partialLen := by
        rw [txt_congr (m := m) (fun k _ hk => List.getElem?_set_ne (by omega))]
        have := txt_put em
        rw [htl] at this
        exact this
      refine ⟨_, _, _, _, rfl, ⟨?_, ?_, ⟨hb.rep.cmd, hb.rep.pfx, hb.rep.events, ?_, hb.rep.idle⟩, ?_⟩, rfl, rfl,
        by omega, by omega, ⟨rfl, rfl⟩, by simp⟩
      · simp; omega
      · simp; omega
      · have hnil : a.lines = [] := by
          have h3 := hbi.2
          simp only [hc.2.2, Option.getD_none] at h3
          generalize a.lines = x at h3
          cases h3
          rfl
        rw [hnil] at hbi ⊢
        exact itemsAt_nil hbi
      · simp only [Option.getD_some]
        rw [hrest]
        cases q with
        | text cur => exact hbt
        | data got n => exact absurd hc.2.2 hbt.2.2.2
    · exact ⟨_, _, _, _, rfl, hb, by simp [hr], rfl, by omega, by omega, ⟨rfl, rfl⟩, by simp⟩

theorem room_data {cfg : Cfg} {s : St} {a : Rx} {q : Rest} {E : Nat} (hE : E ≤ cfg.size)
    (hb : BetweenD cfg s a q E) : cfg.size ≤ room cfg s + (s.readPtr.getD 0 + s.partialLen) := by
  obtain ⟨s', p, pr, e, er, _, _, _, hpr, hpe, _, hpp⟩ := readPos_data hE hb
  rw [room_eq er]
  omega

/-- One receive event: the elements completed by the bytes read are handled, the rest is kept. -/
theorem rxEvent_data {cfg : Cfg} {R : Recogniser} {s : St} {a a' : Rx} {q : Rest} {chunk : Str}
    (hn : DataPort cfg R s) (hb : BetweenD cfg s a q cfg.size) (hov : ¬ BufferOverflow cfg s)
    (hroom : chunk.length ≤ room cfg s) (hrun : Rx.elems cfg a (resume R q chunk).1 = some a')
    (hq : resume R q [] = ([], q)) :
    ∃ k s', rxEvent cfg s chunk = some (k, s') ∧ SameCb s s' ∧
      BetweenD cfg s' a' (resume R q chunk).2
        (min cfg.size (s.readPtr.getD 0 + s.partialLen + chunk.length)) := by
  obtain ⟨s1, p, pr, em, er, hb1, hrp, hpl, hpr, hpe, sc1, hpp⟩ := readPos_data (Nat.le_refl _) hb
  have hbp := hb.pos
  have hl1 := hb1.len
  have hp1 := hb1.pos
  rw [hrp] at hp1
  rw [room_eq er] at hroom
  unfold rxEvent
  rw [er]
  simp only []
  -- nothing read: the rest stays
  have hstay : chunk = [] → resume R q chunk = ([], q) := by
    rintro rfl; exact hq
  by_cases hem : em > 0
  · rw [if_pos hem]
    by_cases hch : chunk = []
    · rw [if_pos hch]
      rw [hstay hch] at hrun ⊢
      cases hrun
      refine ⟨_, _, rfl, sc1, hb1.len, ?_, hb1.rep, hb1.rest⟩
      rw [hrp, hpl]; omega
    · rw [if_neg hch]
      have hlen0 : 0 < chunk.length := List.length_pos_iff.mpr hch
      obtain ⟨m, emm, hm1, hm2⟩ := put_some (m := s1.buf) (p := pr) (t := chunk ++ [0]) (by simp; omega)
      rw [emm]
      simp only []
      have hmtxt : txt m pr chunk.length = chunk := by
        have h5 := txt_take m pr (chunk ++ [0]).length chunk.length (by simp)
        rw [txt_put emm] at h5
        rw [← h5]; simp
      have hfull : txt m p (chunk.length + s1.partialLen) =
          restBytes q ++ chunk := by
        rw [Nat.add_comm, txt_append, show p + s1.partialLen = pr by omega, hmtxt]
        congr 1
        rw [rest_txt hb1, hrp]
        exact txt_congr (fun x h1 h2 => hm2 x (Or.inl (by omega)))
      have hrepm : ∀ st : St, st.cmd = s1.cmd → st.pfx = s1.pfx → st.events = s1.events → st.resp = s1.resp →
          (∀ x, x < p → st.buf[x]? = m[x]?) → Rep st a p := by
        intro st h1 h2 h3 h4 h5
        have h0 := hb1.rep
        rw [hrp] at h0
        refine ⟨h1.trans h0.cmd, h2.trans h0.pfx, h3.trans h0.events, ?_, fun x y => h4.trans (h0.idle x y)⟩
        rw [h4]
        exact h0.items.congr (Nat.le_refl _) (fun x hx => (h5 x hx).trans (hm2 x (Or.inl (by omega))))
      generalize hTot : chunk.length + s1.partialLen = tot at *
      have htot : p + tot ≤ cfg.size := by omega
      cases q with
      | text cur =>
        have hd0 : s1.dataLen = 0 := hb1.rest.2
        rw [if_neg (by simp [hd0])]
        simp only []
        rw [if_pos (by omega)]
        have hwr : wr m (p + tot) 0 = some (m.set (p + tot) 0) := wr_some (by omega)
        rw [hwr]
        simp only [handleAllReceived]
        simp only [restBytes] at hfull
        have htx : txt (m.set (p + tot) 0) p tot = cur ++ chunk := by
          rw [← hfull]; exact txt_congr (fun x h1 h2 => List.getElem?_set_ne (by omega))
        obtain ⟨s3, e3, sc3, hb3⟩ := loop_data (cfg := cfg) (R := R) (tot + 1) (a := a) (a' := a') (E := p + tot)
          (s := { s1 with buf := m.set (p + tot) 0, partialLen := 0 }) (c := ⟨p, tot, none⟩)
          (by simp; omega) (hn.of_same (sc1.trans ⟨rfl, rfl⟩)) htot (Nat.le_refl _) (by simp)
          (hrepm _ rfl rfl rfl rfl (fun x hx => List.getElem?_set_ne (by omega))) hd0
          (by simp only []; rw [htx]; exact hrun)
        rw [e3]
        simp only [] at hb3
        rw [htx] at hb3
        refine ⟨_, s3, rfl, (sc1.trans ⟨rfl, rfl⟩).trans sc3, hb3.len, ?_, hb3.rep, hb3.rest⟩
        have := hb3.pos
        omega
      | data got n =>
        have h3 := hb1.rest
        simp only [restBytes] at h3 hfull
        rw [if_pos (by omega)]
        have hgl : (got ++ chunk).length = tot := by rw [← hfull]; exact txt_length (by omega)
        unfold handleData
        rw [if_neg (by omega)]
        simp only [Nat.sub_self, Nat.sub_zero]
        simp only [resume, hgl] at hrun ⊢
        rw [h3.2.1]
        by_cases hle : n ≤ tot
        · rw [if_pos hle] at hrun ⊢
          rw [if_pos hle]
          obtain ⟨rr, hrr⟩ := Option.ne_none_iff_exists'.mp h3.2.2.2
          rw [hrr]
          simp only []
          generalize hD : (got ++ chunk).take n = D at *
          have hDl : D.length = n := by rw [← hD]; simp [hgl]; omega
          have hDt : txt m p n = D := by rw [← txt_take m p tot n hle, hfull, hD]
          have hrestt : txt m (p + n) (tot - n) = (got ++ chunk).drop n := by rw [← hfull, txt_drop]
          simp only [Rx.elems, Rx.elem] at hrun
          have hrep0 := hrepm { s1 with buf := m, partialLen := 0 } rfl rfl rfl rfl (fun _ _ => rfl)
          have hit := (hrep0.mono (show p ≤ p + n by omega)).items
          have hrep2 : ∀ st : St, st.cmd = s1.cmd → st.pfx = s1.pfx → st.events = s1.events →
              st.resp = some ⟨rr.status, rr.items ++ [.data p n]⟩ → (∀ x, x < p + n → st.buf[x]? = m[x]?) →
              st.buf.length = m.length →
              Rep st { a with lines := a.lines ++ [D] } (p + n) := by
            intro st h1 h2 h4 h5 h6 h7
            refine ⟨h1.trans hrep0.cmd, h2.trans hrep0.pfx, h4.trans hrep0.events, ?_, by simp⟩
            rw [h5]
            have hit2 := hit.congr (m' := st.buf) (Nat.le_refl _) h6
            simp only [ItemsAt, hrr, Option.getD_some] at hit2 ⊢
            refine ⟨hit2.1, forall₂_append_one hit2.2 (Or.inr ⟨p, by rw [hDl], ?_, by omega, by omega⟩)⟩
            rw [hDl]
            exact (txt_congr (fun x hx1 hx2 => h6 x (by omega))).trans hDt
          by_cases h0 : tot - n = 0
          · rw [if_neg (by omega)]
            have hnil : (got ++ chunk).drop n = [] := List.drop_eq_nil_of_le (by omega)
            rw [hnil] at hrun ⊢
            have hp0 : parse R [] = ([], .text []) := by simp [parse]
            rw [hp0] at hrun ⊢
            simp only [Rx.elems, Option.some.injEq] at hrun
            subst hrun
            refine ⟨_, _, rfl, sc1.trans ⟨rfl, rfl⟩, ?_, ?_, hrep2 _ rfl rfl rfl rfl (fun _ _ => rfl) rfl, ?_⟩
            · simp only []; omega
            · simp only [Option.getD_some]; omega
            · simp [txt, h0]
          · rw [if_pos (by omega)]
            have hwr : wr m (p + n + (tot - n)) 0 = some (m.set (p + n + (tot - n)) 0) := wr_some (by omega)
            rw [hwr]
            simp only [handleAllReceived]
            have htx : txt (m.set (p + n + (tot - n)) 0) (p + n) (tot - n) = (got ++ chunk).drop n := by
              rw [← hrestt]; exact txt_congr (fun x h1 h2 => List.getElem?_set_ne (by omega))
            obtain ⟨s3, e3, sc3, hb3⟩ := loop_data (cfg := cfg) (R := R) (tot - n + 1)
              (a := { a with lines := a.lines ++ [D] }) (a' := a') (E := p + tot)
              (s := { s1 with
                buf := m.set (p + n + (tot - n)) 0, partialLen := tot - n, dataLen := 0, readPtr := some (p + n),
                resp := some ⟨rr.status, rr.items ++ [.data p n]⟩ }) (c := ⟨p + n, tot - n, none⟩)
              (by simp; omega) (hn.of_same (sc1.trans ⟨rfl, rfl⟩)) htot (by simp only []; omega) (by simp)
              (hrep2 _ rfl rfl rfl rfl (fun x hx => List.getElem?_set_ne (by omega)) (by simp)) rfl
              (by simp only []; rw [htx]; exact hrun)
            rw [e3]
            simp only [] at hb3
            rw [htx] at hb3
            refine ⟨_, s3, rfl, (sc1.trans ⟨rfl, rfl⟩).trans sc3, hb3.len, ?_, hb3.rep, hb3.rest⟩
            have := hb3.pos
            omega
        · rw [if_neg hle] at hrun ⊢
          rw [if_neg hle]
          simp only [Rx.elems, Option.some.injEq] at hrun
          subst hrun
          simp only [Nat.lt_irrefl, if_false]
          refine ⟨_, _, rfl, sc1.trans ⟨rfl, rfl⟩, ?_, ?_, hrepm _ rfl rfl rfl rfl (fun _ _ => rfl), ?_⟩
          · simp only []; omega
          · simp only [Option.getD_some]; omega
          · simp only [Option.getD_some]
            exact ⟨hfull, trivial, by omega, h3.2.2.2⟩
  · -- the buffer is full
    rw [if_neg hem]
    have hr0 : room cfg s = 0 := by rw [room_eq er]; omega
    have hch : chunk = [] := List.length_eq_zero_iff.mp (by omega)
    rw [hstay hch] at hrun ⊢
    cases hrun
    have hp0 : s.partialLen = 0 := by
      by_cases h : s.partialLen = 0
      · exact h
      · exact absurd ⟨hr0, Or.inl h⟩ hov
    have hnr : ∀ r, s.resp = some r → r.items = [] := by
      intro r hr
      by_cases h : r.items = []
      · exact h
      · exact absurd ⟨hr0, Or.inr ⟨r, hr, h⟩⟩ hov
    have hlin : a.lines = [] := by
      have h3 := hb.rep.items.2
      have h4 : (s.resp.getD ⟨false, []⟩).items = [] := by
        cases hr : s.resp with
        | none => rfl
        | some r => exact hnr r hr
      rw [h4] at h3
      generalize a.lines = x at h3
      cases h3
      rfl
    refine ⟨_, _, rfl, sc1, hl1, by simp, ⟨hb1.rep.cmd, hb1.rep.pfx, hb1.rep.events, ?_, hb1.rep.idle⟩, ?_⟩
    · have := hb1.rep.items
      rw [hlin] at this ⊢
      exact itemsAt_nil this
    · have h3 := hb1.rest
      cases q with
      | text cur =>
        simp only [] at h3 ⊢
        refine ⟨?_, h3.2⟩
        rw [← h3.1, hpl, hp0]
        simp [txt]
      | data got n =>
        simp only [] at h3 ⊢
        refine ⟨?_, h3.2.1, ?_, h3.2.2.2⟩
        · rw [← h3.1, hpl, hp0]
          simp [txt]
        · have := h3.2.2.1; omega

/-! ## Several reads -/

theorem BetweenD.size {cfg : Cfg} {s : St} {a : Rx} {q : Rest} {E : Nat} (h : BetweenD cfg s a q (min cfg.size E)) :
    BetweenD cfg s a q cfg.size := ⟨h.len, by have := h.pos; omega, h.rep, h.rest⟩

/-- Reads without overflow handle the elements of the stream. -/
theorem readsOk_data {cfg : Cfg} {R : Recogniser} {s s' : St} {chunks : List Str} (hR : ReadsOk cfg s chunks s') :
    ∀ {a a' : Rx} {q : Rest}, DataPort cfg R s → BetweenD cfg s a q cfg.size → resume R q [] = ([], q) →
    Rx.elems cfg a (resumes R q chunks).1 = some a' →
    DataPort cfg R s' ∧ BetweenD cfg s' a' (resumes R q chunks).2 cfg.size := by
  induction hR with
  | nil s =>
    intro a a' q hn hb _ hrun
    simp only [resumes, Rx.elems, Option.some.injEq] at hrun
    subst hrun
    exact ⟨hn, hb⟩
  | cons hov hroom he _ ih =>
    intro a a' q hn hb hq hrun
    simp only [resumes, Rx.elems_append] at hrun ⊢
    cases h1 : Rx.elems cfg a (resume R q _).1 with
    | none => rw [h1] at hrun; cases hrun
    | some a1 =>
      rw [h1] at hrun
      obtain ⟨k, s1, e1, sc1, hb1⟩ := rxEvent_data hn hb hov hroom h1 hq
      rw [he] at e1
      cases e1
      exact ih (hn.of_same sc1) hb1.size (resume_nil R q _) hrun

/-- Reads whose total is less than the space after the text cannot overflow, and are free of undefined
behaviour. -/
theorem readsOk_data_fits {cfg : Cfg} {R : Recogniser} : ∀ (chunks : List Str) {s : St} {a a' : Rx} {q : Rest},
    DataPort cfg R s → BetweenD cfg s a q cfg.size → resume R q [] = ([], q) →
    Rx.elems cfg a (resumes R q chunks).1 = some a' →
    s.readPtr.getD 0 + s.partialLen + chunks.flatten.length < cfg.size →
    ∃ s', ReadsOk cfg s chunks s' := by
  intro chunks
  induction chunks with
  | nil => intro s _ _ _ _ _ _ _ _; exact ⟨s, .nil s⟩
  | cons c t ih =>
    intro s a a' q hn hb hq hrun hfit
    simp only [List.flatten_cons, List.length_append] at hfit
    have hrm := room_data (Nat.le_refl _) hb
    have hov : ¬ BufferOverflow cfg s := fun ho => by have := ho.1; omega
    simp only [resumes, Rx.elems_append] at hrun
    cases h1 : Rx.elems cfg a (resume R q c).1 with
    | none => rw [h1] at hrun; cases hrun
    | some a1 =>
      rw [h1] at hrun
      obtain ⟨k, s1, e1, sc1, hb1⟩ := rxEvent_data hn hb hov (by omega) h1 hq
      have hp1 := hb1.pos
      obtain ⟨s', h'⟩ := ih (hn.of_same sc1) hb1.size (resume_nil R q c) hrun (by omega)
      exact ⟨s', .cons hov (by omega) e1 h'⟩

theorem quiet_data {cfg : Cfg} {s : St} (h1 : s.buf.length = cfg.size + 1) (h2 : s.readPtr.getD 0 ≤ cfg.size)
    (h3 : s.dataLen = 0) (hq : Quiet s) :
    BetweenD cfg s ⟨s.cmd, s.pfx, [], s.events⟩ (.text []) cfg.size := by
  refine ⟨h1, by rw [hq.1]; omega, ⟨rfl, rfl, rfl, ⟨by simp [hq.2], by simp [hq.2]⟩, fun _ _ => hq.2⟩, ?_, h3⟩
  simp [txt, hq.1]

theorem resumes_start (R : Recogniser) (chunks : List Str) : resumes R (.text []) chunks = parse R chunks.flatten := by
  have := resumes_eq R chunks []
  simp only [List.nil_append, parse] at this
  exact this.symm

theorem elems_lines (cfg : Cfg) (ls : List Str) (a : Rx) : Rx.elems cfg a (ls.map .line) = Rx.run cfg a ls := by
  induction ls generalizing a with
  | nil => rfl
  | cons l t ih =>
    simp only [List.map_cons, Rx.elems, Rx.elem, Rx.run]
    cases a.line cfg l with
    | none => rfl
    | some b => exact ih b

/-! ## C16 -/

/-- For every stream, however it is cut into reads: the library handles the lines and data blocks that the
stream consists of - and its state between reads is determined by the stream alone.
Missing: streams with lines the library refuses; reads during which the buffer overflows. -/
theorem C16_chunking_irrelevant_partial (cfg : Cfg) (R : Recogniser) (s s' : St) (chunks : List Str) (a' : Rx)
    (hbuf : s.buf.length = cfg.size + 1) (hptr : s.readPtr.getD 0 ≤ cfg.size) (hd : s.dataLen = 0)
    (hport : DataPort cfg R s) (hq : Quiet s) (hR : ReadsOk cfg s chunks s')
    (hrun : Rx.elems cfg ⟨s.cmd, s.pfx, [], s.events⟩ (parse R chunks.flatten).1 = some a') :
    s'.events = a'.events ∧ s'.cmd = a'.cmd ∧
    txt s'.buf (s'.readPtr.getD 0) s'.partialLen = restBytes (parse R chunks.flatten).2 ∧
    (∀ r, s'.resp = some r → r.items.mapM (itemContents s'.buf) = some a'.lines) := by
  have hb0 := quiet_data hbuf hptr hd hq
  rw [← resumes_start] at hrun ⊢
  obtain ⟨_, hb⟩ := readsOk_data hR hport hb0 (by simp [resume, parse]) hrun
  refine ⟨hb.rep.events, hb.rep.cmd, (rest_txt hb).symm, ?_⟩
  intro r hr
  have h2 := itemsAt_contents hb.rep.items.2
  rw [hr] at h2
  exact h2

/-- A response with a block of data.  A command that expects data is pending; the stream consists of
unsolicited codes (`pre`), a header line announcing as many bytes as `data` has, its line end, the bytes
`data` - any bytes at all - and further text that contains intermediate lines and unsolicited codes
(`body`) and a final result code.  Then the response handed over consists of exactly the header, the
data as one item with the original values, and the further lines; unsolicited codes go to their
handler in order; the status is that of the final line.  This holds however the stream is cut into reads.
Missing: reads during which the buffer overflows (see `C16_fits_partial` for a sufficient bound). -/
theorem C16_data_partial (cfg : Cfg) (R : Recogniser) (s s' : St) (chunks : List Str)
    (pre hdr eol data tail : Str) (body : List (Bool × Str)) (final : Str)
    (hbuf : s.buf.length = cfg.size + 1) (hptr : s.readPtr.getD 0 ≤ cfg.size) (hd : s.dataLen = 0)
    (hport : DataPort cfg R s) (hq : Quiet s) (hc : s.cmd = .multiDataWoPrefix)
    (hp : ∀ k, s.pfx = some k → k ≠ [] ∧ k.length ≤ 256)
    (he : cfg.err ≠ none) (hsu : cfg.succ ≠ none) (hR : ReadsOk cfg s chunks s')
    (hstream : chunks.flatten = pre ++ (hdr ++ eol ++ data ++ tail))
    (hpre : NoHeader R pre ∧ unfinished pre = [] ∧
      ∀ l ∈ linesOf pre, l.length ≤ 256 ∧ ForOthers cfg s.cmd s.pfx l)
    (hhdr : R.hdr (hdr ++ eol) = .block hdr.length eol.length data.length ∧
      Intermediate cfg s.cmd s.pfx hdr)
    (htail : NoHeader R tail ∧ linesOf tail = body.map (·.2) ++ [final] ∧ Mixed cfg s.cmd s.pfx body ∧
      final.length ≤ 256 ∧ Final cfg s.cmd s.pfx final) :
    ∃ st, s'.events = s.events ++ (linesOf pre).map .urc ++ (others body).map .urc ++
        [.response st (hdr :: data :: mine body)] ∧
      (st = true ↔ Success cfg final) ∧ s'.cmd = .noCommand ∧ s'.resp = none := by
  obtain ⟨hp1, hp2, hp3⟩ := hpre
  obtain ⟨hh1, hh3⟩ := hhdr
  obtain ⟨ht1, ht2, ht3, ht4⟩ := htail
  have hc0 : s.cmd ≠ .noCommand := by rw [hc]; simp
  obtain ⟨sh1, sh2, sh3, sh4, sh5, sh6⟩ := R.shape _ _ _ _ hh1
  have hne : hdr ≠ [] := by intro h0; rw [h0] at sh1; simp at sh1
  have hdr_no : NoEol hdr := by
    intro b hb
    exact sh5 b (by simpa using hb)
  obtain ⟨b, hr', hbr⟩ := List.exists_cons_of_ne_nil hne
  have hb : ¬ LineEnd b := hdr_no b (by rw [hbr]; simp)
  -- the elements of the stream
  have hparse : (parse R chunks.flatten).1 =
      (linesOf pre).map .line ++ (.header hdr :: .data data :: ((body.map (·.2)) ++ [final]).map .line) := by
    rw [hstream, parse_lines R _ pre _ (Nat.le_refl _) hp1 (Or.inl hp2), if_pos hp2]
    simp only []
    congr 1
    have hext : R.hdr (hdr ++ eol ++ data ++ tail) = .block hdr.length eol.length data.length := by
      rw [List.append_assoc (hdr ++ eol)]
      exact R.block_ext _ _ _ _ _ hh1
    rw [parse_block R (b := b) (r := hr' ++ eol ++ data ++ tail) (by rw [hbr]; simp) hb hext]
    have d1 : (hdr ++ eol ++ data ++ tail).drop (hdr.length + eol.length) = data ++ tail := by
      rw [List.append_assoc (hdr ++ eol)]
      exact List.drop_left' (by simp)
    have d2 : (hdr ++ eol ++ data ++ tail).drop (hdr.length + eol.length + data.length) = tail :=
      List.drop_left' (by simp; omega)
    have d3 : (hdr ++ eol ++ data ++ tail).take hdr.length = hdr := by simp
    rw [d1, d2, d3, if_pos (by simp)]
    have htl := parse_lines R _ tail [] (Nat.le_refl _) ht1 (Or.inr rfl)
    rw [List.append_nil] at htl
    rw [htl]
    simp [parse, ht2]
  -- what they do
  have hmx : Mixed cfg s.cmd s.pfx ((linesOf pre).map (fun l => (false, l))) := by
    intro x hx
    obtain ⟨l, hl, rfl⟩ := List.mem_map.mp hx
    exact ⟨linesFrom_ne_nil pre [] l hl, fun _ => (hp3 l hl).1, by simp, fun _ => (hp3 l hl).2⟩
  have hr1 := run_mixed he hsu ((linesOf pre).map (fun l => (false, l))) ⟨s.cmd, s.pfx, [], s.events⟩ hc0 hp hmx
    (Or.inl (Or.inr (Or.inr hc)))
  have hm1 : mine ((linesOf pre).map (fun l => (false, l))) = [] := by simp [mine]
  have hm2 : others ((linesOf pre).map (fun l => (false, l))) = linesOf pre := by
    simp [others, List.filter_map, Function.comp_def]
  rw [hm1, hm2] at hr1
  simp only [List.map_map, Function.comp_def, List.map_id', List.append_nil] at hr1
  have hS : ¬ (isToken hdr cfg.extra = true ∨ isToken hdr cfg.succ = true) := by
    rintro (h | h)
    · exact hh3.2.1 (Or.inl (isToken_sound hne h))
    · exact hh3.2.1 (Or.inr (isToken_sound hne h))
  have hE : ¬ isToken hdr cfg.err = true := fun h => hh3.2.2 (isToken_sound hne h)
  have hhead : Rx.header cfg ⟨s.cmd, s.pfx, [], s.events ++ (linesOf pre).map .urc⟩ hdr =
      some ⟨s.cmd, s.pfx, [hdr], s.events ++ (linesOf pre).map .urc⟩ := by
    unfold Rx.header
    rw [if_pos ⟨hc, forCommand_solicited hc0 hne hp hh3.1, he, hsu, by simpa using (not_or.mp hS).1,
      by simpa using (not_or.mp hS).2, by simpa using hE⟩]
    rfl
  have hr2 := run_mixed he hsu body ⟨s.cmd, s.pfx, [hdr, data], s.events ++ (linesOf pre).map .urc⟩ hc0 hp ht3
    (Or.inl (Or.inr (Or.inr hc)))
  have hfne : final ≠ [] := linesFrom_ne_nil tail [] final (by
    have : final ∈ linesOf tail := by rw [ht2]; simp
    exact this)
  have hsol := forCommand_solicited hc0 hfne hp ht4.2.1
  obtain ⟨st, hfin, hst⟩ := line_final (a := ⟨s.cmd, s.pfx, [hdr, data] ++ mine body,
    s.events ++ (linesOf pre).map .urc ++ (others body).map .urc⟩) hsol he hsu hfne ht4.1 ht4.2.2
  have hrun : Rx.elems cfg ⟨s.cmd, s.pfx, [], s.events⟩ (parse R chunks.flatten).1 =
      some (Rx.complete ⟨s.cmd, s.pfx, [hdr, data] ++ mine body,
        s.events ++ (linesOf pre).map .urc ++ (others body).map .urc⟩ st ([hdr, data] ++ mine body)) := by
    rw [hparse, Rx.elems_append, elems_lines, hr1]
    simp only [Option.bind_some, Rx.elems, Rx.elem, hhead, elems_lines, Rx.run_append]
    simp only [List.cons_append, List.nil_append] at hr2 hfin ⊢
    rw [hr2]
    simp only [Option.bind_some, Rx.run, hfin]
  have hb0 := quiet_data hbuf hptr hd hq
  rw [← resumes_start] at hrun
  obtain ⟨_, hb⟩ := readsOk_data hR hport hb0 (by simp [resume, parse]) hrun
  exact ⟨st, by simpa [Rx.complete] using hb.rep.events, hst, hb.rep.cmd, hb.rep.idle rfl rfl⟩

/-- Streams shorter than the space after the text, cut in any way, satisfy the hypotheses on the reads of
`C16_data_partial`: they are handled without undefined behaviour and without overflow. -/
theorem C16_fits_partial (cfg : Cfg) (R : Recogniser) (s : St) (chunks : List Str) (a' : Rx)
    (hbuf : s.buf.length = cfg.size + 1) (hd : s.dataLen = 0) (hport : DataPort cfg R s) (hq : Quiet s)
    (hrun : Rx.elems cfg ⟨s.cmd, s.pfx, [], s.events⟩ (parse R chunks.flatten).1 = some a')
    (hfit : s.readPtr.getD 0 + chunks.flatten.length < cfg.size) : ∃ s', ReadsOk cfg s chunks s' := by
  have hb0 := quiet_data hbuf (by omega) hd hq
  rw [← resumes_start] at hrun
  exact readsOk_data_fits chunks hport hb0 (by simp [resume, parse]) hrun (by rw [hq.1]; omega)

/-! ### An example port: headers `+D:` followed by one digit -/

/-- `+D:n` and CR LF, `n` one of 1..9. -/
def demoHdr : Str → Hdr
  | 43 :: 68 :: 58 :: d :: 13 :: 10 :: _ => if 49 ≤ d ∧ d ≤ 57 then .block 4 2 (d.toNat - 48) else .no
  | [43, 68, 58, d, 13] => if 49 ≤ d ∧ d ≤ 57 then .incomplete else .no
  | _ => .no

def demoRecogniser : Recogniser where
  hdr := demoHdr
  block_ext := by
    intro t x l e n h
    unfold demoHdr at h
    split at h
    · rename_i d r
      simpa [demoHdr] using h
    · split at h <;> cases h
    · cases h
  no_ext := by
    intro t x h he
    have key : ∀ d r, 49 ≤ d ∧ d ≤ 57 → t ++ x = 43 :: 68 :: 58 :: d :: 13 :: r →
        ∃ r', t = 43 :: 68 :: 58 :: d :: 13 :: r' := by
      intro d r hd ht
      have h1 : 49 ≤ d.toNat := hd.1
      obtain ⟨b, hb, he⟩ := he
      have hd' : ¬ LineEnd d := by
        intro hx
        rcases hx with rfl | rfl | rfl <;> revert h1 <;> decide
      match t, ht, hb with
      | [], _, hb => simp at hb
      | [a], ht, hb =>
        simp at ht hb; obtain ⟨rfl, _⟩ := ht; subst hb; exact absurd he (by decide)
      | [a, a2], ht, hb =>
        simp at ht hb; obtain ⟨rfl, rfl, _⟩ := ht
        rcases hb with rfl | rfl <;> exact absurd he (by decide)
      | [a, a2, a3], ht, hb =>
        simp at ht hb; obtain ⟨rfl, rfl, rfl, _⟩ := ht
        rcases hb with rfl | rfl | rfl <;> exact absurd he (by decide)
      | [a, a2, a3, a4], ht, hb =>
        simp at ht hb; obtain ⟨rfl, rfl, rfl, rfl, _⟩ := ht
        rcases hb with rfl | rfl | rfl | rfl
        · exact absurd he (by decide)
        · exact absurd he (by decide)
        · exact absurd he (by decide)
        · exact absurd he hd'
      | a :: a2 :: a3 :: a4 :: a5 :: r', ht, hb =>
        simp at ht; obtain ⟨rfl, rfl, rfl, rfl, rfl, _⟩ := ht; exact ⟨r', rfl⟩
    have other : ∀ u, (∀ d r, 49 ≤ d ∧ d ≤ 57 → u = 43 :: 68 :: 58 :: d :: 13 :: r → r = [] ∨ r.head? = some 10 → False) →
        demoHdr u = .no := by
      intro u hu
      unfold demoHdr
      split
      · split
        · rename_i hd; exact (hu _ _ hd rfl (Or.inr rfl)).elim
        · rfl
      · split
        · rename_i hd; exact (hu _ _ hd rfl (Or.inl rfl)).elim
        · rfl
      · rfl
    apply other
    intro d r hd ht hr
    obtain ⟨r', rfl⟩ := key d r hd ht
    simp only [List.cons_append, List.cons.injEq, true_and] at ht
    match r' with
    | [] => simp [demoHdr, hd] at h
    | y :: r'' =>
      rcases hr with rfl | hr
      · simp at ht
      · rw [← ht] at hr
        simp at hr
        subst hr
        simp [demoHdr, hd] at h
  shape := by
    intro t l e n h
    unfold demoHdr at h
    split at h
    · rename_i d r
      split at h
      · rename_i hd
        cases h
        have h1 : 49 ≤ d.toNat := hd.1
        refine ⟨by omega, by omega, by omega, by simp, ?_, ?_⟩
        · simp only [List.take_succ_cons, List.take_zero, List.mem_cons, List.not_mem_nil, or_false]
          rintro b (rfl | rfl | rfl | rfl)
          · decide
          · decide
          · decide
          · intro hx
            rcases hx with rfl | rfl | rfl <;> revert h1 <;> decide
        · simp only [List.drop_succ_cons, List.drop_zero, List.take_succ_cons, List.take_zero, List.mem_cons,
            List.not_mem_nil, or_false]
          rintro b (rfl | rfl) <;> decide
      · cases h
    · split at h <;> cases h
    · cases h

/-- A data prefix callback for these headers; like real ones it terminates the header. -/
def demoDataCb (t : Str) : PktStatus × Str × Option (Nat × Nat) :=
  match demoHdr t with
  | .no => (.prefixMismatch, t, none)
  | .incomplete => (.sizeMismatch, t, none)
  | .block l e n => (.ok, t.set l 0, some (l + e, n))

theorem demo_implements : Implements demoRecogniser demoDataCb := by
  intro t ht
  cases hh : demoRecogniser.hdr t with
  | no =>
    simp only []
    left
    have hh' : demoHdr t = .no := hh
    simp [demoDataCb, hh']
  | incomplete =>
    have hh' : demoHdr t = .incomplete := hh
    simp [demoDataCb, hh']
  | block l e n =>
    have hh' : demoHdr t = .block l e n := hh
    obtain ⟨h1, h2, h3, h4, _, _⟩ := demoRecogniser.shape t l e n hh
    refine ⟨t.set l 0, by simp [demoDataCb, hh'], by simp, ?_, ⟨0, ?_, by decide⟩, ?_⟩
    · rw [List.take_set_of_le (Nat.le_refl _)]
    · exact List.getElem?_set_self (by omega)
    · rw [List.drop_set_of_lt (by omega)]

/-- A pending command that expects data, in the example port. -/
def demoDataState (size : Nat) : St :=
  { init size with cmd := .multiDataWoPrefix, pfx := some (str "+D"), dataCb := some demoDataCb }

/-- Data that contains CR, LF, NUL and the text of a result code, in four reads. -/
example : DataPort (demoCfg 40) demoRecogniser (demoDataState 40) ∧ Quiet (demoDataState 40) ∧
    demoRecogniser.hdr (str "+D:7" ++ [13, 10]) = .block (str "+D:7").length [13, 10].length 7 ∧
    NoHeader demoRecogniser (str "RING\r\n") ∧ NoHeader demoRecogniser (str "\r\nOK\r\n") ∧
    linesOf (str "\r\nOK\r\n") = [str "OK"] ∧
    ((rxRun (demoCfg 40) (demoDataState 40)
      [.recv (str "RING\r\n+D:7\r"), .recv [10, 13, 10], .recv (str "OK\r\n"), .recv ([0] ++ str "\r\nOK\r\n")]).map
        (·.events)) =
      some [.urc (str "RING"), .response true [str "+D:7", [13, 10] ++ str "OK\r\n" ++ [0]]] := by
  have nh : ∀ t : Str, (∀ k, k < t.length → demoHdr (t.drop k) = .no) → NoHeader demoRecogniser t := by
    intro t h y hy hs
    obtain ⟨x, rfl⟩ := hs
    have := h x.length (by
      have := List.length_pos_iff.mpr hy
      simp; omega)
    simpa [demoRecogniser] using this
  exact ⟨⟨rfl, rfl, ⟨_, rfl, demo_implements⟩, fun _ => Nat.le_refl _⟩, ⟨rfl, rfl⟩, by decide +kernel,
    nh _ (by decide +kernel), nh _ (by decide +kernel), by decide +kernel, by decide +kernel⟩

/-- A block that does not fit into the buffer: when the buffer is full the bytes received so far are
forgotten but not the announced length.  The response handed over contains neither the header nor the data
the modem sent: the data item is the last three bytes of the data followed by the result code. -/
theorem C16_witness_overflow :
    (rxRun (demoCfg 12) (demoDataState 12)
      [.recv (str "+D:9\r\n123456"), .recv [], .recv (str "789\r\nOK\r\n"), .recv (str "OK\r\n")]).map (·.events) =
      some [.response true [str "789\r\nOK\r\nOK", str "789\r\nOK\r\n"]] := by decide +kernel

end Cellular.Props
