import Verif.PktioRecv
import Verif.PktioInputSpec
/-!
# The buffer machine with an input buffer callback refines the abstract receiver (C73)
-/

namespace Cellular.Props
open Cellular Cellular.Spec Cellular.Pktio

/-- The port has the input callback `f`, which edits at most the text it is given, and no command installs
a callback of its own. -/
structure InCb (cfg : Cfg) (f : InputCb) (s : St) : Prop where
  input : cfg.inputCb = some f
  edit : ∀ t, (f t).2.1.length ≤ t.length
  send : s.sendCb = none
  data : s.dataCb = none
  urc : ∀ l, (cfg.urcEdit l).length ≤ l.length

theorem InCb.inText {cfg : Cfg} {f : InputCb} {s : St} (h : InCb cfg f s) : CallbacksInText cfg s := by
  refine ⟨h.urc, ?_, ?_, ?_⟩ <;> intro g hg
  · rw [h.input] at hg; cases hg; exact h.edit
  · rw [h.send] at hg; cases hg
  · rw [h.data] at hg; cases hg

theorem InCb.of_same {cfg : Cfg} {f : InputCb} {s s' : St} (h : InCb cfg f s) (hs : SameCb s s') :
    InCb cfg f s' := ⟨h.input, h.edit, hs.1.trans h.send, hs.2.trans h.data, h.urc⟩

/-- Between reads: the state represents `a` and keeps the bytes `cur`. -/
structure Holds (s : St) (a : Rx) (cur : Str) : Prop where
  rep : Rep s a (s.readPtr.getD 0)
  text : txt s.buf (s.readPtr.getD 0) s.partialLen = cur

theorem Between.holds {s : St} {a : Rx} {cur : Str} (h : Between s a cur) : Holds s a cur := ⟨h.rep, h.text⟩

theorem eolFun : (fun b => decide (LineEnd b)) = isEol := by
  funext b
  rw [Bool.eq_iff_iff, decide_eq_true_iff, isEol_iff]

theorem preprocessInput_offer {cfg : Cfg} {f : InputCb} {s : St} {a : Rx} {p n : Nat} (h : RxInv0 cfg s)
    (hn : InCb cfg f s) (hp : p + n ≤ cfg.size) (hr : Rep s a p) :
    match offer f (txt s.buf p n) with
    | .drop => ∃ s' p' n', preprocessInput cfg s p n = some (false, s', p', n') ∧
        (a.lines = [] → Holds s' a [])
    | .wait t => ∃ s' p' n', preprocessInput cfg s p n = some (false, s', p', n') ∧ Holds s' a t
    | .parse t => ∃ s' p' n', preprocessInput cfg s p n = some (true, s', p', n') ∧ p' + n' ≤ p + n ∧
        Rep s' a p' ∧ txt s'.buf p' n' = t ∧ RxInv0 cfg s' ∧ InCb cfg f s' := by
  have hl := h.len
  have htl : (txt s.buf p n).length = n := txt_length (by omega)
  have he := hn.edit (txt s.buf p n)
  rw [htl] at he
  obtain ⟨m, em, hm1, hm2⟩ := put_some (m := s.buf) (p := p) (t := (f (txt s.buf p n)).2.1) (by omega)
  have htxt : txt m p n = afterCb f (txt s.buf p n) := by
    unfold afterCb
    rw [show n = (f (txt s.buf p n)).2.1.length + (n - (f (txt s.buf p n)).2.1.length) by omega, txt_append]
    rw [← show n = (f (txt s.buf p n)).2.1.length + (n - (f (txt s.buf p n)).2.1.length) by omega,
      txt_put em, txt_drop]
    congr 1
    apply txt_congr
    intro i h1 h2
    exact hm2 i (by omega)
  have hrm : ∀ (q : Option Nat) (l : Nat) (b : Nat), p ≤ b →
      Rep { s with buf := m, readPtr := q, partialLen := l } a b := fun q l b hb =>
    ⟨hr.cmd, hr.pfx, hr.events, hr.items.congr hb (fun i hi => hm2 i (by omega)), hr.idle⟩
  obtain ⟨b0, s0, p0, n0, e0, i0, c0, _⟩ := preprocessInput_inv h (hn.inText).input (Nat.le_refl _) hp
  have hpre : preprocessInput cfg s p n = (match (f (txt s.buf p n)).1 with
      | .ok =>
        if (f (txt s.buf p n)).2.2 > n then some (false, cleanBuf cfg { s with buf := m }, p, n)
        else some (true, { s with buf := m, readPtr := some (p + (f (txt s.buf p n)).2.2) },
          p + (f (txt s.buf p n)).2.2, n - (f (txt s.buf p n)).2.2)
      | st => some ((handleCallbackResult cfg { s with buf := m } st p n).1,
          (handleCallbackResult cfg { s with buf := m } st p n).2, p, n)) := by
    unfold preprocessInput
    rw [hn.input]
    simp only []
    rw [slice_some (by omega)]
    simp only []
    have em' : put s.buf p (f (List.take n (List.drop p s.buf))).2.1 = some m := em
    rw [em']
    rfl
  have hclean : ∀ (x : St), x.cmd = s.cmd → x.pfx = s.pfx → x.events = s.events → x.resp = s.resp →
      a.lines = [] → Holds (cleanBuf cfg x) a [] := by
    intro x h1 h2 h3 h4 hnil
    refine ⟨⟨h1.trans hr.cmd, h2.trans hr.pfx, h3.trans hr.events, ?_, fun u v => h4.trans (hr.idle u v)⟩, ?_⟩
    · have := hr.items
      rw [hnil] at this ⊢
      have h5 := itemsAt_nil (m' := (cleanBuf cfg x).buf) (b' := ((cleanBuf cfg x).readPtr.getD 0)) this
      rw [show (cleanBuf cfg x).resp = s.resp from h4]
      exact h5
    · simp [cleanBuf, txt]
  unfold offer
  rw [hpre] at e0 ⊢
  cases hst : (f (txt s.buf p n)).1 <;> rw [hst] at e0 <;> simp only [hst, handleCallbackResult] at e0 ⊢
  case ok =>
    rw [htl]
    by_cases hle : (f (txt s.buf p n)).2.2 ≤ n
    · rw [if_pos hle, if_neg (by omega)]
      rw [if_neg (by omega)] at e0
      cases e0
      refine ⟨_, _, _, rfl, by omega, ?_, ?_, i0, hn.of_same c0⟩
      · exact hrm _ _ _ (by omega)
      · rw [← htxt, txt_drop]
    · rw [if_neg hle, if_pos (by omega)]
      exact ⟨_, _, _, rfl, hclean _ rfl rfl rfl rfl⟩
  case prefixMismatch =>
    cases e0
    exact ⟨_, _, _, rfl, Nat.le_refl _, hrm _ _ _ (Nat.le_refl _), htxt, i0, hn.of_same c0⟩
  case sizeMismatch =>
    exact ⟨_, _, _, rfl, hrm (some p) n p (Nat.le_refl _), htxt⟩
  all_goals exact ⟨_, _, _, rfl, hclean _ rfl rfl rfl rfl⟩

/-- One round of the loop. -/
theorem iter_scan {cfg : Cfg} {f : InputCb} {s : St} {a : Rx} {c : Cur} (h : RxInv0 cfg s) (hn : InCb cfg f s)
    (hp : c.p + c.n ≤ cfg.size) (hr : Rep s a c.p) :
    match offer f ((txt s.buf c.p c.n).dropWhile isEol) with
    | .drop => ∃ s', iter cfg s c = some (none, s') ∧ (a.lines = [] → Holds s' a [])
    | .wait t => ∃ s', iter cfg s c = some (none, s') ∧ Holds s' a t
    | .parse t =>
      match t.findIdx? isEol with
      | none => ∃ s', iter cfg s c = some (none, s') ∧ Holds s' a t
      | some i =>
        match a.line cfg (t.take i) with
        | none => ∃ s', iter cfg s c = some (none, s') ∧ Holds s' (a.dropped (t.take i)) []
        | some a' => ∃ c' s', iter cfg s c = some (some c', s') ∧ Rep s' a' c'.p ∧
            txt s'.buf c'.p c'.n = t.drop (i + 1) := by
  have hl := h.len
  generalize ht : txt s.buf c.p c.n = t
  have htl : t.length = c.n := by rw [← ht]; exact txt_length (by omega)
  generalize hj : (t.takeWhile isEol).length = j
  have hskip : skipEol s.buf c.p c.n = some (c.p + j, c.n - j) := by
    rw [skipEol_eq s.buf c.n c.p (by omega), ht, hj]
  have ht1 : t.dropWhile isEol = txt s.buf (c.p + j) (c.n - j) := by
    rw [dropWhile_eq_drop, hj, ← ht, txt_drop]
  have hjn : j ≤ c.n := by
    rw [← hj, ← htl]; exact (List.takeWhile_sublist _).length_le
  have hrP : Rep s a (c.p + j) :=
    ⟨hr.cmd, hr.pfx, hr.events, hr.items.congr (by omega) (fun _ _ => rfl), hr.idle⟩
  have hof := preprocessInput_offer (n := c.n - j) h hn (by omega) hrP
  rw [ht1]
  unfold iter
  rw [hskip]
  simp only []
  revert hof
  cases offer f (txt s.buf (c.p + j) (c.n - j)) with
  | drop =>
    rintro ⟨s', p', n', e, hx⟩
    rw [e]
    exact ⟨s', rfl, hx⟩
  | wait u =>
    rintro ⟨s', p', n', e, hx⟩
    rw [e]
    exact ⟨s', rfl, hx⟩
  | parse u =>
    rintro ⟨s0, P, N, e, hPN, hr0, hu, hinv, hn0⟩
    rw [e]
    simp only []
    subst hu
    have hl0 := hinv.len
    by_cases hN0 : N = 0
    · have hpre : preprocessLine cfg s0 P N c.sd =
          some (false, { s0 with readPtr := some P, partialLen := 0 }, N, c.sd) := by
        simp [preprocessLine, hN0]
      rw [hpre]
      subst hN0
      have h0 : txt s0.buf P 0 = [] := by simp [txt]
      rw [h0]
      simp only [List.findIdx?_nil]
      exact ⟨_, rfl, ⟨hr0.cmd, hr0.pfx, hr0.events, hr0.items, hr0.idle⟩, by simp [txt]⟩
    · have hpre : preprocessLine cfg s0 P N c.sd = some (true, s0, N, c.sd) := by
        simp [preprocessLine, hN0, hn0.send, hn0.data]
      rw [hpre]
      simp only []
      have hsl : slice s0.buf P N = some (txt s0.buf P N) := slice_some (by omega)
      have hTl : (txt s0.buf P N).length = N := txt_length (by omega)
      unfold findLine
      rw [hsl]
      simp only []
      cases hf : (txt s0.buf P N).findIdx? isEol with
      | none =>
        simp only []
        exact ⟨_, rfl, ⟨hr0.cmd, hr0.pfx, hr0.events, hr0.items, hr0.idle⟩, rfl⟩
      | some i =>
        obtain ⟨e', hsplit, he', hno, hi⟩ := findIdx_split hf
        rw [hTl] at hi
        have htk : (txt s0.buf P N).take i = txt s0.buf P i := txt_take _ _ _ _ (by omega)
        have hdr : (txt s0.buf P N).drop (i + 1) = txt s0.buf (P + (i + 1)) (N - (i + 1)) := txt_drop _ _ _ _
        simp only []
        rw [hdr]
        generalize hline : (txt s0.buf P N).take i = line at *
        have hll : line.length = i := by rw [← hline]; simp [hTl]; omega
        have hwr : wr s0.buf (P + i) 0 = some (s0.buf.set (P + i) 0) := wr_some (by omega)
        simp only [hwr, Option.map_some]
        generalize hm : s0.buf.set (P + i) 0 = m
        have hml : m.length = s0.buf.length := by rw [← hm]; simp
        have hmo : ∀ k, k ≠ P + i → m[k]? = s0.buf[k]? := by
          intro k hk
          rw [← hm, List.getElem?_set_ne (by omega)]
        have hLine : LineAt m P line := by
          refine ⟨hno.noNul, ?_, ?_⟩
          · rw [txt_congr (m := s0.buf) (fun k h1 h2 => hmo k (by omega)), hll, ← htk]
          · rw [hll, ← hm]; exact List.getElem?_set_self (by omega)
        have hrm : Rep { s0 with buf := m } a P :=
          ⟨hr0.cmd, hr0.pfx, hr0.events, hr0.items.congr (Nat.le_refl _) (fun k hk => hmo k (by omega)), hr0.idle⟩
        cases hla : a.line cfg line with
        | none =>
          obtain ⟨s2, e2, hb2⟩ := handleMsgType_refused hrm hla
          refine ⟨s2, ?_, hb2.holds⟩
          unfold handleLine
          simp only [hLine.readStr, e2]
        | some a' =>
          obtain ⟨st, ty, s2, e2, hst, hlen2, hsame, hrep2, hfin, hd2⟩ :=
            (handleMsgType_refines (cfg := cfg) (s := { s0 with buf := m }) hn0.urc (by simp only []; omega) hrm hLine
              hla).ex
          simp only [] at hlen2
          have hdl : s2.dataLen = 0 := hd2.trans hinv.data
          have hrest : txt s2.buf (P + (i + 1)) (N - (i + 1)) = txt s0.buf (P + (i + 1)) (N - (i + 1)) := by
            apply txt_congr
            intro k h1 h2
            rw [hsame k (by omega)]
            exact hmo k (by omega)
          have hHL : handleLine cfg { s0 with buf := m } ⟨P, N, c.sd⟩ i =
              (getNextLine s2 P N i st ty).map (fun r => (some ⟨r.1, r.2.1, c.sd⟩, r.2.2)) := by
            unfold handleLine
            simp only [hLine.readStr, e2]
            rcases hst with rfl | rfl | rfl
            · rfl
            · rfl
            · simp [hdl]
          simp only []
          rw [hHL]
          unfold getNextLine
          simp only []
          by_cases hgc : st = .ok ∧ ty = .solicited
          · rw [if_pos hgc]
            rw [slice_some (by omega)]
            simp only []
            obtain ⟨m3, em3, h31, h32⟩ := put_some (m := s2.buf) (p := 0)
              (t := txt s2.buf (P + (i + 1)) (N - (i + 1)))
              (by rw [txt_length (by omega)]; omega)
            have em3' : put s2.buf 0 (List.take (N - (i + 1)) (List.drop (P + (i + 1)) s2.buf)) = some m3 := em3
            rw [em3']
            refine ⟨_, _, rfl, ⟨hrep2.cmd, hrep2.pfx, hrep2.events, ?_, hrep2.idle⟩, ?_⟩
            · have hnil := hfin hgc.1 hgc.2
              have := hrep2.items
              rw [hnil] at this ⊢
              exact itemsAt_nil this
            · simp only []
              have := txt_put em3
              rw [txt_length (by omega)] at this
              rw [this, hrest]
          · rw [if_neg hgc]
            refine ⟨_, _, rfl, ?_, ?_⟩
            · simp only []
              rw [show P + (i + 1) = P + line.length + 1 by omega]
              exact ⟨hrep2.cmd, hrep2.pfx, hrep2.events, hrep2.items, hrep2.idle⟩
            · simp only []
              rw [hrest]

theorem loop_scan {cfg : Cfg} {f : InputCb} : ∀ (k : Nat) {s : St} {c : Cur} {a : Rx} {x : Rx × Str}, RxInv0 cfg s →
    InCb cfg f s → c.p + c.n ≤ cfg.size → c.n < k → Rep s a c.p →
    Rx.scan cfg f k a (txt s.buf c.p c.n) = some x →
    ∃ s', loop cfg k s c = some s' ∧ Holds s' x.1 x.2 := by
  intro k
  induction k with
  | zero => intro s c a x _ _ _ h; omega
  | succ k ih =>
    intro s c a x h hn hp hk hr hx
    have hi := iter_scan h hn hp hr
    unfold Rx.scan at hx
    rw [eolFun] at hx
    unfold loop
    obtain ⟨c2, s2, e2, i2, sc2, _, y2⟩ := iter_inv h hn.inText (Nat.le_refl _) hp
    revert hi hx
    cases offer f ((txt s.buf c.p c.n).dropWhile isEol) with
    | drop =>
      rintro ⟨s', e, hh⟩ hx
      simp only [] at hx
      split at hx <;> cases hx
      rename_i hnil
      rw [e]
      exact ⟨s', rfl, hh hnil⟩
    | wait t =>
      rintro ⟨s', e, hh⟩ hx
      cases hx
      rw [e]
      exact ⟨s', rfl, hh⟩
    | parse t =>
      simp only []
      cases hfi : t.findIdx? isEol with
      | none =>
        rintro ⟨s', e, hh⟩ hx
        cases hx
        rw [e]
        exact ⟨s', rfl, hh⟩
      | some i =>
        simp only []
        cases hla : a.line cfg (t.take i) with
        | none =>
          rintro ⟨s', e, hh⟩ hx
          cases hx
          rw [e]
          exact ⟨s', rfl, hh⟩
        | some a1 =>
          rintro ⟨c', s', e, hr', htx⟩ hx
          rw [e] at e2
          cases e2
          have hy := y2 c' rfl
          rw [e]
          simp only [] at hx ⊢
          rw [← htx] at hx
          exact ih i2 (hn.of_same sc2) (by omega) (by omega) hr' hx

/-! ## One read -/

theorem readPos_holds {cfg : Cfg} {s : St} {a : Rx} {cur : Str} (h : RxInv cfg s) (hb : Holds s a cur) :
    ∃ s' p pr e, readPos cfg s = some (s', p, pr, e) ∧ Holds s' a cur ∧ s'.readPtr.getD 0 = p := by
  obtain ⟨h, hpos⟩ := h
  unfold PosIn at hpos
  unfold readPos
  cases hr : s.readPtr with
  | none => exact ⟨_, _, _, _, rfl, hb, by simp [hr]⟩
  | some q =>
    simp only [hr, Option.getD_some] at hpos
    have hbt := hb.text
    have hbi := hb.rep.items
    simp only [hr, Option.getD_some] at hbt hbi
    simp only []
    split
    · rename_i hc
      have hl := h.len
      have hs : slice s.buf q s.partialLen = some (txt s.buf q s.partialLen) := slice_some (by omega)
      rw [hs]
      simp only []
      have htl : (txt s.buf q s.partialLen).length = s.partialLen := txt_length (by omega)
      obtain ⟨m, em, h1, h2⟩ := put_some (m := s.buf) (p := 0) (t := txt s.buf q s.partialLen) (by omega)
      rw [em]
      simp only []
      rw [wr_some (by omega)]
      refine ⟨_, _, _, _, rfl, ⟨⟨hb.rep.cmd, hb.rep.pfx, hb.rep.events, ?_, hb.rep.idle⟩, ?_⟩, rfl⟩
      · have hnil : a.lines = [] := by
          have h3 := hbi.2
          simp only [hc.2.2, Option.getD_none] at h3
          generalize a.lines = x at h3
          cases h3
          rfl
        rw [hnil] at hbi ⊢
        exact itemsAt_nil hbi
      · simp only [Option.getD_some]
        have := txt_put em
        rw [htl, hbt] at this
        rw [txt_congr (m := m) ?_]
        · exact this
        · intro k _ hk
          exact List.getElem?_set_ne (by omega)
    · exact ⟨_, _, _, _, rfl, hb, by simp [hr]⟩

/-- One receive event does what the abstract receiver does with the bytes read. -/
theorem rxEvent_scan {cfg : Cfg} {f : InputCb} {s : St} {a : Rx} {cur chunk : Str} {x : Rx × Str} (h : RxInv cfg s)
    (hn : InCb cfg f s) (hb : Holds s a cur) (hroom : chunk.length ≤ room cfg s)
    (hov : ¬ Overflow cfg s a cur) (hx : Rx.readCb cfg f (a, cur) chunk = some x) :
    ∃ k s', rxEvent cfg s chunk = some (k, s') ∧ RxInv cfg s' ∧ InCb cfg f s' ∧ Holds s' x.1 x.2 ∧
      PosIn (s.readPtr.getD 0 + s.partialLen + chunk.length) s' := by
  obtain ⟨k, s', e, i, sc, hpos', _⟩ := rxEvent_inv h hn.inText hroom
  refine ⟨k, s', e, i, hn.of_same sc, ?_, hpos'⟩
  obtain ⟨s1, p, pr, em, er, h1, c1, hpl, hpr, hpe, _⟩ := readPos_inv h
  obtain ⟨s1', p', pr', em', er', hb1, hrp⟩ := readPos_holds h hb
  rw [er] at er'
  cases er'
  rw [room_eq er] at hroom
  unfold rxEvent at e
  rw [er] at e
  simp only [] at e
  unfold Rx.readCb at hx
  by_cases hem : em > 0
  · rw [if_pos hem] at e
    by_cases hch : chunk = []
    · subst hch
      simp only [if_true, Option.some.injEq, Prod.mk.injEq] at e hx
      obtain ⟨_, rfl⟩ := e
      subst hx
      exact hb1
    · rw [if_neg hch] at e hx
      have hl := h1.1.len
      have hpos : pr + chunk.length ≤ cfg.size := by omega
      obtain ⟨m, emm, hm1, hm2⟩ := put_some (m := s1.buf) (p := pr) (t := chunk ++ [0]) (by simp; omega)
      rw [emm] at e
      simp only [] at e
      rw [if_neg (by simp [h1.1.data])] at e
      simp only [] at e
      have hlen0 : 0 < chunk.length := List.length_pos_iff.mpr hch
      rw [if_pos (by omega), wr_some (by omega)] at e
      simp only [handleAllReceived] at e
      have hcurl : cur.length = s1.partialLen := by
        rw [← hb1.text]; apply txt_length; rw [hrp]; omega
      generalize hm' : m.set (p + (chunk.length + s1.partialLen)) 0 = m' at e
      have hm'l : m'.length = m.length := by rw [← hm']; simp
      have hm'o : ∀ x, x ≠ p + (chunk.length + s1.partialLen) → m'[x]? = m[x]? := by
        intro x hx; rw [← hm', List.getElem?_set_ne (by omega)]
      have htxt : txt m' p (chunk.length + s1.partialLen) = cur ++ chunk := by
        rw [Nat.add_comm, txt_append]
        congr 1
        · rw [← hb1.text, hrp]
          apply txt_congr
          intro x hx1 hx2
          rw [hm'o x (by omega), hm2 x (Or.inl (by omega))]
        · have hp2 := txt_put emm
          have : txt m pr chunk.length = chunk := by
            have h5 := txt_take m pr (chunk ++ [0]).length chunk.length (by simp)
            rw [hp2] at h5
            rw [← h5]
            simp
          rw [show p + s1.partialLen = pr by omega]
          conv => rhs; rw [← this]
          apply txt_congr
          intro x hx1 hx2
          exact hm'o x (by omega)
      have hlast : m'[cfg.size]? = some 0 := by
        by_cases hb : p + (chunk.length + s1.partialLen) = cfg.size
        · rw [← hm', hb]; exact List.getElem?_set_self (by omega)
        · rw [hm'o _ (by omega), hm2 _ (Or.inr (by simp; omega))]; exact h1.1.last
      have hi0 : RxInv0 cfg { s1 with buf := m', partialLen := 0 } :=
        ⟨by simp only []; omega, hlast, h1.1.items, h1.1.data⟩
      have hrep : Rep { s1 with buf := m', partialLen := 0 } a p := by
        have := hb1.rep
        rw [hrp] at this
        refine ⟨this.cmd, this.pfx, this.events, this.items.congr (Nat.le_refl _) ?_, this.idle⟩
        intro x hx
        rw [hm'o x (by omega), hm2 x (Or.inl (by omega))]
      rw [show (cur ++ chunk).length = chunk.length + s1.partialLen by simp; omega, ← htxt] at hx
      obtain ⟨s3, e3, hb3⟩ := loop_scan (chunk.length + s1.partialLen + 1)
        (c := ⟨p, chunk.length + s1.partialLen, none⟩) hi0
        (hn.of_same (SameCb.trans c1 ⟨rfl, rfl⟩)) (by simp only []; omega) (by simp) hrep hx
      rw [e3] at e
      simp only [Option.map_some, Option.some.injEq, Prod.mk.injEq] at e
      obtain ⟨_, rfl⟩ := e
      exact hb3
  · rw [if_neg hem] at e
    have hr0 : room cfg s = 0 := by rw [room_eq er]; omega
    have hch : chunk = [] := List.length_eq_zero_iff.mp (by omega)
    subst hch
    simp only [if_true, Option.some.injEq, Prod.mk.injEq] at e hx
    obtain ⟨_, rfl⟩ := e
    subst hx
    have hcur : cur = [] := Classical.byContradiction fun hx => hov ⟨hr0, Or.inl hx⟩
    have hlin : a.lines = [] := Classical.byContradiction fun hx => hov ⟨hr0, Or.inr hx⟩
    subst hcur
    refine ⟨⟨hb1.rep.cmd, hb1.rep.pfx, hb1.rep.events, ?_, hb1.rep.idle⟩, by simp [txt]⟩
    have := hb1.rep.items
    simp only [] at this ⊢
    rw [hlin] at this ⊢
    exact itemsAt_nil this

theorem Holds.overflow {cfg : Cfg} {s : St} {a : Rx} {cur : Str} (hb : Holds s a cur)
    (h : Overflow cfg s a cur) : BufferOverflow cfg s := by
  refine ⟨h.1, ?_⟩
  rcases h.2 with h1 | h1
  · left
    intro e
    apply h1
    rw [← hb.text, e]
    simp [txt]
  · right
    cases hr : s.resp with
    | none =>
      have := hb.rep.items.2
      rw [hr] at this
      simp only [Option.getD_none] at this
      generalize a.lines = x at this h1
      cases this
      exact absurd rfl h1
    | some r =>
      refine ⟨r, rfl, ?_⟩
      have := hb.rep.items.2
      rw [hr] at this
      simp only [Option.getD_some] at this
      intro e
      rw [e] at this
      generalize a.lines = x at this h1
      cases this
      exact absurd rfl h1

/-- A sequence of reads in which the buffer never overflows. -/
theorem readsOk_scan {cfg : Cfg} {f : InputCb} {s s' : St} {chunks : List Str} (hR : ReadsOk cfg s chunks s') :
    ∀ {a : Rx} {cur : Str} {x : Rx × Str}, RxInv cfg s → InCb cfg f s → Holds s a cur →
      Rx.readsCb cfg f (a, cur) chunks = some x → RxInv cfg s' ∧ InCb cfg f s' ∧ Holds s' x.1 x.2 := by
  induction hR with
  | nil s =>
    intro a cur x hi hn hb hx
    cases hx
    exact ⟨hi, hn, hb⟩
  | cons hov hroom he _ ih =>
    intro a cur x hi hn hb hx
    unfold Rx.readsCb at hx
    cases hy : Rx.readCb cfg f (a, cur) _ with
    | none => rw [hy] at hx; cases hx
    | some y =>
      rw [hy] at hx
      obtain ⟨k, s1, e, i1, n1, b1, _⟩ := rxEvent_scan hi hn hb hroom (fun h => hov (hb.overflow h)) hy
      rw [he] at e
      cases e
      exact ih i1 n1 b1 hx

end Cellular.Props
