import Verif.PktioSafe
/-!
# Memory safety of the receive path with binary data (C11)

`C11_memory_safe_partial` excludes callbacks that announce data.  Here they are allowed, and the only way to
undefined behaviour is characterised: data announced by a line that does not belong to a pending command
expecting data.
-/

namespace Cellular.Props
open Cellular Cellular.Spec Cellular.Pktio

/-- What the port's callbacks may do (the data callback is called with a non-empty text): overwrite at most the text they were given, and report a text
that is not longer.  A callback that announces data says that it accepted the text, puts the start of
the data inside the text, and leaves a line end in it. -/
structure CallbacksSane (cfg : Cfg) (s : St) : Prop where
  urc : ∀ l, (cfg.urcEdit l).length ≤ l.length
  input : ∀ f, cfg.inputCb = some f → ∀ t, (f t).2.1.length ≤ t.length
  send : ∀ f, s.sendCb = some f → ∀ t, (f t).2.1.length ≤ t.length ∧ (f t).2.2 ≤ t.length
  data : ∀ f, s.dataCb = some f → ∀ t, t ≠ [] → (f t).2.1.length ≤ t.length ∧
    ∀ start len, (f t).2.2 = some (start, len) → start ≤ t.length ∧
      (len ≠ 0 → (f t).1 = .ok ∧ ∃ b ∈ (f t).2.1, isEol b = true)

theorem CallbacksSane.of_same {cfg : Cfg} {s s' : St} (h : CallbacksSane cfg s)
    (hs : SameCb s s') : CallbacksSane cfg s' :=
  ⟨h.urc, h.input, fun f hf => h.send f (hs.1 ▸ hf), fun f hf => h.data f (hs.2 ▸ hf)⟩

/-- The line is an intermediate line of a pending command that expects data. -/
def ExpectsData (cfg : Cfg) (s : St) (line : Str) : Prop :=
  s.cmd = .multiDataWoPrefix ∧ getMsgType cfg s.cmd s.pfx line = .solicited ∧ cfg.err ≠ none ∧ cfg.succ ≠ none ∧
    isToken line cfg.extra = false ∧ isToken line cfg.succ = false ∧ isToken line cfg.err = false

/-- At this point of the line loop (state and cursor at the head of the loop) the data prefix callback
announces data, but the line does not belong to a pending command that expects data. -/
def LateHeader (cfg : Cfg) (s : St) (c : Cur) : Prop :=
  ∃ p0 n0 s1 p n s2 n' sd s3 len line,
    skipEol s.buf c.p c.n = some (p0, n0) ∧ preprocessInput cfg s p0 n0 = some (true, s1, p, n) ∧
    preprocessLine cfg s1 p n c.sd = some (true, s2, n', sd) ∧ s2.dataLen ≠ 0 ∧
    findLine s2 p n' = some (s3, some len) ∧ readStr s3.buf p = some line ∧ ¬ ExpectsData cfg s3 line

/-- Invariant between reads: bytes announced but not yet received belong to a response. -/
def RxRest (cfg : Cfg) (s : St) : Prop :=
  ∃ d, RxInvD cfg d s ∧ (d ≠ 0 → s.resp.isSome = true)

theorem RxInvD.rest {cfg : Cfg} {s : St} (h : RxInv0 cfg s) : RxRest cfg s := ⟨0, h, by simp⟩

theorem preprocessLine_invD {cfg : Cfg} {s : St} (h : RxInv0 cfg s) (hc : CallbacksSane cfg s)
    {p n : Nat} {E : Nat} (hE : E ≤ cfg.size) (hp : p + n ≤ E) (sd : Option Nat) :
    ∃ b s' n' sd', preprocessLine cfg s p n sd = some (b, s', n', sd') ∧ SameCb s s' ∧ n' ≤ n ∧
      (b = false → RxInv0 cfg s' ∧ PosIn E s') ∧
      (b = true → RxInv0 cfg s' ∨ ∃ d start, d ≠ 0 ∧ RxInvD cfg d s' ∧ sd' = some start ∧
        p ≤ start ∧ start ≤ p + n' ∧ ∃ b ∈ (s'.buf.drop p).take n', isEol b = true) := by
  by_cases hd : ∃ f, s.dataCb = some f ∧ s.sendCb = none ∧ n ≠ 0 ∧
      ∃ start len, (f ((s.buf.drop p).take n)).2.2 = some (start, len) ∧ len ≠ 0
  · obtain ⟨f, hf, hsn, hn, start, len, ho, hl0⟩ := hd
    have hbl := h.len
    have ht : ((s.buf.drop p).take n).length = n := by simp; omega
    have hsl : slice s.buf p n = some ((s.buf.drop p).take n) := slice_some (by omega)
    have hlen := hc.data f hf ((s.buf.drop p).take n) (by intro h0; rw [h0] at ht; simp at ht; omega)
    unfold preprocessLine
    rw [if_neg hn]
    simp only [hsn, hf, hsl]
    rw [ht] at hlen
    obtain ⟨hlen, hann⟩ := hlen
    obtain ⟨hst, hann⟩ := hann start len ho
    obtain ⟨hok, b, hb, hbe⟩ := hann hl0
    obtain ⟨m, em, hm⟩ := h.put (p := p) (t := (f ((s.buf.drop p).take n)).2.1) (by omega)
    generalize f ((s.buf.drop p).take n) = r at *
    obtain ⟨st, text', out⟩ := r
    simp only [] at em hlen ho hok hb ⊢
    subst hok ho
    rw [em]
    refine ⟨_, _, _, _, rfl, ?_, Nat.le_refl _, by simp [handleCallbackResult], fun _ => Or.inr ?_⟩
    · exact ⟨hsn.symm, hf.symm⟩
    · refine ⟨len, p + start, hl0, ?_, rfl, by omega, by omega, b, ?_, hbe⟩
      · exact ⟨hm.len, hm.last, hm.items, rfl⟩
      · simp only [handleCallbackResult]
        unfold Pktio.put at em
        rw [if_pos (by omega)] at em
        cases em
        rw [List.append_assoc, List.drop_append_of_le_length (by simp; omega)]
        rw [List.drop_of_length_le (by simp; omega), List.nil_append]
        rw [List.take_append]
        rw [List.take_of_length_le hlen]
        exact List.mem_append_left _ hb
  · -- nothing is announced
    have base : ∃ b s' n' sd', preprocessLine cfg s p n sd = some (b, s', n', sd') ∧ SameCb s s' ∧ n' ≤ n ∧
        RxInv0 cfg s' ∧ (b = false → PosIn E s') := by
      unfold preprocessLine
      by_cases hn : n = 0
      · refine ⟨false, _, n, _, if_pos hn, .refl _, Nat.le_refl _, ⟨h.len, h.last, h.items, h.data⟩,
          fun _ => ?_⟩
        simp [PosIn]; omega
      · rw [if_neg hn]
        have ht : ((s.buf.drop p).take n).length = n := by
          have := h.len
          simp; omega
        have hsl : slice s.buf p n = some ((s.buf.drop p).take n) :=
          slice_some (by have := h.len; omega)
        cases hs : s.sendCb with
        | some f =>
          simp only []
          rw [hsl]
          simp only []
          have hlen := hc.send f hs ((s.buf.drop p).take n)
          rw [ht] at hlen
          obtain ⟨m, em, hm⟩ := h.put (p := p) (t := (f ((s.buf.drop p).take n)).2.1) (by omega)
          generalize f ((s.buf.drop p).take n) = r at *
          obtain ⟨st, text', n'⟩ := r
          simp only [] at em hlen ⊢
          rw [em]
          have hcb := callbackResult_inv hm st hE (p := p) (n := n') (by omega)
          rw [← hs]
          exact ⟨_, _, _, _, rfl, hcb.2.1, hlen.2, hcb.1, hcb.2.2⟩
        | none =>
          cases hdc : s.dataCb with
          | none => exact ⟨true, s, n, _, rfl, .refl _, Nat.le_refl _, h, by simp⟩
          | some f =>
            simp only []
            rw [hsl]
            simp only []
            have hlen := (hc.data f hdc ((s.buf.drop p).take n) (by intro h0; rw [h0] at ht; simp at ht; omega)).1
            have hzero : ∀ start len, (f ((s.buf.drop p).take n)).2.2 = some (start, len) → len = 0 := by
              intro start len ho
              by_cases h0 : len = 0
              · exact h0
              · exact absurd ⟨f, hdc, hs, hn, start, len, ho, h0⟩ hd
            rw [ht] at hlen
            obtain ⟨m, em, hm⟩ := h.put (p := p) (t := (f ((s.buf.drop p).take n)).2.1) (by omega)
            generalize f ((s.buf.drop p).take n) = r at *
            obtain ⟨st, text', out⟩ := r
            simp only [] at em hlen hzero ⊢
            rw [em]
            rw [← hs, ← hdc]
            cases out with
            | none =>
              have hcb := callbackResult_inv hm st hE hp
              exact ⟨_, _, _, _, rfl, hcb.2.1, Nat.le_refl _, hcb.1, hcb.2.2⟩
            | some q =>
              obtain ⟨start, len⟩ := q
              have := hzero start len rfl
              subst this
              have hm' : RxInv0 cfg { s with buf := m, dataLen := 0 } :=
                ⟨hm.len, hm.last, hm.items, rfl⟩
              have hcb := callbackResult_inv hm' st hE hp
              exact ⟨_, _, _, _, rfl, hcb.2.1, Nat.le_refl _, hcb.1, hcb.2.2⟩
    obtain ⟨b, s', n', sd', e, h1, h2, h3, h4⟩ := base
    exact ⟨b, s', n', sd', e, h1, h2, fun hb => ⟨h3, h4 hb⟩, fun _ => Or.inl h3⟩

theorem handleMsgType_ownHeader {cfg : Cfg} {d : Nat} {s : St} (h : RxInvD cfg d s) {p : Nat} {line : Str}
    (hx : ExpectsData cfg s line) (hp : p ≤ cfg.size) :
    ∃ r, handleMsgType cfg s p line = some (.pendingBuffer, .solicited, { s with resp := some r }) ∧
      RxInvD cfg d { s with resp := some r } := by
  obtain ⟨h1, h2, h3, h4, h5, h6, h7⟩ := hx
  refine ⟨{ s.resp.getD ⟨false, []⟩ with items := (s.resp.getD ⟨false, []⟩).items ++ [.line p] }, ?_, ?_⟩
  · unfold handleMsgType
    rw [h2]
    simp only [processLine]
    rw [if_pos ⟨Option.isSome_iff_ne_none.mpr h3, Option.isSome_iff_ne_none.mpr h4⟩]
    rw [if_neg (by simp [h5, h6]), if_neg (by simp [h7]), h1]
    rfl
  · refine ⟨h.len, h.last, ?_, h.data⟩
    rintro _ ⟨⟩ it hit
    rcases List.mem_append.mp hit with hit | hit
    · cases hr : s.resp with
      | none => simp [hr] at hit
      | some r => simp [hr] at hit; exact h.items r hr it hit
    · simp at hit; subst hit; exact hp

theorem handleData_inv {cfg : Cfg} {d : Nat} {s : St} (h : RxInvD cfg d s) (hd : d ≠ 0) {r : Resp}
    (hr : s.resp = some r) {start p n : Nat} (h1 : p ≤ start) (h2 : start ≤ p + n)
    {E : Nat} (hE : E ≤ cfg.size) (hp : p + n ≤ E) :
    ∃ left p' s', handleData s start p n = some (left, p', s') ∧ SameCb s s' ∧ left < n + 1 ∧
      (left ≠ 0 → RxInv0 cfg s' ∧ p' + left ≤ E ∧ left < n) ∧ (left = 0 → RxRest cfg s' ∧ PosIn E s') := by
  unfold handleData
  rw [if_neg (by omega)]
  simp only [h.data, hr]
  split
  · refine ⟨_, _, _, rfl, .refl _, by omega, fun _ => ⟨?_, by omega, by omega⟩, fun _ => ⟨?_, ?_⟩⟩
    · refine ⟨h.len, h.last, ?_, rfl⟩
      rintro _ ⟨⟩ it hit
      rcases List.mem_append.mp hit with hit | hit
      · exact h.items r hr it hit
      · simp at hit; subst hit; simp only [ItemIn]; omega
    · apply RxInvD.rest
      refine ⟨h.len, h.last, ?_, rfl⟩
      rintro _ ⟨⟩ it hit
      rcases List.mem_append.mp hit with hit | hit
      · exact h.items r hr it hit
      · simp at hit; subst hit; simp only [ItemIn]; omega
    · simp [PosIn]; omega
  · refine ⟨_, _, _, rfl, .refl _, by omega, by simp, fun _ => ⟨⟨d, ⟨h.len, h.last, ?_, by simp only [h.data]⟩, ?_⟩, ?_⟩⟩
    · intro r' hr' it hit; exact h.items r' (by simpa [hr] using hr') it hit
    · simp [hr]
    · simp [PosIn]; omega

theorem findLine_eol {s s' : St} {p n : Nat} (hl : p + n ≤ s.buf.length)
    (he : ∃ b ∈ (s.buf.drop p).take n, isEol b = true) (e : findLine s p n = some (s', none)) : False := by
  unfold findLine at e
  rw [slice_some hl] at e
  simp only [] at e
  cases hf : ((s.buf.drop p).take n).findIdx? isEol with
  | none =>
    obtain ⟨b, hb, hbe⟩ := he
    have := List.findIdx?_eq_none_iff.mp hf b hb
    simp [hbe] at this
  | some i => simp [hf] at e

theorem iter_invD {cfg : Cfg} {s : St} (h : RxInv0 cfg s) (hc : CallbacksSane cfg s) {c : Cur}
    {E : Nat} (hE : E ≤ cfg.size) (hp : c.p + c.n ≤ E) (hl : ¬ LateHeader cfg s c) :
    ∃ c' s', iter cfg s c = some (c', s') ∧ SameCb s s' ∧ (c' = none → RxRest cfg s' ∧ PosIn E s') ∧
      ∀ c'', c' = some c'' → RxInv0 cfg s' ∧ c''.p + c''.n ≤ E ∧ c''.n < c.n := by
  unfold iter
  obtain ⟨p1, n1, e1, a1, a2⟩ := skipEol_some s.buf c.n c.p (by have := h.len; omega)
  rw [e1]
  simp only []
  obtain ⟨b2, s2, p2, n2, e2, i2, c2, q2, l2, x2⟩ := preprocessInput_inv h hc.input hE (p := p1) (n := n1) (by omega)
  rw [e2]
  cases b2 with
  | false => exact ⟨_, _, rfl, c2, fun _ => ⟨i2.rest, x2 rfl⟩, by simp⟩
  | true =>
    simp only []
    obtain ⟨b3, s3, n3, sd3, e3, c3, l3, x3, y3⟩ := preprocessLine_invD i2 (hc.of_same c2) hE q2 c.sd
    rw [e3]
    cases b3 with
    | false => exact ⟨_, _, rfl, c2.trans c3, fun _ => ⟨(x3 rfl).1.rest, (x3 rfl).2⟩, by simp⟩
    | true =>
      simp only []
      rcases y3 rfl with i3 | ⟨d, start, hd0, i3, hsd, hs1, hs2, heol⟩
      · obtain ⟨s4, l, e4, i4, c4, x4, y4⟩ := findLine_inv i3 hE (p := p2) (n := n3) (by omega)
        rw [e4]
        cases l with
        | none => exact ⟨_, _, rfl, (c2.trans c3).trans c4, fun _ => ⟨i4.rest, x4 rfl⟩, by simp⟩
        | some len =>
          simp only []
          obtain ⟨hl', hnul⟩ := y4 len rfl
          obtain ⟨c', s5, e5, i5, c5, x5, y5⟩ :=
            handleLine_inv i4 hc.urc hE (c := ⟨p2, n3, sd3⟩) (len := len) (by simp only []; omega) hl' hnul
          refine ⟨c', s5, e5, ((c2.trans c3).trans c4).trans c5, fun hn => ⟨i5.rest, x5 hn⟩, fun c'' hc'' => ?_⟩
          have := y5 c'' hc''
          simp only [] at this
          exact ⟨i5, by omega, by omega⟩
      · obtain ⟨s4, l, e4, i4, c4, x4, y4⟩ := findLine_inv i3 hE (p := p2) (n := n3) (by omega)
        rw [e4]
        cases l with
        | none => exact absurd e4 (fun e => findLine_eol (by have := i3.len; omega) heol e)
        | some len =>
          simp only []
          obtain ⟨hl', hnul⟩ := y4 len rfl
          obtain ⟨line, hline⟩ := Option.isSome_iff_exists.mp (readStr_isSome hnul (Nat.le_add_right p2 len))
          have hx : ExpectsData cfg s4 line := by
            by_cases hx : ExpectsData cfg s4 line
            · exact hx
            · exact absurd ⟨p1, n1, s2, p2, n2, s3, n3, sd3, s4, len, line, e1, e2, e3,
                by rw [i3.data]; exact hd0, e4, hline, hx⟩ hl
          unfold handleLine
          simp only []
          rw [hline]
          simp only []
          obtain ⟨r, er, hr⟩ := handleMsgType_ownHeader i4 hx (p := p2) (by omega)
          rw [er]
          simp only []
          rw [if_pos (by rw [i4.data]; exact hd0), hsd]
          simp only []
          obtain ⟨left, p', s5, e5, c5, k1, k2, k3⟩ := handleData_inv hr hd0 (r := r) rfl hs1 hs2 hE (by omega)
          rw [e5]
          refine ⟨_, _, rfl, ((c2.trans c3).trans c4).trans (SameCb.trans (.refl _) c5), ?_, ?_⟩
          · intro hn
            by_cases h0 : left = 0
            · exact k3 h0
            · simp [h0] at hn
          · intro c'' hc''
            by_cases h0 : left = 0
            · simp [h0] at hc''
            · simp [h0] at hc''
              subst hc''
              obtain ⟨g1, g2, g3⟩ := k2 h0
              exact ⟨g1, g2, by simp only []; omega⟩

/-- The line loop, started at this state and cursor, comes to this state and cursor. -/
inductive LoopVisits (cfg : Cfg) : St → Cur → St → Cur → Prop
  | head (s c) : LoopVisits cfg s c s c
  | next {s c s1 c1 s2 c2} : iter cfg s c = some (some c1, s1) → LoopVisits cfg s1 c1 s2 c2 →
      LoopVisits cfg s c s2 c2

theorem loop_invD {cfg : Cfg} {E : Nat} : ∀ (k : Nat) {s : St} {c : Cur}, RxInv0 cfg s → CallbacksSane cfg s →
    E ≤ cfg.size → c.p + c.n ≤ E → c.n < k → (∀ s' c', LoopVisits cfg s c s' c' → ¬ LateHeader cfg s' c') →
    ∃ s', loop cfg k s c = some s' ∧ RxRest cfg s' ∧ PosIn E s' ∧ SameCb s s' := by
  intro k
  induction k with
  | zero => intro s c _ _ _ _ h; omega
  | succ k ih =>
    intro s c h hc hE hp hk hv
    obtain ⟨c', s', e, sc, x, y⟩ := iter_invD h hc hE hp (hv _ _ (.head _ _))
    unfold loop
    rw [e]
    cases c' with
    | none => exact ⟨s', rfl, (x rfl).1, (x rfl).2, sc⟩
    | some c' =>
      have hy := y c' rfl
      obtain ⟨s'', e', i', q', sc'⟩ := ih hy.1 (hc.of_same sc) hE hy.2.1 (by omega)
        (fun s2 c2 h2 => hv s2 c2 (.next e h2))
      exact ⟨s'', e', i', q', sc.trans sc'⟩

/-- `_handleRxDataEvent` up to the line loop (cellular_pktio.c:1166-1198 and 585-661): bytes reported as
read, state, and where the loop starts if there is text. -/
def rxEnter (cfg : Cfg) (s : St) (chunk : Str) : Option (Nat × St × Option Cur) :=
  match readPos cfg s with
  | none => none
  | some (s, p, pRead, empty) =>
    if empty > 0 then
      if chunk = [] then some (0, s, none)
      else
        match put s.buf pRead (chunk ++ [0]) with
        | none => none
        | some m =>
          match (if s.dataLen ≠ 0 then handleData { s with buf := m, partialLen := 0 } p p (chunk.length + s.partialLen)
              else some (chunk.length + s.partialLen, p, { s with buf := m, partialLen := 0 })) with
          | none => none
          | some (left, p, s') =>
            if left > 0 then
              match wr s'.buf (p + left) 0 with
              | none => none
              | some m => some (chunk.length + s.partialLen, { s' with buf := m }, some ⟨p, left, none⟩)
            else some (chunk.length + s.partialLen, s', none)
    else some (0, { s with partialLen := 0, readPtr := none }, none)

/-- A receive event is `rxEnter` followed by the line loop. -/
theorem rxEvent_enter (cfg : Cfg) (s : St) (chunk : Str) :
    rxEvent cfg s chunk = match rxEnter cfg s chunk with
      | none => none
      | some (n, s, none) => some (n, s)
      | some (n, s, some c) => (loop cfg (c.n + 1) s c).map (fun s => (n, s)) := by
  unfold rxEvent rxEnter
  cases readPos cfg s with
  | none => rfl
  | some q =>
    obtain ⟨s, p, pRead, empty⟩ := q
    simp only []
    split
    · split
      · rfl
      · cases put s.buf pRead (chunk ++ [0]) with
        | none => rfl
        | some m =>
          simp only []
          generalize (if s.dataLen ≠ 0 then handleData { s with buf := m, partialLen := 0 } p p (chunk.length + s.partialLen)
              else some (chunk.length + s.partialLen, p, { s with buf := m, partialLen := 0 })) = r
          cases r with
          | none => rfl
          | some q =>
            obtain ⟨left, p, s'⟩ := q
            simp only []
            split
            · cases wr s'.buf (p + left) 0 with
              | none => rfl
              | some m => rfl
            · rfl
    · rfl

/-- In the history the line loop comes to this state and cursor. -/
def Visits (cfg : Cfg) (s : St) (acts : List RxAct) (s' : St) (c' : Cur) : Prop :=
  ∃ pre bytes post s1 n s2 c2, acts = pre ++ .recv bytes :: post ∧ rxRun cfg s pre = some s1 ∧
    rxEnter cfg s1 (bytes.take (room cfg s1)) = some (n, s2, some c2) ∧ LoopVisits cfg s2 c2 s' c'

/-- One read up to the line loop: defined, and the invariant holds where the loop starts, or at rest. -/
theorem rxEnter_invD {cfg : Cfg} {s : St} (h : RxRest cfg s) (hpos : PosIn cfg.size s) {chunk : Str} (hroom : chunk.length ≤ room cfg s) :
    ∃ n s2 c2, rxEnter cfg s chunk = some (n, s2, c2) ∧ SameCb s s2 ∧
      (c2 = none → RxRest cfg s2 ∧ PosIn cfg.size s2) ∧
      (∀ c, c2 = some c → RxInv0 cfg s2 ∧ c.p + c.n ≤ cfg.size) := by
  obtain ⟨d, h, hresp⟩ := h
  obtain ⟨s1, p, pr, e, er, h1, c1, hpl, hpr, hpe, hpp, hpq⟩ := readPos_inv ⟨h, hpos⟩
  have hresp1 : s1.resp = s.resp := by
    unfold readPos at er
    split at er
    · cases er; rfl
    · split at er
      · split at er
        · cases er
        · split at er
          · cases er
          · simp only [Option.map_eq_some_iff] at er
            obtain ⟨m, _, em⟩ := er
            cases em; rfl
      · cases er; rfl
  rw [room_eq er] at hroom
  unfold rxEnter
  rw [er]
  simp only []
  split
  · split
    · exact ⟨_, _, _, rfl, c1, fun _ => ⟨⟨d, h1.1, hresp1 ▸ hresp⟩, h1.2⟩, by simp⟩
    · rename_i hne
      have hlen0 : 0 < chunk.length := List.length_pos_iff.mpr hne
      have hl := h1.1.len
      have hpos' : pr + chunk.length ≤ cfg.size := by omega
      obtain ⟨m, em, hm1, hm2⟩ := put_some (m := s1.buf) (p := pr) (t := chunk ++ [0])
        (by simp; omega)
      rw [em]
      simp only []
      have hlast : m[cfg.size]? = some 0 := by
        by_cases hb : pr + chunk.length = cfg.size
        · have em' := em
          unfold Pktio.put at em'
          rw [if_pos (by simp; omega)] at em'
          cases em'
          rw [List.append_assoc, List.getElem?_append_right (by simp; omega)]
          rw [List.append_assoc, List.getElem?_append_right (by simp; omega)]
          simp only [List.length_take, List.singleton_append]
          rw [show cfg.size - min pr s1.buf.length - chunk.length = 0 from by omega]
          rfl
        · rw [hm2 _ (Or.inr (by simp; omega))]; exact h1.1.last
      have hi : RxInvD cfg d { s1 with buf := m, partialLen := 0 } :=
        ⟨hm1.trans h1.1.len, hlast, h1.1.items, h1.1.data⟩
      have hlpos : p + (chunk.length + s1.partialLen) ≤ cfg.size := by omega
      have hstart : ∃ left p' s', (if s1.dataLen ≠ 0 then
            handleData { s1 with buf := m, partialLen := 0 } p p (chunk.length + s1.partialLen)
            else some (chunk.length + s1.partialLen, p, { s1 with buf := m, partialLen := 0 })) =
            some (left, p', s') ∧ SameCb s1 s' ∧ (left ≠ 0 → RxInv0 cfg s' ∧ p' + left ≤ cfg.size) ∧
            (left = 0 → RxRest cfg s' ∧ PosIn cfg.size s') := by
        by_cases hd : d = 0
        · subst hd
          rw [if_neg (by simp [h1.1.data])]
          exact ⟨_, _, _, rfl, .refl _, fun _ => ⟨hi, hlpos⟩, by omega⟩
        · rw [if_pos (by rw [h1.1.data]; exact hd)]
          obtain ⟨r, hr⟩ := Option.isSome_iff_exists.mp (hresp hd)
          obtain ⟨left, p', s', e1, g1, _, g2, g3⟩ := handleData_inv hi hd (r := r) (by simpa [hresp1] using hr)
            (Nat.le_refl p) (Nat.le_add_right _ _) (Nat.le_refl _) hlpos
          exact ⟨left, p', s', e1, SameCb.trans (.refl _) g1, fun h0 => ⟨(g2 h0).1, (g2 h0).2.1⟩, g3⟩
      obtain ⟨left, p', s', es, g1, g2, g3⟩ := hstart
      rw [es]
      simp only []
      split
      · obtain ⟨k1, k2⟩ := g2 (by omega)
        obtain ⟨m', em', hm'⟩ := k1.wr0 (i := p' + left) k2
        rw [em']
        refine ⟨_, _, _, rfl, SameCb.trans (SameCb.trans c1 g1) (.refl _), by simp, ?_⟩
        rintro c ⟨⟩
        exact ⟨hm', k2⟩
      · exact ⟨_, _, _, rfl, SameCb.trans c1 g1, fun _ => g3 (by omega), by simp⟩
  · refine ⟨_, _, _, rfl, c1, fun _ => ⟨⟨d, ⟨h1.1.len, h1.1.last, h1.1.items, h1.1.data⟩, ?_⟩, ?_⟩, by simp⟩
    · exact fun hd => by simpa [hresp1] using hresp hd
    · simp [PosIn]

theorem rxEvent_invD {cfg : Cfg} {s : St} (h : RxRest cfg s) (hpos : PosIn cfg.size s) (hc : CallbacksSane cfg s)
    {chunk : Str} (hroom : chunk.length ≤ room cfg s)
    (hv : ∀ n s2 c2 s' c', rxEnter cfg s chunk = some (n, s2, some c2) → LoopVisits cfg s2 c2 s' c' →
      ¬ LateHeader cfg s' c') :
    ∃ k s', rxEvent cfg s chunk = some (k, s') ∧ RxRest cfg s' ∧ PosIn cfg.size s' ∧ SameCb s s' := by
  rw [rxEvent_enter]
  obtain ⟨n, s2, c2, ee, sc2, g1, g2⟩ := rxEnter_invD h hpos hroom
  rw [ee]
  cases c2 with
  | none => exact ⟨_, _, rfl, (g1 rfl).1, (g1 rfl).2, sc2⟩
  | some c =>
    obtain ⟨k1, k2⟩ := g2 c rfl
    obtain ⟨s', e', i', q', sc'⟩ := loop_invD (cfg := cfg) (c.n + 1) k1 (hc.of_same sc2) (Nat.le_refl _) k2
      (by omega) (fun s' c' hv' => hv n s2 c s' c' ee hv')
    simp only [e', Option.map_some]
    exact ⟨_, _, rfl, i', q', sc2.trans sc'⟩

/-- The callbacks installed by a step are sane. -/
def ActSane (cfg : Cfg) : RxAct → Prop
  | .recv _ => True
  | .control _ _ sendCb dataCb =>
    CallbacksSane cfg { init cfg.size with sendCb := sendCb, dataCb := dataCb }

theorem rxRun_invD {cfg : Cfg} : ∀ (acts : List RxAct) {s : St}, RxRest cfg s → PosIn cfg.size s →
    CallbacksSane cfg s → (∀ a ∈ acts, ActSane cfg a) →
    (∀ s' c', Visits cfg s acts s' c' → ¬ LateHeader cfg s' c') →
    ∃ s', rxRun cfg s acts = some s' ∧ RxRest cfg s' ∧ PosIn cfg.size s' := by
  intro acts
  induction acts with
  | nil => intro s h hp _ _ _; exact ⟨s, rfl, h, hp⟩
  | cons a t ih =>
    intro s h hp hc ha hv
    unfold rxRun
    have step : ∀ s1, rxAct cfg s a = some s1 → ∀ s' c', Visits cfg s1 t s' c' → ¬ LateHeader cfg s' c' := by
      rintro s1 e1 s' c' ⟨pre, bytes, post, s2, n, s3, c3, rfl, hr, he, hl⟩
      refine hv s' c' ⟨a :: pre, bytes, post, s2, n, s3, c3, rfl, ?_, he, hl⟩
      unfold rxRun
      rw [e1]
      exact hr
    cases a with
    | recv bytes =>
      obtain ⟨k, s', e, i, q, sc⟩ := rxEvent_invD h hp hc (chunk := bytes.take (room cfg s)) (by simp; omega)
        (fun n s2 c2 s' c' he hl => hv s' c' ⟨[], bytes, t, s, n, s2, c2, rfl, rfl, he, hl⟩)
      have e1 : rxAct cfg s (.recv bytes) = some s' := by simp only [rxAct, e, Option.map_some]
      rw [e1]
      exact ih i q (hc.of_same sc) (fun x hx => ha x (by simp [hx])) (step s' e1)
    | control cmd pfx sendCb dataCb =>
      have hx := ha (.control cmd pfx sendCb dataCb) (by simp)
      obtain ⟨d, hd, hr⟩ := h
      have e1 : rxAct cfg s (.control cmd pfx sendCb dataCb) =
        some { s with cmd := cmd, pfx := pfx, sendCb := sendCb, dataCb := dataCb } := rfl
      rw [e1]
      exact ih ⟨d, ⟨hd.len, hd.last, hd.items, hd.data⟩, hr⟩ hp ⟨hx.urc, hx.input, hx.send, hx.data⟩
        (fun x hx => ha x (by simp [hx])) (step _ e1)

/-- Late data headers are the only cause of undefined behaviour: in a history with any bytes, any reads,
any commands started and abandoned and any sane callbacks, announcing data or not, either receiving
is free of undefined behaviour and leaves the text, the saved lines and the saved data inside the
buffer - with announced bytes pending only for an existing response -, or at some point of the line loop
data was announced by a line that belongs to no pending command expecting data. -/
theorem C11_only_late_data (cfg : Cfg) (acts : List RxAct) (hc : CallbacksSane cfg (init cfg.size))
    (ha : ∀ a ∈ acts, ActSane cfg a) :
    (∃ s', rxRun cfg (init cfg.size) acts = some s' ∧
      s'.buf.length = cfg.size + 1 ∧ s'.readPtr.getD 0 + s'.partialLen ≤ cfg.size ∧
      (s'.dataLen ≠ 0 → s'.resp ≠ none) ∧
      ∀ r, s'.resp = some r → ∀ it ∈ r.items, (itemContents s'.buf it).isSome) ∨
    ∃ s' c', Visits cfg (init cfg.size) acts s' c' ∧ LateHeader cfg s' c' := by
  by_cases hv : ∃ s' c', Visits cfg (init cfg.size) acts s' c' ∧ LateHeader cfg s' c'
  · exact Or.inr hv
  · left
    obtain ⟨s', e, ⟨d, i, hr⟩, q⟩ := rxRun_invD acts (rxInv_init cfg).1.rest (rxInv_init cfg).2 hc ha
      (fun s' c' h1 h2 => hv ⟨s', c', h1, h2⟩)
    refine ⟨s', e, i.len, q, ?_, fun r hr it hit => ?_⟩
    · intro h0
      rw [i.data] at h0
      exact Option.isSome_iff_ne_none.mp (hr h0)
    · have hin := i.items r hr it hit
      cases it with
      | line off => exact readStr_isSome i.last hin
      | data off len =>
        simp only [itemContents]
        rw [slice_some (by have := i.len; simp [ItemIn] at hin; omega)]
        rfl

/-- A data prefix callback for the header `+D:3` and its line end. -/
def demoData3 (text : Str) : PktStatus × Str × Option (Nat × Nat) :=
  if (str "+D:3\r").isPrefixOf text then (.ok, text, some (5, 3))
  else if text.isPrefixOf (str "+D:3") then (.sizeMismatch, text, none)
  else (.ok, text, none)

theorem demoData3_sane (size : Nat) (send : Option (Str → PktStatus × Str × Nat)) (hs : send = none) :
    CallbacksSane (demoCfg size) { init size with sendCb := send, dataCb := some demoData3 } := by
  subst hs
  refine ⟨fun l => Nat.le_refl _, ?_, ?_, ?_⟩
  · intro f hf; cases hf
  · intro f hf; cases hf
  · rintro f ⟨⟩ t _
    unfold demoData3
    split
    · rename_i hp
      obtain ⟨x, hx⟩ := List.isPrefixOf_iff_prefix.mp hp
      have e5 : (str "+D:3\r").length = 5 := rfl
      refine ⟨Nat.le_refl _, ?_⟩
      rintro start len ⟨⟩
      refine ⟨?_, fun _ => ⟨rfl, 13, ?_, rfl⟩⟩
      · rw [← hx, List.length_append, e5]; omega
      · show (13 : Byte) ∈ t
        rw [← hx]
        exact List.mem_append_left _ (by decide)
    · split
      · exact ⟨Nat.le_refl _, by rintro _ _ ⟨⟩⟩
      · exact ⟨Nat.le_refl _, by rintro _ _ ⟨⟩⟩

/-- A non-trivial history: the block arrives in three reads and contains line ends; the next header comes too
late and its data is stored through NULL. -/
example : ActSane (demoCfg 30) (.control .multiDataWoPrefix (some (str "+D")) none (some demoData3)) ∧
    ((rxRun (demoCfg 30) (init 30) [.control .multiDataWoPrefix (some (str "+D")) none (some demoData3),
      .recv (str "+D:3\ra"), .recv (str "\r"), .recv (str "c\r\nOK\r\n")]).map (·.events)) =
      some [.response true [str "+D:3", str "a\rc"]] ∧
    rxRun (demoCfg 30) (init 30) [.control .multiDataWoPrefix (some (str "+D")) none (some demoData3),
      .recv (str "+D:3\ra"), .recv (str "\r"), .recv (str "c\r\nOK\r\n"), .recv (str "+D:3\rabc\r"),
      .recv (str "abc\r")] = none :=
  ⟨demoData3_sane 30 none rfl, by decide +kernel, by decide +kernel⟩

end Cellular.Props
