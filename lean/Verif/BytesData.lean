import Verif.BytesThm
/-!
# Concurrent requests over the byte stream: data announced by the prefix callbacks (C82)

`C82_memory_safe` excludes callbacks that announce data.  Here they are allowed, and the only way to undefined behaviour is
characterised, for every schedule: a line whose prefix callback announced data, and which is not collected for a data response.
-/

namespace Cellular.Props
open Cellular Cellular.Spec
open Cellular.Pktio (Cur CmdType MsgType Item Resp Cfg getMsgType processLine cleanBuf readPos room skipEol preprocessInput
  preprocessLine findLine handleData getNextLine itemContents put isEol)
open Cellular.Bytes (Pc Fns)

/-- The callbacks of the port stay in the text they are given; one that announces data says that it accepted the text, puts
the start of the data inside it and leaves a line end in it. -/
structure FnsSane (cfg : Cfg) (fn : Fns) : Prop where
  urc : ∀ l, (cfg.urcEdit l).length ≤ l.length
  input : ∀ f, cfg.inputCb = some f → ∀ t, (f t).2.1.length ≤ t.length
  send : ∀ i t, (fn.send i t).2.1.length ≤ t.length ∧ (fn.send i t).2.2 ≤ t.length
  data : ∀ i t, t ≠ [] → (fn.data i t).2.1.length ≤ t.length ∧
    ∀ start len, (fn.data i t).2.2 = some (start, len) → start ≤ t.length ∧
      (len ≠ 0 → (fn.data i t).1 = .ok ∧ ∃ b ∈ (fn.data i t).2.1, isEol b = true)

/-- **Data were announced with the line in hand, and it is not a line of a data response**: it was classed as unsolicited or
undefined, it completes the response, or it was collected for a command that expects no data. -/
def Late (s : Bytes.St) : Prop :=
  s.rx.dataLen ≠ 0 ∧
    match s.pc with
    | .undef _ _ => True
    | .done _ _ => True
    | .after _ _ st _ => st ≠ .pendingBuffer
    | _ => False

/-- Nothing is announced, or the data begin inside the text at the cursor. -/
def Armed (cfg : Cfg) (rx : Pktio.St) (c : Cur) : Prop :=
  RxInv0 cfg rx ∨ ∃ d start, d ≠ 0 ∧ RxInvD cfg d rx ∧ c.sd = some start ∧ c.p ≤ start ∧ start ≤ c.p + c.n

/-- What holds at each place of the receive task. -/
def PcD (cfg : Cfg) (rx : Pktio.St) : Pc → Prop
  | .wait => RxRest cfg rx ∧ PosIn cfg.size rx
  | .top c => RxInv0 cfg rx ∧ c.p + c.n ≤ cfg.size
  | .pre c _ _ => RxInv0 cfg rx ∧ c.p + c.n ≤ cfg.size
  | .classify c len => Armed cfg rx c ∧ LineIn cfg rx c len
  | .classify2 c len _ => Armed cfg rx c ∧ LineIn cfg rx c len
  | .proc c len => Armed cfg rx c ∧ LineIn cfg rx c len
  | .proc2 c len _ => Armed cfg rx c ∧ LineIn cfg rx c len
  | .done c len => RxInv0 cfg rx ∧ LineIn cfg rx c len ∧ rx.resp.isSome
  | .handle c len => RxInv0 cfg rx ∧ LineIn cfg rx c len ∧ rx.resp.isSome
  | .call c len => RxInv0 cfg rx ∧ LineIn cfg rx c len ∧ rx.resp.isSome
  | .inCb c len _ => RxInv0 cfg rx ∧ LineIn cfg rx c len ∧ rx.resp.isSome
  | .send c len _ => RxInv0 cfg rx ∧ LineIn cfg rx c len
  | .free c len => RxInv0 cfg rx ∧ LineIn cfg rx c len
  | .undef c len => RxInv0 cfg rx ∧ LineIn cfg rx c len
  | .undefFail c len => RxInv0 cfg rx ∧ LineIn cfg rx c len
  | .after c len st _ => Armed cfg rx c ∧ LineIn cfg rx c len ∧ (rx.dataLen ≠ 0 → st = .pendingBuffer ∧ rx.resp.isSome)
  | .crashed => True
  | .bad => False

theorem Armed.zero {cfg : Cfg} {rx : Pktio.St} {c : Cur} (h : Armed cfg rx c) (h0 : rx.dataLen = 0) : RxInv0 cfg rx := by
  rcases h with h | ⟨d, _, hd, h, _⟩
  · exact h
  · exact absurd (h.data.symm.trans h0) hd

theorem enter_pcD {cfg : Cfg} {s : Bytes.St} (h : PcD cfg s.rx .wait) (hpc : s.pc = .wait) {chunk : Str}
    (hroom : chunk.length ≤ room cfg s.rx) : PcD cfg (Bytes.enter cfg chunk s).rx (Bytes.enter cfg chunk s).pc := by
  obtain ⟨n, rx, oc, e, _, x, y⟩ := rxEnter_invD h.1 h.2 hroom
  unfold Bytes.enter
  simp only []
  rw [e]
  cases oc with
  | none => show PcD cfg rx s.pc; rw [hpc]; exact x rfl
  | some c => exact y c rfl

theorem top_pcD {cfg : Cfg} {fn : Fns} (hf : FnsSane cfg fn) {s : Bytes.St} (h : RxInv0 cfg s.rx) {c : Cur}
    (hp : c.p + c.n ≤ cfg.size) : PcD cfg (Bytes.top cfg c s).rx (Bytes.top cfg c s).pc := by
  unfold Bytes.top
  obtain ⟨p1, n1, e1, a1, a2⟩ := skipEol_some s.rx.buf c.n c.p (by have := h.len; omega)
  rw [e1]
  simp only []
  obtain ⟨b2, s2, p2, n2, e2, i2, c2, q2, l2, x2⟩ := preprocessInput_inv h hf.input (Nat.le_refl cfg.size) (p := p1) (n := n1) (by omega)
  rw [e2]
  cases b2 with
  | false => exact ⟨i2.rest, x2 rfl⟩
  | true =>
    simp only []
    split
    · refine ⟨RxInvD.rest ⟨i2.len, i2.last, i2.items, i2.data⟩, ?_⟩
      simp [PosIn]; omega
    · exact ⟨i2, q2⟩

theorem pre_pcD {cfg : Cfg} {fn : Fns} (hf : FnsSane cfg fn) {s : Bytes.St} (h : RxInv0 cfg s.rx) {c : Cur} {r d : Option Nat}
    (hp : c.p + c.n ≤ cfg.size) : PcD cfg (Bytes.pre cfg fn c r d s).rx (Bytes.pre cfg fn c r d s).pc := by
  unfold Bytes.pre
  simp only []
  have h' : RxInv0 cfg { s.rx with sendCb := d.map fn.send, dataCb := r.map fn.data } := ⟨h.len, h.last, h.items, h.data⟩
  have hc : CallbacksSane cfg { s.rx with sendCb := d.map fn.send, dataCb := r.map fn.data } := by
    refine ⟨hf.urc, hf.input, ?_, ?_⟩
    · intro f hff t
      cases d with
      | none => cases hff
      | some i => cases hff; exact hf.send i t
    · intro f hff t
      cases r with
      | none => cases hff
      | some i => cases hff; exact hf.data i t
  obtain ⟨b3, s3, n3, sd3, e3, c3, l3, x3, y3⟩ := preprocessLine_invD h' hc (Nat.le_refl cfg.size) hp c.sd
  rw [e3]
  cases b3 with
  | false => exact ⟨(x3 rfl).1.rest, (x3 rfl).2⟩
  | true =>
    simp only []
    rcases y3 rfl with i3 | ⟨d', start, hd0, i3, hsd, hs1, hs2, heol⟩
    · obtain ⟨s4, l, e4, i4, c4, x4, y4⟩ := findLine_inv i3 (Nat.le_refl cfg.size) (p := c.p) (n := n3) (by omega)
      rw [e4]
      cases l with
      | none => exact ⟨i4.rest, x4 rfl⟩
      | some len =>
        simp only []
        obtain ⟨hl, hnul⟩ := y4 len rfl
        have hin : LineIn cfg s4 ⟨c.p, n3, sd3⟩ len := ⟨by simp only []; omega, hl, hnul⟩
        obtain ⟨line, hline, _⟩ := bytes_read hin
        simp only [] at hline
        rw [hline]
        exact ⟨.inl i4, hin⟩
    · obtain ⟨s4, l, e4, i4, c4, x4, y4⟩ := findLine_inv i3 (Nat.le_refl cfg.size) (p := c.p) (n := n3) (by omega)
      rw [e4]
      cases l with
      | none => exact absurd e4 (fun e => findLine_eol (by have := i3.len; omega) heol e)
      | some len =>
        simp only []
        obtain ⟨hl, hnul⟩ := y4 len rfl
        have hin : LineIn cfg s4 ⟨c.p, n3, sd3⟩ len := ⟨by simp only []; omega, hl, hnul⟩
        obtain ⟨line, hline, _⟩ := bytes_read hin
        simp only [] at hline
        rw [hline]
        exact ⟨.inr ⟨d', start, hd0, i4, hsd, hs1, hs2⟩, hin⟩

theorem items_inD {cfg : Cfg} {d : Nat} {rx : Pktio.St} (h : RxInvD cfg d rx) : ∀ x ∈ (rx.resp.getD ⟨false, []⟩).items, ItemIn cfg x := by
  intro x hx
  cases hr : rx.resp with
  | none => simp [hr] at hx
  | some r => simp [hr] at hx; exact h.items r hr x hx

theorem Armed.inv {cfg : Cfg} {rx : Pktio.St} {c : Cur} (h : Armed cfg rx c) : ∃ d, RxInvD cfg d rx := by
  rcases h with h | ⟨d, _, _, h, _⟩
  · exact ⟨0, h⟩
  · exact ⟨d, h⟩

theorem Armed.resp {cfg : Cfg} {rx : Pktio.St} {c : Cur} (h : Armed cfg rx c) {r : Resp} (hr : ∀ it ∈ r.items, ItemIn cfg it) :
    Armed cfg { rx with resp := some r } c := by
  rcases h with h | ⟨d, start, hd, h, x⟩
  · exact .inl ⟨h.len, h.last, by rintro _ ⟨⟩; exact hr, h.data⟩
  · exact .inr ⟨d, start, hd, ⟨h.len, h.last, by rintro _ ⟨⟩; exact hr, h.data⟩, x⟩

theorem proc_pcD {cfg : Cfg} {s : Bytes.St} {c : Cur} (h : Armed cfg s.rx c) {len : Nat} (hl : LineIn cfg s.rx c len) (t : CmdType) :
    PcD cfg (Bytes.proc cfg c len t s).rx (Bytes.proc cfg c len t s).pc ∨ Late (Bytes.proc cfg c len t s) := by
  obtain ⟨line, hline, hle⟩ := bytes_read hl
  unfold Bytes.proc
  rw [hline]
  simp only []
  have hpl : ∀ x ∈ (processLine { cfg with extra := s.sh.extra.map (·.2) } line (.line c.p) (s.rx.resp.getD ⟨false, []⟩) t).2.items,
      ItemIn cfg x := by
    intro x hx
    obtain ⟨d, hd⟩ := h.inv
    rcases processLine_items x hx with h1 | h1
    · exact items_inD hd x h1
    · subst h1; obtain ⟨h1, h2, _⟩ := hl; simp [ItemIn]; omega
  generalize processLine { cfg with extra := s.sh.extra.map (·.2) } line (.line c.p) (s.rx.resp.getD ⟨false, []⟩) t = q at *
  obtain ⟨st, r⟩ := q
  have hi := h.resp hpl
  by_cases h0 : s.rx.dataLen = 0
  · have hz := hi.zero h0
    left
    simp only []
    split
    · exact ⟨hz, hl, rfl⟩
    · exact ⟨hi, hl, fun _ => ⟨rfl, rfl⟩⟩
    · exact ⟨hi, hl, fun hn => absurd h0 hn⟩
    · exact ⟨hz, hl⟩
  · simp only []
    split
    · exact .inr ⟨h0, trivial⟩
    · exact .inl ⟨hi, hl, fun _ => ⟨rfl, rfl⟩⟩
    · exact .inr ⟨h0, nofun⟩
    · exact .inr ⟨h0, trivial⟩

theorem Armed.putBuf {cfg : Cfg} {rx : Pktio.St} {c : Cur} (h : Armed cfg rx c) {m : Mem} (hl : m.length = rx.buf.length)
    (hz : m[cfg.size]? = rx.buf[cfg.size]?) : Armed cfg { rx with buf := m } c := by
  rcases h with h | ⟨d, start, hd, h, x⟩
  · exact .inl (h.withBuf hl (hz.trans h.last))
  · exact .inr ⟨d, start, hd, h.withBuf hl (hz.trans h.last), x⟩

theorem next_pcD {cfg : Cfg} {fn : Fns} (hf : FnsSane cfg fn) {s : Bytes.St} (h : PcD cfg s.rx s.pc) {chunk : Str} (v : PktStatus)
    (hroom : chunk.length ≤ room cfg s.rx) :
    PcD cfg (Bytes.next cfg fn chunk v s).rx (Bytes.next cfg fn chunk v s).pc ∨
      (Late (Bytes.next cfg fn chunk v s) ∧ ((∃ c len on, s.pc = .classify2 c len on) ∨ ∃ c len t, s.pc = .proc2 c len t)) := by
  unfold Bytes.next
  cases hc : s.pc with
  | wait => rw [hc] at h; exact .inl (enter_pcD h hc hroom)
  | top c => rw [hc] at h; exact .inl (top_pcD hf h.1 h.2)
  | pre c r d => rw [hc] at h; exact .inl (pre_pcD hf h.1 h.2)
  | classify c len => rw [hc] at h; exact .inl h
  | classify2 c len on =>
    rw [hc] at h
    simp only []
    obtain ⟨ha, hl⟩ := h
    obtain ⟨line, hline, hle⟩ := bytes_read hl
    unfold Bytes.classify
    rw [hline]
    simp only []
    split
    · have hu := hf.urc line
      obtain ⟨d, hd⟩ := ha.inv
      obtain ⟨h1, h2, h3⟩ := hl
      obtain ⟨m, em, hm1, hm2⟩ := put_some (m := s.rx.buf) (p := c.p) (t := cfg.urcEdit line) (by have := hd.len; omega)
      rw [em]
      simp only []
      by_cases h0 : s.rx.dataLen = 0
      · refine .inl ⟨ha.putBuf hm1 (hm2 _ (Or.inr (by omega))), ⟨h1, h2, ?_⟩, fun hn => absurd h0 hn⟩
        simp only []
        rw [hm2 _ (Or.inr (by omega))]; exact h3
      · exact .inr ⟨⟨h0, nofun⟩, .inl ⟨c, len, on, rfl⟩⟩
    · exact .inl ⟨ha, hl⟩
    · by_cases h0 : s.rx.dataLen = 0
      · exact .inl ⟨ha.zero h0, hl⟩
      · exact .inr ⟨⟨h0, trivial⟩, .inl ⟨c, len, on, rfl⟩⟩
  | proc c len => rw [hc] at h; exact .inl h
  | proc2 c len t => rw [hc] at h; exact (proc_pcD h.1 h.2 t).imp id (fun h => ⟨h, .inr ⟨c, len, t, rfl⟩⟩)
  | done c len => rw [hc] at h; exact .inl h
  | handle c len =>
    rw [hc] at h
    left
    obtain ⟨hrx, hl, hr⟩ := h
    simp only [Bytes.handled]
    cases hx : s.rx.resp with
    | none => rw [hx] at hr; cases hr
    | some r =>
      simp only []
      split
      · exact ⟨hrx, hl⟩
      · split
        · exact ⟨hrx, hl⟩
        · exact ⟨hrx, hl, by rw [hx]; rfl⟩
  | call c len =>
    rw [hc] at h
    left
    simp only []
    split
    · trivial
    · exact h
  | inCb c len i =>
    rw [hc] at h
    left
    obtain ⟨hrx, hl', _⟩ := h
    simp only []
    unfold Bytes.callback
    obtain ⟨l, hl⟩ := mapM_isSome (f := itemContents s.rx.buf) (l := s.items)
      (fun x hx => itemContents_isSome hrx (items_in hrx x hx))
    rw [hl]
    exact ⟨hrx, hl'⟩
  | send c len st => rw [hc] at h; exact .inl h
  | free c len =>
    rw [hc] at h
    obtain ⟨hrx, hl⟩ := h
    exact .inl ⟨.inl ⟨hrx.len, hrx.last, by simp, hrx.data⟩, hl, fun hn => absurd hrx.data hn⟩
  | undef c len =>
    rw [hc] at h
    left
    obtain ⟨hrx, hl⟩ := h
    simp only []
    obtain ⟨line, hline, hle⟩ := bytes_read hl
    unfold Bytes.undef
    rw [hline]
    simp only []
    split
    · exact ⟨.inl hrx, hl, fun hn => absurd hrx.data hn⟩
    · exact ⟨hrx, hl⟩
  | undefFail c len =>
    rw [hc] at h
    have hcl := h.1.clean
    refine .inl ⟨RxInvD.rest ⟨hcl.len, hcl.last, by simp, hcl.data⟩, ?_⟩
    simp [PosIn, cleanBuf]
  | after c len st t =>
    rw [hc] at h
    left
    obtain ⟨ha, hl, hr⟩ := h
    simp only []
    unfold Bytes.after
    simp only []
    by_cases hd : st = .pendingBuffer ∧ s.rx.dataLen ≠ 0
    · rw [if_pos hd]
      rcases ha with ha | ⟨d, start, hd0, hi, hsd, hs1, hs2⟩
      · exact absurd ha.data hd.2
      · rw [hsd]
        simp only []
        obtain ⟨r, hrr⟩ := Option.isSome_iff_exists.mp (hr hd.2).2
        obtain ⟨left, p', s', e, _, _, k2, k3⟩ := handleData_inv hi hd0 hrr hs1 hs2 (Nat.le_refl cfg.size) hl.1
        rw [e]
        simp only []
        by_cases hz : left = 0
        · rw [if_pos hz]; exact k3 hz
        · rw [if_neg hz]; exact ⟨(k2 hz).1, (k2 hz).2.1⟩
    · rw [if_neg hd]
      have h0 : s.rx.dataLen = 0 := by
        by_contra hn
        exact hd ⟨(hr hn).1, hn⟩
      obtain ⟨p', n', s', e', g1, g2, g3, g4⟩ := getNextLine_inv (ha.zero h0) (Nat.le_refl cfg.size) hl.1 hl.2.1 st t
      rw [e']
      exact ⟨g1, g3⟩
  | crashed => left; rw [hc]; trivial
  | bad => rw [hc] at h; exact h.elim

/-- The system goes on from one state to another. -/
inductive GoesTo (cfg : Cfg) (fn : Fns) (comm : Bool) (s : Bytes.St) : Bytes.St → Prop
  | refl : GoesTo cfg fn comm s s
  | step {s1 s2 : Bytes.St} (h : GoesTo cfg fn comm s s1) (hs : Bytes.Step cfg fn comm s1 s2) : GoesTo cfg fn comm s s2

theorem pcD_reachable {cfg : Cfg} {fn : Fns} (hf : FnsSane cfg fn) {comm : Bool} {s : Bytes.St} (h : Bytes.Reachable cfg fn comm s) :
    PcD cfg s.rx s.pc ∨ ∃ s0, Bytes.Reachable cfg fn comm s0 ∧ Late s0 ∧ GoesTo cfg fn comm s0 s := by
  induction h with
  | init =>
    have h := rxInv_init cfg
    exact .inl ⟨h.1.rest, h.2⟩
  | step hr hs ih =>
    rcases ih with ih | ⟨s0, h1, h2, h3⟩
    · have hs' := hs
      cases hs with
      | thr t ht => exact .inl ih
      | rx _ chunk v hroom =>
        rcases next_pcD hf ih v hroom with h | h
        · exact .inl h
        · exact .inr ⟨_, .step hr hs', h.1, .refl⟩
    · exact .inr ⟨s0, h1, h2, .step h3 hs⟩

/-- C82: **with prefix callbacks that announce data, undefined behaviour has only one cause**, in all executions - any threads, any
requests, any timeouts, anything the modem sends, any interleaving: before it, a line with which data were announced was not collected
for a data response. -/
theorem C82_only_late_data {cfg : Cfg} {fn : Fns} (hf : FnsSane cfg fn) {comm : Bool} {s : Bytes.St} (h : Bytes.Reachable cfg fn comm s)
    (hb : s.pc = .bad) : ∃ s0, Bytes.Reachable cfg fn comm s0 ∧ Late s0 ∧ GoesTo cfg fn comm s0 s := by
  rcases pcD_reachable hf h with h | h
  · rw [hb] at h; exact h.elim
  · exact h

/-- The port of the examples meets the hypothesis. -/
theorem exFns_sane : FnsSane (demoCfg 40) exFns := by
  refine ⟨fun _ => Nat.le_refl _, nofun, fun i t => ?_, fun i t ht => ?_⟩
  · show (if t = str "> " then ((.ok, str ">\n", 2) : PktStatus × Str × Nat) else (.ok, t, t.length)).2.1.length ≤ t.length ∧ _
    simp only [exFns]
    split
    · rename_i h; subst h; decide
    · exact ⟨Nat.le_refl _, Nat.le_refl _⟩
  show (demoDataCb t).2.1.length ≤ t.length ∧ ∀ start len, (demoDataCb t).2.2 = some (start, len) → start ≤ t.length ∧
      (len ≠ 0 → (demoDataCb t).1 = .ok ∧ ∃ b ∈ (demoDataCb t).2.1, isEol b = true)
  have hi := demo_implements t ht
  cases hh : demoRecogniser.hdr t with
  | no =>
    rw [hh] at hi
    rcases hi with e | e <;> rw [e] <;> exact ⟨Nat.le_refl _, nofun⟩
  | incomplete => rw [hh] at hi; simp only [] at hi; rw [hi]; exact ⟨Nat.le_refl _, nofun⟩
  | block l e n =>
    rw [hh] at hi
    obtain ⟨t', h1, h2, _, ⟨b, h4, h5⟩, _⟩ := hi
    obtain ⟨_, _, _, h6, _, _⟩ := demoRecogniser.shape t l e n hh
    rw [h1]
    refine ⟨Nat.le_of_eq h2, ?_⟩
    rintro start len ⟨⟩
    refine ⟨h6, fun _ => ⟨rfl, b, List.mem_of_getElem? h4, ?_⟩⟩
    rcases h5 with rfl | rfl | rfl <;> rfl

/-- The hypotheses are met by an execution that ends in undefined behaviour (the one of `C82_data_timeout_witness`), ... -/
example : FnsSane (demoCfg 40) exFns ∧ ∃ s, Bytes.Reachable (demoCfg 40) exFns true s ∧ s.pc = .bad := by
  obtain ⟨s, s', h, _, _, _, _, hs, hb⟩ := C82_data_timeout_witness
  exact ⟨exFns_sane, s', h.step hs, hb⟩

/-- ... and the line that came too late is the header, taken for an unsolicited code. -/
example : ∃ s, Bytes.Reachable (demoCfg 40) exFns true s ∧ Late s ∧ s.sh.received = [str "+D:7"] := by
  obtain ⟨s, hr, he⟩ := Bytes.exec_reach (cfg := demoCfg 40) (fn := exFns) (comm := true)
    ((begins 0 exReqBlock).map .thr ++ [.rx (str "+D:7\r\n") .ok] ++ rxk 2 ++ (.expire 0 :: gos 0 3).map .thr ++ rxk 2)
    (fun s => (s.rx.dataLen, s.sh.received, match s.pc with | .after _ _ st _ => decide (st = .ok) | _ => false))
    (7, [str "+D:7"], true) (by decide +kernel)
  simp only [Prod.mk.injEq] at he
  obtain ⟨h1, h2, h3⟩ := he
  refine ⟨s, hr, ⟨by rw [h1]; decide, ?_⟩, h2⟩
  cases hp : s.pc with
  | after c len st t =>
    rw [hp] at h3
    have : st = .ok := of_decide_eq_true h3
    subst this
    nofun
  | _ => rw [hp] at h3; cases h3

/-- The hypotheses of the theorems of `Verif.BytesInv` on a state in which the data of a request are being received: it is in progress, its prefix
callback is in effect, and a second thread waits. -/
example : ∃ s, Bytes.Reachable (demoCfg 40) exFns true s ∧ active (s.sh.thr 0) ≠ none ∧ s.sh.recvCb = some 0 ∧
    s.sh.log = [.start 0, .command 0 [65, 84]] ++ .fetched 0 :: [.prefixCb 0, .recv 0] ∧ doneFor (.fetched 0) = some 0 ∧
    s.rx.dataLen = 7 ∧ s.sh.reqs.length = 2 := by
  obtain ⟨s, hr, he⟩ := Bytes.exec_reach (cfg := demoCfg 40) (fn := exFns) (comm := true)
    ((begins 0 exReqBlock).map .thr ++ [.rx (str "+D:7\r\n") .ok] ++ rxk 2 ++ [.thr (.call 1 exReq)])
    (fun s => ((s.sh.log, s.sh.recvCb), s.rx.dataLen, s.sh.reqs.length, (active (s.sh.thr 0)).isSome))
    (([.start 0, .command 0 [65, 84], .fetched 0, .prefixCb 0, .recv 0], some 0), 7, 2, true) (by decide +kernel)
  simp only [Prod.mk.injEq] at he
  obtain ⟨⟨h1, h2⟩, h3, h4, h5⟩ := he
  refine ⟨s, hr, ?_, h2, h1, rfl, h3, h4⟩
  intro h
  rw [h] at h5
  cases h5

end Cellular.Props
