import Verif.Bytes
import Verif.PktioRefine
/-!
# Concurrent requests over the byte stream: memory safety (C82)
-/

namespace Cellular.Props
open Cellular Cellular.Spec
open Cellular.Pktio (Cur CmdType MsgType Item Resp Cfg getMsgType processLine cleanBuf readPos room skipEol preprocessInput
  preprocessLine findLine handleData getNextLine itemContents put)
open Cellular.Bytes (Pc Fns)

/-- The callbacks of the port stay in the text they are given, and announce no data. -/
structure FnsInText (cfg : Cfg) (fn : Fns) : Prop where
  urc : ∀ l, (cfg.urcEdit l).length ≤ l.length
  input : ∀ f, cfg.inputCb = some f → ∀ t, (f t).2.1.length ≤ t.length
  send : ∀ i t, (fn.send i t).2.1.length ≤ t.length ∧ (fn.send i t).2.2 ≤ t.length
  data : ∀ i t, (fn.data i t).2.1.length ≤ t.length ∧ (fn.data i t).2.2 = none

/-- A complete line of length `len` lies at the cursor. -/
def LineIn (cfg : Cfg) (rx : Pktio.St) (c : Cur) (len : Nat) : Prop :=
  c.p + c.n ≤ cfg.size ∧ len < c.n ∧ rx.buf[c.p + len]? = some 0

/-- What holds of the buffer at each place of the receive task. -/
def PcIn (cfg : Cfg) (rx : Pktio.St) : Pc → Prop
  | .wait => PosIn cfg.size rx
  | .top c => c.p + c.n ≤ cfg.size
  | .pre c _ _ => c.p + c.n ≤ cfg.size
  | .classify c len => LineIn cfg rx c len
  | .classify2 c len _ => LineIn cfg rx c len
  | .proc c len => LineIn cfg rx c len
  | .proc2 c len _ => LineIn cfg rx c len
  | .done c len => LineIn cfg rx c len ∧ rx.resp.isSome
  | .handle c len => LineIn cfg rx c len ∧ rx.resp.isSome
  | .call c len => LineIn cfg rx c len ∧ rx.resp.isSome
  | .inCb c len _ => LineIn cfg rx c len ∧ rx.resp.isSome
  | .send c len _ => LineIn cfg rx c len
  | .free c len => LineIn cfg rx c len
  | .undef c len => LineIn cfg rx c len
  | .undefFail c len => LineIn cfg rx c len
  | .after c len _ _ => LineIn cfg rx c len
  | .crashed => True
  | .bad => False

/-- The invariant: buffer, saved items and the receive task's place. -/
structure BInv (cfg : Cfg) (s : Bytes.St) : Prop where
  rx : RxInv0 cfg s.rx
  pc : PcIn cfg s.rx s.pc

theorem bytes_read {cfg : Cfg} {rx : Pktio.St} {c : Cur} {len : Nat} (h : LineIn cfg rx c len) :
    ∃ l, readStr rx.buf c.p = some l ∧ l.length ≤ len := by
  obtain ⟨_, _, h3⟩ := h
  obtain ⟨l, hl⟩ := Option.isSome_iff_exists.mp (readStr_isSome h3 (Nat.le_add_right c.p len))
  have := readStr_len h3 (Nat.le_add_right c.p len) hl
  exact ⟨l, hl, by omega⟩

theorem enter_binv {cfg : Cfg} {s : Bytes.St} (h : BInv cfg s) (hpc : s.pc = .wait) {chunk : Str}
    (hroom : chunk.length ≤ room cfg s.rx) : BInv cfg (Bytes.enter cfg chunk s) := by
  obtain ⟨h, hpos⟩ := h
  rw [hpc] at hpos
  obtain ⟨s1, p, pr, em, er, h1, c1, hpl, hpr, hpe, hx⟩ := readPos_inv ⟨h, hpos⟩
  rw [room_eq er] at hroom
  have key : ∃ n rx oc, rxEnter cfg s.rx chunk = some (n, rx, oc) ∧ RxInv0 cfg rx ∧ (oc = none → PosIn cfg.size rx) ∧
      ∀ c, oc = some c → c.p + c.n ≤ cfg.size := by
    unfold rxEnter
    rw [er]
    simp only []
    by_cases hem : em > 0
    · rw [if_pos hem]
      by_cases hch : chunk = []
      · rw [if_pos hch]
        exact ⟨_, _, _, rfl, h1.1, fun _ => h1.2, by simp⟩
      · rw [if_neg hch]
        have hl := h1.1.len
        have hpos : pr + chunk.length ≤ cfg.size := by omega
        obtain ⟨m, emm, hm1, hm2⟩ := put_some (m := s1.buf) (p := pr) (t := chunk ++ [0]) (by simp; omega)
        rw [emm]
        simp only []
        rw [if_neg (by simp [h1.1.data])]
        simp only []
        have hlen0 : 0 < chunk.length := List.length_pos_iff.mpr hch
        rw [if_pos (by omega), wr_some (by omega)]
        refine ⟨_, _, _, rfl, ⟨by simp; omega, ?_, h1.1.items, h1.1.data⟩, by simp, ?_⟩
        · simp only []
          by_cases hb : p + (chunk.length + s1.partialLen) = cfg.size
          · rw [hb]; exact List.getElem?_set_self (by omega)
          · rw [List.getElem?_set_ne hb, hm2 _ (Or.inr (by simp; omega))]; exact h1.1.last
        · rintro c hc
          cases hc
          simp only []
          omega
    · rw [if_neg hem]
      refine ⟨_, _, _, rfl, ⟨h1.1.len, h1.1.last, h1.1.items, h1.1.data⟩, fun _ => by simp [PosIn], by simp⟩
  obtain ⟨n, rx, oc, e, i, x, y⟩ := key
  unfold Bytes.enter
  simp only []
  rw [e]
  cases oc with
  | none => exact ⟨i, by show PcIn cfg rx s.pc; rw [hpc]; exact x rfl⟩
  | some c => exact ⟨i, y c rfl⟩

theorem top_binv {cfg : Cfg} {fn : Fns} (hf : FnsInText cfg fn) {s : Bytes.St} (h : RxInv0 cfg s.rx) {c : Cur}
    (hp : c.p + c.n ≤ cfg.size) : BInv cfg (Bytes.top cfg c s) := by
  unfold Bytes.top
  obtain ⟨p1, n1, e1, a1, a2⟩ := skipEol_some s.rx.buf c.n c.p (by have := h.len; omega)
  rw [e1]
  simp only []
  obtain ⟨b2, s2, p2, n2, e2, i2, c2, q2, l2, x2⟩ := preprocessInput_inv h hf.input (Nat.le_refl cfg.size) (p := p1) (n := n1) (by omega)
  rw [e2]
  cases b2 with
  | false => exact ⟨i2, x2 rfl⟩
  | true =>
    simp only []
    split
    · refine ⟨⟨i2.len, i2.last, i2.items, i2.data⟩, ?_⟩
      simp [PcIn, PosIn]; omega
    · exact ⟨i2, q2⟩

theorem pre_binv {cfg : Cfg} {fn : Fns} (hf : FnsInText cfg fn) {s : Bytes.St} (h : RxInv0 cfg s.rx) {c : Cur} {r d : Option Nat}
    (hp : c.p + c.n ≤ cfg.size) : BInv cfg (Bytes.pre cfg fn c r d s) := by
  unfold Bytes.pre
  simp only []
  have h' : RxInv0 cfg { s.rx with sendCb := d.map fn.send, dataCb := r.map fn.data } := ⟨h.len, h.last, h.items, h.data⟩
  have hc : CallbacksInText cfg { s.rx with sendCb := d.map fn.send, dataCb := r.map fn.data } := by
    refine ⟨hf.urc, hf.input, ?_, ?_⟩
    · intro f hff t
      cases d with
      | none => cases hff
      | some i => cases hff; exact hf.send i t
    · intro f hff t
      cases r with
      | none => cases hff
      | some i => cases hff; exact hf.data i t
  obtain ⟨b3, s3, n3, e3, i3, c3, l3, x3⟩ := preprocessLine_inv h' hc (Nat.le_refl cfg.size) hp c.sd
  rw [e3]
  cases b3 with
  | false => exact ⟨i3, x3 rfl⟩
  | true =>
    simp only []
    obtain ⟨s4, l, e4, i4, c4, x4, y4⟩ := findLine_inv i3 (Nat.le_refl cfg.size) (p := c.p) (n := n3) (by omega)
    rw [e4]
    cases l with
    | none => exact ⟨i4, x4 rfl⟩
    | some len =>
      simp only []
      obtain ⟨hl, hnul⟩ := y4 len rfl
      have hin : LineIn cfg s4 ⟨c.p, n3, c.sd⟩ len := ⟨by simp only []; omega, hl, hnul⟩
      obtain ⟨line, hline, _⟩ := bytes_read hin
      simp only [] at hline
      rw [hline]
      exact ⟨i4, hin⟩

theorem items_in {cfg : Cfg} {rx : Pktio.St} (h : RxInv0 cfg rx) : ∀ x ∈ (rx.resp.getD ⟨false, []⟩).items, ItemIn cfg x := by
  intro x hx
  cases hr : rx.resp with
  | none => simp [hr] at hx
  | some r => simp [hr] at hx; exact h.items r hr x hx

theorem proc_binv {cfg : Cfg} {s : Bytes.St} (h : RxInv0 cfg s.rx) {c : Cur} {len : Nat} (hl : LineIn cfg s.rx c len) (t : CmdType) :
    BInv cfg (Bytes.proc cfg c len t s) := by
  obtain ⟨line, hline, hle⟩ := bytes_read hl
  unfold Bytes.proc
  rw [hline]
  simp only []
  have hpl : ∀ x ∈ (processLine { cfg with extra := s.sh.extra.map (·.2) } line (.line c.p) (s.rx.resp.getD ⟨false, []⟩) t).2.items,
      ItemIn cfg x := by
    intro x hx
    rcases processLine_items x hx with h1 | h1
    · exact items_in h x h1
    · subst h1; obtain ⟨h1, h2, _⟩ := hl; simp [ItemIn]; omega
  generalize processLine { cfg with extra := s.sh.extra.map (·.2) } line (.line c.p) (s.rx.resp.getD ⟨false, []⟩) t = q at *
  obtain ⟨st, r⟩ := q
  have hi : RxInv0 cfg { s.rx with resp := some r } := ⟨h.len, h.last, by rintro _ ⟨⟩; exact hpl, h.data⟩
  simp only []
  split
  · exact ⟨hi, hl, rfl⟩
  · exact ⟨hi, hl⟩
  · exact ⟨hi, hl⟩
  · exact ⟨hi, hl⟩

theorem next_binv {cfg : Cfg} {fn : Fns} (hf : FnsInText cfg fn) {s : Bytes.St} (h : BInv cfg s) {chunk : Str} (v : PktStatus)
    (hroom : chunk.length ≤ room cfg s.rx) : BInv cfg (Bytes.next cfg fn chunk v s) := by
  have hpc := h.pc
  have hrx := h.rx
  unfold Bytes.next
  cases hc : s.pc with
  | wait => exact enter_binv h hc hroom
  | top c => rw [hc] at hpc; exact top_binv hf hrx hpc
  | pre c r d => rw [hc] at hpc; exact pre_binv hf hrx hpc
  | classify c len => rw [hc] at hpc; exact ⟨hrx, hpc⟩
  | classify2 c len on =>
    rw [hc] at hpc
    simp only []
    obtain ⟨line, hline, hle⟩ := bytes_read hpc
    unfold Bytes.classify
    rw [hline]
    simp only []
    split
    · have hu := hf.urc line
      obtain ⟨h1, h2, h3⟩ := hpc
      obtain ⟨m, em, hm1, hm2⟩ := put_some (m := s.rx.buf) (p := c.p) (t := cfg.urcEdit line) (by have := hrx.len; omega)
      rw [em]
      refine ⟨hrx.withBuf hm1 ?_, h1, h2, ?_⟩
      · rw [hm2 _ (Or.inr (by omega))]; exact hrx.last
      · simp only []
        rw [hm2 _ (Or.inr (by omega))]; exact h3
    · exact ⟨hrx, hpc⟩
    · exact ⟨hrx, hpc⟩
  | proc c len => rw [hc] at hpc; exact ⟨hrx, hpc⟩
  | proc2 c len t => rw [hc] at hpc; exact proc_binv hrx hpc t
  | done c len => rw [hc] at hpc; exact ⟨hrx, hpc⟩
  | handle c len =>
    rw [hc] at hpc
    refine ⟨hrx, ?_⟩
    simp only [Bytes.handled]
    obtain ⟨hl, hr⟩ := hpc
    cases hx : s.rx.resp with
    | none => rw [hx] at hr; cases hr
    | some r =>
      simp only []
      split
      · exact hl
      · split
        · exact hl
        · exact ⟨hl, by rw [hx]; rfl⟩
  | call c len =>
    rw [hc] at hpc
    simp only []
    split
    · exact ⟨hrx, trivial⟩
    · exact ⟨hrx, hpc⟩
  | inCb c len i =>
    rw [hc] at hpc
    simp only []
    unfold Bytes.callback
    obtain ⟨l, hl⟩ := mapM_isSome (f := itemContents s.rx.buf) (l := s.items)
      (fun x hx => itemContents_isSome hrx (items_in hrx x hx))
    rw [hl]
    exact ⟨hrx, hpc.1⟩
  | send c len st => rw [hc] at hpc; exact ⟨hrx, hpc⟩
  | free c len => rw [hc] at hpc; exact ⟨⟨hrx.len, hrx.last, by simp, hrx.data⟩, hpc⟩
  | undef c len =>
    rw [hc] at hpc
    simp only []
    obtain ⟨line, hline, hle⟩ := bytes_read hpc
    unfold Bytes.undef
    rw [hline]
    simp only []
    split
    · exact ⟨hrx, hpc⟩
    · exact ⟨hrx, hpc⟩
  | undefFail c len =>
    have hcl := hrx.clean
    refine ⟨⟨hcl.len, hcl.last, by simp, hcl.data⟩, ?_⟩
    simp [PcIn, PosIn, cleanBuf]
  | after c len st t =>
    rw [hc] at hpc
    simp only []
    unfold Bytes.after
    simp only []
    rw [if_neg (by simp [hrx.data])]
    obtain ⟨p', n', s', e', g1, g2, g3, g4⟩ := getNextLine_inv hrx (Nat.le_refl cfg.size) hpc.1 hpc.2.1 st t
    rw [e']
    exact ⟨g1, g3⟩
  | crashed => exact ⟨hrx, by rw [hc]; trivial⟩
  | bad => rw [hc] at hpc; exact hpc.elim

theorem binv_init (cfg : Cfg) : BInv cfg (Bytes.init cfg.size) := by
  have h := rxInv_init cfg
  exact ⟨h.1, h.2⟩

theorem binv_step {cfg : Cfg} {fn : Fns} (hf : FnsInText cfg fn) {comm : Bool} {s s' : Bytes.St} (h : BInv cfg s)
    (hs : Bytes.Step cfg fn comm s s') : BInv cfg s' := by
  cases hs with
  | thr t ht => exact ⟨h.rx, h.pc⟩
  | rx _ chunk v hr => exact next_binv hf h v hr

theorem binv_reachable {cfg : Cfg} {fn : Fns} (hf : FnsInText cfg fn) {comm : Bool} {s : Bytes.St}
    (h : Bytes.Reachable cfg fn comm s) : BInv cfg s := by
  induction h with
  | init => exact binv_init cfg
  | step _ hs ih => exact binv_step hf ih hs

/-- C82: whatever requests any number of threads make, whatever the modem sends and however everything is interleaved - also if commands
time out, change or complete in the middle of a line -, receiving accesses only the receive buffer and the objects of the library. -/
theorem C82_memory_safe {cfg : Cfg} {fn : Fns} (hf : FnsInText cfg fn) {comm : Bool} {s : Bytes.St}
    (h : Bytes.Reachable cfg fn comm s) : s.pc ≠ .bad := by
  intro e
  have := (binv_reachable hf h).pc
  rw [e] at this
  exact this

end Cellular.Props
