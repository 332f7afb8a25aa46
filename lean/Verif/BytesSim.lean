import Verif.BytesProps
import Verif.ConcProps
/-!
# Concurrent requests over the byte stream: the receive task refines that of `Verif.Conc` (C82)

Every execution over the byte stream corresponds to an execution of the model with complete lines, as long as the buffer does not
overflow; and the lines are those of the stream.
-/

namespace Cellular.Props
open Cellular Cellular.Spec
open Cellular.Pktio (Cur CmdType MsgType Item Resp Cfg getMsgType processLine processIntermediate cleanBuf readPos room skipEol preprocessInput
  preprocessLine findLine handleData getNextLine itemContents put slice isEol)
open Cellular.Bytes (Pc Fns)

/-! ## The corresponding state -/

/-- The place of the receive task in the model with lines: `n` is the line in hand, `r` the response. -/
def absRx (n : Nat) (r : Resp) : Pc → Conc.Rx
  | .wait => .idle
  | .top _ => .idle
  | .pre _ _ _ => .idle
  | .classify _ _ => .classify n
  | .classify2 _ _ on => .classify2 n on
  | .proc _ _ => .proc n
  | .proc2 _ _ t => .proc2 n t
  | .done _ _ => .done r
  | .handle _ _ => .handle r
  | .call _ _ => .call r
  | .inCb _ _ i => .inCb i r
  | .send _ _ st => .send st
  | .free _ _ => .free
  | .undef _ _ => .undef n
  | .undefFail _ _ => .undefFail
  | .after _ _ _ _ => .idle
  | .crashed => .crashed
  | .bad => .crashed

/-- The response with line numbers in place of offsets. -/
def absResp (s : Bytes.St) : Option Resp := s.rx.resp.map (fun r => ⟨r.status, s.nums.map .line⟩)

/-- The corresponding state of the model with lines. -/
def absSt (s : Bytes.St) : Conc.St :=
  { s.sh with rx := absRx s.cur ((absResp s).getD ⟨false, []⟩) s.pc, resp := absResp s }

/-- Where the collected lines end. -/
def baseOf (rx : Pktio.St) : Pc → Nat
  | .wait => rx.readPtr.getD 0
  | .top c => c.p
  | .pre c _ _ => c.p
  | .classify c _ => c.p
  | .classify2 c _ _ => c.p
  | .proc c _ => c.p
  | .proc2 c _ _ => c.p
  | .done c len => c.p + (len + 1)
  | .handle c len => c.p + (len + 1)
  | .call c len => c.p + (len + 1)
  | .inCb c len _ => c.p + (len + 1)
  | .send c len _ => c.p + (len + 1)
  | .free c len => c.p + (len + 1)
  | .undef c len => c.p + (len + 1)
  | .undefFail c len => c.p + (len + 1)
  | .after c len _ _ => c.p + (len + 1)
  | .crashed => rx.buf.length
  | .bad => 0

/-- Where the text not yet looked at is. -/
def restAt (rx : Pktio.St) : Pc → Nat × Nat
  | .wait => (rx.readPtr.getD 0, rx.partialLen)
  | .top c => (c.p, c.n)
  | .pre c _ _ => (c.p, c.n)
  | .classify c len => (c.p + (len + 1), c.n - (len + 1))
  | .classify2 c len _ => (c.p + (len + 1), c.n - (len + 1))
  | .proc c len => (c.p + (len + 1), c.n - (len + 1))
  | .proc2 c len _ => (c.p + (len + 1), c.n - (len + 1))
  | .done c len => (c.p + (len + 1), c.n - (len + 1))
  | .handle c len => (c.p + (len + 1), c.n - (len + 1))
  | .call c len => (c.p + (len + 1), c.n - (len + 1))
  | .inCb c len _ => (c.p + (len + 1), c.n - (len + 1))
  | .send c len _ => (c.p + (len + 1), c.n - (len + 1))
  | .free c len => (c.p + (len + 1), c.n - (len + 1))
  | .undef c len => (c.p + (len + 1), c.n - (len + 1))
  | .undefFail c len => (c.p + (len + 1), c.n - (len + 1))
  | .after c len _ _ => (c.p + (len + 1), c.n - (len + 1))
  | .crashed => (0, 0)
  | .bad => (0, 0)

/-- The text not yet looked at. -/
def restText (s : Bytes.St) : Str := txt s.rx.buf (restAt s.rx s.pc).1 (restAt s.rx s.pc).2

/-- The line in hand, where it is still needed: its offset and length. -/
def inHand : Pc → Option (Nat × Nat)
  | .classify c len => some (c.p, len)
  | .classify2 c len _ => some (c.p, len)
  | .proc c len => some (c.p, len)
  | .proc2 c len _ => some (c.p, len)
  | .undef c len => some (c.p, len)
  | _ => none

/-- The number of a line an item stands for. -/
def lineNo : Item → Nat
  | .line n => n
  | .data n _ => n

/-- The callbacks that ran: request and line numbers. -/
def calledWith : Conc.Ev → Option (Nat × List Nat)
  | .callback i items _ => some (i, items.map lineNo)
  | _ => none

/-- Text and history. -/
structure TInv (s : Bytes.St) : Prop where
  items : List.Forall₂ (ItemAt s.rx.buf (baseOf s.rx s.pc)) s.items (s.nums.map s.sh.line)
  nums : ∀ n ∈ s.nums, n < s.sh.received.length
  line : ∀ p len, inHand s.pc = some (p, len) → s.sh.received ≠ [] ∧ LineAt s.rx.buf p (s.sh.line s.cur) ∧
    (s.sh.line s.cur).length = len
  noEol : s.pc = .wait → NoEol (restText s)
  start : ∀ c r d, s.pc = .pre c r d → r = none ∧ d = none ∧ ∃ b, (txt s.rx.buf c.p c.n).head? = some b ∧ ¬ LineEnd b
  stream : s.lost = false → s.pc ≠ .crashed → linesOf s.stream = s.sh.received ++ (linesFrom [] (restText s)).1 ∧
    unfinished s.stream = (linesFrom [] (restText s)).2
  given : s.given = (s.sh.log.filterMap calledWith).map (fun e => (e.1, e.2.map s.sh.line))
  known : ∀ e ∈ s.sh.log.filterMap calledWith, ∀ n ∈ e.2, n < s.sh.received.length
  freed : ∀ c len, s.pc = .after c len .ok .solicited → s.rx.resp = none ∧ s.nums = []

/-- No request uses a prefix callback. -/
def NoPrefix (reqs : List Conc.Req) : Prop :=
  ∀ r ∈ reqs, r.kind ≠ .dataRecv true ∧ ∀ d, r.kind ≠ .dataSend d true

/-! ## Threads -/

structure ThrKeeps (s s' : Conc.St) : Prop where
  received : s'.received = s.received
  reqs : ∃ l, s'.reqs = s.reqs ++ l
  log : s'.log.filterMap calledWith = s.log.filterMap calledWith
  rx : s'.rx = s.rx
  resp : s'.resp = s.resp

theorem thr_keeps {comm : Bool} {t : Nat} {s s' : Conc.St} (h : Conc.ThrStep comm t s s') : ThrKeeps s s' := by
  cases h with
  | call r _ => exact ⟨rfl, ⟨_, rfl⟩, rfl, rfl, rfl⟩
  | _ => exact ⟨rfl, ⟨[], by simp [Conc.St.set, Conc.St.emit]⟩,
      by simp [Conc.St.set, Conc.St.emit, List.filterMap_append, List.filterMap_cons, calledWith], rfl, rfl⟩

/-- A step of a thread does not look at the receive task. -/
theorem thr_other {comm : Bool} {t : Nat} {s s' : Conc.St} (h : Conc.ThrStep comm t s s') (rx : Conc.Rx) (resp : Option Resp) :
    Conc.ThrStep comm t { s with rx := rx, resp := resp } { s' with rx := rx, resp := resp } := by
  cases h with
  | call r h => exact .call (s := { s with rx := rx, resp := resp }) r h
  | acquire i r h hm => exact .acquire (s := { s with rx := rx, resp := resp }) i r h hm
  | install i r h => exact .install (s := { s with rx := rx, resp := resp }) i r h
  | raw0null i r h hc => exact .raw0null (s := { s with rx := rx, resp := resp }) i r h hc
  | raw0 i r text h hc => exact .raw0 (s := { s with rx := rx, resp := resp }) i r text h hc
  | raw1fail i r text e h hc he => exact .raw1fail (s := { s with rx := rx, resp := resp }) i r text e h hc he
  | raw1 i r text p h hc he => exact .raw1 (s := { s with rx := rx, resp := resp }) i r text p h hc he
  | raw2 i r text h hc => exact .raw2 (s := { s with rx := rx, resp := resp }) i r text h hc
  | raw3got i r st h hq => exact .raw3got (s := { s with rx := rx, resp := resp }) i r st h hq
  | raw3timeout i r h hq => exact .raw3timeout (s := { s with rx := rx, resp := resp }) i r h hq
  | raw4 i r st h => exact .raw4 (s := { s with rx := rx, resp := resp }) i r st h
  | uninstall i r st h => exact .uninstall (s := { s with rx := rx, resp := resp }) i r st h
  | data0null i d h hd => exact .data0null (s := { s with rx := rx, resp := resp }) i d h hd
  | data0 i d b h hd hp => exact .data0 (s := { s with rx := rx, resp := resp }) i d b h hd hp
  | data1 i d b n h hn => exact .data1 (s := { s with rx := rx, resp := resp }) i d b n h hn
  | data1short i d b n h hn => exact .data1short (s := { s with rx := rx, resp := resp }) i d b n h hn
  | data2 i d n e m h hm => exact .data2 (s := { s with rx := rx, resp := resp }) i d n e m h hm
  | data2short i d n e m h hm => exact .data2short (s := { s with rx := rx, resp := resp }) i d n e m h hm
  | data3got i n st h hq => exact .data3got (s := { s with rx := rx, resp := resp }) i n st h hq
  | data3timeout i n h hq => exact .data3timeout (s := { s with rx := rx, resp := resp }) i n h hq
  | data4 i n st h => exact .data4 (s := { s with rx := rx, resp := resp }) i n st h
  | release i st sent h => exact .release (s := { s with rx := rx, resp := resp }) i st sent h

/-! ## Reading -/

theorem readPos_text {cfg : Cfg} {s : Pktio.St} {lines : List Str} {cur : Str} (h : RxInv cfg s)
    (hi : List.Forall₂ (ItemAt s.buf (s.readPtr.getD 0)) (s.resp.getD ⟨false, []⟩).items lines)
    (ht : txt s.buf (s.readPtr.getD 0) s.partialLen = cur) :
    ∃ s' p pr e, readPos cfg s = some (s', p, pr, e) ∧ s'.resp = s.resp ∧ s'.partialLen = s.partialLen ∧ s'.readPtr.getD 0 = p ∧
      List.Forall₂ (ItemAt s'.buf p) (s.resp.getD ⟨false, []⟩).items lines ∧ txt s'.buf p s'.partialLen = cur := by
  obtain ⟨h, hpos⟩ := h
  unfold PosIn at hpos
  unfold readPos
  cases hr : s.readPtr with
  | none =>
    simp only [hr, Option.getD_none] at hi ht
    exact ⟨_, _, _, _, rfl, rfl, rfl, by simp [hr], hi, ht⟩
  | some q =>
    simp only [hr, Option.getD_some] at hpos hi ht
    simp only []
    split
    · rename_i hc
      have hl := h.len
      have hs : slice s.buf q s.partialLen = some (txt s.buf q s.partialLen) := slice_some (by omega)
      rw [hs]
      simp only []
      have htl : (txt s.buf q s.partialLen).length = s.partialLen := txt_length (by omega)
      obtain ⟨m, em, h1, h2⟩ := put_some (m := s.buf) (p := 0) (t := txt s.buf q s.partialLen) (by omega)
      rw [em]
      simp only []
      rw [wr_some (by omega)]
      refine ⟨_, _, _, _, rfl, rfl, rfl, rfl, ?_, ?_⟩
      · rw [hc.2.2] at hi ⊢
        simp only [Option.getD_none] at hi ⊢
        cases hi
        exact .nil
      · have := txt_put em
        rw [htl, ht] at this
        rw [txt_congr (m := m) ?_]
        · exact this
        · intro k _ hk
          simp only [Nat.zero_add] at hk
          exact List.getElem?_set_ne (by omega)
    · exact ⟨_, _, _, _, rfl, rfl, rfl, by simp [hr], hi, ht⟩

theorem forall₂_items_congr {m m' : Mem} {b b' : Nat} {its : List Item} {lines : List Str} (h : List.Forall₂ (ItemAt m b) its lines)
    (hb : b ≤ b') (hm : ∀ i, i < b → m'[i]? = m[i]?) : List.Forall₂ (ItemAt m' b') its lines := by
  have h1 : ItemsAt m b (some ⟨false, its⟩) lines := ⟨rfl, h⟩
  exact (h1.congr hb hm).2

/-- One read, up to the line loop: what is collected stays, and the text is what was left followed by what was read. -/
theorem enter_text {cfg : Cfg} {s : Pktio.St} {lines : List Str} {cur chunk : Str} (h : RxInv cfg s)
    (hi : List.Forall₂ (ItemAt s.buf (s.readPtr.getD 0)) (s.resp.getD ⟨false, []⟩).items lines)
    (ht : txt s.buf (s.readPtr.getD 0) s.partialLen = cur) (hroom : chunk.length ≤ room cfg s)
    (hov : ¬ (room cfg s = 0 ∧ (s.partialLen ≠ 0 ∨ (s.resp.getD ⟨false, []⟩).items ≠ []))) :
    ∃ n s' oc, rxEnter cfg s chunk = some (n, s', oc) ∧ s'.resp = s.resp ∧
      (oc = none → chunk = [] ∧ List.Forall₂ (ItemAt s'.buf (s'.readPtr.getD 0)) (s.resp.getD ⟨false, []⟩).items lines ∧
        txt s'.buf (s'.readPtr.getD 0) s'.partialLen = cur) ∧
      (∀ c, oc = some c → List.Forall₂ (ItemAt s'.buf c.p) (s.resp.getD ⟨false, []⟩).items lines ∧
        txt s'.buf c.p c.n = cur ++ chunk) := by
  obtain ⟨s1, p, pr, em, er, h1, c1, hpl, hpr, hpe, _⟩ := readPos_inv h
  obtain ⟨s1', p', pr', em', er', hresp, hplen, hrp, hit, htx⟩ := readPos_text h hi ht
  rw [er] at er'
  cases er'
  rw [room_eq er] at hroom
  unfold rxEnter
  rw [er]
  simp only []
  by_cases hem : em > 0
  · rw [if_pos hem]
    by_cases hch : chunk = []
    · rw [if_pos hch]
      refine ⟨_, _, _, rfl, hresp, fun _ => ⟨hch, ?_, ?_⟩, by simp⟩
      · rw [hrp]; exact hit
      · rw [hrp]; exact htx
    · rw [if_neg hch]
      have hl := h1.1.len
      have hpos : pr + chunk.length ≤ cfg.size := by omega
      obtain ⟨m, emm, hm1, hm2⟩ := put_some (m := s1.buf) (p := pr) (t := chunk ++ [0]) (by simp; omega)
      rw [emm]
      simp only []
      rw [if_neg (by simp [h1.1.data])]
      simp only []
      have hlen0 : 0 < chunk.length := List.length_pos_iff.mpr hch
      rw [if_pos (by omega), wr_some (by omega)]
      generalize hm' : m.set (p + (chunk.length + s1.partialLen)) 0 = m'
      have hm'o : ∀ x, x ≠ p + (chunk.length + s1.partialLen) → m'[x]? = m[x]? := by
        intro x hx; rw [← hm', List.getElem?_set_ne (by omega)]
      refine ⟨_, _, _, rfl, hresp, by simp, ?_⟩
      rintro c hc
      cases hc
      simp only []
      constructor
      · refine forall₂_items_congr hit (Nat.le_refl _) ?_
        intro x hx
        rw [hm'o x (by omega), hm2 x (Or.inl (by omega))]
      · rw [Nat.add_comm, txt_append]
        congr 1
        · rw [← htx]
          apply txt_congr
          intro x hx1 hx2
          rw [hm'o x (by omega), hm2 x (Or.inl (by omega))]
        · have hp2 := txt_put emm
          have : txt m pr chunk.length = chunk := by
            have h5 := txt_take m pr (chunk ++ [0]).length chunk.length (by simp)
            rw [hp2] at h5
            rw [← h5]
            simp
          rw [show p + s1.partialLen = pr by omega]
          conv => rhs; rw [← this]
          apply txt_congr
          intro x hx1 hx2
          exact hm'o x (by omega)
  · rw [if_neg hem]
    have hr0 : room cfg s = 0 := by rw [room_eq er]; omega
    have hch : chunk = [] := List.length_eq_zero_iff.mp (by omega)
    have hpl0 : s.partialLen = 0 := Classical.byContradiction fun hx => hov ⟨hr0, Or.inl hx⟩
    have hits : (s.resp.getD ⟨false, []⟩).items = [] := Classical.byContradiction fun hx => hov ⟨hr0, Or.inr hx⟩
    refine ⟨_, _, _, rfl, hresp, fun _ => ⟨hch, ?_, ?_⟩, by simp⟩
    · rw [hits] at hi ⊢
      cases hi
      exact .nil
    · rw [← ht, hpl0]
      simp [txt]

/-! ## The steps of the receive task -/

/-- A step of the receive task of the model with lines. -/
inductive RxOnly (cfg : Cfg) (a b : Conc.St) : Prop
  | rx (h : Conc.RxStep cfg a b) : RxOnly cfg a b

/-- The states the receive task of the model with lines reaches by itself. -/
inductive RxFrom (cfg : Cfg) (comm : Bool) (o : Conc.St) : Conc.St → Prop
  | refl : RxFrom cfg comm o o
  | step {a b : Conc.St} (h : RxFrom cfg comm o a) (hs : RxOnly cfg a b) : RxFrom cfg comm o b

theorem RxFrom.reachable {cfg : Cfg} {comm : Bool} {o a : Conc.St} (ho : Conc.Reachable cfg comm o) (h : RxFrom cfg comm o a) :
    Conc.Reachable cfg comm a := by
  induction h with
  | refl => exact ho
  | step _ hs ih => cases hs with | rx h => exact .step ih (.rx h)


/-- The step keeps the invariant and corresponds to steps of the model with lines. -/
def Good (cfg : Cfg) (comm : Bool) (s s' : Bytes.St) : Prop :=
  TInv s' ∧ (RxFrom cfg comm (absSt s) (absSt s) → RxFrom cfg comm (absSt s) (absSt s'))

theorem reach_of {cfg : Cfg} {comm : Bool} {o a b : Conc.St} (h : RxFrom cfg comm o a) (e : a = b) : RxFrom cfg comm o b := e ▸ h

theorem good_enter {cfg : Cfg} {comm : Bool} {s : Bytes.St} (hb : BInv cfg s) (ht : TInv s) (hpc : s.pc = .wait) {chunk : Str}
    (hroom : chunk.length ≤ room cfg s.rx) (ho : (Bytes.enter cfg chunk s).overflowed = false) :
    Good cfg comm s (Bytes.enter cfg chunk s) := by
  obtain ⟨sh, rx0, pc, nums, stream, given, lost, ov⟩ := s
  simp only at hpc hroom
  subst hpc
  have hpos : PosIn cfg.size rx0 := hb.pc
  have hi : List.Forall₂ (ItemAt rx0.buf (rx0.readPtr.getD 0)) (rx0.resp.getD ⟨false, []⟩).items (nums.map sh.line) := ht.items
  have hov : ¬ (room cfg rx0 = 0 ∧ (rx0.partialLen ≠ 0 ∨ (rx0.resp.getD ⟨false, []⟩).items ≠ [])) := by
    intro hx
    have : (Bytes.enter cfg chunk ⟨sh, rx0, .wait, nums, stream, given, lost, ov⟩).overflowed = (ov || true) := by
      unfold Bytes.enter
      simp only []
      split <;> exact congrArg (ov || ·) (decide_eq_true hx)
    rw [this] at ho
    simp at ho
  obtain ⟨n, rx, oc, e, hresp, hA, hB⟩ := enter_text ⟨hb.rx, hpos⟩ hi rfl hroom hov
  have hne : NoEol (txt rx0.buf (rx0.readPtr.getD 0) rx0.partialLen) := ht.noEol rfl
  unfold Bytes.enter
  simp only []
  rw [e]
  generalize (ov || decide (room cfg rx0 = 0 ∧ (rx0.partialLen ≠ 0 ∨ (⟨sh, rx0, .wait, nums, stream, given, lost, ov⟩ : Bytes.St).items ≠ []))) = ov'
  cases oc with
  | none =>
    obtain ⟨hch, h1, h2⟩ := hA rfl
    subst hch
    simp only [List.append_nil]
    rw [← hresp] at h1
    refine ⟨⟨h1, ht.nums, nofun, ?_, nofun, ?_, ht.given, ht.known, nofun⟩, ?_⟩
    · intro _
      show NoEol (txt rx.buf (rx.readPtr.getD 0) rx.partialLen)
      rw [h2]
      exact hne
    · intro hl hc
      show linesOf stream = sh.received ++ (linesFrom [] (txt rx.buf (rx.readPtr.getD 0) rx.partialLen)).1 ∧
        unfinished stream = (linesFrom [] (txt rx.buf (rx.readPtr.getD 0) rx.partialLen)).2
      rw [h2]
      exact ht.stream hl hc
    · intro h
      unfold absSt absResp at h ⊢
      simp only [hresp] at h ⊢
      exact h
  | some c =>
    obtain ⟨h1, h2⟩ := hB c rfl
    simp only []
    rw [← hresp] at h1
    refine ⟨⟨h1, ht.nums, nofun, nofun, nofun, ?_, ht.given, ht.known, nofun⟩, ?_⟩
    · intro hl hc
      obtain ⟨h3, h4⟩ := ht.stream hl nofun
      show linesOf (stream ++ chunk) = sh.received ++ (linesFrom [] (txt rx.buf c.p c.n)).1 ∧
        unfinished (stream ++ chunk) = (linesFrom [] (txt rx.buf c.p c.n)).2
      rw [h2]
      generalize hcur : txt rx0.buf (rx0.readPtr.getD 0) rx0.partialLen = cur at *
      have hrt : restText ⟨sh, rx0, .wait, nums, stream, given, lost, ov⟩ = cur := hcur
      rw [hrt] at h3 h4
      rw [linesFrom_noEol' hne] at h3 h4
      simp only [List.append_nil] at h3 h4
      have h6 : linesFrom [] (cur ++ chunk) = linesFrom cur chunk := by
        rw [linesFrom_noEol hne]; rfl
      unfold linesOf unfinished at *
      rw [linesFrom_append, h6, h3, h4]
      exact ⟨rfl, rfl⟩
    · intro h
      unfold absSt absResp at h ⊢
      simp only [hresp] at h ⊢
      exact h

theorem good_top {cfg : Cfg} {comm : Bool} {s : Bytes.St} (hin : cfg.inputCb = none) (hb : BInv cfg s) (ht : TInv s) {c : Cur}
    (hpc : s.pc = .top c) (hr : s.sh.recvCb = none) (hs : s.sh.sendCb = none) : Good cfg comm s (Bytes.top cfg c s) := by
  obtain ⟨sh, rx, pc, nums, stream, given, lost, ov⟩ := s
  simp only at hpc hr hs
  subst hpc
  have hpos : c.p + c.n ≤ cfg.size := hb.pc
  have hl : rx.buf.length = cfg.size + 1 := hb.rx.len
  have hi : List.Forall₂ (ItemAt rx.buf c.p) (rx.resp.getD ⟨false, []⟩).items (nums.map sh.line) := ht.items
  generalize hT : txt rx.buf c.p c.n = t
  have htl : t.length = c.n := by rw [← hT]; exact txt_length (by omega)
  generalize hj : (t.takeWhile isEol).length = j
  have hskip : skipEol rx.buf c.p c.n = some (c.p + j, c.n - j) := by
    rw [skipEol_eq rx.buf c.n c.p (by omega), hT, hj]
  have ht1 : t.dropWhile isEol = txt rx.buf (c.p + j) (c.n - j) := by
    rw [dropWhile_eq_drop, hj, ← hT, txt_drop]
  have hlin : linesFrom [] (txt rx.buf c.p c.n) = linesFrom [] (txt rx.buf (c.p + j) (c.n - j)) := by
    rw [← ht1, linesFrom_skip, hT]
  have hjn : j ≤ c.n := by
    rw [← hj, ← htl]; exact (List.takeWhile_sublist _).length_le
  have hpi : preprocessInput cfg rx (c.p + j) (c.n - j) = some (true, rx, c.p + j, c.n - j) := by
    simp [preprocessInput, hin]
  have hstr : lost = false → linesOf stream = sh.received ++ (linesFrom [] (txt rx.buf (c.p + j) (c.n - j))).1 ∧
      unfinished stream = (linesFrom [] (txt rx.buf (c.p + j) (c.n - j))).2 := by
    intro hlo
    rw [← hlin]
    exact ht.stream hlo nofun
  have hi' : List.Forall₂ (ItemAt rx.buf (c.p + j)) (rx.resp.getD ⟨false, []⟩).items (nums.map sh.line) :=
    forall₂_items_congr hi (by omega) (fun _ _ => rfl)
  unfold Bytes.top
  simp only []
  rw [hskip]
  simp only []
  rw [hpi]
  have hlog : ({ sh with log := sh.log ++ Conc.fetchedBy sh.recvCb ++ Conc.fetchedBy sh.sendCb } : Conc.St) = sh := by
    rw [show Conc.fetchedBy sh.recvCb = [] by rw [hr]; rfl, show Conc.fetchedBy sh.sendCb = [] by rw [hs]; rfl, List.append_nil,
      List.append_nil]
  simp only []
  rw [hlog]
  by_cases hn : c.n - j = 0
  · rw [if_pos hn]
    rw [hn] at hstr
    refine ⟨⟨hi', ht.nums, nofun, ?_, nofun, ?_, ht.given, ht.known, nofun⟩, fun h => h⟩
    · intro _ b hbm
      exact absurd hbm (by simp [restText, restAt, txt])
    · intro hlo _
      exact hstr hlo
  · rw [if_neg hn]
    refine ⟨⟨hi', ht.nums, nofun, nofun, ?_, ?_, ht.given, ht.known, nofun⟩, fun h => h⟩
    · intro c' r d hh
      cases hh
      refine ⟨hr, hs, ?_⟩
      simp only []
      rw [← ht1]
      have h2 := List.head?_dropWhile_not isEol t
      cases hh : (t.dropWhile isEol).head? with
      | none =>
        have := List.head?_eq_none_iff.mp hh
        rw [ht1] at this
        have h3 := txt_length (m := rx.buf) (p := c.p + j) (n := c.n - j) (by omega)
        rw [this] at h3
        exact absurd h3.symm hn
      | some b =>
        rw [hh] at h2
        simp only at h2
        exact ⟨b, rfl, fun hx => by rw [(isEol_iff b).mpr hx] at h2; simp at h2⟩
    · intro hlo _
      exact hstr hlo

theorem good_pre {cfg : Cfg} {fn : Fns} {comm : Bool} {s : Bytes.St} (hb : BInv cfg s) (ht : TInv s) {c : Cur} {r d : Option Nat}
    (hpc : s.pc = .pre c r d) (hr : s.sh.recvCb = none) (hs : s.sh.sendCb = none) : Good cfg comm s (Bytes.pre cfg fn c r d s) := by
  obtain ⟨sh, rx, pc, nums, stream, given, lost, ov⟩ := s
  simp only at hpc hr hs
  subst hpc
  have hpos : c.p + c.n ≤ cfg.size := hb.pc
  have hl : rx.buf.length = cfg.size + 1 := hb.rx.len
  have hi : List.Forall₂ (ItemAt rx.buf c.p) (rx.resp.getD ⟨false, []⟩).items (nums.map sh.line) := ht.items
  obtain ⟨hr0, hd0, b, hhead, hnb⟩ := ht.start c r d rfl
  subst hr0
  subst hd0
  simp only at hhead
  have hn0 : c.n ≠ 0 := by
    intro h0
    rw [h0] at hhead
    simp [txt] at hhead
  unfold Bytes.pre
  simp only [Option.map_none, Bytes.calledBy, List.append_nil]
  generalize hrx : ({ rx with sendCb := none, dataCb := none } : Pktio.St) = rx1
  have hbuf : rx1.buf = rx.buf := by rw [← hrx]
  have hresp : rx1.resp = rx.resp := by rw [← hrx]
  have hpre : preprocessLine cfg rx1 c.p c.n c.sd = some (true, rx1, c.n, c.sd) := by
    rw [← hrx]; simp [preprocessLine, hn0]
  rw [hpre]
  simp only []
  have hstr : lost = false → linesOf stream = sh.received ++ (linesFrom [] (txt rx.buf c.p c.n)).1 ∧
      unfinished stream = (linesFrom [] (txt rx.buf c.p c.n)).2 := fun hlo => ht.stream hlo nofun
  have hsl : slice rx1.buf c.p c.n = some (txt rx.buf c.p c.n) := by rw [hbuf]; exact slice_some (by omega)
  have hTl : (txt rx.buf c.p c.n).length = c.n := txt_length (by omega)
  unfold findLine
  rw [hsl]
  simp only []
  cases hf : (txt rx.buf c.p c.n).findIdx? isEol with
  | none =>
    have hno := findIdx_none hf
    simp only []
    have hi1 : List.Forall₂ (ItemAt rx1.buf c.p) (rx1.resp.getD ⟨false, []⟩).items (nums.map sh.line) := by
      rw [hbuf, hresp]; exact hi
    refine ⟨⟨hi1, ht.nums, nofun, ?_, nofun, ?_, ht.given, ht.known, nofun⟩, ?_⟩
    · intro _
      show NoEol (txt rx1.buf c.p c.n)
      rw [hbuf]
      exact hno
    · intro hlo _
      show linesOf stream = sh.received ++ (linesFrom [] (txt rx1.buf c.p c.n)).1 ∧
        unfinished stream = (linesFrom [] (txt rx1.buf c.p c.n)).2
      rw [hbuf]
      exact hstr hlo
    · intro h
      unfold absSt absResp at h ⊢
      simp only [hresp] at h ⊢
      exact h
  | some i =>
    obtain ⟨e, hsplit, he, hno, hi0⟩ := findIdx_split hf
    rw [hTl] at hi0
    have hne : (txt rx.buf c.p c.n).take i ≠ [] := by
      intro h0
      rw [h0, List.nil_append] at hsplit
      rw [hsplit] at hhead
      simp at hhead
      exact hnb (hhead ▸ he)
    have htk : (txt rx.buf c.p c.n).take i = txt rx.buf c.p i := txt_take _ _ _ _ (by omega)
    have hdr : (txt rx.buf c.p c.n).drop (i + 1) = txt rx.buf (c.p + (i + 1)) (c.n - (i + 1)) := txt_drop _ _ _ _
    generalize hline : (txt rx.buf c.p c.n).take i = line at *
    have hll : line.length = i := by rw [← hline]; simp [hTl]; omega
    have hlf : linesFrom [] (txt rx.buf c.p c.n) =
        (line :: (linesFrom [] ((txt rx.buf c.p c.n).drop (i + 1))).1,
          (linesFrom [] ((txt rx.buf c.p c.n).drop (i + 1))).2) := by
      conv => lhs; rw [hsplit]
      exact linesFrom_line hno hne he _
    have hwr : wr rx1.buf (c.p + i) 0 = some (rx.buf.set (c.p + i) 0) := by rw [hbuf]; exact wr_some (by omega)
    simp only [hwr, Option.map_some]
    generalize hm : rx.buf.set (c.p + i) 0 = m
    have hmo : ∀ k, k ≠ c.p + i → m[k]? = rx.buf[k]? := by
      intro k hk
      rw [← hm, List.getElem?_set_ne (by omega)]
    have hLine : LineAt m c.p line := by
      refine ⟨hno.noNul, ?_, ?_⟩
      · rw [txt_congr (m := rx.buf) (fun k h1 h2 => hmo k (by omega)), hll, ← htk]
      · rw [hll, ← hm]; exact List.getElem?_set_self (by omega)
    rw [hLine.readStr]
    simp only []
    have hlast : ∀ (l : List Str), (sh.received ++ [line]).getD ((sh.received ++ [line]).length - 1) [] = line := by
      intro _
      simp
    have hold : ∀ n, n < sh.received.length → (sh.received ++ [line]).getD n [] = sh.received.getD n [] := by
      intro n hn
      simp [List.getD, List.getElem?_append_left hn]
    refine ⟨⟨?_, ?_, ?_, nofun, nofun, ?_, ?_, ?_, nofun⟩, ?_⟩
    · show List.Forall₂ (ItemAt m c.p) (rx1.resp.getD ⟨false, []⟩).items (nums.map (fun n => (sh.received ++ [line]).getD n []))
      rw [hresp, List.map_congr_left (g := sh.line) (fun n hn => hold n (ht.nums n hn))]
      exact forall₂_items_congr hi (Nat.le_refl _) (fun k hk => hmo k (by omega))
    · intro n hn
      have := ht.nums n hn
      simp only [List.length_append, List.length_cons, List.length_nil]
      simp only at this
      omega
    · intro p len hh
      cases hh
      refine ⟨by simp, ?_, ?_⟩
      · show LineAt m c.p ((sh.received ++ [line]).getD ((sh.received ++ [line]).length - 1) [])
        rw [hlast []]
        exact hLine
      · show ((sh.received ++ [line]).getD ((sh.received ++ [line]).length - 1) []).length = i
        rw [hlast []]
        exact hll
    · intro hlo _
      obtain ⟨h3, h4⟩ := hstr hlo
      have hrest : txt m (c.p + (i + 1)) (c.n - (i + 1)) = txt rx.buf (c.p + (i + 1)) (c.n - (i + 1)) :=
        txt_congr (fun k h1 h2 => hmo k (by omega))
      show linesOf stream = sh.received ++ [line] ++ (linesFrom [] (txt m (c.p + (i + 1)) (c.n - (i + 1)))).1 ∧
        unfinished stream = (linesFrom [] (txt m (c.p + (i + 1)) (c.n - (i + 1)))).2
      rw [hrest, ← hdr, h3, h4, hlf]
      simp
    · show given = ((sh.log ++ [Conc.Ev.recv sh.received.length]).filterMap calledWith).map
        (fun e => (e.1, e.2.map (fun n => (sh.received ++ [line]).getD n [])))
      rw [List.filterMap_append]
      simp only [List.filterMap_cons, calledWith, List.filterMap_nil, List.append_nil]
      rw [List.map_congr_left (g := fun e => (e.1, e.2.map sh.line))]
      · exact ht.given
      · intro x hx
        rw [List.map_congr_left (g := sh.line) (fun n hn => hold n (ht.known x hx n hn))]
    · show ∀ x ∈ (sh.log ++ [Conc.Ev.recv sh.received.length]).filterMap calledWith, ∀ n ∈ x.2, n < (sh.received ++ [line]).length
      rw [List.filterMap_append]
      simp only [List.filterMap_cons, calledWith, List.filterMap_nil, List.append_nil]
      intro x hx n hn
      have := ht.known x hx n hn
      simp only [List.length_append, List.length_cons, List.length_nil]
      simp only at this
      omega
    · intro h
      have s1 := RxFrom.step h (.rx (.receive _ line rfl))
      have s2 := RxFrom.step s1 (.rx (.fetch _ _ rfl))
      have e2 : ∀ (st : Conc.St) (n : Nat), st.recvCb = none → st.sendCb = none →
          ({ st with rx := .pre n st.recvCb st.sendCb, log := st.log ++ Conc.fetchedBy st.recvCb ++ Conc.fetchedBy st.sendCb } : Conc.St) =
          { st with rx := .pre n none none } := by
        intro st n h1 h2
        rw [show Conc.fetchedBy st.recvCb = [] by rw [h1]; rfl, show Conc.fetchedBy st.sendCb = [] by rw [h2]; rfl, List.append_nil,
          List.append_nil, h1, h2]
      have s2' := reach_of s2 (e2 _ _ hr hs)
      have s3 := RxFrom.step s2' (.rx (.preNone _ _ rfl))
      refine reach_of s3 ?_
      unfold absSt absResp absRx Bytes.St.cur
      simp only [hresp, List.length_append, List.length_cons, List.length_nil, Nat.add_sub_cancel]

/-- The place changes, and nothing of the text. -/
theorem TInv.move {s s' : Bytes.St} (ht : TInv s) (hrx : s'.rx = s.rx) (hnums : s'.nums = s.nums) (hst : s'.stream = s.stream)
    (hg : s'.given = s.given) (hlost : s'.lost = s.lost) (hrecv : s'.sh.received = s.sh.received)
    (hlog : s'.sh.log.filterMap calledWith = s.sh.log.filterMap calledWith) (hbase : baseOf s.rx s.pc ≤ baseOf s.rx s'.pc)
    (hrest : restAt s.rx s'.pc = restAt s.rx s.pc) (hin : inHand s'.pc = inHand s.pc ∨ inHand s'.pc = none) (hw : s'.pc ≠ .wait)
    (hp : ∀ c r d, s'.pc ≠ .pre c r d) (hcr : s.pc ≠ .crashed)
    (hfr : ∀ c len, s'.pc = .after c len .ok .solicited → s.rx.resp = none ∧ s.nums = []) : TInv s' := by
  obtain ⟨sh, rx, pc, nums, stream, given, lost, ov⟩ := s
  obtain ⟨sh', rx', pc', nums', stream', given', lost', ov'⟩ := s'
  simp only at *
  subst hrx hnums hst hg hlost
  have hline : sh'.line = sh.line := by funext n; simp [Conc.St.line, hrecv]
  refine ⟨?_, ?_, ?_, fun h => absurd h hw, fun c r d h => absurd h (hp c r d), ?_, ?_, ?_, hfr⟩
  · show List.Forall₂ (ItemAt rx'.buf (baseOf rx' pc')) _ (nums'.map sh'.line)
    rw [hline]
    exact forall₂_items_congr ht.items hbase (fun _ _ => rfl)
  · show ∀ n ∈ nums', n < sh'.received.length
    rw [hrecv]; exact ht.nums
  · intro p len hh
    rcases hin with hin | hin
    · have hh' : inHand pc = some (p, len) := by rw [← hin]; exact hh
      have := ht.line p len hh'
      simp only [Bytes.St.cur] at this ⊢
      rw [hline, hrecv]
      exact this
    · have hh' : inHand pc' = some (p, len) := hh
      rw [hin] at hh'
      cases hh'
  · intro hlo hc
    have := ht.stream hlo hcr
    simp only [restText] at this ⊢
    rw [hrest, hrecv]
    exact this
  · show given' = _
    simp only []
    rw [hlog, hline]
    exact ht.given
  · simp only []
    rw [hlog, hrecv]
    exact ht.known

theorem good_classify {cfg : Cfg} {comm : Bool} {s : Bytes.St} (hb : BInv cfg s) (ht : TInv s) {c : Cur} {len : Nat}
    (hpc : s.pc = .classify c len) : Good cfg comm s { s with pc := .classify2 c len s.sh.pfxOn } := by
  obtain ⟨sh, rx, pc, nums, stream, given, lost, ov⟩ := s
  simp only at hpc
  subst hpc
  refine ⟨ht.move rfl rfl rfl rfl rfl rfl rfl (Nat.le_refl _) rfl (Or.inl rfl) nofun nofun nofun nofun, fun h => ?_⟩
  exact reach_of (.step h (.rx (.readPrefix _ _ rfl))) rfl

/-- The way to go on after classification. -/
def clsOf (n : Nat) : MsgType → Conc.Rx
  | .unsolicited => .idle
  | .solicited => .proc n
  | .undefined => .undef n

theorem good_classify2 {cfg : Cfg} (hu : ∀ l, (cfg.urcEdit l).length ≤ l.length) {comm : Bool} {s : Bytes.St} (hb : BInv cfg s)
    (ht : TInv s) {c : Cur} {len : Nat} {on : Bool} (hpc : s.pc = .classify2 c len on) : Good cfg comm s (Bytes.classify cfg c len on s) := by
  obtain ⟨sh, rx, pc, nums, stream, given, lost, ov⟩ := s
  simp only at hpc
  subst hpc
  obtain ⟨h0, hL, hlen⟩ := ht.line c.p len rfl
  have hbp : LineIn cfg rx c len := hb.pc
  obtain ⟨hb1, hb2, hb3⟩ := hbp
  have hl : rx.buf.length = cfg.size + 1 := hb.rx.len
  unfold Bytes.classify
  simp only []
  rw [show readStr rx.buf c.p = some (sh.line (sh.received.length - 1)) from hL.readStr]
  simp only []
  generalize hg : getMsgType cfg sh.cmd (if on = true then some sh.pfxBuf else none) (sh.line (sh.received.length - 1)) = g
  have hcls : Conc.classified cfg (absSt ⟨sh, rx, .classify2 c len on, nums, stream, given, lost, ov⟩)
      (sh.received.length - 1) on = clsOf (sh.received.length - 1)
        (getMsgType cfg sh.cmd (if on = true then some sh.pfxBuf else none) (sh.line (sh.received.length - 1))) := by
    unfold Conc.classified clsOf
    rfl
  have hcl : ∀ b, b = Conc.classified cfg (absSt ⟨sh, rx, .classify2 c len on, nums, stream, given, lost, ov⟩)
      (sh.received.length - 1) on → RxFrom cfg comm (absSt ⟨sh, rx, .classify2 c len on, nums, stream, given, lost, ov⟩) (absSt ⟨sh, rx, .classify2 c len on, nums, stream, given, lost, ov⟩) →
      RxFrom cfg comm (absSt ⟨sh, rx, .classify2 c len on, nums, stream, given, lost, ov⟩) { absSt ⟨sh, rx, .classify2 c len on, nums, stream, given, lost, ov⟩ with rx := b } := by
    intro b hb h
    rw [hb]
    exact .step h (.rx (.classify _ _ _ rfl))
  cases g with
  | unsolicited =>
    have hul := hu (sh.line (sh.received.length - 1))
    have hlen' : (sh.line (sh.received.length - 1)).length = len := hlen
    obtain ⟨m, em, hm1, hm2⟩ := put_some (m := rx.buf) (p := c.p) (t := cfg.urcEdit (sh.line (sh.received.length - 1))) (by omega)
    rw [em]
    simp only []
    refine ⟨⟨?_, ht.nums, nofun, nofun, nofun, ?_, ht.given, ht.known, nofun⟩, fun h => ?_⟩
    · exact forall₂_items_congr (b := c.p) ht.items (show c.p ≤ c.p + (len + 1) by omega) (fun i hi => hm2 i (Or.inl hi))
    · intro hlo _
      have := ht.stream hlo nofun
      have e : restText ⟨sh, { rx with buf := m }, .after c len .ok .unsolicited, nums, stream, given, lost, ov⟩ =
          restText ⟨sh, rx, .classify2 c len on, nums, stream, given, lost, ov⟩ := by
        unfold restText restAt
        simp only []
        exact txt_congr (fun i h1 h2 => hm2 i (Or.inr (by omega)))
      rw [e]
      exact this
    · refine hcl .idle ?_ h
      exact (hcls.trans (congrArg (clsOf _) hg)).symm
  | solicited =>
    refine ⟨ht.move rfl rfl rfl rfl rfl rfl rfl (Nat.le_refl _) rfl (Or.inl rfl) nofun nofun nofun nofun, fun h => ?_⟩
    refine hcl (.proc _) ?_ h
    exact (hcls.trans (congrArg (clsOf _) hg)).symm
  | undefined =>
    refine ⟨ht.move rfl rfl rfl rfl rfl rfl rfl (show c.p ≤ c.p + (len + 1) by omega) rfl (Or.inl rfl) nofun nofun nofun nofun, fun h => ?_⟩
    refine hcl (.undef _) ?_ h
    exact (hcls.trans (congrArg (clsOf _) hg)).symm

theorem good_proc {cfg : Cfg} {comm : Bool} {s : Bytes.St} (ht : TInv s) {c : Cur} {len : Nat}
    (hpc : s.pc = .proc c len) : Good cfg comm s { s with pc := .proc2 c len s.sh.cmd } := by
  obtain ⟨sh, rx, pc, nums, stream, given, lost, ov⟩ := s
  simp only at hpc
  subst hpc
  refine ⟨ht.move rfl rfl rfl rfl rfl rfl rfl (Nat.le_refl _) rfl (Or.inl rfl) nofun nofun nofun nofun, fun h => ?_⟩
  exact reach_of (.step h (.rx (.readType _ _ rfl))) rfl

theorem processLine_pair {cfg : Cfg} {line : Str} {it1 it2 : Item} {r1 r2 : Resp} {t : CmdType} (hs : r1.status = r2.status)
    (he : r1.items = [] ↔ r2.items = []) :
    (processLine cfg line it1 r1 t).1 = (processLine cfg line it2 r2 t).1 ∧
    (processLine cfg line it1 r1 t).2.status = (processLine cfg line it2 r2 t).2.status ∧
    (((processLine cfg line it1 r1 t).2.items = r1.items ∧ (processLine cfg line it2 r2 t).2.items = r2.items) ∨
     ((processLine cfg line it1 r1 t).2.items = r1.items ++ [it1] ∧ (processLine cfg line it2 r2 t).2.items = r2.items ++ [it2])) := by
  unfold processLine
  split
  · split
    · exact ⟨rfl, rfl, Or.inl ⟨rfl, rfl⟩⟩
    · split
      · exact ⟨rfl, rfl, Or.inl ⟨rfl, rfl⟩⟩
      · unfold processIntermediate
        by_cases h1 : r1.items = []
        · have h2 := he.mp h1
          cases t <;> simp [h1, h2, hs]
        · have h2 : r2.items ≠ [] := fun h => h1 (he.mpr h)
          cases t <;> simp [h1, h2, hs]
  · exact ⟨rfl, hs, Or.inl ⟨rfl, rfl⟩⟩

theorem items_nil_iff {m : Mem} {b : Nat} {rx : Pktio.St} {nums : List Nat} {f : Nat → Str}
    (h : List.Forall₂ (ItemAt m b) (rx.resp.getD ⟨false, []⟩).items (nums.map f)) : (rx.resp.getD ⟨false, []⟩).items = [] ↔ nums = [] := by
  have := h.length_eq
  rw [List.length_map] at this
  rw [← List.length_eq_zero_iff, this, List.length_eq_zero_iff]

theorem absResp_getD {s : Bytes.St} (h : s.rx.resp = none → s.nums = []) :
    (absResp s).getD ⟨false, []⟩ = ⟨(s.rx.resp.getD ⟨false, []⟩).status, s.nums.map .line⟩ := by
  unfold absResp
  cases hr : s.rx.resp with
  | none => simp [h hr]
  | some r => rfl

theorem good_proc2 {cfg : Cfg} {comm : Bool} {s : Bytes.St} (hb : BInv cfg s) (ht : TInv s) {c : Cur} {len : Nat} {t : CmdType}
    (hpc : s.pc = .proc2 c len t) : Good cfg comm s (Bytes.proc cfg c len t s) := by
  obtain ⟨sh, rx, pc, nums, stream, given, lost, ov⟩ := s
  simp only at hpc
  subst hpc
  obtain ⟨h0, hL, hlen⟩ := ht.line c.p len rfl
  simp only [Bytes.St.cur] at h0 hL hlen
  have hi : List.Forall₂ (ItemAt rx.buf c.p) (rx.resp.getD ⟨false, []⟩).items (nums.map sh.line) := ht.items
  have hnil := items_nil_iff hi
  generalize hs0 : (⟨sh, rx, .proc2 c len t, nums, stream, given, lost, ov⟩ : Bytes.St) = s0
  have habs := absResp_getD (s := s0) (by
    rw [← hs0]; intro hn; simp only at hn; rw [hn] at hnil; simpa using hnil)
  have hpair := processLine_pair (cfg := { cfg with extra := sh.extra.map (·.2) }) (line := sh.line (sh.received.length - 1))
    (it1 := .line c.p) (it2 := .line (sh.received.length - 1)) (r1 := rx.resp.getD ⟨false, []⟩) (r2 := (absResp s0).getD ⟨false, []⟩) (t := t)
    (by rw [habs, ← hs0]) (by rw [habs, ← hs0, hnil]; simp)
  have hproc : Conc.procResult cfg (absSt s0) (sh.received.length - 1) t = processLine { cfg with extra := sh.extra.map (·.2) }
      (sh.line (sh.received.length - 1)) (.line (sh.received.length - 1)) ((absResp s0).getD ⟨false, []⟩) t := by rw [← hs0]; rfl
  generalize processLine { cfg with extra := sh.extra.map (·.2) }
      (sh.line (sh.received.length - 1)) (.line (sh.received.length - 1)) ((absResp s0).getD ⟨false, []⟩) t = q2 at hpair hproc
  rw [← hs0] at *
  unfold Bytes.proc
  simp only []
  rw [hL.readStr]
  simp only [Bytes.St.cur]
  generalize processLine { cfg with extra := sh.extra.map (·.2) }
      (sh.line (sh.received.length - 1)) (.line c.p) (rx.resp.getD ⟨false, []⟩) t = q1 at *
  obtain ⟨st1, r1⟩ := q1
  obtain ⟨st2, r2⟩ := q2
  simp only at hpair ⊢
  obtain ⟨hst, hstatus, hitems⟩ := hpair
  subst hst
  generalize hn : (if r1.items.length = (rx.resp.getD ⟨false, []⟩).items.length then nums else nums ++ [sh.received.length - 1]) = nums'
  have hrl : 0 < sh.received.length := List.length_pos_iff.mpr h0
  have key : List.Forall₂ (ItemAt rx.buf (c.p + (len + 1))) r1.items (nums'.map sh.line) ∧ r2 = ⟨r1.status, nums'.map .line⟩ ∧
      ∀ n ∈ nums', n < sh.received.length := by
    have hup := forall₂_items_congr hi (show c.p ≤ c.p + (len + 1) by omega) (fun _ _ => rfl)
    rcases hitems with ⟨ha, hb'⟩ | ⟨ha, hb'⟩
    · rw [ha, if_pos rfl] at hn
      subst hn
      refine ⟨by rw [ha]; exact hup, ?_, ht.nums⟩
      obtain ⟨x, y⟩ := r2
      simp only at hstatus hb'
      rw [hb', hstatus, habs]
    · rw [ha, if_neg (by simp)] at hn
      subst hn
      refine ⟨?_, ?_, ?_⟩
      · rw [ha, List.map_append]
        exact forall₂_append_one hup (Or.inl ⟨c.p, rfl, hL, by omega⟩)
      · obtain ⟨x, y⟩ := r2
        simp only at hstatus hb'
        rw [hb', hstatus, habs]
        simp
      · intro n hn
        rcases List.mem_append.mp hn with h | h
        · exact ht.nums n h
        · simp only [List.mem_singleton] at h
          omega
  obtain ⟨hk1, hk2, hk3⟩ := key
  subst hk2
  have hcon : (Bytes.consult ⟨sh, rx, .proc2 c len t, nums, stream, given, lost, ov⟩).filterMap calledWith = [] := by
    unfold Bytes.consult
    split <;> rfl
  have hfl : ∀ l : List Conc.Ev, l.filterMap calledWith = [] →
      (sh.log ++ Bytes.consult ⟨sh, rx, .proc2 c len t, nums, stream, given, lost, ov⟩ ++ l).filterMap calledWith = sh.log.filterMap calledWith := by
    intro l hl
    rw [List.filterMap_append, List.filterMap_append, hcon, hl, List.append_nil, List.append_nil]
  have hfl0 := hfl [] rfl
  rw [List.append_nil] at hfl0
  have hT : ∀ (pc' : Pc) (l : List Conc.Ev), baseOf rx pc' = c.p + (len + 1) →
      restAt rx pc' = (c.p + (len + 1), c.n - (len + 1)) → (inHand pc' = some (c.p, len) ∨ inHand pc' = none) → pc' ≠ .wait →
      (∀ c r d, pc' ≠ .pre c r d) → (∀ c len, pc' ≠ .after c len .ok .solicited) →
      l.filterMap calledWith = sh.log.filterMap calledWith →
      TInv ⟨{ sh with log := l }, { rx with resp := some r1 }, pc', nums', stream, given, lost, ov⟩ := by
    intro pc' l hb1 hb2 hb3 hb4 hb5 hb6 hb7
    refine ⟨?_, hk3, ?_, fun h => absurd h hb4, fun c r d h => absurd h (hb5 c r d), ?_, ?_, ?_, fun c l h => absurd h (hb6 c l)⟩
    · have : baseOf { rx with resp := some r1 } pc' = baseOf rx pc' := by cases pc' <;> rfl
      show List.Forall₂ (ItemAt rx.buf (baseOf { rx with resp := some r1 } pc')) r1.items _
      rw [this, hb1]
      exact hk1
    · intro p l' hh
      have hh : inHand pc' = some (p, l') := hh
      rcases hb3 with hb3 | hb3
      · rw [hb3] at hh
        cases hh
        exact ⟨h0, hL, hlen⟩
      · rw [hb3] at hh
        cases hh
    · intro hlo hc
      have := ht.stream hlo nofun
      have e : restAt { rx with resp := some r1 } pc' = restAt rx pc' := by cases pc' <;> rfl
      simp only [restText] at this ⊢
      rw [e, hb2]
      exact this
    · simp only []
      rw [hb7]
      exact ht.given
    · simp only []
      rw [hb7]
      exact ht.known
  cases st1 with
  | ok =>
    simp only [List.append_assoc]
    rw [← List.append_assoc]
    refine ⟨hT _ _ rfl rfl (Or.inr rfl) nofun nofun nofun (hfl _ rfl), fun h => ?_⟩
    exact reach_of (.step h (.rx (.procDone _ _ _ _ rfl hproc))) rfl
  | pendingBuffer =>
    refine ⟨hT _ _ rfl rfl (Or.inr rfl) nofun nofun nofun hfl0, fun h => ?_⟩
    exact reach_of (.step h (.rx (.procPending _ _ _ _ _ rfl hproc (Or.inl rfl)))) rfl
  | pendingData =>
    refine ⟨hT _ _ rfl rfl (Or.inr rfl) nofun nofun nofun hfl0, fun h => ?_⟩
    exact reach_of (.step h (.rx (.procPending _ _ _ _ _ rfl hproc (Or.inr rfl)))) rfl
  | _ =>
    refine ⟨hT _ _ rfl rfl (Or.inl rfl) nofun nofun nofun hfl0, fun h => ?_⟩
    exact reach_of (.step h (.rx (.procUndef _ _ _ _ _ rfl hproc ⟨nofun, nofun, nofun⟩))) rfl

theorem resp_some {cfg : Cfg} {s : Bytes.St} {c : Cur} {len : Nat} (h : LineIn cfg s.rx c len ∧ s.rx.resp.isSome) :
    ∃ r, s.rx.resp = some r ∧ absResp s = some ⟨r.status, s.nums.map .line⟩ := by
  obtain ⟨r, hr⟩ := Option.isSome_iff_exists.mp h.2
  exact ⟨r, hr, by simp [absResp, hr]⟩

theorem good_done {cfg : Cfg} {comm : Bool} {s : Bytes.St} (ht : TInv s) {c : Cur} {len : Nat}
    (hpc : s.pc = .done c len) :
    Good cfg comm s { s with pc := .handle c len, sh := { s.sh with cmd := .noCommand, pfxOn := false } } := by
  obtain ⟨sh, rx, pc, nums, stream, given, lost, ov⟩ := s
  simp only at hpc
  subst hpc
  refine ⟨ht.move rfl rfl rfl rfl rfl rfl rfl (Nat.le_refl _) rfl (Or.inl rfl) nofun nofun nofun nofun, fun h => ?_⟩
  exact reach_of (.step h (.rx (.done _ _ rfl))) rfl

theorem good_handle {cfg : Cfg} {comm : Bool} {s : Bytes.St} (hb : BInv cfg s) (ht : TInv s) {c : Cur} {len : Nat}
    (hpc : s.pc = .handle c len) : Good cfg comm s { s with pc := Bytes.handled c len s } := by
  obtain ⟨sh, rx, pc, nums, stream, given, lost, ov⟩ := s
  simp only at hpc
  subst hpc
  obtain ⟨r, hr, ha⟩ := resp_some (s := ⟨sh, rx, .handle c len, nums, stream, given, lost, ov⟩) hb.pc
  simp only at hr
  have hab : absSt ⟨sh, rx, .handle c len, nums, stream, given, lost, ov⟩ =
      { sh with rx := .handle ⟨r.status, nums.map .line⟩, resp := some ⟨r.status, nums.map .line⟩ } := by
    simp only [absSt, ha, absRx, Option.getD_some]
  have hstep : RxFrom cfg comm (absSt ⟨sh, rx, .handle c len, nums, stream, given, lost, ov⟩) (absSt ⟨sh, rx, .handle c len, nums, stream, given, lost, ov⟩) →
      RxFrom cfg comm (absSt ⟨sh, rx, .handle c len, nums, stream, given, lost, ov⟩) { sh with
        rx := Conc.handled ⟨r.status, nums.map .line⟩ sh.cb, resp := some ⟨r.status, nums.map .line⟩ } := by
    intro h
    rw [hab] at h ⊢
    exact .step h (.rx (.handle _ _ rfl))
  have habs' : ∀ pc', absSt ⟨sh, rx, pc', nums, stream, given, lost, ov⟩ = { sh with
      rx := absRx (sh.received.length - 1) ⟨r.status, nums.map .line⟩ pc', resp := some ⟨r.status, nums.map .line⟩ } := by
    intro pc'
    simp only [absSt, absResp, hr, Option.map_some, Option.getD_some, Bytes.St.cur]
  unfold Bytes.handled
  simp only [hr]
  cases hs : r.status with
  | false =>
    refine ⟨ht.move rfl rfl rfl rfl rfl rfl rfl (Nat.le_refl _) rfl (Or.inl rfl) nofun nofun nofun nofun, fun h => ?_⟩
    refine reach_of (hstep h) ?_
    rw [habs']
    simp [Conc.handled, hs, absRx]
  | true =>
    cases hc : sh.cb with
    | none =>
      refine ⟨ht.move rfl rfl rfl rfl rfl rfl rfl (Nat.le_refl _) rfl (Or.inl rfl) nofun nofun nofun nofun, fun h => ?_⟩
      refine reach_of (hstep h) ?_
      rw [habs']
      simp [Conc.handled, hs, hc, absRx]
    | some i =>
      refine ⟨ht.move rfl rfl rfl rfl rfl rfl rfl (Nat.le_refl _) rfl (Or.inl rfl) nofun nofun nofun nofun, fun h => ?_⟩
      refine reach_of (hstep h) ?_
      rw [habs']
      simp [Conc.handled, hs, hc, absRx]

theorem good_call {cfg : Cfg} {fn : Fns} {comm : Bool} {s : Bytes.St} (hb : BInv cfg s) (ht : TInv s) {c : Cur} {len : Nat}
    (hpc : s.pc = .call c len) (chunk : Str) (v : PktStatus) : Good cfg comm s (Bytes.next cfg fn chunk v s) := by
  obtain ⟨sh, rx, pc, nums, stream, given, lost, ov⟩ := s
  simp only at hpc
  subst hpc
  unfold Bytes.next
  simp only []
  cases hc : sh.cb with
  | none =>
    simp only []
    have hl : ∀ l : List Conc.Ev, (l ++ [Conc.Ev.nullCall]).filterMap calledWith = l.filterMap calledWith := by
      intro l; rw [List.filterMap_append]; simp [calledWith]
    have hgo : List.Forall₂ (ItemAt rx.buf (c.p + (len + 1))) (rx.resp.getD ⟨false, []⟩).items (nums.map sh.line) := ht.items
    have hbp : LineIn cfg rx c len ∧ rx.resp.isSome := hb.pc
    obtain ⟨⟨hb1, hb2, hb3⟩, _⟩ := hbp
    have hlb : rx.buf.length = cfg.size + 1 := hb.rx.len
    refine ⟨⟨?_, ht.nums, nofun, nofun, nofun, fun _ h => absurd rfl h, ?_, ?_, nofun⟩, fun h => ?_⟩
    · exact forall₂_items_congr hgo (show c.p + (len + 1) ≤ rx.buf.length by omega) (fun _ _ => rfl)
    · simp only []
      rw [hl]
      exact ht.given
    · simp only []
      rw [hl]
      exact ht.known
    · exact reach_of (.step h (.rx (.callNull _ _ rfl hc))) (by simp only [absSt, Conc.St.emit, absResp, absRx, hc])
  | some i =>
    refine ⟨ht.move rfl rfl rfl rfl rfl rfl rfl (Nat.le_refl _) rfl (Or.inl rfl) nofun nofun nofun nofun, fun h => ?_⟩
    exact reach_of (.step h (.rx (.call _ _ i rfl hc))) rfl

theorem lineNo_map (l : List Nat) : (l.map Item.line).map lineNo = l := by
  rw [List.map_map]
  exact (List.map_congr_left (g := id) (fun _ _ => rfl)).trans (List.map_id l)

theorem good_inCb {cfg : Cfg} {comm : Bool} {s : Bytes.St} (hb : BInv cfg s) (ht : TInv s) {c : Cur} {len i : Nat}
    (hpc : s.pc = .inCb c len i) (v : PktStatus) : Good cfg comm s (Bytes.callback c len i v s) := by
  obtain ⟨sh, rx, pc, nums, stream, given, lost, ov⟩ := s
  simp only at hpc
  subst hpc
  obtain ⟨r, hr, ha⟩ := resp_some (s := ⟨sh, rx, .inCb c len i, nums, stream, given, lost, ov⟩) hb.pc
  have hi : List.Forall₂ (ItemAt rx.buf (c.p + (len + 1))) (rx.resp.getD ⟨false, []⟩).items (nums.map sh.line) := ht.items
  unfold Bytes.callback
  rw [show (⟨sh, rx, .inCb c len i, nums, stream, given, lost, ov⟩ : Bytes.St).items.mapM (itemContents rx.buf) = some (nums.map sh.line)
    from itemsAt_contents hi]
  simp only []
  have hl : (sh.log ++ [Conc.Ev.callback i (nums.map .line) v]).filterMap calledWith = sh.log.filterMap calledWith ++ [(i, nums)] := by
    rw [List.filterMap_append]
    simp [calledWith, lineNo_map]
    rw [show lineNo ∘ Item.line = id from rfl, List.map_id]
  refine ⟨⟨hi, ht.nums, nofun, nofun, nofun, fun h _ => ht.stream h nofun, ?_, ?_, nofun⟩, fun h => ?_⟩
  · simp only []
    rw [hl, List.map_append]
    exact congrArg (· ++ [(i, nums.map sh.line)]) ht.given
  · simp only []
    rw [hl]
    intro e he n hn
    rcases List.mem_append.mp he with h | h
    · exact ht.known e h n hn
    · simp only [List.mem_singleton] at h
      subst h
      exact ht.nums n hn
  · refine reach_of (.step h (.rx (.callback _ _ i v rfl))) ?_
    simp only [absSt, ha, absRx, Option.getD_some, Conc.St.emit, absResp]
    simp only [absResp] at ha
    rw [ha]
    rfl

theorem good_send {cfg : Cfg} {comm : Bool} {s : Bytes.St} (ht : TInv s) {c : Cur} {len : Nat} {st : PktStatus}
    (hpc : s.pc = .send c len st) :
    Good cfg comm s { s with pc := .free c len, sh := { s.sh with queue := some (s.sh.queue.getD st) } } := by
  obtain ⟨sh, rx, pc, nums, stream, given, lost, ov⟩ := s
  simp only at hpc
  subst hpc
  refine ⟨ht.move rfl rfl rfl rfl rfl rfl rfl (Nat.le_refl _) rfl (Or.inl rfl) nofun nofun nofun nofun, fun h => ?_⟩
  exact reach_of (.step h (.rx (.send _ _ rfl))) rfl

theorem good_free {cfg : Cfg} {comm : Bool} {s : Bytes.St} (ht : TInv s) {c : Cur} {len : Nat}
    (hpc : s.pc = .free c len) :
    Good cfg comm s { s with pc := .after c len .ok .solicited, rx := { s.rx with resp := none }, nums := [] } := by
  obtain ⟨sh, rx, pc, nums, stream, given, lost, ov⟩ := s
  simp only at hpc
  subst hpc
  refine ⟨⟨.nil, nofun, nofun, nofun, nofun, fun h _ => ht.stream h nofun, ht.given, ht.known, fun _ _ _ => ⟨rfl, rfl⟩⟩, fun h => ?_⟩
  exact reach_of (.step h (.rx (.free _ rfl))) rfl

theorem good_undef {cfg : Cfg} {comm : Bool} {s : Bytes.St} (ht : TInv s) {c : Cur} {len : Nat}
    (hpc : s.pc = .undef c len) : Good cfg comm s (Bytes.undef cfg c len s) := by
  obtain ⟨sh, rx, pc, nums, stream, given, lost, ov⟩ := s
  simp only at hpc
  subst hpc
  obtain ⟨h0, hL, hlen⟩ := ht.line c.p len rfl
  unfold Bytes.undef
  rw [hL.readStr]
  simp only []
  split
  · rename_i hu
    refine ⟨ht.move rfl rfl rfl rfl rfl rfl rfl (Nat.le_refl _) rfl (Or.inr rfl) nofun nofun nofun nofun, fun h => ?_⟩
    exact reach_of (.step h (.rx (.undefOk _ _ rfl hu))) rfl
  · rename_i hu
    refine ⟨ht.move rfl rfl rfl rfl rfl rfl rfl (Nat.le_refl _) rfl (Or.inr rfl) nofun nofun nofun nofun, fun h => ?_⟩
    exact reach_of (.step h (.rx (.undefRefused _ _ rfl hu))) rfl

theorem good_undefFail {cfg : Cfg} {comm : Bool} {s : Bytes.St} (ht : TInv s) {c : Cur} {len : Nat}
    (hpc : s.pc = .undefFail c len) :
    Good cfg comm s { s with
      pc := .wait, rx := { cleanBuf cfg s.rx with resp := none }, nums := [], lost := true,
      sh := { s.sh with cmd := .noCommand, pfxOn := false } } := by
  obtain ⟨sh, rx, pc, nums, stream, given, lost, ov⟩ := s
  simp only at hpc
  subst hpc
  refine ⟨⟨.nil, nofun, nofun, ?_, nofun, nofun, ht.given, ht.known, nofun⟩, fun h => ?_⟩
  · intro _ b hb
    exact absurd hb (by simp [restText, restAt, txt, cleanBuf])
  · exact reach_of (.step h (.rx (.undefFail _ rfl))) rfl

theorem good_after {cfg : Cfg} {comm : Bool} {s : Bytes.St} (hb : BInv cfg s) (ht : TInv s) {c : Cur} {len : Nat} {st : PktStatus}
    {t : MsgType} (hpc : s.pc = .after c len st t) : Good cfg comm s (Bytes.after c len st t s) := by
  obtain ⟨sh, rx, pc, nums, stream, given, lost, ov⟩ := s
  simp only at hpc
  subst hpc
  have hbp : LineIn cfg rx c len := hb.pc
  obtain ⟨hb1, hb2, hb3⟩ := hbp
  have hl : rx.buf.length = cfg.size + 1 := hb.rx.len
  have hdata : rx.dataLen = 0 := hb.rx.data
  unfold Bytes.after
  simp only []
  rw [if_neg (by simp [hdata])]
  unfold getNextLine
  simp only []
  by_cases h1 : st = .ok ∧ t = .solicited
  · rw [if_pos h1]
    obtain ⟨rfl, rfl⟩ := h1
    obtain ⟨f1, f2⟩ := ht.freed c len rfl
    simp only at f1 f2
    subst f2
    rw [show slice rx.buf (c.p + (len + 1)) (c.n - (len + 1)) = some (txt rx.buf (c.p + (len + 1)) (c.n - (len + 1))) from slice_some (by omega)]
    have htl : (txt rx.buf (c.p + (len + 1)) (c.n - (len + 1))).length = c.n - (len + 1) := txt_length (by omega)
    obtain ⟨m, em, hm1, hm2⟩ := put_some (m := rx.buf) (p := 0) (t := txt rx.buf (c.p + (len + 1)) (c.n - (len + 1))) (by omega)
    simp only []
    rw [em]
    simp only [Option.map_some]
    have hmt := txt_put em
    rw [htl] at hmt
    refine ⟨⟨?_, nofun, nofun, nofun, nofun, ?_, ht.given, ht.known, nofun⟩, fun h => ?_⟩
    · show List.Forall₂ _ (rx.resp.getD ⟨false, []⟩).items _
      rw [f1]
      exact .nil
    · intro hlo _
      show linesOf stream = sh.received ++ (linesFrom [] (txt m 0 (c.n - (len + 1)))).1 ∧
        unfinished stream = (linesFrom [] (txt m 0 (c.n - (len + 1)))).2
      rw [hmt]
      exact ht.stream hlo nofun
    · exact h
  · rw [if_neg h1]
    exact ⟨⟨ht.items, ht.nums, nofun, nofun, nofun, fun h _ => ht.stream h nofun, ht.given, ht.known, nofun⟩, fun h => h⟩

theorem good_next {cfg : Cfg} {fn : Fns} {comm : Bool} (hin : cfg.inputCb = none) (hu : ∀ l, (cfg.urcEdit l).length ≤ l.length)
    {s : Bytes.St} (hb : BInv cfg s) (ht : TInv s) (hr : s.sh.recvCb = none) (hs : s.sh.sendCb = none) {chunk : Str} (v : PktStatus)
    (hroom : chunk.length ≤ room cfg s.rx) (ho : (Bytes.next cfg fn chunk v s).overflowed = false) :
    Good cfg comm s (Bytes.next cfg fn chunk v s) := by
  cases hc : s.pc with
  | wait =>
    have e : Bytes.next cfg fn chunk v s = Bytes.enter cfg chunk s := by simp only [Bytes.next, hc]
    rw [e] at ho ⊢
    exact good_enter hb ht hc hroom ho
  | call c len => exact good_call hb ht hc chunk v
  | _ =>
    simp only [Bytes.next, hc]
    first
    | exact good_top hin hb ht hc hr hs
    | exact good_pre hb ht hc hr hs
    | exact good_classify hb ht hc
    | exact good_classify2 hu hb ht hc
    | exact good_proc ht hc
    | exact good_proc2 hb ht hc
    | exact good_done ht hc
    | exact good_handle hb ht hc
    | exact good_inCb hb ht hc v
    | exact good_send ht hc
    | exact good_free ht hc
    | exact good_undef ht hc
    | exact good_undefFail ht hc
    | exact good_after hb ht hc
    | exact ⟨ht, fun h => h⟩

/-! ## All executions -/

theorem next_keeps (cfg : Cfg) (fn : Fns) (chunk : Str) (v : PktStatus) (s : Bytes.St) :
    (Bytes.next cfg fn chunk v s).sh.reqs = s.sh.reqs ∧ (Bytes.next cfg fn chunk v s).sh.thr = s.sh.thr ∧
    ((Bytes.next cfg fn chunk v s).overflowed = false → s.overflowed = false) := by
  unfold Bytes.next
  cases s.pc <;> simp only []
  case wait =>
    unfold Bytes.enter
    simp only []
    split <;> exact ⟨rfl, rfl, fun h => (Bool.or_eq_false_iff.mp h).1⟩
  case top c =>
    unfold Bytes.top
    simp only []
    split
    · exact ⟨rfl, rfl, id⟩
    · split
      · exact ⟨rfl, rfl, id⟩
      · exact ⟨rfl, rfl, id⟩
      · split <;> exact ⟨rfl, rfl, id⟩
  case pre c r d =>
    unfold Bytes.pre
    simp only []
    split
    · exact ⟨rfl, rfl, id⟩
    · exact ⟨rfl, rfl, id⟩
    · split
      · exact ⟨rfl, rfl, id⟩
      · exact ⟨rfl, rfl, id⟩
      · split <;> exact ⟨rfl, rfl, id⟩
  case classify2 c len on =>
    unfold Bytes.classify
    split
    · exact ⟨rfl, rfl, id⟩
    · split
      · split <;> exact ⟨rfl, rfl, id⟩
      · exact ⟨rfl, rfl, id⟩
      · exact ⟨rfl, rfl, id⟩
  case proc2 c len t =>
    unfold Bytes.proc
    split
    · exact ⟨rfl, rfl, id⟩
    · simp only []
      split <;> exact ⟨rfl, rfl, id⟩
  case call c len => split <;> exact ⟨rfl, rfl, id⟩
  case inCb c len i =>
    unfold Bytes.callback
    split <;> exact ⟨rfl, rfl, id⟩
  case undef c len =>
    unfold Bytes.undef
    split
    · exact ⟨rfl, rfl, id⟩
    · split <;> exact ⟨rfl, rfl, id⟩
  case after c len st t =>
    unfold Bytes.after
    simp only []
    split
    · split
      · exact ⟨rfl, rfl, id⟩
      · split <;> exact ⟨rfl, rfl, id⟩
    · split <;> exact ⟨rfl, rfl, id⟩
  all_goals first | exact ⟨trivial, trivial, id⟩ | exact ⟨rfl, rfl, id⟩

/-- Without a fetched prefix callback their functions are irrelevant. -/
theorem next_fn {cfg : Cfg} (fn fn' : Fns) (chunk : Str) (v : PktStatus) {s : Bytes.St}
    (h : ∀ c r d, s.pc = .pre c r d → r = none ∧ d = none) : Bytes.next cfg fn chunk v s = Bytes.next cfg fn' chunk v s := by
  unfold Bytes.next
  cases hc : s.pc with
  | pre c r d =>
    obtain ⟨rfl, rfl⟩ := h c r d hc
    simp only [Bytes.pre, Option.map_none]
  | _ => rfl

theorem inRaw_mem {cfg : Cfg} {comm : Bool} {s : Conc.St} (h : Conc.Reachable cfg comm s) {t i : Nat} {r : Conc.Req}
    (hr : inRaw (s.thr t) = some (i, r)) : r ∈ s.reqs := by
  have hl := (ConcLemmas.inv3_reachable h).loc t
  refine List.mem_of_getElem? (i := i) ?_
  generalize s.thr t = p at hl hr
  cases p <;> simp only [inRaw, ConcLemmas.Local, Option.some.injEq, Prod.mk.injEq, reduceCtorEq] at hl hr <;>
    obtain ⟨rfl, rfl⟩ := hr <;> first | exact hl | exact hl.1

theorem noPrefix_cbs {cfg : Cfg} {comm : Bool} {s : Conc.St} (h : Conc.Reachable cfg comm s) (hn : NoPrefix s.reqs) :
    s.recvCb = none ∧ s.sendCb = none := by
  constructor
  · cases hc : s.recvCb with
    | none => rfl
    | some i =>
      obtain ⟨t, r, h1, h2⟩ := C27_data_prefix h hc
      exact absurd h2 (hn r (inRaw_mem h h1)).1
  · cases hc : s.sendCb with
    | none => rfl
    | some i =>
      obtain ⟨t, r, d, h1, h2⟩ := C27_send_prefix h hc
      exact absurd h2 ((hn r (inRaw_mem h h1)).2 d)

theorem tinv_init (n : Nat) : TInv (Bytes.init n) :=
  ⟨.nil, nofun, nofun, fun _ b hb => absurd hb (by simp [restText, restAt, txt, Bytes.init, Pktio.init]), nofun,
    fun _ _ => ⟨rfl, rfl⟩, rfl, nofun, nofun⟩

theorem tinv_thr {comm : Bool} {t : Nat} {s : Bytes.St} {sh : Conc.St} (ht : TInv s) (h : Conc.ThrStep comm t s.sh sh) :
    TInv { s with sh := sh } := by
  have hk := thr_keeps h
  have hline : sh.line = s.sh.line := by funext n; simp [Conc.St.line, hk.received]
  refine ⟨?_, ?_, ?_, ht.noEol, ht.start, ?_, ?_, ?_, ht.freed⟩
  · simp only []
    rw [hline]
    exact ht.items
  · simp only []
    rw [hk.received]
    exact ht.nums
  · simp only [Bytes.St.cur]
    rw [hline, hk.received]
    exact ht.line
  · simp only []
    rw [hk.received]
    exact ht.stream
  · simp only []
    rw [hk.log, hline]
    exact ht.given
  · simp only []
    rw [hk.log, hk.received]
    exact ht.known

/-- Neutral functions. -/
def noFns : Fns := ⟨fun _ t => (.ok, t, 0), fun _ t => (.ok, t, none)⟩

theorem bytes_sim {cfg : Cfg} {fn : Fns} {comm : Bool} (hin : cfg.inputCb = none) (hu : ∀ l, (cfg.urcEdit l).length ≤ l.length)
    {s : Bytes.St} (h : Bytes.Reachable cfg fn comm s) (hn : NoPrefix s.sh.reqs) (ho : s.overflowed = false) :
    BInv cfg s ∧ TInv s ∧ Conc.Reachable cfg comm (absSt s) := by
  induction h with
  | init => exact ⟨binv_init cfg, tinv_init _, .init⟩
  | @step s s' _ hs ih =>
    cases hs with
    | @thr t _ sh hst =>
      have hk := thr_keeps hst
      obtain ⟨l, hl⟩ := hk.reqs
      have hn' : NoPrefix s.sh.reqs := fun r hr => hn r (by simp only []; rw [hl]; exact List.mem_append_left _ hr)
      obtain ⟨i1, i2, i3⟩ := ih hn' ho
      refine ⟨⟨i1.rx, i1.pc⟩, tinv_thr i2 hst, ?_⟩
      suffices h : ∀ a b, Conc.Reachable cfg comm a → a = b → Conc.Reachable cfg comm b from
        h _ _ (.step i3 (.thr t (thr_other hst _ _))) (by
          unfold absSt absResp Bytes.St.cur
          simp only [hk.received])
      rintro a _ h rfl
      exact h
    | rx _ chunk v hr =>
      obtain ⟨k1, k2, k3⟩ := next_keeps cfg fn chunk v s
      rw [k1] at hn
      obtain ⟨i1, i2, i3⟩ := ih hn (k3 ho)
      obtain ⟨c1, c2⟩ := noPrefix_cbs i3 hn
      have hg := good_next (fn := fn) (comm := comm) hin hu i1 i2 c1 c2 v hr ho
      refine ⟨?_, hg.1, (hg.2 .refl).reachable i3⟩
      rw [next_fn fn noFns chunk v (fun c r d e => ⟨(i2.start c r d e).1, (i2.start c r d e).2.1⟩)]
      refine next_binv ?_ i1 v hr
      exact ⟨hu, by simp [hin], fun _ _ => ⟨Nat.le_refl _, Nat.zero_le _⟩, fun _ _ => ⟨Nat.le_refl _, rfl⟩⟩

end Cellular.Props
