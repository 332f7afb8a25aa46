import Verif.BytesThm
/-!
# Concurrent requests over the byte stream: results and callbacks in all executions (C82)

The guarantees on results and response callbacks (C23-C25) do not depend on the texts of the lines.  Here they are proved over the byte stream
for all ports, all prefix callbacks and all buffer contents, also when the buffer overflows.
-/

namespace Cellular.Spec
open Cellular Cellular.Bytes

/-- The receive task is not working on a line. -/
def rxRests : Pc → Prop
  | .wait => True
  | .top _ => True
  | .pre _ _ _ => True
  | .after _ _ _ _ => True
  | _ => False

/-- The modem is silent while a step is about to be sent: the receive task has no line in hand when the step is prepared, and takes up none until
its bytes are handed to the transport. -/
def QuietBytes (s s' : Bytes.St) : Prop :=
  (∀ t, ¬ Conc.Sending (s.sh.thr t) → Conc.Sending (s'.sh.thr t) → rxRests s.pc) ∧
  (∀ t, Conc.Sending (s.sh.thr t) → s'.sh.received = s.sh.received)

/-- The receive task is not handling a line as part of an answer. -/
def NotAnsweringPc : Pc → Bool
  | .proc _ _ => false
  | .proc2 _ _ _ => false
  | .done _ _ => false
  | .handle _ _ => false
  | .call _ _ => false
  | .inCb _ _ _ => false
  | .send _ _ _ => false
  | .crashed => false
  | .bad => false
  | _ => true

/-- Nothing of an answer has been kept: no status is queued, no line has been collected (or what was collected is about to be released), and the
receive task is not at work on one. -/
def UnansweredBytes (s : Bytes.St) : Prop :=
  s.sh.queue = none ∧ (s.rx.resp = none ∨ ∃ c len, s.pc = .free c len) ∧ NotAnsweringPc s.pc = true

/-- The transport accepted all data, and while a request ends, nothing of an answer is kept: every request that timed out did so unanswered. -/
def HarmlessBytes (s : Bytes.St) : Prop :=
  (∀ i, Conc.Ev.sendError i ∉ s.sh.log) ∧ ∀ t, Ending (s.sh.thr t) = true → UnansweredBytes s

/-- The states of the executions whose steps satisfy `P`. -/
inductive BytesRun (cfg : Pktio.Cfg) (fn : Fns) (comm : Bool) (P : Bytes.St → Bytes.St → Prop) : Bytes.St → Prop
  | init : BytesRun cfg fn comm P (Bytes.init cfg.size)
  | step {s s' : Bytes.St} (h : BytesRun cfg fn comm P s) (hs : Bytes.Step cfg fn comm s s') (hp : P s s') : BytesRun cfg fn comm P s'

end Cellular.Spec

namespace Cellular.Props
open Cellular Cellular.Spec Cellular.ConcLemmas
open Cellular.Pktio (Cur CmdType MsgType Item Resp Cfg getMsgType processLine cleanBuf readPos room skipEol preprocessInput
  preprocessLine findLine handleData getNextLine itemContents put)
open Cellular.Bytes (Pc Fns)
open Cellular.Conc (Ev)

theorem run_reachable {cfg : Cfg} {fn : Fns} {comm : Bool} {P : Bytes.St → Bytes.St → Prop} {s : Bytes.St} (h : BytesRun cfg fn comm P s) :
    Bytes.Reachable cfg fn comm s := by
  induction h with
  | init => exact .init
  | step _ hs _ ih => exact .step ih hs

theorem reachable_run {cfg : Cfg} {fn : Fns} {comm : Bool} {s : Bytes.St} (h : Bytes.Reachable cfg fn comm s) :
    BytesRun cfg fn comm (fun _ _ => True) s := by
  induction h with
  | init => exact .init
  | step _ hs ih => exact .step ih hs trivial

/-! ## What the invariant depends on -/

theorem inv2_congr {tol strict : Bool} {s s' : Conc.St} {m : Own} (J : Inv2 tol strict s m) (hl : s'.received.length = s.received.length)
    (hrx : s'.rx = s.rx) (hresp : s'.resp = s.resp) (hthr : s'.thr = s.thr) (hmx : s'.mutex = s.mutex) (hcb : s'.cb = s.cb)
    (hcmd : s'.cmd = s.cmd) (hq : s'.queue = s.queue) : Inv2 tol strict s' m := by
  have hcur : cur s' = cur s := by unfold cur; rw [hmx, hthr]
  have hcw : cw s' = cw s := by unfold cw; rw [hcur]
  have hcs : csend s' = csend s := by unfold csend; rw [hcur]
  have hcl : Clean s → Clean s' := by unfold Clean; rw [hresp, hrx]; exact id
  refine ⟨J.lines.trans hl.symm, by rw [hcur]; exact J.req, J.sinceLe, J.loose, by rw [hrx, hcw]; exact J.held, by rw [hcs, hrx, hresp]; exact J.sending,
    by rw [hcw, hcs]; exact J.sent, by rw [hcb, hcur]; exact J.cb, by rw [hcur]; exact J.fresh, ?_⟩
  cases J.ph with
  | p0 a b c d e => exact .p0 (hcmd.trans a) (hq.trans b) c (by rw [hrx]; exact d) (hcl e)
  | pa a b c d e f => exact .pa (hcw.trans a) (hq.trans b) c (by rw [hrx]; exact d) (e.imp hcl (by rw [hresp]; exact id)) (by rw [hcb]; exact f)
  | pd r a b c d e f => exact .pd r (hcw.trans a) (hq.trans b) c (hrx.trans d) e (by rw [hcb]; exact f)
  | ph r a b c d e f g => exact .ph r (hcw.trans a) (hcmd.trans b) (hq.trans c) d (hrx.trans e) f (by rw [hcb]; exact g)
  | pl r a b c d e f g h => exact .pl r (hcw.trans a) (hcmd.trans b) (hq.trans c) d (hrx.trans e) f (by rw [hcb]; exact g) h
  | pi i r a b c d e f g h => exact .pi i r (hcw.trans a) (hcmd.trans b) (hq.trans c) d (hrx.trans e) f g h
  | ps st a b c d e => exact .ps st (hcw.trans a) (hcmd.trans b) (hq.trans c) d (hrx.trans e)
  | pc st a b c d e f => exact .pc st (hcw.trans a) (hcmd.trans b) (hq.trans c) d (by rw [hrx]; exact e) (hcl f)
  | pt h a b c d e => exact .pt h (by unfold cend; rw [hcur]; exact a) (hq.trans b) c (by rw [hrx]; exact d) (hcl e)

/-- The command type a line is judged by does not matter. -/
theorem inv2_type {tol strict : Bool} {s : Conc.St} {m : Own} {n : Nat} {t : CmdType} (t' : CmdType) (J : Inv2 tol strict s m) (hrx : s.rx = .proc2 n t) :
    Inv2 tol strict { s with rx := .proc2 n t' } m := by
  have hcl : Clean s → Clean { s with rx := .proc2 n t' } := by
    rintro (h | h)
    · exact .inl h
    · rw [hrx] at h; cases h
  refine ⟨J.lines, J.req, J.sinceLe, J.loose, ?_, ?_, J.sent, J.cb, J.fresh, ?_⟩
  · intro k hk
    exact J.held k (by rw [hrx]; exact hk)
  · intro h1 h2
    have := (J.sending h1 h2).1
    rw [hrx] at this
    cases this
  · cases J.ph with
    | pa a b c d e f => exact .pa a b c (.inr rfl) (e.imp hcl id) f
    | p0 a b c d e => rw [hrx] at d; cases d
    | pd r a b c d e f => rw [hrx] at d; cases d
    | ph r a b c d e f g => rw [hrx] at e; cases e
    | pl r a b c d e f g h => rw [hrx] at e; cases e
    | pi i r a b c d e f g h => rw [hrx] at e; cases e
    | ps st a b c d e => rw [hrx] at e; cases e
    | pc st a b c d e f => rw [hrx] at e; cases e
    | pt h a b c d e => rw [hrx] at d; cases d

/-! ## The response record and the numbers -/

theorem own_handleData_resp {rx rx' : Pktio.St} {a b c l p : Nat} (h : handleData rx a b c = some (l, p, rx')) :
    rx'.resp.map Resp.status = rx.resp.map Resp.status := by
  unfold handleData at h
  split at h
  · cases h
  · simp only [] at h
    split at h
    · split at h
      · cases h
      · rename_i r hr
        cases h; rw [hr]; rfl
    · cases h; rfl

theorem own_readPos_resp {cfg : Cfg} {rx rx' : Pktio.St} {p q : Nat} {e : Int} (h : readPos cfg rx = some (rx', p, q, e)) : rx'.resp = rx.resp := by
  unfold readPos at h
  split at h
  · cases h; rfl
  · split at h
    · split at h
      · cases h
      · split at h
        · cases h
        · obtain ⟨m, _, h⟩ := Option.map_eq_some_iff.mp h
          cases h; rfl
    · cases h; rfl

theorem own_rxEnter_resp {cfg : Cfg} {rx rx' : Pktio.St} {chunk : Str} {n : Nat} {o : Option Cur} (h : rxEnter cfg rx chunk = some (n, rx', o)) :
    rx'.resp.map Resp.status = rx.resp.map Resp.status := by
  unfold rxEnter at h
  split at h
  · cases h
  · rename_i s1 p q e hr
    have h1 := own_readPos_resp hr
    rw [← h1]
    split at h
    · split at h
      · cases h; rfl
      · split at h
        · cases h
        · split at h
          · cases h
          · rename_i left p' s2 hd
            have h2 : s2.resp.map Resp.status = s1.resp.map Resp.status := by
              split at hd
              · exact (own_handleData_resp hd : _)
              · cases hd; rfl
            split at h
            · split at h
              · cases h
              · cases h; exact h2
            · cases h; exact h2
    · cases h; rfl

theorem own_handleCallbackResult_resp (cfg : Cfg) (rx : Pktio.St) (st : PktStatus) (p n : Nat) : (Pktio.handleCallbackResult cfg rx st p n).2.resp = rx.resp := by
  unfold Pktio.handleCallbackResult
  split <;> rfl

theorem own_preprocessInput_resp {cfg : Cfg} {rx rx' : Pktio.St} {p n p' n' : Nat} {b : Bool} (h : preprocessInput cfg rx p n = some (b, rx', p', n')) :
    rx'.resp = rx.resp := by
  unfold preprocessInput at h
  split at h
  · cases h; rfl
  · split at h
    · cases h
    · simp only [] at h
      split at h
      · cases h
      · split at h
        · split at h
          · cases h; rfl
          · cases h; rfl
        · cases h
          exact own_handleCallbackResult_resp _ _ _ _ _

theorem own_preprocessLine_resp {cfg : Cfg} {rx rx' : Pktio.St} {p n n' : Nat} {sd sd' : Option Nat} {b : Bool}
    (h : preprocessLine cfg rx p n sd = some (b, rx', n', sd')) : rx'.resp = rx.resp := by
  unfold preprocessLine at h
  split at h
  · cases h; rfl
  · split at h
    · split at h
      · cases h
      · simp only [] at h
        split at h
        · cases h
        · cases h
          exact own_handleCallbackResult_resp _ _ _ _ _
    · split at h
      · split at h
        · cases h
        · simp only [] at h
          split at h
          · cases h
          · cases h
            refine (own_handleCallbackResult_resp _ _ _ _ _).trans ?_
            split <;> rfl
      · cases h; rfl

theorem own_findLine_resp {rx rx' : Pktio.St} {p n : Nat} {o : Option Nat} (h : findLine rx p n = some (rx', o)) : rx'.resp = rx.resp := by
  unfold findLine at h
  split at h
  · cases h
  · split at h
    · obtain ⟨m, _, h⟩ := Option.map_eq_some_iff.mp h
      cases h; rfl
    · cases h; rfl

theorem own_getNextLine_resp {rx rx' : Pktio.St} {p n len p' n' : Nat} {st : PktStatus} {t : MsgType}
    (h : getNextLine rx p n len st t = some (p', n', rx')) : rx'.resp = rx.resp := by
  unfold getNextLine at h
  simp only [] at h
  split at h
  · split at h
    · cases h
    · obtain ⟨m, _, h⟩ := Option.map_eq_some_iff.mp h
      cases h; rfl
  · cases h; rfl

/-- Numbers only with a response record. -/
def NumsOk (s : Bytes.St) : Prop := s.rx.resp = none → s.nums = []

theorem absResp_congr {s s' : Bytes.St} (h : s'.rx.resp.map Resp.status = s.rx.resp.map Resp.status) (hn : s'.nums = s.nums) : absResp s' = absResp s := by
  have e : ∀ x : Bytes.St, absResp x = (x.rx.resp.map Resp.status).map (fun b => ⟨b, x.nums.map .line⟩) := by
    intro x
    unfold absResp
    rw [Option.map_map]
    rfl
  rw [e, e, h, hn]

theorem numsOk_congr {s s' : Bytes.St} (hN : NumsOk s) (h : s'.rx.resp.map Resp.status = s.rx.resp.map Resp.status) (hn : s'.nums = s.nums) : NumsOk s' := by
  intro h'
  rw [hn]
  refine hN ?_
  rw [h'] at h
  cases hr : s.rx.resp with
  | none => rfl
  | some r => rw [hr] at h; cases h

/-! ## One step of the receive task -/

/-- The monitor after the history, and the state it explains; after undefined behaviour the receive task stands still. -/
def OwnAt (tol strict : Bool) (s : Bytes.St) (m : Own) : Prop :=
  ∃ rx resp, Inv2 tol strict { s.sh with rx := rx, resp := resp } m ∧
    (s.pc ≠ .bad → rx = absRx s.cur ((absResp s).getD ⟨false, []⟩) s.pc ∧ resp = absResp s)

def Keeps (tol strict : Bool) (s' : Bytes.St) : Prop := ∃ m, own strict s'.sh.log = some m ∧ OwnAt tol strict s' m

/-- The same if requests end clean. -/
def KeptOwn (tol strict : Bool) (s' : Bytes.St) : Prop := (tol = true → EndsClean (absSt s')) → Keeps tol strict s'

theorem endsClean_of {a b : Conc.St} (h : EndsClean b) (hthr : a.thr = b.thr) (hq : a.queue = b.queue) (hresp : a.resp = b.resp)
    (hx : NotAnswering a.rx = true) (hf : b.rx ≠ .free) : EndsClean a := by
  intro t ht
  rw [hthr] at ht
  obtain ⟨h1, h2, h3⟩ := h t ht
  exact ⟨hq.trans h1, .inl (hresp.trans (h2.resolve_right hf)), hx⟩

theorem endsClean_same {a b : Conc.St} (h : EndsClean b) (hthr : a.thr = b.thr) (hq : a.queue = b.queue) (hresp : a.resp = b.resp)
    (hx : a.rx = b.rx) : EndsClean a := by
  intro t ht
  rw [hthr] at ht
  obtain ⟨h1, h2, h3⟩ := h t ht
  exact ⟨hq.trans h1, by rw [hresp, hx]; exact h2, by rw [hx]; exact h3⟩

theorem own_ignored {strict : Bool} {log evs : List Ev} {m : Own} (hm : own strict log = some m) (he : ∀ e ∈ evs, ownStep strict m e = some m) :
    own strict (log ++ evs) = some m := by
  rw [own_append, hm]
  clear hm
  induction evs with
  | nil => rfl
  | cons e evs ih =>
    rw [List.foldl_cons, Option.bind_some, he e (List.mem_cons_self ..)]
    exact ih (fun x hx => he x (List.mem_cons_of_mem _ hx))

theorem fetched_ignored {strict : Bool} {m : Own} (o : Option Nat) : ∀ e ∈ Conc.fetchedBy o, ownStep strict m e = some m := by
  intro e he
  cases o with
  | none => cases he
  | some i => simp only [Conc.fetchedBy, List.mem_singleton] at he; subst he; rfl

theorem called_ignored {strict : Bool} {m : Own} (r d : Option Nat) : ∀ e ∈ Bytes.calledBy r d, ownStep strict m e = some m := by
  intro e he
  cases d with
  | some i => simp only [Bytes.calledBy, List.mem_singleton] at he; subst he; rfl
  | none =>
    cases r with
    | some i => simp only [Bytes.calledBy, List.mem_singleton] at he; subst he; rfl
    | none => cases he

/-- The same shared members apart from texts and history. -/
structure Agree (a b : Conc.St) : Prop where
  received : b.received.length = a.received.length
  thr : b.thr = a.thr
  mutex : b.mutex = a.mutex
  cb : b.cb = a.cb
  cmd : b.cmd = a.cmd
  queue : b.queue = a.queue

theorem Agree.refl (a : Conc.St) : Agree a a := ⟨rfl, rfl, rfl, rfl, rfl, rfl⟩

theorem keeps_of {tol strict : Bool} {a : Conc.St} {m : Own} {s' : Bytes.St} (J : Inv2 tol strict a m) (hm : own strict s'.sh.log = some m)
    (hA : Agree a s'.sh) (hrx : absRx s'.cur ((absResp s').getD ⟨false, []⟩) s'.pc = a.rx) (hresp : absResp s' = a.resp) : KeptOwn tol strict s' :=
  fun _ => ⟨m, hm, absRx s'.cur ((absResp s').getD ⟨false, []⟩) s'.pc, absResp s', inv2_congr J hA.received hrx hresp hA.thr hA.mutex hA.cb hA.cmd hA.queue, fun _ => ⟨rfl, rfl⟩⟩

theorem keeps_bad {tol strict : Bool} {a : Conc.St} {m : Own} {s' : Bytes.St} (J : Inv2 tol strict a m) (hm : own strict s'.sh.log = some m)
    (hA : Agree a s'.sh) (hb : s'.pc = .bad) : KeptOwn tol strict s' :=
  fun _ => ⟨m, hm, a.rx, a.resp, inv2_congr J hA.received rfl rfl hA.thr hA.mutex hA.cb hA.cmd hA.queue, fun h => absurd hb h⟩

theorem quiet_same {a b : Conc.St} (ht : b.thr = a.thr) (hr : b.received = a.received) : Conc.Quiet a b :=
  ⟨fun t h1 h2 => by rw [ht] at h2; exact absurd h2 h1, fun _ _ => hr⟩

/-- A step of the receive task that takes up no line. -/
theorem keeps_rx {cfg : Cfg} {tol strict : Bool} {a b : Conc.St} {m : Own} {s' : Bytes.St} (h : Conc.RxStep cfg a b) (J : Inv2 tol strict a m)
    (hm : own strict a.log = some m) (ht : b.thr = a.thr) (hr : b.received = a.received)
    (hl : s'.sh.log = b.log) (hA : Agree b s'.sh) (hrx : absRx s'.cur ((absResp s').getD ⟨false, []⟩) s'.pc = b.rx) (hresp : absResp s' = b.resp) :
    KeptOwn tol strict s' := by
  intro hE
  obtain ⟨m', h1, h2⟩ := own_rx h J hm (fun e => endsClean_same (hE e) hA.thr.symm hA.queue.symm hresp.symm hrx.symm) (fun _ => quiet_same ht hr)
  exact keeps_of h2 (by rw [hl]; exact h1) hA hrx hresp hE

theorem own_enter {cfg : Cfg} {strict : Bool} {s : Bytes.St} {m : Own} {chunk : Str} (hpc : s.pc = .wait) (hN : NumsOk s)
    (J : Inv2 tol strict (absSt s) m) (hm : own strict s.sh.log = some m) : NumsOk (Bytes.enter cfg chunk s) ∧ KeptOwn tol strict (Bytes.enter cfg chunk s) := by
  obtain ⟨sh, rx, pc, nums, stream, given, lost, ov⟩ := s
  simp only at hpc
  subst hpc
  unfold Bytes.enter
  simp only []
  split
  · exact ⟨hN, keeps_bad J hm ⟨rfl, rfl, rfl, rfl, rfl, rfl⟩ rfl⟩
  · rename_i h
    have hr := own_rxEnter_resp h
    exact ⟨numsOk_congr hN hr rfl, keeps_of J hm ⟨rfl, rfl, rfl, rfl, rfl, rfl⟩ rfl (absResp_congr hr rfl)⟩
  · rename_i h
    have hr := own_rxEnter_resp h
    exact ⟨numsOk_congr hN hr rfl, keeps_of J hm ⟨rfl, rfl, rfl, rfl, rfl, rfl⟩ rfl (absResp_congr hr rfl)⟩

theorem own_top {cfg : Cfg} {strict : Bool} {s : Bytes.St} {m : Own} {c : Cur} (hpc : s.pc = .top c) (hN : NumsOk s)
    (J : Inv2 tol strict (absSt s) m) (hm : own strict s.sh.log = some m) : NumsOk (Bytes.top cfg c s) ∧ KeptOwn tol strict (Bytes.top cfg c s) := by
  obtain ⟨sh, rx, pc, nums, stream, given, lost, ov⟩ := s
  simp only at hpc
  subst hpc
  unfold Bytes.top
  simp only []
  split
  · exact ⟨hN, keeps_bad J hm ⟨rfl, rfl, rfl, rfl, rfl, rfl⟩ rfl⟩
  · split
    · exact ⟨hN, keeps_bad J hm ⟨rfl, rfl, rfl, rfl, rfl, rfl⟩ rfl⟩
    · rename_i h
      have hr := congrArg (Option.map Resp.status) (own_preprocessInput_resp h)
      exact ⟨numsOk_congr hN hr rfl, keeps_of J hm ⟨rfl, rfl, rfl, rfl, rfl, rfl⟩ rfl (absResp_congr hr rfl)⟩
    · rename_i h
      have hr := congrArg (Option.map Resp.status) (own_preprocessInput_resp h)
      have hm' : own strict (sh.log ++ Conc.fetchedBy sh.recvCb ++ Conc.fetchedBy sh.sendCb) = some m :=
        own_ignored (own_ignored hm (fetched_ignored _)) (fetched_ignored _)
      split
      · exact ⟨numsOk_congr hN hr rfl, keeps_of J hm' ⟨rfl, rfl, rfl, rfl, rfl, rfl⟩ rfl (absResp_congr hr rfl)⟩
      · exact ⟨numsOk_congr hN hr rfl, keeps_of J hm' ⟨rfl, rfl, rfl, rfl, rfl, rfl⟩ rfl (absResp_congr hr rfl)⟩

theorem own_pre {cfg : Cfg} {fn : Fns} {strict : Bool} {s : Bytes.St} {m : Own} {c : Cur} {r d : Option Nat} (hpc : s.pc = .pre c r d) (hN : NumsOk s)
    (J : Inv2 tol strict (absSt s) m) (hm : own strict s.sh.log = some m)
    (hq : strict = true → ∀ t, Conc.Sending (s.sh.thr t) → (Bytes.pre cfg fn c r d s).sh.received = s.sh.received) :
    NumsOk (Bytes.pre cfg fn c r d s) ∧ KeptOwn tol strict (Bytes.pre cfg fn c r d s) := by
  obtain ⟨sh, rx, pc, nums, stream, given, lost, ov⟩ := s
  simp only at hpc
  subst hpc
  have hm' : own strict (sh.log ++ Bytes.calledBy r d) = some m := own_ignored hm (called_ignored _ _)
  unfold Bytes.pre at hq ⊢
  simp only [] at hq ⊢
  split
  · exact ⟨hN, keeps_bad J hm' ⟨rfl, rfl, rfl, rfl, rfl, rfl⟩ rfl⟩
  · rename_i h
    have hr := congrArg (Option.map Resp.status) (own_preprocessLine_resp h)
    exact ⟨numsOk_congr hN hr rfl, keeps_of J hm' ⟨rfl, rfl, rfl, rfl, rfl, rfl⟩ rfl (absResp_congr hr rfl)⟩
  · rename_i h
    rw [h] at hq
    have hr := own_preprocessLine_resp h
    simp only [] at hq ⊢
    split
    · exact ⟨hN, keeps_bad J hm' ⟨rfl, rfl, rfl, rfl, rfl, rfl⟩ rfl⟩
    · rename_i h2
      have hr := congrArg (Option.map Resp.status) ((own_findLine_resp h2).trans hr)
      exact ⟨numsOk_congr hN hr rfl, keeps_of J hm' ⟨rfl, rfl, rfl, rfl, rfl, rfl⟩ rfl (absResp_congr hr rfl)⟩
    · rename_i h2
      rw [h2] at hq
      have hr := congrArg (Option.map Resp.status) ((own_findLine_resp h2).trans hr)
      simp only [] at hq ⊢
      split
      · exact ⟨hN, keeps_bad J hm' ⟨rfl, rfl, rfl, rfl, rfl, rfl⟩ rfl⟩
      · rename_i line h3
        rw [h3] at hq
        refine ⟨numsOk_congr hN hr rfl, fun hE => ?_⟩
        let a : Conc.St := { absSt ⟨sh, rx, .pre c r d, nums, stream, given, lost, ov⟩ with log := sh.log ++ Bytes.calledBy r d, recvCb := none, sendCb := none }
        have Ja : Inv2 tol strict a m := inv2_congr J rfl rfl rfl rfl rfl rfl rfl rfl
        obtain ⟨m1, g1, J1⟩ := own_rx (cfg := cfg) (.receive a line rfl) Ja hm'
          (fun e => endsClean_of (hE e) rfl rfl
            (absResp_congr (s := ⟨sh, rx, .pre c r d, nums, stream, given, lost, ov⟩) (by exact hr) (by rfl)).symm rfl nofun) (fun hs => ⟨fun t h1 h2 => absurd h2 h1, fun t ht => hq hs t ht⟩)
        obtain ⟨m2, g2, J2⟩ := own_rx (cfg := cfg) (.fetch _ _ rfl) J1 g1
          (fun e => endsClean_of (hE e) rfl rfl
            (absResp_congr (s := ⟨sh, rx, .pre c r d, nums, stream, given, lost, ov⟩) (by exact hr) (by rfl)).symm rfl nofun) (fun _ => quiet_same rfl rfl)
        refine keeps_rx (cfg := cfg) (.preNone _ _ rfl) J2 g2 rfl rfl ?_ ⟨rfl, rfl, rfl, rfl, rfl, rfl⟩ ?_ ?_ hE
        · show _ = ((sh.log ++ Bytes.calledBy r d) ++ [Ev.recv sh.received.length]) ++ [] ++ []
          simp
        · simp [absRx, Bytes.St.cur, a, absSt]
        · exact absResp_congr hr rfl

/-- The state with `line` as the text of the line in hand. -/
def withText (a : Conc.St) (n : Nat) (line : Str) : Conc.St := { a with received := a.received.set n line }

theorem withText_line {a : Conc.St} {n : Nat} {line : Str} (h : n < a.received.length) : (withText a n line).line n = line := by
  simp [withText, Conc.St.line, h]

theorem withText_inv {tol strict : Bool} {a : Conc.St} {m : Own} {n : Nat} {line : Str} (J : Inv2 tol strict a m) : Inv2 tol strict (withText a n line) m :=
  inv2_congr J (List.length_set ..) rfl rfl rfl rfl rfl rfl rfl

theorem held_lt {tol strict : Bool} {a : Conc.St} {m : Own} {n : Nat} (J : Inv2 tol strict a m) (h : ConcLemmas.held a.rx = some n) : n < a.received.length := by
  have := (J.held n h).1
  have := J.lines
  omega

theorem classified_eq (cfg : Cfg) (a : Conc.St) (n : Nat) (on : Bool) :
    Conc.classified cfg a n on = clsOf n (getMsgType cfg a.cmd (if on then some a.pfxBuf else none) (a.line n)) := by
  unfold Conc.classified
  cases getMsgType cfg a.cmd (if on then some a.pfxBuf else none) (a.line n) <;> rfl

theorem own_classify {cfg : Cfg} {strict : Bool} {s : Bytes.St} {m : Own} {c : Cur} {len : Nat} {on : Bool} (hpc : s.pc = .classify2 c len on) (hN : NumsOk s)
    (J : Inv2 tol strict (absSt s) m) (hm : own strict s.sh.log = some m) :
    NumsOk (Bytes.classify cfg c len on s) ∧ KeptOwn tol strict (Bytes.classify cfg c len on s) := by
  obtain ⟨sh, rx, pc, nums, stream, given, lost, ov⟩ := s
  simp only at hpc
  subst hpc
  unfold Bytes.classify
  simp only []
  split
  · exact ⟨hN, keeps_bad J hm ⟨rfl, rfl, rfl, rfl, rfl, rfl⟩ rfl⟩
  · rename_i line hl
    have hlt : sh.received.length - 1 < sh.received.length := (held_lt J rfl :)
    have Jw := withText_inv (n := sh.received.length - 1) (line := line) J
    generalize hW : withText (absSt ⟨sh, rx, .classify2 c len on, nums, stream, given, lost, ov⟩) (sh.received.length - 1) line = W at Jw
    have hline : W.line (sh.received.length - 1) = line := by rw [← hW]; exact withText_line hlt
    have step : ∀ b, clsOf (sh.received.length - 1) (getMsgType cfg sh.cmd (if on then some sh.pfxBuf else none) line) = b →
        Conc.RxStep cfg W { W with rx := b } := by
      intro b hb
      have h := Conc.RxStep.classify (cfg := cfg) W (sh.received.length - 1) on (by rw [← hW]; rfl)
      rw [classified_eq, hline] at h
      rw [← hb]
      rw [← hW] at h ⊢
      exact h
    have fin : ∀ (b : Conc.Rx) (s' : Bytes.St), clsOf (sh.received.length - 1) (getMsgType cfg sh.cmd (if on then some sh.pfxBuf else none) line) = b →
        s'.sh = sh → absRx s'.cur ((absResp s').getD ⟨false, []⟩) s'.pc = b →
        absResp s' = absResp ⟨sh, rx, .classify2 c len on, nums, stream, given, lost, ov⟩ → KeptOwn tol strict s' := by
      intro b s' hb hsh h1 h2
      refine keeps_rx (step b hb) Jw (by rw [← hW]; exact hm) rfl rfl (by rw [hsh, ← hW]; rfl) ?_ h1 (h2.trans (by rw [← hW]; rfl))
      rw [hsh, ← hW]
      exact ⟨(List.length_set ..).symm, rfl, rfl, rfl, rfl, rfl⟩
    cases hg : getMsgType cfg sh.cmd (if on then some sh.pfxBuf else none) line with
    | unsolicited =>
      rw [hg] at fin
      simp only []
      split
      · exact ⟨hN, keeps_bad J hm ⟨rfl, rfl, rfl, rfl, rfl, rfl⟩ rfl⟩
      · exact ⟨hN, fin .idle _ rfl rfl rfl rfl⟩
    | solicited =>
      rw [hg] at fin
      exact ⟨hN, fin (.proc _) _ rfl rfl rfl rfl⟩
    | undefined =>
      rw [hg] at fin
      exact ⟨hN, fin (.undef _) _ rfl rfl rfl rfl⟩

/-- Some command type makes the same of the line, whatever was collected before. -/
theorem processLine_mimic {cfg : Cfg} {line : Str} {it1 it2 : Item} {r1 r2 : Resp} {t : CmdType} (hs : r1.status = r2.status) :
    ∃ t', (processLine cfg line it1 r1 t).1 = (processLine cfg line it2 r2 t').1 ∧
    (processLine cfg line it1 r1 t).2.status = (processLine cfg line it2 r2 t').2.status ∧
    (((processLine cfg line it1 r1 t).2.items = r1.items ∧ (processLine cfg line it2 r2 t').2.items = r2.items) ∨
     ((processLine cfg line it1 r1 t).2.items = r1.items ++ [it1] ∧ (processLine cfg line it2 r2 t').2.items = r2.items ++ [it2])) := by
  by_cases h0 : cfg.err.isSome ∧ cfg.succ.isSome
  · by_cases h1 : Pktio.isToken line cfg.extra ∨ Pktio.isToken line cfg.succ
    · refine ⟨t, ?_⟩
      unfold processLine
      simp [if_pos h0, if_pos h1]
    · by_cases h2 : Pktio.isToken line cfg.err
      · refine ⟨t, ?_⟩
        unfold processLine
        simp [if_pos h0, if_neg h1, if_pos h2]
      · have e : ∀ it r t, processLine cfg line it r t = Pktio.processIntermediate it r t := by
          intro it r t
          unfold processLine
          rw [if_pos h0, if_neg h1, if_neg h2]
        refine ⟨match t with
          | .woPrefix => if r1.items = [] then .multiWoPrefix else .noCommand
          | .withPrefix => if r1.items = [] then .multiWoPrefix else .noCommand
          | t => t, ?_⟩
        rw [e, e]
        unfold Pktio.processIntermediate
        by_cases h1 : r1.items = [] <;> cases t <;> simp [h1, hs]
  · refine ⟨t, ?_⟩
    unfold processLine
    simp [if_neg h0, hs]

theorem own_proc {cfg : Cfg} {strict : Bool} {s : Bytes.St} {m : Own} {c : Cur} {len : Nat} {t : CmdType} (hpc : s.pc = .proc2 c len t) (hN : NumsOk s)
    (J : Inv2 tol strict (absSt s) m) (hm : own strict s.sh.log = some m) : NumsOk (Bytes.proc cfg c len t s) ∧ KeptOwn tol strict (Bytes.proc cfg c len t s) := by
  obtain ⟨sh, rx, pc, nums, stream, given, lost, ov⟩ := s
  simp only at hpc
  subst hpc
  unfold Bytes.proc
  simp only []
  split
  · exact ⟨hN, keeps_bad J hm ⟨rfl, rfl, rfl, rfl, rfl, rfl⟩ rfl⟩
  · rename_i line hl
    have hlt : sh.received.length - 1 < sh.received.length := (held_lt J rfl :)
    have habs := absResp_getD (s := ⟨sh, rx, .proc2 c len t, nums, stream, given, lost, ov⟩) hN
    obtain ⟨t', hpair⟩ := processLine_mimic (cfg := { cfg with extra := sh.extra.map (·.2) }) (line := line)
      (it1 := .line c.p) (it2 := .line (sh.received.length - 1)) (r1 := rx.resp.getD ⟨false, []⟩)
      (r2 := (absResp ⟨sh, rx, .proc2 c len t, nums, stream, given, lost, ov⟩).getD ⟨false, []⟩) (t := t) (by rw [habs])
    have Jw := withText_inv (n := sh.received.length - 1) (line := line) (inv2_type t' J rfl)
    generalize hW : withText { absSt ⟨sh, rx, .proc2 c len t, nums, stream, given, lost, ov⟩ with
      rx := .proc2 (Bytes.St.cur ⟨sh, rx, .proc2 c len t, nums, stream, given, lost, ov⟩) t' } (sh.received.length - 1) line = W at Jw
    have hproc : Conc.procResult cfg W (sh.received.length - 1) t' = processLine { cfg with extra := sh.extra.map (·.2) }
        line (.line (sh.received.length - 1)) ((absResp ⟨sh, rx, .proc2 c len t, nums, stream, given, lost, ov⟩).getD ⟨false, []⟩) t' := by
      unfold Conc.procResult
      have hline : W.line (sh.received.length - 1) = line := by rw [← hW]; exact withText_line hlt
      rw [hline, ← hW]
      rfl
    have hWrx : W.rx = .proc2 (sh.received.length - 1) t' := by rw [← hW]; rfl
    generalize processLine { cfg with extra := sh.extra.map (·.2) }
        line (.line (sh.received.length - 1)) ((absResp ⟨sh, rx, .proc2 c len t, nums, stream, given, lost, ov⟩).getD ⟨false, []⟩) t' = q2 at hpair hproc
    simp only [Bytes.St.cur]
    generalize processLine { cfg with extra := sh.extra.map (·.2) } line (.line c.p) (rx.resp.getD ⟨false, []⟩) t = q1 at *
    obtain ⟨st1, r1⟩ := q1
    obtain ⟨st2, r2⟩ := q2
    simp only at hpair ⊢
    obtain ⟨hst, hstatus, hitems⟩ := hpair
    subst hst
    generalize hn : (if r1.items.length = (rx.resp.getD ⟨false, []⟩).items.length then nums else nums ++ [sh.received.length - 1]) = nums'
    have key : r2 = ⟨r1.status, nums'.map .line⟩ := by
      rcases hitems with ⟨ha, hb'⟩ | ⟨ha, hb'⟩
      · rw [ha, if_pos rfl] at hn
        subst hn
        obtain ⟨x, y⟩ := r2
        simp only at hstatus hb'
        rw [hb', hstatus, habs]
      · rw [ha, if_neg (by simp)] at hn
        subst hn
        obtain ⟨x, y⟩ := r2
        simp only at hstatus hb'
        rw [hb', hstatus, habs]
        simp
    subst key
    have hcon : Bytes.consult ⟨sh, rx, .proc2 c len t, nums, stream, given, lost, ov⟩ = Conc.consult W (sh.received.length - 1) := by rw [← hW]; rfl
    have hWl : W.log = sh.log := by rw [← hW]; rfl
    have hA : ∀ a : Conc.St, (∃ r p l, a = { W with rx := r, resp := p, log := l }) → ∀ l, Agree a { sh with log := l } := by
      rintro a ⟨r, p, l, rfl⟩ l'
      rw [← hW]
      exact ⟨(List.length_set ..).symm, rfl, rfl, rfl, rfl, rfl⟩
    rw [hcon]
    cases st1 with
    | ok =>
      refine ⟨nofun, keeps_rx (.procDone W _ t' _ hWrx hproc) Jw (by rw [hWl]; exact hm) rfl rfl (by rw [hWl]) (hA _ ⟨_, _, _, rfl⟩ _) rfl rfl⟩
    | pendingBuffer =>
      refine ⟨nofun, keeps_rx (.procPending W _ t' _ _ hWrx hproc (.inl rfl)) Jw (by rw [hWl]; exact hm) rfl rfl (by rw [hWl]) (hA _ ⟨_, _, _, rfl⟩ _) rfl rfl⟩
    | pendingData =>
      refine ⟨nofun, keeps_rx (.procPending W _ t' _ _ hWrx hproc (.inr rfl)) Jw (by rw [hWl]; exact hm) rfl rfl (by rw [hWl]) (hA _ ⟨_, _, _, rfl⟩ _) rfl rfl⟩
    | _ =>
      refine ⟨nofun, keeps_rx (.procUndef W _ t' _ _ hWrx hproc ⟨nofun, nofun, nofun⟩) Jw (by rw [hWl]; exact hm) rfl rfl (by rw [hWl]) (hA _ ⟨_, _, _, rfl⟩ _) rfl rfl⟩

theorem own_next {cfg : Cfg} {fn : Fns} {chunk : Str} {v : PktStatus} {strict : Bool} {s : Bytes.St} {m : Own} (hN : NumsOk s)
    (J : OwnAt tol strict s m) (hm : own strict s.sh.log = some m)
    (hq : strict = true → ∀ t, Conc.Sending (s.sh.thr t) → (Bytes.next cfg fn chunk v s).sh.received = s.sh.received) :
    NumsOk (Bytes.next cfg fn chunk v s) ∧ KeptOwn tol strict (Bytes.next cfg fn chunk v s) := by
  by_cases hb : s.pc = .bad
  · have e : Bytes.next cfg fn chunk v s = s := by unfold Bytes.next; rw [hb]
    rw [e]
    exact ⟨hN, fun _ => ⟨m, hm, J⟩⟩
  obtain ⟨rx0, resp0, J, hj⟩ := J
  obtain ⟨rfl, rfl⟩ := hj hb
  replace J : Inv2 tol strict (absSt s) m := J
  cases hpc : s.pc with
  | wait =>
    have e : Bytes.next cfg fn chunk v s = Bytes.enter cfg chunk s := by unfold Bytes.next; rw [hpc]
    rw [e]
    exact own_enter hpc hN J hm
  | top c =>
    have e : Bytes.next cfg fn chunk v s = Bytes.top cfg c s := by unfold Bytes.next; rw [hpc]
    rw [e]
    exact own_top hpc hN J hm
  | pre c r d =>
    have e : Bytes.next cfg fn chunk v s = Bytes.pre cfg fn c r d s := by unfold Bytes.next; rw [hpc]
    rw [e] at hq ⊢
    exact own_pre hpc hN J hm hq
  | classify c len =>
    obtain ⟨sh, rx, pc, nums, stream, given, lost, ov⟩ := s
    simp only at hpc
    subst hpc
    exact ⟨hN, keeps_rx (cfg := cfg) (.readPrefix _ _ rfl) J hm rfl rfl rfl ⟨rfl, rfl, rfl, rfl, rfl, rfl⟩ rfl rfl⟩
  | classify2 c len on =>
    have e : Bytes.next cfg fn chunk v s = Bytes.classify cfg c len on s := by unfold Bytes.next; rw [hpc]
    rw [e]
    exact own_classify hpc hN J hm
  | proc c len =>
    obtain ⟨sh, rx, pc, nums, stream, given, lost, ov⟩ := s
    simp only at hpc
    subst hpc
    exact ⟨hN, keeps_rx (cfg := cfg) (.readType _ _ rfl) J hm rfl rfl rfl ⟨rfl, rfl, rfl, rfl, rfl, rfl⟩ rfl rfl⟩
  | proc2 c len t =>
    have e : Bytes.next cfg fn chunk v s = Bytes.proc cfg c len t s := by unfold Bytes.next; rw [hpc]
    rw [e]
    exact own_proc hpc hN J hm
  | done c len =>
    obtain ⟨sh, rx, pc, nums, stream, given, lost, ov⟩ := s
    simp only at hpc
    subst hpc
    exact ⟨hN, keeps_rx (cfg := cfg) (.done _ _ rfl) J hm rfl rfl rfl ⟨rfl, rfl, rfl, rfl, rfl, rfl⟩ rfl rfl⟩
  | handle c len =>
    obtain ⟨sh, rx, pc, nums, stream, given, lost, ov⟩ := s
    simp only at hpc
    subst hpc
    show NumsOk { (⟨sh, rx, .handle c len, nums, stream, given, lost, ov⟩ : Bytes.St) with pc := Bytes.handled c len _ } ∧
      KeptOwn tol strict { (⟨sh, rx, .handle c len, nums, stream, given, lost, ov⟩ : Bytes.St) with pc := Bytes.handled c len _ }
    refine ⟨hN, ?_⟩
    have step := Conc.RxStep.handle (cfg := cfg) _ _ (show (absSt ⟨sh, rx, .handle c len, nums, stream, given, lost, ov⟩).rx = .handle _ from rfl)
    unfold Bytes.handled
    simp only []
    cases hr : rx.resp with
    | none => exact keeps_bad J hm ⟨rfl, rfl, rfl, rfl, rfl, rfl⟩ rfl
    | some r =>
      refine keeps_rx step J hm rfl rfl rfl ⟨rfl, rfl, rfl, rfl, rfl, rfl⟩ ?_ ?_
      · show absRx _ _ _ = Conc.handled _ sh.cb
        unfold Conc.handled absResp
        simp only [hr]
        by_cases hs : r.status = false
        · simp [hs, absRx]
        · cases hc : sh.cb <;> simp [hs, absRx]
      · rfl
  | call c len =>
    obtain ⟨sh, rx, pc, nums, stream, given, lost, ov⟩ := s
    simp only at hpc
    subst hpc
    cases hc : sh.cb with
    | none =>
      have e : Bytes.next cfg fn chunk v ⟨sh, rx, .call c len, nums, stream, given, lost, ov⟩ =
          ⟨{ sh with log := sh.log ++ [.nullCall] }, rx, .crashed, nums, stream, given, lost, ov⟩ := by
        unfold Bytes.next
        simp only [hc]
      rw [e]
      exact ⟨hN, keeps_rx (cfg := cfg) (.callNull _ _ rfl (by exact hc)) J hm rfl rfl rfl ⟨rfl, rfl, rfl, rfl, rfl, rfl⟩ rfl rfl⟩
    | some i =>
      have e : Bytes.next cfg fn chunk v ⟨sh, rx, .call c len, nums, stream, given, lost, ov⟩ =
          ⟨sh, rx, .inCb c len i, nums, stream, given, lost, ov⟩ := by
        unfold Bytes.next
        simp only [hc]
      rw [e]
      exact ⟨hN, keeps_rx (cfg := cfg) (.call _ _ i rfl (by exact hc)) J hm rfl rfl rfl ⟨rfl, rfl, rfl, rfl, rfl, rfl⟩ rfl rfl⟩
  | inCb c len i =>
    obtain ⟨sh, rx, pc, nums, stream, given, lost, ov⟩ := s
    simp only at hpc
    subst hpc
    show NumsOk (Bytes.callback c len i v _) ∧ KeptOwn tol strict (Bytes.callback c len i v _)
    unfold Bytes.callback
    split
    · exact ⟨hN, keeps_bad J hm ⟨rfl, rfl, rfl, rfl, rfl, rfl⟩ rfl⟩
    · refine ⟨hN, keeps_rx (cfg := cfg) (.callback _ _ i v rfl) J hm rfl rfl ?_ ⟨rfl, rfl, rfl, rfl, rfl, rfl⟩ rfl rfl⟩
      rw [absResp_getD hN]
      rfl
  | send c len st =>
    obtain ⟨sh, rx, pc, nums, stream, given, lost, ov⟩ := s
    simp only at hpc
    subst hpc
    exact ⟨hN, keeps_rx (cfg := cfg) (.send _ _ rfl) J hm rfl rfl rfl ⟨rfl, rfl, rfl, rfl, rfl, rfl⟩ rfl rfl⟩
  | free c len =>
    obtain ⟨sh, rx, pc, nums, stream, given, lost, ov⟩ := s
    simp only at hpc
    subst hpc
    exact ⟨fun _ => rfl, keeps_rx (cfg := cfg) (.free _ rfl) J hm rfl rfl rfl ⟨rfl, rfl, rfl, rfl, rfl, rfl⟩ rfl rfl⟩
  | undef c len =>
    obtain ⟨sh, rx, pc, nums, stream, given, lost, ov⟩ := s
    simp only at hpc
    subst hpc
    show NumsOk (Bytes.undef cfg c len _) ∧ KeptOwn tol strict (Bytes.undef cfg c len _)
    unfold Bytes.undef
    split
    · exact ⟨hN, keeps_bad J hm ⟨rfl, rfl, rfl, rfl, rfl, rfl⟩ rfl⟩
    · split
      · exact ⟨hN, keeps_rx (cfg := { cfg with undefCb := fun _ => .ok }) (.undefOk _ _ rfl rfl) J hm rfl rfl rfl ⟨rfl, rfl, rfl, rfl, rfl, rfl⟩ rfl rfl⟩
      · exact ⟨hN, keeps_rx (cfg := { cfg with undefCb := fun _ => .failure }) (.undefRefused _ _ rfl nofun) J hm rfl rfl rfl
          ⟨rfl, rfl, rfl, rfl, rfl, rfl⟩ rfl rfl⟩
  | undefFail c len =>
    obtain ⟨sh, rx, pc, nums, stream, given, lost, ov⟩ := s
    simp only at hpc
    subst hpc
    exact ⟨fun _ => rfl, keeps_rx (cfg := cfg) (.undefFail _ rfl) J hm rfl rfl rfl ⟨rfl, rfl, rfl, rfl, rfl, rfl⟩ rfl rfl⟩
  | after c len st t =>
    obtain ⟨sh, rx, pc, nums, stream, given, lost, ov⟩ := s
    simp only at hpc
    subst hpc
    show NumsOk (Bytes.after c len st t _) ∧ KeptOwn tol strict (Bytes.after c len st t _)
    unfold Bytes.after
    simp only []
    split
    · split
      · exact ⟨hN, keeps_bad J hm ⟨rfl, rfl, rfl, rfl, rfl, rfl⟩ rfl⟩
      · split
        · exact ⟨hN, keeps_bad J hm ⟨rfl, rfl, rfl, rfl, rfl, rfl⟩ rfl⟩
        · rename_i h
          have hr := own_handleData_resp h
          refine ⟨numsOk_congr hN hr rfl, keeps_of J hm ⟨rfl, rfl, rfl, rfl, rfl, rfl⟩ ?_ (absResp_congr hr rfl)⟩
          split <;> rfl
    · split
      · exact ⟨hN, keeps_bad J hm ⟨rfl, rfl, rfl, rfl, rfl, rfl⟩ rfl⟩
      · rename_i h
        have hr := congrArg (Option.map Resp.status) (own_getNextLine_resp h)
        exact ⟨numsOk_congr hN hr rfl, keeps_of J hm ⟨rfl, rfl, rfl, rfl, rfl, rfl⟩ rfl (absResp_congr hr rfl)⟩
  | crashed =>
    have e : Bytes.next cfg fn chunk v s = s := by unfold Bytes.next; rw [hpc]
    rw [e]
    exact ⟨hN, fun _ => ⟨m, hm, _, _, J, fun _ => ⟨rfl, rfl⟩⟩⟩
  | bad => exact absurd hpc hb

/-! ## All executions -/

theorem absRx_rests {n : Nat} {r : Resp} {pc : Pc} (h : rxRests pc) : absRx n r pc = .idle := by
  cases pc <;> first | rfl | exact h.elim

theorem harmless_bytes {s : Bytes.St} (h : HarmlessBytes s) : Harmless (absSt s) := by
  refine ⟨h.1, fun t ht => ?_⟩
  obtain ⟨h1, h2, h3⟩ := h.2 t ht
  refine ⟨h1, h2.imp (fun h => ?_) ?_, ?_⟩
  · show (s.rx.resp).map _ = none
    rw [h]; rfl
  · rintro ⟨c, len, h⟩
    show absRx _ _ s.pc = .free
    rw [h]; rfl
  · show NotAnswering (absRx _ _ s.pc) = true
    revert h3; cases s.pc <;> simp [NotAnsweringPc, absRx, NotAnswering]

theorem bytes_own {cfg : Cfg} {fn : Fns} {comm tol strict : Bool} {P : Bytes.St → Bytes.St → Prop} {s : Bytes.St} (h : BytesRun cfg fn comm P s)
    (hP : strict = true → ∀ a b, P a b → QuietBytes a b) 
    (hn : (tol = false ∧ NoLoss s.sh.log) ∨ (tol = true ∧ ∀ a b, P a b → HarmlessBytes b)) : NumsOk s ∧ Keeps tol strict s := by
  induction h with
  | init => exact ⟨fun _ => rfl, own0, rfl, _, _, inv2_init tol strict, fun _ => ⟨rfl, rfl⟩⟩
  | @step s s' hr hs hp ih =>
    have hlog : ∃ l, s'.sh.log = s.sh.log ++ l := by
      cases hs with
      | thr t h => exact step_log (cfg := cfg) (.thr t h)
      | rx _ chunk v h => exact (next_move cfg fn chunk v s).log.imp fun _ h => h.1
    obtain ⟨l, hl⟩ := hlog
    obtain ⟨hN, m, hm, rx, resp, J, hj⟩ := ih (by
      rcases hn with ⟨e, hn⟩ | hn
      · refine .inl ⟨e, fun i => ?_⟩
        have := hn i; rw [hl] at this
        exact ⟨fun h => this.1 (List.mem_append_left _ h), fun h => this.2 (List.mem_append_left _ h)⟩
      · exact .inr hn)
    cases hs with
    | @thr t _ sh' h =>
      refine ⟨hN, ?_⟩
      have hI := (bytes_inv (run_reachable hr)).1
      have hI' : ConcLemmas.Inv { s.sh with rx := rx, resp := resp } := ⟨hI.m, hI.ex, hI.rc, hI.sc, hI.ser⟩
      have hk := thr_keeps h
      have hF : Forgive tol { sh' with rx := rx, resp := resp } := by
        rcases hn with ⟨rfl, hn⟩ | ⟨rfl, hn⟩
        · exact forgive_noLoss hn
        · obtain ⟨f1, f2⟩ := harmless_bytes (hn _ _ hp)
          refine ⟨f1, nofun, fun _ => ?_⟩
          by_cases hb : s.pc = .bad
          · intro t ht
            have := (f2 t ht).2.2
            unfold absSt at this
            simp only [hb, absRx, NotAnswering] at this
            cases this
          · obtain ⟨e1, e2⟩ := hj hb
            refine endsClean_same f2 rfl rfl e2 ?_
            rw [e1]
            show absRx _ _ s.pc = absRx _ _ s.pc
            have e3 : Bytes.St.cur { s with sh := sh' } = s.cur := by unfold Bytes.St.cur; rw [hk.received]
            rw [e3]
            rfl
      obtain ⟨m', h1, h2⟩ := own_thr (thr_other h rx resp) hI' J hm hF (fun hs => by
        obtain ⟨q1, q2⟩ := hP hs _ _ hp
        refine ⟨fun t h3 h4 => ?_, q2⟩
        have hrest := q1 t h3 h4
        have hb : s.pc ≠ .bad := by intro h; rw [h] at hrest; exact hrest
        show rx = .idle
        rw [(hj hb).1]
        exact absRx_rests hrest)
      refine ⟨m', h1, rx, resp, h2, fun hb => ?_⟩
      obtain ⟨e1, e2⟩ := hj hb
      refine ⟨?_, e2⟩
      rw [e1]
      show absRx _ _ s.pc = absRx _ _ s.pc
      have e3 : Bytes.St.cur { s with sh := sh' } = s.cur := by unfold Bytes.St.cur; rw [hk.received]
      rw [e3]
      rfl
    | rx _ chunk v h =>
      obtain ⟨g1, g2⟩ := own_next (v := v) hN ⟨rx, resp, J, hj⟩ hm (fun hs t ht => (hP hs _ _ hp).2 t ht)
      refine ⟨g1, g2 (fun e => ?_)⟩
      rcases hn with ⟨e', -⟩ | ⟨-, hn⟩
      · rw [e] at e'; cases e'
      · exact (harmless_bytes (hn _ _ hp)).2

/-! ## The theorems: any port, any prefix callbacks, any modem, overflow or not -/

theorem bytes_monitor {cfg : Cfg} {fn : Fns} {comm : Bool} {s : Bytes.St} (h : Bytes.Reachable cfg fn comm s) (hn : NoLoss s.sh.log) :
    ∃ m, own false s.sh.log = some m :=
  (bytes_own (strict := false) (reachable_run h) (fun h => nomatch h) (.inl ⟨rfl, hn⟩)).2.imp fun _ h => h.1

theorem bytes_start_once {cfg : Cfg} {fn : Fns} {comm : Bool} {s : Bytes.St} (h : Bytes.Reachable cfg fn comm s) {a b : List Ev} {i : Nat}
    (hl : s.sh.log = a ++ .start i :: b) : Ev.start i ∉ a := ((bytes_inv h).2.1.law a _ b hl).1

/-- Missing: not if a request timed out or a data send failed before (as in C23).  The status a request takes is that of a final result code received since
it started (or the last line before it started), or the verdict of its callback. -/
theorem C82_result_partial {cfg : Cfg} {fn : Fns} {comm : Bool} {s : Bytes.St} (h : Bytes.Reachable cfg fn comm s) (hn : NoLoss s.sh.log)
    {a b : List Ev} {i : Nat} {st : PktStatus} (hl : s.sh.log = a ++ .got i st :: b) : RecentResult a i st := by
  obtain ⟨m, hm⟩ := bytes_monitor h hn
  exact monitor_recent_result hm hl

/-- Missing: as before.  If the modem is silent while a step is about to be sent, the code was received after the request's own bytes were sent. -/
theorem C82_own_result_partial {cfg : Cfg} {fn : Fns} {comm : Bool} {s : Bytes.St} (h : BytesRun cfg fn comm QuietBytes s) (hn : NoLoss s.sh.log)
    {a b : List Ev} {i : Nat} {st : PktStatus} (hl : s.sh.log = a ++ .got i st :: b) : OwnResult a i st := by
  obtain ⟨m, hm, _⟩ := (bytes_own (strict := true) h (fun _ _ _ => id) (.inl ⟨rfl, hn⟩)).2
  exact monitor_own_result hm hl

/-- Missing: as in C24.  The lines a request's callback is given were received since the request started (or are the last one before it started). -/
theorem C82_recent_lines_partial {cfg : Cfg} {fn : Fns} {comm : Bool} {s : Bytes.St} (h : Bytes.Reachable cfg fn comm s) (hn : NoLoss s.sh.log)
    {a b : List Ev} {i : Nat} {items : List Item} {st : PktStatus} (hl : s.sh.log = a ++ .callback i items st :: b) :
    ∃ x y, a = x ++ .start i :: y ∧ (∀ f ∈ y, ¬ Boundary f) ∧
      ∀ it ∈ items, ∃ n, it = .line n ∧ (Ev.recv n ∈ y ∨ (Ev.recv n ∈ x ∧ ∀ k, n < k → Ev.recv k ∉ x)) := by
  obtain ⟨m, hm⟩ := bytes_monitor h hn
  exact monitor_recent_lines hm hl

/-- Missing: as in C24.  If the modem is silent while a step is about to be sent, they were received after the request's own bytes were sent. -/
theorem C82_own_lines_partial {cfg : Cfg} {fn : Fns} {comm : Bool} {s : Bytes.St} (h : BytesRun cfg fn comm QuietBytes s) (hn : NoLoss s.sh.log)
    {a b : List Ev} {i : Nat} {items : List Item} {st : PktStatus} (hl : s.sh.log = a ++ .callback i items st :: b) :
    ∃ x e y, a = x ++ e :: y ∧ Sends i e ∧ (∀ f ∈ y, ¬ Boundary f) ∧ ∀ it ∈ items, ∃ n, it = .line n ∧ Ev.recv n ∈ y := by
  obtain ⟨m, hm, _⟩ := (bytes_own (strict := true) h (fun _ _ _ => id) (.inl ⟨rfl, hn⟩)).2
  exact monitor_own_lines hm hl

/-- Missing: as in C25.  A request's callback runs at most once, while the request is in progress. -/
theorem C82_once_partial {cfg : Cfg} {fn : Fns} {comm : Bool} {s : Bytes.St} (h : Bytes.Reachable cfg fn comm s) (hn : NoLoss s.sh.log)
    {a b : List Ev} {i : Nat} {items : List Item} {st : PktStatus}
    (hl : s.sh.log = a ++ .callback i items st :: b) : InProgress a i ∧ ∀ items' st', Ev.callback i items' st' ∉ a := by
  obtain ⟨m, hm⟩ := bytes_monitor h hn
  exact monitor_once hm (fun _ _ => bytes_start_once h) hl

/-- Missing: as in C25.  The receive task never calls through a NULL callback pointer. -/
theorem C82_no_crash_partial {cfg : Cfg} {fn : Fns} {comm : Bool} {s : Bytes.St} (h : Bytes.Reachable cfg fn comm s) (hn : NoLoss s.sh.log) :
    Ev.nullCall ∉ s.sh.log := by
  obtain ⟨m, hm⟩ := bytes_monitor h hn
  exact monitor_no_null hm

/-- Missing: as in C25.  The receive task does not crash. -/
theorem C82_no_crashed_partial {cfg : Cfg} {fn : Fns} {comm : Bool} {s : Bytes.St} (h : Bytes.Reachable cfg fn comm s) (hn : NoLoss s.sh.log) :
    s.pc ≠ .crashed := by
  intro hc
  obtain ⟨_, m, _, rx, resp, J, hj⟩ := bytes_own (strict := false) (reachable_run h) (fun h => nomatch h) (.inl ⟨rfl, hn⟩)
  have hrx : rx = .crashed := by
    rw [(hj (by rw [hc]; nofun)).1, hc]
    rfl
  subst hrx
  cases J.ph with
  | p0 a b c d e => cases d
  | pa a b c d e f => rcases d with d | d <;> cases d
  | pd r a b c d e f => cases d
  | ph r a b c d e f g => cases e
  | pl r a b c d e f g h => cases e
  | pi i r a b c d e f g h => cases e
  | ps st a b c d e => cases e
  | pc st a b c d e f => cases e
  | pt h a b c d e => cases d

/-! ## Executions -/

/-- The place of the receive task, as far as `Quiet` looks at it. -/
def restsRx : Pc → Conc.Rx
  | .wait => .idle
  | .top _ => .idle
  | .pre _ _ _ => .idle
  | .after _ _ _ _ => .idle
  | _ => .crashed

theorem restsRx_idle {pc : Pc} (h : restsRx pc = .idle) : rxRests pc := by
  cases pc <;> first | trivial | cases h

/-- A check for `QuietBytes`. -/
def quietBytesB (s s' : Bytes.St) : Bool := Conc.quietB { s.sh with rx := restsRx s.pc } s'.sh

theorem quietBytesB_sound {s s' : Bytes.St} (I : ConcLemmas.Inv s.sh) (I' : ConcLemmas.Inv s'.sh) (h : quietBytesB s s' = true) : QuietBytes s s' := by
  obtain ⟨h1, h2⟩ := Conc.quietB_sound (s := { s.sh with rx := restsRx s.pc }) (s' := s'.sh) ⟨I.m, I.ex, I.rc, I.sc, I.ser⟩ I' h
  exact ⟨fun t a b => restsRx_idle (h1 t a b), h2⟩

/-- A schedule in which the modem is silent while a step is about to be sent. -/
def quietExec (cfg : Cfg) (fn : Fns) (comm : Bool) : List Bytes.Act → Bytes.St → Option Bytes.St
  | [], s => some s
  | a :: as, s => (Bytes.act cfg fn comm a s).bind (fun s' => if quietBytesB s s' then quietExec cfg fn comm as s' else none)

theorem quietExec_sound {cfg : Cfg} {fn : Fns} {comm : Bool} {as : List Bytes.Act} {s s' : Bytes.St} (hr : BytesRun cfg fn comm QuietBytes s)
    (h : quietExec cfg fn comm as s = some s') : BytesRun cfg fn comm QuietBytes s' := by
  induction as generalizing s with
  | nil => cases h; exact hr
  | cons a as ih =>
    unfold quietExec at h
    cases hn : Bytes.act cfg fn comm a s with
    | none => rw [hn] at h; cases h
    | some s1 =>
      rw [hn] at h
      simp only [Option.bind_some] at h
      split at h
      · rename_i hp
        have hs := Bytes.act_sound hn
        exact ih (hr.step hs (quietBytesB_sound (bytes_inv (run_reachable hr)).1 (bytes_inv ((run_reachable hr).step hs)).1 hp)) h
      · cases h

theorem quietExec_reach {cfg : Cfg} {fn : Fns} {comm : Bool} (as : List Bytes.Act) {α : Type} (f : Bytes.St → α) (v : α)
    (h : (quietExec cfg fn comm as (Bytes.init cfg.size)).map f = some v) : ∃ s, BytesRun cfg fn comm QuietBytes s ∧ f s = v := by
  cases hs : quietExec cfg fn comm as (Bytes.init cfg.size) with
  | none => rw [hs] at h; cases h
  | some s => rw [hs] at h; exact ⟨s, quietExec_sound .init hs, by simpa using h⟩

/-- The hypotheses are met by an execution with a data prefix callback, in which announced data that contain a result code are received; the request
gets the result that follows them, and its callback the header line and the data. -/
example : ∃ s, BytesRun (demoCfg 40) exFns true QuietBytes s ∧ NoLoss s.sh.log ∧
    s.sh.log = [.start 0, .command 0 (str "AT"), .fetched 0, .prefixCb 0, .recv 0, .fetched 0, .prefixCb 0, .recv 1, .final true 1, .callback 0 [.line 0] .ok,
      .got 0 .ok, .ret 0 .ok none] ∧ s.given = [(0, [str "+D:7", str "ab\r\nOK\r"])] := by
  obtain ⟨s, hr, he⟩ := quietExec_reach (cfg := demoCfg 40) (fn := exFns) (comm := true)
    ((begins 0 exReqBlock).map .thr ++ [.rx (str "+D:7\r\nab\r\nOK\r\r\nOK\r\n") .ok] ++ rxk 20 ++ (gos 0 4).map .thr)
    (fun s => (s.sh.log, s.given)) ([.start 0, .command 0 (str "AT"), .fetched 0, .prefixCb 0, .recv 0, .fetched 0, .prefixCb 0, .recv 1, .final true 1, .callback 0 [.line 0] .ok,
      .got 0 .ok, .ret 0 .ok none], [(0, [str "+D:7", str "ab\r\nOK\r"])]) (by decide +kernel)
  simp only [Prod.mk.injEq] at he
  refine ⟨s, hr, ?_, he.1, he.2⟩
  rw [he.1]
  intro i
  simp

end Cellular.Props
