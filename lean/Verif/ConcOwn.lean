import Verif.ConcInv
/-!
# Requests: which result, which lines and which callback belong to a request

Specification as a monitor of the history, and the invariant that shows it for executions in which no request
timed out - or only requests of whose answer nothing had arrived - and the transport accepted all data.
-/

namespace Cellular.Spec
open Cellular Conc
open Cellular.Pktio (Item)

/-- What the modem answered to the step under way. -/
inductive Answer
  /-- nothing yet -/
  | none
  /-- a final result code -/
  | final (ok : Bool)
  /-- a success code, and the response callback judged the response -/
  | judged (st : PktStatus)
  deriving DecidableEq

/-- The status a step returns for an answer. -/
def Answer.status : Answer → Option PktStatus
  | .none => Option.none
  | .final true => some .ok
  | .final false => some .failure
  | .judged st => some st

/-- State of the monitor. -/
structure Own where
  /-- lines received so far -/
  lines : Nat
  /-- request in progress -/
  req : Option Nat
  /-- the first line that may answer the step under way -/
  since : Nat
  /-- its bytes were handed to the transport -/
  sent : Bool
  answer : Answer
  /-- the response callback of the request ran -/
  called : Bool

/-- An item of a response is a line received from line `m.since` on. -/
def Own.fits (m : Own) (it : Item) : Prop := ∃ n, it = .line n ∧ m.since ≤ n ∧ n < m.lines

instance (m : Own) (it : Item) : Decidable (m.fits it) :=
  match it with
  | .line n => if h : m.since ≤ n ∧ n < m.lines then .isTrue ⟨n, rfl, h⟩
      else .isFalse (by rintro ⟨k, hk, h'⟩; cases hk; exact h h')
  | .data _ _ => .isFalse (by rintro ⟨k, hk, _⟩; cases hk)

/-- One event.  `strict`: answers and response lines are received after the step's bytes were handed to the
transport; otherwise: after the request started, or received last before it started. -/
def ownStep (strict : Bool) (m : Own) : Ev → Option Own
  | .recv n => if n = m.lines then some { m with lines := m.lines + 1 } else none
  | .start i => if m.req = none then
      some { m with req := some i, since := m.lines - 1, sent := false, answer := .none, called := false } else none
  | .command i _ => if m.req = some i then
      some { m with sent := true, since := if strict then m.lines else m.since } else none
  | .data i _ _ => if m.req = some i then
      some { m with sent := true, since := if strict then m.lines else m.since } else none
  | .final ok n => if m.req ≠ none ∧ m.answer = .none ∧ m.since ≤ n ∧ n < m.lines ∧ (strict = true → m.sent = true) then
      some { m with answer := .final ok } else none
  | .callback i items st =>
      if m.req = some i ∧ m.answer = .final true ∧ m.called = false ∧ ∀ it ∈ items, m.fits it then
        some { m with answer := .judged st, called := true } else none
  | .got i st => if m.req = some i ∧ m.answer.status = some st then
      some { m with answer := .none, sent := false } else none
  | .ret i _ _ => if m.req = some i then some { m with req := none } else none
  | .nullCall => none
  | _ => some m

/-- The monitor at the beginning. -/
def own0 : Own := ⟨0, none, 0, false, .none, false⟩

def own (strict : Bool) (log : List Ev) : Option Own :=
  log.foldl (fun m e => m.bind (fun m => ownStep strict m e)) (some own0)

/-- No step timed out, and the transport accepted all data. -/
def NoLoss (log : List Ev) : Prop := ∀ i, Ev.timeout i ∉ log ∧ Ev.sendError i ∉ log

/-- A request has stopped waiting for its answer, and the library has not yet closed its command. -/
def Ending : Thr → Bool
  | .raw4 _ _ _ => true
  | .data4 _ _ _ => true
  | _ => false

/-- The receive task is not handling a line as part of an answer (it may be handling any other line). -/
def NotAnswering : Rx → Bool
  | .proc _ => false
  | .proc2 _ _ => false
  | .done _ => false
  | .handle _ => false
  | .call _ => false
  | .inCb _ _ => false
  | .send _ => false
  | .crashed => false
  | _ => true

/-- Nothing of an answer has been kept: no status is queued, no line has been collected (or what was collected is about to be released), and the
receive task is not at work on one. -/
def Unanswered (s : Conc.St) : Prop :=
  s.queue = none ∧ (s.resp = none ∨ s.rx = .free) ∧ NotAnswering s.rx = true

/-- While a request ends, nothing of an answer is kept.  For a request that took its status this holds by itself; for one that gave up waiting it
means that no part of an answer came before its command was closed. -/
def EndsClean (s : Conc.St) : Prop := ∀ t, Ending (s.thr t) = true → Unanswered s

/-- The transport accepted all data, and every request that timed out so far did so unanswered. -/
def Harmless (s : Conc.St) : Prop := (∀ i, Ev.sendError i ∉ s.log) ∧ EndsClean s

end Cellular.Spec

namespace Cellular.Conc

/-- The step's bytes are about to be handed to the transport. -/
def Sending : Thr → Prop
  | .raw2 _ _ => True
  | .data1 _ _ _ => True
  | _ => False

/-- An assumption on the modem: it is silent while a step is about to be sent, that is, the receive task has
nothing to do when the step is prepared and no line arrives until its bytes are handed to the transport. -/
def Quiet (s s' : St) : Prop :=
  (∀ t, ¬ Sending (s.thr t) → Sending (s'.thr t) → s.rx = .idle) ∧
  (∀ t, Sending (s.thr t) → s'.received = s.received)

/-- The states of the executions whose steps satisfy `P`. -/
inductive Run (cfg : Pktio.Cfg) (comm : Bool) (P : St → St → Prop) : St → Prop
  | init : Run cfg comm P init
  | step {s s' : St} (h : Run cfg comm P s) (hs : Step cfg comm s s') (hp : P s s') : Run cfg comm P s'

theorem Run.reachable {cfg : Pktio.Cfg} {comm : Bool} {P : St → St → Prop} {s : St} (h : Run cfg comm P s) :
    Reachable cfg comm s := by
  induction h with
  | init => exact .init
  | step _ hs _ ih => exact .step ih hs

theorem Reachable.run {cfg : Pktio.Cfg} {comm : Bool} {s : St} (h : Reachable cfg comm s) :
    Run cfg comm (fun _ _ => True) s := by
  induction h with
  | init => exact .init
  | step _ hs ih => exact .step ih hs trivial

end Cellular.Conc

namespace Cellular.ConcLemmas
open Cellular Spec Conc
open Cellular.Pktio (CmdType MsgType Item Resp Cfg getMsgType processLine writeMax)

theorem own_append (strict : Bool) (l l' : List Ev) :
    own strict (l ++ l') = l'.foldl (fun m e => m.bind (fun m => ownStep strict m e)) (own strict l) := by
  unfold own; rw [List.foldl_append]

/-- The thread set the command type and has not taken a status. -/
def waits : Thr → Bool
  | .raw2 _ _ => true
  | .raw3 _ _ => true
  | .data1 _ _ _ => true
  | .data2 _ _ _ _ => true
  | .data3 _ _ => true
  | _ => false

def sendingB : Thr → Bool
  | .raw2 _ _ => true
  | .data1 _ _ _ => true
  | _ => false

theorem sendingB_iff (p : Thr) : sendingB p = true ↔ Sending p := by
  cases p <;> simp [sendingB, Sending]

/-- The response callback may be installed. -/
def cbZone : Thr → Bool
  | .raw1 _ _ => true
  | .raw2 _ _ => true
  | .raw3 _ _ => true
  | .raw4 _ _ _ => true
  | _ => false

/-- Before the command type is set. -/
def early : Thr → Bool
  | .install _ _ => true
  | .raw0 _ _ => true
  | .raw1 _ _ => true
  | _ => false

/-- The receive task holds this line and has not judged it. -/
def held : Rx → Option Nat
  | .got n => some n
  | .pre n _ _ => some n
  | .classify n => some n
  | .classify2 n _ => some n
  | .proc n => some n
  | .proc2 n _ => some n
  | _ => none

def procish : Rx → Bool
  | .proc _ => true
  | .proc2 _ _ => true
  | _ => false

/-- Not handling a solicited line. -/
def passive : Rx → Bool
  | .idle => true
  | .got _ => true
  | .pre _ _ _ => true
  | .classify _ => true
  | .classify2 _ _ => true
  | .free => true
  | .undef _ => true
  | .undefFail => true
  | _ => false

theorem passive_eq (x : Rx) : passive x = NotAnswering x := by cases x <;> rfl

/-- What is assumed of time-outs and the transport; `tol`: time-outs are tolerated. -/
structure Forgive (tol : Bool) (s : St) : Prop where
  sent : ∀ i, Ev.sendError i ∉ s.log
  none : tol = false → ∀ i, Ev.timeout i ∉ s.log
  clean : tol = true → EndsClean s

theorem forgive_noLoss {s : St} (h : NoLoss s.log) : Forgive false s := ⟨fun i => (h i).2, fun _ i => (h i).1, nofun⟩

theorem forgive_harmless {s : St} (h : Harmless s) : Forgive true s := ⟨h.1, nofun, fun _ => h.2⟩

def cw (s : St) : Bool := (cur s).any waits
def csend (s : St) : Bool := (cur s).any sendingB
def cend (s : St) : Bool := (cur s).any Ending

def itemsOk (m : Own) (r : Resp) : Prop := ∀ it ∈ r.items, m.fits it
def Clean (s : St) : Prop := s.resp = none ∨ s.rx = .free

inductive Phase (tol : Bool) (s : St) (m : Own) : Prop
  | p0 (hc : s.cmd = .noCommand) (hq : s.queue = none) (ha : m.answer = .none) (hx : passive s.rx = true)
      (hr : Clean s)
  | pa (hw : cw s = true) (hq : s.queue = none) (ha : m.answer = .none)
      (hx : passive s.rx = true ∨ procish s.rx = true)
      (hr : Clean s ∨ ∀ r, s.resp = some r → itemsOk m r) (hcb : s.cb ≠ none → m.called = false)
  | pd (r : Resp) (hw : cw s = true) (hq : s.queue = none) (ha : m.answer = .final r.status) (hx : s.rx = .done r)
      (hi : itemsOk m r) (hcb : s.cb ≠ none → m.called = false)
  | ph (r : Resp) (hw : cw s = true) (hc : s.cmd = .noCommand) (hq : s.queue = none)
      (ha : m.answer = .final r.status) (hx : s.rx = .handle r) (hi : itemsOk m r)
      (hcb : s.cb ≠ none → m.called = false)
  | pl (r : Resp) (hw : cw s = true) (hc : s.cmd = .noCommand) (hq : s.queue = none)
      (ha : m.answer = .final true) (hx : s.rx = .call r) (hi : itemsOk m r)
      (hn : s.cb ≠ none) (hcb : m.called = false)
  | pi (i : Nat) (r : Resp) (hw : cw s = true) (hc : s.cmd = .noCommand) (hq : s.queue = none)
      (ha : m.answer = .final true) (hx : s.rx = .inCb i r) (hi : itemsOk m r)
      (hn : m.req = some i) (hcb : m.called = false)
  | ps (st : PktStatus) (hw : cw s = true) (hc : s.cmd = .noCommand) (hq : s.queue = none)
      (ha : m.answer.status = some st) (hx : s.rx = .send st)
  | pc (st : PktStatus) (hw : cw s = true) (hc : s.cmd = .noCommand) (hq : s.queue = some st)
      (ha : m.answer.status = some st) (hx : passive s.rx = true) (hr : Clean s)
  /-- the owner gave up waiting -/
  | pt (htol : tol = true) (hw : cend s = true) (hq : s.queue = none) (ha : m.answer = .none) (hx : passive s.rx = true) (hr : Clean s)

structure Inv2 (tol strict : Bool) (s : St) (m : Own) : Prop where
  lines : m.lines = s.received.length
  req : m.req = (cur s).bind active
  sinceLe : m.since ≤ m.lines
  loose : strict = false → m.req ≠ none → m.since ≤ m.lines - 1
  held : ∀ n, held s.rx = some n → n + 1 = m.lines ∧ (cw s = true → m.since ≤ n ∧ (strict = true → m.sent = true))
  sending : strict = true → csend s = true → s.rx = .idle ∧ s.resp = none
  sent : strict = true → cw s = true → csend s = false → m.sent = true
  cb : ∀ j, s.cb = some j → (cur s).any cbZone = true ∧ m.req = some j
  fresh : (cur s).any early = true → m.called = false
  ph : Phase tol s m

theorem inv2_init (tol strict : Bool) : Inv2 tol strict init own0 :=
  ⟨rfl, rfl, Nat.le_refl _, fun _ h => absurd rfl h, by simp [init, ConcLemmas.held], by simp [csend, cur, init],
    by simp [cw, cur, init], by simp [init], by simp [cur, init], .p0 rfl rfl rfl rfl (.inl rfl)⟩

/-- A thread of the mutex owner that does not wait. -/
theorem phase0' {tol : Bool} {s : St} {m : Own} (h : Phase tol s m) (hw : cw s = false) :
    s.queue = none ∧ m.answer = .none ∧ passive s.rx = true ∧ Clean s := by
  cases h with
  | p0 hc hq ha hx hr => exact ⟨hq, ha, hx, hr⟩
  | pt _ _ hq ha hx hr => exact ⟨hq, ha, hx, hr⟩
  | _ => rename_i h; simp_all

/-- A thread of the mutex owner that neither waits nor ends. -/
theorem phase0 {tol : Bool} {s : St} {m : Own} (h : Phase tol s m) (hw : cw s = false) (he : cend s = false) :
    s.cmd = .noCommand ∧ s.queue = none ∧ m.answer = .none ∧ passive s.rx = true ∧ Clean s := by
  cases h with
  | p0 hc hq ha hx hr => exact ⟨hc, hq, ha, hx, hr⟩
  | pt _ h => simp_all
  | _ => rename_i h; simp_all


/-- A step of the owner between two places where it does not wait. -/
theorem inv2_move {tol strict : Bool} {s s' : St} {m : Own} {p q : Thr} (J : Inv2 tol strict s m)
    (hq : cur s = some q) (hp : cur s' = some p) (wq : waits q = false) (wp : waits p = false)
    (hact : active p = active q) (hcmd : s'.cmd = .noCommand) (hqu : s'.queue = s.queue) (hrx : s'.rx = s.rx)
    (hresp : s'.resp = s.resp) (hrec : s'.received = s.received)
    (hcb : ∀ j, s'.cb = some j → cbZone p = true ∧ active p = some j)
    (hea : early p = true → early q = true) : Inv2 tol strict s' m := by
  obtain ⟨k2, k3, k4, k5⟩ := phase0' J.ph (by simp [cw, hq, wq])
  have hcw : cw s' = false := by simp [cw, hp, wp]
  have hs : csend s' = false := by
    simp only [csend, hp, Option.any_some]; revert wp; cases p <;> simp [waits, sendingB]
  have hr : m.req = active q := by rw [J.req, hq]; rfl
  refine ⟨by rw [hrec]; exact J.lines, by rw [hp, hr, ← hact]; rfl, J.sinceLe, J.loose, ?_, ?_, ?_, ?_, ?_, ?_⟩
  · intro n h; rw [hrx] at h; exact ⟨(J.held n h).1, by simp [hcw]⟩
  · simp [hs]
  · simp [hcw]
  · intro j h
    obtain ⟨h1, h2⟩ := hcb j h
    exact ⟨by simp [hp, h1], by rw [hr, ← hact, h2]⟩
  · intro h; apply J.fresh; rw [hq]; rw [hp] at h; simp only [Option.any_some] at h ⊢; exact hea h
  · exact .p0 hcmd (by rw [hqu]; exact k2) k3 (by rw [hrx]; exact k4) (by unfold Clean; rw [hrx, hresp]; exact k5)

/-- The owner sets the command type. -/
theorem inv2_arm {tol strict : Bool} {s s' : St} {m : Own} {p q : Thr} (J : Inv2 tol strict s m)
    (hq : cur s = some q) (hp : cur s' = some p) (wq : waits q = false) (wp : waits p = true)
    (sp : sendingB p = true)
    (hact : active p = active q) (hqu : s'.queue = s.queue) (hrx : s'.rx = s.rx)
    (hresp : s'.resp = s.resp) (hrec : s'.received = s.received)
    (hcb : ∀ j, s'.cb = some j → cbZone p = true ∧ active p = some j ∧ early q = true)
    (hquiet : strict = true → s.rx = .idle) (hne : active q ≠ none) : Inv2 tol strict s' m := by
  obtain ⟨k2, k3, k4, k5⟩ := phase0' J.ph (by simp [cw, hq, wq])
  have hcw : cw s' = true := by simp [cw, hp, wp]
  have hs : csend s' = true := by simp [csend, hp, sp]
  have hr : m.req = active q := by rw [J.req, hq]; rfl
  refine ⟨by rw [hrec]; exact J.lines, by rw [hp, hr, ← hact]; rfl, J.sinceLe, J.loose, ?_, ?_, ?_, ?_, ?_, ?_⟩
  · intro n h
    rw [hrx] at h
    cases strict with
    | true => rw [hquiet rfl] at h; simp [ConcLemmas.held] at h
    | false =>
      have h1 := (J.held n h).1
      have h2 := J.loose rfl (by rw [hr]; exact hne)
      exact ⟨h1, fun _ => ⟨by omega, by simp⟩⟩
  · intro h _
    have h1 := hquiet h
    rw [hrx, hresp]
    refine ⟨h1, ?_⟩
    rcases k5 with h | h
    · exact h
    · rw [h1] at h; cases h
  · simp [hs]
  · intro j h
    obtain ⟨h1, h2, _⟩ := hcb j h
    exact ⟨by simp [hp, h1], by rw [hr, ← hact, h2]⟩
  · intro h; rw [hp] at h; simp only [Option.any_some] at h
    revert wp h; cases p <;> simp [waits, early]
  · refine .pa hcw (by rw [hqu]; exact k2) k3 (.inl (by rw [hrx]; exact k4))
      (.inl (by unfold Clean; rw [hrx, hresp]; exact k5)) ?_
    intro h
    obtain ⟨j, hj⟩ := Option.ne_none_iff_exists'.1 h
    apply J.fresh; rw [hq]; simp only [Option.any_some]; exact (hcb j hj).2.2

/-- A step of the owner while it waits; possibly its bytes are handed to the transport. -/
theorem inv2_wait {tol strict : Bool} {s s' : St} {m m' : Own} {p q : Thr} (J : Inv2 tol strict s m)
    (hq : cur s = some q) (hp : cur s' = some p) (wq : waits q = true) (wp : waits p = true)
    (sp : sendingB p = false) (hact : active p = active q)
    (hz : cbZone p = cbZone q)
    (hcmd : s'.cmd = s.cmd) (hqu : s'.queue = s.queue) (hrx : s'.rx = s.rx) (hcb : s'.cb = s.cb)
    (hresp : s'.resp = s.resp) (hrec : s'.received = s.received)
    (hm : (sendingB q = true ∧ m' = { m with sent := true, since := if strict then m.lines else m.since }) ∨
      (sendingB q = false ∧ m' = m)) : Inv2 tol strict s' m' := by
  have hcw : cw s' = true := by simp [cw, hp, wp]
  have hcw0 : cw s = true := by simp [cw, hq, wq]
  have hs : csend s' = false := by simp [csend, hp, sp]
  have hs0 : csend s = sendingB q := by simp [csend, hq]
  have hlines : m'.lines = m.lines := by rcases hm with ⟨_, rfl⟩ | ⟨_, rfl⟩ <;> rfl
  have hreq : m'.req = m.req := by rcases hm with ⟨_, rfl⟩ | ⟨_, rfl⟩ <;> rfl
  have hans : m'.answer = m.answer := by rcases hm with ⟨_, rfl⟩ | ⟨_, rfl⟩ <;> rfl
  have hcalled : m'.called = m.called := by rcases hm with ⟨_, rfl⟩ | ⟨_, rfl⟩ <;> rfl
  have hsent : strict = true → m'.sent = true := by
    intro h
    rcases hm with ⟨_, rfl⟩ | ⟨h', rfl⟩
    · rfl
    · exact J.sent h hcw0 (by rw [hs0, h'])
  have hsince : (strict = true ∧ sendingB q = true) ∨ m'.since = m.since := by
    rcases hm with ⟨h, rfl⟩ | ⟨h', rfl⟩
    · cases strict
      · right; rfl
      · left; exact ⟨rfl, h⟩
    · right; rfl
  have hidle : (strict = true ∧ sendingB q = true) → s.rx = .idle ∧ s.resp = none := by
    rintro ⟨h1, h2⟩; exact J.sending h1 (by rw [hs0]; exact h2)
  have hfits : (strict = true ∧ sendingB q = true) ∨ ∀ it, m.fits it → m'.fits it := by
    rcases hsince with h | h
    · exact .inl h
    · right; rintro it ⟨n, e, h1, h2⟩; exact ⟨n, e, by omega, by omega⟩
  refine ⟨by rw [hlines, hrec]; exact J.lines, by rw [hreq, J.req, hq, hp]; simp [hact], ?_, ?_, ?_, ?_, ?_, ?_, ?_, ?_⟩
  · rcases hm with ⟨_, rfl⟩ | ⟨_, rfl⟩
    · simp only; split
      · exact Nat.le_refl _
      · exact J.sinceLe
    · exact J.sinceLe
  · intro h1 h2
    rw [hreq] at h2
    rw [hlines]
    rcases hsince with h | h
    · rw [h.1] at h1; cases h1
    · rw [h]; exact J.loose h1 h2
  · intro n h
    rw [hrx] at h
    rcases hsince with h' | h'
    · rw [(hidle h').1] at h; simp [ConcLemmas.held] at h
    · have := J.held n h
      exact ⟨by rw [hlines]; exact this.1, fun _ => ⟨by rw [h']; exact (this.2 hcw0).1, hsent⟩⟩
  · simp [hs]
  · intro h _ _; exact hsent h
  · intro j h
    rw [hcb] at h
    have := J.cb j h
    rw [hq] at this
    exact ⟨by rw [hp]; simpa [hz] using this.1, by rw [hreq]; exact this.2⟩
  · intro h; rw [hp] at h; simp only [Option.any_some] at h
    revert wp h; cases p <;> simp [waits, early]
  · have hcl : Clean s → Clean s' := by unfold Clean; rw [hrx, hresp]; exact id
    rcases hfits with hst | hf
    · obtain ⟨hi, hre⟩ := hidle hst
      have hcl' : Clean s' := .inl (by rw [hresp]; exact hre)
      cases J.ph with
      | p0 hc hq' ha hx hr =>
        exact .p0 (by rw [hcmd]; exact hc) (by rw [hqu]; exact hq') (by rw [hans]; exact ha) (by rw [hrx]; exact hx) hcl'
      | pa hw hq' ha hx hr hcb' =>
        exact .pa hcw (by rw [hqu]; exact hq') (by rw [hans]; exact ha) (by rw [hrx]; exact hx) (.inl hcl')
          (by rw [hcb, hcalled]; exact hcb')
      | pc st hw hc hq' ha hx hr =>
        exact .pc st hcw (by rw [hcmd]; exact hc) (by rw [hqu]; exact hq') (by rw [hans]; exact ha)
          (by rw [hrx]; exact hx) hcl'
      | pt _ he => exact absurd he (by rw [cend, hq]; revert wq; cases q <;> simp [waits, Ending])
      | pd r hw hq' ha hx => rw [hi] at hx; cases hx
      | ph r hw hc hq' ha hx => rw [hi] at hx; cases hx
      | pl r hw hc hq' ha hx => rw [hi] at hx; cases hx
      | pi i r hw hc hq' ha hx => rw [hi] at hx; cases hx
      | ps st hw hc hq' ha hx => rw [hi] at hx; cases hx
    · have hio : ∀ r, itemsOk m r → itemsOk m' r := fun r h it hit => hf it (h it hit)
      cases J.ph with
      | p0 hc hq' ha hx hr =>
        exact .p0 (by rw [hcmd]; exact hc) (by rw [hqu]; exact hq') (by rw [hans]; exact ha) (by rw [hrx]; exact hx)
          (hcl hr)
      | pa hw hq' ha hx hr hcb' =>
        refine .pa hcw (by rw [hqu]; exact hq') (by rw [hans]; exact ha) (by rw [hrx]; exact hx) ?_
          (by rw [hcb, hcalled]; exact hcb')
        rcases hr with hr | hr
        · exact .inl (hcl hr)
        · right; intro r h; rw [hresp] at h; exact hio r (hr r h)
      | pd r hw hq' ha hx hi hcb' =>
        exact .pd r hcw (by rw [hqu]; exact hq') (by rw [hans]; exact ha) (by rw [hrx]; exact hx) (hio r hi)
          (by rw [hcb, hcalled]; exact hcb')
      | ph r hw hc hq' ha hx hi hcb' =>
        exact .ph r hcw (by rw [hcmd]; exact hc) (by rw [hqu]; exact hq') (by rw [hans]; exact ha)
          (by rw [hrx]; exact hx) (hio r hi) (by rw [hcb, hcalled]; exact hcb')
      | pl r hw hc hq' ha hx hi hn hcb' =>
        exact .pl r hcw (by rw [hcmd]; exact hc) (by rw [hqu]; exact hq') (by rw [hans]; exact ha)
          (by rw [hrx]; exact hx) (hio r hi) (by rw [hcb]; exact hn) (by rw [hcalled]; exact hcb')
      | pi i r hw hc hq' ha hx hi hn hcb' =>
        exact .pi i r hcw (by rw [hcmd]; exact hc) (by rw [hqu]; exact hq') (by rw [hans]; exact ha)
          (by rw [hrx]; exact hx) (hio r hi) (by rw [hreq]; exact hn) (by rw [hcalled]; exact hcb')
      | ps st hw hc hq' ha hx =>
        exact .ps st hcw (by rw [hcmd]; exact hc) (by rw [hqu]; exact hq') (by rw [hans]; exact ha)
          (by rw [hrx]; exact hx)
      | pc st hw hc hq' ha hx hr =>
        exact .pc st hcw (by rw [hcmd]; exact hc) (by rw [hqu]; exact hq') (by rw [hans]; exact ha)
          (by rw [hrx]; exact hx) (hcl hr)
      | pt _ he => exact absurd he (by rw [cend, hq]; revert wq; cases q <;> simp [waits, Ending])

/-- The owner takes a status from the queue. -/
theorem inv2_got {tol strict : Bool} {s s' : St} {m : Own} {p q : Thr} {st : PktStatus} {i : Nat} (J : Inv2 tol strict s m)
    (hq : cur s = some q) (hp : cur s' = some p) (wp : waits p = false)
    (hqs : s.queue = some st) (hqn : s'.queue = none)
    (hact : active p = active q) (hi : active q = some i) (hz : cbZone p = cbZone q) (he : early p = false)
    (hcmd : s'.cmd = s.cmd) (hrx : s'.rx = s.rx) (hcb : s'.cb = s.cb)
    (hresp : s'.resp = s.resp) (hrec : s'.received = s.received) :
    ownStep strict m (.got i st) = some { m with answer := .none, sent := false } ∧
      Inv2 tol strict s' { m with answer := .none, sent := false } := by
  have hcw : cw s' = false := by simp [cw, hp, wp]
  have hs : csend s' = false := by
    simp only [csend, hp, Option.any_some]; revert wp; cases p <;> simp [waits, sendingB]
  have hr : m.req = some i := by rw [J.req, hq]; exact hi
  have hph : s.cmd = .noCommand ∧ m.answer.status = some st ∧ passive s.rx = true ∧ Clean s := by
    cases J.ph with
    | p0 _ hq' => rw [hqs] at hq'; cases hq'
    | pa _ hq' => rw [hqs] at hq'; cases hq'
    | pd _ _ hq' => rw [hqs] at hq'; cases hq'
    | ph _ _ _ hq' => rw [hqs] at hq'; cases hq'
    | pl _ _ _ hq' => rw [hqs] at hq'; cases hq'
    | pi _ _ _ _ hq' => rw [hqs] at hq'; cases hq'
    | ps _ _ _ hq' => rw [hqs] at hq'; cases hq'
    | pt _ _ hq' => rw [hqs] at hq'; cases hq'
    | pc st' _ hc hq' ha hx hr => rw [hqs] at hq'; cases hq'; exact ⟨hc, ha, hx, hr⟩
  refine ⟨by simp [ownStep, hr, hph.2.1], ?_⟩
  refine ⟨by rw [hrec]; exact J.lines, by rw [hp]; simp [hr, hact, hi], J.sinceLe, J.loose, ?_, ?_, ?_, ?_, ?_, ?_⟩
  · intro n h; rw [hrx] at h; exact ⟨(J.held n h).1, by simp [hcw]⟩
  · simp [hs]
  · simp [hcw]
  · intro j h
    rw [hcb] at h
    have := J.cb j h
    rw [hq] at this
    exact ⟨by rw [hp]; simpa [hz] using this.1, this.2⟩
  · intro h; rw [hp] at h; simp [he] at h
  · exact .p0 (by rw [hcmd]; exact hph.1) hqn rfl (by rw [hrx]; exact hph.2.2.1)
      (by unfold Clean; rw [hrx, hresp]; exact hph.2.2.2)

end Cellular.ConcLemmas
