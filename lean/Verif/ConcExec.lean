import Verif.ConcExplain
/-!
# Requests: executions by computation

An executable scheduler for the transition system of `Verif.Conc`, used to exhibit concrete executions.
Nothing is proved about all executions from it.
-/

namespace Cellular.Conc
open Cellular
open Cellular.Pktio (CmdType MsgType Item Resp Cfg getMsgType processLine writeMax)

/-- A scheduling decision with the choices of the environment. -/
inductive Act
  /-- thread `t` makes a request -/
  | call (t : Nat) (r : Req)
  /-- thread `t` goes on; the transport accepts `n` bytes -/
  | go (t : Nat) (n : Nat)
  /-- thread `t` gives up waiting -/
  | expire (t : Nat)
  /-- a line arrives -/
  | recv (l : Str)
  /-- the receive task goes on; a callback returns `st` (a prefix callback: keep = ok) -/
  | rx (st : PktStatus)

def goThr (comm : Bool) (t n : Nat) (s : St) : Option St :=
  match s.thr t with
  | .waiting i r => match s.mutex with
    | none => some (({ s with mutex := some t }.set t (.install i r)).emit (.start i))
    | some _ => none
  | .install i r => some ({ s with
        extra := r.kind.installExtra i s.extra, recvCb := r.kind.installRecv i s.recvCb,
        sendCb := r.kind.installSend i s.sendCb }.set t (.raw0 i r))
  | .raw0 i r => match r.cmd with
    | none => some (s.set t (.uninstall i r .badRequest))
    | some _ => some ({ s with cb := if r.hasCb then some i else none }.set t (.raw1 i r))
  | .raw1 i r => match r.cmd with
    | none => none
    | some text => match sendCheck comm text r with
      | .error e => some (s.set t (.raw4 i r e))
      | .ok p => some ({ s with cmd := r.type, pfxOn := p.isSome, pfxBuf := p.getD s.pfxBuf }.set t (.raw2 i r))
  | .raw2 i r => match r.cmd with
    | none => none
    | some text => some ((s.set t (.raw3 i r)).emit (.command i text))
  | .raw3 i r => match s.queue with
    | none => none
    | some st => some (({ s with queue := none }.set t (.raw4 i r st)).emit (.got i st))
  | .raw4 i r st => some ({ s with cmd := .noCommand, cb := none }.set t (.uninstall i r st))
  | .uninstall i r st => some ({ s with
        extra := r.kind.removeExtra s.extra, recvCb := r.kind.removeRecv s.recvCb,
        sendCb := r.kind.removeSend s.sendCb }.set t (afterRaw i r.kind.data st))
  | .data0 i d => match d.data, d.sentPtr with
    | some b, true => some ({ s with cmd := .noResult }.set t (.data1 i d b))
    | _, _ => none
  | .data1 i d b =>
    if n = b.length then some ((s.set t (afterData i d n)).emit (.data i b n))
    else some (((s.set t (.release i .sendError (some n))).emit (.data i b n)).emit (.sendError i))
  | .data2 i _ k e =>
    if n = e.length then some ((s.set t (.data3 i k)).emit (.pattern i e n))
    else some (((s.set t (.release i .sendError (some k))).emit (.pattern i e n)).emit (.sendError i))
  | .data3 i k => match s.queue with
    | none => none
    | some st => some (({ s with queue := none }.set t (.data4 i k st)).emit (.got i st))
  | .data4 i k st => some ({ s with cmd := .noCommand }.set t (.release i st (some k)))
  | .release i st sent => some (({ s with mutex := none }.set t .idle).emit (.ret i st sent))
  | .idle => none

theorem goThr_sound {comm : Bool} {t n : Nat} {s s' : St} (h : goThr comm t n s = some s') : ThrStep comm t s s' := by
  unfold goThr at h
  split at h
  case h_1 i r hp =>
    split at h
    · cases h; exact .acquire s i r hp ‹_›
    · cases h
  case h_2 i r hp => cases h; exact .install s i r hp
  case h_3 i r hp =>
    split at h
    · cases h; exact .raw0null s i r hp ‹_›
    · cases h; exact .raw0 s i r _ hp ‹_›
  case h_4 i r hp =>
    split at h
    · cases h
    · split at h
      · cases h; exact .raw1fail s i r _ _ hp ‹_› ‹_›
      · cases h; exact .raw1 s i r _ _ hp ‹_› ‹_›
  case h_5 i r hp =>
    split at h
    · cases h
    · cases h; exact .raw2 s i r _ hp ‹_›
  case h_6 i r hp =>
    split at h
    · cases h
    · cases h; exact .raw3got s i r _ hp ‹_›
  case h_7 i r st hp => cases h; exact .raw4 s i r st hp
  case h_8 i r st hp => cases h; exact .uninstall s i r st hp
  case h_9 i d hp =>
    split at h
    · cases h; exact .data0 s i d _ hp ‹_› ‹_›
    · cases h
  case h_10 i d b hp =>
    split at h
    · cases h; exact .data1 s i d b n hp ‹_›
    · cases h; exact .data1short s i d b n hp ‹_›
  case h_11 i d k e hp =>
    split at h
    · cases h; exact .data2 s i d k e n hp ‹_›
    · cases h; exact .data2short s i d k e n hp ‹_›
  case h_12 i k hp =>
    split at h
    · cases h
    · cases h; exact .data3got s i k _ hp ‹_›
  case h_13 i k st hp => cases h; exact .data4 s i k st hp
  case h_14 i st sent hp => cases h; exact .release s i st sent hp
  case h_15 => cases h

def expireThr (t : Nat) (s : St) : Option St :=
  match s.thr t, s.queue with
  | .raw3 i r, none => some ((s.set t (.raw4 i r .timedOut)).emit (.timeout i))
  | .data3 i n, none => some ((s.set t (.data4 i n .timedOut)).emit (.timeout i))
  | _, _ => none

theorem expireThr_sound {comm : Bool} {t : Nat} {s s' : St} (h : expireThr t s = some s') : ThrStep comm t s s' := by
  unfold expireThr at h
  split at h
  · cases h; exact .raw3timeout s _ _ ‹_› ‹_›
  · cases h; exact .data3timeout s _ _ ‹_› ‹_›
  · cases h

def goRx (cfg : Cfg) (st : PktStatus) (s : St) : Option St :=
  match s.rx with
  | .idle => none
  | .got n => some { s with
        rx := .pre n s.recvCb s.sendCb, log := s.log ++ fetchedBy s.recvCb ++ fetchedBy s.sendCb }
  | .pre n none none => some { s with rx := .classify n }
  | .pre n _ (some i) => some ({ s with rx := if (decide (st = PktStatus.ok)) then .classify n else .idle }.emit (.prefixCb i))
  | .pre n (some i) none => some ({ s with rx := if (decide (st = PktStatus.ok)) then .classify n else .idle }.emit (.prefixCb i))
  | .classify n => some { s with rx := .classify2 n s.pfxOn }
  | .classify2 n on => some { s with rx := classified cfg s n on }
  | .proc n => some { s with rx := .proc2 n s.cmd }
  | .proc2 n t => match hp : procResult cfg s n t with
    | (.ok, r) => some { s with
        rx := .done r, resp := some r, log := s.log ++ consult s n ++ [.final r.status n] }
    | (st', r) => if st' = .pendingBuffer ∨ st' = .pendingData then
          some { s with rx := .idle, resp := some r, log := s.log ++ consult s n }
        else some { s with rx := .undef n, resp := some r, log := s.log ++ consult s n }
  | .done r => some { s with rx := .handle r, cmd := .noCommand, pfxOn := false }
  | .handle r => some { s with rx := handled r s.cb }
  | .call r => match s.cb with
    | none => some ({ s with rx := .crashed }.emit .nullCall)
    | some i => some { s with rx := .inCb i r }
  | .inCb i r => some ({ s with rx := .send st }.emit (.callback i r.items st))
  | .send st => some { s with rx := .free, queue := some (s.queue.getD st) }
  | .free => some { s with rx := .idle, resp := none }
  | .undef n => if cfg.undefCb (s.line n) = .ok then some { s with rx := .idle } else some { s with rx := .undefFail }
  | .undefFail => some { s with rx := .idle, cmd := .noCommand, pfxOn := false, resp := none }
  | .crashed => none

theorem goRx_sound {cfg : Cfg} {st : PktStatus} {s s' : St} (h : goRx cfg st s = some s') : RxStep cfg s s' := by
  unfold goRx at h
  split at h
  case h_1 => cases h
  case h_2 n hp => cases h; exact .fetch s n hp
  case h_3 n hp => cases h; exact .preNone s n hp
  case h_4 n d i hp => cases h; exact .preSend s n d i _ hp
  case h_5 n i hp => cases h; exact .preRecv s n i _ hp
  case h_6 n hp => cases h; exact .readPrefix s n hp
  case h_7 n on hp => cases h; exact .classify s n on hp
  case h_8 n hp => cases h; exact .readType s n hp
  case h_9 n t hp =>
    split at h
    · cases h; exact .procDone s n t _ hp ‹_›
    · rename_i st' r hne hpr
      split at h
      · cases h; exact .procPending s n t st' r hp hpr ‹_›
      · rename_i hs
        cases h
        refine .procUndef s n t st' r hp hpr ⟨hne, fun e => hs (.inl e), fun e => hs (.inr e)⟩
  case h_10 r hp => cases h; exact .done s r hp
  case h_11 r hp => cases h; exact .handle s r hp
  case h_12 r hp =>
    split at h
    · cases h; exact .callNull s r hp ‹_›
    · cases h; exact .call s r _ hp ‹_›
  case h_13 i r hp => cases h; exact .callback s r i st hp
  case h_14 st' hp => cases h; exact .send s st' hp
  case h_15 hp => cases h; exact .free s hp
  case h_16 n hp =>
    split at h
    · cases h; exact .undefOk s n hp ‹_›
    · cases h; exact .undefRefused s n hp ‹_›
  case h_17 hp => cases h; exact .undefFail s hp
  case h_18 => cases h

/-- One decision. -/
def next (cfg : Cfg) (comm : Bool) (a : Act) (s : St) : Option St :=
  match a with
  | .call t r => match s.thr t with
    | .idle => some { s.set t (.waiting s.reqs.length r) with reqs := s.reqs ++ [r] }
    | _ => none
  | .go t n => goThr comm t n s
  | .expire t => expireThr t s
  | .recv l => match s.rx with
    | .idle => some { s with
        received := s.received ++ [l], rx := .got s.received.length, log := s.log ++ [.recv s.received.length] }
    | _ => none
  | .rx st => goRx cfg st s

theorem next_sound {cfg : Cfg} {comm : Bool} {a : Act} {s s' : St} (h : next cfg comm a s = some s') :
    Step cfg comm s s' := by
  unfold next at h
  split at h
  · split at h
    · cases h; exact .thr _ (.call s _ ‹_›)
    · cases h
  · exact .thr _ (goThr_sound h)
  · exact .thr _ (expireThr_sound h)
  · split at h
    · cases h; exact .rx (.receive s _ ‹_›)
    · cases h
  · exact .rx (goRx_sound h)

/-- A schedule. -/
def exec (cfg : Cfg) (comm : Bool) : List Act → St → Option St
  | [], s => some s
  | a :: as, s => (next cfg comm a s).bind (exec cfg comm as)

theorem exec_sound {cfg : Cfg} {comm : Bool} {as : List Act} {s s' : St} (hr : Reachable cfg comm s)
    (h : exec cfg comm as s = some s') : Reachable cfg comm s' := by
  induction as generalizing s with
  | nil => cases h; exact hr
  | cons a as ih =>
    unfold exec at h
    cases hn : next cfg comm a s with
    | none => rw [hn] at h; cases h
    | some s1 => rw [hn] at h; exact ih (hr.step (next_sound hn)) h

/-- A property of what a schedule leads to. -/
theorem exec_reach {cfg : Cfg} {comm : Bool} (as : List Act) {α : Type} (f : St → α) (v : α)
    (h : (exec cfg comm as init).map f = some v) : ∃ s, Reachable cfg comm s ∧ f s = v := by
  cases hs : exec cfg comm as init with
  | none => rw [hs] at h; cases h
  | some s => rw [hs] at h; exact ⟨s, exec_sound .init hs, by simpa using h⟩

/-- A check for `Quiet`. -/
def quietB (s s' : St) : Bool :=
  let c := (s.mutex.map s.thr).any ConcLemmas.sendingB
  let c' := (s'.mutex.map s'.thr).any ConcLemmas.sendingB
  (!c' || (match s.rx with | .idle => true | _ => false) || (c && decide (s.mutex = s'.mutex))) &&
  (!c || decide (s'.received = s.received))

theorem sending_cur {s : St} (I : ConcLemmas.Inv s) {t : Nat} (h : Sending (s.thr t)) :
    s.mutex = some t ∧ (s.mutex.map s.thr).any ConcLemmas.sendingB = true := by
  have hm : s.mutex = some t := (I.m t).1 (by
    revert h; cases s.thr t <;> simp [Sending, Spec.active])
  exact ⟨hm, by rw [hm]; simpa using (ConcLemmas.sendingB_iff _).2 h⟩

theorem quietB_sound {s s' : St} (I : ConcLemmas.Inv s) (I' : ConcLemmas.Inv s') (h : quietB s s' = true) :
    Quiet s s' := by
  unfold quietB at h
  simp only [Bool.and_eq_true, Bool.or_eq_true, decide_eq_true_eq, Bool.not_eq_true'] at h
  obtain ⟨h1, h2⟩ := h
  refine ⟨?_, ?_⟩
  · intro t hn hs
    obtain ⟨k1, k2⟩ := sending_cur I' hs
    rcases h1 with (h1 | h1) | ⟨h1, h1'⟩
    · rw [k2] at h1; cases h1
    · split at h1
      · assumption
      · cases h1
    · rw [h1', k1] at h1
      exact absurd ((ConcLemmas.sendingB_iff _).1 (by simpa using h1)) hn
  · intro t hs
    obtain ⟨k1, k2⟩ := sending_cur I hs
    rcases h2 with h2 | h2
    · rw [k2] at h2; cases h2
    · exact h2

/-- Schedules in which the modem is silent while a step is being sent. -/
def execQuiet (cfg : Cfg) (comm : Bool) : List Act → St → Option St
  | [], s => some s
  | a :: as, s => (next cfg comm a s).bind (fun s' => if quietB s s' then execQuiet cfg comm as s' else none)

theorem execQuiet_sound {cfg : Cfg} {comm : Bool} {as : List Act} {s s' : St} (hr : Run cfg comm Quiet s)
    (h : execQuiet cfg comm as s = some s') : Run cfg comm Quiet s' := by
  induction as generalizing s with
  | nil => cases h; exact hr
  | cons a as ih =>
    unfold execQuiet at h
    cases hn : next cfg comm a s with
    | none => rw [hn] at h; cases h
    | some s1 =>
      rw [hn] at h
      simp only [Option.bind_some] at h
      split at h
      · rename_i hp
        have hs := next_sound hn
        exact ih (hr.step hs (quietB_sound (ConcLemmas.inv_reachable hr.reachable)
          (ConcLemmas.inv_reachable (hr.reachable.step hs)) hp)) h
      · cases h

theorem execQuiet_reach {cfg : Cfg} {comm : Bool} (as : List Act) {α : Type} (f : St → α) (v : α)
    (h : (execQuiet cfg comm as init).map f = some v) : ∃ s, Run cfg comm Quiet s ∧ f s = v := by
  cases hs : execQuiet cfg comm as init with
  | none => rw [hs] at h; cases h
  | some s => rw [hs] at h; exact ⟨s, execQuiet_sound .init hs, by simpa using h⟩

end Cellular.Conc
