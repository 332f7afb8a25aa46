import Verif.ConcPend
import Verif.ConcExec
/-!
# Requests: C22 - C27

Statements are about the history (`St.log`, the list of events in order) of an arbitrary execution of any number
of threads and the receive task.  `Reachable`: all executions; `Run … Quiet`: those in which the modem is silent
while a step is about to be sent; `NoLoss`: no request timed out and the transport accepted all data.
-/

namespace Cellular.Props
open Cellular Spec Conc ConcLemmas
open Cellular.Pktio (CmdType MsgType Item Resp Cfg getMsgType processLine writeMax)

/-! ## Example configuration, requests and schedules -/

/-- "OK" and "ER" are the result codes, undefined lines are refused. -/
def exCfg : Cfg :=
  { size := 64, urcWo := none, succ := some [[79, 75]], err := some [[69, 82]], extra := none, inputCb := none,
    undefCb := fun _ => .invalidData, urcEdit := id }

/-- A command without response lines and without callback. -/
def exReq : Req := { cmd := some [65, 84], type := .noResult, pfx := none, hasCb := false, kind := .plain }
/-- A command with response lines and a callback. -/
def exReqCb : Req := { cmd := some [65, 84], type := .multiWoPrefix, pfx := none, hasCb := true, kind := .plain }
/-- A data send of two bytes with end pattern. -/
def exReqData : Req :=
  { cmd := some [65, 84], type := .noResult, pfx := none, hasCb := false,
    kind := .dataSend ⟨some [1, 2], true, some [26]⟩ false }
/-- A data receive with a prefix callback. -/
def exReqRecv : Req :=
  { cmd := some [65, 84], type := .noResult, pfx := none, hasCb := false, kind := .dataRecv true }
/-- A command with its own success token "GO". -/
def exReqTok : Req :=
  { cmd := some [65, 84], type := .noResult, pfx := none, hasCb := false, kind := .tokens [[71, 79]] }

/-- `k` steps of a thread / of the receive task (callbacks return ok). -/
def gos (t k : Nat) : List Act := List.replicate k (.go t 0)
def rxs (k : Nat) : List Act := List.replicate k (.rx .ok)
/-- A thread makes a request and sends its command. -/
def begins (t : Nat) (r : Req) : List Act := .call t r :: gos t 5

/-! ## C22 -/

/-- No two threads are executing a request. -/
theorem C22_one_at_a_time {cfg : Cfg} {comm : Bool} {s : St} (h : Reachable cfg comm s) {t u : Nat}
    (ht : active (s.thr t) ≠ none) (hu : active (s.thr u) ≠ none) : t = u := by
  have I := inv_reachable h
  have h1 := (I.m t).1 ht
  have h2 := (I.m u).1 hu
  rw [h1] at h2
  exact Option.some.inj h2

/-- Everything a thread does for a request (sending, waiting, returning) it does while that request is the one in
progress. -/
theorem C22_exclusive {cfg : Cfg} {comm : Bool} {s : St} (h : Reachable cfg comm s) {a b : List Ev} {e : Ev} {i : Nat}
    (hl : s.log = a ++ e :: b) (he : doneFor e = some i) : InProgress a i := by
  have hs := (inv_reachable h).ser
  rw [hl] at hs
  obtain ⟨m, m', hm, hst⟩ := serial_prefix hs
  have := serialStep_doneFor hst he
  subst this
  exact serial_open hm

/-- A request starts only after every request that started before has returned. -/
theorem C22_waits {cfg : Cfg} {comm : Bool} {s : St} (h : Reachable cfg comm s) {x y z : List Ev} {i j : Nat}
    (hl : s.log = x ++ .start i :: y ++ .start j :: z) : ∃ st sent, Ev.ret i st sent ∈ y := by
  have hs := (inv_reachable h).ser
  rw [hl] at hs
  obtain ⟨m, m', hm, hst⟩ := serial_prefix hs
  rcases serial_before hm with h' | ⟨h', _⟩
  · exact h'
  · subst h'; simp [serialStep] at hst

/-- A request starts once. -/
theorem C22_start_once {cfg : Cfg} {comm : Bool} {s : St} (h : Reachable cfg comm s) {a b : List Ev} {i : Nat}
    (hl : s.log = a ++ .start i :: b) : Ev.start i ∉ a := ((inv3_reachable h).law a _ b hl).1

/-- Two threads; the second waits and starts when the first returned. -/
example : ∃ s, Reachable exCfg true s ∧ s.log =
    [.start 0, .command 0 [65, 84], .recv 0, .final true 0, .got 0 .ok, .ret 0 .ok none, .start 1,
     .command 1 [65, 84]] :=
  exec_reach (begins 0 exReq ++ .call 1 exReq :: .recv [79, 75] :: rxs 10 ++ gos 0 4 ++ gos 1 5) St.log _
    (by decide +kernel)

/-- The second thread cannot start while the first is waiting. -/
example : (exec exCfg true (begins 0 exReq ++ [.call 1 exReq, .go 1 0]) init).isNone := by decide +kernel

/-! ## C27 -/

/-- Success tokens in effect are those of a request that a thread is executing. -/
theorem C27_tokens {cfg : Cfg} {comm : Bool} {s : St} (h : Reachable cfg comm s) {i : Nat} {tb : List Str}
    (he : s.extra = some (i, tb)) : ∃ t r, inRaw (s.thr t) = some (i, r) ∧ r.kind.table = some tb := by
  obtain ⟨p, r, hc, h1, h2⟩ := (inv_reachable h).ex i tb he
  unfold cur at hc
  cases hm : s.mutex with
  | none => rw [hm] at hc; cases hc
  | some t => rw [hm] at hc; cases hc; exact ⟨t, r, h1, h2⟩

/-- A data prefix callback in effect is that of a request that a thread is executing. -/
theorem C27_data_prefix {cfg : Cfg} {comm : Bool} {s : St} (h : Reachable cfg comm s) {i : Nat}
    (he : s.recvCb = some i) : ∃ t r, inRaw (s.thr t) = some (i, r) ∧ r.kind = .dataRecv true := by
  obtain ⟨p, r, hc, h1, h2⟩ := (inv_reachable h).rc i he
  unfold cur at hc
  cases hm : s.mutex with
  | none => rw [hm] at hc; cases hc
  | some t => rw [hm] at hc; cases hc; exact ⟨t, r, h1, h2⟩

/-- Likewise for a data send prefix callback. -/
theorem C27_send_prefix {cfg : Cfg} {comm : Bool} {s : St} (h : Reachable cfg comm s) {i : Nat}
    (he : s.sendCb = some i) : ∃ t r d, inRaw (s.thr t) = some (i, r) ∧ r.kind = .dataSend d true := by
  obtain ⟨p, r, d, hc, h1, h2⟩ := (inv_reachable h).sc i he
  unfold cur at hc
  cases hm : s.mutex with
  | none => rw [hm] at hc; cases hc
  | some t => rw [hm] at hc; cases hc; exact ⟨t, r, d, h1, h2⟩

/-- A line is compared with the success tokens of request `i`, and its prefix callbacks are fetched, only while `i`
is the request in progress. -/
theorem C27_scoped {cfg : Cfg} {comm : Bool} {s : St} (h : Reachable cfg comm s) {a b : List Ev} {e : Ev} {i : Nat}
    (hl : s.log = a ++ e :: b) (he : (∃ n, e = .consulted i n) ∨ e = .fetched i) : InProgress a i := by
  refine C22_exclusive h hl ?_
  rcases he with ⟨n, rfl⟩ | rfl <;> rfl

/-- The token "GO" completes the request that installed it. -/
example : ∃ s, Reachable exCfg true s ∧ s.log =
    [.start 0, .command 0 [65, 84], .recv 0, .consulted 0 0, .final true 0, .got 0 .ok, .ret 0 .ok none] :=
  exec_reach (begins 0 exReqTok ++ .recv [71, 79] :: rxs 10 ++ gos 0 4) St.log _ (by decide +kernel)

/-- A prefix callback can be *called* after its request returned: the receive task fetched it before.  C27 is
therefore proved for what is in effect (fetched), not for the call itself. -/
theorem C27_prefix_late_witness : ∃ s, Reachable exCfg true s ∧ s.log =
    [.start 0, .command 0 [65, 84], .recv 0, .fetched 0, .timeout 0, .ret 0 .timedOut none, .start 1,
     .command 1 [65, 84], .prefixCb 0] :=
  exec_reach (begins 0 exReqRecv ++ .recv [79, 75] :: rxs 1 ++ .expire 0 :: gos 0 3 ++ begins 1 exReq ++ rxs 1) St.log _
    (by decide +kernel)

/-! ## C23 -/

/-- The status of a final result code for a step without response callback. -/
def codeStatus (ok : Bool) : PktStatus := if ok then .ok else .failure

/-- Request `i` took status `st` after history `a`: it sent bytes (`e`), then line `n` was received (`y`), which was a
final result code, and nothing was delivered in between; all this happened during the request.  The status
is that of the code, or, after a success code, the verdict of the request's response callback. -/
def OwnResult (a : List Ev) (i : Nat) (st : PktStatus) : Prop :=
  ∃ x e y ok n z, a = x ++ e :: y ++ .final ok n :: z ∧ Sends i e ∧ (∀ f ∈ y ++ z, ¬ Boundary f) ∧ Ev.recv n ∈ y ∧
    (∀ f ∈ z, ¬ isGot f ∧ ¬ isFinal f) ∧
    ((st = codeStatus ok ∧ ∀ f ∈ z, ¬ isCallback f) ∨ (ok = true ∧ ∃ items, Ev.callback i items st ∈ z))

/-- The same without the modem being silent during sending: the line was received since the request started, or was
the last one received before it started. -/
def RecentResult (a : List Ev) (i : Nat) (st : PktStatus) : Prop :=
  ∃ x y ok n z, a = x ++ .start i :: y ++ .final ok n :: z ∧ (∀ f ∈ y ++ z, ¬ Boundary f) ∧
    (Ev.recv n ∈ y ∨ (Ev.recv n ∈ x ∧ ∀ k, n < k → Ev.recv k ∉ x)) ∧
    (∀ f ∈ z, ¬ isGot f ∧ ¬ isFinal f) ∧
    ((st = codeStatus ok ∧ ∀ f ∈ z, ¬ isCallback f) ∨ (ok = true ∧ ∃ items, Ev.callback i items st ∈ z))

theorem answer_cases {st : PktStatus} {ans : Answer} {ok : Bool} {i : Nat} {z : List Ev} (h : ans.status = some st)
    (h' : ans = .final ok ∧ (∀ f ∈ z, ¬ isCallback f) ∨
        ok = true ∧ ∃ items st, ans = .judged st ∧ Ev.callback i items st ∈ z) :
    ((st = codeStatus ok ∧ ∀ f ∈ z, ¬ isCallback f) ∨ (ok = true ∧ ∃ items, Ev.callback i items st ∈ z)) := by
  rcases h' with ⟨rfl, h'⟩ | ⟨h1, items, st', rfl, h2⟩
  · left
    refine ⟨?_, h'⟩
    cases ok <;> simp_all [Answer.status, codeStatus]
  · right
    simp only [Answer.status, Option.some.injEq] at h
    subst h
    exact ⟨h1, items, h2⟩

theorem monitor_own_result {log a b : List Ev} {m : Own} {i : Nat} {st : PktStatus} (hm : own true log = some m) (hl : log = a ++ .got i st :: b) :
    OwnResult a i st := by
  rw [hl] at hm
  obtain ⟨m0, m1, hm0, hs⟩ := own_prefix hm
  have E := own_explains hm0
  simp only [ownStep] at hs
  split at hs
  · rename_i hc
    obtain ⟨x, e, y, ok, n, z, h1, h2, h3, h4, h5, h6⟩ := E.answered i hc.1 (by
      intro he; rw [he] at hc; simp [Answer.status] at hc)
    refine ⟨x, e, y, ok, n, z, h1, by simpa [Opens] using h2, h3, ?_, h5, answer_cases hc.2 h6⟩
    rcases h4 with h4 | h4
    · exact h4
    · cases h4.1
  · cases hs

/-- Missing from C23: it does not hold if a request timed out or a data send failed before, nor if the modem
sends a final result code while a command is about to be sent (witnesses below). -/
theorem C23_own_result_partial {cfg : Cfg} {comm : Bool} {s : St} (h : Run cfg comm Quiet s) (hn : NoLoss s.log)
    {a b : List Ev} {i : Nat} {st : PktStatus} (hl : s.log = a ++ .got i st :: b) : OwnResult a i st := by
  obtain ⟨m, hm, _⟩ := own_run (strict := true) h (fun _ a b => id) hn
  exact monitor_own_result hm hl

theorem monitor_recent_result {log a b : List Ev} {m : Own} {i : Nat} {st : PktStatus} (hm : own false log = some m) (hl : log = a ++ .got i st :: b) :
    RecentResult a i st := by
  rw [hl] at hm
  obtain ⟨m0, m1, hm0, hs⟩ := own_prefix hm
  have E := own_explains hm0
  simp only [ownStep] at hs
  split at hs
  · rename_i hc
    obtain ⟨x, e, y, ok, n, z, h1, h2, h3, h4, h5, h6⟩ := E.answered i hc.1 (by
      intro he; rw [he] at hc; simp [Answer.status] at hc)
    have h2' : e = .start i := by simpa [Opens] using h2
    subst h2'
    refine ⟨x, y, ok, n, z, h1, h3, ?_, h5, answer_cases hc.2 h6⟩
    rcases h4 with h4 | h4
    · exact .inl h4
    · exact .inr h4.2
  · cases hs

/-- Without any assumption on when the modem sends. -/
theorem C23_recent_result_partial {cfg : Cfg} {comm : Bool} {s : St} (h : Reachable cfg comm s) (hn : NoLoss s.log)
    {a b : List Ev} {i : Nat} {st : PktStatus} (hl : s.log = a ++ .got i st :: b) : RecentResult a i st := by
  obtain ⟨m, hm, _⟩ := own_run (strict := false) h.run (by simp) hn
  exact monitor_recent_result hm hl

/-- In every execution: why a request returns its status. -/
theorem C23_return_law {cfg : Cfg} {comm : Bool} {s : St} (h : Reachable cfg comm s) {a b : List Ev} {i : Nat}
    {st : PktStatus} {sent : Option Nat} (hl : s.log = a ++ .ret i st sent :: b) :
    ∃ r, s.reqs[i]? = some r ∧ ReturnLaw comm r a i st sent := (inv3_reachable h).law a _ b hl

/-- A request that returns success took that status from the queue; with `C23_own_result_partial`: the modem
answered it with a success code. -/
theorem C23_success_was_delivered {cfg : Cfg} {comm : Bool} {s : St} (h : Reachable cfg comm s) {a b : List Ev} {i : Nat}
    {sent : Option Nat} (hl : s.log = a ++ .ret i .ok sent :: b) : Ev.got i .ok ∈ a := by
  obtain ⟨r, _, hr⟩ := C23_return_law h hl
  generalize hst : (PktStatus.ok) = st at hr
  cases hr with
  | refused text st h hr => subst hst; rcases hr with ⟨_, hr⟩ | ⟨_, hr, _⟩ <;> cases hr
  | answered st h hd => subst hst; exact h
  | dataAnswered d b st hd h hs hg => subst hst; exact h
  | _ => cases hst

example : ∃ s, Run exCfg true Quiet s ∧ s.log =
    [.start 0, .command 0 [65, 84], .recv 0, .recv 1, .final true 1, .callback 0 [.line 0] .ok, .got 0 .ok,
     .ret 0 .ok none, .start 1, .command 1 [65, 84], .recv 2, .final false 2, .got 1 .failure, .ret 1 .failure none] :=
  execQuiet_reach (begins 0 exReqCb ++ .recv [88] :: rxs 6 ++ .recv [79, 75] :: rxs 12 ++ gos 0 4 ++
    begins 1 exReq ++ .recv [69, 82] :: rxs 10 ++ gos 1 4) St.log _ (by decide +kernel)

/-- Request 0 times out; the modem's "OK" for it, arriving meanwhile, is delivered to request 1, although nothing was
received after request 1 was sent. -/
theorem C23_late_result_witness : ∃ s, Run exCfg true Quiet s ∧ s.log =
    [.start 0, .command 0 [65, 84], .recv 0, .final true 0, .timeout 0, .ret 0 .timedOut none,
     .start 1, .command 1 [65, 84], .got 1 .ok, .ret 1 .ok none] :=
  execQuiet_reach (begins 0 exReq ++ .recv [79, 75] :: rxs 8 ++ .expire 0 :: gos 0 3 ++ .call 1 exReq :: rxs 2 ++
    gos 1 9) St.log _ (by decide +kernel)

/-- A result code received while a request is about to be sent becomes its result. -/
theorem C23_stray_result_witness : ∃ s, Reachable exCfg true s ∧ s.log =
    [.start 0, .recv 0, .final true 0, .command 0 [65, 84], .got 0 .ok, .ret 0 .ok none] :=
  exec_reach (.call 0 exReq :: gos 0 4 ++ .recv [79, 75] :: rxs 10 ++ gos 0 5) St.log _ (by decide +kernel)

/-! ## C24 -/

theorem monitor_own_lines {log a b : List Ev} {m : Own} {i : Nat} {items : List Item} {st : PktStatus} (hm : own true log = some m)
    (hl : log = a ++ .callback i items st :: b) :
    ∃ x e y, a = x ++ e :: y ∧ Sends i e ∧ (∀ f ∈ y, ¬ Boundary f) ∧
      ∀ it ∈ items, ∃ n, it = .line n ∧ Ev.recv n ∈ y := by
  rw [hl] at hm
  obtain ⟨m0, m1, hm0, hs⟩ := own_prefix hm
  have E := own_explains hm0
  simp only [ownStep] at hs
  split at hs
  · rename_i hc
    obtain ⟨c1, c2, c3, c4⟩ := hc
    obtain ⟨x, e, y, h1, h2, h3, h4⟩ := E.opened i c1 (fun h => E.sent h (by rw [c2]; simp) (by rw [c1]; simp))
    refine ⟨x, e, y, h1, by simpa [Opens] using h2, h3, ?_⟩
    intro it hit
    obtain ⟨n, hn, hn1, hn2⟩ := c4 it hit
    refine ⟨n, hn, ?_⟩
    rcases h4 n hn1 hn2 with h' | h'
    · exact h'
    · cases h'.1
  · cases hs

/-- Missing from C24: the same as from C23. -/
theorem C24_own_lines_partial {cfg : Cfg} {comm : Bool} {s : St} (h : Run cfg comm Quiet s) (hn : NoLoss s.log)
    {a b : List Ev} {i : Nat} {items : List Item} {st : PktStatus} (hl : s.log = a ++ .callback i items st :: b) :
    ∃ x e y, a = x ++ e :: y ∧ Sends i e ∧ (∀ f ∈ y, ¬ Boundary f) ∧
      ∀ it ∈ items, ∃ n, it = .line n ∧ Ev.recv n ∈ y := by
  obtain ⟨m, hm, _⟩ := own_run (strict := true) h (fun _ a b => id) hn
  exact monitor_own_lines hm hl

theorem monitor_recent_lines {log a b : List Ev} {m : Own} {i : Nat} {items : List Item} {st : PktStatus} (hm : own false log = some m)
    (hl : log = a ++ .callback i items st :: b) :
    ∃ x y, a = x ++ .start i :: y ∧ (∀ f ∈ y, ¬ Boundary f) ∧
      ∀ it ∈ items, ∃ n, it = .line n ∧ (Ev.recv n ∈ y ∨ (Ev.recv n ∈ x ∧ ∀ k, n < k → Ev.recv k ∉ x)) := by
  rw [hl] at hm
  obtain ⟨m0, m1, hm0, hs⟩ := own_prefix hm
  have E := own_explains hm0
  simp only [ownStep] at hs
  split at hs
  · rename_i hc
    obtain ⟨c1, c2, c3, c4⟩ := hc
    obtain ⟨x, e, y, h1, h2, h3, h4⟩ := E.opened i c1 (by simp)
    have h2' : e = .start i := by simpa [Opens] using h2
    subst h2'
    refine ⟨x, y, h1, h3, ?_⟩
    intro it hit
    obtain ⟨n, hn, hn1, hn2⟩ := c4 it hit
    refine ⟨n, hn, ?_⟩
    rcases h4 n hn1 hn2 with h' | h'
    · exact .inl h'
    · exact .inr h'.2
  · cases hs

/-- Without any assumption on when the modem sends: the lines were received since the request started, or last
before it started. -/
theorem C24_recent_lines_partial {cfg : Cfg} {comm : Bool} {s : St} (h : Reachable cfg comm s) (hn : NoLoss s.log)
    {a b : List Ev} {i : Nat} {items : List Item} {st : PktStatus} (hl : s.log = a ++ .callback i items st :: b) :
    ∃ x y, a = x ++ .start i :: y ∧ (∀ f ∈ y, ¬ Boundary f) ∧
      ∀ it ∈ items, ∃ n, it = .line n ∧ (Ev.recv n ∈ y ∨ (Ev.recv n ∈ x ∧ ∀ k, n < k → Ev.recv k ∉ x)) := by
  obtain ⟨m, hm, _⟩ := own_run (strict := false) h.run (by simp) hn
  exact monitor_recent_lines hm hl

/-- A line of a response that timed out is handed to the next request's callback. -/
theorem C24_leftover_witness : ∃ s, Run exCfg true Quiet s ∧ s.log =
    [.start 0, .command 0 [65, 84], .recv 0, .timeout 0, .ret 0 .timedOut none,
     .start 1, .command 1 [65, 84], .recv 1, .recv 2, .final true 2, .callback 1 [.line 0, .line 1] .ok, .got 1 .ok,
     .ret 1 .ok none] :=
  execQuiet_reach (begins 0 exReqCb ++ .recv [88] :: rxs 6 ++ .expire 0 :: gos 0 3 ++ begins 1 exReqCb ++
    .recv [89] :: rxs 6 ++ .recv [79, 75] :: rxs 12 ++ gos 1 4) St.log _ (by decide +kernel)

/-! ## C25 -/

theorem monitor_once {log a b : List Ev} {m : Own} {i : Nat} {items : List Item} {st : PktStatus} (hm : own false log = some m)
    (hst : ∀ a b, log = a ++ .start i :: b → Ev.start i ∉ a) (hl : log = a ++ .callback i items st :: b) :
    InProgress a i ∧ ∀ items' st', Ev.callback i items' st' ∉ a := by
  have key : ∀ {a b : List Ev} {items : List Item} {st : PktStatus}, log = a ++ .callback i items st :: b →
      ∃ x y, a = x ++ .start i :: y ∧ (∀ f ∈ y, ¬ Boundary f) ∧ ∀ f ∈ y, ¬ isCallback f := by
    intro a b items st hl
    have hm' := hm
    rw [hl] at hm'
    obtain ⟨m0, m1, hm0, hs⟩ := own_prefix hm'
    have E := own_explains hm0
    simp only [ownStep] at hs
    split at hs
    · rename_i hc
      exact E.uncalled i hc.1 hc.2.2.1
    · cases hs
  obtain ⟨x, y, hx, h1, h2⟩ := key hl
  refine ⟨⟨x, y, hx, h1⟩, ?_⟩
  intro items' st' hmem
  rw [hx] at hmem
  rcases List.mem_append.1 hmem with hmem | hmem
  · obtain ⟨p, q, hpq⟩ := List.append_of_mem hmem
    obtain ⟨x', y', hx', _, _⟩ := key (a := p) (b := q ++ .start i :: y ++ .callback i items st :: b)
      (items := items') (st := st') (by rw [hl, hx, hpq]; simp)
    refine hst x (y ++ .callback i items st :: b) (by rw [hl, hx]; simp) ?_
    rw [hpq, hx']; simp
  · rcases List.mem_cons.1 hmem with hmem | hmem
    · cases hmem
    · exact h2 _ hmem trivial

/-- Missing from C25: it does not hold once a request timed out (witnesses below). -/
theorem C25_once_while_pending_partial {cfg : Cfg} {comm : Bool} {s : St} (h : Reachable cfg comm s)
    (hn : NoLoss s.log) {a b : List Ev} {i : Nat} {items : List Item} {st : PktStatus}
    (hl : s.log = a ++ .callback i items st :: b) :
    InProgress a i ∧ ∀ items' st', Ev.callback i items' st' ∉ a := by
  obtain ⟨m, hm, _⟩ := own_run (strict := false) h.run (by simp) hn
  exact monitor_once hm (fun _ _ => C22_start_once h) hl

theorem monitor_no_null {strict : Bool} {log : List Ev} {m : Own} (hm : own strict log = some m) : Ev.nullCall ∉ log := by
  intro hmem
  obtain ⟨a, b, hab⟩ := List.append_of_mem hmem
  rw [hab] at hm
  obtain ⟨m0, m1, hm0, hs⟩ := own_prefix hm
  simp [ownStep] at hs

/-- And no callback is called through a NULL pointer. -/
theorem C25_no_null_call_partial {cfg : Cfg} {comm : Bool} {s : St} (h : Reachable cfg comm s)
    (hn : NoLoss s.log) : Ev.nullCall ∉ s.log := by
  obtain ⟨m, hm, _⟩ := own_run (strict := false) h.run (by simp) hn
  exact monitor_no_null hm

/-- The callback of a request that timed out runs after the request returned. -/
theorem C25_late_callback_witness : ∃ s, Run exCfg true Quiet s ∧ s.log =
    [.start 0, .command 0 [65, 84], .recv 0, .final true 0, .timeout 0, .ret 0 .timedOut none, .callback 0 [] .ok] :=
  execQuiet_reach (begins 0 exReqCb ++ .recv [79, 75] :: rxs 9 ++ .expire 0 :: gos 0 3 ++ rxs 1) St.log _
    (by decide +kernel)

/-- It is called through a NULL pointer if the timeout comes between the test and the call. -/
theorem C25_null_call_witness : ∃ s, Run exCfg true Quiet s ∧ s.log =
    [.start 0, .command 0 [65, 84], .recv 0, .final true 0, .timeout 0, .nullCall] :=
  execQuiet_reach (begins 0 exReqCb ++ .recv [79, 75] :: rxs 8 ++ .expire 0 :: gos 0 1 ++ rxs 1) St.log _
    (by decide +kernel)

/-- The callback of the second request runs twice: once on the response to the first, which timed out, and once on its
own. -/
theorem C25_twice_witness : ∃ s, Reachable exCfg true s ∧ s.log =
    [.start 0, .command 0 [65, 84], .recv 0, .final true 0, .timeout 0, .ret 0 .timedOut none,
     .start 1, .command 1 [65, 84], .callback 1 [] .ok, .recv 1, .final true 1, .callback 1 [] .ok] :=
  exec_reach (begins 0 exReqCb ++ .recv [79, 75] :: rxs 8 ++ .expire 0 :: gos 0 3 ++ begins 1 exReqCb ++ rxs 4 ++
    .recv [79, 75] :: rxs 10) St.log _ (by decide +kernel)

/-! ## C26 -/

/-- Data bytes are the request's data, and are handed to the transport only after the command step of the same request
succeeded. -/
theorem C26_data_after_ok {cfg : Cfg} {comm : Bool} {s : St} (h : Reachable cfg comm s) {a b : List Ev} {i n : Nat}
    {bytes : Str} (hl : s.log = a ++ .data i bytes n :: b) :
    ∃ r d, s.reqs[i]? = some r ∧ SendsData r.kind d ∧ d.data = some bytes ∧ Ev.got i .ok ∈ a :=
  (inv3_reachable h).law a _ b hl

/-- The end pattern is the request's, and is handed to the transport only after all data bytes were accepted. -/
theorem C26_pattern_after_data {cfg : Cfg} {comm : Bool} {s : St} (h : Reachable cfg comm s) {a b : List Ev} {i n : Nat}
    {bytes : Str} (hl : s.log = a ++ .pattern i bytes n :: b) :
    ∃ r d data, s.reqs[i]? = some r ∧ SendsData r.kind d ∧ d.data = some data ∧ d.pattern = some bytes ∧
      Ev.data i data data.length ∈ a :=
  (inv3_reachable h).law a _ b hl

/-- The reported length is the number of data bytes the transport accepted, and is reported exactly if data was
handed to it. -/
theorem C26_sent_length {cfg : Cfg} {comm : Bool} {s : St} (h : Reachable cfg comm s) {a b : List Ev} {i n : Nat}
    {st : PktStatus} (hl : s.log = a ++ .ret i st (some n) :: b) : ∃ bytes, Ev.data i bytes n ∈ a := by
  obtain ⟨r, _, hr⟩ := C23_return_law h hl
  generalize hsn : some n = sn at hr
  cases hr with
  | dataShort d b' n' hd hb h hs hn he => cases hsn; exact ⟨b', hs⟩
  | patternShort d b' e n' hd hb hp h hs hn he =>
    cases hsn
    obtain ⟨x, y, hxy, _⟩ := hs
    exact ⟨b', by rw [hxy]; simp⟩
  | dataTimeout d b' hd h hs ht => cases hsn; exact ⟨b', hs.2.1⟩
  | dataAnswered d b' st hd h hs hg => cases hsn; exact ⟨b', hs.2.1⟩
  | _ => cases hsn

/-- A two-step request returns success only if all data and the end pattern were accepted and a status of
success was delivered after that data was sent. -/
theorem C26_success {cfg : Cfg} {comm : Bool} {s : St} (h : Reachable cfg comm s) {a b : List Ev} {i : Nat}
    {sent : Option Nat} {r : Req} {d : Data} (hl : s.log = a ++ .ret i .ok sent :: b) (hr : s.reqs[i]? = some r)
    (hd : SendsData r.kind d) :
    ∃ bytes, sent = some bytes.length ∧ AllSent a i d bytes ∧ After a (.data i bytes bytes.length) (.got i .ok) := by
  obtain ⟨r', hr', hlaw⟩ := C23_return_law h hl
  rw [hr] at hr'; cases hr'
  generalize hst : (PktStatus.ok) = st at hlaw
  cases hlaw with
  | refused text st h hr => subst hst; rcases hr with ⟨_, hr⟩ | ⟨_, hr, _⟩ <;> cases hr
  | answered st h hd' => subst hst; rcases hd' with hd' | hd' <;> simp_all
  | dataAnswered d' b' st hd' h hs hg =>
    subst hst
    rw [sendsData_iff] at hd hd'; rw [hd] at hd'; cases hd'
    exact ⟨b', rfl, hs, hg⟩
  | _ => cases hst

/-- When no request is in progress, no command is left pending, unless the last thing sent was data which the
transport did not accept. -/
theorem C26_nothing_pending {cfg : Cfg} {comm : Bool} {s : St} (h : Reachable cfg comm s)
    (hq : ∀ t, active (s.thr t) = none) :
    s.cmd = .noCommand ∨ (s.cmd = .noResult ∧
      ∃ x i y, s.log = x ++ .sendError i :: y ∧ ∀ j text, Ev.command j text ∉ y) := by
  by_cases hc : s.cmd = .noCommand
  · exact .inl hc
  · right
    rcases (inv4_reachable h).pend hc with h' | h'
    · exfalso
      unfold cur at h'
      cases hm : s.mutex with
      | none => rw [hm] at h'; cases h'
      | some t => exact ((inv_reachable h).m t).2 hm (hq t)
    · exact h'

/-- Missing: the case in which the transport does not accept all data. -/
theorem C26_no_command_left_partial {cfg : Cfg} {comm : Bool} {s : St} (h : Reachable cfg comm s)
    (hq : ∀ t, active (s.thr t) = none) (hn : ∀ i, Ev.sendError i ∉ s.log) : s.cmd = .noCommand := by
  rcases C26_nothing_pending h hq with h' | ⟨_, x, i, y, hl, _⟩
  · exact h'
  · exact absurd (by rw [hl]; simp) (hn i)

example : ∃ s, Reachable exCfg true s ∧ (s.log, s.cmd) =
    ([.start 0, .command 0 [65, 84], .recv 0, .final true 0, .got 0 .ok, .data 0 [1, 2] 2, .pattern 0 [26] 1, .recv 1,
      .final true 1, .got 0 .ok, .ret 0 .ok (some 2)], .noCommand) :=
  exec_reach (begins 0 exReqData ++ .recv [79, 75] :: rxs 10 ++ gos 0 4 ++ .go 0 2 :: .go 0 1 :: .recv [79, 75] ::
    rxs 10 ++ gos 0 3) (fun s => (s.log, s.cmd)) _ (by decide +kernel)

/-- The transport accepts one byte of two: the request returns, and a command is still pending although no request is
in progress. -/
theorem C26_left_pending_witness : ∃ s, Reachable exCfg true s ∧ (s.log, s.cmd, s.mutex) =
    ([.start 0, .command 0 [65, 84], .recv 0, .final true 0, .got 0 .ok, .data 0 [1, 2] 1, .sendError 0,
      .ret 0 .sendError (some 1)], .noResult, none) :=
  exec_reach (begins 0 exReqData ++ .recv [79, 75] :: rxs 10 ++ gos 0 4 ++ .go 0 1 :: gos 0 1)
    (fun s => (s.log, s.cmd, s.mutex)) _ (by decide +kernel)

/-- As a consequence the next request takes a result code received before it was even started. -/
theorem C26_left_pending_effect_witness : ∃ s, Reachable exCfg true s ∧ s.log =
    [.start 0, .command 0 [65, 84], .recv 0, .final true 0, .got 0 .ok, .data 0 [1, 2] 1, .sendError 0,
      .ret 0 .sendError (some 1), .recv 1, .final false 1, .start 1, .command 1 [65, 84], .got 1 .failure,
      .ret 1 .failure none] :=
  exec_reach (begins 0 exReqData ++ .recv [79, 75] :: rxs 10 ++ gos 0 4 ++ .go 0 1 :: gos 0 1 ++ .recv [69, 82] ::
    rxs 10 ++ begins 1 exReq ++ gos 1 4) St.log _ (by decide +kernel)

end Cellular.Props
