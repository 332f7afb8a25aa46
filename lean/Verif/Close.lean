/-!
# API calls concurrent with `Cellular_Cleanup`
(source/cellular_common.c:225-267,425-459,1053-1073; cellular_pkthandler.c:200-262,504-516,562-581;
cellular_pktio.c:1201-1260,1420-1482,1517-1541)

An interleaving model of any number of application tasks, each calling an API function that makes a request
(`_Cellular_CheckLibraryStatus`, then `_Cellular_PktHandler_AtcmdRequestWithCallback`) any number of times, of one task
that calls `Cellular_Cleanup`, and of the receive task.  An atomic step is a critical section or one unprotected access.
The modelled state is what the shutdown changes: the status flags, the transport handle, the response queue, the request
mutex, the mutexes and the context.

Simplified: what is sent and answered is not modelled (the result of waiting for the answer is chosen by the schedule); the
start-up is over (the library is open); a call whose step is undefined behaviour goes no further (`crashed`).  With
`CELLULAR_CONFIG_STATIC_ALLOCATION_CONTEXT` the context stays readable after it was given back, but its mutexes are
destroyed all the same.
-/

namespace Cellular.Close

/-- Where an application task is in its call: not in a call; `_Cellular_CheckLibraryStatus`, first and second critical
section (cellular_common.c:435-442, 447-455); waiting for the request mutex (cellular_pkthandler.c:575); about to test the
transport handle (cellular_pktio.c:1434; the members filled in before, cellular_pkthandler.c:218-223, belong to the same
step); about to send (cellular_pktio.c:1470); waiting for the answer (cellular_pkthandler.c:234); about to leave the request
with the given result (cellular_pkthandler.c:256-260, 577); stopped in undefined behaviour. -/
inductive Pc
  | idle | check1 | check2 | lock | testComm | send | wait | leave (ok : Bool) | crashed
  deriving DecidableEq, Repr

/-- Where `Cellular_Cleanup` is: not called; called (`libClose`, cellular_common.c:232-237 done); about to set ABORT
(cellular_pktio.c:1525); polling for ABORTED (1526-1532); about to delete the event group (1534-1539); waiting for the
request mutex (cellular_pkthandler.c:509); about to delete the queue and give the mutex back (512-514); about to reset the
flags (cellular_common.c:246-265); about to destroy the mutexes (1065-1068); about to free the context (1069); returned. -/
inductive Main
  | inUse | setAbort | poll | delEvent | lockReq | delQueue | reset | destroy | free | returned
  deriving DecidableEq, Repr

/-- Where the receive task is (cellular_pktio.c:1215-1260): receiving; about to close the transport (1244); about to clear
the handle (1245); first shutdown callback (1246); about to set ABORTED (1253); second shutdown callback (1256-1258);
ended. -/
inductive Task
  | run | close | clear | callback1 | setAborted | callback2 | ended
  deriving DecidableEq, Repr

/-- Who holds the request mutex. -/
inductive Who
  | call (i : Nat) | cleanup
  deriving DecidableEq, Repr

/-- A use of an object that does not exist any more. -/
inductive Bad
  | context (i : Nat) | mutex (i : Nat) | queue (i : Nat) | transport (i : Nat) | taskContext
  deriving DecidableEq, Repr

/-- Shared state. `commNull`: `hPktioCommIntf` is NULL; `commOpen`: the transport is open; `sent i`: how many commands task `i`
has given to the open transport; `won i`: how many of its calls returned success. -/
structure St where
  pc : Nat → Pc := fun _ => .idle
  main : Main := .inUse
  task : Task := .run
  opened : Bool := true
  closing : Bool := false
  shutdown : Bool := false
  abort : Bool := false
  aborted : Bool := false
  commOpen : Bool := true
  commNull : Bool := false
  queue : Bool := true
  owner : Option Who := none
  mutexes : Bool := true
  context : Bool := true
  sent : Nat → Nat := fun _ => 0
  won : Nat → Nat := fun _ => 0
  bad : List Bad := []

/-- Who moves: application task `i` (`ok`: what comes of waiting for the answer), the task in `Cellular_Cleanup`, the receive
task. -/
inductive Act
  | call (i : Nat) (ok : Bool) | main | task
  deriving DecidableEq, Repr

/-- Function update. -/
def upd {α : Type} (f : Nat → α) (i : Nat) (v : α) : Nat → α := fun j => if j = i then v else f j

/-- Task `i` goes on at `p`. -/
def St.go (s : St) (i : Nat) (p : Pc) : St := { s with pc := upd s.pc i p }
/-- The step of task `i` is undefined behaviour. -/
def St.crash (s : St) (i : Nat) (b : Bad) : St := { s.go i .crashed with bad := b :: s.bad }

/-- One step of a task inside (or entering) a call. Every step but the first reads the context through the handle. -/
def callStep (s : St) (i : Nat) (ok : Bool) : St :=
  match s.pc i with
  | .idle => s.go i .check1
  | .crashed => s
  | p =>
    if s.context = false then s.crash i (.context i)
    else match p with
    | .check1 =>
      -- cellular_common.c:435-442
      if s.mutexes = false then s.crash i (.mutex i)
      else if s.opened = false then s.go i .idle
      else s.go i .check2
    | .check2 =>
      -- cellular_common.c:447-455
      if s.mutexes = false then s.crash i (.mutex i)
      else if s.shutdown || s.closing then s.go i .idle
      else s.go i .lock
    | .lock =>
      -- cellular_pkthandler.c:575: blocks while the mutex is taken
      if s.mutexes = false then s.crash i (.mutex i)
      else if s.owner = none then { s.go i .testComm with owner := some (.call i) }
      else s
    | .testComm =>
      -- cellular_pktio.c:1434
      if s.mutexes = false then s.crash i (.mutex i)
      else if s.commNull then s.go i (.leave false)
      else s.go i .send
    | .send =>
      -- cellular_pktio.c:1470; the result of sending is ignored
      if s.commOpen then { s.go i .wait with sent := upd s.sent i (s.sent i + 1) }
      else s.crash i (.transport i)
    | .wait =>
      -- cellular_pkthandler.c:234
      if s.queue = false then s.crash i (.queue i)
      else s.go i (.leave ok)
    | .leave r =>
      -- cellular_pkthandler.c:256-260, 577
      if s.mutexes = false then s.crash i (.mutex i)
      else { s.go i .idle with owner := none, won := if r then upd s.won i (s.won i + 1) else s.won }
    | _ => s

/-- One step of `Cellular_Cleanup`. -/
def mainStep (s : St) : St :=
  match s.main with
  | .inUse => { s with main := .setAbort, closing := true }
  | .setAbort => { s with main := .poll, abort := true }
  | .poll => if s.aborted then { s with main := .delEvent } else s
  | .delEvent => { s with main := .lockReq }
  | .lockReq => if s.owner = none then { s with main := .delQueue, owner := some .cleanup } else s
  | .delQueue => { s with main := .reset, queue := false, owner := none }
  | .reset => { s with main := .destroy, shutdown := false, opened := false, closing := false }
  | .destroy => { s with main := .free, mutexes := false }
  | .free => { s with main := .returned, context := false }
  | .returned => s

/-- One step of the receive task. `_shutdownCallback` (cellular_common.c:171-174) sets
`bLibShutdown` without taking the mutex. -/
def taskStep (s : St) : St :=
  match s.task with
  | .run => if s.abort then { s with task := .close, abort := false } else s
  | .close => { s with task := .clear, commOpen := false }
  | .clear => { s with task := .callback1, commNull := true }
  | .callback1 => { s with task := .setAborted, shutdown := true }
  | .setAborted => { s with task := .callback2, aborted := true }
  | .callback2 =>
    if s.context then { s with task := .ended, shutdown := true }
    else { s with task := .ended, bad := .taskContext :: s.bad }
  | .ended => s

/-- One step of a schedule. -/
def step (s : St) : Act → St
  | .call i ok => callStep s i ok
  | .main => mainStep s
  | .task => taskStep s

/-- A schedule, from the opened library. -/
def run (l : List Act) : St := l.foldl step {}

end Cellular.Close
