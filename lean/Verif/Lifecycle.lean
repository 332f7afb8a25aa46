import Verif.Urc
import Verif.Signal
/-!
# Library start-up and shutdown (source/cellular_common.c, cellular_common_api.c, cellular_pktio.c,
cellular_pkthandler.c)

Part 1 is a sequential model with a resource ledger: every object created on the way is counted, and
every creation step can fail (`Env`).  Destroying or using something that does not exist is undefined
behaviour (`none`).  The receive task is represented by its life time only: it ends when it is told to
abort (or when it cannot open the transport).  The sockets freed by `libClose` are in `Verif.Sockets`
(`freeAll`).  Part 2 is an interleaving model of the shutdown handshake.
-/

namespace Cellular.Lifecycle
open Cellular Signal

/-- Address of a `CellularContext_t`. -/
abbrev Ptr := Nat

/-- The parts of `CellularContext_t` (include/private/cellular_common_internal.h:108-160) that hold
resources: which mutexes, queue and event group exist, and the status flags. -/
structure Ctx where
  libMutex : Bool := false
  atMutex : Bool := false
  reqMutex : Bool := false
  respMutex : Bool := false
  queue : Bool := false
  event : Bool := false
  pktioUp : Bool := false
  opened : Bool := false
  shutdown : Bool := false
  closing : Bool := false
  deriving DecidableEq, Repr

/-- Number of live objects of each kind in the whole system. `modules` counts initialised modem modules. -/
structure Counts where
  contexts : Nat := 0
  libMutex : Nat := 0
  atMutex : Nat := 0
  reqMutex : Nat := 0
  respMutex : Nat := 0
  queue : Nat := 0
  event : Nat := 0
  thread : Nat := 0
  modules : Nat := 0
  deriving DecidableEq, Repr

/-- `cellularContextTable` (CELLULAR_CONTEXT_MAX is 1, cellular_common.c:63,108), the memory of the
contexts, and the ledger. -/
structure World where
  table : Option Ptr := none
  mem : Ptr → Option Ctx := fun _ => none
  count : Counts := {}

/-- Which creation steps succeed. `alloc` is what `Platform_Malloc` (or the static table) gives. -/
structure Env where
  alloc : Option Ptr
  libMutex : Bool := true
  atMutex : Bool := true
  reqMutex : Bool := true
  respMutex : Bool := true
  queue : Bool := true
  event : Bool := true
  thread : Bool := true
  commOpen : Bool := true

/-- The arguments of initialisation: which pointers are non-NULL, and the URC handler table. -/
structure Args where
  handle : Bool := true
  comm : Bool := true
  commFuncs : Bool := true
  tokens : Bool := true
  tables : Bool := true
  urc : List Urc.Entry := []

/-- Memory update. -/
def setMem (m : Ptr → Option Ctx) (p : Ptr) (v : Option Ctx) : Ptr → Option Ctx :=
  fun q => if q = p then v else m q

/-- `_Cellular_AllocContext`, cellular_common.c:116-146. -/
def allocContext (env : Env) (w : World) : Option Ptr × World :=
  match w.table with
  | some _ => (none, w)
  | none =>
    match env.alloc with
    | none => (none, w)
    | some p => (some p, { w with table := some p, mem := setMem w.mem p (some {})
                                  count := { w.count with contexts := w.count.contexts + 1 } })

/-- `_Cellular_FreeContext`, cellular_common.c:150-167. -/
def freeContext (static : Bool) (p : Ptr) (w : World) : World :=
  if w.table = some p then
    { w with table := none, mem := if static then w.mem else setMem w.mem p none
             count := { w.count with contexts := w.count.contexts - 1 } }
  else w

/-- `checkInitParameter`, cellular_common.c:380-412. -/
def checkInitParameter (a : Args) : CellErr :=
  if a.handle = false then .invalidHandle
  else if a.comm = false ∨ a.commFuncs = false then .badParameter
  else if a.tokens = false ∨ a.tables = false then .badParameter
  else .success

/-- `_Cellular_PktHandlerInit`, cellular_pkthandler.c:778-798. -/
def pktHandlerInit (env : Env) (c : Ctx) (n : Counts) : PktStatus × Ctx × Counts :=
  if env.queue then (.ok, { c with queue := true }, { n with queue := n.queue + 1 })
  else (.failure, { c with queue := false }, n)

/-- `_Cellular_PktHandlerCleanup`, cellular_pkthandler.c:504-516. -/
def pktHandlerCleanup (c : Ctx) (n : Counts) : Ctx × Counts :=
  if c.queue then ({ c with queue := false }, { n with queue := n.queue - 1 }) else (c, n)

/-- `_Cellular_PktioInit`, cellular_pktio.c:1343-1415, with the start of `_pktioReadThread`
(1201-1213, 1248-1260): when the transport cannot be opened the task reports ABORTED and ends. -/
def pktioInit (env : Env) (c : Ctx) (n : Counts) : PktStatus × Ctx × Counts :=
  let c := { c with pktioUp := false }
  if env.event = false then (.creationFail, { c with event := false }, n)
  else
    let c := { c with event := true }
    let n := { n with event := n.event + 1 }
    if env.thread = false then
      (.creationFail, { c with event := false }, { n with event := n.event - 1 })
    else
      let n := { n with thread := n.thread + 1 }
      if env.commOpen then (.ok, { c with pktioUp := true }, n)
      else (.failure, { c with event := false },
            { n with thread := n.thread - 1, event := n.event - 1 })

/-- `_Cellular_PktioShutdown`, cellular_pktio.c:1517-1541, with the end of `_pktioReadThread`
(1224-1260; the shutdown callback sets `bLibShutdown`, cellular_common.c:171-174). -/
def pktioShutdown (c : Ctx) (n : Counts) : Ctx × Counts :=
  if c.pktioUp then
    if c.event then
      ({ c with shutdown := true, event := false, pktioUp := false },
       { n with thread := n.thread - 1, event := n.event - 1 })
    else ({ c with pktioUp := false }, n)
  else (c, n)

/-- `libOpen`, cellular_common.c:178-221.  The result of the URC table check is not used. -/
def libOpen (env : Env) (urc : List Urc.Entry) (c : Ctx) (n : Counts) : CellErr × Ctx × Counts :=
  let _ignored := Urc.atParseInit (some urc)
  let r1 := pktHandlerInit env c n
  let r2 : PktStatus × Ctx × Counts :=
    if r1.1 = .ok then
      let r := pktioInit env r1.2.1 r1.2.2
      if r.1 ≠ .ok then
        let s := pktioShutdown r.2.1 r.2.2
        let k := pktHandlerCleanup s.1 s.2
        (r.1, k.1, k.2)
      else r
    else r1
  let e := if r2.1 ≠ .ok then translatePkt r2.1 else .success
  if e = .success then (e, { r2.2.1 with opened := true, shutdown := false }, r2.2.2)
  else (e, r2.2.1, r2.2.2)

/-- `libClose`, cellular_common.c:225-267 (without the sockets). -/
def libClose (c : Ctx) (n : Counts) : Ctx × Counts :=
  let c1 := { c with closing := true }
  let r := if c.opened then
      let s := pktioShutdown c1 n
      pktHandlerCleanup s.1 s.2
    else (c1, n)
  ({ r.1 with shutdown := false, opened := false, closing := false }, r.2)

/-- `_Cellular_LibInit`, cellular_common.c:920-1048.  Result: status, value stored through
`pCellularHandle` (if any), world.  (`none` for the world part never happens here: everything used has
just been created.) -/
def libInit (static : Bool) (env : Env) (a : Args) (w : World) : CellErr × Option Ptr × World :=
  let e := checkInitParameter a
  if e ≠ .success then (e, none, w) else
  match allocContext env w with
  | (none, w) => (.noMemory, none, w)
  | (some p, w) =>
    -- mutex creation, lines 956-1007: each one only if the previous ones succeeded
    let m1 := env.libMutex
    let m2 := m1 && env.atMutex
    let m3 := m2 && env.reqMutex
    let m4 := m3 && env.respMutex
    let c : Ctx := { libMutex := m1, atMutex := m2, reqMutex := m3, respMutex := m4 }
    let n := { w.count with libMutex := w.count.libMutex + m1.toNat
                            atMutex := w.count.atMutex + m2.toNat
                            reqMutex := w.count.reqMutex + m3.toNat
                            respMutex := w.count.respMutex + m4.toNat }
    let r : CellErr × Ctx × Counts := if m4 then libOpen env a.urc c n else (.resourceCreationFail, c, n)
    let w := { w with mem := setMem w.mem p (some r.2.1), count := r.2.2 }
    if r.1 ≠ .success then
      -- lines 1015-1041
      let n := { w.count with respMutex := w.count.respMutex - m4.toNat
                              reqMutex := w.count.reqMutex - m3.toNat
                              atMutex := w.count.atMutex - m2.toNat
                              libMutex := w.count.libMutex - m1.toNat }
      (r.1, none, freeContext static p { w with count := n })
    else (r.1, some p, w)

/-- `_Cellular_LibCleanup`, cellular_common.c:1052-1073. Using a context that is not allocated, or
destroying a mutex that does not exist, is undefined (`none`). -/
def libCleanup (static : Bool) (h : Option Ptr) (w : World) : Option (CellErr × World) :=
  match h with
  | none => some (.invalidHandle, w)
  | some p =>
    match w.mem p with
    | none => none
    | some c =>
      if c.libMutex && c.atMutex && c.reqMutex && c.respMutex then
        let r := libClose c w.count
        let c := { r.1 with libMutex := false, atMutex := false, reqMutex := false, respMutex := false }
        let n := { r.2 with libMutex := r.2.libMutex - 1, atMutex := r.2.atMutex - 1
                            reqMutex := r.2.reqMutex - 1, respMutex := r.2.respMutex - 1 }
        some (.success, freeContext static p { w with mem := setMem w.mem p (some c), count := n })
      else none

/-- Results of the modem module functions called by `Cellular_CommonInit`. -/
structure Mod where
  init : CellErr := .success
  enableUE : CellErr := .success
  enableUrc : CellErr := .success

/-- `Cellular_CommonInit`, cellular_common_api.c:142-204.  `old` is the content of `*pCellularHandle`
before the call; the second component of the result is its content afterwards. -/
def commonInit (static : Bool) (env : Env) (mod : Mod) (a : Args) (old : Option Ptr) (w : World) :
    Option (CellErr × Option Ptr × World) :=
  if a.handle = false then some (.invalidHandle, old, w)
  else if a.comm = false then some (.badParameter, old, w)
  else if a.tokens = false then some (.badParameter, old, w)
  else
    match libInit static env a w with
    | (e, none, w) => some (e, old, w)
    | (_, some p, w) =>
      if mod.init = .success then
        let w := { w with count := { w.count with modules := w.count.modules + 1 } }
        let e := if mod.enableUE = .success then mod.enableUrc else mod.enableUE
        if e ≠ .success then
          let w := { w with count := { w.count with modules := w.count.modules - 1 } }
          (libCleanup static (some p) w).map fun r => (e, some p, r.2)
        else some (e, some p, w)
      else (libCleanup static (some p) w).map fun r => (mod.init, some p, r.2)

/-- `Cellular_CommonCleanup`, cellular_common_api.c:208-224. -/
def commonCleanup (static : Bool) (h : Option Ptr) (w : World) : Option (CellErr × World) :=
  match h with
  | none => some (.invalidHandle, w)
  | some p =>
    match w.mem p with
    | none => none
    | some _ =>
      libCleanup static (some p) { w with count := { w.count with modules := w.count.modules - 1 } }

/-! ## Part 2: the shutdown handshake -/

/-- Where the task calling init and later cleanup is: waiting for STARTED/ABORTED
(cellular_pktio.c:1264-1278); library in use; about to set ABORT (1525); polling for ABORTED
(1526-1532); about to delete the event group (1534 / 1408); about to destroy the mutexes and free the
context (cellular_common.c:1065-1069 / 1015-1041); returned. -/
inductive MainPc
  | waitStart | inUse | setAbort | poll | deleteEvent | freeCtx | returned
  deriving DecidableEq, Repr

/-- Where the receive task is (cellular_pktio.c:1201-1260): opening the transport; about to set STARTED;
waiting for events; handling received data; closing the transport; first shutdown callback (1246); about
to set ABORTED (1253); reading and calling the shutdown callback (1256-1258); ended. -/
inductive ThrPc
  | open | setStarted | waitEvent | handleRx | close | callback1 | setAborted | callback2 | ended
  deriving DecidableEq, Repr

/-- A use of an object after it was deleted. -/
inductive Bad
  | eventGroup (at_ : ThrPc) | context (at_ : ThrPc) | isr | mainEvent
  deriving DecidableEq, Repr

/-- Shared state of the handshake. -/
structure Hs where
  main : MainPc := .waitStart
  thr : ThrPc := .open
  ctxLive : Bool := true
  evLive : Bool := true
  started : Bool := false
  abort : Bool := false
  aborted : Bool := false
  rx : Bool := false
  commOpen : Bool := false
  bad : List Bad := []

/-- The receive task uses the context. -/
def Hs.useCtx (s : Hs) : Hs := if s.ctxLive then s else { s with bad := .context s.thr :: s.bad }
/-- The receive task uses the event group (through the context). -/
def Hs.useEv (s : Hs) : Hs :=
  let s := s.useCtx
  if s.evLive then s else { s with bad := .eventGroup s.thr :: s.bad }

/-- Who moves. `thr ok`: the receive task, `ok` = the transport opens / there is more data to read;
`isr`: the transport calls the receive callback, which it does only while it is open. -/
inductive Act
  | main | thr (ok : Bool) | isr

/-- One step of a schedule. -/
def hsStep (s : Hs) : Act → Hs
  | .main =>
    match s.main with
    | .waitStart =>
      -- wait (clearing) for STARTED or ABORTED, cellular_pktio.c:1268-1277
      if s.aborted then { s with main := .deleteEvent, aborted := false, started := false }
      else if s.started then { s with main := .inUse, started := false }
      else s
    | .inUse => { s with main := .setAbort }
    | .setAbort => { s with main := .poll, abort := true }
    | .poll => if s.aborted then { s with main := .deleteEvent } else s
    | .deleteEvent =>
      if s.evLive then { s with main := .freeCtx, evLive := false }
      else { s with main := .freeCtx, bad := .mainEvent :: s.bad }
    | .freeCtx => { s with main := .returned, ctxLive := false }
    | .returned => s
  | .thr ok =>
    match s.thr with
    | .open =>
      let s := s.useCtx
      if ok then { s with thr := .setStarted, commOpen := true } else { s with thr := .setAborted }
    | .setStarted => let s := s.useEv; { s with thr := .waitEvent, started := true }
    | .waitEvent =>
      let s := s.useEv
      if s.abort then { s with thr := .close, abort := false, rx := false }
      else if s.rx then { s with thr := .handleRx, rx := false }
      else s
    | .handleRx =>
      -- one more read (ok) or no more bytes
      let s := s.useCtx
      if ok then s else { s with thr := .waitEvent }
    | .close => let s := s.useCtx; { s with thr := .callback1, commOpen := false }
    | .callback1 => let s := s.useCtx; { s with thr := .setAborted }
    | .setAborted => let s := s.useEv; { s with thr := .callback2, aborted := true }
    | .callback2 => let s := s.useCtx; { s with thr := .ended }
    | .ended => s
  | .isr =>
    -- _Cellular_PktRxCallBack, cellular_pktio.c:519-557: a NULL event group is reported, not used
    if s.commOpen then
      if s.ctxLive then (if s.evLive then { s with rx := true } else s)
      else { s with bad := .isr :: s.bad }
    else s

/-- A schedule. -/
def hsRun (l : List Act) : Hs := l.foldl hsStep {}

end Cellular.Lifecycle
