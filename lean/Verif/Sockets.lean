import Verif.Signal
/-!
# Socket table, socket options and callback registration
(source/cellular_common.c, source/cellular_common_api.c)

A socket handle is the address of a `CellularSocketContext_t`.  The memory holding those objects is a
partial map from addresses to objects: an address that is not mapped is not (or no longer) allocated
and dereferencing it is undefined behaviour (`none`).
-/

namespace Cellular.Sockets
open Cellular Signal

/-- An address of a socket object. -/
abbrev Ptr := Nat
/-- A function pointer / context pointer pair as stored in a structure. -/
structure Cb where
  fn : Option Nat := none
  ctx : Nat := 0
  deriving DecidableEq, Repr

/-- `CellularSocketState_t`, include/common/cellular_common.h:110-116. -/
inductive SockState
  | allocated | connecting | connected | disconnected
  deriving DecidableEq, Repr

/-- `CellularSocketContext_t`, include/common/cellular_common.h:122-151.  The local IP address, the
data access mode, the remote address and the modem data are not used by the library and are one opaque
field `other` (0 = all zero). -/
structure Sock where
  contextId : Nat
  socketId : Nat
  state : SockState
  typ : Nat
  domain : Nat
  protocol : Nat
  localPort : Nat := 0
  sendTimeoutMs : Nat := 0
  recvTimeoutMs : Nat := 0
  dataReady : Cb := {}
  opened : Cb := {}
  closed : Cb := {}
  other : Nat := 0
  deriving DecidableEq, Repr

/-- `_callbackEvents_t` and the two packet level callbacks,
include/private/cellular_common_internal.h:60-100, 146-149. -/
structure Events where
  networkRegistration : Cb := {}
  pdnEvent : Cb := {}
  signalStrength : Cb := {}
  generic : Cb := {}
  modemEvent : Cb := {}
  undefinedResp : Cb := {}
  inputBuffer : Cb := {}
  deriving DecidableEq, Repr

/-- `CELLULAR_NUM_SOCKET_MAX`, include/cellular_config_defaults.h (default 12). -/
def maxSockets : Nat := 12

/-- The parts of `CellularContext_t` used here, plus the memory of the socket objects. -/
structure St where
  opened : Bool := true
  shutdown : Bool := false
  closing : Bool := false
  slots : List (Option Ptr) := List.replicate maxSockets none
  heap : Ptr → Option Sock := fun _ => none
  ev : Events := {}

/-- Memory update. -/
def setHeap (h : Ptr → Option Sock) (p : Ptr) (v : Option Sock) : Ptr → Option Sock :=
  fun q => if q = p then v else h q

/-- The first index `>= i` whose entry is NULL (`maxSockets` if there is none): the loop of
`_Cellular_CreateSocketData`, cellular_common.c:533-561. -/
def firstFree : List (Option Ptr) → Nat
  | [] => 0
  | none :: _ => 0
  | some _ :: t => firstFree t + 1

/-- `createSocketSetSocketData`, cellular_common.c:290-304. -/
def newSock (contextId socketId domain typ protocol : Nat) : Sock :=
  { contextId, socketId, state := .allocated, typ, domain, protocol }

/-- `_Cellular_CreateSocketData`, cellular_common.c:522-578.  `alloc i` is what
`Platform_Malloc` (or, with static allocation, `&cellularStaticSocketDataTable[i]`) gives for slot `i`.
Result: status, handle stored in `*pSocketHandle` (if any), state. -/
def createSocketData (alloc : Nat → Option Ptr) (contextId domain typ protocol : Nat) (s : St) :
    CellErr × Option Ptr × St :=
  let i := firstFree s.slots
  if i < maxSockets then
    match alloc i with
    | some p =>
      (.success, some p,
        { s with slots := s.slots.set i (some p)
                 heap := setHeap s.heap p (some (newSock contextId i domain typ protocol)) })
    | none => (.noMemory, none, s)
  else (.noMemory, none, s)

/-- `_Cellular_CheckLibraryStatus` on this state. -/
def libStatus (s : Option St) : CellErr :=
  checkLibraryStatus (s.map fun s => (s.opened, s.shutdown, s.closing))

/-- `Cellular_CommonCreateSocket`, cellular_common_api.c:408-442. `out` = `pSocketHandle != NULL`. -/
def commonCreateSocket (alloc : Nat → Option Ptr) (pdn domain typ protocol : Nat) (out : Bool) (s : St) :
    CellErr × Option Ptr × St :=
  let e := libStatus (some s)
  if e ≠ .success then (e, none, s)
  else if out = false then (.badParameter, none, s)
  else if isValidPdn pdn ≠ .success then (.invalidHandle, none, s)
  else createSocketData alloc pdn domain typ protocol s

/-- The index of the first entry equal to `h`: loop of `_Cellular_RemoveSocketData`,
cellular_common.c:597-604. -/
def findSlot (h : Ptr) : List (Option Ptr) → Nat
  | [] => 0
  | e :: t => if e = some h then 0 else findSlot h t + 1

/-- `_Cellular_RemoveSocketData`, cellular_common.c:582-626. The handle is dereferenced first
(`socketHandle->socketState`, for a log line).  `static` is
`CELLULAR_CONFIG_STATIC_SOCKET_CONTEXT_ALLOCATION`: nothing is freed then. The table is changed inside
a critical section. -/
def removeSocketData (static : Bool) (h : Ptr) (s : St) : Option (CellErr × St) :=
  match s.heap h with
  | none => none
  | some _ =>
    let i := findSlot h s.slots
    if i < maxSockets then
      some (.success, { s with slots := s.slots.set i none
                               heap := if static then s.heap else setHeap s.heap h none })
    else some (.badParameter, s)

/-- `_Cellular_GetSocketData`, cellular_common.c:894-916. -/
def getSocketData (i : Nat) (s : St) : Option Ptr :=
  if i ≥ maxSockets then none else (s.slots[i]?).join

/-- `_Cellular_IsValidSocket`, cellular_common.c:630-649. -/
def isValidSocket (i : Nat) (s : St) : CellErr :=
  if i ≥ maxSockets ∨ (s.slots[i]?).join = none then .badParameter else .success

/-- The socket loop of `libClose`, cellular_common.c:252-263. -/
def freeAll (static : Bool) (s : St) : St :=
  { s with slots := s.slots.map (fun _ => none)
           heap := fun p => if static = false ∧ some p ∈ s.slots then none else s.heap p }

/-- `CellularSocketOption_t`, cellular_types.h:324-331. -/
inductive Opt
  | maxIpPacketSize | sendTimeout | recvTimeout | pdnContextId | localPort
  deriving DecidableEq, Repr

/-- `CellularSocketOptionLevel_t`, cellular_types.h:314-318. -/
inductive Level
  | ip | transport
  deriving DecidableEq, Repr

/-- `_socketSetSockOptLevelTransport`, cellular_common_api.c:64-138. `ld` is how the target loads an
integer from the bytes of the option value (endianness); the option value has exactly
`optionValueLength` bytes. -/
def setSockOptTransport (ld : List Byte → Nat) (o : Opt) (v : List Byte) (k : Sock) : CellErr × Sock :=
  match o with
  | .sendTimeout =>
    if v.length = 4 then (.success, { k with sendTimeoutMs := ld v }) else (.internalFailure, k)
  | .recvTimeout =>
    if v.length = 4 then (.success, { k with recvTimeoutMs := ld v }) else (.internalFailure, k)
  | .pdnContextId =>
    if k.state = .allocated ∧ v.length = 1 then (.success, { k with contextId := ld v })
    else (.internalFailure, k)
  | .localPort =>
    if k.state = .allocated ∧ v.length = 2 then (.success, { k with localPort := ld v })
    else (.internalFailure, k)
  | .maxIpPacketSize => (.unsupported, k)

/-- `Cellular_CommonSocketSetSockOpt`, cellular_common_api.c:446-486. -/
def setSockOpt (ld : List Byte → Nat) (h : Option Ptr) (l : Level) (o : Opt) (v : Option (List Byte))
    (s : St) : Option (CellErr × St) :=
  let e := libStatus (some s)
  if e ≠ .success then some (e, s) else
  match h with
  | none => some (.invalidHandle, s)
  | some h =>
    match v with
    | none => some (.badParameter, s)
    | some v =>
      if v.length = 0 then some (.badParameter, s) else
      match l with
      | .ip => some (.unsupported, s)
      | .transport =>
        match s.heap h with
        | none => none
        | some k =>
          let r := setSockOptTransport ld o v k
          some (r.1, { s with heap := setHeap s.heap h (some r.2) })

/-- Common shape of the three socket callback registrations, cellular_common_api.c:490-576. -/
def socketRegister (f : Sock → Sock) (h : Option Ptr) (s : St) : Option (CellErr × St) :=
  let e := libStatus (some s)
  if e ≠ .success then some (e, s) else
  match h with
  | none => some (.invalidHandle, s)
  | some h =>
    match s.heap h with
    | none => none
    | some k => some (.success, { s with heap := setHeap s.heap h (some (f k)) })

/-- `Cellular_CommonSocketRegisterDataReadyCallback`, cellular_common_api.c:490-516. -/
def registerDataReady (h : Option Ptr) (fn : Option Nat) (ctx : Nat) (s : St) :=
  socketRegister (fun k => { k with dataReady := { fn, ctx } }) h s
/-- `Cellular_CommonSocketRegisterSocketOpenCallback`, cellular_common_api.c:520-546. -/
def registerOpen (h : Option Ptr) (fn : Option Nat) (ctx : Nat) (s : St) :=
  socketRegister (fun k => { k with opened := { fn, ctx } }) h s
/-- `Cellular_CommonSocketRegisterClosedCallback`, cellular_common_api.c:550-576. -/
def registerClosed (h : Option Ptr) (fn : Option Nat) (ctx : Nat) (s : St) :=
  socketRegister (fun k => { k with closed := { fn, ctx } }) h s

/-! ## Event callbacks -/

/-- Common shape of the five registration functions, cellular_common_api.c:228-359. -/
def eventRegister (f : Events → Events) (s : St) : CellErr × St :=
  let e := libStatus (some s)
  if e ≠ .success then (e, s) else (.success, { s with ev := f s.ev })

/-- `Cellular_CommonRegisterUrcNetworkRegistrationEventCallback`, cellular_common_api.c:228-251. -/
def registerNetworkRegistration (fn : Option Nat) (ctx : Nat) (s : St) :=
  eventRegister (fun e => { e with networkRegistration := { fn, ctx } }) s
/-- `Cellular_CommonRegisterUrcPdnEventCallback`, cellular_common_api.c:255-278. -/
def registerPdnEvent (fn : Option Nat) (ctx : Nat) (s : St) :=
  eventRegister (fun e => { e with pdnEvent := { fn, ctx } }) s
/-- `Cellular_CommonRegisterUrcSignalStrengthChangedCallback`, cellular_common_api.c:282-305. -/
def registerSignalStrength (fn : Option Nat) (ctx : Nat) (s : St) :=
  eventRegister (fun e => { e with signalStrength := { fn, ctx } }) s
/-- `Cellular_CommonRegisterUrcGenericCallback`, cellular_common_api.c:309-332. -/
def registerGeneric (fn : Option Nat) (ctx : Nat) (s : St) :=
  eventRegister (fun e => { e with generic := { fn, ctx } }) s
/-- `Cellular_CommonRegisterModemEventCallback`, cellular_common_api.c:336-359. -/
def registerModemEvent (fn : Option Nat) (ctx : Nat) (s : St) :=
  eventRegister (fun e => { e with modemEvent := { fn, ctx } }) s
/-- `_Cellular_RegisterUndefinedRespCallback`, cellular_common.c:1095-1125 (no library status check;
NULL also clears the context). -/
def registerUndefinedResp (fn : Option Nat) (ctx : Nat) (s : St) : CellErr × St :=
  (.success, { s with ev := { s.ev with undefinedResp := { fn, ctx := if fn = none then 0 else ctx } } })
/-- `_Cellular_RegisterInputBufferCallback`, cellular_common.c:1129-1159. -/
def registerInputBuffer (fn : Option Nat) (ctx : Nat) (s : St) : CellErr × St :=
  (.success, { s with ev := { s.ev with inputBuffer := { fn, ctx := if fn = none then 0 else ctx } } })

/-- One call of a stored callback: function and context, if a function is registered. -/
def invoke (c : Cb) : List (Nat × Nat) :=
  match c.fn with
  | none => []
  | some f => [(f, c.ctx)]

/-- `_Cellular_NetworkRegistrationCallback`, cellular_common.c:834-843. -/
def fireNetworkRegistration (s : St) := invoke s.ev.networkRegistration
/-- `_Cellular_PdnEventCallback`, cellular_common.c:847-855. -/
def firePdnEvent (s : St) := invoke s.ev.pdnEvent
/-- `_Cellular_SignalStrengthChangedCallback`, cellular_common.c:859-868. -/
def fireSignalStrength (s : St) := invoke s.ev.signalStrength
/-- `_Cellular_GenericCallback`, cellular_common.c:872-879. -/
def fireGeneric (s : St) := invoke s.ev.generic
/-- `_Cellular_ModemEventCallback`, cellular_common.c:883-890. -/
def fireModemEvent (s : St) := invoke s.ev.modemEvent
/-- the call of the undefined response callback, cellular_pkthandler.c:466-493 (`_handleUndefinedMessage`
path: called when registered). -/
def fireUndefinedResp (s : St) := invoke s.ev.undefinedResp
/-- the call of the input buffer callback, cellular_pktio.c:905-959. -/
def fireInputBuffer (s : St) := invoke s.ev.inputBuffer

/-! ## Concurrent socket creation -/

/-- Where a thread is inside `_Cellular_CreateSocketData` (cellular_common.c:533-577, no lock):
scanning entry `i`; having seen entry `i` NULL; having allocated and initialised its object for entry
`i`; returned. -/
inductive Pc
  | scan (i : Nat)
  | sawNull (i : Nat)
  | ready (i : Nat) (p : Ptr)
  | done (h : Option Ptr)
  deriving DecidableEq, Repr

/-- Shared table and memory, and the program counter of every thread. -/
structure Conc where
  slots : List (Option Ptr)
  used : Ptr → Bool
  pc : Nat → Pc

/-- One atomic step of thread `t`. `static` selects the allocation.  `Platform_Malloc` returns NULL or
an address that is not in use. -/
inductive Step (static : Bool) (c : Conc) (t : Nat) : Conc → Prop
  | scanFull (i) : c.pc t = .scan i → maxSockets ≤ i →
      Step static c t { c with pc := fun u => if u = t then .done none else c.pc u }
  | scanNull (i) : c.pc t = .scan i → i < maxSockets → c.slots[i]? = some none →
      Step static c t { c with pc := fun u => if u = t then .sawNull i else c.pc u }
  | scanUsed (i p) : c.pc t = .scan i → i < maxSockets → c.slots[i]? = some (some p) →
      Step static c t { c with pc := fun u => if u = t then .scan (i + 1) else c.pc u }
  | allocFail (i) : c.pc t = .sawNull i → static = false →
      Step static c t { c with pc := fun u => if u = t then .done none else c.pc u }
  | alloc (i p) : c.pc t = .sawNull i → static = false → c.used p = false →
      Step static c t { c with used := fun q => q = p || c.used q
                               pc := fun u => if u = t then .ready i p else c.pc u }
  | allocStatic (i) : c.pc t = .sawNull i → static = true →
      Step static c t { c with pc := fun u => if u = t then .ready i i else c.pc u }
  | store (i p) : c.pc t = .ready i p →
      Step static c t { c with slots := c.slots.set i (some p)
                               pc := fun u => if u = t then .done (some p) else c.pc u }

/-- All threads about to create a socket, empty table. -/
def Conc.start : Conc := ⟨List.replicate maxSockets none, fun _ => false, fun _ => .scan 0⟩

/-- Schedules. -/
inductive Run (static : Bool) : Conc → Prop
  | start : Run static Conc.start
  | step (c c' t) : Run static c → Step static c t c' → Run static c'

end Cellular.Sockets
