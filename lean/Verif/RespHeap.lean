import Verif.PktioSafe
/-!
# The receive path on the heap: response records as linked lists

`Verif.Pktio` keeps the response being collected as a list of lines.  In the code it is a record obtained from
`Platform_Malloc` with a linked list of further blocks, one per line, and every unsolicited line is copied into a
block of its own while it is handled.  Here these blocks are on an explicit heap; everything that does not touch them is taken
from `Verif.Pktio`.

`none` = undefined behaviour (a read, write or release of something that is not a live block of the right kind) or a
walk that never ends.  `halted` = `CELLULAR_CONFIG_ASSERT` fails (cellular_config_defaults.h:473-475), which
happens when `Platform_Malloc` returns NULL for a response record.
-/

namespace Cellular.RespHeap
open Cellular Cellular.Pktio

/-- What a block holds: `CellularATCommandLine_t`, `CellularATCommandResponse_t` (cellular_types.h:472-486), the copy of
an unsolicited line, or something that is not of the receive path. -/
inductive Block
  | node (item : Item) (next : Option Nat)
  | resp (status : Bool) (head : Option Nat)
  | copy (line : Str)
  | foreign (n : Nat)
  deriving DecidableEq

/-- The heap: live blocks by address. -/
abbrev Heap := Nat → Option Block

def set (h : Heap) (a : Nat) (b : Block) : Heap := fun x => if x = a then some b else h x
def del (h : Heap) (a : Nat) : Heap := fun x => if x = a then none else h x

/-- The allocator, and what the functions called for a message do with the heap for themselves. -/
structure Env where
  malloc : Heap → Option Nat
  user : Event → Heap → Heap

/-- Result of a call that may stop the program at an assertion. -/
inductive Out (α : Type)
  | halted
  | done (a : α)

/-- `_Cellular_AtResponseNew`, cellular_pktio.c:285-295. -/
def respNew (env : Env) (h : Heap) : Out (Nat × Heap) :=
  match env.malloc h with
  | none => .halted
  | some a => .done (a, set h a (.resp false none))

/-- The walk to the last block of the list, cellular_pktio.c:167-170. -/
def lastNode (h : Heap) (a : Nat) : Option Nat :=
  match h a with
  | some (.node _ none) => some a
  | some (.node _ (some b)) => lastNode h b
  | _ => none
partial_fixpoint

/-- `_saveData`, cellular_pktio.c:143-175, with the response record at `a` (a NULL pointer is the subject of
C11). -/
def saveData (env : Env) (h : Heap) (a : Nat) (it : Item) : Option (Out Heap) :=
  match env.malloc h with
  | none => some .halted
  | some n =>
    let h := set h n (.node it none)
    match h a with
    | some (.resp st none) => some (.done (set h a (.resp st (some n))))
    | some (.resp _ (some f)) =>
      match lastNode h f with
      | none => none
      | some z =>
        match h z with
        | some (.node i _) => some (.done (set h z (.node i (some n))))
        | _ => none
    | _ => none

/-- The loop of `_Cellular_AtResponseFree`, cellular_pktio.c:312-321: the next pointer is read before the block is
released. -/
def freeNodes (h : Heap) (p : Option Nat) : Option Heap :=
  match p with
  | none => some h
  | some a =>
    match h a with
    | some (.node _ next) => freeNodes (del h a) next
    | _ => none
partial_fixpoint

/-- `_Cellular_AtResponseFree`, cellular_pktio.c:305-325. -/
def respFree (h : Heap) (p : Option Nat) : Option Heap :=
  match p with
  | none => some h
  | some a =>
    match h a with
    | some (.resp _ head) =>
      match freeNodes h head with
      | none => none
      | some h =>
        match h a with
        | some (.resp _ _) => some (del h a)
        | _ => none
    | _ => none

/-- The lines of the list, as the response callback reads them (e.g. cellular_3gpp_api.c:631). -/
def readItems (h : Heap) (p : Option Nat) : Option (List Item) :=
  match p with
  | none => some []
  | some a =>
    match h a with
    | some (.node it next) =>
      readItems h next >>= fun l => some (it :: l)
    | _ => none
partial_fixpoint

/-- `pResp->status = v`. -/
def setStatus (h : Heap) (a : Nat) (v : Bool) : Option Heap :=
  match h a with
  | some (.resp _ head) => some (set h a (.resp v head))
  | _ => none

/-- Continue with the heap. -/
def andThen {α β : Type} (x : Option (Out α)) (f : α → Option (Out β)) : Option (Out β) :=
  match x with
  | none => none
  | some .halted => some .halted
  | some (.done a) => f a

/-- `_processIntermediateResponse`, cellular_pktio.c:198-281. -/
def processIntermediate (env : Env) (it : Item) (h : Heap) (a : Nat) (t : CmdType) : Option (Out (PktStatus × Heap)) :=
  let one : Option (Out (PktStatus × Heap)) :=
    match h a with
    | some (.resp _ none) => andThen (saveData env h a it) fun h => some (.done (.pendingData, h))
    | some (.resp _ (some _)) => some (.done (.invalidData, h))
    | _ => none
  let last : Option (Out (PktStatus × Heap)) :=
    andThen (saveData env h a it) fun h => (setStatus h a true).map fun h => .done (.ok, h)
  match t with
  | .woPrefix => one
  | .withPrefix => one
  | .multiWithPrefix => andThen (saveData env h a it) fun h => some (.done (.pendingData, h))
  | .multiWoPrefix => andThen (saveData env h a it) fun h => some (.done (.pendingData, h))
  | .multiDataWoPrefix => andThen (saveData env h a it) fun h => some (.done (.pendingBuffer, h))
  | .woPrefixNoResultCode => last
  | .withPrefixNoResultCode => last
  | _ => some (.done (.invalidData, h))

/-- `_Cellular_ProcessLine`, cellular_pktio.c:329-414. -/
def processLine (cfg : Cfg) (env : Env) (line : Str) (it : Item) (h : Heap) (a : Nat) (t : CmdType) :
    Option (Out (PktStatus × Heap)) :=
  if cfg.err.isSome ∧ cfg.succ.isSome then
    if isToken line cfg.extra ∨ isToken line cfg.succ then (setStatus h a true).map fun h => .done (.ok, h)
    else if isToken line cfg.err then (setStatus h a false).map fun h => .done (.ok, h)
    else processIntermediate env it h a t
  else some (.done (.failure, h))

/-- `_processUrcPacket`, cellular_pkthandler.c:124-197, as far as the heap is concerned: `Cellular_ATStrDup` (invalid lines
are not copied; a failed allocation ends the handling), the functions called, the release. -/
def urcPacket (env : Env) (h : Heap) (line : Str) : Option Heap :=
  if AtStr.valid line then
    match env.malloc h with
    | none => some h
    | some c =>
      let h := env.user (.urc line) (set h c (.copy line))
      match h c with
      | some (.copy _) => some (del h c)
      | _ => none
  else some h

/-- Receive side of the context: everything of `Pktio.St` but the response, `pAtCmdResp`
(cellular_common_internal.h:155) and the heap.  `base.resp` is not used. -/
structure HSt where
  base : St
  ptr : Option Nat
  heap : Heap

/-- The undefined branch of `_handleMsgType`, cellular_pktio.c:779-818. -/
def handleUndefined (cfg : Cfg) (env : Env) (x : HSt) (line : Str) : Option (PktStatus × HSt) :=
  let x := { x with base := { x.base with events := x.base.events ++ [.undefined line] },
                    heap := env.user (.undefined line) x.heap }
  match cfg.undefCb line with
  | .ok => some (.ok, x)
  | _ =>
    match respFree x.heap x.ptr with
    | none => none
    | some h => some (.invalidData, { base := { cleanBuf cfg x.base with cmd := .noCommand, pfx := none },
                                      ptr := none, heap := h })

/-- A complete response is given to the packet handler and released, cellular_pktio.c:746-763. -/
def complete (env : Env) (base : St) (a : Nat) (h : Heap) : Option HSt :=
  match h a with
  | some (.resp st head) =>
    match readItems h head with
    | none => none
    | some items =>
      match items.mapM (itemContents base.buf) with
      | none => none
      | some c =>
        match respFree (env.user (.response st c) h) (some a) with
        | none => none
        | some h => some { base := { base with cmd := .noCommand, pfx := none,
                                               events := base.events ++ [.response st c] },
                           ptr := none, heap := h }
  | _ => none

/-- `_handleMsgType`, cellular_pktio.c:719-820. -/
def handleMsgType (cfg : Cfg) (env : Env) (x : HSt) (p : Nat) (line : Str) :
    Option (Out (PktStatus × MsgType × HSt)) :=
  match getMsgType cfg x.base.cmd x.base.pfx line with
  | .unsolicited =>
    match put x.base.buf p (cfg.urcEdit line) with
    | none => none
    | some m => (urcPacket env x.heap line).map fun h =>
        .done (.ok, .unsolicited, { x with base := { x.base with buf := m, events := x.base.events ++ [.urc line] },
                                           heap := h })
  | .solicited =>
    andThen (match x.ptr with
      | some a => some (.done (a, x.heap))
      | none => some (respNew env x.heap)) fun q =>
    andThen (processLine cfg env line (.line p) q.2 q.1 x.base.cmd) fun r =>
      match r with
      | (.ok, h) => (complete env x.base q.1 h).map fun x => .done (.ok, .solicited, x)
      | (.pendingBuffer, h) => some (.done (.pendingBuffer, .solicited, { x with ptr := some q.1, heap := h }))
      | (.pendingData, h) => some (.done (.pendingData, .solicited, { x with ptr := some q.1, heap := h }))
      | (_, h) => (handleUndefined cfg env { x with ptr := some q.1, heap := h } line).map fun r =>
          .done (r.1, .undefined, r.2)
  | .undefined => (handleUndefined cfg env x line).map fun r => .done (r.1, .undefined, r.2)

/-- `_handleData`, cellular_pktio.c:665-715. -/
def handleData (env : Env) (x : HSt) (start p n : Nat) : Option (Out (Nat × Nat × HSt)) :=
  if start < p ∨ p + n < start then none
  else
    let avail := n - (start - p)
    if avail ≥ x.base.dataLen then
      match x.ptr with
      | none => none
      | some a =>
        let left := avail - x.base.dataLen
        let p' := start + x.base.dataLen
        andThen (saveData env x.heap a (.data start x.base.dataLen)) fun h =>
          some (.done (left, p', { x with base := { x.base with dataLen := 0, readPtr := some p', partialLen := left },
                                          heap := h }))
    else some (.done (0, p, { x with base := { x.base with readPtr := some start, partialLen := avail } }))

/-- `_getNextLine`, cellular_pktio.c:1060-1086. -/
def getNextLine (x : HSt) (p n len : Nat) (status : PktStatus) (t : MsgType) : Option (Nat × Nat × HSt) :=
  (Pktio.getNextLine x.base p n len status t).map fun r => (r.1, r.2.1, { x with base := r.2.2 })

/-- A complete line, cellular_pktio.c:1133-1158. -/
def handleLine (cfg : Cfg) (env : Env) (x : HSt) (c : Cur) (len : Nat) : Option (Out (Option Cur × HSt)) :=
  match readStr x.base.buf c.p with
  | none => none
  | some line =>
    andThen (handleMsgType cfg env x c.p line) fun r =>
      match r.1 with
      | .pendingBuffer =>
        if r.2.2.base.dataLen ≠ 0 then
          match c.sd with
          | none => none
          | some start =>
            andThen (handleData env r.2.2 start c.p c.n) fun d =>
              some (.done (if d.1 = 0 then none else some { c with p := d.2.1, n := d.1 }, d.2.2))
        else (getNextLine r.2.2 c.p c.n len r.1 r.2.1).map fun d => .done (some { c with p := d.1, n := d.2.1 }, d.2.2)
      | .ok => (getNextLine r.2.2 c.p c.n len r.1 r.2.1).map fun d => .done (some { c with p := d.1, n := d.2.1 }, d.2.2)
      | .pendingData =>
        (getNextLine r.2.2 c.p c.n len r.1 r.2.1).map fun d => .done (some { c with p := d.1, n := d.2.1 }, d.2.2)
      | _ => some (.done (none, r.2.2))

/-- One iteration of the loop of `_handleAllReceived`, cellular_pktio.c:1103-1160. -/
def iter (cfg : Cfg) (env : Env) (x : HSt) (c : Cur) : Option (Out (Option Cur × HSt)) :=
  match skipEol x.base.buf c.p c.n with
  | none => none
  | some (p, n) =>
    match preprocessInput cfg x.base p n with
    | none => none
    | some (false, s, _, _) => some (.done (none, { x with base := s }))
    | some (true, s, p, n) =>
      match preprocessLine cfg s p n c.sd with
      | none => none
      | some (false, s, _, _) => some (.done (none, { x with base := s }))
      | some (true, s, n, sd) =>
        match findLine s p n with
        | none => none
        | some (s, none) => some (.done (none, { x with base := s }))
        | some (s, some len) => handleLine cfg env { x with base := s } ⟨p, n, sd⟩ len

/-- `_handleAllReceived`, cellular_pktio.c:1090-1162, see `Pktio.loop` for the bound. -/
def loop (cfg : Cfg) (env : Env) : Nat → HSt → Cur → Option (Out HSt)
  | 0, _, _ => none
  | k + 1, x, c =>
    andThen (iter cfg env x c) fun r =>
      match r.1 with
      | none => some (.done r.2)
      | some c => loop cfg env k r.2 c

/-- The pointer computations of `_Cellular_ReadLine`, cellular_pktio.c:595-631. -/
def readPos (cfg : Cfg) (x : HSt) : Option (St × Nat × Nat × Int) :=
  let s := x.base
  match s.readPtr with
  | none => some (s, 0, s.partialLen, (cfg.size : Int) - s.partialLen)
  | some q =>
    if q ≠ 0 ∧ s.partialLen ≠ 0 ∧ x.ptr = none then
      match slice s.buf q s.partialLen with
      | none => none
      | some rest =>
        match put s.buf 0 rest with
        | none => none
        | some m =>
          (wr m s.partialLen 0).map (fun m =>
            ({ s with buf := m, readPtr := some 0 }, 0, s.partialLen, (cfg.size : Int) - s.partialLen))
    else some (s, q, q + s.partialLen, (cfg.size : Int) - s.partialLen - q)

/-- `_handleRxDataEvent`, cellular_pktio.c:1166-1198, with `_Cellular_ReadLine` 585-661. -/
def rxEvent (cfg : Cfg) (env : Env) (x : HSt) (chunk : Str) : Option (Out (Nat × HSt)) :=
  match readPos cfg x with
  | none => none
  | some (s, p, pRead, empty) =>
    if empty > 0 then
      if chunk = [] then some (.done (0, { x with base := s }))
      else
        match put s.buf pRead (chunk ++ [0]) with
        | none => none
        | some m =>
          let n := chunk.length + s.partialLen
          let s := { s with buf := m, partialLen := 0 }
          andThen (if s.dataLen ≠ 0 then handleData env { x with base := s } p p n
            else some (.done (n, p, { x with base := s }))) fun r =>
            if r.1 > 0 then
              match wr r.2.2.base.buf (r.2.1 + r.1) 0 with
              | none => none
              | some m =>
                andThen (loop cfg env (r.1 + 1) { r.2.2 with base := { r.2.2.base with buf := m } } ⟨r.2.1, r.1, none⟩)
                  fun x => some (.done (n, x))
            else some (.done (n, r.2.2))
    else some (.done (0, { x with base := { s with partialLen := 0, readPtr := none } }))

/-- Number of bytes the next read may ask for. -/
def room (cfg : Cfg) (x : HSt) : Nat :=
  match readPos cfg x with
  | none => 0
  | some (_, _, _, e) => e.toNat

/-- One step of a history (see `Pktio.RxAct`). -/
def act (cfg : Cfg) (env : Env) (x : HSt) : Props.RxAct → Option (Out HSt)
  | .recv bytes => andThen (rxEvent cfg env x (bytes.take (room cfg x))) fun r => some (.done r.2)
  | .control cmd pfx sendCb dataCb =>
    some (.done { x with base := { x.base with cmd := cmd, pfx := pfx, sendCb := sendCb, dataCb := dataCb } })

/-- A history. -/
def run (cfg : Cfg) (env : Env) (x : HSt) : List Props.RxAct → Option (Out HSt)
  | [] => some (.done x)
  | a :: t => andThen (act cfg env x a) fun x => run cfg env x t

/-- The receive task ends: `FREE_AT_RESPONSE_AND_SET_NULL( pContext->pAtCmdResp )`, cellular_pktio.c:1224-1229. -/
def abort (x : HSt) : Option HSt :=
  (respFree x.heap x.ptr).map fun h => { x with ptr := none, heap := h }

/-- The context after `_Cellular_LibInit` on the heap `h`. -/
def start (cfg : Cfg) (h : Heap) : HSt := ⟨Pktio.init cfg.size, none, h⟩

end Cellular.RespHeap
