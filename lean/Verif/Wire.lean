import Verif.PktioProps
import Verif.Api
/-!
# The request layer over the byte stream

`Verif.Api` gives the API functions on top of a modem that answers a request by a list of lines.  Here that
modem is made of bytes: a request goes through the sending side of the packet layer (`Pktio.sendAtCmd`), the receive task reads
what the transport delivers in arbitrary pieces (`Pktio.rxEvent`), and the answer is the response that the packet
handler is given meanwhile.

Simplifications: requests are made one at a time (`pktRequestMutex`, cellular_pkthandler.c:349-363; interleavings are
the subject of `Verif.Conc`), no read happens between the check of a result and the end of the request, and what
unsolicited codes do to the library state is the subject of `Verif.Urc` and `Verif.Reg`.
-/

namespace Cellular.Wire
open Cellular Cellular.Pktio Cellular.Api

/-- The packet layer of a library context: receive side, send side. -/
structure Stack where
  rx : St
  tx : Tx

/-- The context after `_Cellular_LibInit`: zeroed (cellular_common.c:137). -/
def start (cfg : Cfg) : Stack :=
  { rx := Pktio.init cfg.size
    tx := { cmd := .noCommand, hasPrefix := false, prefixBuf := List.replicate 32 0,
            sendBuf := List.replicate 201 0, wire := [] } }

/-- The command types used by the API functions (cellular_types.h:359-370). -/
def typeOf : Api.CmdType → Pktio.CmdType
  | .noResult => .noResult
  | .woPrefix => .woPrefix
  | .withPrefix => .withPrefix
  | .multiWithPrefix => .multiWithPrefix

/-- Receive events of the receive task, one per element (`_handleRxDataEvent`, cellular_pktio.c:1166-1198). -/
def reads (cfg : Cfg) (s : St) : List Str → Option St
  | [] => some s
  | c :: cs =>
    match rxEvent cfg s c with
    | none => none
    | some (_, s) => reads cfg s cs

/-- What the caller is woken with: the first response handed to the packet handler among these
(`_convertAndQueueRespPacket`, cellular_pkthandler.c:86-117, up to the response callback; `PlatformQueue_Receive`,
cellular_pkthandler.c:232-249). -/
def answer : List Event → Reply
  | [] => .timeout
  | .response true l :: _ => .lines l
  | .response false _ :: _ => .error
  | _ :: t => answer t

/-- `_Cellular_AtcmdRequestTimeoutWithCallbackRaw`, cellular_pkthandler.c:196-262.  `chunks`: what the receive task reads
while the caller waits.  A request that the packet layer refuses is not sent; the prefix the receive task compares
with is the C string in `pktRespPrefixBuf`. -/
def exchange (cfg : Cfg) (k : Stack) (r : Req) (chunks : List Str) : Option (Reply × Stack) :=
  match sendAtCmd k.tx (some r.cmd) (typeOf r.type) r.pfx with
  | none => none
  | some (.ok, tx) =>
    let pfx : Option (Option Str) := if tx.hasPrefix then (readStr tx.prefixBuf 0).map some else some none
    match pfx with
    | none => none
    | some pfx =>
      match reads cfg { k.rx with cmd := tx.cmd, pfx := pfx } chunks with
      | none => none
      | some s => some (answer (s.events.drop k.rx.events.length),
          { rx := { s with cmd := .noCommand }, tx := { tx with cmd := .noCommand } })
  | some (_, tx) => some (.sendFailed, { k with tx := tx })

/-- A modem on the other side of the transport: the bytes that are read, cut into reads, while a request is pending, and
afterwards until the next one; both may depend on all requests made before. -/
structure Modem where
  during : List Req → Req → List Str
  after : List Req → Req → List Str

/-- The packet layer after the requests `rs`, made after the requests `done`. -/
def replay (cfg : Cfg) (m : Modem) (k : Stack) (done : List Req) : List Req → Option Stack
  | [] => some k
  | r :: rs =>
    match exchange cfg k r (m.during done r) with
    | none => none
    | some (_, k) =>
      match reads cfg k.rx (m.after done r) with
      | none => none
      | some s => replay cfg m { k with rx := s } (done ++ [r]) rs

/-- The answer to the request `r` made after the requests `sent` since the library was opened; `none` = undefined
behaviour. -/
def reply (cfg : Cfg) (m : Modem) (sent : List Req) (r : Req) : Option Reply :=
  match replay cfg m (start cfg) [] sent with
  | none => none
  | some k => (exchange cfg k r (m.during sent r)).map (·.1)

end Cellular.Wire
