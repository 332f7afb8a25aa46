import Verif.WireProps
import Verif.PktioPrompt
/-!
# Sending data over the byte stream: model (C78)

A port sends the data of a socket in two steps under one request: a command announces the data, and when the modem
has accepted it (by a prompt or by a result code), the data follow, and then the modem reports the result.
-/

namespace Cellular.Wire
open Cellular Cellular.Pktio Cellular.Api
open Cellular.Spec (SendCb)

/-- How the modem's consent is recognised: by a data send prefix callback, if one is given
(`_Cellular_AtcmdDataSend`), or by additional success tokens (`_Cellular_TimeoutAtcmdDataSendSuccessToken`). -/
inductive Way
  | prompt (cb : Option SendCb)
  | tokens (table : List Str)

/-- The arguments `atReq` and `dataReq` (cellular_common.h:160-195): the command, the status returned by its response
callback (`ok` if there is none), the data (`none` = NULL) and the end pattern. -/
structure Transfer where
  way : Way
  req : Req
  verdict : List Str → PktStatus
  data : Option Str
  pattern : Option Str

/-- What happens around one transfer: the pieces read by the receive task while the command is pending, between the
steps, and while the data are, and the number of bytes of data and of pattern that the transport takes. -/
structure Io where
  during : List Str
  between : List Str
  after : List Str
  taken : Nat
  takenPattern : Nat

/-- `_Cellular_PktioSendData`, cellular_pktio.c:1487-1515, for a valid context and interface: the bytes that the transport
takes are on the wire; result: their number. -/
def sendData (tx : Tx) (data : Str) (taken : Nat) : Nat × Tx :=
  ((data.take taken).length, { tx with wire := tx.wire ++ [data.take taken] })

/-- The status of a request (cellular_pkthandler.c:222-251, 86-117). -/
def statusOf (verdict : List Str → PktStatus) : Reply → PktStatus
  | .sendFailed => .badParam
  | .timeout => .timedOut
  | .error => .failure
  | .lines l => verdict l

/-- `_Cellular_DataSendWithTimeoutDelayRaw`, cellular_pkthandler.c:266-338: the status, the number stored in
`*pSentDataLength`, if any, and the packet layer afterwards.  While the data are pending the expected response prefix is what
it was.  If the transport does not take everything the command type is not reset.  Simplification: what is read
before the transport has taken everything is part of `chunks`. -/
def dataStep (cfg : Cfg) (k : Stack) (t : Transfer) (io : Io) : Option (PktStatus × Option Nat × Stack) :=
  match t.data with
  | none => some (.badRequest, none, k)
  | some d =>
    let k : Stack := ⟨{ k.rx with cmd := .noResult }, { k.tx with cmd := .noResult }⟩
    let s1 := sendData k.tx d io.taken
    let k1 : Stack := { k with tx := s1.2 }
    if s1.1 ≠ d.length then some (.sendError, some s1.1, k1)
    else
      let r : Bool × Stack :=
        match t.pattern with
        | none => (true, k1)
        | some p => ((sendData k1.tx p io.takenPattern).1 == p.length,
            { k1 with tx := (sendData k1.tx p io.takenPattern).2 })
      if r.1 = false then some (.sendError, some s1.1, r.2)
      else
        match reads cfg r.2.rx io.after with
        | none => none
        | some s =>
          some (statusOf (fun _ => .ok) (answer (s.events.drop k.rx.events.length)), some s1.1,
            ⟨{ s with cmd := .noCommand }, { r.2.tx with cmd := .noCommand }⟩)

/-- The first step: `_Cellular_AtcmdDataSend`, cellular_pkthandler.c:686-701, and
`_Cellular_TimeoutAtcmdDataSendSuccessToken`, 749-764: the callback or the table is there for this step only.  (At rest
there is neither.) -/
def commandStep (cfg : Cfg) (k : Stack) (t : Transfer) (chunks : List Str) : Option (PktStatus × Stack) :=
  match t.way with
  | .prompt cb =>
    (exchange cfg { k with rx := { k.rx with sendCb := cb } } t.req chunks).map
      (fun x => (statusOf t.verdict x.1, { x.2 with rx := { x.2.rx with sendCb := none } }))
  | .tokens table =>
    (exchange { cfg with extra := some table } k t.req chunks).map (fun x => (statusOf t.verdict x.1, x.2))

/-- `_Cellular_AtcmdDataSend`, cellular_pkthandler.c:668-718, and `_Cellular_TimeoutAtcmdDataSendSuccessToken`, 732-779.
Between the steps (`Platform_Delay`, or just the time it takes) the receive task may read. -/
def dataSend (cfg : Cfg) (k : Stack) (t : Transfer) (io : Io) : Option (PktStatus × Option Nat × Stack) :=
  match commandStep cfg k t io.during with
  | none => none
  | some (.ok, k) =>
    match reads cfg k.rx io.between with
    | none => none
    | some s => dataStep cfg { k with rx := s } t io
  | some (e, k) => some (e, none, k)

/-- Transfers one after the other, and what is read between them. -/
def dataSends (cfg : Cfg) (k : Stack) : List (Transfer × Io × List Str) → Option (List (PktStatus × Option Nat) × Stack)
  | [] => some ([], k)
  | (t, io, rest) :: l =>
    match dataSend cfg k t io with
    | none => none
    | some (st, n, k) =>
      match reads cfg k.rx rest with
      | none => none
      | some s => (dataSends cfg { k with rx := s } l).map (fun r => ((st, n) :: r.1, r.2))

end Cellular.Wire
