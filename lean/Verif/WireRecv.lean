import Verif.WireDataProps
import Verif.PktioDataInv
/-!
# Receiving data over the byte stream: model (C80)

A port fetches the data of a socket with a command whose response contains blocks of binary data.  A data prefix callback,
installed while the command is pending, recognises their headers.
-/

namespace Cellular.Wire
open Cellular Cellular.Pktio Cellular.Api

/-- `CellularATCommandDataPrefixCallback_t`: from the text, status, text afterwards, and where data start and how many bytes
(cellular_common.h:117-140). -/
abbrev DataCb := Str → PktStatus × Str × Option (Nat × Nat)

/-- `_Cellular_AtcmdRequestTimeoutWithCallbackRaw`, cellular_pkthandler.c:196-262, for any command type (`exchange` is
this for the types that the API functions use). -/
def request (cfg : Cfg) (k : Stack) (cmd : Str) (type : Pktio.CmdType) (pfx : Option Str) (chunks : List Str) :
    Option (Reply × Stack) :=
  match sendAtCmd k.tx (some cmd) type pfx with
  | none => none
  | some (.ok, tx) =>
    let pfx : Option (Option Str) := if tx.hasPrefix then (readStr tx.prefixBuf 0).map some else some none
    match pfx with
    | none => none
    | some pfx =>
      match reads cfg { k.rx with cmd := tx.cmd, pfx := pfx } chunks with
      | none => none
      | some s => some (answer (s.events.drop k.rx.events.length),
          { rx := { s with cmd := .noCommand }, tx := { tx with cmd := .noCommand } })
  | some (_, tx) => some (.sendFailed, { k with tx := tx })

/-- The arguments of a data receive: `pktDataPrefixCallback` and, of `atReq`, command, type and response prefix. -/
structure Fetch where
  cb : DataCb
  cmd : Str
  type : Pktio.CmdType
  pfx : Option Str

/-- `_Cellular_TimeoutAtcmdDataRecvRequestWithCallback`, cellular_pkthandler.c:629-664: the callback is there while the
request is made. -/
def dataRecv (cfg : Cfg) (k : Stack) (q : Fetch) (chunks : List Str) : Option (Reply × Stack) :=
  (request cfg { k with rx := { k.rx with dataCb := some q.cb } } q.cmd q.type q.pfx chunks).map
    (fun x => (x.1, { x.2 with rx := { x.2.rx with dataCb := none } }))

/-- What a user of the packet layer may ask for. -/
inductive Job
  | ask (r : Req) (during : List Str)
  | send (t : Transfer) (io : Io)
  | fetch (q : Fetch) (during : List Str)

/-- What it reports. -/
inductive Report
  | reply (r : Reply)
  | sent (st : PktStatus) (n : Option Nat)
  deriving DecidableEq

/-- One job: `_Cellular_TimeoutAtcmdRequestWithCallback` (cellular_pkthandler.c:581-601), data sends and data receives. -/
def runJob (cfg : Cfg) (k : Stack) : Job → Option (Report × Stack)
  | .ask r during => (exchange cfg k r during).map (fun x => (.reply x.1, x.2))
  | .send t io => (dataSend cfg k t io).map (fun x => (.sent x.1 x.2.1, x.2.2))
  | .fetch q during => (dataRecv cfg k q during).map (fun x => (.reply x.1, x.2))

/-- Jobs one after the other, and what is read between them. -/
def runJobs (cfg : Cfg) (k : Stack) : List (Job × List Str) → Option (List Report × Stack)
  | [] => some ([], k)
  | (j, rest) :: l =>
    match runJob cfg k j with
    | none => none
    | some (o, k) =>
      match reads cfg k.rx rest with
      | none => none
      | some s => (runJobs cfg { k with rx := s } l).map (fun r => (o :: r.1, r.2))

end Cellular.Wire
