import Verif.Pktio
/-!
# Requests and the receive task, interleaved

Model of source/cellular_pkthandler.c (requests) and of the part of source/cellular_pktio.c that shares
state with them, as a transition system: any number of calling threads and the receive task
(`_pktioReadThread`), interleaved arbitrarily.  A step is what runs between two points at which another
thread can interfere: the body of a critical section of `PktRespMutex`, or one unprotected access to a
shared member.  Functions on lines are those of `Verif.Pktio`.

Simplifications: the receive buffer is not modelled here (it is the subject of `Verif.Pktio`): the n-th line
received is denoted by its number, an item `.line n` of a response is the n-th line received, binary data
items are left out, and the receive task is given complete lines.  `reqs`, `received` and `log` are history:
no step depends on them (a request id only names a request, a line number only names a line).  Handling of a URC does not touch the state below and is one step.
`_Cellular_PktHandlerCleanup` and a NULL context are not modelled.
-/

namespace Cellular.Conc
open Cellular
open Cellular.Pktio (CmdType MsgType Item Resp Cfg getMsgType processLine writeMax)

/-- `CellularAtDataReq_t`: the data (`none` = NULL) whose length is `dataLen`, whether `pSentDataLength`
is given, the end pattern (`none` = NULL) whose length is `endPatternLen`. -/
structure Data where
  data : Option Str
  sentPtr : Bool
  pattern : Option Str

/-- The functions that make a request: `_Cellular_PktHandler_AtcmdRequestWithCallback`,
`_Cellular_AtcmdRequestSuccessToken` (success tokens), `_Cellular_TimeoutAtcmdDataRecvRequestWithCallback`
(data prefix callback given?), `_Cellular_AtcmdDataSend` (data send prefix callback given?) and
`_Cellular_TimeoutAtcmdDataSendSuccessToken`. -/
inductive Kind
  | plain
  | tokens (table : List Str)
  | dataRecv (prefixCb : Bool)
  | dataSend (d : Data) (prefixCb : Bool)
  | dataSendTokens (d : Data) (table : List Str)

/-- `CellularAtReq_t` (`respCallback` given or NULL) and the function called. -/
structure Req where
  cmd : Option Str
  type : CmdType
  pfx : Option Str
  hasCb : Bool
  kind : Kind

/-- The success tokens a request installs. -/
def Kind.table : Kind → Option (List Str)
  | .tokens t => some t
  | .dataSendTokens _ t => some t
  | _ => none

/-- The data of a two-step request. -/
def Kind.data : Kind → Option Data
  | .dataSend d _ => some d
  | .dataSendTokens d _ => some d
  | _ => none

/-- Where a calling thread is, with its request id. -/
inductive Thr
  | idle
  /-- waiting for `pktRequestMutex` -/
  | waiting (i : Nat) (r : Req)
  /-- owns it, about to install tokens or callbacks -/
  | install (i : Nat) (r : Req)
  /-- cellular_pkthandler.c:208-223 -/
  | raw0 (i : Nat) (r : Req)
  /-- `_Cellular_PktioSendAtCmd` up to the unlock, cellular_pktio.c:1429-1468 -/
  | raw1 (i : Nat) (r : Req)
  /-- about to call the transport, cellular_pktio.c:1470 -/
  | raw2 (i : Nat) (r : Req)
  /-- waiting for the queue, cellular_pkthandler.c:234 -/
  | raw3 (i : Nat) (r : Req)
  /-- cellular_pkthandler.c:254-258 -/
  | raw4 (i : Nat) (r : Req) (st : PktStatus)
  /-- about to remove tokens or callbacks -/
  | uninstall (i : Nat) (r : Req) (st : PktStatus)
  /-- cellular_pkthandler.c:276-289 -/
  | data0 (i : Nat) (d : Data)
  /-- about to send the data, cellular_pkthandler.c:291 -/
  | data1 (i : Nat) (d : Data) (b : Str)
  /-- about to send the end pattern, cellular_pkthandler.c:303, `n` bytes of data accepted -/
  | data2 (i : Nat) (d : Data) (n : Nat) (e : Str)
  /-- waiting for the queue, cellular_pkthandler.c:315 -/
  | data3 (i : Nat) (n : Nat)
  /-- cellular_pkthandler.c:337-339 -/
  | data4 (i : Nat) (n : Nat) (st : PktStatus)
  /-- about to unlock `pktRequestMutex` and return `st`; `*pSentDataLength`, if it was written -/
  | release (i : Nat) (st : PktStatus) (sent : Option Nat)

/-- Where the receive task is; `n` is the number of the line in hand. -/
inductive Rx
  | idle
  /-- a complete line is in the buffer -/
  | got (n : Nat)
  /-- `_preprocessLine`, callbacks fetched, cellular_pktio.c:978-983 -/
  | pre (n : Nat) (recvCb sendCb : Option Nat)
  /-- before `pRespPrefix` is read as an argument, cellular_pktio.c:1133 -/
  | classify (n : Nat)
  /-- before the body of `_getMsgType`, cellular_pktio.c:457; `on` = the pointer read is not NULL -/
  | classify2 (n : Nat) (on : Bool)
  /-- solicited: before reading `PktioAtCmdType` as an argument, cellular_pktio.c:743 -/
  | proc (n : Nat)
  /-- before `_Cellular_ProcessLine` -/
  | proc2 (n : Nat) (t : CmdType)
  /-- the response is complete, before cellular_pktio.c:749-752 -/
  | done (r : Resp)
  /-- in `_convertAndQueueRespPacket`, before the NULL check of `pktRespCB`, cellular_pkthandler.c:95-101 -/
  | handle (r : Resp)
  /-- check passed, before the second read of `pktRespCB`, cellular_pkthandler.c:103 -/
  | call (r : Resp)
  /-- in the callback of request `i` -/
  | inCb (i : Nat) (r : Resp)
  /-- before `PlatformQueue_Send`, cellular_pkthandler.c:110 -/
  | send (st : PktStatus)
  /-- before `FREE_AT_RESPONSE_AND_SET_NULL`, cellular_pktio.c:760 -/
  | free
  /-- undefined message, before the handler is called, cellular_pktio.c:789 -/
  | undef (n : Nat)
  /-- the handler refused, before cellular_pktio.c:799-808 -/
  | undefFail
  /-- called through a NULL pointer -/
  | crashed

/-- What happened, in order. -/
inductive Ev
  /-- line `n` was received -/
  | recv (n : Nat)
  /-- request `i` got `pktRequestMutex` -/
  | start (i : Nat)
  /-- the command text of request `i` was handed to the transport -/
  | command (i : Nat) (text : Str)
  /-- data of request `i` was handed to the transport, which accepted `n` bytes -/
  | data (i : Nat) (b : Str) (n : Nat)
  /-- the end pattern likewise -/
  | pattern (i : Nat) (b : Str) (n : Nat)
  /-- a step of request `i` took this status from the queue -/
  | got (i : Nat) (st : PktStatus)
  /-- a step of request `i` gave up waiting -/
  | timeout (i : Nat)
  /-- the transport did not accept everything -/
  | sendError (i : Nat)
  /-- request `i` returned `st`; `*pSentDataLength` if written -/
  | ret (i : Nat) (st : PktStatus) (sent : Option Nat)
  /-- line `n` completed a response; `ok` = success -/
  | final (ok : Bool) (n : Nat)
  /-- line `n` was compared with the success tokens request `i` installed -/
  | consulted (i : Nat) (n : Nat)
  /-- the receive task fetched the prefix callback of request `i` -/
  | fetched (i : Nat)
  /-- the prefix callback of request `i` was called -/
  | prefixCb (i : Nat)
  /-- the response callback of request `i` ran on these items and returned `st` -/
  | callback (i : Nat) (items : List Item) (st : PktStatus)
  /-- a call through a NULL pointer -/
  | nullCall
  deriving DecidableEq

/-- The shared members of `CellularContext_t`, the threads and the history.  Callbacks and tables are
tagged with the request that installed them. -/
structure St where
  mutex : Option Nat
  cmd : CmdType
  /-- `pRespPrefix` is not NULL; it then points to `pfxBuf` (`pktRespPrefixBuf`) -/
  pfxOn : Bool
  pfxBuf : Str
  cb : Option Nat
  extra : Option (Nat × List Str)
  recvCb : Option Nat
  sendCb : Option Nat
  queue : Option PktStatus
  resp : Option Resp
  rx : Rx
  thr : Nat → Thr
  /-- the requests made so far; the index is the id -/
  reqs : List Req
  received : List Str
  log : List Ev

/-- After `_Cellular_LibInit`. -/
def init : St :=
  { mutex := none, cmd := .noCommand, pfxOn := false, pfxBuf := [], cb := none, extra := none, recvCb := none, sendCb := none,
    queue := none, resp := none, rx := .idle, thr := fun _ => .idle, reqs := [], received := [], log := [] }

def St.set (s : St) (t : Nat) (p : Thr) : St := { s with thr := fun u => if u = t then p else s.thr u }
def St.emit (s : St) (e : Ev) : St := { s with log := s.log ++ [e] }

/-- `_setPrefixByAtCommandType`, cellular_pktio.c:1282-1339: the new `pRespPrefix`, or a bad parameter.
(Its storage in a 32 byte buffer is modelled in `Verif.Pktio.setPrefixByType`.) -/
def prefixFor (type : CmdType) (pfx : Option Str) : Option (Option Str) :=
  match type with
  | .noResult => some none
  | .woPrefix => some none
  | .woPrefixNoResultCode => some none
  | .withPrefix => pfx.map some
  | .multiWithPrefix => pfx.map some
  | .withPrefixNoResultCode => pfx.map some
  | .multiWoPrefix => some pfx
  | .multiDataWoPrefix => some pfx
  | .noCommand => none

/-- The checks of `_Cellular_PktioSendAtCmd`, cellular_pktio.c:1429-1477: status, or the new prefix. -/
def sendCheck (comm : Bool) (text : Str) (r : Req) : Except PktStatus (Option Str) :=
  if comm = false then .error .invalidHandle
  else if text.length > writeMax then .error .badParam
  else match prefixFor r.type r.pfx with
    | some p => .ok p
    | none => .error .badParam

/-- `_Cellular_AtcmdRequestSuccessToken`, cellular_pkthandler.c:608-611 and
`_Cellular_TimeoutAtcmdDataSendSuccessToken`, 752-755; the other functions leave the table alone. -/
def Kind.installExtra (k : Kind) (i : Nat) (old : Option (Nat × List Str)) : Option (Nat × List Str) :=
  match k.table with
  | some tb => some (i, tb)
  | none => old

/-- `_Cellular_TimeoutAtcmdDataRecvRequestWithCallback`, cellular_pkthandler.c:647-650. -/
def Kind.installRecv (k : Kind) (i : Nat) (old : Option Nat) : Option Nat :=
  match k with
  | .dataRecv b => if b then some i else none
  | _ => old

/-- `_Cellular_AtcmdDataSend`, cellular_pkthandler.c:689-692. -/
def Kind.installSend (k : Kind) (i : Nat) (old : Option Nat) : Option Nat :=
  match k with
  | .dataSend _ b => if b then some i else none
  | _ => old

/-- cellular_pkthandler.c:616-619, 760-763. -/
def Kind.removeExtra (k : Kind) (old : Option (Nat × List Str)) : Option (Nat × List Str) :=
  match k.table with
  | some _ => none
  | none => old

/-- cellular_pkthandler.c:655-658. -/
def Kind.removeRecv (k : Kind) (old : Option Nat) : Option Nat :=
  match k with
  | .dataRecv _ => none
  | _ => old

/-- cellular_pkthandler.c:697-700. -/
def Kind.removeSend (k : Kind) (old : Option Nat) : Option Nat :=
  match k with
  | .dataSend _ _ => none
  | _ => old

/-- The data step follows a successful command step, cellular_pkthandler.c:702, 765. -/
def afterRaw (i : Nat) (d : Option Data) (st : PktStatus) : Thr :=
  match d, st with
  | some d, .ok => .data0 i d
  | _, st => .release i st none

/-- The end pattern is sent if there is one, cellular_pkthandler.c:301. -/
def afterData (i : Nat) (d : Data) (n : Nat) : Thr :=
  match d.pattern with
  | some e => .data2 i d n e
  | none => .data3 i n

/-- One step of calling thread `t`.  `comm` = the transport is present.  Requests, timeouts and the number of
bytes the transport accepts are arbitrary. -/
inductive ThrStep (comm : Bool) (t : Nat) : St → St → Prop
  /-- a request function is called -/
  | call (s : St) (r : Req) (h : s.thr t = .idle) :
      ThrStep comm t s { s.set t (.waiting s.reqs.length r) with reqs := s.reqs ++ [r] }
  /-- `_Cellular_PktHandlerAcquirePktRequestMutex` -/
  | acquire (s : St) (i : Nat) (r : Req) (h : s.thr t = .waiting i r) (hm : s.mutex = none) :
      ThrStep comm t s (({ s with mutex := some t }.set t (.install i r)).emit (.start i))
  /-- cellular_pkthandler.c:608-611, 647-650, 689-692, 752-755; what is not set keeps its value -/
  | install (s : St) (i : Nat) (r : Req) (h : s.thr t = .install i r) :
      ThrStep comm t s ({ s with
        extra := r.kind.installExtra i s.extra, recvCb := r.kind.installRecv i s.recvCb,
        sendCb := r.kind.installSend i s.sendCb }.set t (.raw0 i r))
  /-- no command text: cellular_pkthandler.c:208-212 -/
  | raw0null (s : St) (i : Nat) (r : Req) (h : s.thr t = .raw0 i r) (hc : r.cmd = none) :
      ThrStep comm t s (s.set t (.uninstall i r .badRequest))
  /-- cellular_pkthandler.c:218-223 -/
  | raw0 (s : St) (i : Nat) (r : Req) (text : Str) (h : s.thr t = .raw0 i r) (hc : r.cmd = some text) :
      ThrStep comm t s ({ s with cb := if r.hasCb then some i else none }.set t (.raw1 i r))
  | raw1fail (s : St) (i : Nat) (r : Req) (text : Str) (e : PktStatus) (h : s.thr t = .raw1 i r)
      (hc : r.cmd = some text) (he : sendCheck comm text r = .error e) :
      ThrStep comm t s (s.set t (.raw4 i r e))
  | raw1 (s : St) (i : Nat) (r : Req) (text : Str) (p : Option Str) (h : s.thr t = .raw1 i r)
      (hc : r.cmd = some text) (he : sendCheck comm text r = .ok p) :
      ThrStep comm t s ({ s with cmd := r.type, pfxOn := p.isSome, pfxBuf := p.getD s.pfxBuf }.set t (.raw2 i r))
  | raw2 (s : St) (i : Nat) (r : Req) (text : Str) (h : s.thr t = .raw2 i r) (hc : r.cmd = some text) :
      ThrStep comm t s ((s.set t (.raw3 i r)).emit (.command i text))
  | raw3got (s : St) (i : Nat) (r : Req) (st : PktStatus) (h : s.thr t = .raw3 i r) (hq : s.queue = some st) :
      ThrStep comm t s (({ s with queue := none }.set t (.raw4 i r st)).emit (.got i st))
  | raw3timeout (s : St) (i : Nat) (r : Req) (h : s.thr t = .raw3 i r) (hq : s.queue = none) :
      ThrStep comm t s ((s.set t (.raw4 i r .timedOut)).emit (.timeout i))
  | raw4 (s : St) (i : Nat) (r : Req) (st : PktStatus) (h : s.thr t = .raw4 i r st) :
      ThrStep comm t s ({ s with cmd := .noCommand, cb := none }.set t (.uninstall i r st))
  /-- cellular_pkthandler.c:616-619, 655-658, 697-700, 760-763; then 702 and 765 -/
  | uninstall (s : St) (i : Nat) (r : Req) (st : PktStatus) (h : s.thr t = .uninstall i r st) :
      ThrStep comm t s ({ s with
        extra := r.kind.removeExtra s.extra, recvCb := r.kind.removeRecv s.recvCb,
        sendCb := r.kind.removeSend s.sendCb }.set t (afterRaw i r.kind.data st))
  /-- cellular_pkthandler.c:276-280 -/
  | data0null (s : St) (i : Nat) (d : Data) (h : s.thr t = .data0 i d)
      (hd : d.data = none ∨ d.sentPtr = false) :
      ThrStep comm t s (s.set t (.release i .badRequest none))
  /-- cellular_pkthandler.c:287-289 -/
  | data0 (s : St) (i : Nat) (d : Data) (b : Str) (h : s.thr t = .data0 i d)
      (hd : d.data = some b) (hp : d.sentPtr = true) :
      ThrStep comm t s ({ s with cmd := .noResult }.set t (.data1 i d b))
  /-- cellular_pkthandler.c:291-297 -/
  | data1 (s : St) (i : Nat) (d : Data) (b : Str) (n : Nat) (h : s.thr t = .data1 i d b) (hn : n = b.length) :
      ThrStep comm t s ((s.set t (afterData i d n)).emit (.data i b n))
  | data1short (s : St) (i : Nat) (d : Data) (b : Str) (n : Nat) (h : s.thr t = .data1 i d b)
      (hn : n ≠ b.length) :
      ThrStep comm t s (((s.set t (.release i .sendError (some n))).emit (.data i b n)).emit (.sendError i))
  /-- cellular_pkthandler.c:301-310 -/
  | data2 (s : St) (i : Nat) (d : Data) (n : Nat) (e : Str) (m : Nat) (h : s.thr t = .data2 i d n e)
      (hm : m = e.length) :
      ThrStep comm t s ((s.set t (.data3 i n)).emit (.pattern i e m))
  | data2short (s : St) (i : Nat) (d : Data) (n : Nat) (e : Str) (m : Nat) (h : s.thr t = .data2 i d n e)
      (hm : m ≠ e.length) :
      ThrStep comm t s (((s.set t (.release i .sendError (some n))).emit (.pattern i e m)).emit (.sendError i))
  | data3got (s : St) (i n : Nat) (st : PktStatus) (h : s.thr t = .data3 i n) (hq : s.queue = some st) :
      ThrStep comm t s (({ s with queue := none }.set t (.data4 i n st)).emit (.got i st))
  | data3timeout (s : St) (i n : Nat) (h : s.thr t = .data3 i n) (hq : s.queue = none) :
      ThrStep comm t s ((s.set t (.data4 i n .timedOut)).emit (.timeout i))
  | data4 (s : St) (i n : Nat) (st : PktStatus) (h : s.thr t = .data4 i n st) :
      ThrStep comm t s ({ s with cmd := .noCommand }.set t (.release i st (some n)))
  /-- `_Cellular_PktHandlerReleasePktRequestMutex` and return -/
  | release (s : St) (i : Nat) (st : PktStatus) (sent : Option Nat) (h : s.thr t = .release i st sent) :
      ThrStep comm t s (({ s with mutex := none }.set t .idle).emit (.ret i st sent))

/-- The text of line `n`. -/
def St.line (s : St) (n : Nat) : Str := s.received.getD n []

/-- `_Cellular_ProcessLine` with the installed success tokens, on a new response if there is none
(cellular_pktio.c:734-743). -/
def procResult (cfg : Cfg) (s : St) (n : Nat) (t : CmdType) : PktStatus × Resp :=
  processLine { cfg with extra := s.extra.map (·.2) } (s.line n) (.line n) (s.resp.getD ⟨false, []⟩) t

/-- Log of the comparison with installed tokens. -/
def consult (s : St) (n : Nat) : List Ev :=
  match s.extra with
  | some (i, _) => [.consulted i n]
  | none => []

/-- `_getMsgType` under the lock, cellular_pktio.c:447-500, and the way to go on. -/
def classified (cfg : Cfg) (s : St) (n : Nat) (on : Bool) : Rx :=
  match getMsgType cfg s.cmd (if on then some s.pfxBuf else none) (s.line n) with
  | .unsolicited => .idle
  | .solicited => .proc n
  | .undefined => .undef n

/-- Log of a fetched callback. -/
def fetchedBy : Option Nat → List Ev
  | some i => [.fetched i]
  | none => []

/-- The next place after the checks of `_convertAndQueueRespPacket`, cellular_pkthandler.c:95-101. -/
def handled (r : Resp) (cb : Option Nat) : Rx :=
  if r.status = false then .send .failure
  else match cb with
    | none => .send .ok
    | some _ => .call r

/-- One step of the receive task.  Lines, verdicts of callbacks are arbitrary. -/
inductive RxStep (cfg : Cfg) : St → St → Prop
  /-- a line arrives -/
  | receive (s : St) (l : Str) (h : s.rx = .idle) :
      RxStep cfg s { s with
        received := s.received ++ [l], rx := .got s.received.length, log := s.log ++ [.recv s.received.length] }
  /-- cellular_pktio.c:978-983 -/
  | fetch (s : St) (n : Nat) (h : s.rx = .got n) :
      RxStep cfg s { s with
        rx := .pre n s.recvCb s.sendCb,
        log := s.log ++ fetchedBy s.recvCb ++ fetchedBy s.sendCb }
  /-- no callback, cellular_pktio.c:1019-1023 -/
  | preNone (s : St) (n : Nat) (h : s.rx = .pre n none none) :
      RxStep cfg s { s with rx := .classify n }
  /-- the data send prefix callback is called and, if `keep`, the line is processed further,
  cellular_pktio.c:994-1003 -/
  | preSend (s : St) (n : Nat) (d : Option Nat) (i : Nat) (keep : Bool) (h : s.rx = .pre n d (some i)) :
      RxStep cfg s ({ s with rx := if keep then .classify n else .idle }.emit (.prefixCb i))
  /-- the data prefix callback, cellular_pktio.c:1004-1018 -/
  | preRecv (s : St) (n : Nat) (i : Nat) (keep : Bool) (h : s.rx = .pre n (some i) none) :
      RxStep cfg s ({ s with rx := if keep then .classify n else .idle }.emit (.prefixCb i))
  /-- the argument `pContext->pRespPrefix`, cellular_pktio.c:1133 -/
  | readPrefix (s : St) (n : Nat) (h : s.rx = .classify n) :
      RxStep cfg s { s with rx := .classify2 n s.pfxOn }
  /-- `_getMsgType`, cellular_pktio.c:457-500 -/
  | classify (s : St) (n : Nat) (on : Bool) (h : s.rx = .classify2 n on) :
      RxStep cfg s { s with rx := classified cfg s n on }
  /-- the argument `pContext->PktioAtCmdType`, cellular_pktio.c:743 -/
  | readType (s : St) (n : Nat) (h : s.rx = .proc n) :
      RxStep cfg s { s with rx := .proc2 n s.cmd }
  /-- the line completes the response -/
  | procDone (s : St) (n : Nat) (t : CmdType) (r : Resp) (h : s.rx = .proc2 n t)
      (hp : procResult cfg s n t = (.ok, r)) :
      RxStep cfg s { s with
        rx := .done r, resp := some r, log := s.log ++ consult s n ++ [.final r.status n] }
  /-- the response goes on -/
  | procPending (s : St) (n : Nat) (t : CmdType) (st : PktStatus) (r : Resp) (h : s.rx = .proc2 n t)
      (hp : procResult cfg s n t = (st, r)) (hs : st = .pendingBuffer ∨ st = .pendingData) :
      RxStep cfg s { s with rx := .idle, resp := some r, log := s.log ++ consult s n }
  /-- the line does not belong there -/
  | procUndef (s : St) (n : Nat) (t : CmdType) (st : PktStatus) (r : Resp) (h : s.rx = .proc2 n t)
      (hp : procResult cfg s n t = (st, r)) (hs : st ≠ .ok ∧ st ≠ .pendingBuffer ∧ st ≠ .pendingData) :
      RxStep cfg s { s with rx := .undef n, resp := some r, log := s.log ++ consult s n }
  /-- cellular_pktio.c:749-752 -/
  | done (s : St) (r : Resp) (h : s.rx = .done r) :
      RxStep cfg s { s with rx := .handle r, cmd := .noCommand, pfxOn := false }
  /-- cellular_pkthandler.c:95-101 -/
  | handle (s : St) (r : Resp) (h : s.rx = .handle r) :
      RxStep cfg s { s with rx := handled r s.cb }
  /-- cellular_pkthandler.c:103 -/
  | callNull (s : St) (r : Resp) (h : s.rx = .call r) (hc : s.cb = none) :
      RxStep cfg s ({ s with rx := .crashed }.emit .nullCall)
  | call (s : St) (r : Resp) (i : Nat) (h : s.rx = .call r) (hc : s.cb = some i) :
      RxStep cfg s { s with rx := .inCb i r }
  | callback (s : St) (r : Resp) (i : Nat) (st : PktStatus) (h : s.rx = .inCb i r) :
      RxStep cfg s ({ s with rx := .send st }.emit (.callback i r.items st))
  /-- `PlatformQueue_Send` without waiting into a queue of length one, cellular_pkthandler.c:110 -/
  | send (s : St) (st : PktStatus) (h : s.rx = .send st) :
      RxStep cfg s { s with rx := .free, queue := some (s.queue.getD st) }
  | free (s : St) (h : s.rx = .free) :
      RxStep cfg s { s with rx := .idle, resp := none }
  /-- `_handleUndefinedMessage`, cellular_pktio.c:783-792 -/
  | undefOk (s : St) (n : Nat) (h : s.rx = .undef n) (hu : cfg.undefCb (s.line n) = .ok) :
      RxStep cfg s { s with rx := .idle }
  | undefRefused (s : St) (n : Nat) (h : s.rx = .undef n) (hu : cfg.undefCb (s.line n) ≠ .ok) :
      RxStep cfg s { s with rx := .undefFail }
  /-- cellular_pktio.c:799-808 -/
  | undefFail (s : St) (h : s.rx = .undefFail) :
      RxStep cfg s { s with rx := .idle, cmd := .noCommand, pfxOn := false, resp := none }

/-- One step of the system. -/
inductive Step (cfg : Cfg) (comm : Bool) : St → St → Prop
  | thr (t : Nat) {s s' : St} (h : ThrStep comm t s s') : Step cfg comm s s'
  | rx {s s' : St} (h : RxStep cfg s s') : Step cfg comm s s'

/-- The states of all executions. -/
inductive Reachable (cfg : Cfg) (comm : Bool) : St → Prop
  | init : Reachable cfg comm init
  | step {s s' : St} (h : Reachable cfg comm s) (hs : Step cfg comm s s') : Reachable cfg comm s'

end Cellular.Conc
