import Verif.Conc
import Verif.PktioSafeData
/-!
# Concurrent requests over the byte stream: model (C82)

`Verif.Conc` interleaves the calling threads with a receive task that is given complete lines; `Verif.Pktio` is the receive task
with its buffer and pointers, but alone.  Here both are put together: any number of calling threads (the steps
of `Verif.Conc`) and the receive task with the buffer, interleaved.  The shared members are those of `Conc.St`; its fields `rx` and `resp` are
not used (the receive task is at `pc`, and the response record is that of the buffer machine).  A step of the receive
task is what runs between two accesses to members that other threads change.

`Pc.bad` is undefined behaviour (an access outside an object, a NULL response record); `Pc.crashed` a call through a NULL
callback pointer.
-/

namespace Cellular.Bytes
open Cellular
open Cellular.Pktio (Cur CmdType MsgType Item Resp Cfg getMsgType processLine cleanBuf readPos room skipEol preprocessInput
  preprocessLine findLine handleData getNextLine itemContents put)
open Cellular.Props (rxEnter)

/-- The prefix callbacks of each request: data send prefix callback, data prefix callback (cellular_common.h:117-166). -/
structure Fns where
  send : Nat → Str → PktStatus × Str × Nat
  data : Nat → Str → PktStatus × Str × Option (Nat × Nat)

/-- Where the receive task is.  `c` = the local variables of `_handleAllReceived`, `len` = `currentLineLength`. -/
inductive Pc
  /-- about to read from the transport, cellular_pktio.c:1175 -/
  | wait
  /-- head of the loop of `_handleAllReceived`, cellular_pktio.c:1103 -/
  | top (c : Cur)
  /-- callbacks fetched, cellular_pktio.c:978-983 -/
  | pre (c : Cur) (recvCb sendCb : Option Nat)
  /-- a complete line is at `c.p`, before `pRespPrefix` is read, cellular_pktio.c:1133 -/
  | classify (c : Cur) (len : Nat)
  /-- before the body of `_getMsgType`, cellular_pktio.c:457 -/
  | classify2 (c : Cur) (len : Nat) (on : Bool)
  /-- solicited: before `PktioAtCmdType` is read, cellular_pktio.c:743 -/
  | proc (c : Cur) (len : Nat)
  /-- before `_Cellular_ProcessLine` -/
  | proc2 (c : Cur) (len : Nat) (t : CmdType)
  /-- the response is complete, before cellular_pktio.c:749-752 -/
  | done (c : Cur) (len : Nat)
  /-- before the NULL check of `pktRespCB`, cellular_pkthandler.c:95-101 -/
  | handle (c : Cur) (len : Nat)
  /-- before the second read of `pktRespCB`, cellular_pkthandler.c:103 -/
  | call (c : Cur) (len : Nat)
  /-- in the response callback of request `i` -/
  | inCb (c : Cur) (len : Nat) (i : Nat)
  /-- before `PlatformQueue_Send`, cellular_pkthandler.c:110 -/
  | send (c : Cur) (len : Nat) (st : PktStatus)
  /-- before `FREE_AT_RESPONSE_AND_SET_NULL`, cellular_pktio.c:760 -/
  | free (c : Cur) (len : Nat)
  /-- undefined message, before the handler, cellular_pktio.c:789 -/
  | undef (c : Cur) (len : Nat)
  /-- the handler refused, before cellular_pktio.c:799-808 -/
  | undefFail (c : Cur) (len : Nat)
  /-- `_handleMsgType` returned this status and type, before cellular_pktio.c:1135-1158 -/
  | after (c : Cur) (len : Nat) (st : PktStatus) (t : MsgType)
  | crashed
  | bad

/-- The state: shared members and threads, the receive side (of which `buf`, `readPtr`, `partialLen`, `dataLen` and `resp` are used),
the receive task's place; and the history: the numbers of the lines collected, the bytes the transport delivered, what the response
callbacks were given, whether a line was refused, whether the buffer was full while something in it was still needed. -/
structure St where
  sh : Conc.St
  rx : Pktio.St
  pc : Pc
  nums : List Nat
  stream : Str
  given : List (Nat × List Str)
  lost : Bool
  overflowed : Bool

/-- After `_Cellular_LibInit`. -/
def init (size : Nat) : St :=
  { sh := Conc.init, rx := Pktio.init size, pc := .wait, nums := [], stream := [], given := [], lost := false, overflowed := false }

/-- Number of the line in hand. -/
def St.cur (s : St) : Nat := s.sh.received.length - 1

/-- The lines collected for the pending response. -/
def St.items (s : St) : List Item := (s.rx.resp.getD ⟨false, []⟩).items

/-- One read, up to the line loop: cellular_pktio.c:1166-1198 and 585-661. -/
def enter (cfg : Cfg) (chunk : Str) (s : St) : St :=
  let full := room cfg s.rx = 0 ∧ (s.rx.partialLen ≠ 0 ∨ s.items ≠ [])
  let s := { s with overflowed := s.overflowed || decide full }
  match rxEnter cfg s.rx chunk with
  | none => { s with pc := .bad }
  | some (_, rx, none) => { s with rx := rx, stream := s.stream ++ chunk }
  | some (_, rx, some c) => { s with rx := rx, stream := s.stream ++ chunk, pc := .top c }

/-- Line ends are skipped, the input buffer callback is asked, and if there is text the prefix callbacks are fetched:
cellular_pktio.c:1103-1124 and 978-983 (without text the loop ends, 972-977). -/
def top (cfg : Cfg) (c : Cur) (s : St) : St :=
  match skipEol s.rx.buf c.p c.n with
  | none => { s with pc := .bad }
  | some (p, n) =>
    match preprocessInput cfg s.rx p n with
    | none => { s with pc := .bad }
    | some (false, rx, _, _) => { s with rx := rx, pc := .wait }
    | some (true, rx, p, n) =>
      let s := { s with sh := { s.sh with log := s.sh.log ++ Conc.fetchedBy s.sh.recvCb ++ Conc.fetchedBy s.sh.sendCb } }
      if n = 0 then { s with rx := { rx with readPtr := some p, partialLen := 0 }, pc := .wait }
      else { s with rx := rx, pc := .pre ⟨p, n, c.sd⟩ s.sh.recvCb s.sh.sendCb }

/-- Which prefix callback is called, cellular_pktio.c:994-1018. -/
def calledBy (recvCb sendCb : Option Nat) : List Conc.Ev :=
  match sendCb, recvCb with
  | some i, _ => [.prefixCb i]
  | none, some i => [.prefixCb i]
  | none, none => []

/-- The prefix callback is called, and a line is looked for: `_preprocessLine` from cellular_pktio.c:984 on, and 1125-1132. -/
def pre (cfg : Cfg) (fn : Fns) (c : Cur) (recvCb sendCb : Option Nat) (s : St) : St :=
  let rx := { s.rx with sendCb := sendCb.map fn.send, dataCb := recvCb.map fn.data }
  let s := { s with sh := { s.sh with log := s.sh.log ++ calledBy recvCb sendCb } }
  match preprocessLine cfg rx c.p c.n c.sd with
  | none => { s with pc := .bad }
  | some (false, rx, _, _) => { s with rx := rx, pc := .wait }
  | some (true, rx, n, sd) =>
    match findLine rx c.p n with
    | none => { s with pc := .bad }
    | some (rx, none) => { s with rx := rx, pc := .wait }
    | some (rx, some len) =>
      match readStr rx.buf c.p with
      | none => { s with pc := .bad }
      | some line =>
        { s with
          rx := rx, pc := .classify ⟨c.p, n, sd⟩ len,
          sh := { s.sh with received := s.sh.received ++ [line], log := s.sh.log ++ [.recv s.sh.received.length] } }

/-- `_getMsgType` under the lock and the switch of `_handleMsgType`, cellular_pktio.c:447-515, 727-734; an unsolicited code is handled
here, 762-778. -/
def classify (cfg : Cfg) (c : Cur) (len : Nat) (on : Bool) (s : St) : St :=
  match readStr s.rx.buf c.p with
  | none => { s with pc := .bad }
  | some line =>
    match getMsgType cfg s.sh.cmd (if on then some s.sh.pfxBuf else none) line with
    | .unsolicited =>
      match put s.rx.buf c.p (cfg.urcEdit line) with
      | none => { s with pc := .bad }
      | some m => { s with rx := { s.rx with buf := m }, pc := .after c len .ok .unsolicited }
    | .solicited => { s with pc := .proc c len }
    | .undefined => { s with pc := .undef c len }

/-- Log of the comparison with installed tokens. -/
def consult (s : St) : List Conc.Ev :=
  match s.sh.extra with
  | some (i, _) => [.consulted i s.cur]
  | none => []

/-- `_Cellular_ProcessLine` on a new response record if there is none, cellular_pktio.c:736-748, 329-414. -/
def proc (cfg : Cfg) (c : Cur) (len : Nat) (t : CmdType) (s : St) : St :=
  match readStr s.rx.buf c.p with
  | none => { s with pc := .bad }
  | some line =>
    let r := s.rx.resp.getD ⟨false, []⟩
    let q := processLine { cfg with extra := s.sh.extra.map (·.2) } line (.line c.p) r t
    let s1 := { s with
      rx := { s.rx with resp := some q.2 }, nums := if q.2.items.length = r.items.length then s.nums else s.nums ++ [s.cur],
      sh := { s.sh with log := s.sh.log ++ consult s } }
    match q.1 with
    | .ok => { s1 with pc := .done c len, sh := { s1.sh with log := s1.sh.log ++ [.final q.2.status s.cur] } }
    | .pendingBuffer => { s1 with pc := .after c len .pendingBuffer .solicited }
    | .pendingData => { s1 with pc := .after c len .pendingData .solicited }
    | _ => { s1 with pc := .undef c len }

/-- The NULL check of `pktRespCB`, cellular_pkthandler.c:95-101. -/
def handled (c : Cur) (len : Nat) (s : St) : Pc :=
  match s.rx.resp with
  | none => .bad
  | some r =>
    if r.status = false then .send c len .failure
    else match s.sh.cb with
      | none => .send c len .ok
      | some _ => .call c len

/-- The response callback runs on the lines and returns `v`. -/
def callback (c : Cur) (len i : Nat) (v : PktStatus) (s : St) : St :=
  match s.items.mapM (itemContents s.rx.buf) with
  | none => { s with pc := .bad }
  | some l => { s with pc := .send c len v, given := s.given ++ [(i, l)],
                       sh := { s.sh with log := s.sh.log ++ [.callback i (s.nums.map .line) v] } }

/-- `_handleUndefinedMessage`, cellular_pktio.c:783-798. -/
def undef (cfg : Cfg) (c : Cur) (len : Nat) (s : St) : St :=
  match readStr s.rx.buf c.p with
  | none => { s with pc := .bad }
  | some line => if cfg.undefCb line = .ok then { s with pc := .after c len .ok .undefined } else { s with pc := .undefFail c len }

/-- The end of an iteration, cellular_pktio.c:1135-1158. -/
def after (c : Cur) (len : Nat) (st : PktStatus) (t : MsgType) (s : St) : St :=
  let move : St :=
    match getNextLine s.rx c.p c.n len st t with
    | none => { s with pc := .bad }
    | some (p, n, rx) => { s with rx := rx, pc := .top { c with p := p, n := n } }
  if st = .pendingBuffer ∧ s.rx.dataLen ≠ 0 then
    match c.sd with
    | none => { s with pc := .bad }
    | some start =>
      match handleData s.rx start c.p c.n with
      | none => { s with pc := .bad }
      | some (left, p, rx) => { s with rx := rx, pc := if left = 0 then .wait else .top { c with p := p, n := left } }
  else move

/-- One step of the receive task: `chunk` = what the transport delivers if it is asked, `v` = what the response callback returns
if it is called. -/
def next (cfg : Cfg) (fn : Fns) (chunk : Str) (v : PktStatus) (s : St) : St :=
  match s.pc with
  | .wait => enter cfg chunk s
  | .top c => top cfg c s
  | .pre c r d => pre cfg fn c r d s
  | .classify c len => { s with pc := .classify2 c len s.sh.pfxOn }
  | .classify2 c len on => classify cfg c len on s
  | .proc c len => { s with pc := .proc2 c len s.sh.cmd }
  | .proc2 c len t => proc cfg c len t s
  | .done c len => { s with pc := .handle c len, sh := { s.sh with cmd := .noCommand, pfxOn := false } }
  | .handle c len => { s with pc := handled c len s }
  | .call c len =>
    match s.sh.cb with
    | none => { s with pc := .crashed, sh := { s.sh with log := s.sh.log ++ [.nullCall] } }
    | some i => { s with pc := .inCb c len i }
  | .inCb c len i => callback c len i v s
  | .send c len st => { s with pc := .free c len, sh := { s.sh with queue := some (s.sh.queue.getD st) } }
  | .free c len => { s with pc := .after c len .ok .solicited, rx := { s.rx with resp := none }, nums := [] }
  | .undef c len => undef cfg c len s
  | .undefFail _ _ => { s with pc := .wait, rx := { cleanBuf cfg s.rx with resp := none }, nums := [], lost := true,
                               sh := { s.sh with cmd := .noCommand, pfxOn := false } }
  | .after c len st t => after c len st t s
  | .crashed => s
  | .bad => s

/-- One step of the system: a thread, or the receive task; the transport delivers no more than it is asked for. -/
inductive Step (cfg : Cfg) (fn : Fns) (comm : Bool) : St → St → Prop
  | thr (t : Nat) {s : St} {sh : Conc.St} (h : Conc.ThrStep comm t s.sh sh) : Step cfg fn comm s { s with sh := sh }
  | rx (s : St) (chunk : Str) (v : PktStatus) (h : chunk.length ≤ room cfg s.rx) : Step cfg fn comm s (next cfg fn chunk v s)

/-- The states of all executions. -/
inductive Reachable (cfg : Cfg) (fn : Fns) (comm : Bool) : St → Prop
  | init : Reachable cfg fn comm (init cfg.size)
  | step {s s' : St} (h : Reachable cfg fn comm s) (hs : Step cfg fn comm s s') : Reachable cfg fn comm s'

end Cellular.Bytes
