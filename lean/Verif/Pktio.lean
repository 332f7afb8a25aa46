import Verif.Types
/-!
# Model of source/cellular_pktio.c: receiving and sending

The receive buffer is one memory object (`Mem`) of `size + 1` bytes
(`pktioReadBuf[ PKTIO_READ_BUFFER_SIZE + 1 ]`, cellular_common_internal.h:145); pointers into it are
offsets.  An outer `none` is undefined behaviour: an access outside the buffer, a NULL dereference, or an
unsigned length computation that wraps.

One call of `_handleRxDataEvent` is one step; commands are started and abandoned by other tasks
between such steps (the code takes `PktRespMutex` for each line; a command that starts or ends in the
middle of a read is not represented).  Allocation of response records always succeeds, as the code
assumes (CELLULAR_CONFIG_ASSERT).  Token tables have at most 255 entries (see C07).
-/

namespace Cellular.Pktio
open Cellular
open Cellular.AtCore (AtErr)
open Cellular.AtStr (isPrefixPresent strStartWith checkErrorCode)

/-- `CellularATCommandType_t`, cellular_types.h:359-370. -/
inductive CmdType
  | noResult | woPrefix | withPrefix | multiWithPrefix | multiWoPrefix | multiDataWoPrefix
  | woPrefixNoResultCode | withPrefixNoResultCode | noCommand
  deriving DecidableEq, Repr

/-- `_atRespType_t`, cellular_pktio_internal.h. -/
inductive MsgType | solicited | unsolicited | undefined
  deriving DecidableEq, Repr

/-- One element of `CellularATCommandLine_t` list: a pointer into the receive buffer.  The code stores
only the pointer; `data` items carry the length for which they were saved. -/
inductive Item
  | line (off : Nat)
  | data (off len : Nat)
  deriving DecidableEq, Repr

/-- `CellularATCommandResponse_t`. -/
structure Resp where
  status : Bool
  items : List Item
  deriving DecidableEq, Repr

/-- What the packet handler (`pPktioHandlepktCB`) is called with: the line of an unsolicited or undefined
message, or the status and the contents of the items of a completed response. -/
inductive Event
  | urc (line : Str)
  | undefined (line : Str)
  | response (status : Bool) (items : List Str)
  deriving DecidableEq, Repr

/-- Everything supplied by the modem port: buffer size, token tables (`CellularTokenTable_t`; `none` =
NULL), the input buffer callback, the handler of undefined messages, and what handling an
unsolicited line leaves in its bytes.
Callbacks see a text and return their status, the text they leave, and further outputs. -/
structure Cfg where
  size : Nat
  urcWo : Option (List Str)
  succ : Option (List Str)
  err : Option (List Str)
  extra : Option (List Str)
  inputCb : Option (Str → PktStatus × Str × Nat)
  undefCb : Str → PktStatus
  urcEdit : Str → Str

/-- Receive side of `CellularContext_t`, cellular_common_internal.h:101-199. -/
structure St where
  buf : Mem
  readPtr : Option Nat
  partialLen : Nat
  dataLen : Nat
  resp : Option Resp
  cmd : CmdType
  pfx : Option Str
  sendCb : Option (Str → PktStatus × Str × Nat)
  dataCb : Option (Str → PktStatus × Str × Option (Nat × Nat))
  events : List Event

/-- The context after `_Cellular_LibInit`: zeroed, no command. -/
def init (size : Nat) : St :=
  { buf := List.replicate (size + 1) 0, readPtr := none, partialLen := 0, dataLen := 0, resp := none,
    cmd := .noCommand, pfx := none, sendCb := none, dataCb := none, events := [] }

/-! ## Bytes -/

/-- `n` bytes at offset `p`. -/
def slice (m : Mem) (p n : Nat) : Option Str :=
  if p + n ≤ m.length then some ((m.drop p).take n) else none

/-- Overwrite the bytes at offset `p` by `t`. -/
def put (m : Mem) (p : Nat) (t : Str) : Option Mem :=
  if p + t.length ≤ m.length then some (m.take p ++ t ++ m.drop (p + t.length)) else none

/-- Line ends: `'\r'`, `'\n'` and NUL, cellular_pktio.c:836, 1110. -/
def isEol (b : Byte) : Bool := b == 13 || b == 10 || b == 0

/-- The skipping loop, cellular_pktio.c:1110-1114, on pointer `p` and `n` bytes left. -/
def skipEol (m : Mem) : Nat → Nat → Option (Nat × Nat)
  | p, 0 => some (p, 0)
  | p, n + 1 =>
    match rd m p with
    | none => none
    | some b => if isEol b then skipEol m (p + 1) n else some (p, n + 1)

/-- Contents of a saved item as its consumer sees it. -/
def itemContents (m : Mem) : Item → Option Str
  | .line off => readStr m off
  | .data off len => slice m off len

/-! ## Lines -/

/-- `_processIntermediateResponse`, cellular_pktio.c:198-281 with `_saveData` 143-175. -/
def processIntermediate (it : Item) (r : Resp) (t : CmdType) : PktStatus × Resp :=
  let saved : Resp := { r with items := r.items ++ [it] }
  match t with
  | .woPrefix => if r.items = [] then (.pendingData, saved) else (.invalidData, r)
  | .withPrefix => if r.items = [] then (.pendingData, saved) else (.invalidData, r)
  | .multiWithPrefix => (.pendingData, saved)
  | .multiWoPrefix => (.pendingData, saved)
  | .multiDataWoPrefix => (.pendingBuffer, saved)
  | .woPrefixNoResultCode => (.ok, { saved with status := true })
  | .withPrefixNoResultCode => (.ok, { saved with status := true })
  | _ => (.invalidData, r)

/-- Is the line a token of this table (`Cellular_ATcheckErrorCode` with `result` false before). -/
def isToken (line : Str) (table : Option (List Str)) : Bool := (checkErrorCode line table).2.getD false

/-- `_Cellular_ProcessLine`, cellular_pktio.c:329-414. -/
def processLine (cfg : Cfg) (line : Str) (it : Item) (r : Resp) (t : CmdType) : PktStatus × Resp :=
  if cfg.err.isSome ∧ cfg.succ.isSome then
    if isToken line cfg.extra ∨ isToken line cfg.succ then (.ok, { r with status := true })
    else if isToken line cfg.err then (.ok, { r with status := false })
    else processIntermediate it r t
  else (.failure, r)

/-- `_checkUrcTokenWoPrefix`, cellular_pktio.c:418-443. -/
def isUrcToken (cfg : Cfg) (line : Str) : Bool :=
  match cfg.urcWo with
  | none => false
  | some t => t.contains line

/-- `_getMsgType`, cellular_pktio.c:447-515. -/
def getMsgType (cfg : Cfg) (cmd : CmdType) (pfx : Option Str) (line : Str) : MsgType :=
  if isUrcToken cfg line then .unsolicited
  else
    let withPrefix := (isPrefixPresent line).2.getD false
    let r : AtErr × Bool :=
      match withPrefix, pfx with
      | true, some k => ((strStartWith line k).1, (strStartWith line k).2.getD false)
      | _, _ => (.success, false)
    if r.1 = .success then
      if withPrefix then
        if cmd ≠ .noCommand ∧ r.2 = true then .solicited else .unsolicited
      else
        if cmd ≠ .noCommand then .solicited else .undefined
    else .undefined

/-- Clear the read buffer: cellular_pktio.c:803-806, 887-889, 937-939. -/
def cleanBuf (cfg : Cfg) (s : St) : St :=
  { s with buf := List.replicate (cfg.size + 1) 0, readPtr := none, partialLen := 0 }

/-- The undefined branch of `_handleMsgType`, cellular_pktio.c:779-818. -/
def handleUndefined (cfg : Cfg) (s : St) (line : Str) : PktStatus × St :=
  let s := { s with events := s.events ++ [.undefined line] }
  match cfg.undefCb line with
  | .ok => (.ok, s)
  | _ => (.invalidData, { cleanBuf cfg s with cmd := .noCommand, pfx := none, resp := none })

/-- `_handleMsgType`, cellular_pktio.c:719-820, for the line at offset `p`: status, final
`recvdMsgType`, state. -/
def handleMsgType (cfg : Cfg) (s : St) (p : Nat) (line : Str) : Option (PktStatus × MsgType × St) :=
  match getMsgType cfg s.cmd s.pfx line with
  | .unsolicited =>
    match put s.buf p (cfg.urcEdit line) with
    | none => none
    | some m => some (.ok, .unsolicited, { s with buf := m, events := s.events ++ [.urc line] })
  | .solicited =>
    let r := s.resp.getD ⟨false, []⟩
    match processLine cfg line (.line p) r s.cmd with
    | (.ok, r) =>
      match r.items.mapM (itemContents s.buf) with
      | none => none
      | some c => some (.ok, .solicited, { s with cmd := .noCommand, pfx := none, resp := none,
                                                  events := s.events ++ [.response r.status c] })
    | (.pendingBuffer, r) => some (.pendingBuffer, .solicited, { s with resp := some r })
    | (.pendingData, r) => some (.pendingData, .solicited, { s with resp := some r })
    | (_, r) =>
      let q := handleUndefined cfg { s with resp := some r } line
      some (q.1, .undefined, q.2)
  | .undefined =>
    let q := handleUndefined cfg s line
    some (q.1, .undefined, q.2)

/-! ## The receive loop -/

/-- `_handleCallbackResult`, cellular_pktio.c:861-901: keep processing?, state. -/
def handleCallbackResult (cfg : Cfg) (s : St) (status : PktStatus) (p n : Nat) : Bool × St :=
  match status with
  | .prefixMismatch => (true, s)
  | .sizeMismatch => (false, { s with readPtr := some p, partialLen := n })
  | .ok => (true, s)
  | _ => (false, cleanBuf cfg s)

/-- `_preprocessInputBuffer`, cellular_pktio.c:905-959: keep processing?, state, line, bytes. -/
def preprocessInput (cfg : Cfg) (s : St) (p n : Nat) : Option (Bool × St × Nat × Nat) :=
  match cfg.inputCb with
  | none => some (true, s, p, n)
  | some f =>
    match slice s.buf p n with
    | none => none
    | some text =>
      match f text with
      | (status, text', len) =>
        match put s.buf p text' with
        | none => none
        | some m =>
          let s := { s with buf := m }
          match status with
          | .ok =>
            if len > n then some (false, cleanBuf cfg s, p, n)
            else some (true, { s with readPtr := some (p + len) }, p + len, n - len)
          | st => some ((handleCallbackResult cfg s st p n).1, (handleCallbackResult cfg s st p n).2, p, n)

/-- `_preprocessLine`, cellular_pktio.c:963-1027: keep processing?, state, bytes, start of data. -/
def preprocessLine (cfg : Cfg) (s : St) (p n : Nat) (sd : Option Nat) :
    Option (Bool × St × Nat × Option Nat) :=
  if n = 0 then some (false, { s with readPtr := some p, partialLen := 0 }, n, sd)
  else
    match s.sendCb with
    | some f =>
      match slice s.buf p n with
      | none => none
      | some text =>
        match f text with
        | (status, text', n') =>
          match put s.buf p text' with
          | none => none
          | some m =>
            let q := handleCallbackResult cfg { s with buf := m } status p n'
            some (q.1, q.2, n', sd)
    | none =>
      match s.dataCb with
      | some f =>
        match slice s.buf p n with
        | none => none
        | some text =>
          match f text with
          | (status, text', out) =>
            match put s.buf p text' with
            | none => none
            | some m =>
              let s := { s with buf := m }
              let r : St × Option Nat :=
                match out with
                | some (start, len) => ({ s with dataLen := len }, some (p + start))
                | none => (s, sd)
              let q := handleCallbackResult cfg r.1 status p n
              some (q.1, q.2, n, r.2)
      | none => some (true, s, n, sd)

/-- `_findLineInStream`, cellular_pktio.c:824-857: state and the length of the complete line, if any. -/
def findLine (s : St) (p n : Nat) : Option (St × Option Nat) :=
  match slice s.buf p n with
  | none => none
  | some text =>
    match text.findIdx? isEol with
    | some i => (wr s.buf (p + i) 0).map (fun m => ({ s with buf := m }, some i))
    | none => some ({ s with readPtr := some p, partialLen := n }, none)

/-- `_handleData`, cellular_pktio.c:665-715: bytes left after the data (0 also if the data is
incomplete), line pointer, state.  `start` < `p` or more than `n` bytes after `p` make the unsigned
subtractions wrap; a missing response is dereferenced in `_saveData`. -/
def handleData (s : St) (start p n : Nat) : Option (Nat × Nat × St) :=
  if start < p ∨ p + n < start then none
  else
    let avail := n - (start - p)
    if avail ≥ s.dataLen then
      match s.resp with
      | none => none
      | some r =>
        let left := avail - s.dataLen
        let p' := start + s.dataLen
        some (left, p', { s with resp := some { r with items := r.items ++ [.data start s.dataLen] },
                                 dataLen := 0, readPtr := some p', partialLen := left })
    else some (0, p, { s with readPtr := some start, partialLen := avail })

/-- `_getNextLine`, cellular_pktio.c:1060-1086: line pointer, bytes, state. -/
def getNextLine (s : St) (p n len : Nat) (status : PktStatus) (t : MsgType) : Option (Nat × Nat × St) :=
  let p' := p + (len + 1)
  let n' := n - (len + 1)
  if status = .ok ∧ t = .solicited then
    match slice s.buf p' n' with
    | none => none
    | some rest =>
      (put s.buf 0 rest).map (fun m => (0, n', { s with buf := m, readPtr := some 0, partialLen := n' }))
  else some (p', n', { s with readPtr := some p', partialLen := n' })

/-- State of the loop of `_handleAllReceived`: `pTempLine`, `bytesRead`, `pStartOfData`. -/
structure Cur where
  p : Nat
  n : Nat
  sd : Option Nat

/-- A complete line of length `len` at `c.p`: cellular_pktio.c:1133-1158. -/
def handleLine (cfg : Cfg) (s : St) (c : Cur) (len : Nat) : Option (Option Cur × St) :=
  match readStr s.buf c.p with
  | none => none
  | some line =>
    match handleMsgType cfg s c.p line with
    | none => none
    | some (status, t, s) =>
      match status with
      | .pendingBuffer =>
        if s.dataLen ≠ 0 then
          match c.sd with
          | none => none
          | some start =>
            (handleData s start c.p c.n).map (fun r =>
              (if r.1 = 0 then none else some { c with p := r.2.1, n := r.1 }, r.2.2))
        else (getNextLine s c.p c.n len status t).map (fun r => (some { c with p := r.1, n := r.2.1 }, r.2.2))
      | .ok => (getNextLine s c.p c.n len status t).map (fun r => (some { c with p := r.1, n := r.2.1 }, r.2.2))
      | .pendingData =>
        (getNextLine s c.p c.n len status t).map (fun r => (some { c with p := r.1, n := r.2.1 }, r.2.2))
      | _ => some (none, s)

/-- One iteration of the loop of `_handleAllReceived`, cellular_pktio.c:1103-1160; no cursor = the
loop ends. -/
def iter (cfg : Cfg) (s : St) (c : Cur) : Option (Option Cur × St) :=
  match skipEol s.buf c.p c.n with
  | none => none
  | some (p, n) =>
    match preprocessInput cfg s p n with
    | none => none
    | some (false, s, _, _) => some (none, s)
    | some (true, s, p, n) =>
      match preprocessLine cfg s p n c.sd with
      | none => none
      | some (false, s, _, _) => some (none, s)
      | some (true, s, n, sd) =>
        match findLine s p n with
        | none => none
        | some (s, none) => some (none, s)
        | some (s, some len) => handleLine cfg s ⟨p, n, sd⟩ len

/-- `_handleAllReceived`, cellular_pktio.c:1090-1162.  The loop is written with a bound on its number of
iterations; it is started with one that cannot be exceeded while callbacks do not enlarge the text
(each iteration consumes at least one byte, `iter_lt`). -/
def loop (cfg : Cfg) : Nat → St → Cur → Option St
  | 0, _, _ => none
  | k + 1, s, c =>
    match iter cfg s c with
    | none => none
    | some (none, s) => some s
    | some (some c, s) => loop cfg k s c

/-- `_handleAllReceived` with `n` bytes at `p`. -/
def handleAllReceived (cfg : Cfg) (s : St) (p n : Nat) : Option St := loop cfg (n + 1) s ⟨p, n, none⟩

/-- The pointer computations of `_Cellular_ReadLine`, cellular_pktio.c:595-631: state, start of the text,
first free byte, free bytes. -/
def readPos (cfg : Cfg) (s : St) : Option (St × Nat × Nat × Int) :=
  match s.readPtr with
  | none => some (s, 0, s.partialLen, (cfg.size : Int) - s.partialLen)
  | some q =>
    if q ≠ 0 ∧ s.partialLen ≠ 0 ∧ s.resp = none then
      -- _handleLeftoverBuffer, lines 561-581
      match slice s.buf q s.partialLen with
      | none => none
      | some rest =>
        match put s.buf 0 rest with
        | none => none
        | some m =>
          (wr m s.partialLen 0).map (fun m =>
            ({ s with buf := m, readPtr := some 0 }, 0, s.partialLen, (cfg.size : Int) - s.partialLen))
    else some (s, q, q + s.partialLen, (cfg.size : Int) - s.partialLen - q)

/-- `_handleRxDataEvent`, cellular_pktio.c:1166-1198, with `_Cellular_ReadLine` 585-661.  `chunk` is
what the transport's `recv` delivers when it is asked for at most the free bytes (it must not deliver
more); it is not asked at all if there is no free byte.  Result: bytes reported as read, state. -/
def rxEvent (cfg : Cfg) (s : St) (chunk : Str) : Option (Nat × St) :=
  match readPos cfg s with
  | none => none
  | some (s, p, pRead, empty) =>
    if empty > 0 then
      if chunk = [] then some (0, s)
      else
        -- recv writes the bytes, line 642 terminates them
        match put s.buf pRead (chunk ++ [0]) with
        | none => none
        | some m =>
          let n := chunk.length + s.partialLen
          let s := { s with buf := m, partialLen := 0 }
          let r : Option (Nat × Nat × St) :=
            if s.dataLen ≠ 0 then handleData s p p n else some (n, p, s)
          match r with
          | none => none
          | some (left, p, s) =>
            if left > 0 then
              match wr s.buf (p + left) 0 with
              | none => none
              | some m => (handleAllReceived cfg { s with buf := m } p left).map (fun s => (n, s))
            else some (n, s)
    else some (0, { s with partialLen := 0, readPtr := none })

/-- Number of bytes the next `_handleRxDataEvent` may ask the transport for (0 = it does not ask). -/
def room (cfg : Cfg) (s : St) : Nat :=
  match readPos cfg s with
  | none => 0
  | some (_, _, _, e) => e.toNat

/-! ## Sending -/

/-- `CELLULAR_CONFIG_MAX_PREFIX_STRING_LENGTH`, `PKTIO_WRITE_BUFFER_SIZE`. -/
def prefixMax : Nat := 32
def writeMax : Nat := 200

/-- Send side of the context: type and response prefix, with the bytes of `pktRespPrefixBuf` and
`pktioSendBuf` and what was written to the transport. -/
structure Tx where
  cmd : CmdType
  hasPrefix : Bool
  prefixBuf : Mem
  sendBuf : Mem
  wire : List Str

/-- `strncpy( dst, src, n )` at the start of `dst`. -/
def strncpy (dst : Mem) (src : Str) (n : Nat) : Option Mem :=
  if n ≤ dst.length then some (src.take n ++ List.replicate (n - src.length) 0 ++ dst.drop n) else none

/-- Store an expected prefix: cellular_pktio.c:1307-1308, 1326-1327. -/
def setPrefix (t : Tx) (k : Str) : Option (PktStatus × Tx) :=
  (strncpy t.prefixBuf k prefixMax).map (fun m => (.ok, { t with prefixBuf := m, hasPrefix := true }))

/-- `_setPrefixByAtCommandType`, cellular_pktio.c:1282-1339. -/
def setPrefixByType (t : Tx) (type : CmdType) (pfx : Option Str) : Option (PktStatus × Tx) :=
  match type with
  | .noResult => some (.ok, { t with hasPrefix := false })
  | .woPrefix => some (.ok, { t with hasPrefix := false })
  | .woPrefixNoResultCode => some (.ok, { t with hasPrefix := false })
  | .withPrefix => match pfx with | some k => setPrefix t k | none => some (.badParam, t)
  | .multiWithPrefix => match pfx with | some k => setPrefix t k | none => some (.badParam, t)
  | .withPrefixNoResultCode => match pfx with | some k => setPrefix t k | none => some (.badParam, t)
  | .multiWoPrefix =>
    match pfx with | some k => setPrefix t k | none => some (.ok, { t with hasPrefix := false })
  | .multiDataWoPrefix =>
    match pfx with | some k => setPrefix t k | none => some (.ok, { t with hasPrefix := false })
  | .noCommand => some (.badParam, t)

/-- `_Cellular_PktioSendAtCmd`, cellular_pktio.c:1420-1483, for a valid context and interface; the number
of bytes the transport really sent is ignored by the code. -/
def sendAtCmd (t : Tx) (cmd : Option Str) (type : CmdType) (pfx : Option Str) : Option (PktStatus × Tx) :=
  match cmd with
  | none => some (.badParam, t)
  | some c =>
    if c.length > writeMax then some (.badParam, t)
    else
      match setPrefixByType t type pfx with
      | none => none
      | some (.ok, t) =>
        match strncpy t.sendBuf c c.length with
        | none => none
        | some m =>
          match wr m c.length 13 with
          | none => none
          | some m =>
            match slice m 0 (c.length + 1) with
            | none => none
            | some out => some (.ok, { t with cmd := type, sendBuf := m, wire := t.wire ++ [out] })
      | some (e, t) => some (e, t)

end Cellular.Pktio
