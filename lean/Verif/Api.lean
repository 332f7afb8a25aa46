import Verif.Reg
/-!
# Model of source/cellular_3gpp_api.c

Response callbacks (`_Cellular_RecvFunc*`) are functions of the list of response lines.  Their checks
of the context, of `pData` and of constant `dataLen` values always pass for the requests built in this
file and are left out; the check "there is a first line" is kept.  Caller supplied text buffers are
memory objects (`Mem`); an outer `none` is undefined behaviour (a write outside the caller's object).
Numeric members are naturals/integers with the ranges checked by the code.
-/

namespace Cellular.Api
open Cellular Signal
open Cellular.AtCore (strtoi AtErr)
open Cellular.AtStr

/-! ## C library -/

/-- `strncpy( dst, src, n )` on the object `dst`: exactly `n` bytes are written, the text cut after
`n` characters or padded with NULs. -/
def strncpy (dst : Mem) (src : Str) (n : Nat) : Option Mem :=
  if n ≤ dst.length then
    some (src.take n ++ List.replicate (n - src.length) 0 ++ dst.drop n)
  else none

/-- `memset( dst, 0, n )`. -/
def memset0 (dst : Mem) (n : Nat) : Option Mem :=
  if n ≤ dst.length then some (List.replicate n 0 ++ dst.drop n) else none

/-- The string left in the buffer by `snprintf( buf, n, ... )` when the complete output is `full`. -/
def snprintf (n : Nat) (full : Str) : Str := full.take (n - 1)

/-- `%d` of a non-negative number. -/
def fmtD (n : Nat) : Str :=
  if n < 10 then [UInt8.ofNat (48 + n)] else fmtD (n / 10) ++ [UInt8.ofNat (48 + n % 10)]
termination_by n

/-- `( ( i & 2^k ) != 0 ) ? '1' : '0'`. -/
def bitChar (i k : Nat) : Byte := if i.testBit k then 49 else 48

/-- `PRINTF_BYTE_TO_BINARY_INT4`, cellular_3gpp_api.c:65-70. -/
def int4 (i : Nat) : Str := [bitChar i 3, bitChar i 2, bitChar i 1, bitChar i 0]

/-- `PRINTF_BYTE_TO_BINARY_INT8`, cellular_3gpp_api.c:72-75. -/
def int8 (i : Nat) : Str := int4 (i >>> 4) ++ int4 i

/-! ## AT+CCLK -/

/-- `CellularTime_t`, cellular_types.h:421-433 (without `dst`, never written). -/
structure Time where
  month : Nat
  day : Nat
  hour : Nat
  minute : Nat
  second : Nat
  year : Nat
  timeZone : Int
  deriving DecidableEq, Repr

def Time.zero : Time := ⟨0, 0, 0, 0, 0, 0, 0⟩

/-- `Cellular_ATStrtoi` of a token, range check and store, as repeated in
cellular_3gpp_api.c:291-304, 314-329, 339-353, 368-381, 391-405, 423-437. -/
def numTok (lm : Nat) (tok : Str) (max : Int) (store : Nat → Time → Time) (t : Time) : AtErr × Time :=
  match strtoi lm (some tok) 10 with
  | (.success, some v) => if 0 ≤ v ∧ v ≤ max then (.success, store v.toNat t) else (.error, t)
  | (e, _) => (e, t)

/-- `strstr( s, "c" )`: the text from the first occurrence on. -/
def strstr1 (s : Str) (c : Byte) : Option Str :=
  if s.contains c then some (s.dropWhile (fun b => b != c)) else none

/-- `_parseTimeZoneInCCLKResponse`, cellular_3gpp_api.c:241-280: status, "sign is negative", time. -/
def parseTimeZone (lm : Nat) (s : Str) (t : Time) : AtErr × Bool × Time :=
  let (tok, neg) : Option Str × Bool :=
    match strstr1 s 43 with
    | some x => (some x, false)
    | none => match strstr1 s 45 with
      | some x => (some x, true)
      | none => (none, false)
  match tok with
  | none => (.error, neg, t)
  | some x =>
    match strtoi lm (some x) 10 with
    | (.success, some v) => (.success, neg, { t with timeZone := v })
    | (e, _) => (e, neg, t)

/-- `_parseYearMonthDayInCCLKResponse`, cellular_3gpp_api.c:284-357: status, rest of the text, time. -/
def parseDate (lm : Nat) (tok rest : Str) (t : Time) : AtErr × Str × Time :=
  match numTok lm tok 65535 (fun v t => { t with year := v }) t with
  | (.success, t) =>
    match getTok 47 rest with
    | (.success, rest, some tok) =>
      match numTok lm tok 255 (fun v t => { t with month := v }) t with
      | (.success, t) =>
        match getTok 44 rest with
        | (.success, rest, some tok) =>
          match numTok lm tok 255 (fun v t => { t with day := v }) t with
          | (e, t) => (e, rest, t)
        | (e, rest, _) => (e, rest, t)
      | (e, t) => (e, rest, t)
    | (e, rest, _) => (e, rest, t)
  | (e, t) => (e, rest, t)

/-- `_parseTimeInCCLKResponse`, cellular_3gpp_api.c:361-441: status, time. -/
def parseClock (lm : Nat) (tok : Str) (neg : Bool) (rest : Str) (t : Time) : AtErr × Time :=
  match numTok lm tok 255 (fun v t => { t with hour := v }) t with
  | (.success, t) =>
    match getTok 58 rest with
    | (.success, rest, some tok) =>
      match numTok lm tok 255 (fun v t => { t with minute := v }) t with
      | (.success, t) =>
        match getTok (if neg then 45 else 43) rest with
        | (.success, _, some tok) => numTok lm tok 255 (fun v t => { t with second := v }) t
        | (e, _, _) => (e, t)
      | (e, t) => (e, t)
    | (e, _, _) => (e, t)
  | (e, t) => (e, t)

/-- `_parseTimeZoneInfo`, cellular_3gpp_api.c:445-504.  A failing `Cellular_ATGetSpecificNextTok` at
line 471 skips only the date, one at line 483 only the clock; `pktStatus` stays OK in both cases. -/
def parseTimeInfo (lm : Nat) (s : Str) : PktStatus × Time :=
  match removeOutermostDoubleQuote s with
  | (.success, s) =>
    match parseTimeZone lm s Time.zero with
    | (.success, neg, t) =>
      -- line 471, then 474-478
      let r : PktStatus × Str × Time :=
        match getTok 47 s with
        | (.success, rest, some tok) =>
          match parseDate lm tok rest t with
          | (e, rest, t) => (translateAt e, rest, t)
        | (_, rest, _) => (.ok, rest, t)
      match r with
      | (.ok, rest, t) =>
        -- line 483, then 486-490
        match getTok 58 rest with
        | (.success, rest, some tok) =>
          match parseClock lm tok neg rest t with
          | (e, t) => (translateAt e, t)
        | _ => (.ok, t)
      | (e, _, t) => (e, t)
    | (e, _, t) => (translateAt e, t)
  | _ => (.failure, Time.zero)

/-- `_Cellular_RecvFuncGetNetworkTime`, cellular_3gpp_api.c:508-555. -/
def recvNetworkTime (lm : Nat) (items : List Str) (old : Time) : PktStatus × Time :=
  match items with
  | [] => (.badParam, old)
  | line :: _ =>
    match removePrefix line with
    | (.success, some s) =>
      match removeAllWhiteSpaces s with
      | (.success, s) => parseTimeInfo lm s
      | (e, _) => (translateAt e, old)
    | (e, _) => (translateAt e, old)

/-! ## Identity strings -/

/-- `CELLULAR_*_MAX_SIZE`, cellular_config_defaults.h (defaults). -/
def fwMax : Nat := 32
def imeiMax : Nat := 15
def modelMax : Nat := 10
def manufMax : Nat := 20
def iccidMax : Nat := 20
def imsiMax : Nat := 15
def nameMax : Nat := 32
def cmdMax : Nat := 200
def edrxMax : Nat := 4

/-- `_Cellular_RecvFuncGetFirmwareVersion` / `...GetModelId` / `...GetManufactureId`,
cellular_3gpp_api.c:559-600, 648-689, 693-734, with the respective maximum. -/
def recvTrimmed (max : Nat) (items : List Str) (buf : Mem) : Option (PktStatus × Mem) :=
  match items with
  | [] => some (.badParam, buf)
  | line :: _ =>
    match removeLeadingWhiteSpaces line with
    | (.success, s) =>
      match removeTrailingWhiteSpaces s with
      | (.success, s) => (strncpy buf s max).map (fun m => (translateAt .success, m))
      | (e, _) => some (translateAt e, buf)
    | (e, _) => some (translateAt e, buf)

/-- `_Cellular_RecvFuncGetImei`, cellular_3gpp_api.c:604-644. -/
def recvImei (items : List Str) (buf : Mem) : Option (PktStatus × Mem) :=
  match items with
  | [] => some (.badParam, buf)
  | line :: _ =>
    match removeLeadingWhiteSpaces line with
    | (.success, s) =>
      match removeAllWhiteSpaces s with
      | (.success, s) => (strncpy buf s imeiMax).map (fun m => (translateAt .success, m))
      | (e, _) => some (translateAt e, buf)
    | (e, _) => some (translateAt e, buf)

/-- `_Cellular_RecvFuncGetIccid`, cellular_3gpp_api.c:2555-2608 (`dataLen` = maximum + 1). -/
def recvIccid (items : List Str) (buf : Mem) : Option (PktStatus × Mem) :=
  match items with
  | [] => some (.badParam, buf)
  | line :: _ =>
    match removeAllWhiteSpaces line with
    | (.success, s) =>
      match removePrefix s with
      | (.success, some s) =>
        if s.length < iccidMax + 1 then
          (strncpy buf s (iccidMax + 1)).map (fun m => (translateAt .success, m))
        else some (translateAt .badParameter, buf)
      | (e, _) => some (translateAt e, buf)
    | (e, _) => some (translateAt e, buf)

/-- `_Cellular_RecvFuncGetImsi`, cellular_3gpp_api.c:2613-2658 (`dataLen` = maximum + 1). -/
def recvImsi (items : List Str) (buf : Mem) : Option (PktStatus × Mem) :=
  match items with
  | [] => some (.badParam, buf)
  | line :: _ =>
    match removeAllWhiteSpaces line with
    | (.success, s) =>
      if s.length < imsiMax + 1 then
        (strncpy buf s (imsiMax + 1)).map (fun m => (translateAt .success, m))
      else some (translateAt .error, buf)
    | (e, _) => some (translateAt e, buf)

/-! ## Registration queries -/

/-- `regResponseIsUrc`, cellular_3gpp_api.c:748-787. -/
def regResponseIsUrc (line : Str) : Bool :=
  match strstr1 line 44 with
  | none => true
  | some sep => sep[1]? == some 34

/-- The loop of `_Cellular_RecvFuncGetNetworkReg`, cellular_3gpp_api.c:821-846: status, record,
callbacks made. -/
def recvRegLoop (lm : Nat) (cb : Bool) (t : Reg.RegType) :
    List Str → Reg.AtData → PktStatus × Reg.AtData × List Reg.RegEvent
  | [], d => (.ok, d, [])
  | line :: rest, d =>
    let r : Reg.Out :=
      if regResponseIsUrc line then
        match removePrefix line with
        | (.success, s) => Reg.parseRegStatus lm cb s true t d
        | (e, _) => ⟨translateAt e, d, []⟩
      else Reg.parseRegStatus lm cb (some line) false t d
    match r.status with
    | .ok =>
      let q := recvRegLoop lm cb t rest r.data
      (q.1, q.2.1, r.events ++ q.2.2)
    | e => (e, r.data, r.events)

/-- `_Cellular_RecvFuncGetNetworkReg`, cellular_3gpp_api.c:791-852. -/
def recvNetworkReg (lm : Nat) (cb : Bool) (t : Reg.RegType) (items : List Str) (d : Reg.AtData) :
    PktStatus × Reg.AtData × List Reg.RegEvent :=
  match items with
  | [] => (.badParam, d, [])
  | _ => recvRegLoop lm cb t items d

/-! ## AT+COPS -/

/-- `cellularOperatorInfo_t`, cellular_3gpp_api.c:112-119; strings by contents (their buffers are one
byte larger than the texts stored, the last byte stays NUL). -/
structure OpInfo where
  mcc : Str
  mnc : Str
  rat : Nat
  mode : Nat
  format : Nat
  name : Str
  deriving DecidableEq, Repr

/-- After `memset( , 0, )`. -/
def OpInfo.zero : OpInfo := ⟨[], [], 0, 0, 0, []⟩

/-- Shape of `_parseCopsRegModeToken` etc., e.g. cellular_3gpp_api.c:882-917: `false` only if a number
was read and is out of range; a token without a number leaves the member unchanged. -/
def copsNum (lm : Nat) (tok : Str) (max : Int) (store : Nat → OpInfo → OpInfo) (o : OpInfo) :
    Bool × OpInfo :=
  match strtoi lm (some tok) 10 with
  | (.success, some v) => if 0 ≤ v ∧ v < max then (true, store v.toNat o) else (false, o)
  | _ => (true, o)

/-- `_parseCopsNetworkNameToken`, cellular_3gpp_api.c:961-1005. -/
def copsName (tok : Str) (o : OpInfo) : Bool × OpInfo :=
  if o.format = 0 ∨ o.format = 1 then (true, { o with name := tok.take nameMax })
  else if o.format = 2 then
    if tok.length = 3 + 3 ∨ tok.length = 3 + 3 - 1 then
      (true, { o with mcc := tok.take 3, mnc := tok.drop 3 })
    else (false, o)
  else (false, o)

/-- `_parseCops`, cellular_3gpp_api.c:1047-1113 (the four token parsers at 882-1043). -/
def parseCops (lm : Nat) (s : Str) (o : OpInfo) : AtErr × OpInfo :=
  match getNextTok s with
  | (.success, rest, some tok) =>
    match copsNum lm tok 5 (fun v o => { o with mode := v }) o with
    | (false, o) => (.error, o)
    | (true, o) =>
      match getNextTok rest with
      | (.success, rest, some tok) =>
        match copsNum lm tok 10 (fun v o => { o with format := v }) o with
        | (false, o) => (.error, o)
        | (true, o) =>
          match getNextTok rest with
          | (.success, rest, some tok) =>
            match copsName tok o with
            | (false, o) => (.error, o)
            | (true, o) =>
              match getNextTok rest with
              | (.success, _, some tok) =>
                match copsNum lm tok (ratMax : Int) (fun v o => { o with rat := v }) o with
                | (false, o) => (.error, o)
                | (true, o) => (.success, o)
              | (e, _, _) => (e, o)
          | (e, _, _) => (e, o)
      | (e, _, _) => (e, o)
  | (e, _, _) => (e, o)

/-- The steps of `_Cellular_RecvFuncUpdateMccMnc` on the first response line, cellular_3gpp_api.c:1141-1163. -/
def copsLine (lm : Nat) (line : Str) (o : OpInfo) : AtErr × OpInfo :=
  match removePrefix line with
  | (.success, some s) =>
    match removeAllDoubleQuote s with
    | (.success, s) =>
      match removeAllWhiteSpaces s with
      | (.success, s) => parseCops lm s o
      | (e, _) => (e, o)
    | (e, _) => (e, o)
  | (e, _) => (e, o)

/-- `_Cellular_RecvFuncUpdateMccMnc`, cellular_3gpp_api.c:1117-1175: only CELLULAR_AT_ERROR is turned
into a failure; CELLULAR_AT_BAD_PARAMETER (empty or missing text) is not. -/
def recvCops (lm : Nat) (items : List Str) (o : OpInfo) : PktStatus × OpInfo :=
  match items with
  | [] => (.failure, o)
  | line :: _ =>
    let r : AtErr × OpInfo := copsLine lm line o
    (if r.1 = .error then translateAt .error else .ok, r.2)

/-! ## AT+CGPADDR -/

/-- `_Cellular_RecvFuncIpAddress`, cellular_3gpp_api.c:1179-1232. -/
def recvIp (items : List Str) (dataLen : Nat) (buf : Mem) : Option (PktStatus × Mem) :=
  match items with
  | [] => some (.failure, buf)
  | line :: _ =>
    if dataLen = 0 then some (.badParam, buf)
    else
      match removePrefix line with
      | (.success, some s) =>
        match getNextTok s with
        | (.success, rest, _) =>
          (if rest ≠ [] then strncpy buf rest dataLen else memset0 buf dataLen).map
            (fun m => (translateAt .success, m))
        | (e, _, _) => some (translateAt e, buf)
      | (e, _) => some (translateAt e, buf)

/-! ## AT+CEDRXS -/

/-- `CellularEidrxSettings_t` as filled by the query. -/
structure Edrx where
  rat : Nat
  value : Nat
  deriving DecidableEq, Repr

/-- `CellularEidrxSettingsList_t`: `CELLULAR_EDRX_LIST_MAX_SIZE` entries and a count. -/
structure EdrxList where
  list : List Edrx
  count : Nat
  deriving DecidableEq, Repr

def EdrxList.zero : EdrxList := ⟨List.replicate edrxMax ⟨0, 0⟩, 0⟩

/-- Assignment to a member of `eidrxList[ i ]`; `none` = outside the array. -/
def EdrxList.upd (l : EdrxList) (i : Nat) (f : Edrx → Edrx) : Option EdrxList :=
  match l.list[i]? with
  | none => none
  | some e => some { l with list := l.list.set i (f e) }

/-- `parseEidrxToken`, cellular_3gpp_api.c:1236-1291 (its status is only logged). -/
def parseEdrxToken (lm : Nat) (tok : Str) (idx : Nat) (count : Nat) (l : EdrxList) : Option EdrxList :=
  match idx with
  | 0 =>
    match strtoi lm (some tok) 10 with
    | (.success, some v) =>
      if 0 ≤ v ∧ v ≤ 255 then l.upd count (fun e => { e with rat := v.toNat }) else some l
    | _ => some l
  | 1 =>
    match strtoi lm (some tok) 2 with
    | (.success, some v) =>
      if 0 ≤ v ∧ v ≤ 255 then l.upd count (fun e => { e with value := v.toNat }) else some l
    | _ => some l
  | _ => some l

/-- The loop of `parseEidrxLine`, cellular_3gpp_api.c:1322-1335.  `idx` cannot wrap usefully: it is a
`uint8_t`; a line has at most 256 characters, hence at most 256 tokens, so the index of every token is
below 256. -/
def edrxTokens (lm : Nat) (idx count : Nat) (tok rest : Str) (l : EdrxList) : Option EdrxList :=
  match parseEdrxToken lm tok idx count l with
  | none => none
  | some l =>
    match h : getNextTok rest with
    | (.success, rest', some tok') => edrxTokens lm (idx + 1) count tok' rest' l
    | _ => some l
termination_by rest.length
decreasing_by exact Reg.getNextTok_rest_lt _ _ _ h

/-- `parseEidrxLine`, cellular_3gpp_api.c:1295-1349. -/
def parseEdrxLine (lm : Nat) (line : Str) (count : Nat) (l : EdrxList) : Option (AtErr × EdrxList) :=
  match removePrefix line with
  | (.success, some s) =>
    match removeAllDoubleQuote s with
    | (.success, s) =>
      match getNextTok s with
      | (.success, rest, some tok) =>
        (edrxTokens lm 0 count tok rest l).map (fun l => (.success, l))
      | (e, _, _) => some (e, l)
    | (e, _) => some (e, l)
  | (e, _) => some (e, l)

/-- The loop of `_Cellular_RecvFuncGetEidrxSettings`, cellular_3gpp_api.c:1382-1406; `count` is a
`uint8_t`. -/
def recvEdrxLoop (lm : Nat) : List Str → Nat → EdrxList → Option (PktStatus × EdrxList)
  | [], _, l => some (.ok, l)
  | line :: rest, count, l =>
    if line = str "+CEDRXS: 0" ∨ line = str "+CEDRXS:" then
      recvEdrxLoop lm rest count { l with count := count }
    else
      match parseEdrxLine lm line count l with
      | none => none
      | some (e, l) =>
        match translateAt e with
        | .ok => recvEdrxLoop lm rest ((count + 1) % 256) { l with count := (count + 1) % 256 }
        | st => some (st, { l with count := count })

/-- `_Cellular_RecvFuncGetEidrxSettings`, cellular_3gpp_api.c:1353-1410. -/
def recvEdrx (lm : Nat) (items : List Str) (l : EdrxList) : Option (PktStatus × EdrxList) :=
  match items with
  | [] => some (.badParam, l)
  | _ => recvEdrxLoop lm items 0 l

/-! ## SIM -/

/-- `CellularSimCardLockState_t`, cellular_types.h:141-160 (the values the code can store). -/
inductive SimLock
  | ready | pin | puk | pin2 | puk2 | phNetPin | phNetPuk | phNetsubPin | phNetsubPuk
  | spPin | spPuk | corpPin | corpPuk | unknown
  deriving DecidableEq, Repr

/-- `_getSimLockState`, cellular_3gpp_api.c:2229-2294. -/
def getSimLockState (tok : Str) : SimLock :=
  if tok = str "READY" then .ready
  else if tok = str "SIM PIN" then .pin
  else if tok = str "SIM PUK" then .puk
  else if tok = str "SIM PIN2" then .pin2
  else if tok = str "SIM PUK2" then .puk2
  else if tok = str "PH-NET PIN" then .phNetPin
  else if tok = str "PH-NET PUK" then .phNetPuk
  else if tok = str "PH-NETSUB PIN" then .phNetsubPin
  else if tok = str "PH-NETSUB PUK" then .phNetsubPuk
  else if tok = str "PH-SP PIN" then .spPin
  else if tok = str "PH-SP PUK" then .spPuk
  else if tok = str "PH-CORP PIN" then .corpPin
  else if tok = str "PH-CORP PUK" then .corpPuk
  else .unknown

/-- `_Cellular_RecvFuncGetSimLockStatus`, cellular_3gpp_api.c:2298-2356. -/
def recvSimLock (items : List Str) (old : SimLock) : PktStatus × SimLock :=
  match items with
  | [] => (.badParam, old)
  | line :: _ =>
    match removeAllWhiteSpaces line with
    | (.success, s) =>
      match removePrefix s with
      | (.success, some s) =>
        match getNextTok s with
        | (.success, _, some tok) => (.ok, getSimLockState tok)
        | (e, _, _) => (translateAt e, old)
      | (e, _) => (translateAt e, old)
    | (e, _) => (translateAt e, old)

/-- `CellularPlmnInfo_t` by contents of the strings. -/
structure Plmn where
  mcc : Str
  mnc : Str
  deriving DecidableEq, Repr

/-- `_parseHplmn`, cellular_3gpp_api.c:2411-2453.  The destination was zeroed by the caller
(cellular_3gpp_api.c:2758), so the strings are terminated at 3 characters. -/
def parseHplmn (tok : Str) : Option Plmn :=
  if tok.length < 9 ∨ tok.take 6 = str "FFFFFF" then none
  else
    let c := fun i => tok.getD i 0
    some { mcc := [c 1, c 0, c 3],
           mnc := if c 2 ≠ 70 then [c 5, c 4, c 2] else [c 5, c 4] }

/-- `_Cellular_RecvFuncGetHplmn`, cellular_3gpp_api.c:2457-2550 (with `_checkCrsmReadStatus` 2384-2407
and `_checkCrsmMemoryStatus` 2360-2380). -/
def recvHplmn (items : List Str) (old : Plmn) : PktStatus × Plmn :=
  match items with
  | [] => (.badParam, old)
  | line :: _ =>
    match removeAllWhiteSpaces line with
    | (.success, s) =>
      match removePrefix s with
      | (.success, some s) =>
        match removeAllDoubleQuote s with
        | (.success, s) =>
          match getNextTok s with
          | (.success, rest, some sw1) =>
            if sw1 ≠ str "144" ∧ sw1 ≠ str "145" ∧ sw1 ≠ str "146" then (translateAt .error, old)
            else
              match getNextTok rest with
              | (.success, rest, some sw2) =>
                if sw2 = str "64" then (translateAt .error, old)
                else
                  match getNextTok rest with
                  | (.success, _, some tok) =>
                    match parseHplmn tok with
                    | some p => (translateAt .success, p)
                    | none => (translateAt .error, old)
                  | (e, _, _) => (translateAt e, old)
              | (e, _, _) => (translateAt e, old)
          | (e, _, _) => (translateAt e, old)
        | (e, _) => (translateAt e, old)
      | (e, _) => (translateAt e, old)
    | (e, _) => (translateAt e, old)

/-! ## Power saving mode -/

/-- `CellularPsmSettings_t`, cellular_types.h:492-566 (`uint8_t` mode, `uint32_t` timers). -/
structure Psm where
  mode : Nat
  rau : Nat
  rdy : Nat
  tau : Nat
  active : Nat
  deriving DecidableEq, Repr

/-- `T3412_TIMER_DEACTIVATED`, `T3324_TIMER_DEACTIVATED`, cellular_3gpp_api.c:87, 96. -/
def deactivated : Nat := 0xFFFFFFFF

/-- `parseT3412TimerValue`, cellular_3gpp_api.c:1502-1568: status and value stored, if any.
`T3412_TIMER_UNIT(x)` = bits 5..7, `T3412_TIMER_VALUE(x)` = bits 0..4 (lines 94-95). -/
def parseT3412 (lm : Nat) (tok : Str) : AtErr × Option Nat :=
  match strtoi lm (some tok) 2 with
  | (.success, some v) =>
    if v < 0 then (.error, none)
    else
      let x := v.toNat
      let value := x % 32
      match x / 32 % 8 with
      | 0 => (.success, some (value * (10 * 60)))
      | 1 => (.success, some (value * (1 * 60 * 60)))
      | 2 => (.success, some (value * (10 * 60 * 60)))
      | 3 => (.success, some (value * 2))
      | 4 => (.success, some (value * 30))
      | 5 => (.success, some (value * 60))
      | 7 => (.success, some deactivated)
      | _ => (.error, none)
  | (e, _) => (e, none)

/-- `parseT3324TimerValue`, cellular_3gpp_api.c:1572-1626. -/
def parseT3324 (lm : Nat) (tok : Str) : AtErr × Option Nat :=
  match strtoi lm (some tok) 2 with
  | (.success, some v) =>
    if v < 0 then (.error, none)
    else
      let x := v.toNat
      let value := x % 32
      match x / 32 % 8 with
      | 0 => (.success, some (value * 2))
      | 1 => (.success, some (value * 60))
      | 2 => (.success, some (value * (6 * 60)))
      | 7 => (.success, some deactivated)
      | _ => (.error, none)
  | (e, _) => (e, none)

/-- `parseCpsmsMode`, cellular_3gpp_api.c:2883-2903. -/
def parseCpsmsMode (lm : Nat) (tok : Str) (p : Psm) : AtErr × Psm :=
  match strtoi lm (some tok) 2 with
  | (.success, some v) => if 0 ≤ v ∧ v ≤ 255 then (.success, { p with mode := v.toNat }) else (.error, p)
  | (e, _) => (e, p)

/-- Store a decoded timer. -/
def storeTimer (r : AtErr × Option Nat) (f : Nat → Psm → Psm) (p : Psm) : AtErr × Psm :=
  (r.1, match r.2 with | some v => f v p | none => p)

/-- `parseGetPsmToken`, cellular_3gpp_api.c:2907-2941. -/
def parsePsmToken (lm : Nat) (tok : Str) (idx : Nat) (p : Psm) : AtErr × Psm :=
  match idx with
  | 0 => parseCpsmsMode lm tok p
  | 1 => storeTimer (parseT3412 lm tok) (fun v p => { p with rau := v }) p
  | 2 => storeTimer (parseT3324 lm tok) (fun v p => { p with rdy := v }) p
  | 3 => storeTimer (parseT3412 lm tok) (fun v p => { p with tau := v }) p
  | 4 => storeTimer (parseT3324 lm tok) (fun v p => { p with active := v }) p
  | _ => (.error, p)

/-- The loop of `_Cellular_RecvFuncGetPsmSettings`, cellular_3gpp_api.c:2989-3007: the status of the
last token is the one that is kept. -/
def psmTokens (lm : Nat) (idx : Nat) (tok rest : Str) (p : Psm) : AtErr × Psm :=
  match parsePsmToken lm tok idx p with
  | (e, p) =>
    match h : getNextTok rest with
    | (.success, rest', some tok') => psmTokens lm (idx + 1) tok' rest' p
    | _ => (e, p)
termination_by rest.length
decreasing_by exact Reg.getNextTok_rest_lt _ _ _ h

/-- `_Cellular_RecvFuncGetPsmSettings`, cellular_3gpp_api.c:2945-3013. -/
def recvPsm (lm : Nat) (items : List Str) (p : Psm) : PktStatus × Psm :=
  match items with
  | [] => (.badParam, p)
  | line :: _ =>
    let r : AtErr × Psm :=
      match removePrefix line with
      | (.success, some s) =>
        match removeAllDoubleQuote s with
        | (.success, s) =>
          match getNextTok s with
          | (.success, rest, some tok) => psmTokens lm 0 tok rest p
          | (e, _, _) => (e, p)
        | (e, _) => (e, p)
      | (e, _) => (e, p)
    (translateAt r.1, r.2)

/-- `appendBinaryPattern`, cellular_3gpp_api.c:2789-2815, with `cmdLen` bytes left: the text appended
(`%c` with NUL ends the string). -/
def appendBinaryPattern (cmdLen value : Nat) (endOfString : Bool) : Str :=
  if value ≠ 0 then
    snprintf cmdLen (34 :: int8 value ++ [34] ++ (if endOfString then [] else [44]))
  else snprintf cmdLen (if endOfString then [] else [44])

/-- The command built by `Cellular_CommonSetPsmSettings`, cellular_3gpp_api.c:2853-2867. -/
def psmCommand (p : Psm) : Str :=
  let c := snprintf cmdMax (str "AT+CPSMS=" ++ fmtD p.mode ++ [44])
  let c := c ++ appendBinaryPattern (cmdMax - c.length) p.rau false
  let c := c ++ appendBinaryPattern (cmdMax - c.length) p.rdy false
  let c := c ++ appendBinaryPattern (cmdMax - c.length) p.tau false
  c ++ appendBinaryPattern (cmdMax - c.length) p.active true

/-! ## Requests -/

/-- `CellularATCommandType_t`, cellular_types.h:359-370 (those used here). -/
inductive CmdType | noResult | woPrefix | withPrefix | multiWithPrefix
  deriving DecidableEq, Repr

/-- `CellularAtReq_t` without callback and data. -/
structure Req where
  cmd : Str
  type : CmdType
  pfx : Option Str
  deriving DecidableEq, Repr

/-- What the request layer reports for a command: the transport refused it, no result code arrived
in time, the modem answered with an error code, or success with these response lines. -/
inductive Reply
  | sendFailed | timeout | error | lines (l : List Str)
  deriving DecidableEq, Repr

/-- The library context and the modem.  `lib` = (opened, shutdown, closing), `none` = NULL handle;
`modem` answers each command as an arbitrary function of everything sent so far. -/
structure World where
  lib : Option (Bool × Bool × Bool)
  atData : Reg.AtData
  regCb : Bool
  events : List Reg.RegEvent
  sent : List Req
  modem : List Req → Req → Reply

/-- `_Cellular_AtcmdRequestWithCallback` up to the response callback (cellular_pkthandler.c:200-263,
`_Cellular_PktioSendAtCmd` cellular_pktio.c:1420-1483), seen from the caller: a command longer than
200 characters is refused and not sent.  The error status or the response lines are returned.
Simplification: a request is one step (interleavings are the subject of the request/response model);
nothing else sends in between, and no late response callback is made. -/
def request (w : World) (r : Req) : (Except PktStatus (List Str)) × World :=
  if r.cmd.length > cmdMax then (.error .badParam, w)
  else
    let w' := { w with sent := w.sent ++ [r] }
    match w.modem w.sent r with
    | .sendFailed => (.error .sendError, w')
    | .timeout => (.error .timedOut, w')
    | .error => (.error .failure, w')
    | .lines l => (.ok l, w')

/-- A request with a response callback that updates `out`. -/
def requestCb {α : Type} (w : World) (r : Req) (recv : List Str → α → Option (PktStatus × α))
    (out : α) : Option (PktStatus × World × α) :=
  match request w r with
  | (.error e, w) => some (e, w, out)
  | (.ok l, w) => (recv l out).map (fun p => (p.1, w, p.2))

/-- A request without a response callback. -/
def requestNoCb (w : World) (r : Req) : PktStatus × World :=
  match request w r with
  | (.error e, w) => (e, w)
  | (.ok _, w) => (.ok, w)

/-- Result of an API call: error code, world afterwards, contents of the caller's object. -/
structure Res (α : Type) where
  err : CellErr
  world : World
  out : α

/-! ## API functions

An `Option α` argument is a pointer of the caller that may be NULL, with the contents of its object. -/

/-- `Cellular_CommonGetEidrxSettings`, cellular_3gpp_api.c:1630-1670. -/
def getEidrxSettings (lm : Nat) (w : World) (p : Option EdrxList) : Option (Res (Option EdrxList)) :=
  match checkLibraryStatus w.lib with
  | .success =>
    match p with
    | none => some ⟨.badParameter, w, p⟩
    | some _ =>
      (requestCb w ⟨str "AT+CEDRXS?", .multiWithPrefix, some (str "+CEDRXS")⟩ (recvEdrx lm)
        EdrxList.zero).map (fun r => ⟨translatePkt r.1, r.2.1, some r.2.2⟩)
  | e => some ⟨e, w, p⟩

/-- `Cellular_CommonSetEidrxSettings`, cellular_3gpp_api.c:1674-1725; argument: mode, rat, value. -/
def setEidrxSettings (w : World) (p : Option (Nat × Nat × Nat)) : Res Unit :=
  match checkLibraryStatus w.lib with
  | .success =>
    match p with
    | none => ⟨.badParameter, w, ()⟩
    | some (mode, rat, value) =>
      let cmd := snprintf cmdMax (str "AT+CEDRXS=" ++ fmtD mode ++ [44] ++ fmtD rat ++ [44, 34] ++
        int4 value ++ [34])
      let r := requestNoCb w ⟨cmd, .noResult, none⟩
      ⟨translatePkt r.1, r.2, ()⟩
  | e => ⟨e, w, ()⟩

/-- `Cellular_CommonRfOn` / `Cellular_CommonRfOff`, cellular_3gpp_api.c:1729-1781. -/
def rfSet (on : Bool) (w : World) : Res Unit :=
  match checkLibraryStatus w.lib with
  | .success =>
    let r := requestNoCb w ⟨if on then str "AT+CFUN=1" else str "AT+CFUN=4", .noResult, none⟩
    ⟨translatePkt r.1, r.2, ()⟩
  | e => ⟨e, w, ()⟩

/-- `atcmdUpdateMccMnc`, cellular_3gpp_api.c:1414-1441. -/
def updateMccMnc (lm : Nat) (w : World) (o : OpInfo) : CellErr × World × OpInfo :=
  match requestNoCb w ⟨str "AT+COPS=3,2", .noResult, none⟩ with
  | (.ok, w) =>
    match request w ⟨str "AT+COPS?", .withPrefix, some (str "+COPS")⟩ with
    | (.error e, w) => (translatePkt e, w, o)
    | (.ok l, w) => (translatePkt (recvCops lm l o).1, w, (recvCops lm l o).2)
  | (e, w) => (translatePkt e, w, o)

/-- `Cellular_CommonGetRegisteredNetwork`, cellular_3gpp_api.c:1785-1833; `mem` = the allocation of
the temporary record succeeds. -/
def getRegisteredNetwork (lm : Nat) (mem : Bool) (w : World) (p : Option Plmn) : Res (Option Plmn) :=
  match checkLibraryStatus w.lib with
  | .success =>
    match p with
    | none => ⟨.badParameter, w, p⟩
    | some old =>
      if mem = false then ⟨.noMemory, w, p⟩
      else
        match updateMccMnc lm w OpInfo.zero with
        | (.success, w, o) =>
          if o.rat ≠ ratInvalid then ⟨.success, w, some ⟨o.mcc, o.mnc⟩⟩ else ⟨.unknown, w, some old⟩
        | (e, w, _) => ⟨e, w, p⟩
  | e => ⟨e, w, p⟩

/-- `queryNetworkStatus`, cellular_3gpp_api.c:856-878. -/
def queryNetworkStatus (lm : Nat) (w : World) (cmd pfx : Str) (t : Reg.RegType) : CellErr × World :=
  match request w ⟨cmd, .multiWithPrefix, some pfx⟩ with
  | (.error e, w) => (translatePkt e, w)
  | (.ok l, w) =>
    let r := recvNetworkReg lm w.regCb t l w.atData
    (translatePkt r.1, { w with atData := r.2.1, events := w.events ++ r.2.2 })

/-- The registration part of `CellularServiceStatus_t`. -/
structure RegPart where
  rat : Nat
  cs : Nat
  ps : Nat
  csRejCause : Nat
  csRejType : Nat
  psRejCause : Nat
  psRejType : Nat
  deriving DecidableEq, Repr

/-- `CellularServiceStatus_t`. -/
structure ServiceStatus where
  reg : RegPart
  mode : Nat
  plmn : Plmn
  name : Str
  format : Nat
  deriving DecidableEq, Repr

/-- `atcmdQueryRegStatus`, cellular_3gpp_api.c:1445-1498 (with both GSM and EPS queries compiled in,
the default). -/
def queryRegStatus (lm : Nat) (w : World) (p : RegPart) : CellErr × World × RegPart :=
  let r := queryNetworkStatus lm w (str "AT+CREG?") (str "+CREG") .creg
  let st := r.1
  let w := r.2
  let w := if st = .success then (queryNetworkStatus lm w (str "AT+CGREG?") (str "+CGREG") .cgreg).2
    else w
  let q : CellErr × World :=
    if st = .success ∧ w.atData.ps ≠ Reg.stHome ∧ w.atData.ps ≠ Reg.stRoaming then
      queryNetworkStatus lm w (str "AT+CEREG?") (str "+CEREG") .cereg
    else (st, w)
  let d := q.2.atData
  (q.1, q.2,
    if q.1 = .success then
      { rat := d.rat, cs := d.cs, ps := d.ps, csRejCause := d.csRejCause, csRejType := d.csRejType,
        psRejCause := d.psRejCause, psRejType := d.psRejType }
    else p)

/-- `Cellular_CommonGetServiceStatus`, cellular_3gpp_api.c:1837-1886: the status of both queries is
ignored.  `operatorName` is copied with `strncpy` over the caller's member (32 of 33 bytes; the last
byte of the caller's member is assumed NUL). -/
def getServiceStatus (lm : Nat) (w : World) (p : Option ServiceStatus) : Res (Option ServiceStatus) :=
  match checkLibraryStatus w.lib with
  | .success =>
    match p with
    | none => ⟨.badParameter, w, p⟩
    | some old =>
      let r := queryRegStatus lm w old.reg
      let q := updateMccMnc lm r.2.1 OpInfo.zero
      let o := q.2.2
      ⟨.success, q.2.1, some { reg := r.2.2, mode := o.mode, plmn := ⟨o.mcc, o.mnc⟩, name := o.name,
                               format := o.format }⟩
  | e => ⟨e, w, p⟩

/-- `Cellular_CommonGetNetworkTime`, cellular_3gpp_api.c:1890-1928. -/
def getNetworkTime (lm : Nat) (w : World) (p : Option Time) : Res (Option Time) :=
  match checkLibraryStatus w.lib with
  | .success =>
    match p with
    | none => ⟨.badParameter, w, p⟩
    | some old =>
      match request w ⟨str "AT+CCLK?", .withPrefix, some (str "+CCLK")⟩ with
      | (.error e, w) => ⟨translatePkt e, w, some old⟩
      | (.ok l, w) => ⟨translatePkt (recvNetworkTime lm l old).1, w, some (recvNetworkTime lm l old).2⟩
  | e => ⟨e, w, p⟩

/-- The text members of `CellularModemInfo_t` the query fills. -/
structure ModemInfo where
  fw : Mem
  imei : Mem
  model : Mem
  manuf : Mem
  deriving DecidableEq, Repr

/-- After `memset( pModemInfo, 0, sizeof )`. -/
def ModemInfo.zero : ModemInfo :=
  ⟨List.replicate (fwMax + 1) 0, List.replicate (imeiMax + 1) 0, List.replicate (modelMax + 1) 0,
   List.replicate (manufMax + 1) 0⟩

/-- `Cellular_CommonGetModemInfo`, cellular_3gpp_api.c:1932-2016.  (The addresses of the members are
computed before the NULL check of `pModemInfo`; pure address computations are not modelled.) -/
def getModemInfo (w : World) (p : Option ModemInfo) : Option (Res (Option ModemInfo)) :=
  match checkLibraryStatus w.lib with
  | .success =>
    match p with
    | none => some ⟨.badParameter, w, p⟩
    | some _ => do
      let i := ModemInfo.zero
      let (s, w, b) ← requestCb w ⟨str "AT+CGMR", .woPrefix, none⟩ (recvTrimmed fwMax) i.fw
      let i := { i with fw := b }
      if s ≠ .ok then return ⟨translatePkt s, w, some i⟩
      let (s, w, b) ← requestCb w ⟨str "AT+CGSN", .woPrefix, none⟩ recvImei i.imei
      let i := { i with imei := b }
      if s ≠ .ok then return ⟨translatePkt s, w, some i⟩
      let (s, w, b) ← requestCb w ⟨str "AT+CGMM", .woPrefix, none⟩ (recvTrimmed modelMax) i.model
      let i := { i with model := b }
      if s ≠ .ok then return ⟨translatePkt s, w, some i⟩
      let (s, w, b) ← requestCb w ⟨str "AT+CGMI", .woPrefix, none⟩ (recvTrimmed manufMax) i.manuf
      let i := { i with manuf := b }
      return ⟨translatePkt s, w, some i⟩
  | e => some ⟨e, w, p⟩

/-- `Cellular_CommonGetIPAddress`, cellular_3gpp_api.c:2020-2076; the caller's buffer is the object
`buf` of `bufferLength` bytes, `none` = NULL. -/
def getIPAddress (w : World) (contextId : Nat) (buf : Option Mem) (bufferLength : Nat) :
    Option (Res (Option Mem)) :=
  match checkLibraryStatus w.lib with
  | .success =>
    match buf with
    | none => some ⟨.badParameter, w, buf⟩
    | some m =>
      if bufferLength = 0 then some ⟨.badParameter, w, buf⟩
      else
        match isValidPdn contextId with
        | .success =>
          let cmd := snprintf 32 (str "AT+CGPADDR=" ++ fmtD contextId)
          (requestCb w ⟨cmd, .withPrefix, some (str "+CGPADDR")⟩
            (fun l m => recvIp l (bufferLength % 65536) m) m).map
              (fun r => ⟨translatePkt r.1, r.2.1, some r.2.2⟩)
        | e => some ⟨e, w, buf⟩
  | e => some ⟨e, w, buf⟩

/-- `CellularPdnConfig_t` as used: type (numeric value) and APN. -/
structure PdnConfig where
  type : Nat
  apn : Str
  deriving DecidableEq, Repr

/-- The switch of `Cellular_CommonSetPdnConfig`, cellular_3gpp_api.c:2172-2194. -/
def pdnTypeStr (t : Nat) : Option Str :=
  if t = 1 then some (str "IP") else if t = 2 then some (str "IPV6")
  else if t = 3 then some (str "IPV4V6") else none

/-- `Cellular_CommonSetPdnConfig`, cellular_3gpp_api.c:2145-2225. -/
def setPdnConfig (w : World) (contextId : Nat) (p : Option PdnConfig) : Res Unit :=
  match p with
  | none => ⟨.badParameter, w, ()⟩
  | some c =>
    match pdnTypeStr c.type with
    | none => ⟨.badParameter, w, ()⟩
    | some t =>
      match isValidPdn contextId with
      | .success =>
        match checkLibraryStatus w.lib with
        | .success =>
          let cmd := snprintf cmdMax (str "AT+CGDCONT=" ++ fmtD contextId ++ [44, 34] ++ t ++
            [34, 44, 34] ++ c.apn ++ [34])
          let r := requestNoCb w ⟨cmd, .noResult, none⟩
          ⟨translatePkt r.1, r.2, ()⟩
        | e => ⟨e, w, ()⟩
      | e => ⟨e, w, ()⟩

/-- `Cellular_CommonGetSimCardLockStatus`, cellular_3gpp_api.c:2664-2704. -/
def getSimCardLockStatus (w : World) (p : Option SimLock) : Res (Option SimLock) :=
  match checkLibraryStatus w.lib with
  | .success =>
    match p with
    | none => ⟨.badParameter, w, p⟩
    | some _ =>
      match request w ⟨str "AT+CPIN?", .withPrefix, some (str "+CPIN")⟩ with
      | (.error e, w) => ⟨translatePkt e, w, some .unknown⟩
      | (.ok l, w) => ⟨translatePkt (recvSimLock l .unknown).1, w, some (recvSimLock l .unknown).2⟩
  | e => ⟨e, w, p⟩

/-- `CellularSimCardInfo_t`. -/
structure SimInfo where
  iccid : Mem
  imsi : Mem
  plmn : Plmn
  deriving DecidableEq, Repr

/-- After `memset( pSimCardInfo, 0, sizeof )`. -/
def SimInfo.zero : SimInfo :=
  ⟨List.replicate (iccidMax + 1) 0, List.replicate (imsiMax + 1) 0, ⟨[], []⟩⟩

/-- `Cellular_CommonGetSimCardInfo`, cellular_3gpp_api.c:2708-2785 (CELLULAR_CONFIG_USE_CCID_COMMAND
= 1, the default). -/
def getSimCardInfo (w : World) (p : Option SimInfo) : Option (Res (Option SimInfo)) :=
  match checkLibraryStatus w.lib with
  | .success =>
    match p with
    | none => some ⟨.badParameter, w, p⟩
    | some _ => do
      let i := SimInfo.zero
      let (s, w, b) ← requestCb w ⟨str "AT+CIMI", .woPrefix, none⟩ recvImsi i.imsi
      let i := { i with imsi := b }
      if s ≠ .ok then return ⟨translatePkt s, w, some i⟩
      let (s, w, b) ← requestCb w ⟨str "AT+CRSM=176,28514,0,0,0", .withPrefix, some (str "+CRSM")⟩
        (fun l p => some (recvHplmn l p)) i.plmn
      let i := { i with plmn := b }
      if s ≠ .ok then return ⟨translatePkt s, w, some i⟩
      let (s, w, b) ← requestCb w ⟨str "AT+CCID", .withPrefix, some (str "+CCID")⟩ recvIccid i.iccid
      let i := { i with iccid := b }
      return ⟨translatePkt s, w, some i⟩
  | e => some ⟨e, w, p⟩

/-- `Cellular_CommonSetPsmSettings`, cellular_3gpp_api.c:2819-2879. -/
def setPsmSettings (w : World) (p : Option Psm) : Res Unit :=
  match checkLibraryStatus w.lib with
  | .success =>
    match p with
    | none => ⟨.badParameter, w, ()⟩
    | some p =>
      let r := requestNoCb w ⟨psmCommand p, .noResult, none⟩
      ⟨translatePkt r.1, r.2, ()⟩
  | e => ⟨e, w, ()⟩

/-- `Cellular_CommonGetPsmSettings`, cellular_3gpp_api.c:3017-3062. -/
def getPsmSettings (lm : Nat) (w : World) (p : Option Psm) : Res (Option Psm) :=
  match checkLibraryStatus w.lib with
  | .success =>
    match p with
    | none => ⟨.badParameter, w, p⟩
    | some _ =>
      let z : Psm := ⟨0xFF, 0, 0, 0, 0⟩
      match request w ⟨str "AT+CPSMS?", .withPrefix, some (str "+CPSMS")⟩ with
      | (.error e, w) => ⟨translatePkt e, w, some z⟩
      | (.ok l, w) => ⟨translatePkt (recvPsm lm l z).1, w, some (recvPsm lm l z).2⟩
  | e => ⟨e, w, p⟩

end Cellular.Api
