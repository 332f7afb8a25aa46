import Verif.Signal
/-!
# Model of the registration text parser, source/cellular_3gpp_urc_handler.c

`libAtData` (the registration record of the context) is the record `AtData`; unsigned C fields are
naturals (their widths are re-established by theorem C40, nothing relies on wrap-around).  The NULL
checks of the context are not modelled (the context exists); the payload pointer may be NULL.
`lm` is `LONG_MAX` of the platform.  The counter `i` (a `uint8_t`) is a natural: it cannot wrap, because
a valid text has at most 256 characters and an empty field at a position of the table (other than the
first field of a query) ends the loop, so `i` stays below 256.
-/

namespace Cellular.Reg
open Cellular Signal
open Cellular.AtCore (strtoi AtErr)
open Cellular.AtStr

/-- `cellularAtData_t`, include/private/cellular_common_internal.h (the fields used). -/
structure AtData where
  cs : Nat
  ps : Nat
  lac : Nat
  rac : Nat
  tac : Nat
  cellId : Nat
  rat : Nat
  csRejType : Nat
  csRejCause : Nat
  psRejType : Nat
  psRejCause : Nat
  deriving DecidableEq, Repr

/-- `CellularNetworkRegType_t`, include/private/cellular_common_internal.h. -/
inductive RegType | creg | cgreg | cereg
  deriving DecidableEq, Repr

/-- `CELLULAR_REG_POS_*`, cellular_3gpp_urc_handler.c:45-75. -/
inductive Pos | none | netReg | stat | lacTac | cellId | rat | rejType | rejCause | rac
  deriving DecidableEq, Repr

/-- Values of `CellularNetworkRegistrationStatus_t`, cellular_types.h. -/
def stSearching : Nat := 2
def stHome : Nat := 1
def stRoaming : Nat := 5
def stDenied : Nat := 3
def stMax : Nat := 9

/-- `_Cellular_InitAtData( pContext, 1 )`, cellular_3gpp_api.c:2121-2141. -/
def clearLoc (d : AtData) : AtData :=
  { d with lac := 0xFFFF, cellId := 0xFFFFFFFF, rat := ratInvalid, rac := 0xFF }

/-- `_Cellular_InitAtData( pContext, 0 )`, cellular_3gpp_api.c:2121-2141. -/
def initAtData : AtData :=
  clearLoc { cs := stSearching, ps := stSearching, lac := 0, rac := 0, tac := 0, cellId := 0, rat := 0,
             csRejType := 0, csRejCause := 0, psRejType := 0, psRejCause := 0 }

/-- The common shape of the field parsers: read a number, refuse it unless `ok`, then `store`. -/
def field (lm : Nat) (base : Nat) (tok : Str) (ok : Int → Bool) (store : Nat → AtData → AtData)
    (d : AtData) : PktStatus × AtData :=
  match strtoi lm (some tok) base with
  | (.success, some v) => if ok v then (.ok, store v.toNat d) else (translateAt .error, d)
  | (e, _) => (translateAt e, d)

/-- `_parseRegStatusInRegStatusParsing`, cellular_3gpp_urc_handler.c:119-182. -/
def parseStat (lm : Nat) (t : RegType) (tok : Str) (d : AtData) : PktStatus × AtData :=
  field lm 10 tok (fun v => 0 ≤ v && v < (stMax : Int))
    (fun v d =>
      let d := if t = .creg then { d with cs := v } else { d with ps := v }
      if v = stHome then d else if v = stRoaming then d else clearLoc d) d

/-- `_parseLacTacInRegStatus`, cellular_3gpp_urc_handler.c:186-227. -/
def parseLacTac (lm : Nat) (t : RegType) (tok : Str) (d : AtData) : PktStatus × AtData :=
  field lm 16 tok (fun v => 0 ≤ v && v ≤ 65535)
    (fun v d => if t = .creg ∨ t = .cgreg then { d with lac := v } else { d with tac := v }) d

/-- `_parseCellIdInRegStatus`, cellular_3gpp_urc_handler.c:231-255. -/
def parseCellId (lm : Nat) (tok : Str) (d : AtData) : PktStatus × AtData :=
  field lm 16 tok (fun v => 0 ≤ v) (fun v d => { d with cellId := v }) d

/-- `_parseRatInfoInRegStatus`, cellular_3gpp_urc_handler.c:259-296. -/
def parseRat (lm : Nat) (tok : Str) (d : AtData) : PktStatus × AtData :=
  field lm 10 tok (fun v => !(v ≥ (ratMax : Int) || v < 0))
    (fun v d =>
      if v = ratGsm ∨ v = ratEdge ∨ v = ratCatM1 ∨ v = ratNbIot then { d with rat := v }
      else if v = ratLte then { d with rat := ratLte }
      else { d with rat := ratInvalid }) d

/-- `_parseRejectTypeInRegStatus`, cellular_3gpp_urc_handler.c:300-347. -/
def parseRejType (lm : Nat) (t : RegType) (tok : Str) (d : AtData) : PktStatus × AtData :=
  field lm 10 tok (fun v => 0 ≤ v && v ≤ 255)
    (fun v d =>
      if t = .cgreg ∨ t = .cereg then (if d.ps = stDenied then { d with psRejType := v } else d)
      else (if d.cs = stDenied then { d with csRejType := v } else d)) d

/-- `_parseRejectCauseInRegStatus`, cellular_3gpp_urc_handler.c:351-398. -/
def parseRejCause (lm : Nat) (t : RegType) (tok : Str) (d : AtData) : PktStatus × AtData :=
  field lm 10 tok (fun v => 0 ≤ v && v ≤ 255)
    (fun v d =>
      if t = .cgreg ∨ t = .cereg then (if d.ps = stDenied then { d with psRejCause := v } else d)
      else (if d.cs = stDenied then { d with csRejCause := v } else d)) d

/-- `_parseRoutingAreaCodeInRegStatus`, cellular_3gpp_urc_handler.c:402-431. -/
def parseRac (lm : Nat) (tok : Str) (d : AtData) : PktStatus × AtData :=
  field lm 16 tok (fun v => 0 ≤ v && v ≤ 255) (fun v d => { d with rac := v }) d

/-- `_regStatusSwitchParsingFunc`, cellular_3gpp_urc_handler.c:435-486. -/
def parsePos (lm : Nat) (pos : Pos) (t : RegType) (tok : Str) (d : AtData) : PktStatus × AtData :=
  match pos with
  | .stat => parseStat lm t tok d
  | .lacTac => parseLacTac lm t tok d
  | .cellId => parseCellId lm tok d
  | .rat => parseRat lm tok d
  | .rejType => parseRejType lm t tok d
  | .rejCause => parseRejCause lm t tok d
  | .rac => parseRac lm tok d
  | .netReg => (.ok, d)
  | .none => (.ok, d)

/-- The three position tables, cellular_3gpp_urc_handler.c:496-506, 533-544, 576-586. -/
def table : RegType → List Pos
  | .creg => [.none, .netReg, .stat, .lacTac, .cellId, .rat, .rejType, .rejCause]
  | .cgreg => [.none, .netReg, .stat, .lacTac, .cellId, .rat, .rac, .rejType, .rejCause]
  | .cereg => [.none, .netReg, .stat, .lacTac, .cellId, .rat, .rejType, .rejCause]

/-- `_regStatusSwitchParsingFuncCreg/Cgreg/Cereg`, cellular_3gpp_urc_handler.c:490-608: fields
beyond the table are ignored. -/
def parseField (lm : Nat) (t : RegType) (i : Nat) (tok : Str) (d : AtData) : PktStatus × AtData :=
  match (table t)[i]? with
  | none => (.ok, d)
  | some pos => parsePos lm pos t tok d

theorem getNextTok_rest_lt (s rest : Str) (tok : Option Str)
    (h : getNextTok s = (.success, rest, tok)) : rest.length < s.length := by
  unfold getNextTok getTok at h
  split at h
  · rename_i hv
    simp only [Prod.mk.injEq, true_and] at h
    have hne : s ≠ [] := by
      intro e; subst e; revert hv; decide
    have h0 := congrArg List.length
      (List.takeWhile_append_dropWhile (p := fun b => b != (44 : Byte)) (l := s))
    rw [List.length_append] at h0
    have : rest.length = (s.dropWhile (fun b => b != 44)).length - 1 := by rw [← h.1]; simp
    have hsl : s.length ≠ 0 := by simpa using hne
    omega
  · simp at h

/-- The loop of `_Cellular_ParseRegStatus`, cellular_3gpp_urc_handler.c:806-822: `i` already counted
for the current token. -/
def loop (lm : Nat) (t : RegType) (i : Nat) (tok rest : Str) (d : AtData) : PktStatus × AtData :=
  match parseField lm t i tok d with
  | (.ok, d) =>
    match h : getNextTok rest with
    | (.success, rest', some tok') => loop lm t (i + 1) tok' rest' d
    | _ => (.ok, d)
  | (e, d) => (e, d)
termination_by rest.length
decreasing_by exact getNextTok_rest_lt _ _ _ h

/-- `CellularServiceStatus_t` as filled by `_regStatusGenerateEvent` (the other members are
constants there). -/
structure RegInfo where
  rat : Nat
  cs : Nat
  ps : Nat
  csRejCause : Nat
  csRejType : Nat
  psRejCause : Nat
  psRejType : Nat
  deriving DecidableEq, Repr

/-- A call of the network registration callback: `csDomain` = CELLULAR_URC_EVENT_NETWORK_CS_REGISTRATION,
otherwise CELLULAR_URC_EVENT_NETWORK_PS_REGISTRATION. -/
structure RegEvent where
  csDomain : Bool
  info : RegInfo
  deriving DecidableEq, Repr

/-- `_regStatusGenerateEvent`, cellular_3gpp_urc_handler.c:637-671; `cb` = a callback is registered. -/
def genEvent (cb : Bool) (t : RegType) (d : AtData) : List RegEvent :=
  if cb then
    [{ csDomain := t == .creg,
       info := { rat := d.rat, cs := d.cs, ps := d.ps, csRejCause := d.csRejCause,
                 csRejType := d.csRejType, psRejCause := d.psRejCause, psRejType := d.psRejType } }]
  else []

/-- `_Cellular_RegEventStatus`, cellular_3gpp_urc_handler.c:675-709. -/
def eventChanged (d : AtData) (t : RegType) (prevCs prevPs : Nat) : Bool :=
  match t with
  | .creg => d.cs != prevCs
  | .cgreg => d.ps != prevPs
  | .cereg => d.ps != prevPs

/-- Outcome of a call of the parser: status, record, callbacks made. -/
structure Out where
  status : PktStatus
  data : AtData
  events : List RegEvent
  deriving DecidableEq, Repr

/-- `_Cellular_ParseRegStatus`, cellular_3gpp_urc_handler.c:713-843. -/
def parseRegStatus (lm : Nat) (cb : Bool) (payload : Option Str) (isUrc : Bool) (t : RegType)
    (d : AtData) : Out :=
  match payload with
  | none => ⟨.badParam, d, []⟩
  | some s =>
    match removeAllDoubleQuote s with
    | (.success, s) =>
      match removeAllWhiteSpaces s with
      | (.success, s) =>
        match getNextTok s with
        | (.success, rest, some tok) =>
          let r := loop lm t (if isUrc then 2 else 1) tok rest d
          ⟨r.1, r.2, if eventChanged r.2 t d.cs d.ps then genEvent cb t r.2 else []⟩
        | (e, _, _) => ⟨translateAt e, d, []⟩
      | (e, _) => ⟨translateAt e, d, []⟩
    | (e, _) => ⟨translateAt e, d, []⟩

/-- `Cellular_CommonUrcProcessCreg`, `...Cgreg`, `...Cereg`, cellular_3gpp_urc_handler.c:847-924,
with an open context: the parser run under the AT data mutex. -/
def urcProcess (lm : Nat) (cb : Bool) (t : RegType) (line : Option Str) (d : AtData) : Out :=
  parseRegStatus lm cb line true t d

end Cellular.Reg
