import Verif.Types
/-!
# Model of the signal and status conversions of source/cellular_common.c

`int16_t` quantities are mathematical integers: none of the modelled computations can overflow
(the only arithmetic is -113 + 2*csq for 0 <= csq <= 31).  `CellularRat_t` is its numeric value.
-/

namespace Cellular.Signal
open Cellular AtCore

/-- Values of `CellularRat_t`, cellular_types.h. -/
def ratGsm : Nat := 0
def ratEdge : Nat := 3
def ratLte : Nat := 7
def ratCatM1 : Nat := 8
def ratNbIot : Nat := 9
def ratMax : Nat := 10
def ratInvalid : Nat := 255

/-- `CELLULAR_INVALID_SIGNAL_VALUE`, cellular_types.h:49. -/
def invalidSignal : Int := -32768
/-- `CELLULAR_INVALID_SIGNAL_BAR_VALUE`, cellular_types.h:55. -/
def invalidBars : Nat := 255

/-- `gsmSignalBarsTable`, cellular_common.c:317-324. -/
def gsmTable : List (Int × Nat) := [(-104, 1), (-98, 2), (-89, 3), (-80, 4), (0, 5)]
/-- `lteCATMSignalBarsTable`, cellular_common.c:328-335. -/
def catmTable : List (Int × Nat) := [(-115, 1), (-105, 2), (-95, 3), (-85, 4), (0, 5)]
/-- `lteNBIotSignalBarsTable`, cellular_common.c:339-346. -/
def nbTable : List (Int × Nat) := [(-115, 1), (-105, 2), (-95, 3), (-85, 4), (0, 5)]

/-- The search loop, cellular_common.c:366-373. -/
def barsLoop (v : Int) : List (Int × Nat) → Nat
  | [] => invalidBars
  | (th, b) :: t => if v ≤ th then b else barsLoop v t

/-- `_getSignalBars`, cellular_common.c:308-376. -/
def getSignalBars (v : Int) (rat : Nat) : Nat :=
  let t : List (Int × Nat) := []
  let t := if rat = ratGsm ∨ rat = ratEdge then gsmTable else t
  let t := if rat = ratCatM1 ∨ rat = ratLte then catmTable else t
  let t := if rat = ratNbIot then nbTable else t
  barsLoop v t

/-- The part of `CellularSignalInfo_t` the function uses. -/
structure SignalInfo where
  rssi : Int
  rsrp : Int
  bars : Nat
  deriving DecidableEq, Repr

/-- `_Cellular_ComputeSignalBars`, cellular_common.c:774-803. -/
def computeSignalBars (rat : Nat) (info : Option SignalInfo) : CellErr × Option SignalInfo :=
  match info with
  | none => (.badParameter, none)
  | some i =>
    if rat = ratGsm ∨ rat = ratEdge then (.success, some { i with bars := getSignalBars i.rssi rat })
    else if rat = ratLte ∨ rat = ratCatM1 ∨ rat = ratNbIot then
      (.success, some { i with bars := getSignalBars i.rsrp rat })
    else (.unknown, some { i with bars := invalidBars })

/-- `_Cellular_ConvertCsqSignalRssi`, cellular_common.c:669-702: second component = value stored,
`none` = untouched.  `out` = the pointer is not NULL. -/
def convertCsqRssi (csq : Int) (out : Bool) : CellErr × Option Int :=
  if !out then (.badParameter, none)
  else if csq = 99 then (.success, some invalidSignal)
  else if csq < 0 ∨ csq > 31 then (.badParameter, none)
  else (.success, some (-113 + csq * 2))

/-- `rxEqualValueToBerTable`, cellular_common.c:712-722. -/
def berTable : List Int := [14, 28, 57, 113, 226, 453, 905, 1810]

/-- `_Cellular_ConvertCsqSignalBer`, cellular_common.c:706-751.  Outer `none` = read outside the
table. -/
def convertCsqBer (csq : Int) (out : Bool) : Option (CellErr × Option Int) :=
  if !out then some (.badParameter, none)
  else if csq = 99 then some (.success, some invalidSignal)
  else if csq < 0 ∨ csq > 7 then some (.badParameter, none)
  else (berTable[csq.toNat]?).map (fun v => (.success, some v))

/-- `_Cellular_TranslatePktStatus`, cellular_common.c:463-488. -/
def translatePkt : PktStatus → CellErr
  | .ok => .success
  | .timedOut => .timeout
  | _ => .internalFailure

/-- `_Cellular_TranslateAtCoreStatus`, cellular_common.c:492-518. -/
def translateAt : AtErr → PktStatus
  | .success => .ok
  | .badParameter => .badParam
  | _ => .failure

/-- `_Cellular_IsValidPdn`, cellular_common.c:653-665 (default limits 1..16,
cellular_config_defaults.h). -/
def isValidPdn (id : Nat) : CellErr := if id > 16 ∨ id < 1 then .badParameter else .success

/-- `_Cellular_CheckLibraryStatus`, cellular_common.c:425-459; `none` = NULL context. -/
def checkLibraryStatus (ctx : Option (Bool × Bool × Bool)) : CellErr :=
  match ctx with
  | none => .invalidHandle
  | some (opened, shutdown, closing) =>
    if opened = false then .libraryNotOpen
    else if shutdown = true ∨ closing = true then .internalFailure
    else .success

end Cellular.Signal
