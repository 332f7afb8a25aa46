import Verif.AtStr
/-!
# Status codes and enumerations shared by the models
-/

namespace Cellular

/-- `CellularPktStatus_t`, source/include/common/cellular_common_api.h / cellular_types.h
(CELLULAR_PKT_STATUS_*). -/
inductive PktStatus
  | ok | timedOut | failure | badRequest | badResponse | sizeMismatch | badParam | sendError
  | invalidHandle | creationFail | prefixMismatch | invalidData | pendingData | pendingBuffer
  deriving DecidableEq, Repr

/-- `CellularError_t`, source/include/cellular_types.h (the enumerators used by the modelled
functions). -/
inductive CellErr
  | success | modemNotReady | libraryNotOpen | internalFailure | timeout | unknown
  | badParameter | invalidHandle | noMemory | notAllowed | unsupported
  | socketNotConnected | socketClosed | resourceCreationFail
  deriving DecidableEq, Repr

/-- The text found at an offset of an object: `none` if no NUL follows. -/
def readStrL : List Byte → Option Str
  | [] => none
  | b :: t => if b = 0 then some [] else (readStrL t).map (b :: ·)

/-- What a callee sees when it is given the pointer `&m[p]` as a C string. -/
def readStr (m : Mem) (p : Nat) : Option Str := readStrL (m.drop p)

end Cellular
