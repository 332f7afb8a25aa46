import Verif.CStr
/-!
# The mutexes of the library: who takes which lock, in which order

The four mutexes of `CellularContext_t` (include/private/cellular_common_internal.h:118-127) are created
non-recursive (`PlatformMutex_Create( .., false )`, cellular_common.c:275, cellular_3gpp_api.c:2094,
cellular_pkthandler.c:857, 871).  Every library function is modelled by its *lock skeleton*: the order in which it
takes and releases mutexes and waits for the other task, with its branches and loops; data is left out, so a branch is
a free choice.  A wait with a time limit (`PlatformQueue_Receive`, `Platform_Delay`) and the calls of the
communication interface always return and are a `step`.  Mutex creation and destruction are not modelled.
-/

namespace Cellular.Locks

/-- The mutexes: libAtDataMutex, libStatusMutex, pktRequestMutex, PktRespMutex. -/
inductive Lk | atData | lib | req | resp
  deriving DecidableEq, Repr

/-- The order in which a task that holds several mutexes took them. -/
def rank : Lk → Nat
  | .atData => 0 | .lib => 1 | .req => 2 | .resp => 3

/-- What one task tells another: the receive task has started or failed (PKTIO_EVT_MASK_STARTED / ABORTED,
cellular_pktio.c:1232, 1262), `Cellular_Init` has returned, the receive task is to stop (PKTIO_EVT_MASK_ABORT), it has
stopped (PKTIO_EVT_MASK_ABORTED). -/
inductive Flag | up | opened | abort | aborted
  deriving DecidableEq, Repr

/-- The flag set by the first signal of a life comes before the flag set by the next one. -/
def frank : Flag → Nat
  | .up => 0 | .opened => 1 | .abort => 2 | .aborted => 3

/-- One action of a task. -/
inductive Act
  | lock (l : Lk) | unlock (l : Lk) | signal (f : Flag) | await (f : Flag) | step
  deriving DecidableEq, Repr

/-- Lock skeletons. -/
inductive Code
  | skip
  | step
  | seq (c d : Code)
  | alt (c d : Code)
  | star (c : Code)
  | locked (l : Lk) (c : Code)

infixr:60 " ;; " => Code.seq

/-- The runs of a skeleton. -/
inductive Code.Trace : Code → List Act → Prop
  | skip : Trace .skip []
  | step : Trace .step [.step]
  | seq {c d s t} : Trace c s → Trace d t → Trace (.seq c d) (s ++ t)
  | altL {c d s} : Trace c s → Trace (.alt c d) s
  | altR {c d s} : Trace d s → Trace (.alt c d) s
  | starNil {c} : Trace (.star c) []
  | starCons {c s t} : Trace c s → Trace (.star c) t → Trace (.star c) (s ++ t)
  | locked {l c s} : Trace c s → Trace (.locked l c) (.lock l :: (s ++ [.unlock l]))

/-- Something that may be left out. -/
def Code.opt (c : Code) : Code := .alt .skip c

/-- One of several. -/
def Code.oneOf : List Code → Code
  | [] => .skip
  | [c] => c
  | c :: cs => .alt c (oneOf cs)

open Code

/-! ## Requests -/

/-- `_Cellular_CheckLibraryStatus`, cellular_common.c:425-459. -/
def checkLib : Code := opt (locked .lib skip ;; opt (locked .lib skip))

/-- `_Cellular_PktioSendAtCmd`, cellular_pktio.c:1413-1482 (the mutex is released on both branches). -/
def pktioSendAtCmd : Code := opt (locked .resp skip ;; opt step)

/-- `_Cellular_AtcmdRequestTimeoutWithCallbackRaw`, cellular_pkthandler.c:201-264. -/
def requestRaw : Code :=
  opt (locked .resp skip ;; pktioSendAtCmd ;; opt step ;; locked .resp skip)

/-- `_Cellular_DataSendWithTimeoutDelayRaw`, cellular_pkthandler.c:268-345. -/
def dataSendRaw : Code :=
  opt (locked .resp skip ;; step) ;; opt step ;; opt (step ;; locked .resp skip)

/-- `_Cellular_PktHandler_AtcmdRequestWithCallback`, cellular_pkthandler.c:562-582. -/
def request : Code := opt (locked .req requestRaw)

/-- `_Cellular_AtcmdRequestSuccessToken`, cellular_pkthandler.c:586-626, and
`_Cellular_TimeoutAtcmdDataRecvRequestWithCallback`, 630-665. -/
def requestSpecial : Code := opt (locked .req (locked .resp skip ;; requestRaw ;; locked .resp skip))

/-- `_Cellular_AtcmdDataSend`, cellular_pkthandler.c:669-719, and `_Cellular_TimeoutAtcmdDataSendSuccessToken`,
734-777. -/
def dataSend : Code :=
  opt (locked .req (locked .resp skip ;; requestRaw ;; locked .resp skip ;; opt (opt step ;; dataSendRaw)))

/-! ## API functions -/

/-- The functions that check the library status and send one command: Cellular_CommonGetEidrxSettings
(cellular_3gpp_api.c:1630-1670), SetEidrxSettings (1674-1725), RfOn (1729-1753), RfOff (1757-1781), GetNetworkTime
(1890-1928), GetIPAddress (2020-2075), SetPdnConfig (2145-2225), GetSimCardLockStatus (2664-2704), SetPsmSettings
(2819-2878), GetPsmSettings (3017-3060), ATCommandRaw (cellular_common_api.c:363-404). -/
def oneCommand : Code := checkLib ;; request

/-- `atcmdUpdateMccMnc`, cellular_3gpp_api.c:1414-1441. -/
def updateMccMnc : Code := request ;; opt request

/-- `Cellular_CommonGetRegisteredNetwork`, cellular_3gpp_api.c:1785-1833. -/
def getRegisteredNetwork : Code := checkLib ;; opt updateMccMnc

/-- `atcmdQueryRegStatus`, cellular_3gpp_api.c:1445-1498. -/
def queryRegStatus : Code :=
  request ;; opt request ;; locked .atData skip ;; opt request ;; opt (locked .atData skip)

/-- `Cellular_CommonGetServiceStatus`, cellular_3gpp_api.c:1837-1886. -/
def getServiceStatus : Code := checkLib ;; opt (queryRegStatus ;; updateMccMnc)

/-- `Cellular_CommonGetModemInfo`, cellular_3gpp_api.c:1932-2016. -/
def getModemInfo : Code := checkLib ;; opt (request ;; opt request ;; opt request ;; opt request)

/-- `Cellular_CommonGetSimCardInfo`, cellular_3gpp_api.c:2708-2785. -/
def getSimCardInfo : Code := checkLib ;; opt (request ;; opt (request ;; opt request))

/-- The `Cellular_CommonRegisterUrc..Callback` family and `Cellular_CommonRegisterModemEventCallback`,
cellular_common_api.c:228-359. -/
def registerCallback : Code := checkLib ;; opt (locked .resp skip)

/-- `_Cellular_RegisterUndefinedRespCallback` and `_Cellular_RegisterInputBufferCallback`,
cellular_common.c:1095-1159. -/
def registerModuleCallback : Code := opt (locked .resp skip)

/-- Cellular_CommonCreateSocket, SocketSetSockOpt and the socket callback registrations,
cellular_common_api.c:408-576. -/
def socketCall : Code := checkLib ;; opt step

/-- `_Cellular_GetCurrentRat`, cellular_common.c:807-830. -/
def getCurrentRat : Code := checkLib ;; opt (locked .atData skip)

/-- Every call an application or a module port makes between `Cellular_Init` and `Cellular_Cleanup`. -/
def apiCalls : List Code :=
  [oneCommand, getRegisteredNetwork, getServiceStatus, getModemInfo, getSimCardInfo, registerCallback,
   registerModuleCallback, socketCall, getCurrentRat, request, requestSpecial, dataSend, checkLib, step]

/-- The same, without the two that read the registration data (they take libAtDataMutex). -/
def apiCallsNoReg : List Code :=
  [oneCommand, getRegisteredNetwork, getModemInfo, getSimCardInfo, registerCallback,
   registerModuleCallback, socketCall, request, requestSpecial, dataSend, checkLib, step]

/-! ## The receive task

`Callbacks` are the lock skeletons of the code that the receive task calls and that the application or the module port
supplies. -/

structure Callbacks where
  /-- network registration event (`networkRegistrationCallback`) -/
  netReg : Code
  /-- other URC handlers, generic URC callback, response callbacks, data prefix callbacks, undefined response callback
  -/
  other : Code
  /-- `inputBufferCallback` -/
  input : Code

/-- `Cellular_CommonUrcProcessCreg`, `..Cgreg`, `..Cereg`, cellular_3gpp_urc_handler.c:846-925: the callback is called
by `_regStatusGenerateEvent` inside `_Cellular_ParseRegStatus`, with libAtDataMutex held. -/
def urcReg (cb : Callbacks) : Code := opt (locked .atData (opt cb.netReg))

/-- `_Cellular_RecvFuncGetNetworkReg`, cellular_3gpp_api.c:791-852: per response line. -/
def recvNetworkReg (cb : Callbacks) : Code := star (locked .atData (opt cb.netReg))

/-- `_preprocessInputBuffer`, cellular_pktio.c:904-958: the callback runs with PktRespMutex held. -/
def preprocessInput (cb : Callbacks) : Code := opt (locked .resp cb.input)

/-- `_preprocessLine`, cellular_pktio.c:962-1056. -/
def preprocessLine (cb : Callbacks) : Code := locked .resp skip ;; opt cb.other

/-- `_Cellular_ProcessLine`, cellular_pktio.c:328-414. -/
def processLine : Code := locked .resp skip

/-- `_getMsgType`, cellular_pktio.c:445-515. -/
def getMsgType : Code := locked .resp skip

/-- `_Cellular_HandlePacket`, cellular_pkthandler.c:519-558, with `_convertAndQueueRespPacket` (89-121; the queue
send does not block), `_processUrcPacket` (128-197) and `_handleUndefinedMessage` (471-501). -/
def handlePacket (cb : Callbacks) : Code :=
  oneOf [opt (alt (recvNetworkReg cb) cb.other) ;; step, urcReg cb, opt cb.other]

/-- `_handleMsgType`, cellular_pktio.c:712-822. -/
def handleMsgType (cb : Callbacks) : Code :=
  opt (handlePacket cb) ;;
  opt (processLine ;; opt (locked .resp skip ;; opt (handlePacket cb))) ;;
  opt (opt (handlePacket cb) ;; opt (locked .resp skip))

/-- `_handleAllReceived`, cellular_pktio.c:1090-1166, called by `_handleRxDataEvent` (1170-1199). -/
def handleAllReceived (cb : Callbacks) : Code :=
  opt step ;; star (preprocessInput cb ;; preprocessLine cb ;; opt (getMsgType ;; handleMsgType cb))

/-! ## Tasks and schedules -/

/-- A task: the mutexes it holds and what it still has to do. -/
structure Task where
  held : List Lk
  todo : List Act
  deriving DecidableEq, Repr

structure Sys where
  tasks : List Task
  flags : List Flag
  deriving DecidableEq, Repr

/-- Nobody holds the mutex. -/
def Free (s : Sys) (l : Lk) : Prop := ∀ t ∈ s.tasks, l ∉ t.held

/-- One step of task `i`; a mutex is granted only when nobody holds it (not even the task itself: the mutexes are not
recursive). -/
inductive Step (i : Nat) : Sys → Sys → Prop
  | lock {s : Sys} {h : List Lk} {l : Lk} {r : List Act} : s.tasks[i]? = some ⟨h, .lock l :: r⟩ → Free s l →
      Step i s { s with tasks := s.tasks.set i ⟨l :: h, r⟩ }
  | unlock {s : Sys} {h : List Lk} {l : Lk} {r : List Act} : s.tasks[i]? = some ⟨h, .unlock l :: r⟩ →
      Step i s { s with tasks := s.tasks.set i ⟨h.erase l, r⟩ }
  | signal {s : Sys} {h : List Lk} {f : Flag} {r : List Act} : s.tasks[i]? = some ⟨h, .signal f :: r⟩ →
      Step i s { tasks := s.tasks.set i ⟨h, r⟩, flags := f :: s.flags }
  | await {s : Sys} {h : List Lk} {f : Flag} {r : List Act} : s.tasks[i]? = some ⟨h, .await f :: r⟩ → f ∈ s.flags →
      Step i s { s with tasks := s.tasks.set i ⟨h, r⟩ }
  | step {s : Sys} {h : List Lk} {r : List Act} : s.tasks[i]? = some ⟨h, .step :: r⟩ →
      Step i s { s with tasks := s.tasks.set i ⟨h, r⟩ }

/-- Executions: any task may take the next step. -/
inductive Run : Sys → Nat → Sys → Prop
  | nil {s} : Run s 0 s
  | snoc {s n m i u} : Run s n m → Step i m u → Run s (n + 1) u

/-- All calls have returned and the receive task has ended. -/
def Finished (s : Sys) : Prop := ∀ t ∈ s.tasks, t.todo = []

/-! ## The life of an instance -/

/-- The initialising task from the creation of the receive task on: it holds libStatusMutex and waits in
`_PktioInitProcessReadThreadStatus` (cellular_pktio.c:1271-1286, called under `libOpen`, cellular_common.c:185-218),
returns, makes the calls `calls` and cleans up (`libClose`, cellular_common.c:225-267, with `_Cellular_PktioShutdown`,
cellular_pktio.c:1517-1541, and `_Cellular_PktHandlerCleanup`, cellular_pkthandler.c:503-515). -/
def mainTask (calls : List Act) : Task :=
  ⟨[.lib], [.await .up, .unlock .lib, .signal .opened] ++ (calls ++
    [.lock .lib, .unlock .lib, .signal .abort, .await .aborted, .lock .req, .unlock .req, .lock .lib, .unlock .lib])⟩

/-- The receive task, `_pktioReadThread`, cellular_pktio.c:1202-1264: `msgs` is what it does for the data it gets. -/
def rxTask (msgs : List Act) : Task := ⟨[], .signal .up :: (msgs ++ [.await .abort, .signal .aborted])⟩

/-- Another task of the application, which has the handle once `Cellular_Init` has returned. -/
def userTask (calls : List Act) : Task := ⟨[], .await .opened :: calls⟩

/-- An instance that opens: the initialising task, the receive task, any number of application tasks. -/
def life (main msgs : List Act) (users : List (List Act)) : Sys :=
  ⟨mainTask main :: rxTask msgs :: users.map userTask, []⟩

/-- An instance whose communication port does not open: `libOpen` cleans up with libStatusMutex held
(cellular_common.c:198-203; `_Cellular_PktioShutdown` does nothing because `bPktioUp` is false). -/
def failedOpen : Sys :=
  ⟨[⟨[.lib], [.await .up, .lock .req, .unlock .req, .unlock .lib]⟩, ⟨[], [.signal .up]⟩], []⟩

end Cellular.Locks
