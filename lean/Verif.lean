import Verif.CStr
import Verif.AtCore
import Verif.AtStr
import Verif.AtCoreLemmas
import Verif.AtCoreSpec
import Verif.AtCoreRefine
import Verif.AtCoreRefine2
import Verif.AtCoreProps
import Verif.AtStrtoi
import Verif.Types
import Verif.Urc
import Verif.UrcSpec
import Verif.UrcProps
import Verif.UrcTight
import Verif.Signal
import Verif.SignalProps
import Verif.Sockets
import Verif.SocketsProps
import Verif.Lifecycle
import Verif.LifecycleProps
import Verif.LifecycleLive
import Verif.Reg
import Verif.TokLemmas
import Verif.RegProps
import Verif.Api
import Verif.ApiProps
import Verif.ApiTime
import Verif.ApiQuery
import Verif.ApiPsm
import Verif.Pktio
import Verif.PktioProps
import Verif.PktioSafe
import Verif.PktioSafeData
import Verif.PktioSpec
import Verif.PktioRefine
import Verif.PktioRecv
import Verif.PktioOnce
import Verif.PktioDataSpec
import Verif.PktioData
import Verif.ApiTight
import Verif.Conc
import Verif.ConcInv
import Verif.ConcOwn
import Verif.ConcOwn2
import Verif.ConcOwn3
import Verif.ConcHist
import Verif.ConcExplain
import Verif.ConcExec
import Verif.ConcPend
import Verif.ConcProps
import Verif.ConcLive
import Verif.RegConc
import Verif.ApiRaw
import Verif.ApiEnd
import Verif.AtRefuse
import Verif.LocksProps
import Verif.Wire
import Verif.WirePos
import Verif.WireProps
import Verif.WireApi
import Verif.WireSession
import Verif.Dispatch
import Verif.PktioInputSpec
import Verif.PktioInput
import Verif.PktioInputProps
import Verif.RespHeapProps
import Verif.ConcUsr
import Verif.RegWire
import Verif.PktioExact
import Verif.Robust
import Verif.PktioPrompt
import Verif.WireData
import Verif.WireDataProps
import Verif.PktioDataInv
import Verif.WireRecv
import Verif.WireRecvProps
import Verif.Close
import Verif.CloseProps
import Verif.AtDelims
import Verif.AtNumber
import Verif.ApiPsmExact
import Verif.RegExact
import Verif.ApiTimeExact
import Verif.ApiExact
import Verif.ServiceExact
import Verif.AtExact
import Verif.Bytes
import Verif.BytesProps
import Verif.BytesInv
import Verif.BytesSim
import Verif.BytesThm
import Verif.BytesData
import Verif.BytesSafe
import Verif.BytesSeq
import Verif.BytesOwn
import Verif.ConcWhole
import Verif.BytesWhole
import Verif.ConcTidy
import Verif.BytesTidy
import Verif.BytesSilent
import Verif.RegCall
import Verif.BytesPieces
import Verif.BytesBusy
import Verif.ConcHeard
import Verif.BytesCalm
import Verif.BytesHeard
import Verif.BytesStrip
import Verif.BytesAnswer
