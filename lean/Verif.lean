import Verif.Base
import Verif.Queue
import Verif.QueueProps
import Verif.Pool
import Verif.PoolProps
import Verif.MsgStorage
import Verif.MsgStorageProps
import Verif.Reactor
import Verif.ReactorProps
import Verif.LinkAddr
import Verif.LinkAddrProps
import Verif.Routing
import Verif.RoutingProps
import Verif.Fsm
import Verif.FsmProps
import Verif.TimeUtils
import Verif.TimeUtilsProps
import Verif.AduLayout
import Verif.AduLayoutProps
import Verif.ModbusCodec
import Verif.ModbusCodecLemmas
import Verif.ModbusCodecProps
import Verif.AduStorage
import Verif.AduStorageProps
import Verif.ModbusClient
import Verif.ModbusClientLemmas
import Verif.ModbusClientProps
import Verif.ModbusSession
import Verif.ModbusSessionLemmas
import Verif.ModbusSessionProps
import Verif.SegmentationProps
import Verif.ModbusServerProps
import Verif.ModbusDispatch
import Verif.ModbusDispatchProps
import Verif.Components
import Verif.ComponentsProps
import Verif.UaBuffer
import Verif.UaCodec
import Verif.UaWire
import Verif.UaCodecLemmas
import Verif.UaCodecLaws
import Verif.UaLocal
import Verif.UaCodecProps
import Verif.UaMessages
import Verif.UaMessagesWire
import Verif.UaMessagesLaws
import Verif.UaMessagesProps
import Verif.UaFraming
import Verif.UaFramingProps
import Verif.UaConnection
import Verif.UaConnectionProps
import Verif.StateExec
import Verif.UaPool
import Verif.UaTransport
import Verif.UaTransportProps
import Verif.UaEntity
import Verif.UaChannel
import Verif.UaChannelProps
import Verif.History
import Verif.UaSession
import Verif.UaSessionProps
import Verif.UaPeer
import Verif.UaPeerProps
import Verif.UaPeerLife
import Verif.UaPeerAnswers
import Verif.UaClient
import Verif.UaClientProps
import Verif.UaClientAnswers
import Verif.Controller
import Verif.ControllerProps
import Verif.ControllerLife
import Verif.ControllerServe
import Verif.Dispatch
import Verif.DispatchProps
import Verif.DispatchOwn
import Verif.DispatchCalm
import Verif.UaStack
import Verif.UaStackEmits
import Verif.UaStackProps
import Verif.UaStackService
import Verif.UaStackRuns
import Verif.ModbusExchange
import Verif.SelfTest
import Verif.SelfTestCases
import Verif.SelfTestProps
import Verif.Timer
import Verif.TimerProps
import Verif.Log
import Verif.LogSites
import Verif.LogProps
import Verif.Lifecycle
import Verif.LifecycleProps
import Verif.Race
import Verif.RaceProps
import Verif.UaLoad
import Verif.UaLoadProps
import Verif.UaLoadRuns
import Verif.UaStd
import Verif.UaStdLaws
import Verif.UaStdNull
import Verif.UaStdProps
import Verif.ModbusStandard
import Verif.ModbusStandardProps
import Verif.ModbusTime
import Verif.ModbusTimeProps
import Verif.UaTime
import Verif.Stream
import Verif.StreamProps
import Verif.UaDialogue
import Verif.UaClients
import Verif.UaVisits
import Verif.UaFoot
import Verif.UaAccept
import Verif.UaStrangers
import Verif.Program
import Verif.ProgramProps
import Verif.ModbusNet
import Verif.ModbusNetProps
import Verif.ModbusNetRuns
import Verif.UaServiceTable
import Verif.ModbusLoad
import Verif.ModbusPeers
import Verif.UaDemand
import Verif.UaDemandProps
import Verif.UaSurvive
import Verif.UaSurviveProps
import Verif.UaBlind
import Verif.UaBlindProps
import Verif.ModbusBlind
import Verif.ModbusBlindProps
import Verif.ModbusClientBlind
import Verif.ModbusClientBlindProps
import Verif.ModbusLocal
import Verif.Ready
import Verif.ReadyProps
import Verif.ReadyEnd
import Verif.UaReady
import Verif.ModbusReady
import Verif.UaHeirs
import Verif.UaHeirsProps
import Verif.UaHandshake
import Verif.UaAdmission
import Verif.ModbusReuse
import Verif.UaReuse
import Verif.UaGreeting
import Verif.UaShortChunk
import Verif.UaMessagesCases
import Verif.UaServiceCases
import Verif.UaOrphans
import Verif.UaOrphanRuns
import Verif.UaHeld
import Verif.UaLimits
import Verif.UaLifetime
import Verif.UaWrap
import Verif.UaNodes
import Verif.UaPeerForeign
import Verif.UaFault
import Verif.UaRefused
import Verif.UaPeerTalk
import Verif.UaPeerLimits
import Verif.UaMeet
import Verif.UaCaller
import Verif.ModbusRecover
import Verif.ModbusOnce
import Verif.ModbusRevive
import Verif.UaRevive
import Verif.UaReturn
import Verif.ProgramRoom
import Verif.ModbusFrame
import Verif.ModbusGlue
import Verif.UaFramingExact
import Verif.ModbusStale
import Verif.UaStale
import Verif.ModbusZero
import Verif.ModbusLeak
