# Formal model of uscada in Lean 4: design

## Approach

* The C++ sources in `/repo/src/app` are read as text and modelled function by
  function as total, computable Lean definitions (module per code area, under
  `lean/Verif/`). Every definition cites the file and lines it models and says
  where it simplifies.
* Undefined behaviour, an escaping C++ exception and process termination are
  distinct outcomes of the model (`Exec`: `ok`, `throws`, `abort`, `ub`), never
  silently totalised.
* Each property is stated in a `...Props.lean` file (or a file named after the
  aspect) against a small independent specification: plain lists, functions on
  naturals, and predicates on histories of observable events (`AllOk` in
  `History.lean` says that every entry of a log was allowed by what came before).
  Next to each theorem an `example` shows that its hypotheses are met by a
  concrete non-trivial case.
* Where the code violates the property as stated, the violation is proved with a
  concrete witness, or for every state where possible (theorem name suffix
  `_violated`), and what does hold is proved in a theorem with suffix `_partial`.
* State machines are modelled as `step : State → Event → Exec (State × Outputs)`;
  theorems about them are inductive invariants over all histories from the initial
  state, without bounds on their length.
* Theorems are tested against wrong programs: `seeded/LOG.jsonl` lists edits of the
  model that correspond to realistic bugs, with the theorems that no longer prove.

## Plan per property

| Id | Model | Proof |
|----|-------|-------|
| C01 | `Queue`: cells, begin, end, len with modular arithmetic; out-of-range or over/underflow is `ub` | refinement to `List` by induction on the operation sequence |
| C02 | `Pool`: queue of ids plus ghost set of held ids | invariant: queue contents and held ids partition the id range |
| C03 | `MsgStorage`: byte memory of `numChunks*chunkSize`, two id queues | refinement to a list of messages; overrun witness |
| C04 | `Reactor`: mailbox, event counter, program counters of any number of senders | invariant over all interleavings |
| C05 | `Routing`: routing table by component id, table of message addresses | decision logic; violated pairs listed |
| C06 | `LinkAddr`: sign-extending byte reads | exact characterisation plus violation witness |
| C07 | `AduLayout`: offset walk with `memAlign` | induction over items |
| C08-C11 | `ModbusCodec`: 512-byte buffer with explicit previous content, codec | round trip, bounds, independence of stale content |
| C12 | `SegmentationProps`, `ModbusGlue`: session/client `receive` as a function of buffer and received piece | all cuts (server), exactly the safe cuts (client); violations |
| C13 | `AduStorage`: two id queues and slots | refinement to `List` |
| C14-C16 | `ModbusClient`: state machine with buffers, timer and peer bytes | invariants over histories; violations by witness |
| C17-C19 | `ModbusSession`: session state machine, server, pools | invariants over histories |
| C20, C21 | `ModbusDispatch`, `Components` | decision logic over all batches / histories, for any entity behaviour |
| C22-C27, C43 | `UaBuffer`, `UaCodec`: packet of 4096 bytes with read and write position, binary codec per type | codec laws (`UaCodecLaws`), round trip for all values at all positions |
| C28 | `UaMessages`, `UaWire`: messages derived from field lists | laws compose; all structures and containers |
| C29 | reads beyond the received bytes are observable | result is a function of the received bytes; violation witness |
| C30, C59 | `UaFraming`, `UaFramingExact`: `receive()` on a byte stream | induction over segmentation |
| C31, C32, C45, C47 | `UaConnection`: client and server connection state machines | invariants, trace grammar |
| C33, C34, C37, C38, C44, C48, C49 | `UaChannel` (ua/securechannel) and `UaPeer` (protocols/secure) | invariants over message histories |
| C35, C36, C46 | `UaTransport`: connections, pools, messages between layers | invariants over histories; `UaAccept`: what leaves a connection at rest |
| C39, C40, C50-C55 | `UaSession`: session state machine, session service, discovery service | invariants over histories; negations |
| C41 | `Fsm`: generic `transit` | decision logic |
| C42 | `TimeUtils`: calendar by day counting, 64-bit range | arithmetic proof |
| C56, C57 | `UaPeer`: library server secure channel on top of `UaConnection` | invariants, trace grammar |
| C58 | `UaClient`: library client secure channel on top of `UaConnection` | invariants, trace grammar; composition with `UaPeer` |
| C60, C61 | `Controller`: controller component, test state machine, test controller with its registers | order of everything sent, replay specification of registers |
| C62, C63 | `Dispatch`: descriptor table of the kernel, pooled links and timers, batches of events, arbitrary handlers | invariants over all histories of batches; violations by witness |
| C64, C65, C66 | `UaStack`: the three server components of `cpu3` on one reactor with one mailbox; what they send is read off their ghost logs | composition of component invariants over all interleavings; end-to-end execution of each service; violations for every reachable state of a connected client |
| C67 | `ModbusExchange`: client, session and both codecs composed | execution of one transaction for all fields and states; induction over requests |
| C68 | `SelfTest`, `SelfTestCases`, `SelfTestProps`: controller and Modbus component composed | invariant with a decreasing measure over all interleavings |
| C69 | `Timer`, `TimerProps`: clock arithmetic of the timer | integer arithmetic, overflow as a distinct outcome |
| C70 | `Log`, `LogSites`, `LogProps`: log macro and all its uses | bound on formatted lengths proved by induction over formats, evaluated by the kernel on the table |
| C71 | `Lifecycle`, `LifecycleProps`: main thread and reactor threads from start to destruction | invariant over all interleavings, decreasing measure, violations by execution and for all executions |
| C72 | `Race`, `RaceProps`: accesses and synchronisation of all threads, happens before | invariant over all interleavings (known events, ownership, guards), violations by execution |
| C73 | `UaLoad`, `UaLoadProps`, `UaLoadRuns`: number of messages between the components, on the whole stack | prices of messages paid by events, summed over histories; violation by execution |
| C74 | `UaStd` (all encodings of the standard), `UaStdLaws`, `UaStdNull`, `UaStdProps` | relation between values and bytes, the decoder accepts or throws; reused in all theorems about requests |
| C75 | `ModbusStandard` (requests and answers of the Modbus standard as bytes), `ModbusStandardProps` | case analysis over the functions, on top of C12, C17, C67 |
| C76 | `ModbusTime`, `UaTime` (events with times, times at which timers are due), `ModbusTimeProps` | invariant that no due time is later than the last start, induction over timed histories |
| C77 | `Stream` (what the kernel took, what has arrived, what was read, pending event), `StreamProps` | invariant that unread bytes have a pending event, induction over interleavings of arrivals and events |
| C78 | `UaDialogue` (`assemble`: which messages a sequence of chunks carries) | corollary of the single exchanges of C66, for every chunk type |
| C79 | `UaDialogue` (`Plan`: trees of requests and answers; `Know`: what a client knows; `play`) | induction over plans; C66 for one exchange, C40 for the number of free sessions |
| C80 | `UaClients` (`World`: the clients and the server; `Apart`; `makes`, `together`: interleaved moves) | invariant (`Inv`): where the request of each client is, and that the mailbox is a merge of their messages; a measure on the position in the mailbox; induction over plans for the end |
| C81 | `UaVisits` (`Visit`, `Fine`, `Attended`: what a client does and sees from accept to release) | runs of accept, hello, close and hang-up composed with C66 and the dialogue of C79; the numbers of free identifiers are compared by the sets of connections with a link and of open sessions |
| C82 | `UaFoot` (what a step of another connection, channel or session may touch), `UaStrangers` (`Scene`, `Allowed`, `Happens`) | the invariant of C80 for one client, kept by steps of others because these touch neither its connection nor its channel nor who holds its sessions; the measure of C80 over a mailbox of 64 |
| C83 | `Program` (all components with their mailboxes, the routing of C05 and the two messages of `main`), `ProgramProps` (`Reach`, `Acting`, `Settled`, `Fair`) | the program is simulated by four small views (one for each OPC UA component, one for Modbus), whose reachable sets the kernel computes, with bounds for the mailboxes (`ProgramRoom`); ranks on the views for the liveness claims |
| C84 | `ModbusNet` (`Dispatcher` and `Ctl` with the two mailboxes between them; specification: `Job`, `told`, `Scene`, `Meanwhile`), `ModbusNetProps`, `ModbusNetRuns` | frame lemma for events that are not the master's, four stages of the master's request as an invariant, position in the mailboxes as a measure for the answer; the memory is the replay of C61 |
| C85 | `UaServiceTable` (`Table`, `Served`) | simulation of the component with the map by the component with the fixed assignment, both ways; invariant on the entries; induction on the number of requests for the violation |
| C86 | `ModbusLoad` (`Net.keys`, `Patient`, `Calm`, `Linked`) | invariant: the sessions of the messages under way are distinct, wait and are open; count of links and started sessions; pigeonhole |
| C87 | `ModbusPeers`, `ModbusFrame` (`Firm`, `Small`, `Suits`, `Tame`, `Solid`) | invariant of sessions, requests and answers under way; every event of the component and every answer ends normally; the controller survives a request iff it is in range |
| C88 | `UaDemand`, `UaDemandProps` (`Meter`, `Metered`, `Fair`, `Asks`) | every decoder with its requests for memory visible; by composition: a decoder that returns has read more bytes than it asked for elements, refusal only throws; lower bounds for each message |
| C89 | `UaSurvive`, `UaSurviveProps` (`Tot`, `Harmless`, `Tame`, `Solid`) | total triples for every handler of the three server components (never undefined, never terminating), joined by an invariant about sizes and identifiers of the messages between them; counterexamples for each condition |
| C90 | `UaBlind`, `UaBlindProps` (`Sim`, `Twins`, `Whole`, `Plain`) | a relation between two runs that differ in uninitialised memory, kept by every handler and every delivery; what the peers saw is the same on both sides; counterexamples that compute the disclosed bytes |
| C91 | `ModbusBlind`, `ModbusBlindProps` (`Twin`, `Twins`, `Served`) | a relation between two sessions (received bytes agree; once a request was forwarded, also the first 12 bytes of the buffers and the fields that answers are made of), kept by every event; counterexamples for all memories |
| C92 | `ModbusClientBlind`, `ModbusClientBlindProps` (`Pair`, `Like`, `Clear`, `Stub`), `ModbusLocal` (local variables, also for C91) | a relation between two clients (all equal but the bytes that have not been received), kept by every event; what is reported as a function of the buffer (`verdict`); counterexamples for all requests and stubs and for all memories |
| C93 | `Ready`, `ReadyProps`, `ReadyEnd`, `UaReady`, `ModbusReady` (`Loop`, `Turn`, `scan`, `turn`, `Stuck`, `Knocked`, `BadHello`) | the ready list of the kernel as a queue, ten events a turn; the place of a descriptor in the queue falls by ten each turn; an invariant (the acceptor stays in front) shows the deaf reactor; instances for every start state of the OPC UA server and of a Modbus server |
| C94 | `UaHeirs`, `UaHeirsProps` (`rank`, `Within`, `Names`, `Turns`, `heir`) | an invariant of the stack: every identifier of a connection that a message under way names is in use or far behind in the queue of free identifiers, as far as the message has stations to go; executions of a server with 32 clients |
| C95 | `UaHandshake`, `UaPeerLimits` (`Primed`, `awaited`, `Shaken`, `Mute`, `Waits`) | an invariant of the log over all histories in the program logic of `UaConnectionProps`, also through exceptions; what one event may add to the log; the two ends composed for all cuts |
| C96 | `UaAdmission` (`begun`, `admissions`, `Taken`, `sockets`, `fresh`, `Later`, `Stranded`) | what one accept does, computed; a count that no other operation changes, carried through every function; an invariant over whatever follows a failed start |
| C97 | `ModbusReuse`, `UaReuse` (`Visit`, `Orderly`, `written`, `swap`, `Continues`, `Resumes`) | the relations between two runs of C90 and C91, started from an object that has been used and one that has not; counterexamples with two peers of one object |
| C98 | `UaGreeting` (`Greet`, `OneChunk`, `lettered`) | automaton over the log of a connection, invariant of all histories; the log of every event handler step by step; counterexample for all letters |
| C99 | `UaOrphans` (`Orphan`, `Sequel`, `Strangers`), `UaOrphanRuns`, `UaHeld` (`Orderly`, `Held`) | invariant of the three components over orderly histories; invariant of a channel that no connection has, over every later history; induction over the renewals; histories evaluated by the kernel |
| C100 | `UaLimits`, `UaPeerLimits` (`Agreed`, `acknowledge`, `Holding`, `Dropped`) | consequence of the automaton of C98; induction over the pieces of a chunk |
| C101 | `UaLimits`, `UaPeerLimits` (`IsError`, `Dropped`) | consequence of the automaton of C98; one step |
| C102 | `UaLifetime`, `UaPeerLimits` (`Expired`) | composition of C66 and C79, in the library of C44 and C108, under arbitrary clocks |
| C103 | `UaWrap` (`MayFollow`) | consequence of C34 and C33; one step of the channel for the refused numbers |
| C104 | `UaNodes`: attributes and node classes (used by no other file yet) | induction over sequences of operations against a small table of the standard |
| C105 | `UaPeerForeign` (`Mine`) | consequences of C33 and C44 for every header; one step for the refused ones |
| C106 | `UaFault` (`CanBe`, over the logs of C39 and C40), `UaRefused` (the whole server) | case distinction over the requests; the two theorems cover all well formed requests that name a session of the pool |
| C107 | `UaFault` (`IsAt`, `Usable`), `Controller`, `LinkAddr` | one step of the service component; the address from C60 |
| C108 | `UaPeerTalk` (`Turn`, `Seen`, over the log of C33) | induction over the turns; one step each from the model, the renewal from C44 |
| C109 | `UaMeet` (`Net`, `Meeting`, over the logs of C33 and C58) | the steps of both models with each other's bytes; induction over the pieces and over the meetings |
| C110 | `UaCaller` (`Net`, `Dial`, `Calls`, over the logs of C58 and C66) | the client's steps of C109 with the program's of C66 and C81; induction over the pieces (`feed_keeps`) and over the calls |
| C111 | `ModbusRecover` (`calm`: what happens when connections are accepted and nothing arrives) | a distance that every such event makes smaller; the accounts of C14; the exchange of C67 |
| C112 | `ModbusOnce` (`calls`, `sent`, `frameFor`) | invariant: what was sent, followed by what is stored and not sent, is a sublist of what was given; the last frame belongs to the oldest stored request while its answer is awaited |
| C113 | `ModbusRevive` (`lull`, `silence`) | each expiration lowers the rank of its session; invariants `Safe`, `Whole` of C18; C111 and C67 |
| C114 | `UaRevive` (`Hush`, `Still`) | invariant `Fading` along every silent path, with a measure that each step lowers; C36, C38, C81, C89, C99 |
| C115 | `UaReturn` | the invariants of C56 and C58 at the moment the timer runs out, composed with C109, C110 and C114 |

## Modules and the code they model

Generated from the citations in the modules.

| Module | Sources |
|---|---|
| `AduLayout` | common/msg: MsgModbusClientAduReq.hpp; common/utils: MemUtils.hpp; controller/modbus: ModbusTestController.cpp |
| `AduStorage` | modbus/client: AduRequest.hpp, ModbusAduStorage.cpp, ModbusAduStorage.hpp |
| `Components` | modbus: ModbusComponent.cpp; ua/securechannel: UaSecureChannelComponent.cpp; ua/service: UaServiceComponent.cpp; ua/transport: UaTransportComponent.cpp |
| `Controller` | common/msg: MsgModbusConfigReq.hpp; common/reactor: Reactor.cpp; controller: ControllerComponent.cpp, ControllerComponent.hpp, ControllerSender.hpp; controller/modbus: ModbusTestConfigure.cpp, ModbusTestController.cpp, ModbusTestController.hpp, ModbusTestFsm.cpp, ModbusTestFsm.hpp, ModbusTestInit.cpp, ModbusTestRun.cpp, ModbusTestSetup.cpp, ModbusTestState.hpp; controller/ua: UaController.cpp, UaControllerInit.cpp, UaControllerInit.hpp, UaControllerInited.cpp, UaControllerInited.hpp, UaControllerState.hpp |
| `Dispatch` | .: Deployer.cpp; common/reactor: Acceptor.cpp, EntityPool.hpp, Epoll.cpp, Epoll.hpp, Link.cpp, Link.hpp, LinkHandler.hpp, Reactor.cpp, Timer.cpp, Timer.hpp, TimerHandler.hpp |
| `Fsm` | common/utils: FsmBase.hpp; modbus/client: ModbusClientFsm.hpp |
| `Lifecycle` | .: Deployer.cpp, main.cpp; common/reactor: Epoll.cpp, Epoll.hpp, Reactor.cpp, Reactor.hpp, ReactorManager.cpp, ReactorManager.hpp, Thread.cpp |
| `LinkAddr` | common/reactor/types: LinkAddr.hpp |
| `Log` | common/logger: Logger.cpp, Logger.hpp; common/msg/types: ModbusError.hpp, ModbusFunction.hpp, UaSecMsgType.hpp; common/reactor: Reactor.cpp; common/ua/protocols/connection: ClientConnection.cpp, ServerConnection.cpp; common/ua/protocols/secure: OpcUaClientSecureChannel.cpp, OpcUaServerSecureChannel.cpp; controller/ua: UaController.cpp; modbus: PduBuffer.hpp; ua/securechannel: UaSecureChannel.cpp; ua/securechannel/channel: UaServerSecureChannel.cpp; ua/service/session: UaSession.cpp, UaSessionService.cpp; ua/transport/server: UaTcpConnection.cpp, UaTcpServer.cpp |
| `LogSites` | .: Deployer.cpp; common/reactor: Acceptor.cpp, EntityPool.hpp, Epoll.cpp, Event.cpp, Link.cpp, Reactor.cpp, ReactorManager.cpp, SenderBase.hpp, Thread.cpp, Timer.cpp; common/ua/common: OpcUaBinaryCodec.cpp, UaEntityPool.hpp; common/ua/protocols/connection: ClientConnection.cpp, ClientConnectionConnecting.cpp, ClientConnectionState.hpp, OpcUaConnection.cpp, ServerConnection.cpp, ServerConnectionConnecting.cpp, ServerConnectionReceiveHello.cpp, ServerConnectionState.hpp; common/ua/protocols/secure: OpcUaClientSecureChannel.cpp, OpcUaClientSecureChannelConnecting.cpp, OpcUaClientSecureChannelState.hpp, OpcUaServerSecureChannel.cpp, OpcUaServerSecureChannelState.hpp; common/utils: FsmBase.hpp; controller: ControllerComponent.cpp; controller/modbus: ModbusTestController.cpp, ModbusTestFsm.hpp, ModbusTestState.hpp; controller/ua: UaControllerState.hpp; modbus: Modbus.cpp, ModbusCodec.cpp, ModbusComponent.cpp; modbus/client: ModbusAduStorage.cpp, ModbusClient.cpp, ModbusClientConnected.cpp, ModbusClientFsm.hpp, ModbusClientReceive.cpp, ModbusClientSend.cpp, ModbusClientState.hpp; modbus/server: ModbusServer.cpp, ModbusSessionPool.cpp; modbus/server/session: ModbusSession.cpp, ModbusSessionConnected.cpp, ModbusSessionFsm.hpp, ModbusSessionState.hpp, ModbusSessionWaitModbusAduRsp.cpp; ua/securechannel: UaSecureChannel.cpp, UaSecureChannelComponent.cpp; ua/securechannel/channel: UaServerSecureChannel.cpp, UaServerSecureChannelState.hpp; ua/service: UaService.cpp, UaServiceComponent.cpp; ua/service/session: UaSession.cpp, UaSessionService.cpp, UaSessionState.hpp; ua/transport: UaTransportComponent.cpp; ua/transport/server: UaTcpConnection.cpp, UaTcpConnectionState.hpp, UaTcpServer.cpp |
| `ModbusClient` | common/msg: MsgModbusClientAduRsp.hpp; common/reactor: Link.cpp, Reactor.cpp, Timer.cpp; modbus/client: AduRespond.hpp, ModbusClient.cpp, ModbusClient.hpp, ModbusClientBackoff.cpp, ModbusClientConnect.cpp, ModbusClientConnected.cpp, ModbusClientFsm.cpp, ModbusClientFsm.hpp, ModbusClientInit.cpp, ModbusClientReceive.cpp, ModbusClientSend.cpp, ModbusClientState.hpp |
| `ModbusCodec` | common/msg/types: ModbusError.hpp, ModbusFunction.hpp; modbus: ModbusCodec.cpp, ModbusCodec.hpp, ModbusDefs.hpp, PduBuffer.hpp; modbus/client: AduRequest.hpp, AduRespond.hpp |
| `ModbusDispatch` | common/msg: MsgModbusConfigReq.hpp; common/reactor: Acceptor.cpp, Reactor.cpp; modbus: Modbus.cpp, Modbus.hpp; modbus/server: ModbusServer.cpp |
| `ModbusLoad` | common/reactor: MsgMemStorage.cpp, Reactor.cpp; modbus: Modbus.cpp; modbus/server/session: ModbusSessionWaitModbusAduRsp.cpp |
| `ModbusLocal` | modbus/client: ModbusClient.cpp; modbus/server/session: ModbusSession.cpp |
| `ModbusNet` | .: Deployer.cpp; common/msg: MsgModbusAduReq.hpp, MsgModbusAduRsp.hpp; common/reactor: MsgMemStorage.cpp, Reactor.cpp; controller/modbus: ModbusTestController.cpp; modbus: Modbus.cpp; modbus/server/session: ModbusSession.cpp |
| `ModbusReady` | common/reactor: Acceptor.cpp, EntityPool.hpp, Event.cpp, Link.cpp, Timer.cpp; modbus/server: ModbusServer.cpp |
| `ModbusReuse` | modbus/server: ModbusServer.cpp; modbus/server/session: ModbusSession.cpp |
| `ModbusSession` | common/msg: MsgModbusAduReq.hpp, MsgModbusAduRsp.hpp; common/reactor: Acceptor.cpp, EntityPool.hpp, Link.cpp, Reactor.cpp; modbus/client: AduRequest.hpp; modbus/server: ModbusServer.cpp, ModbusServer.hpp, ModbusSessionPool.cpp; modbus/server/session: ModbusSession.cpp, ModbusSession.hpp, ModbusSessionConnected.cpp, ModbusSessionFsm.cpp, ModbusSessionFsm.hpp, ModbusSessionInit.cpp, ModbusSessionState.hpp, ModbusSessionWaitModbusAduRsp.cpp |
| `ModbusTime` | modbus/client: ModbusClient.cpp, ModbusClient.hpp, ModbusClientBackoff.cpp, ModbusClientConnect.cpp, ModbusClientReceive.cpp, ModbusClientSend.cpp; modbus/server/session: ModbusSession.cpp, ModbusSession.hpp, ModbusSessionConnected.cpp, ModbusSessionWaitModbusAduRsp.cpp |
| `MsgStorage` | common/reactor: MsgMemStorage.cpp, MsgMemStorage.hpp, Reactor.cpp |
| `Pool` | common/reactor: EntityPool.hpp; common/ua/common: UaEntityPool.hpp; modbus/server: ModbusSessionPool.cpp |
| `Program` | .: Deployer.cpp, main.cpp; common/msg: MsgModbusConfigReq.hpp; common/reactor: Acceptor.cpp, Reactor.cpp, ReactorManager.cpp; controller: ControllerComponent.cpp, ControllerSender.hpp; modbus: ModbusComponent.cpp, ModbusSender.hpp; ua/securechannel: UaSecureChannel.cpp, UaSecureChannelComponent.cpp; ua/service: UaService.cpp, UaServiceComponent.cpp; ua/transport: UaTransport.cpp, UaTransportComponent.cpp; ua/transport/server: UaTcpServer.cpp, UaTcpServer.hpp |
| `Queue` | common/utils: Queue.hpp |
| `Race` | .: Deployer.cpp, main.cpp; common/logger: Logger.cpp, Logger.hpp; common/reactor: Epoll.cpp, MsgMemStorage.cpp, MsgMemStorage.hpp, Reactor.cpp, Reactor.hpp, ReactorBase.hpp, ReactorManager.cpp, ReactorManager.hpp, SenderBase.hpp, Thread.cpp, Thread.hpp; common/utils: Singleton.hpp |
| `Reactor` | common/reactor: Event.cpp, Reactor.cpp, Reactor.hpp |
| `Ready` | common/reactor: Acceptor.cpp, EntityPool.hpp, Epoll.cpp, Epoll.hpp, Event.cpp, Link.cpp, Reactor.cpp, Timer.cpp |
| `ReadyEnd` | common/reactor: Epoll.cpp, Reactor.cpp |
| `Routing` | .: Deployer.cpp; common: CompDefs.hpp, MsgDefs.hpp; common/reactor: Reactor.cpp, ReactorManager.cpp; connector: ConnectorSimple.cpp; controller: ControllerComponent.cpp; detector: Detector.cpp; modbus: ModbusComponent.cpp; ua/securechannel: UaSecureChannelComponent.cpp; ua/service: UaServiceComponent.cpp; ua/transport: UaTransportComponent.cpp |
| `SelfTest` | .: Deployer.cpp, main.cpp; controller: ControllerSender.hpp; controller/modbus: ModbusTestController.cpp; modbus: Modbus.cpp, ModbusComponent.cpp, ModbusSender.hpp; modbus/client: ModbusClient.hpp |
| `StateExec` | common/reactor: Reactor.cpp |
| `Stream` | common/reactor: Acceptor.cpp, Epoll.cpp, Link.cpp; common/ua/protocols/connection: OpcUaConnection.cpp; modbus/server/session: ModbusSession.cpp; ua/transport/server: UaTcpConnection.cpp |
| `TimeUtils` | common/utils: TimeUtils.hpp |
| `Timer` | common/reactor: Timer.cpp; common/ua/protocols/connection: ClientConnection.hpp, ServerConnection.hpp; controller/modbus: ModbusTestController.hpp; modbus/client: ModbusClient.hpp; modbus/server/session: ModbusSession.hpp; ua/transport/server: UaTcpDefs.hpp |
| `UaAccept` | ua/transport/server: UaTcpServer.cpp |
| `UaAdmission` | ua/transport/server: UaTcpServer.cpp |
| `UaBlind` | ua/securechannel/channel: UaServerSecureChannel.cpp; ua/service: UaService.cpp; ua/transport/server: UaTcpConnection.hpp |
| `UaBuffer` | common/ua/common: OpcUaBinaryCodec.cpp, OpcUaBinaryCodec.hpp, OpcUaSduBuffer.cpp, OpcUaSduBuffer.hpp |
| `UaChannel` | common/msg/types: UaEncodedMessageHdr.hpp, UaSessionId.hpp; common/reactor: Reactor.cpp; common/reactor/types: MaxMsgSize.hpp; ua/securechannel: UaSecureChannel.cpp; ua/securechannel/channel: UaServerSecureChannel.cpp, UaServerSecureChannel.hpp, UaServerSecureChannelEstablished.cpp, UaServerSecureChannelInit.cpp, UaServerSecureChannelState.hpp |
| `UaClient` | common/reactor: Link.cpp; common/ua/protocols: OpcUaProtocolDefs.hpp; common/ua/protocols/connection: ClientConnectionConnected.cpp, ClientConnectionConnecting.cpp, ClientConnectionReceiveAck.cpp; common/ua/protocols/secure: OpcUaClientSecureChannel.cpp, OpcUaClientSecureChannel.hpp, OpcUaClientSecureChannelConnecting.cpp, OpcUaClientSecureChannelEstablished.cpp, OpcUaClientSecureChannelInit.cpp, OpcUaClientSecureChannelReceiveOpenRsp.cpp, OpcUaSecureChannel.cpp, OpcUaSecureChannel.hpp; common/utils: FsmBase.hpp |
| `UaClientAnswers` | common/ua/protocols/secure: OpcUaClientSecureChannel.cpp |
| `UaCodec` | common/ua/common: OpcUaBinaryCodec.cpp, OpcUaBinaryCodec.hpp; common/ua/common/types: ByteString.hpp, DataType.hpp, DataValue.hpp, DateTime.hpp, DiagnosticInfo.hpp, Double.hpp, ExpandedNodeId.hpp, ExtensionObject.hpp, Float.hpp, Guid.hpp, LocalizedText.hpp, NodeId.hpp, QualifiedName.hpp, StatusCode.hpp, String.hpp, StructType.hpp, Variant.hpp, XmlElement.hpp |
| `UaConnection` | common/reactor: Link.cpp, Reactor.cpp, Timer.cpp; common/ua/common/types: MessageHeader.hpp; common/ua/protocols/connection: ClientConnection.cpp, ClientConnectionConnected.cpp, ClientConnectionConnecting.cpp, ClientConnectionInit.cpp, ClientConnectionReceiveAck.cpp, OpcUaConnection.cpp, OpcUaConnection.hpp, ServerConnection.cpp, ServerConnectionConnected.cpp, ServerConnectionConnecting.cpp, ServerConnectionInit.cpp, ServerConnectionReceiveHello.cpp; common/utils: FsmBase.hpp |
| `UaDemand` | common/ua/common: OpcUaBinaryCodec.cpp, OpcUaBinaryCodec.hpp; common/ua/common/types: Variant.hpp |
| `UaEntity` | common/ua/common: UaEntityPool.hpp |
| `UaFault` | common/ua/common/types: DataType.hpp; ua/service: UaService.cpp; ua/service/discovery: UaGetEndpoints.cpp; ua/service/session: UaSession.cpp, UaSessionService.cpp, UaSessionState.hpp |
| `UaFraming` | common/reactor: Link.cpp; common/ua/common/types: MessageHeader.hpp; common/ua/protocols/connection: ClientConnection.cpp, OpcUaConnection.cpp, OpcUaConnection.hpp, ServerConnection.cpp; ua/transport/server: UaTcpConnection.cpp, UaTcpConnection.hpp, UaTcpDefs.hpp |
| `UaGreeting` | ua/transport/server: UaTcpConnection.cpp, UaTcpConnectionConnected.cpp, UaTcpConnectionReceiveHello.cpp |
| `UaHeirs` | common/ua/common: UaEntityPool.hpp |
| `UaLifetime` | ua/securechannel/channel: UaServerSecureChannel.cpp |
| `UaLimits` | ua/transport/server: UaTcpConnection.cpp, UaTcpDefs.hpp |
| `UaLoadRuns` | common/reactor: Reactor.cpp |
| `UaMessages` | common/ua/common: OpcUaBinaryCodec.cpp, OpcUaBinaryCodec.hpp; common/ua/common/msg: AcknowledgeMessage.hpp, ErrorMessage.hpp, HelloMessage.hpp, ReverseHelloMessage.hpp, UaActivateSessionReq.hpp, UaActivateSessionRsp.hpp, UaCloseSecureChannelReq.hpp, UaCloseSecureChannelRsp.hpp, UaCloseSessionReq.hpp, UaCloseSessionRsp.hpp, UaCreateSessionReq.hpp, UaCreateSessionRsp.hpp, UaGetEndpointsReq.hpp, UaGetEndpointsRsp.hpp, UaMsgCont.hpp, UaOpenSecureChannelReq.hpp, UaOpenSecureChannelRsp.hpp, UaReadReq.hpp, UaReadRsp.hpp; common/ua/common/types: MessageHeader.hpp, ReadValueId.hpp, UaApplicationDescription.hpp, UaChannelSecurityToken.hpp, UaEndpointDescription.hpp, UaMessageHeader.hpp, UaRequestHeader.hpp, UaResponseHeader.hpp, UaSecurityHeader.hpp, UaSequenceHeader.hpp, UaSignatureData.hpp, UaUserTokenPolicy.hpp |
| `UaNodes` | common/ua/common: Attribute.hpp, NodeClassBase.hpp, NodeClassDataType.hpp, NodeClassObject.hpp, NodeClassObjectType.hpp, NodeClassReferenceType.hpp, NodeClassVariable.hpp; common/ua/common/types: DataType.hpp, NodeClass.hpp, RolePermissionType.hpp |
| `UaOrphans` | ua/securechannel/channel: UaServerSecureChannelEstablished.cpp; ua/transport/server: UaTcpConnection.cpp |
| `UaPeer` | common/reactor: Link.cpp; common/ua/common/types: UaMessageHeader.hpp; common/ua/protocols/connection: ServerConnectionConnected.cpp, ServerConnectionReceiveHello.cpp, ServerConnectionState.hpp; common/ua/protocols/secure: OpcUaSecureChannel.cpp, OpcUaSecureChannel.hpp, OpcUaServerSecureChannel.cpp, OpcUaServerSecureChannel.hpp, OpcUaServerSecureChannelConnecting.cpp, OpcUaServerSecureChannelEstablished.cpp, OpcUaServerSecureChannelInit.cpp, OpcUaServerSecureChannelReceiveOpenReq.cpp; common/utils: FsmBase.hpp |
| `UaPeerForeign` | common/ua/protocols/secure: OpcUaServerSecureChannel.cpp |
| `UaPeerLimits` | common/ua/protocols/connection: ServerConnection.cpp; common/ua/protocols/secure: OpcUaServerSecureChannel.cpp |
| `UaPeerTalk` | common/ua/protocols/secure: OpcUaServerSecureChannel.cpp |
| `UaPool` | common/ua/common: UaEntityPool.hpp |
| `UaReady` | .: Deployer.cpp; common/reactor: Acceptor.cpp, EntityPool.hpp, Event.cpp, Link.cpp, Reactor.cpp, Timer.cpp; ua/transport/server: UaTcpServer.cpp |
| `UaReuse` | ua/securechannel/channel: UaServerSecureChannel.cpp; ua/transport/server: UaTcpConnection.cpp |
| `UaServiceTable` | ua/service: UaService.cpp, UaService.hpp, UaServiceInterface.hpp; ua/service/attribute: UaAttributeService.cpp, UaRead.cpp; ua/service/discovery: UaDiscoveryService.cpp, UaGetEndpoints.cpp; ua/service/session: UaActivateSession.cpp, UaCloseSession.cpp, UaCreateSession.cpp, UaSessionService.cpp |
| `UaSession` | common/reactor/types: MaxMsgSize.hpp; common/ua/common/types: DataType.hpp; ua/service: UaService.cpp; ua/service/attribute: UaAttributeService.cpp, UaRead.cpp; ua/service/discovery: UaGetEndpoints.cpp; ua/service/session: UaActivateSession.cpp, UaCloseSession.cpp, UaCreateSession.cpp, UaSession.cpp, UaSession.hpp, UaSessionActivated.cpp, UaSessionCreated.cpp, UaSessionInit.cpp, UaSessionService.cpp, UaSessionService.hpp, UaSessionState.hpp |
| `UaShortChunk` | ua/securechannel/channel: UaServerSecureChannel.cpp; ua/transport/server: UaTcpConnection.cpp |
| `UaStack` | .: Deployer.cpp, main.cpp; common/msg: MsgUaAssociateSecureChannelReq.hpp, MsgUaCloseSecureChannelReq.hpp, MsgUaCloseSecureChannelRsp.hpp, MsgUaConnectionReleaseInd.hpp, MsgUaConnectionReleaseReq.hpp, MsgUaEncodedMessageReceiveInd.hpp, MsgUaEncodedMessageSendReq.hpp, MsgUaOpenSecureChannelReq.hpp, MsgUaOpenSecureChannelRsp.hpp, MsgUaSecuredMessageReceiveInd.hpp, MsgUaSecuredMessageSendReq.hpp; common/reactor: MsgMemStorage.cpp, Reactor.cpp; common/reactor/types: MaxMsgSize.hpp; ua/securechannel: UaSecureChannel.cpp; ua/securechannel/channel: UaServerSecureChannel.cpp; ua/service: UaService.cpp; ua/service/attribute: UaAttributeService.cpp; ua/service/discovery: UaGetEndpoints.cpp; ua/service/session: UaSession.cpp; ua/transport: UaTransport.cpp; ua/transport/server: UaTcpConnection.cpp |
| `UaTime` | ua/transport/server: UaTcpConnection.cpp, UaTcpConnectionConnected.cpp, UaTcpConnectionReceiveHello.cpp, UaTcpDefs.hpp, UaTcpServer.cpp |
| `UaTransport` | common/msg/types: UaSecMsgType.hpp; common/reactor: Acceptor.cpp, Link.cpp, Reactor.cpp, Timer.cpp; common/reactor/types: MaxMsgSize.hpp; common/ua/common/types: UaMessageHeader.hpp; common/utils: FsmBase.hpp; ua/transport/server: UaTcpConnection.cpp, UaTcpConnection.hpp, UaTcpConnectionConnected.cpp, UaTcpConnectionInit.cpp, UaTcpConnectionReceiveHello.cpp, UaTcpConnectionState.hpp, UaTcpServer.cpp, UaTcpServer.hpp |
| `UaWrap` | ua/securechannel/channel: UaServerSecureChannel.cpp |

Modules named `...Props`, `...Lemmas`, `...Laws` or after an aspect (`DispatchOwn`, `DispatchCalm`, `ControllerLife`,
`ControllerServe`, `UaPeerLife`, `UaPeerAnswers`, `UaClientAnswers`) hold specifications and proofs.

## Not modelled

* `Logger::dispatch` (time, file name and `printf` under a mutex).
* The attributes of threads: `Thread.cpp` asks for the policy `SCHED_FIFO`, but does not set
  `PTHREAD_EXPLICIT_SCHED`, so the request has no effect on Linux.
* The C++ standard library, `epoll`, `timerfd`, `eventfd` and sockets: the model
  contains only what they are specified to do (edge-triggered events, numbers of
  closed descriptors being reused, partial reads and writes; `Stream.lean` has the byte
  streams themselves). A received piece,
  a failed call or an event at any time is an input of the model, so theorems hold
  for everything the peer and the kernel may do unless a hypothesis says otherwise.
* Destruction of a `std::function` while it executes (a handler that releases its
  own object): the model lets the handler go on.  By reading: every handler is a lambda
  whose last act is the one call it makes, so nothing of it is read afterwards.
* The ready list of `epoll` in `Ready.lean` follows Linux (first come, first served; a
  level-triggered descriptor goes back to the end when it is reported).  Everywhere
  else events come in any order.
* Unit tests, mocks, headers that only declare what the `.cpp` files define.
* Files that only construct or forward, and are therefore not cited: `ModbusClientFsm.cpp`, `ModbusSessionFsm.cpp`,
  `ModbusTestFsm.cpp` (constructors and getters), `ModbusClientInit.cpp` (two forwarding handlers of the idle state, part of
  `ModbusClient`), `UaTransport.cpp` (forwards to `UaTcpServer`), `UaDiscoveryService.cpp` (registers one service).

## Platform assumptions

`int` has 32 bits, `long` and `std::size_t` 64, plain `char` is signed, the byte order
is little-endian, signed overflow is undefined. These are the ones of the x86-64 Linux
target. For C76: timers do not expire early, and the handler of a timer has run at most
`late` microseconds after the time it is due, where `late` is any number.

## Trusted base

* The Lean 4.33.0 kernel. No `sorry`, `admit`, `native_decide`, `bv_decide` or own
  axioms are used; `decide +kernel` is evaluated by the kernel.
* The reading of the C++ sources: that each definition says what the cited lines do.
* What the Modbus and OPC UA standards say is written down from memory (there was no network); `UaWire.lean` gives one encoding of
  each value, `UaStd.lean` all that the standard allows.
* The statement of each property. Specifications stand next to the theorems and do not
  use helper functions of the model beyond its observable events, except where the
  theorem's comment says so.

### Axioms each theorem of the manifest depends on

Output of `#print axioms`, grouped; theorem names without `Uscada.`.

* no axioms (8): Queue.C01_capacity_zero_ub, Queue.C01_overfull_push_violated, Pool.C02_double_release_violated, Ua.C24_numeric_size, Fsm.C41_exit_then_enter, Fsm.C41_same_state, Dispatch.C62_timer_leak_violated, Timer.C69_overflow_violated

* `propext` (26): Queue.C01_underflow_pop_violated, MsgStorage.C03_oversize_message_violated, Routing.C05_answers_partial, Routing.C05_answers_violated, Routing.C05_delivery_partial, Routing.C05_first_registration_wins, LinkAddr.C06_addr_violated, LinkAddr.C06_port_violated, Ua.Nodes.C104_reads, Modbus.Client.C112_answered_then_sent_violated, Modbus.C11_stale_error_code_violated, Modbus.Client.C12_client_cut_answer_violated, Modbus.Client.C14_duplicate_answer_violated, Modbus.Client.C14_lost_answer_violated, Modbus.Client.C16_error_zero_violated, Modbus.Client.C16_out_of_bounds_violated, Modbus.Client.C16_stale_answer_violated, Fsm.C41_transit_legal, Controller.C61_shared_violated, Dispatch.C62_accept_violated, Dispatch.C63_both_ready_violated, Dispatch.C63_released_timer_violated, Dispatch.C63_reopened_violated, Dispatch.C63_stale_violated, Lifecycle.C71_late_event_violated, Lifecycle.C71_long_handler_violated

* `Quot.sound`, `propext` (118): Pool.C02_create_ok, Pool.C02_get_unchecked_ub, Reactor.C04_throwing_handler_violated, Routing.C05_send_routes, Modbus.C09_truncation_violated, Ua.Nodes.C104_class_violated, Ua.Nodes.C104_components, Ua.Nodes.C104_conforms_partial, Ua.Nodes.C104_lookup_violated, Ua.Nodes.C104_variable_violated, Modbus.Client.C112_success_from_peer, Modbus.Session.C12_coalesced_requests_violated, Modbus.Session.C12_cut_request_lost_violated, Modbus.Session.C17_long_answer_violated, Modbus.Session.C17_two_answers_violated, Modbus.Session.C17_wrong_slave_violated, Modbus.Server.C18_failed_accept_violated, Modbus.Server.C18_server_dead_violated, Modbus.Session.C19_leftovers_violated, Modbus.Session.C19_phantom_request_violated, Modbus.Dispatcher.C20_config_answer_missing_violated, Modbus.Dispatcher.C20_config_status_violated, Modbus.Dispatcher.C20_reconfigured_client_loses_requests_violated, Modbus.Dispatcher.C20_retry_terminates_violated, Components.C21_release_terminates_violated, Ua.C22_boolean, Ua.C22_byte, Ua.C22_sbyte, Ua.C25_position_violated, Ua.C26_extensionObject_empty_violated, Ua.C27_dimensions_violated, Ua.C27_expandedNodeId_violated, Ua.C27_xmlElement_violated, Ua.C28_empty_body_violated, Ua.C28_too_long_violated, Ua.C29_messageHeader_partial, Ua.C29_nodeId_partial, Ua.C29_readReq_partial, Ua.C29_string_partial, Ua.C29_within_partial, Ua.C31_close_in_success_violated, Ua.C31_connect_fails_violated, Ua.C31_reusable_partial, Ua.C31_timer_exhausted_violated, Ua.C32_data_after_success, Ua.C32_link_error_violated, Ua.C32_reconnect_violated, Ua.C32_remote_close_violated, Ua.Peer.C33_library_replay_violated, Ua.Peer.C33_library_short_violated, Ua.Channel.C33_short_violated, Ua.Channel.C34_first_violated, Ua.Peer.C34_library_gap_violated, Ua.Peer.C34_library_reuse_violated, Ua.Transport.C35_unasked_violated, Ua.Transport.C36_late_answer_violated, Ua.Transport.C36_nobody_accepted, Ua.Transport.C36_only_accepted, Ua.Transport.C36_second_open_violated, Ua.Transport.C36_timer_exhausted_violated, Time.C42_timestamp_monotone, Ua.C43_compare, Ua.C43_compare_equivalence, Ua.C43_diagnosticInfo_mask, Ua.C43_localizedText_mask, Ua.C43_mask, Ua.C43_variant_compare_violated, Ua.Peer.C44_library_handle_violated, Ua.C45_extracted, Ua.Channel.C46_channel_violated, Ua.Peer.C46_library_payload_violated, Ua.Transport.C46_transport_violated, Ua.C47_ack, Ua.C47_framing, Ua.Session.C54_alias_violated, Ua.Session.C54_dispatch_partial, Ua.Peer.C56_throwing_user_violated, Ua.Peer.C56_timer_exhausted_violated, Ua.Cli.C58_connect_fails_violated, Ua.Cli.C58_link_kept_violated, Ua.Cli.C58_stuck_violated, Ua.Cli.C58_throwing_user_violated, Controller.C60_only_counted_violated, Controller.C60_order_partial, Controller.C60_stop_configuring_violated, Controller.C60_stop_partial, Controller.C60_unknown_number_violated, Controller.C61_remote_violated, Dispatch.C62_timer_release_violated, SelfTest.C68_start, SelfTest.C68_unconnected, Timer.C69_exact_partial, Timer.C69_negative, Timer.C69_used, Lifecycle.C71_cpus, Lifecycle.C71_exception_violated, Ua.Stack.C73_pipelined_violated, Stream.C77_mixed_violated, Masters.C84_crossed_violated, Ua.Session.C85_keeps_violated, Masters.C86_passers_violated, Masters.C87_frame_violated, Masters.C87_leaving_violated, Ua.C88_refused_partial, Modbus.Blind.C91_controller, Heard.C93_arrivals_lost_violated, Heard.C93_deaf_violated, Heard.C93_end_is_last, Heard.C93_forgotten_violated, Modbus.Server.C93_modbus_drained_violated, Modbus.Server.C93_modbus_open_partial, Modbus.Server.C93_modbus_spins_violated, Ua.Transport.C93_occupied_violated, Ua.Transport.C96_only, Ua.Transport.C96_refused, Modbus.Reuse.C97_inherits_violated, Ua.Stack.C97_remains_violated, Ua.Stack.C99_session_violated

* `Classical.choice`, `Quot.sound`, `propext` (432): Queue.C01_queue_is_fifo, Pool.C02_identifiers_exclusive, MsgStorage.C03_mailbox_fifo_partial, MsgStorage.C03_reactor_mailbox_partial, Reactor.C04_acceptance, Reactor.C04_dispatch_in_order, Reactor.C04_never_stuck_partial, Reactor.C04_no_message_left_partial, LinkAddr.C06_addr_iff_partial, LinkAddr.C06_port_iff_partial, AduLayout.C07_fill_read_back, AduLayout.C07_items_disjoint, Modbus.C08_accepted_requests, Modbus.C08_request_roundtrip, Modbus.C09_bit_reads_unsupported, Modbus.C09_response_roundtrip_partial, Ua.Transport.C100_agree_partial, Ua.Transport.C100_agree_violated, Ua.Transport.C100_large_violated, Ua.C100_library_partial, Ua.C100_library_violated, Ua.Transport.C100_sent_partial, Ua.Session.C100_session_violated, Ua.Transport.C101_letters_violated, Ua.Peer.C101_library_violated, Ua.Transport.C101_never_violated, Ua.Stack.C102_expired_violated, Ua.Peer.C102_library_violated, Ua.Peer.C103_library_violated, Ua.Channel.C103_next_partial, Ua.Channel.C103_sent_partial, Ua.Channel.C103_wrap_violated, Ua.Peer.C105_foreign_violated, Ua.Peer.C105_refused_partial, Ua.Peer.C105_renewal_violated, Ua.Session.C106_answered_partial, Ua.Session.C106_silent_violated, Ua.Stack.C106_stack_violated, Ua.Session.C107_filter_violated, Ua.Session.C107_same_partial, Ua.Session.C107_unusable_violated, Ua.Peer.C108_life_partial, Ua.Peer.C108_pieces_partial, Ua.Peer.C108_pipelined_violated, Ua.Peer.C108_talk_partial, Ua.C109_again, Ua.C109_opens, Modbus.C10_request_frame, Modbus.C10_response_frame, Ua.C110_again, Ua.C110_opens, Modbus.Client.C111_aware_partial, Modbus.Client.C111_comes_back, Modbus.Client.C111_serves_again_partial, Modbus.Client.C112_sent_at_most_once, Modbus.Client.C112_sent_before_answered_partial, Modbus.Client.C112_success_was_sent_partial, Modbus.Server.C113_accepts_again_partial, Modbus.Server.C113_comes_back_partial, Modbus.Server.C113_lost_violated, Modbus.Server.C113_sessions_end, Modbus.Server.C113_together_partial, Ua.Stack.C114_channels_closed_partial, Ua.Stack.C114_comes_back_partial, Ua.Stack.C114_serves_again_partial, Ua.Stack.C114_sessions_violated, Ua.Stack.C114_silence_ends_partial, Ua.C115_client_back_partial, Ua.C115_dials_again_partial, Ua.C115_meets_again_partial, Ua.C115_server_back_partial, Ua.C115_waiting_violated, Modbus.C11_every_short_error_violated, Modbus.C11_request_determined, Modbus.C11_response_determined_partial, Modbus.Client.C12_client_bad_cut_fails, Modbus.Client.C12_client_safe_cuts_partial, Modbus.Session.C12_every_coalesced_violated, Modbus.Session.C12_session_any_cut, Modbus.AduStorage.C13_pending_requests_in_order, Modbus.Client.C14_exactly_once_partial, Modbus.Client.C14_only_submitted, Modbus.Client.C15_timers_answer_everything, Modbus.Client.C15_waiting_has_timer, Modbus.Client.C16_every_error_zero_violated, Modbus.Client.C16_success_matches_partial, Modbus.Session.C17_answers_match_partial, Modbus.Session.C17_at_most_one_answer_partial, Modbus.Session.C17_frames_only_for_answers, Modbus.Server.C18_every_failure_violated, Modbus.Server.C18_identifiers_not_shared, Modbus.Server.C18_resources_returned_partial, Modbus.Session.C19_request_is_frame_partial, Modbus.Dispatcher.C20_batch_dispatched, Modbus.Dispatcher.C20_config_answer_partial, Modbus.Dispatcher.C20_exactly_once_partial, Components.C21_channel_partial, Components.C21_modbus_partial, Components.C21_service_partial, Components.C21_transport_partial, Ua.C22_dateTime, Ua.C22_double, Ua.C22_float, Ua.C22_guid, Ua.C22_int16, Ua.C22_int32, Ua.C22_int64, Ua.C22_no_room_violated, Ua.C22_statusCode, Ua.C22_uint16, Ua.C22_uint32, Ua.C22_uint64, Ua.C23_byteString_partial, Ua.C23_long_string_violated, Ua.C23_string_partial, Ua.C24_nodeId, Ua.C24_unknown_encoding_violated, Ua.C25_decode, Ua.C25_plain_partial, Ua.C25_roundtrip_partial, Ua.C26_diagnosticInfo, Ua.C26_extensionObject_partial, Ua.C26_localizedText_empty, Ua.C26_localizedText_partial, Ua.C26_qualifiedName, Ua.C27_array_partial, Ua.C27_array_terminates_violated, Ua.C27_dataValue_partial, Ua.C27_int32_array, Ua.C27_null, Ua.C27_scalar_partial, Ua.C28_acknowledge, Ua.C28_activateSessionReq_partial, Ua.C28_activateSessionRsp_partial, Ua.C28_channelToken, Ua.C28_closeReq_partial, Ua.C28_closeRsp_partial, Ua.C28_closeSessionReq_partial, Ua.C28_closeSessionRsp_partial, Ua.C28_createSessionReq_partial, Ua.C28_createSessionRsp_partial, Ua.C28_error, Ua.C28_getEndpointsReq_partial, Ua.C28_getEndpointsRsp_partial, Ua.C28_hello, Ua.C28_messageHeader, Ua.C28_null_array_violated, Ua.C28_openReq_partial, Ua.C28_openRsp_partial, Ua.C28_open_frame_partial, Ua.C28_readReq_partial, Ua.C28_readRsp_partial, Ua.C28_requestHeader_partial, Ua.C28_responseHeader_partial, Ua.C28_reverseHello, Ua.C28_securityHeader, Ua.C28_sequenceHeader, Ua.C28_tokenHeader, Ua.C28_type_not_checked_violated, Ua.C28_uaMessageHeader, Ua.C29_every_stale_violated, Ua.C29_outside_array_violated, Ua.C29_stale_bytes_violated, Ua.C30_coalesced_violated, Ua.C30_connection_partial, Ua.C30_exact_partial, Ua.C30_framing_partial, Ua.C30_framing_violated, Ua.C30_stream_partial, Ua.C31_ends_idle_partial, Ua.C31_resources_partial, Ua.C32_one_end, Ua.C32_order_partial, Ua.Channel.C33_accepts, Ua.Channel.C33_fresh, Ua.Peer.C33_library_accepts, Ua.Peer.C33_library_partial, Ua.Channel.C34_consecutive, Ua.Channel.C34_first_partial, Ua.Peer.C34_library, Ua.Transport.C35_foreign_answer_ends, Ua.Transport.C35_foreign_chunk_ends, Ua.Transport.C35_foreign_ends, Ua.Transport.C35_own_traffic, Ua.Transport.C36_deadline_partial, Ua.Transport.C36_life, Ua.Transport.C36_read_error_ends, Ua.Transport.C36_request_ends, Ua.Transport.C36_resources_partial, Ua.Transport.C36_timeout_ends, Ua.Channel.C37_answers, Ua.Channel.C37_serves, Ua.Channel.C38_accepted_partial, Ua.Channel.C38_ends_partial, Ua.Channel.C38_foreign_close_violated, Ua.Channel.C38_foreign_message_violated, Ua.Channel.C38_foreign_release_violated, Ua.Session.C39_answers, Ua.Session.C39_refuses, Ua.Session.C39_serves, Ua.Session.C40_close, Ua.Session.C40_create, Ua.Session.C40_full, Ua.Session.C40_no_leak, Ua.Session.C40_paired, Time.C42_timestamp_correct, Ua.Channel.C44_close, Ua.Peer.C44_library_open_partial, Ua.Channel.C44_open, Ua.C45_acknowledge, Ua.C45_hello, Ua.C45_reverseHello, Ua.C45_secured, Ua.C45_secured_overflow, Ua.C45_sent, Ua.Channel.C46_channel_partial, Ua.Transport.C46_transport_partial, Ua.C47_hello_violated, Ua.Channel.C48_exhausted_violated, Ua.Channel.C48_malformed_violated, Ua.Channel.C48_open_not_free, Ua.Channel.C48_paired_partial, Ua.Channel.C49_bound, Ua.Session.C50_activate, Ua.Session.C50_answers, Ua.Session.C50_endpoints, Ua.Session.C51_exhausted_violated, Ua.Session.C51_survives_violated, Ua.Session.C52_close_violated, Ua.Session.C52_guessable_violated, Ua.Session.C52_takeover_violated, Ua.Session.C53_results_violated, Ua.Stack.C55_activate_remote_violated, Ua.Session.C55_activate_token_violated, Ua.Stack.C55_close_remote_violated, Ua.Session.C55_close_token_violated, Ua.Session.C55_defined_partial, Ua.Peer.C56_order_partial, Ua.Peer.C56_resources_partial, Ua.Peer.C56_send_before_open_violated, Ua.Peer.C56_timeout_partial, Ua.Peer.C57_addressed_partial, Ua.Cli.C58_accepts_partial, Ua.Cli.C58_data_ignored_violated, Ua.Cli.C58_in_use_partial, Ua.Cli.C58_misread_violated, Ua.Cli.C58_opens_with_server, Ua.Cli.C58_order_partial, Ua.Cli.C58_timeout_partial, Ua.C59_reception, Controller.C60_batch, Controller.C60_defined_partial, Controller.C60_stop_idle_violated, Controller.C60_verdict_partial, Controller.C61_range_violated, Controller.C61_served_partial, Dispatch.C62_held_partial, Dispatch.C62_owner, Dispatch.C62_pool_partial, Dispatch.C62_tidy_partial, Dispatch.C62_timer_release_partial, Dispatch.C63_link_state_partial, Dispatch.C63_meant_partial, Dispatch.C63_no_loss_partial, Dispatch.C63_timeout_partial, Ua.Stack.C64_message_violated, Ua.Stack.C64_open_chunk_violated, Ua.Stack.C64_slots_partial, Ua.Stack.C65_answers_partial, Ua.Stack.C65_numbers, Ua.Stack.C65_short_violated, Ua.Stack.C66_activate, Ua.Stack.C66_close, Ua.Stack.C66_create, Ua.Stack.C66_endpoints, Ua.Stack.C66_open, Ua.Stack.C66_read, Modbus.Exchange.C67_batch_partial, Modbus.Exchange.C67_bit_reads_violated, Modbus.Exchange.C67_exchange_partial, SelfTest.C68_alive, SelfTest.C68_answers, SelfTest.C68_mailboxes, SelfTest.C68_rounds, SelfTest.C68_succeeds, Timer.C69_limits_partial, Log.C70_default, Log.C70_fits, Log.C70_frames, Lifecycle.C71_ends, Lifecycle.C71_orderly_partial, Race.C72_deployed, Race.C72_destruction_violated, Race.C72_missing_component_violated, Race.C72_no_deadlock, Race.C72_no_race_partial, Race.C72_two_threads_violated, Ua.Stack.C73_drains, Ua.Stack.C73_few_partial, Ua.Stack.C73_patient_partial, Ua.Stack.C73_work, Ua.Session.C74_certificate_violated, Ua.C74_diagnosticInfo_violated, Ua.Session.C74_meaning, Ua.Stack.C74_null_remote_violated, Ua.Session.C74_null_violated, Ua.Session.C74_same_partial, Modbus.Standard.C75_bits_violated, Modbus.Standard.C75_client_coil_on_violated, Modbus.Standard.C75_client_deaf_violated, Modbus.Standard.C75_client_limits_violated, Modbus.Standard.C75_client_reports_partial, Modbus.Standard.C75_client_sends_partial, Modbus.Standard.C75_coil_on_violated, Modbus.Standard.C75_coil_value_violated, Modbus.Standard.C75_exception_violated, Modbus.Standard.C75_forwarded_partial, Modbus.Standard.C75_limits_violated, Modbus.Standard.C75_session_partial, Modbus.Standard.C75_unit_violated, Modbus.Standard.C75_unsupported_violated, Modbus.Client.C76_answered_in_time_partial, Modbus.Client.C76_attempt_ends, Ua.Transport.C76_connection_ends, Modbus.Client.C76_first_request_violated, Modbus.Client.C76_lost_link_violated, Modbus.Session.C76_session_ends, Modbus.Client.C76_tries_again, Stream.C77_chunk_partial, Stream.C77_in_order, Stream.C77_request_partial, Stream.C77_short_chunk_violated, Stream.C77_short_write_violated, Stream.C77_stranded_violated, Ua.Stack.C78_final_partial, Ua.Stack.C78_parts_violated, Ua.Stack.C79_dialogue, Ua.Stack.C80_answered, Ua.Stack.C80_complete, Ua.Stack.C80_together, Ua.Stack.C81_forever, Ua.Stack.C81_from_start, Ua.Stack.C81_visit, Ua.Stack.C82_answered, Ua.Stack.C82_safe, Ua.Stack.C82_undisturbed, Program.C83_comes_up, Program.C83_config_lost_violated, Program.C83_down, Program.C83_down_modbus_partial, Program.C83_goes_down, Program.C83_port_taken_violated, Program.C83_room, Program.C83_safe, Program.C83_settles, Program.C83_stop_early_violated, Program.C83_up, Masters.C84_answered, Masters.C84_connects, Masters.C84_one_memory, Masters.C84_safe, Ua.Session.C85_bounded, Ua.Session.C85_covers, Ua.Session.C85_dispatch, Ua.Session.C85_fills_violated, Ua.Session.C85_trace_violated, Masters.C86_bounded_partial, Masters.C86_room_partial, Masters.C87_any_frame_violated, Masters.C87_component_partial, Masters.C87_controller_partial, Ua.C88_decoded_partial, Ua.C88_hello_violated, Ua.C88_nodes_violated, Ua.C88_open_violated, Ua.C88_request_violated, Ua.Stack.C89_hello_violated, Ua.Stack.C89_open_violated, Ua.C89_proper_close, Ua.C89_proper_open, Ua.C89_proper_request, Ua.Stack.C89_request_violated, Ua.Stack.C89_second_hello_violated, Ua.Stack.C89_survived_partial, Ua.C90_buffers, Ua.Stack.C90_create_violated, Ua.Stack.C90_open_violated, Ua.C90_proper_close, Ua.C90_proper_open, Ua.C90_proper_request, Ua.Stack.C90_silent_partial, Ua.Stack.C90_stack_violated, Modbus.Blind.C91_answers_partial, Modbus.Blind.C91_count_violated, Modbus.Blind.C91_leaving_violated, Modbus.C91_local, Modbus.Client.C92_leaving_violated, Modbus.C92_local, Modbus.Client.C92_reports_partial, Modbus.Client.C92_stub_violated, Ua.Transport.C93_babble_violated, Modbus.Server.C93_modbus_deaf_violated, Ua.Transport.C93_open_partial, Heard.C93_served_partial, Ua.Transport.C93_ua_deaf_violated, Ua.Stack.C94_heir_violated, Ua.Stack.C94_idle_partial, Ua.Stack.C94_session_violated, Ua.Stack.C94_since_partial, Ua.Stack.C94_turns_partial, Ua.C95_agree, Ua.C95_greets_partial, Ua.C95_limits_violated, Ua.C95_primed, Ua.C95_reverse_violated, Ua.C95_success, Ua.Transport.C96_admitted, Ua.Transport.C96_counts, Ua.Transport.C96_full, Ua.Transport.C96_stranded_violated, Modbus.Reuse.C97_session_partial, Ua.Stack.C97_stack_partial, Ua.Transport.C98_first, Ua.Transport.C98_letters_violated, Ua.Transport.C98_order, Ua.Stack.C99_denied_violated, Ua.Stack.C99_early_violated, Ua.Stack.C99_exhausted_violated, Ua.Stack.C99_forever_violated, Ua.Stack.C99_held_partial, Ua.Stack.C99_renewal_violated, Ua.Stack.C99_rest_partial

## What the proofs found in the code

Each point is proved (theorem in brackets) or follows from the model directly.

### Shared parts
* A message larger than its chunk is accepted by the mailbox and overwrites the next chunk (`C03_oversize_message_violated`).
* A handler that throws leaves messages in the mailbox without a wake-up (`C04_throwing_handler_violated`).
* `MsgUaSecureChannelInitRsp` and the service's answer are addressed to a component that did not ask (`C05_answers_violated`).
* Addresses and ports with bytes of 128 or more are read with sign extension (`C06_port_violated`, `C06_addr_violated`).
* A stop that is taken while the self test waits for its configuration leaves the Modbus client and the listening Modbus server for
  ever, though everything else has gone (`C83_stop_early_violated`).
* If the port of the OPC UA server is taken, the program cannot be stopped: the release of the transport ends the process
  (`C83_port_taken_violated`).
* The secure channel and the service never get their configuration request, because the controller does not get the answers to its
  init requests (`C83_config_lost_violated`).
* Queues and pools do not check occupancy or identifiers (`C01_*_violated`, `C02_*`).

### Events and descriptors
* An acceptor is level-triggered, everything else is edge-triggered, and an exception of a handler leaves the loop over the reported events.  When the handler of
  the acceptor throws before it takes the connection, the acceptor is reported again at once, in front of all later arrivals, and every other event of the reactor is
  lost, for ever (`C93_deaf_violated`, `C93_arrivals_lost_violated`).  33 clients that connect to the OPC UA server and send nothing achieve that: no
  request, no timer and no message is handled any more, so idle connections are not closed either (`C93_occupied_violated`, `C93_ua_deaf_violated`).
* A client that sends one hello message with a negative length makes the server forget up to nine events that were reported behind it
  (`C93_babble_violated`, `C93_forgotten_violated`).  Without exceptions every ready descriptor is handled within ten turns (`C93_served_partial`).
* 33 silent clients of a Modbus server: the handler of the acceptor throws for lack of a timer, once a turn, until the 224 identifiers left are lost; everything
  that becomes ready meanwhile is lost too (`C93_modbus_drained_violated`, `C93_modbus_deaf_violated`).  Then the reactor calls that handler without end, though nothing is to
  be done (`C93_modbus_spins_violated`).
* An event of a batch reaches the new owner of a link when the pool is nearly exhausted (`C63_stale_violated`), or the new
  connection of a reopened link (`C63_reopened_violated`).
* A timer released by an earlier handler of the batch is read with descriptor -1; the exception makes the loop forget the rest
  of the batch, and the set is edge-triggered (`C63_released_timer_violated`).
* EPOLLIN together with EPOLLOUT (or EPOLLHUP) counts as an error and closes the connection (`C63_both_ready_violated`).
* When `epoll_ctl` fails in `Acceptor::accept`, the link keeps the closed number and later closes somebody else's descriptor
  (`C62_accept_violated`); if the other one is a timer, the exception thrown while it is released ends the process
  (`C62_timer_release_violated`); accepting into an open link leaks a descriptor.
* The end of the program is a race: `ReactorManager::stop` waits 100 ms, `epoll_wait` up to a second, and components are destroyed
  before threads are joined. A link or timer event in between, or a handler that takes longer, uses destroyed components
  (`C71_late_event_violated`, `C71_long_handler_violated`).
* If a thread can not be created or pinned, or `main` throws otherwise, the reactors are destroyed without being stopped: the
  program never ends, or joins a thread that does not exist (`C71_exception_violated`). The deployment `main` uses needs the CPUs
  2, 4, 6 and 7 (`C71_cpus`).
* The end of the program destroys the components without any synchronisation with the threads that used them: a data race by the
  rules of C++ even if the threads have ended (`C72_destruction_violated`). `ReactorManager::send` finds the receiver by
  `operator[]`, which inserts the key of a component that is missing into the map all threads read; the deployment `def` does so at
  its start (`C72_missing_component_violated`). `Container::numThreads` above one is a race on everything a reactor owns
  (`C72_two_threads_violated`); both deployments use one.
* `Timer::start` multiplies the interval by 1000 without a check: intervals of more than 292 years overflow
  (`C69_overflow_violated`); no interval of the program does (`C69_used`).
* A timer whose `create` throws is lost to the pool (`C62_timer_leak_violated`).
* `Link::send` takes any answer of `write` but -1 for success. If the send buffer is nearly full the kernel takes only a part of a
  frame; the rest is lost and the next frame is read as its rest (`C77_short_write_violated`, `C77_short_chunk_violated`). In
  `C77_mixed_violated` this makes a Modbus session forward a write of registers whose values are the bytes of another request.
* Links are registered edge-triggered and handlers read once per event. Bytes that a Modbus session does not read because its buffer
  holds more than 260 bytes are not reported again (`C77_stranded_violated`).

### Modbus
* A session that is used again does not tell the answers for its last master from those for the present one: a late answer with the number of
  the departed request is written to the master that came next (`C97_inherits_violated`).  Apart from this it serves like a new one
  (`C97_session_partial`).
* A frame of 6 to 8 bytes that agrees with the waiting request as far as it goes is completed from memory: the client reports an exception with whatever code it finds
  there (`C92_stub_violated`).  A slave that closes the connection behind an answer makes the client decode what the memory holds behind it as the
  answer to the next request (`C92_leaving_violated`).  Otherwise memory that was never written does not matter (`C92_reports_partial`).
* A master that shuts down its sending side while its request waits makes the session decode what its memory holds behind the request; if that looks
  like a request it is forwarded, and the answer goes to the master with the transaction and unit identifiers found there (`C91_leaving_violated`).  The number of items of
  a forwarded request to write one register is uninitialised memory (`C91_count_violated`).  Otherwise memory that was never written does not matter
  (`C91_answers_partial`).
* Client: duplicate and lost answers (`C14_duplicate_answer_violated`, `C14_lost_answer_violated`), a request sent after success was reported (`C112_answered_then_sent_violated`), an answer to nothing taken
  as success (`C16_stale_answer_violated`), reads outside the buffer (`C16_out_of_bounds_violated`), error code 0 taken as
  success (`C16_error_zero_violated`, `C16_every_error_zero_violated`), answers cut at most places rejected (`C12_client_bad_cut_fails`).
* Server: coalesced requests dropped (`C12_coalesced_requests_violated`; every frame with more behind it: `C12_every_coalesced_violated`), rejected frames change the stored transaction
  (`C17_wrong_slave_violated`), two answers to one request (`C17_two_answers_violated`), answers over 260 bytes are undefined
  behaviour (`C17_long_answer_violated`), phantom request at end of stream (`C19_phantom_request_violated`), leaks on failed
  accept (`C18_failed_accept_violated`) that no silence repairs (`C113_lost_violated`), reads of coils and discrete inputs can never be
  answered without an error (`C67_bit_reads_violated`).
* Messages between the Modbus server and the controller name only the number of the session: a master that is given the number of a
  session whose answer is still under way hears the registers another master asked for (`C84_crossed_violated`).
* Masters that leave before they are answered, or that ask again after the time-out of the session, fill the mailbox of the controller: its 64
  slots do not take the 65th request (`C86_passers_violated`).
* One well-formed frame of any master is enough for undefined behaviour in the controller: transaction number 16, or registers 1023 and 1024
  (`C87_frame_violated`, in every such state `C87_any_frame_violated`; `C87_controller_partial` says which requests are survived).
* A master that leaves while its request waits for the application makes the session decode on behind the frame, and with bytes planted there before
  read beyond the buffer of 512 bytes (`C87_leaving_violated`).
* Interoperation with other Modbus programs (`C75_*_violated`): the value for switching a coil on is written in the wrong byte
  order (00 FF instead of FF 00), so the client cannot switch on a coil of another program and the session never sends the
  confirmation that the standard demands; exceptions carry 0x8f instead of the function plus 0x80, and the client does not
  understand standard exceptions; requests for zero items, 2001 to 2008 bits or any coil value are accepted; units above 247 are
  not served; an unknown function is never answered and the session is deaf until its timer of five seconds expires.
* A connected client whose link fails or whose peer closes the connection does not connect again; only the next request, which it
  answers with failure without sending it, makes it do so (`C76_lost_link_violated`, `C76_first_request_violated`). The request after that one goes through (`C111_serves_again_partial`).
* Configuration: success reported for invalid identifiers, answer missing after an exception, requests lost by
  reconfiguration, termination on retry (`C20_*_violated`).
* Controller: a stop without a start is undefined behaviour, a stop while configuring is ignored, an answer with an unknown
  number is undefined behaviour, sixteen copies of one answer count as a complete test (`C60_*_violated`); transaction number
  and register address are chosen by the peer and unchecked (`C61_remote_violated`, `C61_range_violated`).

### OPC UA codec
* Address space (not in use yet): `value` and `dataType` of a variable are declared with the number and type of the attribute NodeId
  (`C104_variable_violated`), NodeClass is never initialised (`C104_class_violated`), and asking for a component creates it (`C104_lookup_violated`).
* Lengths of strings and arrays go to `resize` before anything is compared with the bytes received: a Hello of 32 bytes asks for two gigabytes,
  four bytes of an Open chunk or 26 bytes of a request for as many elements (`C88_hello_violated`, `C88_open_violated`, `C88_request_violated`,
  `C88_nodes_violated`).
* `throw;` outside of a handler terminates the process for node id encodings 6 to 15 and for variant arrays of types over 7
  (`C24_unknown_encoding_violated`, `C27_array_terminates_violated`).
* Flags of expanded node ids are written at the read position (`C25_position_violated`); XmlElement, array dimensions and
  empty extension object bodies are lost; comparing variants may be undefined.
* Decoding uses bytes behind the received ones, and lengths taken from the peer lead outside of the array
  (`C29_stale_bytes_violated`, `C29_outside_array_violated`); encoding beyond 4096 bytes is unchecked (`C23_long_string_violated`).

### OPC UA connections and transport
* The server announces buffers of 65536 bytes to every client, also to those whose Hello asks for less (`C100_agree_violated`), and then ends the
  connection at every chunk of more than 4096 bytes (`C100_large_violated`).  It never writes an Error message (`C101_never_violated`,
  `C101_letters_violated`).  The library announces the same (`C100_library_violated`) and drops a chunk of unknown type without a word
  (`C101_library_violated`).
* The server does not look at the letters of the first message (the test is commented out, UaTcpConnection.cpp:230-236): any chunk whose body
  can be read as that of a Hello, for instance one that begins with `CLOF`, is acknowledged (`C98_letters_violated`).
* A socket that is accepted while the reactor has no timer left is kept open for ever without being served, and its connection object and
  identifier never come back, whatever happens later (`C96_stranded_violated`).
* The library client does not look at the limits in the Acknowledge: a peer that announces a receive buffer of any size, even zero, is sent chunks of any
  size (`C95_limits_violated`).  The server of the library can begin a connection with ReverseHello, but no client of the library understands
  it (`C95_reverse_violated`).
* A client that leaves out the end of its open request reads memory of the server: the token life time of the answer consists of the 4 bytes that
  stand behind the request in the receive buffer, left there by an earlier message, maybe of another client (`C90_open_violated`), or of 4 bytes
  that the stack held before (`C90_stack_violated`).  A create request that lacks its last 12 bytes is answered with 12 bytes of the receive buffer
  (`C90_create_violated`).  Whole requests reveal nothing (`C90_silent_partial`).
* A peer ends the process, or makes it read behind its buffers, with its first 32 bytes: the url length of the Hello is not compared with the
  buffer (`C89_hello_violated`); a refused Hello leaves the read position behind it, so the next one is decoded at the wrong place
  (`C89_second_hello_violated`); one byte that names no encoding of node ids ends the process, in an open request before any channel exists and
  in every service request (`C89_open_violated`, `C89_request_violated`).  With the tokens of C55 and the chunk sizes of C64 these are
  all there are (`C89_survived_partial`).
* A Hello with a large url length is read outside the buffer (`C47_hello_violated`).
* Chunks over 1024 bytes with an unlucky cut, and coalesced chunks, are refused although 65536 bytes are advertised
  (`C30_framing_violated`, `C30_coalesced_violated`).
* A connection whose `connect` fails at once is stuck for ever (`C31_connect_fails_violated`); link errors and ends of stream
  are only noticed by the timer (`C32_link_error_violated`, `C32_remote_close_violated`).
* Old buffer content is handed over behind each payload: twelve bytes in the transport and channel layers
  (`C46_transport_violated`, `C46_channel_violated`), 24 bytes in the library channel (`C46_library_payload_violated`).
* Channels opened for a connection that has ended, or twice for one connection, are leaked (`C36_late_answer_violated`,
  `C36_second_open_violated`).
* 32 clients that send three requests each without waiting fill the 64 slots of the mailbox; the third requests are dropped
  without a trace, and each connection ends at its next request, whose sequence number does not follow
  (`C73_pipelined_violated`).

### Secure channels and sessions
* The library's server channel remembers one request identifier: when a second request arrives before the first is answered, all answers leave
  with the identifier of the second (`C108_pipelined_violated`).
* The response to a create request announces as `maxRequestMessageSize` of the server the `maxResponseMessageSize` of the client
  (`C100_session_violated`).
* There is no service fault: a request that is refused (unknown session, other channel, no session left) gets no answer at all, its client waits
  for its own time-out (`C106_silent_violated`).
* The announced endpoint has no transport profile and no user token policy (`C107_unusable_violated`); the profiles that a request for endpoints
  names are ignored (`C107_filter_violated`).
* The server channel of the library looks neither at the channel identifier nor at the chunk type of what it receives (`C105_foreign_violated`), and
  renews itself for open requests that name another channel or go back in number (`C105_renewal_violated`).
* A client whose sequence numbers begin again behind 4294966271, as the standard wants it, is disconnected (`C103_wrap_violated`).
* The lifetime of a security token is granted as asked for, and nothing happens at its end (`C102_expired_violated`, in the
  library `C102_library_violated`).
* An open request on a connection that has a channel, by which clients renew their channel from time to time, opens another channel
  (`securityTokenRequestType` is not looked at, UaSecureChannel.cpp:26-37), and the connection forgets the first one
  (UaTcpConnection.cpp:68-71).  Nothing can ever close that one: after 31 renewals of one client there is no channel left for anybody
  (`C99_renewal_violated`, `C99_exhausted_violated`, `C99_forever_violated`, `C99_denied_violated`).  Its session stays bound to the lost channel and
  no request reaches it (`C99_session_violated`).
* A client whose connection ends between its open request and the answer leaves the new channel open for ever (`C99_early_violated`).
* A MSG chunk of 8 to 11 bytes is accepted: its channel id and what is handed up come from the chunk before it, and the request id of the
  answer from uninitialised memory (`C65_short_violated`).
* A client that gets a connection which another one has used, and leaves out the last 4 bytes of its open request, is answered with 4 bytes that
  the other one has sent (`C97_remains_violated`).
* Messages between the components carry numbers of connections and channels, and nobody checks that they are still used by the same client.  On a server with 32
  clients a client that leaves with a request under way leaves the answer to the next client: the token of the session it asked for (`C94_heir_violated`), or, if
  the request was to activate a session, the session itself; the next client reads data without having created or activated a session (`C94_session_violated`).
  With enough free identifiers this cannot happen, since they are handed out in the order in which they were given back (`C94_turns_partial`).
* The type of a received chunk is handed up and never looked at: intermediate chunks and chunks that abort a message are executed as
  complete requests (`C78_parts_violated`).
* Messages of other connections end a channel (`C38_foreign_*_violated`); malformed open requests leak channels until the
  service stops (`C48_malformed_violated`, `C48_exhausted_violated`).
* Library: replay after a malformed renewal (`C33_library_replay_violated`), chunks judged by old bytes
  (`C33_library_short_violated`), numbering not reset (`C34_library_reuse_violated`), client decodes the answer four bytes early
  (`C58_misread_violated`) and is stuck after a lost connection (`C58_stuck_violated`, `C115_waiting_violated`).
* Sessions: tokens 1 to 32 can be guessed, taken over or closed by anybody (`C52_*_violated`), never end on their own
  (`C51_*_violated`, `C114_sessions_violated`), tokens outside of the pool are undefined behaviour (`C55_*_violated`); service identifiers are truncated
  (`C54_alias_violated`); reads are answered good without results (`C53_results_violated`).
* Every request of a type that nobody serves leaves an entry in the table of services, 65531 in all (`C85_trace_violated`,
  `C85_fills_violated`).
* Chunks of 4057 to 4072 bytes, far below the 65536 bytes that the acknowledge message advertises, make a component send a message
  that is longer than its slot in the mailbox (`C64_open_chunk_violated`, `C64_message_violated`).
* Every connected client can bring the server into undefined behaviour with one well formed activate or close session request
  (`C55_activate_remote_violated`, `C55_close_remote_violated`).
* Requests with a null array (length -1) where the standard allows it, as other programs write empty arrays, are dropped without an
  answer (`C74_null_violated`, `C74_null_remote_violated`); so are activate requests with a software certificate
  (`C74_certificate_violated`). The bits for locale and localized text of a diagnostic info are swapped
  (`C74_diagnosticInfo_violated`).
