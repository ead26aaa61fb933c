import Verif.Components
import Verif.SelfTest
import Verif.Routing
/-!
# The program from start to stop

The controller, the Modbus component and the three OPC UA components in the deployment `main` uses (Deployer.cpp:31-38), with a
mailbox for each reactor, and the two messages of `main` (main.cpp:21-32).  Messages are routed by `Routing`, the components are
the shells of `Components`, the controller is the one of `Controller` and the Modbus entity the one of `ModbusDispatch`.  The
reactors take steps in any order.

Simplified: mailboxes have no bound (C04, C73); an exception in a handler ends the handler, but the messages behind it are
delivered all the same (C04 has the delay it causes); constructors of entities do not throw (they only allocate memory); of the
OPC UA transport only its acceptor is kept, and what clients of the OPC UA server do is left out (`UaStack` has it): it neither
creates nor destroys these objects.
-/

namespace Uscada.Program

open Uscada.Modbus Uscada.Controller
open Routing (MsgType Comp)

/-- The acceptor of `UaTcpServer` (ua/transport/server/UaTcpServer.hpp): null, without socket, or listening. -/
inductive Ear where
  | none
  | deaf
  | hearing
deriving DecidableEq, Repr

/-- How `UaTcpServer::listen` ends: the pool of acceptors is exhausted (Reactor.cpp:92-98), `Acceptor::listen` throws and leaves
the acceptor without socket (Acceptor.cpp:42-79), or it succeeds. -/
inductive Listen where
  | noAcceptor
  | refused
  | ok
deriving DecidableEq, Repr

/-- `UaTransport` with `UaTcpServer::listen` (UaTransport.cpp:6-18, ua/transport/server/UaTcpServer.cpp:43-47).  The assignment
destroys the previous acceptor after the new one was taken from the pool.  Destroying an acceptor without socket throws in the
deleter of a unique pointer (Acceptor.cpp:36-40, 81-85; Reactor.cpp:101-105) and ends the process. -/
def transportEntity : Components.Entity Ear Unit Listen Empty where
  make _ := .ok .none
  destroy e := if e = .deaf then .abort else .ok ()
  handle e l :=
    match l with
    | .noAcceptor => .ok (e, [])
    | .refused => if e = .deaf then .abort else .ok (.deaf, [])
    | .ok => if e = .deaf then .abort else .ok (.hearing, [])

/-- `UaSecureChannel` and `UaService`: their handlers of the configuration request are empty (UaSecureChannel.cpp:22-24,
UaService.cpp:25-27). -/
def plainEntity : Components.Entity Unit Unit Unit Empty where
  make _ := .ok ()
  destroy _ := .ok ()
  handle _ _ := .ok ((), [])

/-- Messages (common/msg/). -/
inductive Msg where
  | startReq
  | stopReq
  | out (o : Controller.Out)
  | modbusInitRsp
  | modbusReleaseRsp
  | modbusConfigRsp
  | modbusClientAduRsp (r : CRsp)
  | modbusAduReq (serverId sessionId : Nat) (q : FwdReq)
  | ua (m : UaMsg)

/-- The message type of what the controller sends (controller/ControllerSender.hpp). -/
def outType : Controller.Out → MsgType
  | .modbusInitReq _ _ => .modbusInitReq
  | .modbusReleaseReq => .modbusReleaseReq
  | .modbusConfigReq _ => .modbusConfigReq
  | .modbusClientAduReq _ => .modbusClientAduReq
  | .modbusAduRsp _ _ _ => .modbusAduRsp
  | .uaSecureChannelInitReq => .uaSecureChannelInitReq
  | .uaTransportInitReq => .uaTransportInitReq
  | .uaServiceInitReq => .uaServiceInitReq
  | .uaSecureChannelConfigReq => .uaSecureChannelConfigReq
  | .uaTransportConfigReq _ => .uaTransportConfigReq
  | .uaServiceConfigReq => .uaServiceConfigReq
  | .uaSecureChannelReleaseReq => .uaSecureChannelReleaseReq
  | .uaTransportReleaseReq => .uaTransportReleaseReq
  | .uaServiceReleaseReq => .uaServiceReleaseReq

/-- The message type of the answers of the UA components. -/
def uaType : UaMsg → MsgType
  | .secureChannelInitRsp => .uaSecureChannelInitRsp
  | .secureChannelConfigRsp => .uaSecureChannelConfigRsp
  | .secureChannelReleaseRsp => .uaSecureChannelReleaseRsp
  | .transportInitRsp => .uaTransportInitRsp
  | .transportConfigRsp => .uaTransportConfigRsp
  | .transportReleaseRsp => .uaTransportReleaseRsp
  | .serviceInitRsp => .uaServiceInitRsp
  | .serviceConfigRsp => .uaServiceConfigRsp
  | .serviceReleaseRsp => .uaServiceReleaseRsp

/-- The message type (first template argument of `reactor::MsgBase` in common/msg/Msg*.hpp). -/
def Msg.type : Msg → MsgType
  | .startReq => .controllerStartReq
  | .stopReq => .controllerStopReq
  | .out o => outType o
  | .modbusInitRsp => .modbusInitRsp
  | .modbusReleaseRsp => .modbusReleaseRsp
  | .modbusConfigRsp => .modbusConfigRsp
  | .modbusClientAduRsp _ => .modbusClientAduRsp
  | .modbusAduReq _ _ _ => .modbusAduReq
  | .ua m => uaType m

/-- The reactor a message type is delivered to (ReactorManager.cpp:23-32 in the deployment of Deployer.cpp:31-38). -/
def place (t : MsgType) : Option Nat := (Routing.deploy Routing.cpu3 : Routing.Manager Unit).reactorOf (Routing.dest t)

/-- The state.  `sent` is the number of messages `main` has sent: first the start, then the stop request. -/
structure Prog where
  sent : Nat
  ctl : Ctl
  mod : Option Dispatcher
  chan : Option Unit
  transport : Option Ear
  service : Option Unit
  box : Nat → List Msg

/-- After `Deployer::apply` (main.cpp:14-19): no component has an entity, all mailboxes are empty. -/
def boot : Prog := { sent := 0, ctl := Ctl.create, mod := none, chan := none, transport := none, service := none, box := fun _ => [] }

/-- What the environment decides when a message is handled: whether the reactor has a timer (start request), how listening ends,
how creating and starting the Modbus client and server ends, with the memory they are created in, and whether the link takes an
answer. -/
structure Luck where
  timerFree : Bool
  listen : Listen
  mem : Mem
  server : Server
  clientRes : Dispatcher.CfgRes
  serverRes : Dispatcher.CfgRes
  linkOk : Bool

/-- The configuration items as the dispatcher sees them (MsgModbusConfigReq.hpp:12-22). -/
def Luck.item (l : Luck) (c : CfgReq) : Dispatcher.CfgItem :=
  if c.server then { id := c.id, entity := .inr l.server, res := l.serverRes }
  else { id := c.id, entity := .inl l.mem, res := l.clientRes }

namespace Prog

/-- `ReactorManager::send` (ReactorManager.cpp:23-32) -/
def post (p : Prog) (m : Msg) : Prog :=
  match place m.type with
  | none => p
  | some r => { p with box := fun x => if x = r then p.box x ++ [m] else p.box x }

/-- Several messages, in order. -/
def posts (p : Prog) (ms : List Msg) : Prog := ms.foldl post p

end Prog

/-- What the controller gets for a message (ControllerComponent.cpp:15-36). -/
def ctlEv (l : Luck) : Msg → Option Controller.Ev
  | .startReq => some (.start l.timerFree)
  | .stopReq => some .stop
  | .modbusInitRsp => some .modbusInitRsp
  | .modbusReleaseRsp => some .modbusReleaseRsp
  | .modbusConfigRsp => some .modbusConfigRsp
  | .modbusClientAduRsp r => some (.modbusClientAduRsp r)
  | .modbusAduReq v s q => some (.modbusAduReq v s q)
  | .ua m => some (.ua m)
  | .out _ => none

/-- What the Modbus component gets for a message (ModbusComponent.cpp:26-36). -/
def modMsg (l : Luck) : Msg → Option (Components.ModbusMsg (Nat × Nat) Dispatcher.Ev)
  | .out (.modbusInitReq s c) => some (.initReq (s, c))
  | .out .modbusReleaseReq => some .releaseReq
  | .out (.modbusConfigReq items) => some (.configReq (.config (items.map l.item)))
  | .out (.modbusClientAduReq items) => some (.clientAduReq (.batch (items.map SelfTest.callerOf)))
  | .out (.modbusAduRsp v s r) => some (.aduRsp (.aduRsp v s r l.linkOk))
  | _ => none

/-- What the transport component gets for a message (UaTransportComponent.cpp:17-29). -/
def transportMsg (l : Luck) : Msg → Option (Components.TransportMsg Unit Listen)
  | .out .uaTransportInitReq => some (.initReq ())
  | .out .uaTransportReleaseReq => some .releaseReq
  | .out (.uaTransportConfigReq _) => some (.configReq l.listen)
  | _ => none

/-- What the secure channel component gets for a message (UaSecureChannelComponent.cpp:17-31). -/
def channelMsg : Msg → Option (Components.ChannelMsg Unit Unit)
  | .out .uaSecureChannelInitReq => some (.initReq ())
  | .out .uaSecureChannelReleaseReq => some .releaseReq
  | .out .uaSecureChannelConfigReq => some (.configReq ())
  | _ => none

/-- What the service component gets for a message (UaServiceComponent.cpp:17-26). -/
def serviceMsg : Msg → Option (Components.ServiceMsg Unit Unit)
  | .out .uaServiceInitReq => some (.initReq ())
  | .out .uaServiceReleaseReq => some .releaseReq
  | .out .uaServiceConfigReq => some (.configReq ())
  | _ => none

/-- Messages of the Modbus component (ModbusSender.hpp). -/
def modOut : Components.Out Dispatcher.Out → List Msg
  | .initRsp => [.modbusInitRsp]
  | .releaseRsp => [.modbusReleaseRsp]
  | .entity (.cfgRsp _) => [.modbusConfigRsp]
  | .entity (.client _ (.rsp r)) => [.modbusClientAduRsp r]
  | .entity (.reject r) => [.modbusClientAduRsp r]
  | .entity (.session v s (.fwd f)) => [.modbusAduReq v s f]
  | .entity _ => []

/-- Answers of a UA component to its init and release requests. -/
def uaOut (i r : UaMsg) : Components.Out Empty → List Msg
  | .initRsp => [.ua i]
  | .releaseRsp => [.ua r]
  | .entity _ => []

namespace Prog

/-- An event of the controller: a message or its timer. -/
def onCtl (rnd : Nat → UInt8) (p : Prog) (e : Controller.Ev) : Exec Prog := do
  let (ctl, o) ← p.ctl.step rnd e
  pure ({ p with ctl }.posts (o.map .out))

/-- A message for the Modbus component. -/
def onMod (p : Prog) (m : Components.ModbusMsg (Nat × Nat) Dispatcher.Ev) : Exec Prog := do
  let (mod, o) ← Components.modbusStep Components.modbusEntity p.mod m
  pure ({ p with mod }.posts (o.flatMap modOut))

/-- An event of a link or timer of the Modbus component. -/
def onLink (p : Prog) (e : Dispatcher.Ev) : Exec Prog :=
  match p.mod with
  | none => .ok p
  | some d => do
    let (d, o) ← d.step e
    pure ({ p with mod := some d }.posts (o.flatMap fun x => modOut (.entity x)))

/-- The handler that reactor `r` has for a message (Reactor.cpp:153-161), in the component that registered it. -/
def handle (rnd : Nat → UInt8) (p : Prog) (r : Nat) (l : Luck) (m : Msg) : Exec Prog :=
  match Routing.handlerOn (Routing.cpu3.getD r []) m.type with
  | some .controller =>
    match ctlEv l m with
    | some e => p.onCtl rnd e
    | none => .ok p
  | some .modbus =>
    match modMsg l m with
    | some k => p.onMod k
    | none => .ok p
  | some .uaTransport =>
    match transportMsg l m with
    | some k => do
      let (s, o) ← Components.transportStep transportEntity p.transport k
      pure ({ p with transport := s }.posts (o.flatMap (uaOut .transportInitRsp .transportReleaseRsp)))
    | none => .ok p
  | some .uaSecChannel =>
    match channelMsg m with
    | some k => do
      let (s, o) ← Components.channelStep plainEntity p.chan k
      pure ({ p with chan := s }.posts (o.flatMap (uaOut .secureChannelInitRsp .secureChannelReleaseRsp)))
    | none => .ok p
  | some .uaService =>
    match serviceMsg m with
    | some k => do
      let (s, o) ← Components.serviceStep plainEntity p.service k
      pure ({ p with service := s }.posts (o.flatMap (uaOut .serviceInitRsp .serviceReleaseRsp)))
    | none => .ok p
  | _ => .ok p

end Prog

/-- Events of the program. -/
inductive Ev where
  /-- `main` sends its next message -/
  | main
  /-- the thread of reactor `r` takes the oldest message of its mailbox (Reactor.cpp:134-163) -/
  | take (r : Nat) (l : Luck)
  /-- the timer of the controller -/
  | timer
  /-- a link or timer of a Modbus client -/
  | client (i : Nat) (e : Client.Ev)
  /-- a connection, link or timer of a Modbus server -/
  | server (i : Nat) (e : Server.Ev)

/-- One event. -/
def Prog.step (rnd : Nat → UInt8) (p : Prog) : Ev → Exec Prog
  | .main =>
    match p.sent with
    | 0 => .ok ({ p with sent := 1 }.post .startReq)
    | 1 => .ok ({ p with sent := 2 }.post .stopReq)
    | _ => .ok p
  | .take r l =>
    match p.box r with
    | [] => .ok p
    | m :: ms => { p with box := fun x => if x = r then ms else p.box x }.handle rnd r l m
  | .timer => p.onCtl rnd .timer
  | .client i e => p.onLink (.client i e)
  | .server i e => p.onLink (.server i e)

/-- A history. -/
def run (rnd : Nat → UInt8) (p : Prog) : List Ev → Exec Prog
  | [] => .ok p
  | e :: es => do
    let p ← p.step rnd e
    run rnd p es

end Uscada.Program
