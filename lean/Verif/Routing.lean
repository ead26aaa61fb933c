import Verif.Base
/-!
# Message addressing and routing

`ReactorManager` (common/reactor/ReactorManager.cpp), the message types' addresses (common/msg/*.hpp),
the handlers each component registers, and the deployment built by `Deployer` (Deployer.cpp).
-/

namespace Uscada.Routing

/-- Component identifiers, common/CompDefs.hpp:8-17. -/
inductive Comp where
  | connector | detector | controller | modbus | uaTransport | uaSecChannel | uaService
deriving DecidableEq, Repr

/-- Message types, in the order of `MsgIds` (common/MsgDefs.hpp:8-62). -/
inductive MsgType where
  | controllerStartReq | controllerStopReq | connectorInitReq | connectorInitRsp 
  | detectorInitReq | detectorInitRsp | modbusInitReq | modbusInitRsp | modbusReleaseReq 
  | modbusReleaseRsp | modbusConfigReq | modbusConfigRsp | modbusClientAduReq 
  | modbusClientAduRsp | modbusAduReq | modbusAduRsp | uaTransportInitReq | uaTransportInitRsp 
  | uaTransportReleaseReq | uaTransportReleaseRsp | uaTransportConfigReq | uaTransportConfigRsp 
  | uaSecuredMessageSendReq | uaSecuredMessageReceiveInd | uaConnectionReleaseReq 
  | uaConnectionReleaseInd | uaSecureChannelInitReq | uaSecureChannelInitRsp 
  | uaSecureChannelReleaseReq | uaSecureChannelReleaseRsp | uaSecureChannelConfigReq 
  | uaSecureChannelConfigRsp | uaOpenSecureChannelReq | uaOpenSecureChannelRsp 
  | uaCloseSecureChannelReq | uaCloseSecureChannelRsp | uaAssociateSecureChannelReq 
  | uaServiceInitReq | uaServiceInitRsp | uaServiceReleaseReq | uaServiceReleaseRsp 
  | uaServiceConfigReq | uaServiceConfigRsp | uaEncodedMessageSendReq 
  | uaEncodedMessageReceiveInd 
deriving DecidableEq, Repr

/-- The component a message type is addressed to: second template argument of `reactor::MsgBase` in
common/msg/Msg*.hpp (one line per message type there). -/
def dest : MsgType → Comp
  | .controllerStartReq => .controller
  | .controllerStopReq => .controller
  | .connectorInitReq => .connector
  | .connectorInitRsp => .controller
  | .detectorInitReq => .detector
  | .detectorInitRsp => .controller
  | .modbusInitReq => .modbus
  | .modbusInitRsp => .controller
  | .modbusReleaseReq => .modbus
  | .modbusReleaseRsp => .controller
  | .modbusConfigReq => .modbus
  | .modbusConfigRsp => .controller
  | .modbusClientAduReq => .modbus
  | .modbusClientAduRsp => .controller
  | .modbusAduReq => .controller
  | .modbusAduRsp => .modbus
  | .uaTransportInitReq => .uaTransport
  | .uaTransportInitRsp => .controller
  | .uaTransportReleaseReq => .uaTransport
  | .uaTransportReleaseRsp => .controller
  | .uaTransportConfigReq => .uaTransport
  | .uaTransportConfigRsp => .controller
  | .uaSecuredMessageSendReq => .uaTransport
  | .uaSecuredMessageReceiveInd => .uaSecChannel
  | .uaConnectionReleaseReq => .uaTransport
  | .uaConnectionReleaseInd => .uaSecChannel
  | .uaSecureChannelInitReq => .uaSecChannel
  | .uaSecureChannelInitRsp => .uaSecChannel
  | .uaSecureChannelReleaseReq => .uaSecChannel
  | .uaSecureChannelReleaseRsp => .uaSecChannel
  | .uaSecureChannelConfigReq => .uaSecChannel
  | .uaSecureChannelConfigRsp => .uaSecChannel
  | .uaOpenSecureChannelReq => .uaSecChannel
  | .uaOpenSecureChannelRsp => .uaTransport
  | .uaCloseSecureChannelReq => .uaSecChannel
  | .uaCloseSecureChannelRsp => .uaTransport
  | .uaAssociateSecureChannelReq => .uaSecChannel
  | .uaServiceInitReq => .uaService
  | .uaServiceInitRsp => .uaSecChannel
  | .uaServiceReleaseReq => .uaService
  | .uaServiceReleaseRsp => .uaSecChannel
  | .uaServiceConfigReq => .uaService
  | .uaServiceConfigRsp => .uaSecChannel
  | .uaEncodedMessageSendReq => .uaSecChannel
  | .uaEncodedMessageReceiveInd => .uaService

/-- Handlers registered by each component: connector/ConnectorSimple.cpp:18, detector/Detector.cpp:19,
modbus/ModbusComponent.cpp:28-35, ua/transport/UaTransportComponent.cpp:21-27,
ua/securechannel/UaSecureChannelComponent.cpp:21-29, ua/service/UaServiceComponent.cpp:21-24,
controller/ControllerComponent.cpp:17-35. -/
def registers : Comp → List MsgType
  | .connector => [.connectorInitReq]
  | .detector => [.detectorInitReq]
  | .modbus => [.modbusInitReq, .modbusReleaseReq, .modbusConfigReq, .modbusClientAduReq, .modbusAduRsp]
  | .uaTransport => [.uaTransportInitReq, .uaTransportConfigReq, .uaOpenSecureChannelRsp,
      .uaCloseSecureChannelRsp, .uaSecuredMessageSendReq, .uaConnectionReleaseReq,
      .uaTransportReleaseReq]
  | .uaSecChannel => [.uaSecureChannelInitReq, .uaSecureChannelConfigReq, .uaOpenSecureChannelReq,
      .uaCloseSecureChannelReq, .uaAssociateSecureChannelReq, .uaSecuredMessageReceiveInd,
      .uaConnectionReleaseInd, .uaEncodedMessageSendReq, .uaSecureChannelReleaseReq]
  | .uaService => [.uaServiceInitReq, .uaServiceConfigReq, .uaEncodedMessageReceiveInd,
      .uaServiceReleaseReq]
  | .controller => [.controllerStartReq, .controllerStopReq, .modbusInitRsp, .modbusReleaseRsp,
      .modbusConfigRsp, .modbusClientAduRsp, .modbusAduReq, .uaSecureChannelInitRsp,
      .uaSecureChannelConfigRsp, .uaSecureChannelReleaseRsp, .uaTransportInitRsp,
      .uaTransportConfigRsp, .uaTransportReleaseRsp, .uaServiceInitRsp, .uaServiceConfigRsp,
      .uaServiceReleaseRsp]

/-- The manager: which reactor each registered component runs on, and the mailbox contents of each
reactor (oldest first, with an arbitrary payload per message; capacity is the subject of C03/C04 and
left out here). -/
structure Manager (α : Type) where
  reactorOf : Comp → Option Nat
  mailbox : Nat → List (MsgType × α)

namespace Manager

variable {α : Type}

/-- An empty manager. -/
def empty : Manager α := { reactorOf := fun _ => none, mailbox := fun _ => [] }

/-- common/reactor/ReactorManager.cpp:34-43: a second component with the same identifier is rejected. -/
def addComponent (m : Manager α) (c : Comp) (reactor : Nat) : Manager α :=
  match m.reactorOf c with
  | some _ => m
  | none => { m with reactorOf := fun c' => if c' = c then some reactor else m.reactorOf c' }

/-- common/reactor/ReactorManager.cpp:23-32. -/
def send (m : Manager α) (t : MsgType) (a : α) : Manager α :=
  match m.reactorOf (dest t) with
  | none => m
  | some r => { m with mailbox := fun r' => if r' = r then m.mailbox r' ++ [(t, a)] else m.mailbox r' }

end Manager

/-- `getDepl(DeploymentType::cpu3)`, Deployer.cpp:31-38: components of each reactor in order. -/
def cpu3 : List (List Comp) :=
  [[.connector], [.modbus], [.uaTransport, .uaSecChannel, .uaService], [.controller]]

/-- `Deployer::apply`, Deployer.cpp:47-106: add the components reactor by reactor. -/
def deploy {α : Type} (containers : List (List Comp)) : Manager α :=
  (containers.zipIdx).foldl (fun m (cs, r) => cs.foldl (fun m c => m.addComponent c r) m) Manager.empty

/-- The component whose handler a reactor with components `cs` runs for message type `t`
(Reactor.cpp:49-55: `handlers[id] = handler`, a later registration replaces an earlier one;
Reactor.cpp:153-161: no handler means the message is logged and dropped). -/
def handlerOn (cs : List Comp) (t : MsgType) : Option Comp :=
  cs.foldl (fun acc c => if (registers c).contains t then some c else acc) none

/-- Who finally handles a message of type `t` in a deployment: routed by address to a reactor, then by
message identifier to a handler. -/
def handledBy (containers : List (List Comp)) (t : MsgType) : Option Comp :=
  match ((deploy containers : Manager Unit).reactorOf (dest t)) with
  | none => none
  | some r => handlerOn (containers.getD r []) t

end Uscada.Routing
