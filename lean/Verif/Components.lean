import Verif.ModbusDispatch
/-!
# Component shells

ModbusComponent.cpp, UaTransportComponent.cpp, UaSecureChannelComponent.cpp, UaServiceComponent.cpp: each owns
one entity through a unique pointer, creates it on the init request, destroys it on the release
request, and passes every other message on if the entity exists.

What the entity does is left open here (`Entity`): its constructor, its destructor and its handlers may
be anything, including exceptions (which the reactor loop catches) and termination.
-/

namespace Uscada.Components

/-- An entity owned by a component: `I` content of the init request, `M` messages, `O` effects.  A
handler that throws leaves a state and effects behind, so `handle` returns them. -/
structure Entity (E I M O : Type) where
  make : I → Exec E
  destroy : E → Exec Unit
  handle : E → M → Exec (E × List O)

/-- Effects of a component. -/
inductive Out (O : Type) where
  | initRsp
  | releaseRsp
  | entity (o : O)
deriving DecidableEq, Repr

variable {E I M O : Type}

/-- `ptr = std::make_unique<E>(...)`: the new object is created first, then the old one is destroyed. -/
def replace (en : Entity E I M O) (s : Option E) (i : I) : Exec (Option E) := do
  let e ← en.make i
  match s with
  | none => pure (some e)
  | some old => do
    let _ ← en.destroy old
    pure (some e)

/-- `ptr.reset()` -/
def reset (en : Entity E I M O) (s : Option E) : Exec (Option E) :=
  match s with
  | none => pure none
  | some old => do
    let _ ← en.destroy old
    pure none

/-- `if (ptr) ptr->receive(msg)` -/
def guarded (en : Entity E I M O) (s : Option E) (m : M) : Exec (Option E × List (Out O)) :=
  match s with
  | none => pure (none, [])
  | some e => do
    let (e, o) ← en.handle e m
    pure (some e, o.map .entity)

/-! ## ModbusComponent.cpp -/

/-- Messages registered in ModbusComponent.cpp:26-36. -/
inductive ModbusMsg (I M : Type) where
  | initReq (i : I)
  | releaseReq
  | configReq (m : M)
  | clientAduReq (m : M)
  | aduRsp (m : M)

/-- ModbusComponent.cpp:38-80 -/
def modbusStep (en : Entity E I M O) (s : Option E) : ModbusMsg I M → Exec (Option E × List (Out O))
  | .initReq i => do
    let s ← replace en s i
    pure (s, [.initRsp])
  | .releaseReq => do
    let s ← reset en s
    pure (s, [.releaseRsp])
  | .configReq m => guarded en s m
  | .clientAduReq m => guarded en s m
  | .aduRsp m => guarded en s m

/-! ## UaTransportComponent.cpp -/

/-- Messages registered in UaTransportComponent.cpp:17-29. -/
inductive TransportMsg (I M : Type) where
  | initReq (i : I)
  | releaseReq
  | configReq (m : M)
  | openSecureChannelRsp (m : M)
  | closeSecureChannelRsp (m : M)
  | securedMessageSendReq (m : M)
  | connectionReleaseReq (m : M)

/-- UaTransportComponent.cpp:31-89 -/
def transportStep (en : Entity E I M O) (s : Option E) :
    TransportMsg I M → Exec (Option E × List (Out O))
  | .initReq i => do
    let s ← replace en s i
    pure (s, [.initRsp])
  | .releaseReq => do
    let s ← reset en s
    pure (s, [.releaseRsp])
  | .configReq m => guarded en s m
  | .openSecureChannelRsp m => guarded en s m
  | .closeSecureChannelRsp m => guarded en s m
  | .securedMessageSendReq m => guarded en s m
  | .connectionReleaseReq m => guarded en s m

/-! ## UaSecureChannelComponent.cpp -/

/-- Messages registered in UaSecureChannelComponent.cpp:17-31. -/
inductive ChannelMsg (I M : Type) where
  | initReq (i : I)
  | releaseReq
  | configReq (m : M)
  | openSecureChannelReq (m : M)
  | closeSecureChannelReq (m : M)
  | associateSecureChannelReq (m : M)
  | securedMessageReceiveInd (m : M)
  | encodedMessageSendReq (m : M)
  | connectionReleaseInd (m : M)

/-- UaSecureChannelComponent.cpp:33-106 -/
def channelStep (en : Entity E I M O) (s : Option E) : ChannelMsg I M → Exec (Option E × List (Out O))
  | .initReq i => do
    let s ← replace en s i
    pure (s, [.initRsp])
  | .releaseReq => do
    let s ← reset en s
    pure (s, [.releaseRsp])
  | .configReq m => guarded en s m
  | .openSecureChannelReq m => guarded en s m
  | .closeSecureChannelReq m => guarded en s m
  | .associateSecureChannelReq m => guarded en s m
  | .securedMessageReceiveInd m => guarded en s m
  | .encodedMessageSendReq m => guarded en s m
  | .connectionReleaseInd m => guarded en s m

/-! ## UaServiceComponent.cpp -/

/-- Messages registered in UaServiceComponent.cpp:17-26. -/
inductive ServiceMsg (I M : Type) where
  | initReq (i : I)
  | releaseReq
  | configReq (m : M)
  | encodedMessageReceiveInd (m : M)

/-- UaServiceComponent.cpp:28-62 -/
def serviceStep (en : Entity E I M O) (s : Option E) : ServiceMsg I M → Exec (Option E × List (Out O))
  | .initReq i => do
    let s ← replace en s i
    pure (s, [.initRsp])
  | .releaseReq => do
    let s ← reset en s
    pure (s, [.releaseRsp])
  | .configReq m => guarded en s m
  | .encodedMessageReceiveInd m => guarded en s m

/-- A history of messages to a component that starts without entity: the effects of each message. -/
def run {K S : Type} (step : S → K → Exec (S × List (Out O))) (s : S) :
    List K → Exec (S × List (K × List (Out O)))
  | [] => .ok (s, [])
  | k :: ks => do
    let (s1, o) ← step s k
    let (s2, os) ← run step s1 ks
    pure (s2, (k, o) :: os)

/-- The Modbus entity: `Modbus(maxNumServers, maxNumClients)`. -/
def modbusEntity : Entity Modbus.Dispatcher (Nat × Nat) Modbus.Dispatcher.Ev Modbus.Dispatcher.Out where
  make i := .ok (Modbus.Dispatcher.create i.1 i.2)
  destroy d := d.destroy
  handle d e := d.step e

end Uscada.Components
