import Verif.ModbusSession
import Verif.ModbusClient
/-!
# The Modbus component's dispatcher (modbus/Modbus.cpp)

The vectors of clients and servers and the three message handlers.  Events of the clients and servers
themselves (links, timers, connections) are part of the history, so that a state of this model is a
state of the whole Modbus component.

Simplified: every server has its own budget of reactor timers and links (field `timers`, `links` of
`Server`), while the code takes all of them from one pool; whether the constructors and `start` succeed is
chosen by the configuration items.  `Sender::sendMsg` is taken to succeed (its storage is modelled in
`Verif.MsgStorage`).
-/

namespace Uscada.Modbus

/-- modbus/Modbus.hpp:35-36: the two vectors of owning pointers, null when not configured. -/
structure Dispatcher where
  numServers : Nat
  numClients : Nat
  servers : Nat → Option Server
  clients : Nat → Option Client
  /-- the server has an acceptor without socket (its `listen` failed) -/
  deaf : Nat → Bool

namespace Dispatcher

/-- Modbus.cpp:9-14 -/
def create (numServers numClients : Nat) : Dispatcher :=
  { numServers, numClients, servers := fun _ => none, clients := fun _ => none, deaf := fun _ => false }

/-- How creating and starting an entity ends.  `ctorThrows`: a reactor pool is exhausted
(Reactor.cpp:57-107), nothing is stored.  `startThrows`: `connect` or `createAcceptor` throws
after the entity was stored.  `listenThrows`: `Acceptor::listen` throws (Acceptor.cpp:42-79), which leaves
an acceptor without socket. -/
inductive CfgRes where
  | ok
  | ctorThrows
  | startThrows
  | listenThrows
deriving DecidableEq, Repr

/-- `ModbusConfig` (common/msg/MsgModbusConfigReq.hpp:12-22).  `entity` carries the mode and the
uninitialised memory of the new entity. -/
structure CfgItem where
  id : Nat
  entity : Mem ⊕ Server
  res : CfgRes

/-- Effects of the component, with their origin. -/
inductive Out where
  /-- effect of a client -/
  | client (i : Nat) (o : COut)
  /-- effect of session `sid` of a server -/
  | session (i sid : Nat) (o : SOut)
  /-- `MsgModbusClientAduRsp` sent by the dispatcher itself -/
  | reject (r : CRsp)
  /-- `MsgModbusConfigRsp`: identifier and whether the status is `success` -/
  | cfgRsp (items : List (Nat × Bool))
deriving Repr

/-- Assignment to an element of a vector. -/
def upd {α : Type} (f : Nat → Option α) (i : Nat) (v : α) : Nat → Option α :=
  fun j => if j = i then some v else f j

/-- One iteration of the configuration loop, Modbus.cpp:22-51; the second component tells whether an
exception left the loop.  The assignment destroys the previous entity; destroying an acceptor
without socket throws inside the destructor of a unique pointer (Acceptor.cpp:36-40 and 81-85,
Reactor.cpp:101-105) and terminates the process. -/
def configItem (d : Dispatcher) (it : CfgItem) : Exec (Dispatcher × List Out × Bool) :=
  match it.entity with
  | .inr s =>
    if it.id ≥ d.numServers then .ok (d, [], false)
    else if it.res = .ctorThrows then .ok (d, [], true)
    else if d.deaf it.id then .abort
    else
      .ok ({ d with servers := upd d.servers it.id s,
                    deaf := fun j => if j = it.id then it.res = .listenThrows else d.deaf j },
        [], it.res ≠ .ok)
  | .inl m =>
    if it.id ≥ d.numClients then .ok (d, [], false)
    else match it.res with
      | .ctorThrows => .ok (d, [], true)
      | .startThrows | .listenThrows => do
        let (c, o) ← (Client.create m).step (.start false)
        pure ({ d with clients := upd d.clients it.id c }, o.map (.client it.id), true)
      | .ok => do
        let (c, o) ← (Client.create m).step (.start true)
        pure ({ d with clients := upd d.clients it.id c }, o.map (.client it.id), false)

/-- The loop of Modbus.cpp:22-51. -/
def configLoop (d : Dispatcher) : List CfgItem → Exec (Dispatcher × List Out × Bool)
  | [] => .ok (d, [], false)
  | it :: its => do
    let (d, o, thrown) ← d.configItem it
    if thrown then pure (d, o, true)
    else do
      let (d, o', thrown) ← configLoop d its
      pure (d, o ++ o', thrown)

/-- Modbus.cpp:20-63.  An exception is caught by the reactor loop (Reactor.cpp:165-178); then no answer
is sent. -/
def config (d : Dispatcher) (its : List CfgItem) : Exec (Dispatcher × List Out) := do
  let (d, o, thrown) ← d.configLoop its
  if thrown then pure (d, o)
  else pure (d, o ++ [.cfgRsp (its.map fun it => (it.id, true))])

/-- One iteration of Modbus.cpp:67-85. -/
def item (d : Dispatcher) (r : CallerReq) : Exec (Dispatcher × List Out) :=
  let reject : Exec (Dispatcher × List Out) := .ok (d, [.reject
    { clientId := r.clientId, transactId := r.transactId, success := false, error := 0, data := [] }])
  if r.clientId ≥ d.numClients then reject
  else match d.clients r.clientId with
    | none => reject
    | some c => do
      let (c, o) ← c.step (.req r)
      pure ({ d with clients := upd d.clients r.clientId c }, o.map (.client r.clientId))

/-- Modbus.cpp:65-86; `Verif.AduLayoutProps` shows that `req.item(i)` are the items that were written. -/
def batch (d : Dispatcher) : List CallerReq → Exec (Dispatcher × List Out)
  | [] => .ok (d, [])
  | r :: rs => do
    let (d, o) ← d.item r
    let (d, o') ← batch d rs
    pure (d, o ++ o')

/-- Modbus.cpp:88-96 with ModbusServer.cpp:38-43.  The last component is the result of `Link::send`. -/
def aduRsp (d : Dispatcher) (serverId sessionId : Nat) (r : AppRsp) (sendOk : Bool) :
    Exec (Dispatcher × List Out) :=
  if serverId ≥ d.numServers then .ok (d, [])
  else match d.servers serverId with
    | none => .ok (d, [])
    | some s => do
      let (s, o) ← s.step (.sess sessionId (.rsp r sendOk))
      pure ({ d with servers := upd d.servers serverId s },
        o.map fun x => .session serverId x.1 x.2)

/-- Destroying the component's entity (`modbus.reset()` or replacement): the servers are destroyed with
their acceptors, see `configItem`. -/
def destroy (d : Dispatcher) : Exec Unit :=
  if (List.range d.numServers).any d.deaf then .abort else .ok ()

/-- Events of the component. -/
inductive Ev where
  | config (its : List CfgItem)
  | batch (rs : List CallerReq)
  | aduRsp (serverId sessionId : Nat) (r : AppRsp) (sendOk : Bool)
  /-- link or timer event of a client -/
  | client (i : Nat) (e : Client.Ev)
  /-- connection, link or timer event of a server -/
  | server (i : Nat) (e : Server.Ev)

/-- `start` and requests reach a client only through the handlers above. -/
def isOwnEvent : Client.Ev → Bool
  | .start _ | .req _ => false
  | _ => true

/-- Answers reach a session only through the handler above. -/
def isOwnSessionEvent : Server.Ev → Bool
  | .sess _ (.rsp _ _) => false
  | _ => true

/-- One event. -/
def step (d : Dispatcher) : Ev → Exec (Dispatcher × List Out)
  | .config its => d.config its
  | .batch rs => d.batch rs
  | .aduRsp v s r ok => d.aduRsp v s r ok
  | .client i e =>
    match d.clients i with
    | none => .ok (d, [])
    | some c =>
      if isOwnEvent e then do
        let (c, o) ← c.step e
        pure ({ d with clients := upd d.clients i c }, o.map (.client i))
      else .ok (d, [])
  | .server i e =>
    match d.servers i with
    | none => .ok (d, [])
    | some s =>
      if isOwnSessionEvent e then do
        let (s, o) ← s.step e
        pure ({ d with servers := upd d.servers i s }, o.map fun x => .session i x.1 x.2)
      else .ok (d, [])

/-- A history: the effects of each event. -/
def run (d : Dispatcher) : List Ev → Exec (Dispatcher × List (Ev × List Out))
  | [] => .ok (d, [])
  | e :: es => do
    let (d1, o) ← d.step e
    let (d2, os) ← run d1 es
    pure (d2, (e, o) :: os)

end Dispatcher

end Uscada.Modbus
