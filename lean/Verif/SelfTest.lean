import Verif.ModbusExchange
import Verif.ModbusDispatch
import Verif.ControllerProps
/-!
# The built-in self-test: controller and Modbus component together

main.cpp:20-29 starts (and after 20 seconds stops) the controller and nothing else; the only traffic of the program is the test of
`ModbusTestController`.
The controller runs on one reactor, the Modbus component on another (Deployer.cpp:31-38), each with its mailbox.  The component
has one client and one server, and the client is connected to the server over the loopback interface
(ModbusTestController.cpp:177-209).  So every request of a round goes controller, client, link, session, controller, session,
link, client, controller.

The model puts the two component models together: two mailboxes and the two directions of the connection.  Simplifications:

* The messages of the OPC UA components to the controller are left out; they do not reach the test
  (`Ctl.step` with `Ev.ua` leaves `modbus` alone).
* A frame arrives as a whole (`C12` is about the other cases).
* The mailboxes take all messages; `C68_mailboxes` bounds what is in them.
* The timers of the session (30 and 5 seconds) do not expire, and system calls succeed.
-/

namespace Uscada.SelfTest

open Uscada.Modbus Uscada.Controller
open AduStorage (Pending)

instance : Inhabited Case := ⟨⟨0, 0, 0, 0, 0, [], 0, false, []⟩⟩

/-- Messages for the Modbus component that the test leads to (ModbusComponent.cpp). -/
inductive ToMod where
  | batch (items : List AduLayout.Item)
  | aduRsp (serverId sessionId : Nat) (r : AppRsp)
  | release

/-- The two components, their mailboxes (oldest message first) and the frames on the way from the client (`up`) and to it
(`down`).  `mod = none`: the component was released (ModbusComponent.cpp:49-57).  `got` is a ghost: the answers the controller
took since it last sent its requests. -/
structure Plant where
  ctl : Ctl
  mod : Option Dispatcher
  toCtl : List Controller.Ev
  toMod : List ToMod
  up : List (List UInt8)
  down : List (List UInt8)
  got : List CRsp

/-- A request item as the dispatcher hands it to the client, Modbus.cpp:67-85. -/
def callerOf (it : AduLayout.Item) : CallerReq where
  clientId := it.clientId.toNat
  transactId := it.transactId.toNat
  func := it.func.toNat
  addr := it.addr.toNat
  startItem := it.startItem.toNat
  numItems := it.numItems.toNat
  numBytes := it.data.length
  data := some it.data

/-- Messages of the controller for the Modbus component (ControllerSender.hpp); init and configuration requests come before the
test. -/
def fromCtl : Controller.Out → Option ToMod
  | .modbusClientAduReq items => some (.batch items)
  | .modbusAduRsp v s r => some (.aduRsp v s r)
  | .modbusReleaseReq => some .release
  | _ => none

/-- Messages of the Modbus component for the controller (ModbusSender.hpp). -/
def toCtlOf : Dispatcher.Out → Option Controller.Ev
  | .client _ (.rsp r) => some (.modbusClientAduRsp r)
  | .reject r => some (.modbusClientAduRsp r)
  | .session v s (.fwd f) => some (.modbusAduReq v s f)
  | _ => none

/-- What the client writes to its link. -/
def upOf : Dispatcher.Out → Option (List UInt8)
  | .client _ (.frame w) => some w
  | _ => none

/-- What the session writes to its link. -/
def downOf : Dispatcher.Out → Option (List UInt8)
  | .session _ _ (.frame w) => some w
  | _ => none

inductive Ev where
  /-- the controller takes its oldest message -/
  | ctlMsg
  /-- the timer of the controller expires -/
  | ctlTimer
  /-- the Modbus component takes its oldest message -/
  | modMsg
  /-- the timer of the client expires -/
  | cliTimer
  /-- the session reads the oldest frame of the client -/
  | up
  /-- the client reads the oldest frame of the session -/
  | down
deriving DecidableEq, Repr

def isBatch : ToMod → Bool
  | .batch _ => true
  | _ => false

def isAduRsp : ToMod → Bool
  | .aduRsp .. => true
  | _ => false

def isFwd : Controller.Ev → Bool
  | .modbusAduReq .. => true
  | _ => false

def answerOf : Controller.Ev → List CRsp
  | .modbusClientAduRsp r => [r]
  | _ => []

namespace Plant

/-- An event of the controller. -/
def onCtl (rnd : Nat → UInt8) (p : Plant) (e : Controller.Ev) : Exec Plant := do
  let (ctl, o) ← p.ctl.step rnd e
  let m := o.filterMap fromCtl
  pure { p with ctl, toMod := p.toMod ++ m, got := if m.any isBatch then [] else p.got ++ answerOf e }

/-- An event of the Modbus component; a released component ignores it. -/
def onMod (p : Plant) (e : Dispatcher.Ev) : Exec Plant :=
  match p.mod with
  | none => .ok p
  | some d => do
    let (d, o) ← d.step e
    pure { p with mod := some d, toCtl := p.toCtl ++ o.filterMap toCtlOf, up := p.up ++ o.filterMap upOf,
                  down := p.down ++ o.filterMap downOf }

/-- A message reaches the Modbus component (ModbusComponent.cpp:49-80). -/
def onModMsg (p : Plant) : ToMod → Exec Plant
  | .batch items => p.onMod (.batch (items.map callerOf))
  | .aduRsp v s r => p.onMod (.aduRsp v s r true)
  | .release => .ok { p with mod := none }

/-- One event; `k` is the session that the client is connected to. -/
def step (rnd : Nat → UInt8) (k : Nat) (p : Plant) : Ev → Exec Plant
  | .ctlMsg =>
    match p.toCtl with
    | [] => .ok p
    | m :: ms => onCtl rnd { p with toCtl := ms } m
  | .ctlTimer => onCtl rnd p .timer
  | .modMsg =>
    match p.toMod with
    | [] => .ok p
    | m :: ms => onModMsg { p with toMod := ms } m
  | .cliTimer => p.onMod (.client 0 (.timer true true))
  | .up =>
    match p.up with
    | [] => .ok p
    | w :: ws => onMod { p with up := ws } (.server 0 (.sess k (.data (.ok w))))
  | .down =>
    match p.down with
    | [] => .ok p
    | w :: ws => onMod { p with down := ws } (.client 0 (.data (.ok w)))

/-- A transaction is under way: its request, the forwarded request, the answer of the controller or its frame is not yet
delivered. -/
def UnderWay (p : Plant) : Prop :=
  p.up ≠ [] ∨ p.down ≠ [] ∨ (∃ m ∈ p.toCtl, isFwd m = true) ∨ ∃ m ∈ p.toMod, isAduRsp m = true

/-- The events of a calm execution: only what is pending is delivered, only armed timers expire, and the time-out for an answer
(five seconds, ModbusClient.hpp:68) does not expire while the transaction is under way. -/
def Calm (p : Plant) : Ev → Prop
  | .ctlMsg => p.toCtl ≠ []
  | .modMsg => p.toMod ≠ []
  | .up => p.up ≠ []
  | .down => p.down ≠ []
  | .ctlTimer => ∃ t, p.ctl.modbus = some t ∧ t.armed = true
  | .cliTimer => ∃ d c, p.mod = some d ∧ d.clients 0 = some c ∧ c.timer = true ∧ (c.st = .receive → ¬ p.UnderWay)

/-- The state of the test. -/
def test (p : Plant) : Option TSt := p.ctl.modbus.map (·.st)

end Plant

/-- The controller has just sent its requests, the client is connected to session `k` and both are idle. -/
structure Start (rnd : Nat → UInt8) (k : Nat) (p : Plant) : Prop where
  ctl : ∃ t, p.ctl.modbus = some t ∧ t.st = .run ∧ t.counter = 0 ∧ t.armed = false ∧ t.cases = testCases rnd
  mod : ∃ d v c, p.mod = some d ∧ d.numClients = 1 ∧ d.numServers = 1 ∧ d.servers 0 = some v ∧ d.clients 0 = some c ∧
    (v.sess k).Fresh ∧ c.st = .connected ∧ c.opened = true ∧ c.pending = [] ∧ c.timer = false
  small : k < 256
  toCtl : p.toCtl = []
  toMod : p.toMod = [.batch (batch (testCases rnd))]
  up : p.up = []
  down : p.down = []
  got : p.got = []

/-- States of calm executions. -/
inductive Reach (rnd : Nat → UInt8) (k : Nat) : Plant → Prop
  | start {p : Plant} (h : Start rnd k p) : Reach rnd k p
  | step {p q : Plant} {e : Ev} (h : Reach rnd k p) (hc : p.Calm e) (hs : p.step rnd k e = .ok q) : Reach rnd k q

/-- A calm execution with the states it visits after the first. -/
inductive Run (rnd : Nat → UInt8) (k : Nat) : Plant → List Plant → Prop
  | nil (p : Plant) : Run rnd k p []
  | cons {p q : Plant} {e : Ev} {qs : List Plant} (hc : p.Calm e) (hs : p.step rnd k e = .ok q) (h : Run rnd k q qs) :
      Run rnd k p (q :: qs)

end Uscada.SelfTest
