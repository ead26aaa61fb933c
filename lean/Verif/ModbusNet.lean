import Verif.ControllerServe
import Verif.ModbusDispatch
import Verif.ModbusServerProps
import Verif.ModbusStandardProps
/-!
# C84: the Modbus component, the controller and the mailboxes between them

The two components run in reactors of their own (Deployer.cpp:31-40) and exchange `MsgModbusAduReq` and `MsgModbusAduRsp` through the mailboxes of these
reactors.  The model puts `Dispatcher` and `Ctl` side by side with the two kinds of messages that are on their way.

Simplified: of the messages that wait in the two mailboxes only these two kinds are kept; the others (initialisation, configuration, batches and their
answers) come at any time, in any order and with any content.  A mailbox that is full drops the message (Reactor.cpp:109-118, MsgMemStorage.cpp:31-46); when this is the
case is chosen by the events.
-/

namespace Uscada.Masters

open Uscada.Modbus Uscada.Controller
open Uscada.Modbus.Standard (Request onLink)

/-- The components and the messages that wait: `asks` in the mailbox of the controller, `says` in the mailbox of the Modbus component, each with the
numbers of server and session (common/msg/MsgModbusAduReq.hpp:14-24, common/msg/MsgModbusAduRsp.hpp:14-22).  `log` is what the controller received and sent. -/
structure Net where
  modbus : Dispatcher
  ctl : Ctl
  log : List Act
  asks : List (Nat × Nat × FwdReq)
  says : List (Nat × Nat × AppRsp)

/-- What happens next. -/
inductive Ev where
  /-- an event of the Modbus component; `room`: a request it forwards finds a slot -/
  | modbus (e : Dispatcher.Ev) (room : Bool)
  /-- a message or timer of the controller other than a forwarded request -/
  | ctl (e : Controller.Ev)
  /-- the controller takes the oldest forwarded request; `room`: its answer finds a slot -/
  | serve (room : Bool)
  /-- the Modbus component takes the oldest answer; `sendOk`: `Link::send` succeeds -/
  | answer (sendOk : Bool)

/-- The requests among the effects, addressed as in ModbusSession.cpp:140-151. -/
def asksOf (o : List Dispatcher.Out) : List (Nat × Nat × FwdReq) := o.filterMap fun
  | .session v i (.fwd q) => some (v, i, q)
  | _ => none

/-- The answers among the messages, addressed as in ModbusTestController.cpp:342-407. -/
def saysOf (o : List Controller.Out) : List (Nat × Nat × AppRsp) := o.filterMap fun
  | .modbusAduRsp v i r => some (v, i, r)
  | _ => none

/-- The frames put on the link of a session. -/
def framesTo (v i : Nat) (o : List Dispatcher.Out) : List (List UInt8) := o.filterMap fun
  | .session v' i' (.frame w) => if v' = v ∧ i' = i then some w else none
  | _ => none

namespace Net

/-- The program when the reactors have started. -/
def create (d : Dispatcher) : Net := { modbus := d, ctl := .create, log := [], asks := [], says := [] }

/-- One event, with the effects of the Modbus component.  Answers and forwarded requests reach their receivers only through the mailboxes. -/
def step (rnd : Nat → UInt8) (n : Net) : Ev → Exec (Net × List Dispatcher.Out)
  | .modbus e room =>
    match e with
    | .aduRsp .. => .ok (n, [])
    | e => do
      let (d, o) ← n.modbus.step e
      pure ({ n with modbus := d, asks := n.asks ++ if room then asksOf o else [] }, o)
  | .ctl e =>
    match e with
    | .modbusAduReq .. => .ok (n, [])
    | e => do
      let (c, o) ← n.ctl.step rnd e
      pure ({ n with ctl := c, log := n.log ++ .rcv e :: o.map .snd }, [])
  | .serve room =>
    match n.asks with
    | [] => .ok (n, [])
    | (v, i, q) :: as => do
      let (c, o) ← n.ctl.step rnd (.modbusAduReq v i q)
      pure ({ n with ctl := c, log := n.log ++ .rcv (.modbusAduReq v i q) :: o.map .snd, asks := as,
                     says := n.says ++ if room then saysOf o else [] }, [])
  | .answer sendOk =>
    match n.says with
    | [] => .ok (n, [])
    | (v, i, r) :: ss => do
      let (d, o) ← n.modbus.step (.aduRsp v i r sendOk)
      pure ({ n with modbus := d, says := ss }, o)

/-- A history. -/
def run (rnd : Nat → UInt8) (n : Net) : List Ev → Exec Net
  | [] => .ok n
  | e :: es => do
    let (n, _) ← n.step rnd e
    run rnd n es

end Net

/-- The servers of a configuration message are new (Modbus.cpp:30-36). -/
def NewServers : Ev → Prop
  | .modbus (.config its) _ => ∀ it ∈ its, ∀ S, it.entity = .inr S → ∃ f t l, Server.NewSessions f ∧ S = Server.create f t l
  | _ => True

/-- The states of the program. -/
def Reach (rnd : Nat → UInt8) (n : Net) : Prop :=
  ∃ a b es, (∀ e ∈ es, NewServers e) ∧ (Net.create (Dispatcher.create a b)).run rnd es = .ok n

/-! ## Specification: a master among others -/

/-- A request of a master. -/
structure Job where
  tid : Nat
  unit : Nat
  req : Request

/-- The requests that the controller can answer (C61): transaction numbers whose answers carry no canned failure, registers that exist, and the functions
3, 4, 6 and 16. -/
structure Job.Ok (j : Job) : Prop where
  tid : j.tid ∈ [0, 3, 4, 7, 8, 10, 11]
  unit : j.unit ≤ 247
  valid : j.req.Valid
  regs : match j.req with
    | .readHolding s q | .readInput s q => s + q ≤ 1024
    | .writeRegister a _ => a < 1024
    | .writeRegisters s vs => s + vs.length ≤ 1024
    | _ => False

/-- Its bytes. -/
def Job.bytes (j : Job) : List UInt8 := onLink j.tid j.unit j.req.pdu

/-- The registers in the memory of the controller: the least significant byte first. -/
def regsOf : List UInt8 → List Nat
  | a :: b :: l => (b.toNat * 256 + a.toNat) :: regsOf l
  | _ => []

/-- The answer of the standard when the memory holds `data`. -/
def Job.answer (j : Job) (data : List UInt8) : List UInt8 := onLink j.tid j.unit (j.req.answer (regsOf data))

/-- One entry of the controller's log: the register files and the request in hand as in C61, and what a session has been told so far: the request and the content of
the register files when it was served. -/
def told1 (rnd : Nat → UInt8) (v i : Nat) : (Files × Option FwdReq) × List (FwdReq × List UInt8) → Act → (Files × Option FwdReq) × List (FwdReq × List UInt8)
  | ((F, some q), l), .snd (.modbusAduRsp v' i' r) =>
    (replay1 rnd (F, some q) (.snd (.modbusAduRsp v' i' r)), if v' = v ∧ i' = i then l ++ [(q, reply F q)] else l)
  | (s, l), a => (replay1 rnd s a, l)

/-- All that a session has been told: one order of all requests, those of the others included. -/
def told (rnd : Nat → UInt8) (v i : Nat) (log : List Act) : List (FwdReq × List UInt8) :=
  (log.foldl (told1 rnd v i) ((fun _ => rnd, none), [])).2

/-- A master with the requests it still wants answered, the bytes it sent that have not been read, whether the first request has been sent, and what it heard;
and the program. -/
structure Scene where
  plan : List Job
  wire : List UInt8
  sent : Bool
  heard : List (List UInt8)
  net : Net

/-- What happens next: the master sends its next request, the session reads some of its bytes, or something else. -/
inductive Deed where
  | talk
  | read (n : Nat)
  | net (e : Ev)

/-- The master hears what is put on its link, and takes a frame as the answer to its request. -/
def Scene.hear (x : Scene) (n : Net) (ws : List (List UInt8)) : Scene :=
  { x with net := n, heard := x.heard ++ ws, plan := x.plan.drop ws.length, sent := if ws = [] then x.sent else false }

/-- The scene with the master at session `i` of server `v`. -/
def Scene.step (rnd : Nat → UInt8) (v i : Nat) (x : Scene) : Deed → Exec Scene
  | .talk =>
    match x.sent, x.plan with
    | false, j :: _ => .ok { x with sent := true, wire := x.wire ++ j.bytes }
    | _, _ => .ok x
  | .read n =>
    if x.wire = [] then .ok x
    else do
      let (m, o) ← x.net.step rnd (.modbus (.server v (.sess i (.data (.ok (x.wire.take (n + 1)))))) true)
      pure ({ x with wire := x.wire.drop (n + 1) }.hear m (framesTo v i o))
  | .net e => do
    let (m, o) ← x.net.step rnd e
    pure (x.hear m (framesTo v i o))

/-- What must not happen meanwhile: that the link of the master fails or its timer expires (the master is in time), that the server is replaced, that the
mailboxes are full or the controller is not answering when the request of the master is to be passed on, that the link does not take its answer. -/
def Meanwhile (v i : Nat) (n : Net) : Ev → Prop
  | .modbus (.server v' (.sess i' e)) _ => v' = v → i' = i → e = .data .na
  | .modbus (.config its) _ => ∀ it ∈ its, it.id = v → ∃ m, it.entity = .inl m
  | .modbus _ _ => True
  | .ctl _ => True
  | .serve room => ∀ q as, n.asks = (v, i, q) :: as → room = true ∧ Running n.log ∧ Testing n.log
  | .answer ok => ∀ r ss, n.says = (v, i, r) :: ss → ok = true

/-- The histories of a scene. -/
inductive Goes (rnd : Nat → UInt8) (v i : Nat) : Scene → List Deed → Scene → Prop
  | nil (x : Scene) : Goes rnd v i x [] x
  | cons {x y z : Scene} {a : Deed} {as : List Deed} : (∀ e, a = .net e → Meanwhile v i x.net e) → x.step rnd v i a = .ok y → Goes rnd v i y as z →
      Goes rnd v i x (a :: as) z

/-- The messages from or to a session. -/
def own {α : Type} (v i : Nat) (l : List (Nat × Nat × α)) : List α := l.filterMap fun m => if m.1 = v ∧ m.2.1 = i then some m.2.2 else none

/-- A master that is connected and has not sent anything yet: session `i` of server `v` is ready and not free, and no messages of an earlier
holder of the session are on their way. -/
structure Apart (rnd : Nat → UInt8) (v i : Nat) (x : Scene) : Prop where
  reach : Reach rnd x.net
  server : ∃ S, x.net.modbus.servers v = some S ∧ i ∉ S.free ∧ i < 256 ∧ (S.sess i).Fresh
  asks : own v i x.net.asks = []
  says : own v i x.net.says = []
  plan : ∀ j ∈ x.plan, j.Ok
  wire : x.wire = []
  sent : x.sent = false

end Uscada.Masters
