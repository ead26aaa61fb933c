import Verif.AduLayout
import Verif.ModbusSession
/-!
# The controller component (controller/)

`ControllerComponent` with the two objects it owns: `ModbusTestController` (a state machine that initialises and configures
the Modbus component, sends a batch of sixteen requests to it, compares the answers, and answers the requests that the
Modbus server forwards) and `UaController` (which initialises, configures and releases the OPC UA components).

Simplifications: log output is left out; the two seconds of sleep in ModbusTestController.cpp:336-340 take no time;
`Timer::start` and `Timer::stop` do not fail; the pseudo-random bytes are a parameter `rnd` (`srand(0)` before every vector
makes each of them a prefix of the same sequence).  `&v[i]` with `i` not an index of the vector is undefined behaviour.
-/

namespace Uscada.Controller

open Uscada.Modbus

/-- The classes derived from `ModbusTestState` (controller/modbus/ModbusTest{Init,Configure,Run,Setup}.hpp). -/
inductive TSt where
  | init
  | configure
  | run
  | setup
deriving DecidableEq, Repr

/-- `TestCase` (controller/modbus/ModbusTestController.hpp:67-87): a request and what is expected for it.  `regs` is
`rsp.data`, which also is the register memory the controller answers from. -/
structure Case where
  clientId : Nat
  addr : Nat
  func : Nat
  startItem : Nat
  numItems : Nat
  data : List UInt8
  error : Nat
  success : Bool
  regs : List UInt8
deriving DecidableEq, Repr

/-- `randVector`, ModbusTestController.cpp:27-36. -/
def randVector (rnd : Nat → UInt8) (n : Nat) : List UInt8 := (List.range n).map rnd

/-- The vector built in ModbusTestController.cpp:44-110. -/
def testCases (rnd : Nat → UInt8) : List Case :=
  let r := randVector rnd
  [ ⟨0, 1, 0x10, 890, 120, r 240, 0, true, r 2048⟩,
    ⟨0, 1, 0x04, 0, 126, [], 0, false, r 2048⟩,
    ⟨0, 1, 0x04, 10, 10, [], 4, true, r 2048⟩,
    ⟨0, 1, 0x04, 890, 120, [], 0, true, r 2048⟩,
    ⟨0, 1, 0x06, 190, 0, r 2, 0, true, r 2048⟩,
    ⟨0, 1, 0x06, 190, 10, r 2, 0, false, r 2048⟩,
    ⟨0, 1, 0x06, 190, 0, [], 0, false, r 2048⟩,
    ⟨0, 1, 0x10, 890, 120, r 240, 0, true, r 2048⟩,
    ⟨0, 1, 0x10, 256, 1, r 2, 0, true, r 2048⟩,
    ⟨0, 1, 0x10, 256, 1, r 4, 0, false, r 2048⟩,
    ⟨0, 1, 0x04, 10, 125, [], 0, true, r 2048⟩,
    ⟨0, 1, 0x04, 0, 0, [], 0, true, r 2048⟩,
    ⟨99, 1, 0x04, 10, 125, [], 0, false, r 2048⟩,
    ⟨0, 1, 99, 10, 125, [], 0, false, r 2048⟩,
    ⟨0, 248, 0x04, 10, 125, [], 0, false, r 2048⟩,
    ⟨0, 1, 0x06, 190, 0, r 2, 0, false, r 2048⟩ ]

/-- `ModbusConfig` (common/msg/MsgModbusConfigReq.hpp:12-22); `server` is the mode. -/
structure CfgReq where
  id : Nat
  server : Bool
  addr : List UInt8
deriving DecidableEq, Repr

/-- Messages the controller sends (controller/ControllerSender.hpp).  `aduRsp` carries server and session identifier. -/
inductive Out where
  | modbusInitReq (servers clients : Nat)
  | modbusReleaseReq
  | modbusConfigReq (items : List CfgReq)
  | modbusClientAduReq (items : List AduLayout.Item)
  | modbusAduRsp (serverId sessionId : Nat) (r : AppRsp)
  | uaSecureChannelInitReq
  | uaTransportInitReq
  | uaServiceInitReq
  | uaSecureChannelConfigReq
  | uaTransportConfigReq (addr : List UInt8)
  | uaServiceConfigReq
  | uaSecureChannelReleaseReq
  | uaTransportReleaseReq
  | uaServiceReleaseReq

/-- `ModbusTestController` with its state machine (ModbusTestController.hpp:65-88); `armed`: the timer runs. -/
structure Test where
  st : TSt
  cases : List Case
  counter : Nat
  armed : Bool

/-- `Result`, ModbusTestController.hpp:25-30. -/
inductive Verdict where
  | noerror
  | done
  | error
deriving DecidableEq, Repr

/-- The bytes at `&v[off]`, `n` of them. -/
def slice (v : List UInt8) (off n : Nat) : Exec (List UInt8) :=
  if off < v.length ∧ off + n ≤ v.length then .ok ((v.drop off).take n) else .ub

/-- `memcpy(&v[off], bytes)` -/
def patch (v : List UInt8) (off : Nat) (bytes : List UInt8) : Exec (List UInt8) :=
  if off < v.length ∧ off + bytes.length ≤ v.length then
    .ok (v.take off ++ bytes ++ v.drop (off + bytes.length))
  else .ub

/-- The address 127.0.0.1:0x2f71 of ModbusTestController.cpp:188-193. -/
def modbusAddr : List UInt8 := [0x7f, 0, 0, 1, 0x2f, 0x71]
/-- The address 127.0.0.1:0x1111 of controller/ua/UaController.cpp:74-79. -/
def uaAddr : List UInt8 := [0x7f, 0, 0, 1, 0x11, 0x11]

/-- One item of the batch, ModbusTestController.cpp:224-236. -/
def batchItem (i : Nat) (c : Case) : AduLayout.Item :=
  { clientId := UInt32.ofNat c.clientId, transactId := UInt32.ofNat i, func := UInt8.ofNat c.func,
    addr := UInt16.ofNat c.addr, startItem := UInt16.ofNat c.startItem, numItems := UInt16.ofNat c.numItems,
    data := c.data }

/-- ModbusTestController.cpp:211-240: all test cases, numbered from 0. -/
def batch (cs : List Case) : List AduLayout.Item := cs.zipIdx.map fun (c, i) => batchItem i c

namespace Test

/-- ModbusTestController.cpp:39-111, ModbusTestFsm.cpp:8-12 -/
def create (rnd : Nat → UInt8) : Test := { st := .init, cases := testCases rnd, counter := 0, armed := false }

/-- `onExit`: ModbusTestSetup.cpp:25-28; the other states do nothing. -/
def exit (t : Test) : Test :=
  match t.st with
  | .setup => { t with armed := false }
  | _ => t

/-- `onEnter`: ModbusTestInit.cpp:9-12, ModbusTestConfigure.cpp:9-12 with ModbusTestController.cpp:177-209,
ModbusTestRun.cpp:10-14, ModbusTestSetup.cpp:10-13. -/
def enter (t : Test) : Test × List Out :=
  match t.st with
  | .init => (t, [.modbusReleaseReq])
  | .configure => (t, [.modbusConfigReq [⟨0, false, modbusAddr⟩, ⟨0, true, modbusAddr⟩]])
  | .run => ({ t with counter := 0 }, [.modbusClientAduReq (batch t.cases)])
  | .setup => ({ t with armed := true }, [])

/-- controller/modbus/ModbusTestFsm.hpp:29-42 -/
def transit (t : Test) (s : TSt) : Test × List Out :=
  if s = t.st then (t, []) else enter { t.exit with st := s }

/-- The comparison of the answer's content, ModbusTestController.cpp:266-318; `true`: as expected. -/
def compare (c : Case) (r : CRsp) : Exec Bool :=
  if c.func = fReadHolding ∨ c.func = fReadInput then
    if c.numItems * 2 ≠ r.data.length then .ok false
    else do
      let e ← slice c.regs (c.startItem * 2) (c.numItems * 2)
      pure (r.data = e)
  else if c.func = fPresetSingle then
    if 2 ≠ r.data.length then .ok false
    else do
      let a ← slice c.data 0 c.data.length
      let e ← slice c.regs (c.startItem * 2) c.data.length
      pure (a = e)
  else if c.func = fPresetMulti then
    if 0 ≠ r.data.length then .ok false
    else do
      let a ← slice c.data 0 c.data.length
      let e ← slice c.regs (c.startItem * 2) c.data.length
      pure (a = e)
  else .ok false

/-- The content is looked at only in good answers, ModbusTestController.cpp:266. -/
def content (c : Case) (r : CRsp) : Exec Bool := if r.success = true ∧ r.error = 0 then compare c r else .ok true

/-- ModbusTestController.cpp:242-320; indexing the vector of test cases is not checked. -/
def check (t : Test) (r : CRsp) : Exec (Test × Verdict) :=
  let t := { t with counter := t.counter + 1 }
  match t.cases[r.transactId]? with
  | none => .ub
  | some c =>
    if c.clientId ≠ r.clientId then .ok (t, .error)
    else if c.success ≠ r.success then .ok (t, .error)
    else if c.error ≠ r.error then .ok (t, .error)
    else do
      let good ← content c r
      if good = false then pure (t, .error)
      else pure (t, if t.counter = t.cases.length then .done else .noerror)

/-- ModbusTestController.cpp:342-407: answer a request that the Modbus server forwarded.  `rsp.numBytes` has 16 bits. -/
def serve (t : Test) (serverId sessionId : Nat) (q : FwdReq) : Exec (Test × List Out) :=
  match t.cases[q.transactId]? with
  | none => .ub
  | some c =>
    let answer (d : List UInt8) : Out := .modbusAduRsp serverId sessionId ⟨q.transactId, c.error, c.success, d⟩
    if q.func = fReadHolding ∨ q.func = fReadInput then do
      let d ← slice c.regs (q.startItem * 2) (q.numItems * 2 % 65536)
      pure (t, [answer d])
    else if q.func = fPresetSingle then do
      let regs ← patch c.regs (q.startItem * 2) q.data
      pure ({ t with cases := t.cases.set q.transactId { c with regs } }, [answer q.data])
    else if q.func = fPresetMulti then do
      let regs ← patch c.regs (q.startItem * 2) q.data
      pure ({ t with cases := t.cases.set q.transactId { c with regs } }, [answer []])
    else pure (t, [answer []])

/-- `onStart`: ModbusTestInit.cpp:14-17, otherwise logged. -/
def onStart (t : Test) : Test × List Out :=
  match t.st with
  | .init => (t, [.modbusInitReq 1 1])
  | _ => (t, [])

/-- `onStop`: ModbusTestInit.cpp:19-22, ModbusTestRun.cpp:37-40, ModbusTestSetup.cpp:20-23; `ModbusTestConfigure` does not
override it (ModbusTestState.hpp:35). -/
def onStop (t : Test) : Test × List Out :=
  match t.st with
  | .init => (t, [.modbusReleaseReq])
  | .configure => (t, [])
  | .run | .setup => t.transit .init

/-- ModbusTestInit.cpp:24-28 -/
def onInitRsp (t : Test) : Test × List Out :=
  match t.st with
  | .init => t.transit .configure
  | _ => (t, [])

/-- ModbusTestConfigure.cpp:14-18 -/
def onConfigRsp (t : Test) : Test × List Out :=
  match t.st with
  | .configure => t.transit .run
  | _ => (t, [])

/-- ModbusTestRun.cpp:16-30 -/
def onClientAduRsp (t : Test) (r : CRsp) : Exec (Test × List Out) :=
  match t.st with
  | .run => do
    let (t, v) ← t.check r
    match v with
    | .noerror => pure (t, [])
    | .done => pure (t.transit .setup)
    | .error => pure (t.transit .init)
  | _ => .ok (t, [])

/-- ModbusTestRun.cpp:32-35; the other states log. -/
def onAduReq (t : Test) (serverId sessionId : Nat) (q : FwdReq) : Exec (Test × List Out) :=
  match t.st with
  | .run => t.serve serverId sessionId q
  | _ => .ok (t, [])

/-- ModbusTestSetup.cpp:15-18.  The timer fires once. -/
def onTimer (t : Test) : Test × List Out :=
  if t.armed then
    let t := { t with armed := false }
    match t.st with
    | .setup => t.transit .run
    | _ => (t, [])
  else (t, [])

end Test

/-- The classes derived from `UaControllerState` (controller/ua/UaControllerInit.hpp, UaControllerInited.hpp). -/
inductive USt where
  | init
  | inited
deriving DecidableEq, Repr

/-- Answers of the UA components, controller/ua/UaControllerState.hpp:31-39. -/
inductive UaMsg where
  | secureChannelInitRsp
  | secureChannelConfigRsp
  | secureChannelReleaseRsp
  | transportInitRsp
  | transportConfigRsp
  | transportReleaseRsp
  | serviceInitRsp
  | serviceConfigRsp
  | serviceReleaseRsp
deriving DecidableEq, Repr

namespace USt

/-- UaControllerInit.cpp:8-12 with UaController.cpp:31-41; otherwise logged. -/
def onStart : USt → USt × List Out
  | .init => (.inited, [.uaSecureChannelInitReq, .uaTransportInitReq, .uaServiceInitReq])
  | .inited => (.inited, [])

/-- UaControllerInited.cpp:22-25 with UaController.cpp:43-53; otherwise logged. -/
def onStop : USt → USt × List Out
  | .init => (.init, [])
  | .inited => (.inited, [.uaSecureChannelReleaseReq, .uaTransportReleaseReq, .uaServiceReleaseReq])

/-- UaControllerInited.cpp:7-20 with UaController.cpp:55-104; otherwise logged. -/
def onMsg (s : USt) (m : UaMsg) : List Out :=
  match s, m with
  | .inited, .secureChannelInitRsp => [.uaSecureChannelConfigReq]
  | .inited, .transportInitRsp => [.uaTransportConfigReq uaAddr]
  | .inited, .serviceInitRsp => [.uaServiceConfigReq]
  | _, _ => []

end USt

/-- `ControllerComponent` (controller/ControllerComponent.hpp:88-89): the two owning pointers. -/
structure Ctl where
  modbus : Option Test
  ua : Option USt

/-- What reaches the component.  `start timerFree`: whether the reactor has a timer for the new test controller
(Reactor.cpp:57-73 throws otherwise). -/
inductive Ev where
  | start (timerFree : Bool)
  | stop
  | modbusInitRsp
  | modbusReleaseRsp
  | modbusConfigRsp
  | modbusClientAduRsp (r : CRsp)
  | modbusAduReq (serverId sessionId : Nat) (q : FwdReq)
  | ua (m : UaMsg)
  | timer

namespace Ctl

/-- ControllerComponent.cpp:7-13 -/
def create : Ctl := { modbus := none, ua := none }

/-- `if (modbus) modbus->...` for the handlers that cannot fail. -/
def onTest (c : Ctl) (f : Test → Test × List Out) : Ctl × List Out :=
  match c.modbus with
  | none => (c, [])
  | some t => ({ c with modbus := some (f t).1 }, (f t).2)

/-- `if (modbus) modbus->...` for the others. -/
def onTestE (c : Ctl) (f : Test → Exec (Test × List Out)) : Exec (Ctl × List Out) :=
  match c.modbus with
  | none => .ok (c, [])
  | some t => do
    let (t, o) ← f t
    pure ({ c with modbus := some t }, o)

/-- The handlers of ControllerComponent.cpp:38-163 and `ModbusTestController::onTimerEvent`.  A failed `start` throws before
anything is assigned, and the reactor loop catches it (Reactor.cpp:169-176).  `stop` uses both pointers without looking at
them. -/
def step (rnd : Nat → UInt8) (c : Ctl) : Ev → Exec (Ctl × List Out)
  | .start timerFree =>
    if timerFree then
      let (t, o1) := (Test.create rnd).onStart
      let (u, o2) := USt.init.onStart
      .ok (⟨some t, some u⟩, o1 ++ o2)
    else .ok (c, [])
  | .stop =>
    match c.modbus, c.ua with
    | some t, some u => .ok (⟨none, none⟩, t.onStop.2 ++ u.onStop.2)
    | _, _ => .ub
  | .modbusInitRsp => .ok (c.onTest (·.onInitRsp))
  | .modbusReleaseRsp => .ok (c, [])
  | .modbusConfigRsp => .ok (c.onTest (·.onConfigRsp))
  | .modbusClientAduRsp r => c.onTestE (·.onClientAduRsp r)
  | .modbusAduReq serverId sessionId q => c.onTestE (·.onAduReq serverId sessionId q)
  | .ua m =>
    match c.ua with
    | none => .ok (c, [])
    | some u => .ok (c, u.onMsg m)
  | .timer => .ok (c.onTest (·.onTimer))

end Ctl

/-- What an observer of the component sees, in order. -/
inductive Act where
  | rcv (e : Ev)
  | snd (o : Out)

/-- A history: the log grows by the event and then by what the component sends. -/
def run (rnd : Nat → UInt8) (c : Ctl) (log : List Act) : List Ev → Exec (Ctl × List Act)
  | [] => .ok (c, log)
  | e :: es => do
    let (c, o) ← c.step rnd e
    run rnd c (log ++ .rcv e :: o.map .snd) es

end Uscada.Controller
