import Verif.ModbusClient
/-!
# Modbus server sessions (modbus/server/session) and the server that owns them (modbus/server)

A session is modelled with its receive buffer, the stored request, its state machine and the link and
timer it holds.  What the peer and the operating system do is chosen by the events.  The server model
adds the identifier pool of `ModbusSessionPool` (a list; `Verif.QueueProps` proves that the queue
behaves like that) and the number of timers and links left in the reactor's pools.
-/

namespace Uscada.Modbus

/-- The classes derived from `ModbusSessionState`. -/
inductive SSt where
  | init
  | connected
  | wait
deriving DecidableEq, Repr

/-- `MsgModbusAduReq` (common/msg/MsgModbusAduReq.hpp:14-24), the request forwarded to the application. -/
structure FwdReq where
  transactId : Nat
  func : Nat
  addr : Nat
  startItem : Nat
  numItems : Nat
  numBytes : Nat
  data : List UInt8
deriving DecidableEq, Repr

/-- `MsgModbusAduRsp` (common/msg/MsgModbusAduRsp.hpp:14-22), the answer of the application; `numBytes` is the length of `data`. -/
structure AppRsp where
  transactId : Nat
  error : Nat
  success : Bool
  data : List UInt8
deriving DecidableEq, Repr

/-- Observable effects of a session. -/
inductive SOut where
  /-- request to the application -/
  | fwd (r : FwdReq)
  /-- bytes handed to the link -/
  | frame (w : List UInt8)
  /-- `handler.onReleaseSession` -/
  | released
deriving DecidableEq, Repr

/-- ModbusSession.hpp:68-77.  `link`/`timer`: the pointers are set; `opened`: the link has a file
descriptor; `armed`: the timer runs. -/
structure Session where
  st : SSt
  pdu : PduBuf
  adu : AduReq
  link : Bool
  timer : Bool
  opened : Bool
  armed : Bool

namespace Session

/-- ModbusSession.cpp:14-20, ModbusSessionFsm.cpp:8-12.  The buffers and most fields of the stored request are uninitialised;
`numBytes` is 0 and `data` points to the 260-byte buffer (AduRequest.hpp:13-27). -/
def create (m : Mem) (a : AduReq) : Session :=
  { st := .init, pdu := PduBuf.fresh m, adu := { a with numBytes := 0, dataCap := maxAduLen },
    link := false, timer := false, opened := false, armed := false }

/-- The message filled in ModbusSession.cpp:142-150. -/
def fwdOf (a : AduReq) : FwdReq :=
  { transactId := a.transactId, func := a.func, addr := a.addr, startItem := a.startItem,
    numItems := a.numItems, numBytes := a.numBytes, data := memRead a.data 0 a.numBytes }

/-- ModbusSession.cpp:106-153: the buffer already contains the newly read bytes. -/
def evaluate (s : Session) : Exec (Session × List SOut × Status) :=
  if isAduHdrReceived s.pdu = false then .ok (s, [], .noerror)
  else if isAduDataLenValid s.pdu = false then .ok (s, [], .error)
  else if isAduReceived s.pdu = false then .ok (s, [], .noerror)
  else if isAduValid s.pdu = false then .ok (s, [], .done)
  else do
    let (b, a, ok) ← decodeReq s.pdu s.adu
    let s := { s with pdu := b, adu := a }
    if ok = false then pure (s, [], .done)
    else if a.numBytes > a.dataCap then Exec.ub
    else
      pure (s, [.fwd (fwdOf a)], .done)

/-- ModbusSession.cpp:84-154; `link->` on a null pointer is undefined. -/
def receive (s : Session) (rx : Rx) : Exec (Session × List SOut × Status) :=
  if s.pdu.len > maxAduLen then .ok (s, [], .done)
  else if s.link = false then .ub
  else if s.opened = false then .ok (s, [], .error)
  else match rx with
    | .na => .ok (s, [], .noerror)
    | .error => .ok (s, [], .error)
    | .ok bytes => evaluate { s with pdu := s.pdu.received (bytes.take s.pdu.capacity) }

/-- The response structure filled in ModbusSession.cpp:171-179. -/
def rspOf (s : Session) (r : AppRsp) : AduRsp :=
  { transactId := r.transactId, func := if r.error ≠ 0 then fError else s.adu.func, addr := s.adu.addr,
    error := r.error, startItem := s.adu.startItem, numItems := s.adu.numItems,
    numBytes := r.data.length, data := fun i => r.data.getD i 0 }

/-- ModbusSession.cpp:156-208.  Copying more than 260 bytes into the response is undefined.  `m` is what the local buffer contains, `d` what the array of the
local response contains. -/
def sendIn (m d : Mem) (s : Session) (r : AppRsp) (sendOk : Bool) : Exec (List SOut × Status) :=
  if r.transactId ≠ s.adu.transactId then .ok ([], .done)
  else if r.success = false then .ok ([], .done)
  else if r.data.length > maxAduLen then .ub
  else do
    let (buf, ok) ← encodeRsp (PduBuf.fresh m) { rspOf s r with data := fun i => r.data.getD i (d i) }
    if ok = false then pure ([], .done)
    else if isAduValid buf = false then pure ([], .done)
    else if s.link = false then Exec.ub
    else if s.opened ∧ sendOk then pure ([.frame buf.content], .done)
    else pure ([], .error)

/-- ModbusSession.cpp:156-208 with zeros in the local variables; `C91_local` says that their content does not matter. -/
def send (s : Session) (r : AppRsp) (sendOk : Bool) : Exec (List SOut × Status) := sendIn (fun _ => 0) (fun _ => 0) s r sendOk

theorem send_body (s : Session) (r : AppRsp) (sendOk : Bool) : s.send r sendOk =
    (if r.transactId ≠ s.adu.transactId then .ok ([], .done)
    else if r.success = false then .ok ([], .done)
    else if r.data.length > maxAduLen then .ub
    else do
      let (buf, ok) ← encodeRsp (PduBuf.fresh fun _ => 0) (rspOf s r)
      if ok = false then pure ([], .done)
      else if isAduValid buf = false then pure ([], .done)
      else if s.link = false then Exec.ub
      else if s.opened ∧ sendOk then pure ([.frame buf.content], .done)
      else pure ([], .error)) := rfl

/-- `stopTimer`/`startTimer`, ModbusSession.cpp:69-77. -/
def setTimer (s : Session) (b : Bool) : Exec Session :=
  if s.timer then .ok { s with armed := b } else .ub

/-- `onExit`: ModbusSessionConnected.cpp:48-51, ModbusSessionWaitModbusAduRsp.cpp:60-63. -/
def exit (s : Session) : Exec Session :=
  match s.st with
  | .init => .ok s
  | .connected | .wait => s.setTimer false

/-- `onEnter`: ModbusSessionInit.cpp:9-12 with ModbusSession.cpp:210-215,
ModbusSessionConnected.cpp:11-15, ModbusSessionWaitModbusAduRsp.cpp:10-13. -/
def enter (s : Session) : Exec (Session × List SOut) :=
  match s.st with
  | .init => .ok ({ s with link := false, timer := false, opened := false, armed := false }, [.released])
  | .connected => do
    let s ← s.setTimer true
    pure ({ s with pdu := s.pdu.reset }, [])
  | .wait => do
    let s ← s.setTimer true
    pure (s, [])

/-- ModbusSessionFsm.hpp:29-42 -/
def transit (s : Session) (t : SSt) : Exec (Session × List SOut) :=
  if s.st = t then .ok (s, [])
  else do
    let s ← s.exit
    enter { s with st := t }

/-- Events reaching a session. -/
inductive Ev where
  /-- `start()` after `prepare` and a successful accept (ModbusServer.cpp:54-57) -/
  | start
  | data (rx : Rx)
  /-- link error or unexpected link event; the link is closed (Link.cpp:168-173) -/
  | linkError
  | rsp (r : AppRsp) (sendOk : Bool)
  | timer
deriving Repr

/-- ModbusSessionInit.cpp:14-17; other states only log (ModbusSessionState.hpp:18). -/
def onStart (s : Session) : Exec (Session × List SOut) :=
  match s.st with
  | .init => s.transit .connected
  | _ => .ok (s, [])

/-- ModbusSessionConnected.cpp:17-41, ModbusSessionWaitModbusAduRsp.cpp:15-30. -/
def onData (s : Session) (rx : Rx) : Exec (Session × List SOut) :=
  match s.st with
  | .init => .ok (s, [])
  | .connected => do
    let (s, o, r) ← s.receive rx
    match r with
    | .error => let (s, o') ← s.transit .init; pure (s, o ++ o')
    | .done => let (s, o') ← s.transit .wait; pure (s, o ++ o')
    | _ => pure (s, o)
  | .wait => do
    let (s, o, r) ← s.receive rx
    match r with
    | .error => let (s, o') ← s.transit .init; pure (s, o ++ o')
    | _ => pure (s, o)

/-- ModbusSessionWaitModbusAduRsp.cpp:32-52; other states only log. -/
def onRsp (s : Session) (r : AppRsp) (sendOk : Bool) : Exec (Session × List SOut) :=
  match s.st with
  | .init | .connected => .ok (s, [])
  | .wait => do
    let (o, res) ← s.send r sendOk
    match res with
    | .error => let (s, o') ← s.transit .init; pure (s, o ++ o')
    | .done => let (s, o') ← s.transit .connected; pure (s, o ++ o')
    | _ => pure (s, o)

/-- ModbusSessionConnected.cpp:43-46, ModbusSessionWaitModbusAduRsp.cpp:54-58. -/
def onTimer (s : Session) : Exec (Session × List SOut) :=
  match s.st with
  | .init => .ok (s, [])
  | .connected => s.transit .init
  | .wait => s.transit .connected

/-- One event.  Link and timer events reach a session only while it holds the object (the handlers are
cleared on release, Link.cpp:95-99, and a one-shot timer fires only while armed). -/
def step (s : Session) : Ev → Exec (Session × List SOut)
  | .start => onStart { s with link := true, timer := true, opened := true }
  | .data rx => if s.link then s.onData rx else .ok (s, [])
  | .linkError => .ok ({ s with opened := false }, [])
  | .rsp r ok => s.onRsp r ok
  | .timer => if s.armed then onTimer { s with armed := false } else .ok (s, [])

/-- A history: the effects of each event. -/
def run (s : Session) : List Ev → Exec (Session × List (Ev × List SOut))
  | [] => .ok (s, [])
  | e :: es => do
    let (s1, o) ← s.step e
    let (s2, os) ← run s1 es
    pure (s2, (e, o) :: os)

end Session

/-! ## The server -/

/-- modbus/server/ModbusServer.hpp.  `free` is the identifier queue of the session pool; `timers` and
`links` are the entries left in the reactor's pools (EntityPool.hpp:18-28, 32 each when nobody else
uses them). -/
structure Server where
  free : List Nat
  sess : Nat → Session
  timers : Nat
  links : Nat

namespace Server

/-- ModbusServer.hpp:40 -/
def maxNumSession : Nat := 256

/-- ModbusServer.cpp:12-17, ModbusSessionPool.cpp:7-15. -/
def create (s : Nat → Session) (timers links : Nat) : Server :=
  { free := List.range maxNumSession, sess := s, timers, links }

/-- Events reaching a server. -/
inductive Ev where
  /-- a connection is waiting; `acceptOk`: `accept(2)` and `epoll_ctl` succeed -/
  | accept (acceptOk : Bool)
  /-- event of a session -/
  | sess (i : Nat) (e : Session.Ev)
deriving Repr

/-- An element of the array of sessions changes. -/
def set (f : Nat → Session) (i : Nat) (s : Session) : Nat → Session := fun j => if j = i then s else f j

/-- `prepare` (ModbusSession.cpp:26-31, Reactor.cpp:57-90) and `Acceptor::accept`
(Acceptor.cpp:114-139) as far as resources are concerned; the result tells whether all
went well. -/
def prepare (v : Server) (i : Nat) (acceptOk : Bool) : Server × Bool :=
  if v.timers = 0 then (v, false)
  else
    let v := { v with timers := v.timers - 1, sess := set v.sess i { v.sess i with timer := true } }
    if v.links = 0 then (v, false)
    else
      let v := { v with links := v.links - 1, sess := set v.sess i { v.sess i with link := true } }
      (v, acceptOk)

/-- Give back what the session released: ModbusSession.cpp:210-215, ModbusServer.cpp:60-65.  The identifier
is pushed at each `onReleaseSession`; link and timer are unique pointers and go back once. -/
def absorb (v : Server) (i : Nat) (s : Session) (o : List SOut) : Server :=
  if .released ∈ o then
    { free := v.free ++ List.replicate (o.count .released) i, sess := set v.sess i s,
      timers := v.timers + (if (v.sess i).timer then 1 else 0),
      links := v.links + (if (v.sess i).link then 1 else 0) }
  else { v with sess := set v.sess i s }

/-- ModbusServer.cpp:38-58 with ModbusSessionPool.cpp:21-42.  When `accept` throws the state reached so
far stays (the reactor loop catches the exception).  `sessions[uid]` is unchecked. -/
def step (v : Server) : Ev → Exec (Server × List (Nat × SOut))
  | .accept ok =>
    match v.free with
    | [] => .ok (v, [])
    | i :: free =>
      let (v, good) := prepare { v with free } i ok
      if good = false then .ok (v, [])
      else do
        let (s, o) ← (v.sess i).step .start
        pure (absorb v i s o, o.map fun x => (i, x))
  | .sess i e =>
    match e with
    | .start => .ok (v, [])
    | e =>
      if i ≥ maxNumSession then .ub
      else do
        let (s, o) ← (v.sess i).step e
        pure (absorb v i s o, o.map fun x => (i, x))

/-- A history. -/
def run (v : Server) : List Ev → Exec Server
  | [] => .ok v
  | e :: es => do
    let (v, _) ← v.step e
    run v es

end Server

end Uscada.Modbus
