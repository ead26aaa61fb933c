import Verif.UaFramingProps
/-!
# `ClientConnection` and `ServerConnection` (common/ua/protocols/connection)

Both classes share `OpcUaConnection` and the same four states; `Role` tells them apart.

* The link is the pair `link` (the pointer is set) and `opened` (it has a file descriptor); the timer is
  `timer` (the pointer is set) and `armed`.
* What the environment decides during one event is collected in `Env`: whether the reactor pools have an
  entry left, whether `connect`, `timer_settime` and `write` succeed, what `read` delivers, and what the
  user does when notified.  Stopping a timer is assumed to succeed.
* Each event raises at most one notification and the calls a user may make raise none, so the user's
  reaction is a list of calls executed at the notification.
* An exception leaves the state as it is at the throw; `CM` keeps it.
* `log` is a ghost: notifications, bytes sent, attempts begun and closes accepted, in order.
* Not modelled: that releasing a link destroys the `std::function` being executed.
-/

namespace Uscada.Ua

open Modbus (Rx)

/-- `OpcUaClientConnection` or `OpcUaServerConnection` (the two classes derived from OpcUaConnection.hpp). -/
inductive Role where
  | client
  | server
deriving DecidableEq, Repr

/-- ClientConnectionInit/Connecting/ReceiveAck/Connected and ServerConnectionInit/Connecting/ReceiveHello/Connected. -/
inductive CSt where
  | init
  | connecting
  | handshake
  | connected
deriving DecidableEq, Repr

/-- `OpcUaConnectionHandler`; `data` carries what the receive buffer holds at the notification. -/
inductive Note where
  | connected
  | data (bytes : List UInt8)
  | closed
  | error
deriving DecidableEq, Repr

/-- The ghost log: what an observer of a connection sees. -/
inductive Act where
  /-- a `connect` or `accept` call got its resources and leaves the idle state -/
  | attempt
  /-- a `close` call was accepted -/
  | closing
  /-- bytes written to the link -/
  | sent (bytes : List UInt8)
  /-- a notification -/
  | note (n : Note)
deriving DecidableEq, Repr

/-- OpcUaConnection.hpp (members `link`, `timer`, `rx`) and `FsmBase::state`. -/
structure Conn where
  st : CSt
  rx : Buf
  link : Bool
  opened : Bool
  timer : Bool
  armed : Bool
  log : List Act

/-- ClientConnection.cpp:11-15, ServerConnection.cpp:12-16. -/
def Conn.create (m : Mem) : Conn :=
  { st := .init, rx := Buf.create m, link := false, opened := false, timer := false, armed := false, log := [] }

/-- What a user may do with a connection. -/
inductive Call where
  | connect
  | accept
  | close
  | send (bytes : List UInt8)
  /-- read `n` bytes of the receive buffer through a codec -/
  | consume (n : Nat)
  /-- throw an exception -/
  | fail
deriving DecidableEq, Repr

/-- What is undetermined during one event: what the reactor and the system calls answer, what the link holds, and
what the user does in each notification. -/
structure Env where
  linkFree : Bool
  timerFree : Bool
  connects : Bool
  starts : Bool
  writes : Bool
  rx : Rx
  onConnected : List Call
  onData : List Call
  onClosed : List Call
  onError : List Call

/-- Operations on a connection: the state survives exceptions. -/
def CM (α : Type) : Type := Conn → Exec α × Conn

namespace CM

/-- continue with the next operation or pass the abnormal outcome on -/
def andThen {α β : Type} (r : Exec α × Conn) (f : α → CM β) : Exec β × Conn :=
  match r with
  | (.ok a, c) => f a c
  | (.throws, c) => (.throws, c)
  | (.abort, c) => (.abort, c)
  | (.ub, c) => (.ub, c)

instance : Monad CM where
  pure a := fun c => (.ok a, c)
  bind m f := fun c => andThen (m c) f

theorem pure_run {α : Type} (a : α) (c : Conn) : (pure a : CM α) c = (.ok a, c) := rfl
theorem bind_run {α β : Type} (m : CM α) (f : α → CM β) (c : Conn) : (m >>= f) c = andThen (m c) f := rfl

/-- an access through a null pointer -/
def undefined {α : Type} : CM α := fun c => (.ub, c)

/-- a C++ exception -/
def throws {α : Type} : CM α := fun c => (.throws, c)

/-- a change of the object -/
def modify (f : Conn → Conn) : CM Unit := fun c => (.ok (), f c)

/-- the object as it is -/
def get : CM Conn := fun c => (.ok c, c)

/-- a plain computation -/
def lift {α : Type} (e : Exec α) : CM α := fun c =>
  match e with
  | .ok a => (.ok a, c)
  | .throws => (.throws, c)
  | .abort => (.abort, c)
  | .ub => (.ub, c)

end CM

open CM

/-- An entry of the ghost log. -/
def logAct (a : Act) : CM Unit := modify fun c => { c with log := c.log ++ [a] }

/-! ## OpcUaConnection.cpp -/

/-- OpcUaConnection.cpp:23-27 with an accepted link. -/
def setLink : CM Unit := modify fun c => { c with link := true, opened := true }

/-- OpcUaConnection.cpp:29-32; Reactor.cpp:75-90 throws when no link is left. -/
def allocLink (e : Env) : CM Unit :=
  if e.linkFree then modify fun c => { c with link := true, opened := false } else throws

/-- OpcUaConnection.cpp:34-37; Reactor.cpp throws when no timer is left. -/
def allocTimer (e : Env) : CM Unit :=
  if e.timerFree then modify fun c => { c with timer := true, armed := false } else throws

/-- OpcUaConnection.cpp:39-43; the deleters close link and timer. -/
def releaseResources : CM Unit :=
  modify fun c => { c with link := false, opened := false, timer := false, armed := false }

/-- OpcUaConnection.cpp:45-48, Link.cpp:40-74. -/
def connectLink (e : Env) : CM Unit := fun c =>
  if c.link then
    if e.connects then (.ok (), { c with opened := true }) else (.throws, { c with opened := false })
  else (.ub, c)

/-- OpcUaConnection.cpp:50-53, Link.cpp:76-93. -/
def closeLink : CM Unit := fun c => if c.link then (.ok (), { c with opened := false }) else (.ub, c)

/-- OpcUaConnection.cpp:55-64, Link.cpp:101-113. -/
def send (e : Env) (bytes : List UInt8) : CM Res := fun c =>
  if c.link then
    if c.opened && e.writes then (.ok .done, { c with log := c.log ++ [.sent bytes] }) else (.ok .error, c)
  else (.ub, c)

/-- OpcUaConnection.cpp:66-69. -/
def receivePreaction : CM Unit := modify fun c => { c with rx := c.rx.reset }

/-- OpcUaConnection.cpp:71-111. -/
def receiveRx (e : Env) : CM Res := fun c =>
  if c.link then
    match receive c.opened e.rx c.rx with
    | .ok (r, b) => (.ok r, { c with rx := b })
    | .throws => (.throws, c)
    | .abort => (.abort, c)
    | .ub => (.ub, c)
  else if 1024 < c.rx.size then (.ok .error, c)
  else (.ub, c)

/-- OpcUaConnection.cpp:113-116, Timer.cpp:71-89. -/
def startTimer (e : Env) : CM Unit := fun c =>
  if c.timer then
    if e.starts then (.ok (), { c with armed := true }) else (.throws, c)
  else (.ub, c)

/-- OpcUaConnection.cpp:118-121. -/
def stopTimer : CM Unit := fun c => if c.timer then (.ok (), { c with armed := false }) else (.ub, c)

/-! ## State changes that raise no notification -/

/-- `onExit` of the four states. -/
def exit : CSt → CM Unit
  | .init => pure ()
  | _ => stopTimer

/-- FsmBase.hpp `transit`: leave, change, enter; nothing when already there. -/
def transit (target : CSt) (enter : CM Unit) : CM Unit := do
  let c ← get
  if c.st = target then pure ()
  else do
    exit c.st
    modify fun c => { c with st := target }
    enter

/-- ClientConnectionInit.cpp:8-11, ServerConnectionInit.cpp:9-12. -/
def toInit : CM Unit := transit .init releaseResources

/-- ClientConnectionConnecting.cpp:9-13, ServerConnectionConnecting.cpp:9-13. -/
def toConnecting (e : Env) : CM Unit := transit .connecting do
  connectLink e
  startTimer e

/-- ClientConnectionReceiveAck.cpp:9-13, ServerConnectionReceiveHello.cpp:9-13. -/
def toHandshake (e : Env) : CM Unit := transit .handshake do
  startTimer e
  receivePreaction

/-! ## Calls of the user -/

/-- ClientConnection.cpp:21-24, ClientConnectionInit.cpp:13-19 and the same of the server; other states log. -/
def userConnect (e : Env) : CM Unit := do
  let c ← get
  match c.st with
  | .init => do
    allocLink e
    allocTimer e
    logAct .attempt
    toConnecting e
  | _ => pure ()

/-- ServerConnection.cpp:27-30, ServerConnectionInit.cpp:22-27; a client has no such call. -/
def userAccept (e : Env) : CM Unit := do
  let c ← get
  match c.st with
  | .init => do
    setLink
    allocTimer e
    logAct .attempt
    toHandshake e
  | _ => pure ()

/-- ClientConnectionConnected.cpp:37-41, ServerConnectionConnected.cpp; other states log. -/
def userClose : CM Unit := do
  let c ← get
  match c.st with
  | .connected => do
    logAct .closing
    closeLink
    toInit
  | _ => pure ()

/-- A call of the user (OpcUaConnection.hpp and the derived classes). -/
def call (r : Role) (e : Env) : Call → CM Unit
  | .connect => userConnect e
  | .accept => match r with
    | .server => userAccept e
    | .client => pure ()
  | .close => userClose
  | .send bytes => do
    let _ ← send e bytes
    pure ()
  | .consume n => modify fun c => { c with rx := c.rx.skip n }
  | .fail => throws

/-- The calls a user makes inside of one notification, in order. -/
def calls (r : Role) (e : Env) : List Call → CM Unit
  | [] => pure ()
  | x :: xs => do
    call r e x
    calls r e xs

/-! ## Notifications, OpcUaConnection.cpp:123-141 -/

/-- OpcUaConnection.cpp:123-126. -/
def notifyConnected (r : Role) (e : Env) : CM Unit := do
  logAct (.note .connected)
  calls r e e.onConnected

/-- OpcUaConnection.cpp:128-131. -/
def notifyData (r : Role) (e : Env) : CM Unit := do
  let c ← get
  logAct (.note (.data c.rx.bytes))
  calls r e e.onData

/-- OpcUaConnection.cpp:133-136. -/
def notifyClosed (r : Role) (e : Env) : CM Unit := do
  logAct (.note .closed)
  calls r e e.onClosed

/-- OpcUaConnection.cpp:138-141. -/
def notifyError (r : Role) (e : Env) : CM Unit := do
  logAct (.note .error)
  calls r e e.onError

/-- ClientConnectionConnected.cpp:8-13, ServerConnectionConnected.cpp:8-13. -/
def toConnected (r : Role) (e : Env) : CM Unit := transit .connected do
  notifyConnected r e
  receivePreaction
  startTimer e

/-- the three lines every failing branch ends with -/
def closeAndReport (r : Role) (e : Env) : CM Unit := do
  closeLink
  notifyError r e
  toInit

/-! ## Handshake -/

/-- Byte `i` behind the read position equals `v`. -/
def byteIs (b : Buf) (i : Nat) (v : UInt8) : Bool := b.packet (b.tail + i) == v

/-- MessageHeader.hpp:37-45: `isMsgAck` for the client, `isMsgHello` for the server. -/
def isHandshake (r : Role) (b : Buf) : Bool :=
  match r with
  | .client => byteIs b 0 0x41 && byteIs b 1 0x43 && byteIs b 2 0x4B
  | .server => byteIs b 0 0x48 && byteIs b 1 0x45 && byteIs b 2 0x4C

/-- ClientConnection.cpp:77-81 and ServerConnection.cpp:102-106; the content is not used. -/
def handshakeDec : Role → Codec Unit
  | .client => do
    let _ ← dec (Ua.init : MessageHeader)
    let _ ← dec (Ua.init : AcknowledgeMessage)
    pure ()
  | .server => do
    let _ ← dec (Ua.init : MessageHeader)
    let _ ← dec (Ua.init : HelloMessage)
    pure ()

/-- The decoder run on the receive buffer.  It throws only for a negative string length in Hello, read at
offset 28, so the read position then stands at 32. -/
def decodeHandshake (r : Role) : CM Unit := fun c =>
  match handshakeDec r c.rx with
  | .ok (_, b) => (.ok (), { c with rx := b })
  | .throws => (.throws, { c with rx := c.rx.skip 32 })
  | .abort => (.abort, c)
  | .ub => (.ub, c)

/-- ClientConnection.cpp:52-86 (`receiveAck`), ServerConnection.cpp:78-109 (`receiveHello`). -/
def receiveHandshake (r : Role) (e : Env) : CM Res := do
  let x ← receiveRx e
  match x with
  | .noerror => pure .noerror
  | .error => pure .error
  | .done => do
    let c ← get
    if isHandshake r c.rx then do
      decodeHandshake r
      pure .done
    else pure .error

/-- The transmit buffer is uninitialised stack memory; `C45_hello` etc. show that it does not matter. -/
def garbage : Mem := fun _ => 0xCD

/-- ClientConnection.cpp:88-113 `sendHello`, ServerConnection.cpp:58-76 `sendReverseHello`. -/
def sendOpening (r : Role) (e : Env) : CM Res := do
  let f ← lift (frame garbage (match r with | .client => helloEnc | .server => reverseHelloEnc))
  send e f

/-- ServerConnection.cpp:111-137. -/
def sendAcknowledge (e : Env) : CM Res := do
  let f ← lift (frame garbage ackEnc)
  send e f

/-! ## Events -/

/-- ClientConnectionConnecting.cpp:15-38, ServerConnectionConnecting.cpp:15-37; other states log.  `send` never
answers `noerror`, the branch for it (client: notify only) is kept as in the client. -/
def onConnected (r : Role) (e : Env) : CM Unit := do
  let c ← get
  match c.st with
  | .connecting => do
    let x ← sendOpening r e
    match x with
    | .noerror => match r with
      | .client => notifyError r e
      | .server => pure ()
    | .done => toHandshake e
    | .error => closeAndReport r e
  | _ => pure ()

/-- What follows a complete handshake message: the client is connected (ClientConnectionReceiveAck.cpp:21-25), the
server answers first (ServerConnectionReceiveHello.cpp:21-43). -/
def onHandshake (r : Role) (e : Env) : CM Unit :=
  match r with
  | .client => toConnected r e
  | .server => do
    let y ← sendAcknowledge e
    match y with
    | .noerror => pure ()
    | .done => toConnected r e
    | .error => closeAndReport r e

/-- ClientConnectionReceiveAck.cpp:15-34, ServerConnectionReceiveHello.cpp:15-53, ClientConnectionConnected.cpp:15-35,
ServerConnectionConnected.cpp:15-35. -/
def onData (r : Role) (e : Env) : CM Unit := do
  let c ← get
  match c.st with
  | .handshake => do
    let x ← receiveHandshake r e
    match x with
    | .noerror => pure ()
    | .done => onHandshake r e
    | .error => closeAndReport r e
  | .connected => do
    let x ← receiveRx e
    match x with
    | .noerror => pure ()
    | .done => do
      notifyData r e
      receivePreaction
    | .error => closeAndReport r e
  | _ => pure ()

/-- Link.cpp:140-175 closes the file descriptor before it reports an error.  ClientConnectionConnecting.cpp:40-45 and the
same of the server; other states log. -/
def onError (r : Role) (e : Env) : CM Unit := do
  modify fun c => { c with opened := false }
  let c ← get
  match c.st with
  | .connecting => do
    notifyError r e
    toInit
  | _ => pure ()

/-- `onTimer` of the states (ClientConnectionConnecting.cpp:47-53, ServerConnectionConnecting.cpp:46-52,
ClientConnectionReceiveAck.cpp:36-41, ServerConnectionReceiveHello.cpp:55-61, ClientConnectionConnected.cpp:43-48,
ServerConnectionConnected.cpp:43-48).  The timer is one-shot. -/
def onTimer (r : Role) (e : Env) : CM Unit := do
  modify fun c => { c with armed := false }
  let c ← get
  match c.st with
  | .init => pure ()
  | .connecting => closeAndReport r e
  | .handshake => closeAndReport r e
  | .connected => do
    closeLink
    notifyClosed r e
    toInit

/-- Everything that can happen to a connection. -/
inductive Ev where
  | user (c : Call)
  | linkConnected
  | linkData
  | linkError
  | timer
deriving DecidableEq, Repr

/-- The handler of each event: the functions above. -/
def event (r : Role) (e : Env) : Ev → CM Unit
  | .user c => call r e c
  | .linkConnected => onConnected r e
  | .linkData => onData r e
  | .linkError => onError r e
  | .timer => onTimer r e

/-- One event; `Reactor::run` catches exceptions (Reactor.cpp:165-178) and goes on with the state as it is. -/
def Conn.next (r : Role) (c : Conn) (e : Env) (v : Ev) : Exec Conn :=
  match event r e v c with
  | (.ok _, c') => .ok c'
  | (.throws, c') => .ok c'
  | (.abort, _) => .abort
  | (.ub, _) => .ub

/-- A history of events. -/
def Conn.run (r : Role) (c : Conn) : List (Env × Ev) → Exec Conn
  | [] => .ok c
  | (e, v) :: rest => do
    let c' ← c.next r e v
    c'.run r rest

end Uscada.Ua
