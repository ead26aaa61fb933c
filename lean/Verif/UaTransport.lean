import Verif.UaConnection
import Verif.StateExec
import Verif.UaPool
/-!
# `UaTcpServer` and `UaTcpConnection` (ua/transport/server)

The server with its 32 connections is one state, because a connection that ends gives its identifier back to the
server.  Connections are identified by their id; `conns` is read at the ids 1 to 32 only.

* link = `link` (pointer set) and `opened` (file descriptor open), timer = `timer` and `armed`, as in `UaConnection`.
* `TEnv` collects what the environment decides during one event.
* `log` is a ghost of each connection: what it sent to the peer and to the secure channel component, which channel it
  was told to belong to, that the channel component asked for its end, and that it gave back its identifier.
* `Sender::sendMsg` never fails for the sender (Reactor.cpp:109-118 drops the message with a log if the mailbox is full).
* Not modelled: that releasing a link destroys the `std::function` being executed; several acceptors (a second
  `UaTransportConfigReq` replaces the acceptor).
-/

namespace Uscada.Ua

open Modbus (Rx)
open SM

/-- UaTcpConnectionInit, UaTcpConnectionReceiveHello, UaTcpConnectionConnected. -/
inductive TSt where
  | init
  | hello
  | connected
deriving DecidableEq, Repr

/-- Messages a connection sends to the secure channel component.  `chunk` is the flag byte of the header (the code
translates it to an enumeration with one value for all unknown bytes). -/
inductive Up where
  | «open» (channel : UInt32) (chunk : UInt8) (data : List UInt8)
  | message (channel : UInt32) (chunk : UInt8) (data : List UInt8)
  | close (channel : UInt32) (chunk : UInt8) (data : List UInt8)
  | released (channel : UInt32)
deriving DecidableEq, Repr

/-- The ghost log: what an observer of a connection sees. -/
inductive TAct where
  /-- a link was accepted and is served from now on -/
  | accepted
  /-- bytes written to the peer -/
  | sent (bytes : List UInt8)
  /-- a message to the secure channel component -/
  | up (m : Up)
  /-- the secure channel component assigned this channel (`MsgUaOpenSecureChannelRsp`) -/
  | assigned (channel : UInt32)
  /-- the secure channel component asked to end (`MsgUaConnectionReleaseReq`) -/
  | asked
  /-- the identifier was given back -/
  | released
deriving DecidableEq, Repr

/-- UaTcpConnection.hpp (members) and `FsmBase::state`. -/
structure Tcp where
  st : TSt
  rx : Buf
  link : Bool
  opened : Bool
  timer : Bool
  armed : Bool
  assoc : Option UInt32
  log : List TAct

/-- UaTcpConnection.cpp:11-17. -/
def Tcp.create (m : Mem) : Tcp :=
  { st := .init, rx := Buf.create m, link := false, opened := false, timer := false, armed := false, assoc := none,
    log := [] }

/-- UaTcpServer.hpp (member `connectionPool`). -/
structure Srv where
  ids : Queue Nat
  conns : Nat → Tcp

/-- UaTcpServer.cpp:7-12; the receive buffers are uninitialised. -/
def Srv.create (m : Nat → Mem) : Exec Srv := do
  let ids ← Pool.create
  pure { ids, conns := fun k => Tcp.create (m k) }

/-- Change connection `k`. -/
def Srv.set (s : Srv) (k : Nat) (t : Tcp) : Srv := { s with conns := fun i => if i = k then t else s.conns i }

/-- What is undetermined during one event: what the reactor and the system calls answer, and what the link holds. -/
structure TEnv where
  linkFree : Bool
  accepts : Bool
  timerFree : Bool
  starts : Bool
  writes : Bool
  rx : Rx

/-- member functions of connection `k` -/
def conn (k : Nat) (f : Tcp → Tcp) : SM Srv Unit := modify fun s => s.set k (f (s.conns k))

/-- Connection `k` as it is. -/
def self (k : Nat) : SM Srv Tcp := fun s => (.ok (s.conns k), s)

/-- An entry of the ghost log of connection `k`. -/
def note (k : Nat) (a : TAct) : SM Srv Unit := conn k fun t => { t with log := t.log ++ [a] }

namespace Transport

/-! ## UaTcpConnection.cpp -/

/-- UaTcpConnection.cpp:23-34. -/
def sendReleaseInd (k : Nat) : SM Srv Unit := do
  let t ← self k
  match t.assoc with
  | none => pure ()
  | some c => note k (.up (.released c))

/-- `link->send`, Link.cpp:101-113. -/
def linkSend (k : Nat) (e : TEnv) (bytes : List UInt8) : SM Srv Res := do
  let t ← self k
  if t.link then
    if t.opened && e.writes then do
      note k (.sent bytes)
      pure .done
    else pure .error
  else undefined

/-- The frame of UaTcpConnection.cpp:44-57, 72-85 and 104-117 sent to the peer. -/
def sendSecured (k : Nat) (e : TEnv) (a b c chunk : UInt8) (channel : UInt32) (data : List UInt8) : SM Srv Res := do
  let f ← lift (frame garbage (secEnc a b c chunk channel data))
  linkSend k e f

/-- UaTcpConnection.cpp:36-66. -/
def receiveSendReq (k : Nat) (e : TEnv) (channel : UInt32) (chunk : UInt8) (data : List UInt8) : SM Srv Res := do
  let t ← self k
  if t.assoc = some channel then sendSecured k e 0x4D 0x53 0x47 chunk channel data
  else pure .error

/-- UaTcpConnection.cpp:68-94. -/
def receiveOpenRsp (k : Nat) (e : TEnv) (channel : UInt32) (chunk : UInt8) (data : List UInt8) : SM Srv Res := do
  conn k fun t => { t with assoc := some channel }
  note k (.assigned channel)
  sendSecured k e 0x4F 0x50 0x4E chunk channel data

/-- UaTcpConnection.cpp:96-126. -/
def receiveCloseRsp (k : Nat) (e : TEnv) (channel : UInt32) (chunk : UInt8) (data : List UInt8) : SM Srv Res := do
  let t ← self k
  if t.assoc = some channel then sendSecured k e 0x43 0x4C 0x4F chunk channel data
  else pure .error

/-- UaTcpConnection.cpp:128-146: the accepted link is taken over. -/
def acceptLink (k : Nat) : SM Srv Unit := conn k fun t => { t with link := true, opened := true }

/-- UaTcpServer.cpp:48-51. -/
def releaseId (k : Nat) : SM Srv Unit := fun s =>
  match Pool.release s.ids k with
  | .ok q => (.ok (), { s with ids := q })
  | .throws => (.throws, s)
  | .abort => (.abort, s)
  | .ub => (.ub, s)

/-- UaTcpConnection.cpp:148-154. -/
def release (k : Nat) : SM Srv Unit := do
  conn k fun t => { t with assoc := none, link := false, opened := false, timer := false, armed := false }
  note k .released
  releaseId k

/-- UaTcpConnection.cpp:156-159; Reactor.cpp throws when no timer is left. -/
def allocTimer (k : Nat) (e : TEnv) : SM Srv Unit :=
  if e.timerFree then conn k fun t => { t with timer := true, armed := false } else throws

/-- UaTcpConnection.cpp:161-164, Timer.cpp:71-89. -/
def startTimer (k : Nat) (e : TEnv) : SM Srv Unit := do
  let t ← self k
  if t.timer then
    if e.starts then conn k fun t => { t with armed := true } else throws
  else undefined

/-- UaTcpConnection.cpp:166-169. -/
def stopTimer (k : Nat) : SM Srv Unit := do
  let t ← self k
  if t.timer then conn k fun t => { t with armed := false } else undefined

/-- UaTcpConnection.cpp:171-174. -/
def receivePreaction (k : Nat) : SM Srv Unit := conn k fun t => { t with rx := t.rx.reset }

/-- UaTcpConnection.cpp:176-216. -/
def receiveRx (k : Nat) (e : TEnv) : SM Srv Res := do
  let t ← self k
  if t.link then do
    let x ← lift (receive t.opened e.rx t.rx)
    conn k fun t => { t with rx := x.2 }
    pure x.1
  else if 1024 < t.rx.size then pure .error
  else undefined

/-- UaTcpConnection.cpp:239-241; as in `decodeHandshake` the read position after an exception is 32 further on. -/
def decodeHello (k : Nat) : SM Srv Unit := do
  let t ← self k
  match handshakeDec .server t.rx with
  | .ok (_, b) => conn k fun t => { t with rx := b }
  | .throws => do
    conn k fun t => { t with rx := t.rx.skip 32 }
    throws
  | .abort => lift .abort
  | .ub => undefined

/-- UaTcpConnection.cpp:248-279. -/
def sendAcknowledge (k : Nat) (e : TEnv) : SM Srv Res := do
  let f ← lift (frame garbage ackEnc)
  linkSend k e f

/-- UaTcpConnection.cpp:218-246. -/
def receiveHello (k : Nat) (e : TEnv) : SM Srv Res := do
  let x ← receiveRx k e
  match x with
  | .noerror => pure .noerror
  | .error => pure .error
  | .done => do
    decodeHello k
    sendAcknowledge k e

/-- UaSecMsgType.hpp. -/
inductive SecType where
  | msg
  | opn
  | clo
  | invalid
deriving DecidableEq, Repr

/-- UaMessageHeader.hpp:39-54 at the read position. -/
def secType (b : Buf) : SecType :=
  if byteIs b 0 0x4D && byteIs b 1 0x53 && byteIs b 2 0x47 then .msg
  else if byteIs b 0 0x4F && byteIs b 1 0x50 && byteIs b 2 0x4E then .opn
  else if byteIs b 0 0x43 && byteIs b 1 0x4C && byteIs b 2 0x4F then .clo
  else .invalid

/-- Bytes of a `MsgStore` (4096, MaxMsgSize.hpp:6) that are left for `data` behind the 24 bytes of
MsgUaSecuredMessageReceiveInd, MsgUaOpenSecureChannelReq, MsgUaCloseSecureChannelReq. -/
def upRoom : Nat := 4072

/-- UaTcpConnection.cpp:314-315, 326-327, 343-344: `length = size()` and `memcpy(data, begin(), size())`, that is `head`
bytes from `tail` on. -/
def handUp (b : Buf) : Exec (List UInt8) :=
  if b.tail + b.size ≤ maxPacketLen ∧ b.size ≤ upRoom then .ok b.bytes else .ub

/-- UaTcpConnection.cpp:292-355 behind the decoded header. -/
def forward (k : Nat) (ty : SecType) (h : UaMessageHeader) : SM Srv Res := do
  let t ← self k
  match ty with
  | .msg =>
    if t.assoc = some h.secureChannelId then do
      let d ← lift (handUp t.rx)
      note k (.up (.message h.secureChannelId h.isFinal d))
      pure .done
    else pure .error
  | .opn => do
    let d ← lift (handUp t.rx)
    note k (.up (.open h.secureChannelId h.isFinal d))
    pure .done
  | .clo =>
    if t.assoc = some h.secureChannelId then do
      let d ← lift (handUp t.rx)
      note k (.up (.close h.secureChannelId h.isFinal d))
      pure .done
    else pure .error
  | .invalid => pure .error

/-- UaTcpConnection.cpp:281-356. -/
def receiveSecuredMessage (k : Nat) (e : TEnv) : SM Srv Res := do
  let x ← receiveRx k e
  match x with
  | .noerror => pure .noerror
  | .error => pure .error
  | .done => do
    let t ← self k
    let r ← lift (dec (Ua.init : UaMessageHeader) t.rx)
    conn k fun t => { t with rx := r.2 }
    forward k (secType t.rx) r.1

/-! ## States -/

/-- `onExit`: UaTcpConnectionReceiveHello.cpp:40-43, UaTcpConnectionConnected.cpp:98-101. -/
def exit (k : Nat) : TSt → SM Srv Unit
  | .init => pure ()
  | .hello => stopTimer k
  | .connected => stopTimer k

/-- FsmBase.hpp `transit`. -/
def transit (k : Nat) (target : TSt) (enter : SM Srv Unit) : SM Srv Unit := do
  let t ← self k
  if t.st = target then pure ()
  else do
    exit k t.st
    conn k fun t => { t with st := target }
    enter

/-- UaTcpConnectionInit.cpp:8-11. -/
def toInit (k : Nat) : SM Srv Unit := transit k .init (release k)

/-- UaTcpConnectionReceiveHello.cpp:10-14. -/
def toHello (k : Nat) (e : TEnv) : SM Srv Unit := transit k .hello do
  startTimer k e
  receivePreaction k

/-- UaTcpConnectionConnected.cpp:9-13. -/
def toConnected (k : Nat) (e : TEnv) : SM Srv Unit := transit k .connected do
  startTimer k e
  receivePreaction k

/-- UaTcpConnectionConnected.cpp:27-32 and the same lines of the other handlers. -/
def fail (k : Nat) : SM Srv Unit := do
  sendReleaseInd k
  toInit k

/-- UaTcpConnectionInit.cpp:13-18; other states log. -/
def onAcceptLink (k : Nat) (e : TEnv) : SM Srv Unit := do
  let t ← self k
  match t.st with
  | .init => do
    acceptLink k
    allocTimer k e
    note k .accepted
    toHello k e
  | _ => pure ()

/-- UaTcpConnectionReceiveHello.cpp:16-33, UaTcpConnectionConnected.cpp:15-34. -/
def onData (k : Nat) (e : TEnv) : SM Srv Unit := do
  let t ← self k
  match t.st with
  | .init => pure ()
  | .hello => do
    let x ← receiveHello k e
    match x with
    | .noerror => pure ()
    | .done => toConnected k e
    | .error => toInit k
  | .connected => do
    let x ← receiveSecuredMessage k e
    match x with
    | .noerror => pure ()
    | .done => do
      startTimer k e
      receivePreaction k
    | .error => fail k

/-- Messages of the secure channel component to a connection. -/
inductive Down where
  | openRsp (channel : UInt32) (chunk : UInt8) (data : List UInt8)
  | closeRsp (channel : UInt32) (chunk : UInt8) (data : List UInt8)
  | sendReq (channel : UInt32) (chunk : UInt8) (data : List UInt8)
  | releaseReq
deriving DecidableEq, Repr

/-- UaTcpConnectionConnected.cpp:38-50, 55-67, 72-84: anything but `done` ends the connection. -/
def answered (k : Nat) : Res → SM Srv Unit
  | .done => pure ()
  | .noerror => fail k
  | .error => fail k

/-- UaTcpConnectionConnected.cpp:36-90; the other states log. -/
def onReceive (k : Nat) (e : TEnv) (m : Down) : SM Srv Unit := do
  let t ← self k
  match t.st with
  | .connected => match m with
    | .openRsp c f d => do
      let x ← receiveOpenRsp k e c f d
      answered k x
    | .closeRsp c f d => do
      let x ← receiveCloseRsp k e c f d
      answered k x
    | .sendReq c f d => do
      let x ← receiveSendReq k e c f d
      answered k x
    | .releaseReq => do
      note k .asked
      toInit k
  | _ => pure ()

/-- UaTcpConnectionReceiveHello.cpp:35-38, UaTcpConnectionConnected.cpp:92-96; the timer is one-shot. -/
def onTimer (k : Nat) : SM Srv Unit := do
  conn k fun t => { t with armed := false }
  let t ← self k
  match t.st with
  | .init => pure ()
  | .hello => toInit k
  | .connected => fail k

/-- Link.cpp:140-175 closes the file descriptor and reports the error, which every state only logs
(UaTcpConnectionState.hpp). -/
def onError (k : Nat) : SM Srv Unit := conn k fun t => { t with opened := false }

/-! ## UaTcpServer.cpp -/

/-- UaTcpServer.cpp:60-61. -/
def allocId : SM Srv (Option Nat) := fun s =>
  match Pool.alloc s.ids with
  | .ok (r, q) => (.ok r, { s with ids := q })
  | .throws => (.throws, s)
  | .abort => (.abort, s)
  | .ub => (.ub, s)

/-- UaTcpServer.cpp:57-58: Reactor.cpp throws when no link is left, Acceptor.cpp when `accept` fails. -/
def takeLink (e : TEnv) : SM Srv Unit := if e.linkFree && e.accepts then pure () else throws

/-- UaTcpServer.cpp:53-68.  The link is created and accepted first; it is dropped when no connection is free. -/
def onAccept (e : TEnv) : SM Srv Unit := do
  takeLink e
  let r ← allocId
  match r with
  | none => pure ()
  | some k => onAcceptLink k e

/-- Everything that can happen to the server.  Link and timer events reach the connection that owns the link or the
timer. -/
inductive TEv where
  | accept
  | linkData (k : Nat)
  | linkError (k : Nat)
  | timer (k : Nat)
  /-- UaTcpServer.cpp:18-40 -/
  | down (k : Nat) (m : Down)
deriving DecidableEq, Repr

/-- UaTcpServer.cpp:18-40: the id of a message is not checked by `UaEntityPool::get`. -/
def event (e : TEnv) : TEv → SM Srv Unit
  | .accept => onAccept e
  | .linkData k => onData k e
  | .linkError k => onError k
  | .timer k => onTimer k
  | .down k m => if Pool.valid k then onReceive k e m else undefined

/-- An event that the environment can raise: only links and timers that exist raise events. -/
def Possible (s : Srv) : TEv → Prop
  | .accept => True
  | .linkData k => Pool.valid k ∧ (s.conns k).link = true
  | .linkError k => Pool.valid k ∧ (s.conns k).link = true
  | .timer k => Pool.valid k ∧ (s.conns k).armed = true
  | .down _ _ => True

/-- One event. -/
def next (s : Srv) (e : TEnv) (v : TEv) : Exec Srv := settle (event e v s)

end Transport

open Transport in
/-- The server after a history of possible events. -/
inductive Srv.Reach (m : Nat → Mem) : List (TEnv × TEv) → Srv → Prop
  | create {s : Srv} (h : Srv.create m = .ok s) : Reach m [] s
  | step {evs : List (TEnv × TEv)} {s s' : Srv} {e : TEnv} {v : TEv} (h : Reach m evs s) (hp : Possible s v)
      (hn : next s e v = .ok s') : Reach m (evs ++ [(e, v)]) s'

end Uscada.Ua
