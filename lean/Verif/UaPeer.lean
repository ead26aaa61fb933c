import Verif.UaChannel
/-!
# `OpcUaServerSecureChannel` on top of `ServerConnection` (common/ua/protocols/secure)

The library variant of the server secure channel.  It owns its connection and is the handler of its notifications, so both
are modelled together: `Peer.conn` is the connection of `Verif.UaConnection`, and the notifications of the connection run
the code of the channel.

* `PEnv` holds what is undetermined during one event: what the connection's `Env` holds (its lists of user calls are not
  used, the channel is the user), the results of `rand`, the clock, where the read position stands after an exception of
  the decoder, and what the user of the channel does when notified.  An event raises at most one notification of the
  channel.
* `log` is a ghost: see `PAct`.
* The channel never calls `ServerConnection::connect`; the connection is never in its state Connecting and the handlers of
  that state are left out.
* `close()` of the channel is empty (OpcUaServerSecureChannel.cpp:61-64) and left out.
* A handler is set (OpcUaSecureChannel.cpp:15-18).
-/

namespace Uscada.Ua

open SM

/-- OpcUaServerSecureChannelInit, Connecting, ReceiveOpenReq, Established. -/
inductive PSt where
  | init
  | connecting
  | waiting
  | established
deriving DecidableEq, Repr

/-- OpcUaSecureChannel.hpp: the events the channel raises; `request` carries the receive buffer from the read position on.
`established` is never raised. -/
inductive PNote where
  | request (data : List UInt8)
  | closed
  | error
deriving DecidableEq, Repr

/-- The ghost log: what an observer of a server channel sees. -/
inductive PAct where
  /-- a call of `open` found the channel idle; the channel identifier chosen -/
  | opening (id : UInt32)
  /-- the connection delivered a chunk -/
  | got (d : List UInt8)
  /-- sequence number and request identifier of an open request were stored -/
  | moved (seq req : UInt32)
  /-- a token was chosen for the open request -/
  | issued (token : UInt32)
  /-- bytes were given to the link, which took them or not -/
  | sent (d : List UInt8) (ok : Bool)
  /-- a notification -/
  | note (n : PNote)
deriving DecidableEq, Repr

/-- OpcUaServerSecureChannel.hpp:53-61 and `FsmBase::state`. -/
structure Peer where
  conn : Conn
  st : PSt
  id : UInt32
  tx : UInt32
  rxSeq : UInt32
  reqId : UInt32
  lifetime : UInt32
  token : UInt32
  log : List PAct

/-- OpcUaServerSecureChannel.cpp:10-15, OpcUaServerSecureChannel.hpp:56-61; five members are uninitialised. -/
def Peer.create (m : Mem) (id rxSeq reqId lifetime token : UInt32) : Peer :=
  { conn := Conn.create m, st := .init, id, tx := 1, rxSeq, reqId, lifetime, token, log := [] }

/-- What a user may do with a channel. -/
inductive PCall where
  /-- `open` with an accepted link -/
  | «open»
  /-- `send` with a new buffer filled with these bytes -/
  | send (data : List UInt8)
  /-- read `n` bytes of the receive buffer through a codec -/
  | consume (n : Nat)
  /-- throw an exception -/
  | fail
deriving DecidableEq, Repr

/-- What is undetermined during one event: the connection's environment, the random numbers
(OpcUaServerSecureChannel.cpp:73,205), the two clock readings (228, 232), where a decoder that throws leaves the read
position, and what the user does when notified. -/
structure PEnv where
  env : Env
  id : UInt32
  token : UInt32
  now : DateTime
  now2 : DateTime
  stop : Nat
  react : List PCall

namespace Peer

/-- An entry of the ghost log. -/
def act (a : PAct) : SM Peer Unit := modify fun p => { p with log := p.log ++ [a] }

/-- An operation of the connection. -/
def onConn {α : Type} (m : CM α) : SM Peer α := fun p => ((m p.conn).1, { p with conn := (m p.conn).2 })

/-- A decoder run on the receive buffer of the connection. -/
def decode {α : Type} (e : PEnv) (d : Codec α) : SM Peer α := fun p =>
  match d p.conn.rx with
  | .ok (a, b) => (.ok a, { p with conn := { p.conn with rx := b } })
  | .throws => (.throws, { p with conn := { p.conn with rx := { p.conn.rx with tail := e.stop } } })
  | .abort => (.abort, p)
  | .ub => (.ub, p)

/-- types/UaMessageHeader.hpp:14-27 at the read position. -/
def typeIs (b : Buf) (x y z : UInt8) : Bool := byteIs b 0 x && byteIs b 1 y && byteIs b 2 z

/-! ## Calls of the user -/

/-- OpcUaServerSecureChannel.cpp:71-76, OpcUaServerSecureChannelInit.cpp:8-12; other states log. -/
def userOpen (e : PEnv) : SM Peer Unit := do
  let p ← get
  match p.st with
  | .init => do
    modify fun p => { p with id := e.id }
    act (.opening e.id)
    onConn (userAccept e.env)
    modify fun p => { p with st := .connecting }
  | _ => pure ()

/-- OpcUaServerSecureChannel.cpp:167-188: header, token, sequence header and the data.  The size is patched later. -/
def sendEnc (id token tx req : UInt32) (data : List UInt8) : Codec Unit := do
  enc (⟨(0x4D, 0x53, 0x47), 0x46, 0, id⟩ : UaMessageHeader)
  enc (⟨token⟩ : UaSecurityTokenHeader)
  enc (⟨tx, req⟩ : UaSequenceHeader)
  appendRaw data

/-- Gives a chunk to the link. -/
def transmit (e : PEnv) (d : List UInt8) : SM Peer Res := do
  let r ← onConn (Uscada.Ua.send e.env d)
  act (.sent d (r == .done))
  pure r

/-- OpcUaServerSecureChannel.cpp:165-201; the state is not looked at and the result of the connection is ignored. -/
def userSend (e : PEnv) (data : List UInt8) : SM Peer Unit := do
  let p ← get
  modify fun p => { p with tx := p.tx + 1 }
  let d ← lift (frame garbage (sendEnc p.id p.token p.tx p.reqId data))
  let _ ← transmit e d
  pure ()

/-- A call of the user (OpcUaServerSecureChannel.cpp:56-64,165-201). -/
def call (e : PEnv) : PCall → SM Peer Unit
  | .open => userOpen e
  | .send data => userSend e data
  | .consume n => onConn (CM.modify fun c => { c with rx := c.rx.skip n })
  | .fail => throws

/-- The calls a user makes inside of one notification, in order. -/
def calls (e : PEnv) : List PCall → SM Peer Unit
  | [] => pure ()
  | x :: xs => do
    call e x
    calls e xs

/-! ## Notifications to the user, OpcUaSecureChannel.cpp:26-42 -/

/-- OpcUaSecureChannel.cpp:26-42. -/
def notify (e : PEnv) (n : PNote) : SM Peer Unit := do
  act (.note n)
  calls e e.react

/-- `transit<OpcUaServerSecureChannelInit>`; the state has no entry action (FsmBase.hpp). -/
def toInit : SM Peer Unit := modify fun p => { p with st := .init }

/-- `notifyError`, `closeConnection` (OpcUaServerSecureChannel.cpp:78-81), `transit<Init>`: the end of every failing
branch; with `closed` the end of a close request. -/
def finish (e : PEnv) (n : PNote) : SM Peer Unit := do
  notify e n
  onConn userClose
  toInit

/-! ## Messages -/

/-- OpcUaServerSecureChannel.cpp:83-105; the answer is always `done`. -/
def receiveOpen (e : PEnv) : SM Peer Unit := do
  let _ ← decode e (dec (Ua.init : UaMessageHeader))
  let _ ← decode e (dec (Ua.init : UaSecurityHeader))
  let q ← decode e (dec (Ua.init : UaSequenceHeader))
  modify fun p => { p with rxSeq := q.sequenceNumber, reqId := q.requestId }
  act (.moved q.sequenceNumber q.requestId)
  let r ← decode e (dec (Ua.init : Cont UaOpenSecureChannelReq 446))
  modify fun p => { p with lifetime := r.msg.requestLifetime }

/-- OpcUaServerSecureChannel.cpp:225-231: the request handle is left at its initial value. -/
def openRsp (e : PEnv) (id token lifetime : UInt32) : UaOpenSecureChannelRsp :=
  { (Ua.init : UaOpenSecureChannelRsp) with
    responseHdr := { (Ua.init : UaResponseHeader) with timestamp := e.now }
    serverProtocolVer := 0
    securityToken := ⟨id, token, e.now2, lifetime⟩ }

/-- OpcUaServerSecureChannel.cpp:207-232. -/
def openRspEnc (e : PEnv) (id token tx req lifetime : UInt32) : Codec Unit := do
  enc (⟨(0x4F, 0x50, 0x4E), 0x46, 0, id⟩ : UaMessageHeader)
  enc ({ (Ua.init : UaSecurityHeader) with securityPolicyUri := ⟨Channel.policyNone⟩ } : UaSecurityHeader)
  enc (⟨tx, req⟩ : UaSequenceHeader)
  enc (Cont.make 449 (openRsp e id token lifetime))

/-- OpcUaServerSecureChannel.cpp:203-251; `true` is `done`. -/
def sendOpenRsp (e : PEnv) : SM Peer Bool := do
  modify fun p => { p with token := e.token }
  act (.issued e.token)
  let p ← get
  modify fun p => { p with tx := p.tx + 1 }
  let d ← lift (frame garbage (openRspEnc e p.id p.token p.tx p.reqId p.lifetime))
  let r ← transmit e d
  match r with
  | .done => pure true
  | .noerror => pure false
  | .error => pure false

/-- OpcUaServerSecureChannelReceiveOpenReq.cpp:9-43, OpcUaServerSecureChannelEstablished.cpp:8-41. -/
def onOpenReq (e : PEnv) : SM Peer Unit := do
  receiveOpen e
  let ok ← sendOpenRsp e
  if ok then modify fun p => { p with st := .established } else finish e .error

/-- OpcUaServerSecureChannel.cpp:109-130, 137-157: the header of a message, if token and sequence number are right. -/
def receiveGuarded (e : PEnv) : SM Peer (Option UaSequenceHeader) := do
  let _ ← decode e (dec (Ua.init : UaMessageHeader))
  let h ← decode e (dec (Ua.init : UaSecurityTokenHeader))
  let p ← get
  if h.tokenId = p.token then do
    let q ← decode e (dec (Ua.init : UaSequenceHeader))
    if q.sequenceNumber = p.rxSeq + 1 then pure (some q) else pure none
  else pure none

/-- OpcUaServerSecureChannel.cpp:107-133, OpcUaServerSecureChannelEstablished.cpp:43-64. -/
def onCloseReq (e : PEnv) : SM Peer Unit := do
  let g ← receiveGuarded e
  match g with
  | some _ => finish e .closed
  | none => finish e .error

/-- OpcUaServerSecureChannel.cpp:135-163, OpcUaServerSecureChannelEstablished.cpp:66-85. -/
def onMessage (e : PEnv) : SM Peer Unit := do
  let g ← receiveGuarded e
  match g with
  | some q => do
    modify fun p => { p with rxSeq := q.sequenceNumber, reqId := q.requestId }
    let p ← get
    notify e (.request p.conn.rx.bytes)
  | none => finish e .error

/-! ## Notifications from the connection -/

/-- OpcUaServerSecureChannel.cpp:21-24, OpcUaServerSecureChannelConnecting.cpp:9-12; other states log. -/
def handleConnected : SM Peer Unit := do
  let p ← get
  match p.st with
  | .connecting => modify fun p => { p with st := .waiting }
  | _ => pure ()

/-- OpcUaServerSecureChannel.cpp:26-44; `onOpenSecureChannelReq` is defined by two states, the other two by one; other
states log. -/
def handleData (e : PEnv) : SM Peer Unit := do
  let p ← get
  act (.got p.conn.rx.bytes)
  if typeIs p.conn.rx 0x4F 0x50 0x4E then
    match p.st with
    | .waiting => onOpenReq e
    | .established => onOpenReq e
    | _ => pure ()
  else if typeIs p.conn.rx 0x43 0x4C 0x4F then
    match p.st with
    | .established => onCloseReq e
    | _ => pure ()
  else if typeIs p.conn.rx 0x4D 0x53 0x47 then
    match p.st with
    | .established => onMessage e
    | _ => pure ()
  else pure ()

/-- OpcUaServerSecureChannel.cpp:46-54 and `onError`, `onClosed` of the states other than Init, which are all the same. -/
def handleEnd (e : PEnv) (n : PNote) : SM Peer Unit := do
  let p ← get
  match p.st with
  | .init => pure ()
  | _ => do
    notify e n
    toInit

/-! ## Events of the connection, as in `Verif.UaConnection` -/

/-- ServerConnectionConnected.cpp:8-13. -/
def toConnected (e : PEnv) : SM Peer Unit := do
  let p ← get
  if p.conn.st = .connected then pure ()
  else do
    onConn (exit p.conn.st)
    onConn (CM.modify fun c => { c with st := .connected })
    onConn (logAct (.note .connected))
    handleConnected
    onConn receivePreaction
    onConn (startTimer e.env)

/-- the three lines every failing branch ends with -/
def closeAndReport (e : PEnv) : SM Peer Unit := do
  onConn closeLink
  onConn (logAct (.note .error))
  handleEnd e .error
  onConn Uscada.Ua.toInit

/-- ServerConnectionReceiveHello.cpp:21-43. -/
def onHandshake (e : PEnv) : SM Peer Unit := do
  let y ← onConn (sendAcknowledge e.env)
  match y with
  | .noerror => pure ()
  | .done => toConnected e
  | .error => closeAndReport e

/-- ServerConnectionReceiveHello.cpp:15-53, ServerConnectionConnected.cpp:15-35. -/
def onData (e : PEnv) : SM Peer Unit := do
  let p ← get
  match p.conn.st with
  | .handshake => do
    let x ← onConn (receiveHandshake .server e.env)
    match x with
    | .noerror => pure ()
    | .done => onHandshake e
    | .error => closeAndReport e
  | .connected => do
    let x ← onConn (receiveRx e.env)
    match x with
    | .noerror => pure ()
    | .done => do
      onConn (CM.modify fun c => { c with log := c.log ++ [.note (.data c.rx.bytes)] })
      handleData e
      onConn receivePreaction
    | .error => closeAndReport e
  | _ => pure ()

/-- ServerConnectionReceiveHello.cpp:55-61, ServerConnectionConnected.cpp:43-48. -/
def onTimer (e : PEnv) : SM Peer Unit := do
  onConn (CM.modify fun c => { c with armed := false })
  let p ← get
  match p.conn.st with
  | .handshake => closeAndReport e
  | .connected => do
    onConn closeLink
    onConn (logAct (.note .closed))
    handleEnd e .closed
    onConn Uscada.Ua.toInit
  | _ => pure ()

/-- Everything that can happen to a channel and its connection. -/
inductive Ev where
  | user (c : PCall)
  | linkData
  | linkError
  | timer
deriving DecidableEq, Repr

/-- `linkError`: Link.cpp:140-175 closes the file descriptor; the connection only logs (ServerConnectionState.hpp). -/
def event (e : PEnv) : Ev → SM Peer Unit
  | .user c => call e c
  | .linkData => onData e
  | .linkError => onConn (CM.modify fun c => { c with opened := false })
  | .timer => onTimer e

/-- One event. -/
def next (p : Peer) (e : PEnv) (v : Ev) : Exec Peer := settle (event e v p)

/-- A history of events. -/
def run (p : Peer) : List (PEnv × Ev) → Exec Peer
  | [] => .ok p
  | (e, v) :: rest => do
    let p' ← p.next e v
    p'.run rest

end Peer

end Uscada.Ua
