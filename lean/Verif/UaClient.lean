import Verif.UaPeer
/-!
# `OpcUaClientSecureChannel` on top of `ClientConnection` (common/ua/protocols/secure)

The client side of `Verif.UaPeer`, modelled in the same way: the channel owns its connection and is the handler of its
notifications.

* `close()` and `send()` of the channel are empty (OpcUaClientSecureChannel.cpp:45-47, 54-56) and left out.
* `sendOpenSecureChannelReq` always answers `done` (90), the other cases of OpcUaClientSecureChannelConnecting.cpp:13-28
  are left out; `receiveOpenSecureChannelRsp` never answers `noerror`.
* `ClientConnection::send` never answers `noerror`; that case of ClientConnectionConnecting.cpp is left out.
* `notifyEstablished` and `notifyDataReceived` are never called; `KNote` holds what is.
* The handler is the one of the base class (OpcUaSecureChannel.cpp:15-18) and is set.
-/

namespace Uscada.Ua

open SM

/-- OpcUaClientSecureChannelInit, Connecting, ReceiveOpenRsp, Established. -/
inductive KSt where
  | init
  | connecting
  | waiting
  | established
deriving DecidableEq, Repr

/-- The events of OpcUaSecureChannel.hpp that the client raises. -/
inductive KNote where
  | closed
  | error
deriving DecidableEq, Repr

/-- The ghost log: what an observer of a client channel sees. -/
inductive KAct where
  /-- a call of `open` found the channel idle -/
  | opening
  /-- the connection was reported connected -/
  | connected
  /-- a chunk was given to the link, which took it or not -/
  | sent (d : List UInt8) (ok : Bool)
  /-- the connection delivered a chunk -/
  | got (d : List UInt8)
  /-- an answer to the open request was accepted -/
  | accepted
  /-- a notification -/
  | note (n : KNote)
deriving DecidableEq, Repr

/-- OpcUaClientSecureChannel.hpp:50-51 and `FsmBase::state`; `log` is a ghost. -/
structure Cli where
  conn : Conn
  st : KSt
  log : List KAct

/-- OpcUaClientSecureChannel.cpp:9-14. -/
def Cli.create (m : Mem) : Cli := { conn := Conn.create m, st := .init, log := [] }

/-- What a user may do with a channel. -/
inductive KCall where
  | «open»
  /-- read `n` bytes of the receive buffer through a codec -/
  | consume (n : Nat)
  /-- throw an exception -/
  | fail
deriving DecidableEq, Repr

/-- What is undetermined during one event, as in `PEnv`. -/
structure KEnv where
  env : Env
  stop : Nat
  react : List KCall

namespace Cli

/-- An entry of the ghost log. -/
def act (a : KAct) : SM Cli Unit := modify fun p => { p with log := p.log ++ [a] }

/-- An operation of the connection. -/
def onConn {α : Type} (m : CM α) : SM Cli α := fun p => ((m p.conn).1, { p with conn := (m p.conn).2 })

/-- A decoder run on the receive buffer of the connection. -/
def decode {α : Type} (e : KEnv) (d : Codec α) : SM Cli α := fun p =>
  match d p.conn.rx with
  | .ok (a, b) => (.ok a, { p with conn := { p.conn with rx := b } })
  | .throws => (.throws, { p with conn := { p.conn with rx := { p.conn.rx with tail := e.stop } } })
  | .abort => (.abort, p)
  | .ub => (.ub, p)

/-! ## Calls of the user -/

/-- OpcUaClientSecureChannel.cpp:40-43, 58-61, OpcUaClientSecureChannelInit.cpp:8-12; other states log. -/
def userOpen (e : KEnv) : SM Cli Unit := do
  let p ← get
  match p.st with
  | .init => do
    act .opening
    onConn (userConnect e.env)
    modify fun p => { p with st := .connecting }
  | _ => pure ()

/-- A call of the user. -/
def call (e : KEnv) : KCall → SM Cli Unit
  | .open => userOpen e
  | .consume n => onConn (CM.modify fun c => { c with rx := c.rx.skip n })
  | .fail => throws

/-- The calls a user makes inside of one notification, in order. -/
def calls (e : KEnv) : List KCall → SM Cli Unit
  | [] => pure ()
  | x :: xs => do
    call e x
    calls e xs

/-- OpcUaSecureChannel.cpp:32-42. -/
def notify (e : KEnv) (n : KNote) : SM Cli Unit := do
  act (.note n)
  calls e e.react

/-- `transit<OpcUaClientSecureChannelInit>`; the state has no entry action (FsmBase.hpp). -/
def toInit : SM Cli Unit := modify fun p => { p with st := .init }

/-! ## Messages -/

/-- OpcUaClientSecureChannel.cpp:68-84; `opcUaProtocolVersion` is 0 (OpcUaProtocolDefs.hpp). -/
def openReqEnc : Codec Unit := do
  enc (⟨(0x4F, 0x50, 0x4E), 0x46, 0, 0⟩ : UaMessageHeader)
  enc (Ua.init : UaSecurityHeader)
  enc (Ua.init : UaSequenceHeader)
  enc (Cont.make 446 { (Ua.init : UaOpenSecureChannelReq) with clientProtocolVer := 0 })

/-- OpcUaClientSecureChannel.cpp:63-91; the result of the connection is ignored. -/
def sendOpenReq (e : KEnv) : SM Cli Unit := do
  let d ← lift (frame garbage openReqEnc)
  let r ← onConn (Uscada.Ua.send e.env d)
  act (.sent d (r == .done))

/-- OpcUaClientSecureChannel.cpp:101-112; `UaOpenSecureChannelRsp` is decoded without its container. -/
def openRspDec (e : KEnv) : SM Cli Unit := do
  let _ ← decode e (dec (Ua.init : UaMessageHeader))
  let _ ← decode e (dec (Ua.init : UaSecurityHeader))
  let _ ← decode e (dec (Ua.init : UaSequenceHeader))
  let _ ← decode e (dec (Ua.init : UaOpenSecureChannelRsp))
  pure ()

/-- OpcUaClientSecureChannel.cpp:93-115; `true` is `done`. -/
def receiveOpenRsp (e : KEnv) : SM Cli Bool := do
  let p ← get
  if Peer.typeIs p.conn.rx 0x4F 0x50 0x4E then do
    openRspDec e
    pure true
  else pure false

/-! ## Notifications from the connection -/

/-- OpcUaClientSecureChannel.cpp:20-23, OpcUaClientSecureChannelConnecting.cpp:9-23; other states log. -/
def handleConnected (e : KEnv) : SM Cli Unit := do
  act .connected
  let p ← get
  match p.st with
  | .connecting => do
    sendOpenReq e
    modify fun p => { p with st := .waiting }
  | _ => pure ()

/-- OpcUaClientSecureChannel.cpp:25-28, OpcUaClientSecureChannelReceiveOpenRsp.cpp:9-27,
OpcUaClientSecureChannelEstablished.cpp:12-14; other states log. -/
def handleData (e : KEnv) : SM Cli Unit := do
  let p ← get
  act (.got p.conn.rx.bytes)
  match p.st with
  | .waiting => do
    let ok ← receiveOpenRsp e
    if ok then do
      act .accepted
      modify fun p => { p with st := .established }
    else do
      notify e .error
      toInit
  | _ => pure ()

/-- OpcUaClientSecureChannel.cpp:30-38 and `onError`, `onClosed`: Connecting and Established
(OpcUaClientSecureChannelConnecting.cpp:32-42, OpcUaClientSecureChannelEstablished.cpp:16-26) return to Init,
ReceiveOpenRsp (OpcUaClientSecureChannelReceiveOpenRsp.cpp:29-37) stays. -/
def handleEnd (e : KEnv) (n : KNote) : SM Cli Unit := do
  let p ← get
  match p.st with
  | .init => pure ()
  | .waiting => notify e n
  | _ => do
    notify e n
    toInit

/-! ## Events of the connection, as in `Verif.UaConnection` -/

/-- ClientConnectionConnected.cpp:8-13. -/
def toConnected (e : KEnv) : SM Cli Unit := do
  let p ← get
  if p.conn.st = .connected then pure ()
  else do
    onConn (exit p.conn.st)
    onConn (CM.modify fun c => { c with st := .connected })
    onConn (logAct (.note .connected))
    handleConnected e
    onConn receivePreaction
    onConn (startTimer e.env)

/-- the three lines every failing branch ends with -/
def closeAndReport (e : KEnv) : SM Cli Unit := do
  onConn closeLink
  onConn (logAct (.note .error))
  handleEnd e .error
  onConn Uscada.Ua.toInit

/-- ClientConnectionConnecting.cpp:15-38; other states log. -/
def onConnected (e : KEnv) : SM Cli Unit := do
  let p ← get
  match p.conn.st with
  | .connecting => do
    let x ← onConn (sendOpening .client e.env)
    match x with
    | .noerror => pure ()
    | .done => onConn (toHandshake e.env)
    | .error => closeAndReport e
  | _ => pure ()

/-- ClientConnectionReceiveAck.cpp:15-34, ClientConnectionConnected.cpp:15-35. -/
def onData (e : KEnv) : SM Cli Unit := do
  let p ← get
  match p.conn.st with
  | .handshake => do
    let x ← onConn (receiveHandshake .client e.env)
    match x with
    | .noerror => pure ()
    | .done => toConnected e
    | .error => closeAndReport e
  | .connected => do
    let x ← onConn (receiveRx e.env)
    match x with
    | .noerror => pure ()
    | .done => do
      onConn (CM.modify fun c => { c with log := c.log ++ [.note (.data c.rx.bytes)] })
      handleData e
      onConn receivePreaction
    | .error => closeAndReport e
  | _ => pure ()

/-- Link.cpp:140-175, ClientConnectionConnecting.cpp:40-45; other states log. -/
def onError (e : KEnv) : SM Cli Unit := do
  onConn (CM.modify fun c => { c with opened := false })
  let p ← get
  match p.conn.st with
  | .connecting => do
    onConn (logAct (.note .error))
    handleEnd e .error
    onConn Uscada.Ua.toInit
  | _ => pure ()

/-- ClientConnectionConnecting.cpp:47-53, ClientConnectionReceiveAck.cpp:36-41, ClientConnectionConnected.cpp:43-48. -/
def onTimer (e : KEnv) : SM Cli Unit := do
  onConn (CM.modify fun c => { c with armed := false })
  let p ← get
  match p.conn.st with
  | .init => pure ()
  | .connecting => closeAndReport e
  | .handshake => closeAndReport e
  | .connected => do
    onConn closeLink
    onConn (logAct (.note .closed))
    handleEnd e .closed
    onConn Uscada.Ua.toInit

/-- Everything that can happen to a channel and its connection. -/
inductive Ev where
  | user (c : KCall)
  | linkConnected
  | linkData
  | linkError
  | timer
deriving DecidableEq, Repr

/-- The handler of each event: the functions above. -/
def event (e : KEnv) : Ev → SM Cli Unit
  | .user c => call e c
  | .linkConnected => onConnected e
  | .linkData => onData e
  | .linkError => onError e
  | .timer => onTimer e

/-- One event. -/
def next (p : Cli) (e : KEnv) (v : Ev) : Exec Cli := settle (event e v p)

/-- A history of events. -/
def run (p : Cli) : List (KEnv × Ev) → Exec Cli
  | [] => .ok p
  | (e, v) :: rest => do
    let p' ← p.next e v
    p'.run rest

end Cli

end Uscada.Ua
