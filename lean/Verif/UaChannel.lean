import Verif.UaConnection
import Verif.UaEntity
/-!
# `UaSecureChannel` and `UaServerSecureChannel` (ua/securechannel)

* The component receives its messages from the transport and the service component; here they are arbitrary.
* `CEnv` holds what is undetermined during one message: the content of the uninitialised receive buffer, the result of
  `rand`, and the clock.
* `log` is a ghost of each channel: the messages delivered to it, the messages it sent, and two marks: that the channel
  was opened (with the token it issued and the sequence number it starts from) and that its identifier was given back.
* `Sender::sendMsg` never fails for the sender (Reactor.cpp:109-118).
* The chunk type of received messages is not looked at by the code and not modelled; all sent messages have chunk type
  `F`.
* `UaSecureChannelComponent` creates the component on an init request, drops messages before that, and destroys it on a
  release request; this model starts behind the init request and ends before a release request.
-/

namespace Uscada.Ua

open SM

/-- UaEncodedMessageHdr.hpp:11-17. -/
structure MsgHdr where
  connectionId : UInt32
  secureChannelId : UInt32
  requestId : UInt32
  sessionId : UInt32
deriving DecidableEq, Repr

/-- UaSessionId.hpp:10: `invalidSuid`. -/
def invalidSuid : UInt32 := 0x7FFFFFFF

/-- UaServerSecureChannelInit, UaServerSecureChannelEstablished. -/
inductive ChSt where
  | init
  | established
deriving DecidableEq, Repr

/-- Messages to the secure channel component. -/
inductive CIn where
  /-- MsgUaOpenSecureChannelReq -/
  | «open» (conn : UInt32) (data : List UInt8)
  /-- MsgUaCloseSecureChannelReq -/
  | close (conn channel : UInt32) (data : List UInt8)
  /-- MsgUaSecuredMessageReceiveInd -/
  | message (conn channel : UInt32) (data : List UInt8)
  /-- MsgUaConnectionReleaseInd -/
  | released (conn channel : UInt32)
  /-- MsgUaAssociateSecureChannelReq -/
  | associate (hdr : MsgHdr)
  /-- MsgUaEncodedMessageSendReq -/
  | send (hdr : MsgHdr) (data : List UInt8)
deriving DecidableEq, Repr

/-- The ghost log: what an observer of a channel sees. -/
inductive CAct where
  /-- a message was delivered to this channel -/
  | got (m : CIn)
  /-- the channel was opened by a connection; token issued, sequence number of the request -/
  | opened (conn token seq : UInt32)
  /-- MsgUaOpenSecureChannelRsp -/
  | openRsp (conn channel : UInt32) (data : List UInt8)
  /-- MsgUaCloseSecureChannelRsp -/
  | closeRsp (conn channel : UInt32) (data : List UInt8)
  /-- MsgUaSecuredMessageSendReq -/
  | sendReq (conn channel : UInt32) (data : List UInt8)
  /-- MsgUaEncodedMessageReceiveInd -/
  | up (hdr : MsgHdr) (data : List UInt8)
  /-- MsgUaConnectionReleaseReq -/
  | releaseReq (conn : UInt32)
  /-- the channel was bound to a session -/
  | associated (session : UInt32)
  /-- the identifier was given back -/
  | released
deriving DecidableEq, Repr

/-- UaServerSecureChannel.hpp:46-57 and `FsmBase::state`; `storedRequestId` and `storedRequestedLifetime` are never
used. -/
structure Chan where
  st : ChSt
  tx : UInt32
  rxSeq : UInt32
  token : UInt32
  conn : Option UInt32
  session : Option UInt32
  log : List CAct

/-- UaServerSecureChannel.cpp:11-17 and UaServerSecureChannel.hpp:50-56; two members are uninitialised. -/
def Chan.create (r t : UInt32) : Chan :=
  { st := .init, tx := 1, rxSeq := r, token := t, conn := none, session := none, log := [] }

/-- What is undetermined during one message: uninitialised memory, the random token, two clock readings. -/
structure CEnv where
  mem : Mem
  token : UInt32
  now : DateTime
  now2 : DateTime

/-- The pool of channels with its objects. -/
abbrev Chans : Type := Ent Chan

namespace Channel

open Ent

/-- An entry of the ghost log of channel `k`. -/
def note (k : Nat) (a : CAct) : SM Chans Unit := obj k fun t => { t with log := t.log ++ [a] }

/-- `memcpy(rx.end(), data, length)`, `rx.seek(length)` into a new buffer, UaServerSecureChannel.cpp:41-43, 100-102,
177-179. -/
def load (m : Mem) (data : List UInt8) : Exec Buf :=
  if data.length ≤ maxPacketLen then .ok ((Buf.create m).append data) else .ub

/-- An encoder run on a new buffer, then `memcpy(&msg.data[0], tx.begin(), tx.size())`; the message has 4096 bytes
(MaxMsgSize.hpp:6) of which 24 stand before `data`. -/
def encoded (c : Codec Unit) : Exec (List UInt8) := do
  let r ← c (Buf.create garbage)
  if r.2.size ≤ 4072 then pure r.2.bytes else .ub

/-- "http://opcfoundation.org/UA/SecurityPolicy#None" -/
def policyNone : List UInt8 := [0x68, 0x74, 0x74, 0x70, 0x3A, 0x2F, 0x2F, 0x6F, 0x70, 0x63, 0x66, 0x6F, 0x75, 0x6E, 0x64,
  0x61, 0x74, 0x69, 0x6F, 0x6E, 0x2E, 0x6F, 0x72, 0x67, 0x2F, 0x55, 0x41, 0x2F, 0x53, 0x65, 0x63, 0x75, 0x72, 0x69, 0x74,
  0x79, 0x50, 0x6F, 0x6C, 0x69, 0x63, 0x79, 0x23, 0x4E, 0x6F, 0x6E, 0x65]

/-- UaServerSecureChannel.cpp:45-52. -/
def openReqDec : Codec (UaSequenceHeader × UaOpenSecureChannelReq) := do
  let _ ← dec (Ua.init : UaSecurityHeader)
  let seq ← dec (Ua.init : UaSequenceHeader)
  let req ← dec (Ua.init : Cont UaOpenSecureChannelReq 446)
  pure (seq, req.msg)

/-- UaServerSecureChannel.cpp:70-77. -/
def openRsp (e : CEnv) (channel token handle lifetime : UInt32) : UaOpenSecureChannelRsp :=
  { (Ua.init : UaOpenSecureChannelRsp) with
    responseHdr := { (Ua.init : UaResponseHeader) with timestamp := e.now, requestHandle := handle }
    serverProtocolVer := 0
    securityToken := ⟨channel, token, e.now2, lifetime⟩ }

/-- UaServerSecureChannel.cpp:58-78. -/
def openRspEnc (e : CEnv) (channel token tx request handle lifetime : UInt32) : Codec Unit := do
  enc ({ (Ua.init : UaSecurityHeader) with securityPolicyUri := ⟨policyNone⟩ } : UaSecurityHeader)
  enc (⟨tx, request⟩ : UaSequenceHeader)
  enc (Cont.make 449 (openRsp e channel token handle lifetime))

/-- UaServerSecureChannel.cpp:39-90. -/
def receiveOpen (k : Nat) (e : CEnv) (conn : UInt32) (data : List UInt8) : SM Chans Unit := do
  let b ← lift (load e.mem data)
  let r ← lift (openReqDec b)
  obj k fun t => { t with conn := some conn, rxSeq := r.1.1.sequenceNumber, token := e.token }
  note k (.opened conn e.token r.1.1.sequenceNumber)
  let t ← self k
  obj k fun t => { t with tx := t.tx + 1 }
  let d ← lift (encoded (openRspEnc e (UInt32.ofNat k) e.token t.tx r.1.1.requestId r.1.2.requestHdr.requestHandle
    r.1.2.requestLifetime))
  note k (.openRsp conn (UInt32.ofNat k) d)

/-- UaServerSecureChannel.cpp:106-123, 183-200: the token, the sequence number, and the rest of the buffer if both are
right. -/
def guarded (k : Nat) (e : CEnv) (data : List UInt8) : SM Chans (Option (UInt32 × Buf)) := do
  let b ← lift (load e.mem data)
  let h ← lift (dec (Ua.init : UaSecurityTokenHeader) b)
  let t ← self k
  if h.1.tokenId = t.token then do
    let q ← lift (dec (Ua.init : UaSequenceHeader) h.2)
    if q.1.sequenceNumber = t.rxSeq + 1 then do
      obj k fun t => { t with rxSeq := q.1.sequenceNumber }
      pure (some (q.1.requestId, q.2))
    else pure none
  else pure none

/-- UaServerSecureChannel.cpp:132-143. -/
def closeRspEnc (e : CEnv) (token tx request handle : UInt32) : Codec Unit := do
  enc (⟨token⟩ : UaSecurityTokenHeader)
  enc (⟨tx, request⟩ : UaSequenceHeader)
  enc (Cont.make 455 (⟨{ (Ua.init : UaResponseHeader) with timestamp := e.now, requestHandle := handle }⟩ :
    UaCloseSecureChannelRsp))

/-- UaServerSecureChannel.cpp:92-155; the result is ignored by the caller. -/
def receiveClose (k : Nat) (e : CEnv) (conn : UInt32) (data : List UInt8) : SM Chans Unit := do
  let t ← self k
  if t.conn = some conn then do
    let g ← guarded k e data
    match g with
    | none => pure ()
    | some (request, b) => do
      let r ← lift (dec (Ua.init : Cont UaCloseSecureChannelReq 452) b)
      let t ← self k
      obj k fun t => { t with tx := t.tx + 1 }
      let d ← lift (encoded (closeRspEnc e t.token t.tx request r.1.msg.requestHdr.requestHandle))
      note k (.closeRsp conn (UInt32.ofNat k) d)
  else pure ()

/-- UaServerSecureChannel.cpp:157-167; the result is ignored by the caller. -/
def receiveAssociate (k : Nat) (hdr : MsgHdr) : SM Chans Unit := do
  let t ← self k
  if t.conn = some hdr.connectionId then do
    obj k fun t => { t with session := some hdr.sessionId }
    note k (.associated hdr.sessionId)
  else pure ()

/-- UaServerSecureChannel.cpp:209-210: `rx.size()` bytes from `rx.begin()` on; 28 bytes of the message stand before
`data`. -/
def handUp (b : Buf) : Exec (List UInt8) :=
  if b.tail + b.size ≤ maxPacketLen ∧ b.size ≤ 4068 then .ok b.bytes else .ub

/-- UaServerSecureChannel.cpp:169-213; `true` is `Result::done`. -/
def receiveMessage (k : Nat) (e : CEnv) (conn : UInt32) (data : List UInt8) : SM Chans Bool := do
  let t ← self k
  if t.conn = some conn then do
    let g ← guarded k e data
    match g with
    | none => pure false
    | some (request, b) => do
      let d ← lift (handUp b)
      note k (.up ⟨conn, UInt32.ofNat k, request, t.session.getD invalidSuid⟩ d)
      pure true
  else pure false

/-- UaServerSecureChannel.cpp:228-242. -/
def sendEnc (token tx request : UInt32) (data : List UInt8) : Codec Unit := do
  enc (⟨token⟩ : UaSecurityTokenHeader)
  enc (⟨tx, request⟩ : UaSequenceHeader)
  appendRaw data

/-- UaServerSecureChannel.cpp:215-254; the result is ignored by the caller. -/
def receiveSend (k : Nat) (hdr : MsgHdr) (data : List UInt8) : SM Chans Unit := do
  let t ← self k
  if t.conn = some hdr.connectionId then
    if t.session = none ∨ t.session = some hdr.sessionId then do
      obj k fun t => { t with tx := t.tx + 1 }
      let d ← lift (encoded (sendEnc t.token t.tx hdr.requestId data))
      note k (.sendReq hdr.connectionId (UInt32.ofNat k) d)
    else pure ()
  else pure ()

/-- UaServerSecureChannel.cpp:23-29. -/
def release (k : Nat) : SM Chans Unit := do
  obj k fun t => { t with tx := 0, conn := none, session := none }
  note k .released
  releaseId k

/-- UaServerSecureChannelInit.cpp:8-11, from the established state. -/
def toInit (k : Nat) : SM Chans Unit := do
  obj k fun t => { t with st := .init }
  release k

/-- UaServerSecureChannelInit.cpp:13-24 (`receive` never answers `error`) and UaServerSecureChannelEstablished.cpp:8-37;
other combinations are logged (UaServerSecureChannelState.hpp). -/
def onReceive (k : Nat) (e : CEnv) (m : CIn) : SM Chans Unit := do
  note k (.got m)
  let t ← self k
  match t.st, m with
  | .init, .open c d => do
    receiveOpen k e c d
    obj k fun t => { t with st := .established }
  | .established, .close c _ d => do
    receiveClose k e c d
    note k (.releaseReq c)
    toInit k
  | .established, .message c _ d => do
    let ok ← receiveMessage k e c d
    if ok then pure ()
    else do
      note k (.releaseReq c)
      toInit k
  | .established, .released _ _ => toInit k
  | .established, .associate h => receiveAssociate k h
  | .established, .send h d => receiveSend k h d
  | _, _ => pure ()

/-- UaSecureChannel.cpp:26-66. -/
def event (e : CEnv) (m : CIn) : SM Chans Unit :=
  match m with
  | .open _ _ => do
    let r ← allocId
    match r with
    | none => pure ()
    | some k => onReceive k e m
  | .close _ ch _ => get ch.toNat (onReceive ch.toNat e m)
  | .message _ ch _ => get ch.toNat (onReceive ch.toNat e m)
  | .released _ ch => get ch.toNat (onReceive ch.toNat e m)
  | .associate h => get h.secureChannelId.toNat (onReceive h.secureChannelId.toNat e m)
  | .send h _ => get h.secureChannelId.toNat (onReceive h.secureChannelId.toNat e m)

/-- One message. -/
def next (s : Chans) (e : CEnv) (m : CIn) : Exec Chans := settle (event e m s)

/-- The component after a history of messages. -/
inductive Reach (u : Nat → UInt32 × UInt32) : List (CEnv × CIn) → Chans → Prop
  | create {s : Chans} (h : Ent.create (fun k => Chan.create (u k).1 (u k).2) = .ok s) : Reach u [] s
  | step {evs : List (CEnv × CIn)} {s s' : Chans} {e : CEnv} {m : CIn} (h : Reach u evs s) (hn : next s e m = .ok s') :
      Reach u (evs ++ [(e, m)]) s'

end Channel

end Uscada.Ua
