import Verif.UaChannel
/-!
# `UaService`, `UaSessionService`, `UaSession` and the services (ua/service)

* The component receives its messages from the secure channel component; here they are arbitrary.
* `SEnv` holds what is undetermined during one message: the content of the uninitialised receive buffer and the clock.
* `log` is a ghost of each session: the requests delivered to it, the messages it sent, and two marks: that the session
  was created and that its identifier was given back.  Get endpoints requests belong to no session; their log is kept in
  place 0 of the pool, which is not the place of a session.
* `services[...]` (UaService.cpp:50) inserts an empty entry for an unknown identifier, which is treated like no entry.
* `UaServiceComponent` creates the service on an init request, drops messages before that, and destroys it on a release
  request; this model starts behind the init request and ends before a release request.  `MsgUaServiceConfigReq` does
  nothing (UaService.cpp:28-30).
-/

namespace Uscada.Ua

open SM

/-- UaSessionInit, UaSessionCreated, UaSessionActivated. -/
inductive SessSt where
  | init
  | created
  | activated
deriving DecidableEq, Repr

/-- The requests that are served. -/
inductive SReq where
  | getEndpoints (r : UaGetEndpointsReq)
  | create (r : UaCreateSessionReq)
  | activate (r : UaActivateSessionReq)
  | close (r : UaCloseSessionReq)
  | read (r : UaReadReq)
deriving DecidableEq

/-- The ghost log: what an observer of a session sees. -/
inductive SAct where
  /-- a request was delivered to this session -/
  | got (hdr : MsgHdr) (r : SReq)
  /-- MsgUaEncodedMessageSendReq -/
  | answer (hdr : MsgHdr) (data : List UInt8)
  /-- MsgUaAssociateSecureChannelReq -/
  | associate (hdr : MsgHdr)
  /-- a service was executed for this session -/
  | served (hdr : MsgHdr)
  /-- the session was created -/
  | created
  /-- the identifier was given back -/
  | released
deriving DecidableEq

/-- UaSession.hpp:35-37 and `FsmBase::state`. -/
structure Sess where
  st : SessSt
  channel : Option UInt32
  log : List SAct

/-- UaSession.cpp:12-17. -/
def Sess.create : Sess := { st := .init, channel := none, log := [] }

/-- What is undetermined during one message: uninitialised memory and the clock. -/
structure SEnv where
  mem : Mem
  now : DateTime

/-- The pool of sessions with its objects (UaSessionService.hpp). -/
abbrev Sessions : Type := Ent Sess

namespace Session

open Ent Channel

/-- An entry of the ghost log of session `k`. -/
def note (k : Nat) (a : SAct) : SM Sessions Unit := obj k fun t => { t with log := t.log ++ [a] }

/-- "opc.tcp://localhost:4369" -/
def endpointUrl : List UInt8 := [0x6F, 0x70, 0x63, 0x2E, 0x74, 0x63, 0x70, 0x3A, 0x2F, 0x2F, 0x6C, 0x6F, 0x63, 0x61,
  0x6C, 0x68, 0x6F, 0x73, 0x74, 0x3A, 0x34, 0x33, 0x36, 0x39]

/-- "urn:youkozlov-VivoBook-ASUSLaptop-X513EAN-K513EA:uscada" -/
def applicationUri : List UInt8 := [0x75, 0x72, 0x6E, 0x3A, 0x79, 0x6F, 0x75, 0x6B, 0x6F, 0x7A, 0x6C, 0x6F, 0x76,
  0x2D, 0x56, 0x69, 0x76, 0x6F, 0x42, 0x6F, 0x6F, 0x6B, 0x2D, 0x41, 0x53, 0x55, 0x53, 0x4C, 0x61, 0x70, 0x74, 0x6F,
  0x70, 0x2D, 0x58, 0x35, 0x31, 0x33, 0x45, 0x41, 0x4E, 0x2D, 0x4B, 0x35, 0x31, 0x33, 0x45, 0x41, 0x3A, 0x75, 0x73,
  0x63, 0x61, 0x64, 0x61]

/-- "urn:uscada" -/
def productUri : List UInt8 := [0x75, 0x72, 0x6E, 0x3A, 0x75, 0x73, 0x63, 0x61, 0x64, 0x61]

/-- UaSession.cpp:37-42, UaGetEndpoints.cpp:31-36. -/
def endpoint : UaEndpointDescription :=
  { (Ua.init : UaEndpointDescription) with
    endpointUrl := ⟨endpointUrl⟩
    server := { (Ua.init : UaApplicationDescription) with applicationUri := ⟨applicationUri⟩, productUri := ⟨productUri⟩ }
    securityMode := 1
    securityPolicyUri := ⟨policyNone⟩ }

/-- The first two assignments of every answer. -/
def rspHdr (e : SEnv) (handle : UInt32) : UaResponseHeader :=
  { (Ua.init : UaResponseHeader) with timestamp := e.now, requestHandle := handle }

/-- UaGetEndpoints.cpp:28-36. -/
def getEndpointsRsp (e : SEnv) (r : UaGetEndpointsReq) : UaGetEndpointsRsp :=
  { (Ua.init : UaGetEndpointsRsp) with
    responseHdr := rspHdr e r.requestHdr.requestHandle
    endpointDescription := [endpoint] }

/-- UaSession.cpp:31-43; `emplace<UInt32>` leaves the namespace at 0. -/
def createRsp (e : SEnv) (k : Nat) (r : UaCreateSessionReq) : UaCreateSessionRsp :=
  { (Ua.init : UaCreateSessionRsp) with
    responseHdr := rspHdr e r.requestHdr.requestHandle
    sessionId := ⟨0, .numeric (UInt32.ofNat k)⟩
    authenticationToken := ⟨0, .numeric (UInt32.ofNat k)⟩
    revisedSessionTimeout := r.requestedSessionTimeout
    serverEndpoints := [endpoint]
    maxRequestMessageSize := r.maxResponseMessageSize }

/-- UaSession.cpp:60-62. -/
def activateRsp (e : SEnv) (r : UaActivateSessionReq) : UaActivateSessionRsp :=
  { (Ua.init : UaActivateSessionRsp) with responseHdr := rspHdr e r.requestHdr.requestHandle }

/-- UaSession.cpp:89-91. -/
def closeRsp (e : SEnv) (r : UaCloseSessionReq) : UaCloseSessionRsp :=
  { (Ua.init : UaCloseSessionRsp) with responseHdr := rspHdr e r.requestHdr.requestHandle }

/-- UaAttributeService.cpp:28-30. -/
def readRsp (e : SEnv) (r : UaReadReq) : UaReadRsp :=
  { (Ua.init : UaReadRsp) with responseHdr := rspHdr e r.requestHdr.requestHandle }

/-- An encoder run on a new buffer, then `memcpy(&msgRsp.data[0], tx.begin(), tx.size())`; the message has 4096 bytes
(MaxMsgSize.hpp:6) of which 28 stand before `data`. -/
def packed (c : Codec Unit) : Exec (List UInt8) := do
  let r ← c (Buf.create garbage)
  if r.2.size ≤ 4068 then pure r.2.bytes else .ub

/-- UaSession.cpp:45-54, 74-83, 93-102, UaGetEndpoints.cpp:37-44, UaAttributeService.cpp:32-41. -/
def answer (k : Nat) (hdr : MsgHdr) (c : Codec Unit) : SM Sessions Unit := do
  let d ← lift (packed c)
  note k (.answer hdr d)

/-- UaSession.cpp:29-56. -/
def receiveCreate (k : Nat) (e : SEnv) (hdr : MsgHdr) (r : UaCreateSessionReq) : SM Sessions Unit :=
  answer k hdr (enc (Cont.make 464 (createRsp e k r)))

/-- UaSession.cpp:58-85. -/
def receiveActivate (k : Nat) (e : SEnv) (hdr : MsgHdr) (r : UaActivateSessionReq) : SM Sessions Unit := do
  obj k fun t => { t with channel := some hdr.secureChannelId }
  note k (.associate { hdr with sessionId := UInt32.ofNat k })
  answer k { hdr with sessionId := UInt32.ofNat k } (enc (Cont.make 470 (activateRsp e r)))

/-- UaSession.cpp:87-104. -/
def receiveClose (k : Nat) (e : SEnv) (hdr : MsgHdr) (r : UaCloseSessionReq) : SM Sessions Unit :=
  answer k hdr (enc (Cont.make 476 (closeRsp e r)))

/-- UaAttributeService.cpp:26-42, called through the handler of UaRead.cpp:26-29. -/
def serveRead (k : Nat) (e : SEnv) (hdr : MsgHdr) (r : UaReadReq) : SM Sessions Unit := do
  note k (.served hdr)
  answer k hdr (enc (Cont.make 634 (readRsp e r)))

/-- UaSession.cpp:106-115. -/
def receiveService (k : Nat) (hdr : MsgHdr) (handler : SM Sessions Unit) : SM Sessions Unit := do
  let t ← self k
  if t.channel = some hdr.secureChannelId then handler else pure ()

/-- UaSessionInit.cpp:8-11 and UaSession.cpp:23-27, from another state. -/
def toInit (k : Nat) : SM Sessions Unit := do
  obj k fun t => { t with st := .init, channel := none }
  note k .released
  releaseId k

/-- UaSessionInit.cpp:13-17, UaSessionCreated.cpp:9-19, UaSessionActivated.cpp:8-22; other combinations are logged
(UaSessionState.hpp:22-28). -/
def onReceive (k : Nat) (e : SEnv) (hdr : MsgHdr) (r : SReq) : SM Sessions Unit := do
  note k (.got hdr r)
  let t ← self k
  match t.st, r with
  | .init, .create r => do
    receiveCreate k e hdr r
    obj k fun t => { t with st := .created }
    note k .created
  | .created, .activate r => do
    receiveActivate k e hdr r
    obj k fun t => { t with st := .activated }
  | .created, .close r => do
    receiveClose k e hdr r
    toInit k
  | .activated, .activate r => receiveActivate k e hdr r
  | .activated, .close r => do
    receiveClose k e hdr r
    toInit k
  | .activated, .read r => receiveService k hdr (serveRead k e hdr r)
  | _, _ => pure ()

/-- UaSessionService.cpp:44-57, 59-72. -/
def byToken (token : NodeId) (m : Nat → SM Sessions Unit) : SM Sessions Unit :=
  match token.value with
  | .numeric uid => get uid.toNat (m uid.toNat)
  | _ => pure ()

/-- UaSessionService.cpp:32-83 and UaGetEndpoints.cpp:28-44, behind the decoding. -/
def handle (e : SEnv) (hdr : MsgHdr) (r : SReq) : SM Sessions Unit :=
  match r with
  | .getEndpoints q => do
    note 0 (.got hdr r)
    answer 0 hdr (enc (Cont.make 431 (getEndpointsRsp e q)))
  | .create _ => do
    let uid ← allocId
    match uid with
    | none => pure ()
    | some k => onReceive k e hdr r
  | .activate q => byToken q.requestHdr.authentificationToken fun k => onReceive k e hdr r
  | .close q => byToken q.requestHdr.authentificationToken fun k => onReceive k e hdr r
  | .read _ =>
    if hdr.sessionId = invalidSuid then pure ()
    else get hdr.sessionId.toNat (onReceive hdr.sessionId.toNat e hdr r)

/-- The decoders that follow the look-up: UaGetEndpoints.cpp:21-23, UaCreateSession.cpp:19-21, UaCloseSession.cpp:19-21,
UaActivateSession.cpp:19-21, UaRead.cpp:22-24.  `DataTypeId` has 16 bits (DataType.hpp:15): the cast of UaService.cpp:50
drops the upper half of the identifier.  Values in DataType.hpp:45-58. -/
def requestDec (id : UInt32) : Codec (Option SReq) :=
  match id.toUInt16 with
  | 428 => do let r ← dec (Ua.init : UaGetEndpointsReq); pure (some (.getEndpoints r))
  | 461 => do let r ← dec (Ua.init : UaCreateSessionReq); pure (some (.create r))
  | 467 => do let r ← dec (Ua.init : UaActivateSessionReq); pure (some (.activate r))
  | 473 => do let r ← dec (Ua.init : UaCloseSessionReq); pure (some (.close r))
  | 631 => do let r ← dec (Ua.init : UaReadReq); pure (some (.read r))
  | _ => pure none

/-- UaService.cpp:40-59. -/
def dispatch : Codec (Option SReq) := do
  let n ← dec (Ua.init : ExpandedNodeId)
  match n.nodeId.value with
  | .numeric id => requestDec id
  | _ => pure none

/-- UaService.cpp:32-59. -/
def event (e : SEnv) (hdr : MsgHdr) (data : List UInt8) : SM Sessions Unit := do
  let b ← lift (load e.mem data)
  let r ← lift (dispatch b)
  match r.1 with
  | none => pure ()
  | some q => handle e hdr q

/-- MsgUaEncodedMessageReceiveInd with the environment it meets. -/
structure SIn where
  env : SEnv
  hdr : MsgHdr
  data : List UInt8

/-- One message. -/
def next (s : Sessions) (m : SIn) : Exec Sessions := settle (event m.env m.hdr m.data s)

/-- The component after a history of messages. -/
inductive Reach : List SIn → Sessions → Prop
  | create {s : Sessions} (h : Ent.create (fun _ => Sess.create) = .ok s) : Reach [] s
  | step {evs : List SIn} {s s' : Sessions} {m : SIn} (h : Reach evs s) (hn : next s m = .ok s') : Reach (evs ++ [m]) s'

end Session

end Uscada.Ua
