import Verif.UaStdLaws
import Verif.UaChannelProps
import Verif.UaSession
/-!
# C39, C40, C50 to C55 for `ua/service`

As in `UaChannelProps` the claims are about the log of a session, and what they look at is computed from the log alone.
-/

namespace Uscada.Ua.Session

open SM Ent

/-! ## Specification -/

/-- The request delivered last. -/
def lastGot (l : List SAct) : Option (MsgHdr × SReq) := l.foldl (fun o a => match a with
  | .got h r => some (h, r)
  | _ => o) none

/-- The session exists. -/
def isOpen (l : List SAct) : Bool := l.foldl (fun o a => match a with
  | .created => true
  | .released => false
  | _ => o) false

/-- The channel that activated the session last, until the session ends. -/
def holder (l : List SAct) : Option UInt32 := l.foldl (fun o a => match a with
  | .associate h => some h.secureChannelId
  | .released => none
  | _ => o) none

/-- The token a client uses for session `k`. -/
def IsToken (k : Nat) (n : NodeId) : Prop := n.value = .numeric (UInt32.ofNat k)

/-- C39: a service is executed only for a request with this session in its header, on the channel that activated the
session last.  A channel activates a session by an activate request with the token of the session, while the session
exists; the association sent to the channel layer names this channel and this session. -/
def Serves (k : Nat) (pre : List SAct) (a : SAct) : Prop :=
  match a with
  | .served h => holder pre = some h.secureChannelId ∧ isOpen pre = true ∧ h.sessionId = UInt32.ofNat k ∧
      ∃ r, lastGot pre = some (h, .read r)
  | .associate h => isOpen pre = true ∧ ∃ h' r, lastGot pre = some (h', .activate r) ∧
      IsToken k r.requestHdr.authentificationToken ∧ h = { h' with sessionId := UInt32.ofNat k }
  | _ => True

/-- C40: a session is created while it does not exist, and ends while it exists, by a close request with its token. -/
def Paired (k : Nat) (pre : List SAct) (a : SAct) : Prop :=
  match a with
  | .created => isOpen pre = false ∧ ∃ h r, lastGot pre = some (h, .create r)
  | .released => isOpen pre = true ∧ ∃ h r, lastGot pre = some (h, .close r) ∧ IsToken k r.requestHdr.authentificationToken
  | _ => True

/-- `hdr` of the answer, for a request with header `h`: same connection, same channel, same request. -/
def SameWay (h hdr : MsgHdr) : Prop :=
  hdr.connectionId = h.connectionId ∧ hdr.secureChannelId = h.secureChannelId ∧ hdr.requestId = h.requestId

/-- Good result, and the handle of the request. -/
def GoodHdr (r : UaResponseHeader) (handle : UInt32) : Prop := r.requestHandle = handle ∧ r.serviceResult = ⟨0⟩

def ascii (s : String) : List UInt8 := s.toList.map fun c => UInt8.ofNat c.toNat

/-- What the server offers: one endpoint, with no security (mode 1 is `None`, OPC 10000-4, 7.20). -/
def Offers (l : List UaEndpointDescription) : Prop := ∃ d, l = [d] ∧ d.endpointUrl.bytes = ascii "opc.tcp://localhost:4369" ∧
  d.securityMode = 1 ∧ d.securityPolicyUri.bytes = ascii "http://opcfoundation.org/UA/SecurityPolicy#None"

/-- The answer to each request; the other end can decode it (`Wire.ok`). -/
def Fits (k : Nat) (r : SReq) (d : List UInt8) : Prop :=
  match r with
  | .getEndpoints q => ∃ rsp : UaGetEndpointsRsp, Wire.ok rsp ∧ d = wire (Cont.make 431 rsp) ∧ GoodHdr rsp.responseHdr q.requestHdr.requestHandle ∧
      Offers rsp.endpointDescription
  | .create q => ∃ rsp : UaCreateSessionRsp, Wire.ok rsp ∧ d = wire (Cont.make 464 rsp) ∧ GoodHdr rsp.responseHdr q.requestHdr.requestHandle ∧
      IsToken k rsp.sessionId ∧ IsToken k rsp.authenticationToken ∧ rsp.revisedSessionTimeout = q.requestedSessionTimeout ∧
      Offers rsp.serverEndpoints
  | .activate q => ∃ rsp : UaActivateSessionRsp, Wire.ok rsp ∧ d = wire (Cont.make 470 rsp) ∧ GoodHdr rsp.responseHdr q.requestHdr.requestHandle
  | .close q => ∃ rsp : UaCloseSessionRsp, Wire.ok rsp ∧ d = wire (Cont.make 476 rsp) ∧ GoodHdr rsp.responseHdr q.requestHdr.requestHandle
  | .read q => ∃ rsp : UaReadRsp, Wire.ok rsp ∧ d = wire (Cont.make 634 rsp) ∧ GoodHdr rsp.responseHdr q.requestHdr.requestHandle

/-- C50: an answer goes back the way the request came, and is of the kind the request asks for; a read request is answered
behind its execution, and an activate request behind the association. -/
def Answers (k : Nat) (pre : List SAct) (a : SAct) : Prop :=
  match a with
  | .answer hdr d => ∃ h r, lastGot pre = some (h, r) ∧ SameWay h hdr ∧ Fits k r d ∧ match r with
    | .read _ => pre.getLast? = some (.served h) ∧ hdr.sessionId = h.sessionId
    | .activate _ => pre.getLast? = some (.associate hdr) ∧ hdr.sessionId = UInt32.ofNat k
    | _ => pre.getLast? = some (.got h r) ∧ hdr.sessionId = h.sessionId
  | _ => True

/-- Against C53: an answer to a read request has no results. -/
def NoResults (pre : List SAct) (a : SAct) : Prop :=
  match a with
  | .answer _ d => ∀ h r, lastGot pre = some (h, .read r) → ∃ rsp : UaReadRsp, Wire.ok rsp ∧ d = wire (Cont.make 634 rsp) ∧
      d.length ≤ 4096 ∧ rsp.results = [] ∧ rsp.responseHdr.serviceResult = ⟨0⟩
  | _ => True

def Right (k : Nat) (pre : List SAct) (a : SAct) : Prop := Serves k pre a ∧ Paired k pre a ∧ Answers k pre a ∧ NoResults pre a

section snoc

variable (l : List SAct) (a : SAct)

theorem lastGot_snoc : lastGot (l ++ [a]) = match a with
    | .got h r => some (h, r)
    | _ => lastGot l := by
  simp [lastGot, List.foldl_append]

theorem isOpen_snoc : isOpen (l ++ [a]) = match a with
    | .created => true
    | .released => false
    | _ => isOpen l := by
  simp [isOpen, List.foldl_append]

theorem holder_snoc : holder (l ++ [a]) = match a with
    | .associate h => some h.secureChannelId
    | .released => none
    | _ => holder l := by
  simp [holder, List.foldl_append]

end snoc

/-! ## The answers can be encoded -/

theorem packed_ok {c : Codec Unit} {w : List UInt8} (hw : Writes c w) (h : w.length ≤ 4068) : packed c = .ok w := by
  have h1 := hw (Buf.create garbage) (by simp [Buf.create])
  rw [if_pos (by simp only [Buf.create, maxPacketLen]; omega)] at h1
  unfold packed
  rw [h1, Exec.ok_bind, if_pos (by simp only [Buf.size, Buf.append, Buf.create]; omega)]
  simp only [Exec.pure_eq, Exec.ok.injEq, Buf.bytes, Buf.size, Buf.append, Buf.create, Nat.zero_add]
  apply memRead_ext rfl
  intro i hi
  simp only [memWrite, Nat.zero_add]
  rw [if_pos (by omega), Nat.sub_zero]

theorem str_ok (l : List UInt8) (h : l.length < 2 ^ 31) : Wire.ok (⟨l⟩ : Str) := h

theorem none_ok {α : Type} [Wire α] : Wire.ok ([] : List α) := ⟨Nat.two_pow_pos 31, fun _ h => by cases h⟩

theorem endpoint_ok : Wire.ok endpoint := by
  refine ⟨str_ok _ (by decide), ⟨str_ok _ (by decide), str_ok _ (by decide), ?_, trivial, str_ok _ (by decide), str_ok _ (by decide),
    none_ok⟩, ?_, trivial, str_ok _ (by decide), none_ok, str_ok _ (by decide), trivial⟩
  · exact ⟨trivial, trivial, trivial, trivial⟩
  · show (Ua.init : ByteString).bytes.length < 2 ^ 31
    decide

theorem endpoints_ok : Wire.ok [endpoint] := ⟨by decide, fun x hx => by
  simp only [List.mem_singleton] at hx
  subst hx
  exact endpoint_ok⟩

theorem bytes_ok : Wire.ok (Ua.init : ByteString) := by
  show (Ua.init : ByteString).bytes.length < 2 ^ 31
  decide

/-- The bytes of the answer to each request. -/
def reply (e : SEnv) (k : Nat) (r : SReq) : List UInt8 :=
  match r with
  | .getEndpoints q => wire (Cont.make 431 (getEndpointsRsp e q))
  | .create q => wire (Cont.make 464 (createRsp e k q))
  | .activate q => wire (Cont.make 470 (activateRsp e q))
  | .close q => wire (Cont.make 476 (closeRsp e q))
  | .read q => wire (Cont.make 634 (readRsp e q))

theorem getEndpointsRsp_ok (e : SEnv) (q : UaGetEndpointsReq) : Wire.ok (getEndpointsRsp e q) :=
  ⟨Channel.rspHdr_ok _ _, endpoints_ok⟩

theorem getEndpoints_packed (e : SEnv) (k : Nat) (q : UaGetEndpointsReq) :
    packed (enc (Cont.make 431 (getEndpointsRsp e q))) = .ok (reply e k (.getEndpoints q)) := by
  refine packed_ok (Lawful.writes (Cont.make 431 (getEndpointsRsp e q)) ⟨⟨trivial, rfl, rfl⟩, ?_⟩) ?_
  · exact getEndpointsRsp_ok e q
  · exact Nat.le_trans (Nat.le_of_eq (rfl : (wire (Cont.make 431 (getEndpointsRsp e q))).length = 218)) (by decide : 218 ≤ 4068)

theorem activateRsp_ok (e : SEnv) (q : UaActivateSessionReq) : Wire.ok (activateRsp e q) :=
  ⟨Channel.rspHdr_ok _ _, bytes_ok, none_ok, none_ok⟩

theorem activate_packed (e : SEnv) (k : Nat) (q : UaActivateSessionReq) :
    packed (enc (Cont.make 470 (activateRsp e q))) = .ok (reply e k (.activate q)) := by
  refine packed_ok (Lawful.writes (Cont.make 470 (activateRsp e q)) ⟨⟨trivial, rfl, rfl⟩, ?_⟩) ?_
  · exact activateRsp_ok e q
  · exact Nat.le_trans (Nat.le_of_eq (rfl : (wire (Cont.make 470 (activateRsp e q))).length = 40)) (by decide : 40 ≤ 4068)

theorem closeRsp_ok (e : SEnv) (q : UaCloseSessionReq) : Wire.ok (closeRsp e q) :=
  Channel.rspHdr_ok _ _

theorem close_packed (e : SEnv) (k : Nat) (q : UaCloseSessionReq) :
    packed (enc (Cont.make 476 (closeRsp e q))) = .ok (reply e k (.close q)) := by
  refine packed_ok (Lawful.writes (Cont.make 476 (closeRsp e q)) ⟨⟨trivial, rfl, rfl⟩, ?_⟩) ?_
  · exact closeRsp_ok e q
  · exact Nat.le_trans (Nat.le_of_eq (rfl : (wire (Cont.make 476 (closeRsp e q))).length = 28)) (by decide : 28 ≤ 4068)

theorem readRsp_ok (e : SEnv) (q : UaReadReq) : Wire.ok (readRsp e q) := ⟨Channel.rspHdr_ok _ _, none_ok, none_ok⟩

theorem read_packed (e : SEnv) (k : Nat) (q : UaReadReq) :
    packed (enc (Cont.make 634 (readRsp e q))) = .ok (reply e k (.read q)) := by
  refine packed_ok (Lawful.writes (Cont.make 634 (readRsp e q)) ⟨⟨trivial, rfl, rfl⟩, ?_⟩) ?_
  · exact ⟨Channel.rspHdr_ok _ _, none_ok, none_ok⟩
  · exact Nat.le_trans (Nat.le_of_eq (rfl : (wire (Cont.make 634 (readRsp e q))).length = 36)) (by decide : 36 ≤ 4068)

theorem nodeId_length (n : UInt32) : (wire (⟨0, .numeric n⟩ : NodeId)).length ≤ 7 := by
  show (if _ then _ else _ : List UInt8).length ≤ 7
  split
  · exact (by decide : 2 ≤ 7)
  · split
    · exact (by decide : 4 ≤ 7)
    · exact (by decide : 7 ≤ 7)

theorem createRsp_ok (e : SEnv) (k : Nat) (q : UaCreateSessionReq) : Wire.ok (createRsp e k q) :=
  ⟨Channel.rspHdr_ok _ _, trivial, trivial, trivial, bytes_ok, bytes_ok, endpoints_ok, none_ok, ⟨str_ok _ (by decide), bytes_ok⟩, trivial⟩

theorem create_packed (e : SEnv) (k : Nat) (q : UaCreateSessionReq) :
    packed (enc (Cont.make 464 (createRsp e k q))) = .ok (reply e k (.create q)) := by
  refine packed_ok (Lawful.writes (Cont.make 464 (createRsp e k q)) ⟨⟨trivial, rfl, rfl⟩, ?_⟩) ?_
  · exact createRsp_ok e k q
  · have h1 := nodeId_length (UInt32.ofNat k)
    have : (reply e k (.create q)).length = 4 + (24 + ((wire (⟨0, .numeric (UInt32.ofNat k)⟩ : NodeId)).length +
        ((wire (⟨0, .numeric (UInt32.ofNat k)⟩ : NodeId)).length + 222))) := by
      unfold reply
      show (_ ++ (_ ++ (wire (⟨0, .numeric (UInt32.ofNat k)⟩ : NodeId) ++ (wire (⟨0, .numeric (UInt32.ofNat k)⟩ : NodeId) ++ _))) : List UInt8).length = _
      generalize wire (⟨0, .numeric (UInt32.ofNat k)⟩ : NodeId) = x
      rw [List.length_append, List.length_append, List.length_append, List.length_append]
      rfl
    omega

/-! ## What a session does with a request -/

/-- The session behind the request. -/
def react (k : Nat) (e : SEnv) (h : MsgHdr) (r : SReq) (t : Sess) : Sess :=
  match t.st, r with
  | .init, .create _ =>
    { t with st := .created, log := t.log ++ [.got h r] ++ [.answer h (reply e k r)] ++ [.created] }
  | .init, _ => { t with log := t.log ++ [.got h r] }
  | _, .activate _ =>
    { t with st := .activated, channel := some h.secureChannelId,
             log := t.log ++ [.got h r] ++ [.associate { h with sessionId := UInt32.ofNat k }] ++
               [.answer { h with sessionId := UInt32.ofNat k } (reply e k r)] }
  | _, .close _ =>
    { t with st := .init, channel := none, log := t.log ++ [.got h r] ++ [.answer h (reply e k r)] ++ [.released] }
  | .activated, .read _ =>
    if t.channel = some h.secureChannelId then
      { t with log := t.log ++ [.got h r] ++ [.served h] ++ [.answer h (reply e k r)] }
    else { t with log := t.log ++ [.got h r] }
  | _, _ => { t with log := t.log ++ [.got h r] }

/-- The session ends with this request. -/
def dies (t : Sess) (r : SReq) : Bool :=
  match t.st, r with
  | .init, _ => false
  | _, .close _ => true
  | _, _ => false

theorem answer_run {k : Nat} {h : MsgHdr} {c : Codec Unit} {w : List UInt8} (hp : packed c = .ok w) (s : Sessions) :
    answer k h c s = (.ok (), s.set k { s.objs k with log := (s.objs k).log ++ [.answer h w] }) := by
  unfold answer
  rw [bind_ok (lift_ok hp _)]
  rfl

theorem onReceive_run (k : Nat) (e : SEnv) (h : MsgHdr) (r : SReq) (s : Sessions) : onReceive k e h r s =
    (if dies (s.objs k) r then releaseId k (s.set k (react k e h r (s.objs k))) else (.ok (), s.set k (react k e h r (s.objs k)))) := by
  unfold onReceive
  rw [note, bind_ok (obj_run _ _ _), bind_ok (self_run _ _), set_at]
  have hclose : ∀ (q : UaCloseSessionReq) (x : Sessions), (receiveClose k e h q >>= fun _ => toInit k) x =
      releaseId k (x.set k { x.objs k with st := .init, channel := none, log := (x.objs k).log ++ [.answer h (reply e k (.close q))] ++ [.released] }) := by
    intro q x
    unfold receiveClose toInit note
    rw [bind_ok (answer_run (close_packed e k q) _), bind_ok (obj_run _ _ _), bind_ok (obj_run _ _ _)]
    simp only [set_at, set_set]
  have hact : ∀ (q : UaActivateSessionReq) (x : Sessions), receiveActivate k e h q x =
      (.ok (), x.set k { x.objs k with channel := some h.secureChannelId, log := (x.objs k).log ++
        [.associate { h with sessionId := UInt32.ofNat k }] ++ [.answer { h with sessionId := UInt32.ofNat k } (reply e k (.activate q))] }) := by
    intro q x
    unfold receiveActivate note
    rw [bind_ok (obj_run _ _ _), bind_ok (obj_run _ _ _), answer_run (activate_packed e k q)]
    simp only [set_at, set_set]
  cases hst : (s.objs k).st <;> cases r <;> simp only [react, dies, hst] <;> try rfl
  case init.create q =>
    unfold receiveCreate note
    rw [bind_ok (answer_run (create_packed e k q) _), bind_ok (obj_run _ _ _), obj_run]
    simp only [set_at, set_set]
    rfl
  case created.activate q =>
    rw [bind_ok (hact _ _), obj_run]
    simp only [set_at, set_set]
    rfl
  case created.close q =>
    rw [hclose]
    simp only [set_at, set_set]
    rfl
  case activated.activate q =>
    rw [hact]
    simp only [set_at, set_set]
    rfl
  case activated.close q =>
    rw [hclose]
    simp only [set_at, set_set]
    rfl
  case activated.read q =>
    unfold receiveService serveRead note
    rw [bind_ok (self_run _ _), set_at]
    show (if (s.objs k).channel = some h.secureChannelId then _ else _ : SM Sessions Unit) _ = _
    by_cases hc : (s.objs k).channel = some h.secureChannelId
    · rw [if_pos hc, if_pos hc, bind_ok (obj_run _ _ _), answer_run (read_packed e k q)]
      simp only [set_at, set_set]
      rfl
    · rw [if_neg hc, if_neg hc]
      rfl

/-! ## The invariant -/

structure Idle (k : Nat) (t : Sess) : Prop where
  st : t.st = .init
  channel : t.channel = none
  isOpen : isOpen t.log = false
  holder : holder t.log = none
  ok : AllOk (Right k) t.log

structure Live (k : Nat) (t : Sess) : Prop where
  st : t.st ≠ .init
  isOpen : isOpen t.log = true
  holder : holder t.log = t.channel
  created : t.st = .created ↔ t.channel = none
  ok : AllOk (Right k) t.log

abbrev SInv (s : Sessions) : Prop := s.Inv Idle Live

abbrev SAround (k : Nat) (P : Sess → Prop) (s : Sessions) : Prop := Around Idle Live k P s

/-- Requests come to the session they name. -/
def Addressed (k : Nat) (h : MsgHdr) (r : SReq) : Prop :=
  match r with
  | .getEndpoints _ => False
  | .create _ => True
  | .activate q => IsToken k q.requestHdr.authentificationToken
  | .close q => IsToken k q.requestHdr.authentificationToken
  | .read _ => h.sessionId = UInt32.ofNat k

variable {k : Nat}

theorem got_ok {l : List SAct} (h : AllOk (Right k) l) (hdr : MsgHdr) (r : SReq) : AllOk (Right k) (l ++ [.got hdr r]) :=
  h.snoc ⟨trivial, trivial, trivial, trivial⟩

theorem offers : Offers [endpoint] := ⟨_, rfl, by decide +kernel, rfl, by decide +kernel⟩

theorem fits (e : SEnv) (k : Nat) (r : SReq) : Fits k r (reply e k r) := by
  cases r with
  | getEndpoints q => exact ⟨_, getEndpointsRsp_ok e q, rfl, ⟨rfl, rfl⟩, offers⟩
  | create q => exact ⟨_, createRsp_ok e k q, rfl, ⟨rfl, rfl⟩, rfl, rfl, rfl, offers⟩
  | activate q => exact ⟨_, activateRsp_ok e q, rfl, rfl, rfl⟩
  | close q => exact ⟨_, closeRsp_ok e q, rfl, rfl, rfl⟩
  | read q => exact ⟨_, readRsp_ok e q, rfl, rfl, rfl⟩

theorem Idle.got {t : Sess} (h : Idle k t) (hdr : MsgHdr) (r : SReq) : Idle k { t with log := t.log ++ [.got hdr r] } where
  st := h.st
  channel := h.channel
  isOpen := by rw [isOpen_snoc]; exact h.isOpen
  holder := by rw [holder_snoc]; exact h.holder
  ok := got_ok h.ok hdr r

theorem Live.got {t : Sess} (h : Live k t) (hdr : MsgHdr) (r : SReq) : Live k { t with log := t.log ++ [.got hdr r] } where
  st := h.st
  isOpen := by rw [isOpen_snoc]; exact h.isOpen
  holder := by rw [holder_snoc]; exact h.holder
  created := h.created
  ok := got_ok h.ok hdr r

theorem idle_react {t : Sess} (ht : Idle k t) (e : SEnv) (h : MsgHdr) (r : SReq) : dies t r = false ∧
    match r with
    | .create _ => Live k (react k e h r t)
    | _ => Idle k (react k e h r t) := by
  refine ⟨by simp only [dies, ht.st], ?_⟩
  have hg := ht.got h r
  rw [ht.st] at hg
  cases r <;> simp only [react, ht.st] <;> try exact hg
  rename_i q
  refine ⟨by simp, by simp only [isOpen_snoc], ?_, by simp [ht.channel], ?_⟩
  · simp only [holder_snoc, ht.holder, ht.channel]
  · refine AllOk.snoc (AllOk.snoc (got_ok ht.ok _ _) ?_) ?_
    · refine ⟨trivial, trivial, ?_, ?_⟩
      · exact ⟨h, .create q, by rw [lastGot_snoc], ⟨rfl, rfl, rfl⟩, fits e k _, by simp, rfl⟩
      · exact fun h' r h => by simp only [lastGot_snoc] at h; cases h
    · refine ⟨trivial, ⟨?_, h, q, by simp only [lastGot_snoc]⟩, trivial, trivial⟩
      simp only [isOpen_snoc, ht.isOpen]

theorem live_react {t : Sess} (ht : Live k t) (e : SEnv) (h : MsgHdr) (r : SReq) (ha : Addressed k h r) :
    if dies t r then Idle k (react k e h r t) else Live k (react k e h r t) := by
  have hst := ht.st
  have hact : ∀ q, r = .activate q → Live k { t with st := .activated, channel := some h.secureChannelId, log := t.log ++ [.got h r] ++
      [.associate { h with sessionId := UInt32.ofNat k }] ++ [.answer { h with sessionId := UInt32.ofNat k } (reply e k r)] } := by
    rintro q rfl
    refine ⟨by simp, by simp only [isOpen_snoc, ht.isOpen], by simp only [holder_snoc], by simp, ?_⟩
    refine AllOk.snoc (AllOk.snoc (got_ok ht.ok _ _) ?_) ?_
    · refine ⟨⟨?_, h, q, by rw [lastGot_snoc], ha, rfl⟩, trivial, trivial, trivial⟩
      simp only [isOpen_snoc, ht.isOpen]
    · refine ⟨trivial, trivial, ?_, ?_⟩
      · exact ⟨h, .activate q, by simp only [lastGot_snoc], ⟨rfl, rfl, rfl⟩, fits e k _, by simp, rfl⟩
      · exact fun h' r h => by simp only [lastGot_snoc] at h; cases h
  have hclose : ∀ q, r = .close q → Idle k { t with st := .init, channel := none, log := t.log ++ [.got h r] ++
      [.answer h (reply e k r)] ++ [.released] } := by
    rintro q rfl
    refine ⟨rfl, rfl, by simp only [isOpen_snoc], by simp only [holder_snoc], ?_⟩
    refine AllOk.snoc (AllOk.snoc (got_ok ht.ok _ _) ?_) ?_
    · refine ⟨trivial, trivial, ?_, ?_⟩
      · exact ⟨h, .close q, by rw [lastGot_snoc], ⟨rfl, rfl, rfl⟩, fits e k _, by simp, rfl⟩
      · exact fun h' r h => by simp only [lastGot_snoc] at h; cases h
    · refine ⟨trivial, ⟨?_, h, q, by simp only [lastGot_snoc], ha⟩, trivial, trivial⟩
      simp only [isOpen_snoc, ht.isOpen]
  have hg := ht.got h r
  cases hs : t.st with
  | init => exact absurd hs hst
  | created =>
    cases r <;> simp only [react, dies, hs] <;> first
      | exact hact _ rfl
      | exact hclose _ rfl
      | (rw [hs] at hg; exact hg)
  | activated =>
    cases r <;> simp only [react, dies, hs] <;> try first
      | exact hact _ rfl
      | exact hclose _ rfl
      | (rw [hs] at hg; exact hg)
    rename_i q
    by_cases hc : t.channel = some h.secureChannelId
    · rw [if_pos hc]
      refine ⟨by simp, by simp only [isOpen_snoc, ht.isOpen], by simp only [holder_snoc, ht.holder], by simp [hc], ?_⟩
      refine AllOk.snoc (AllOk.snoc (got_ok ht.ok _ _) ?_) ?_
      · refine ⟨⟨?_, ?_, ha, q, by rw [lastGot_snoc]⟩, trivial, trivial, trivial⟩
        · rw [holder_snoc]
          exact ht.holder.trans hc
        · rw [isOpen_snoc]
          exact ht.isOpen
      · refine ⟨trivial, trivial, ?_, ?_⟩
        · exact ⟨h, .read q, by simp only [lastGot_snoc], ⟨rfl, rfl, rfl⟩, fits e k _, by simp, rfl⟩
        · exact fun h' r _ => ⟨readRsp e q, readRsp_ok e q, rfl, (by decide : 36 ≤ 4096), rfl, rfl⟩
    · rw [if_neg hc]
      rw [hs] at hg
      exact hg

theorem tri_onReceive {T : Sessions → Prop} {e : SEnv} {h : MsgHdr} {r : SReq} (ha : Addressed k h r) :
    STri T (SAround k (Live k)) (onReceive k e h r) (fun _ => SInv) := by
  intro s hs
  have hl := live_react hs.at e h r ha
  rw [onReceive_run]
  by_cases hd : dies (s.objs k) r = true
  · rw [if_pos hd] at hl ⊢
    exact tri_release (T := T) (P := Idle k) (fun t h => h) _ (Around.set hs hl)
  · rw [if_neg hd] at hl ⊢
    exact Around.inv (Around.set hs hl)

theorem tri_create {T : Sessions → Prop} {e : SEnv} {h : MsgHdr} {q : UaCreateSessionReq} :
    STri T (SAround k (Idle k)) (onReceive k e h (.create q)) (fun _ => SInv) := by
  intro s hs
  obtain ⟨h1, h2⟩ := idle_react hs.at e h (.create q)
  rw [onReceive_run, if_neg (by simp [h1])]
  exact Around.inv (Around.set hs h2)

theorem tri_get {T : Sessions → Prop} {e : SEnv} {h : MsgHdr} {r : SReq} {uid : UInt32} (ha : Addressed uid.toNat h r)
    (hr : ∀ q, r ≠ .create q) : STri T SInv (Ent.get uid.toNat (onReceive uid.toNat e h r)) (fun _ => SInv) := by
  unfold Ent.get
  by_cases hv : Pool.valid uid.toNat
  · rw [if_pos hv]
    intro s hs
    rcases hs.around hv with h1 | ⟨l, h1, h2, h3⟩
    · exact tri_onReceive ha _ h1
    · obtain ⟨h4, h5⟩ := idle_react ((h3 _ hv).1 h2) e h r
      rw [onReceive_run, if_neg (by simp [h4])]
      refine Inv.set_idle h1 h2 h3 ?_
      cases r with
      | create q => exact absurd rfl (hr q)
      | getEndpoints q => exact h5
      | activate q => exact h5
      | close q => exact h5
      | read q => exact h5
  · rw [if_neg hv]
    exact STri.undefined

theorem endpoints_run (e : SEnv) (h : MsgHdr) (q : UaGetEndpointsReq) (s : Sessions) : handle e h (.getEndpoints q) s =
    (.ok (), s.set 0 { s.objs 0 with log := (s.objs 0).log ++ [.got h (.getEndpoints q)] ++ [.answer h (reply e 0 (.getEndpoints q))] }) := by
  show (obj 0 _ >>= fun _ => answer 0 h (enc (Cont.make 431 (getEndpointsRsp e q)))) s = _
  rw [bind_ok (obj_run _ _ _), answer_run (getEndpoints_packed e 0 q)]
  simp only [set_at, set_set]

theorem tri_handle {T : Sessions → Prop} {e : SEnv} {h : MsgHdr} {r : SReq} : STri T SInv (handle e h r) (fun _ => SInv) := by
  have htok : ∀ (n : NodeId) (r : SReq), (∀ uid : UInt32, n.value = .numeric uid → Addressed uid.toNat h r) → (∀ q, r ≠ .create q) →
      STri T SInv (byToken n fun k => onReceive k e h r) (fun _ => SInv) := by
    intro n r hn hr
    unfold byToken
    split
    · rename_i uid he
      exact tri_get (hn uid he) hr
    · exact STri.ret fun _ h => h
  cases r with
  | getEndpoints q =>
    intro s hs
    rw [endpoints_run]
    obtain ⟨l, h1, h2⟩ := hs
    refine ⟨l, h1, fun j hj => ?_⟩
    have : j ≠ 0 := by have := hj.1; omega
    rw [set_other _ _ this]
    exact h2 j hj
  | create q => exact tri_alloc (fun k => tri_create) (STri.ret fun _ h => h)
  | activate q =>
    refine htok _ _ (fun uid h => ?_) (fun q h => by cases h)
    show _ = _
    rw [h, UInt32.ofNat_toNat]
  | close q =>
    refine htok _ _ (fun uid h => ?_) (fun q h => by cases h)
    show _ = _
    rw [h, UInt32.ofNat_toNat]
  | read q =>
    show STri T SInv (if h.sessionId = invalidSuid then pure () else _) _
    split
    · exact STri.ret fun _ h => h
    · refine tri_get ?_ (fun q h => by cases h)
      show _ = _
      rw [UInt32.ofNat_toNat]

theorem tri_event {e : SEnv} {h : MsgHdr} {d : List UInt8} : STri SInv SInv (event e h d) (fun _ => SInv) := by
  refine STri.bind (R := fun _ => SInv) (STri.lift (fun _ _ _ h => h) (fun _ _ h => h)) fun b => ?_
  refine STri.bind (R := fun _ => SInv) (STri.lift (fun _ _ _ h => h) (fun _ _ h => h)) fun r => ?_
  split
  · exact STri.ret fun _ h => h
  · exact tri_handle

theorem idle_create : Idle k Sess.create := ⟨rfl, rfl, rfl, rfl, AllOk.nil⟩

variable {evs : List SIn} {s : Sessions}

theorem reach_inv (h : Reach evs s) : SInv s := by
  induction h with
  | create h => exact (create_inv h fun k _ => idle_create).1
  | step h hn ih => rcases settle_ok (tri_event _ ih) hn with h2 | ⟨_, h2⟩ <;> exact h2

theorem log_ok (h : Reach evs s) (hk : Pool.valid k) : AllOk (Right k) (s.objs k).log := by
  rcases (reach_inv h).around hk with ha | ⟨l, h1, h2, h3⟩
  · exact ha.at.ok
  · exact ((h3 k hk).1 h2).ok

/-- The two views of an open session agree: its identifier is not free. -/
theorem live_of (h : Reach evs s) (hk : Pool.valid k) (ho : isOpen (s.objs k).log = true) :
    SAround k (fun t => t = s.objs k) s ∧ Live k (s.objs k) := by
  rcases (reach_inv h).around hk with ha | ⟨l, h1, h2, h3⟩
  · have := ha.at
    obtain ⟨l, h1, h2, h3, h4, _⟩ := ha
    exact ⟨⟨l, h1, h2, h3, h4, rfl⟩, this⟩
  · rw [((h3 k hk).1 h2).isOpen] at ho
    cases ho

/-! ## Well formed requests -/

/-- The bytes of a request: the type identifier, then the request. -/
def bytesOf : SReq → List UInt8
  | .getEndpoints q => wire (Cont.make 428 q)
  | .create q => wire (Cont.make 461 q)
  | .activate q => wire (Cont.make 467 q)
  | .close q => wire (Cont.make 473 q)
  | .read q => wire (Cont.make 631 q)

/-- The request can be sent. -/
def Sendable : SReq → Prop
  | .getEndpoints q => Wire.ok q
  | .create q => Wire.ok q
  | .activate q => Wire.ok q
  | .close q => Wire.ok q
  | .read q => Wire.ok q

/-- The bytes are an encoding of the request that the standard allows, without null arrays. -/
def Says : SReq → List UInt8 → Prop
  | .getEndpoints q => std false (Cont.make 428 q)
  | .create q => std false (Cont.make 461 q)
  | .activate q => std false (Cont.make 467 q)
  | .close q => std false (Cont.make 473 q)
  | .read q => std false (Cont.make 631 q)

theorem Sendable.says {r : SReq} (h : Sendable r) : Says r (bytesOf r) := by
  cases r <;> exact Accepts.canon _ ⟨⟨trivial, rfl, rfl⟩, h⟩

theorem dispatch_reads (r : SReq) {w : List UInt8} (h : Says r w) : Reads dispatch w (some r) := by
  have hid : ∀ (id : UInt32) {α : Type} [Ua α] [Wire α] [Std α] [Accepts α] {q : α} {w : List UInt8} (f : α → SReq),
      requestDec id = (do let r ← dec (Ua.init : α); pure (some (f r))) → std false (Cont.make id q) w → Reads dispatch w (some (f q)) := by
    intro id α _ _ _ _ q w f hf hr
    obtain ⟨a, b, h1, h2, rfl⟩ := hr
    refine Reads.bind (Accepts.acc (⟨⟨0, .numeric id⟩, none, none⟩ : ExpandedNodeId) a h1) ?_
    show Reads (requestDec id) b _
    rw [hf]
    exact Reads.map (f := fun r => some (f r)) (Accepts.acc q b h2)
  cases r with
  | getEndpoints q => exact hid 428 SReq.getEndpoints rfl h
  | create q => exact hid 461 SReq.create rfl h
  | activate q => exact hid 467 SReq.activate rfl h
  | close q => exact hid 473 SReq.close rfl h
  | read q => exact hid 631 SReq.read rfl h

/-- Reading a request from the buffer it was received in; more bytes may follow. -/
theorem loaded {α : Type} {c : Codec α} {w : List UInt8} {v : α} (h : Reads c w v) (x : List UInt8) (hl : (w ++ x).length ≤ 4096)
    (m : Mem) : c ((Buf.create m).append (w ++ x)) = .ok (v, ((Buf.create m).append (w ++ x)).skip w.length) := by
  rw [List.length_append] at hl
  refine h _ ?_ ?_
  · show 0 + w.length ≤ maxPacketLen
    simp only [maxPacketLen]
    omega
  · apply memRead_ext rfl
    intro i hi
    have := getD_memRead ((Buf.create m).append (w ++ x)).packet 0 (w ++ x).length i (by simp; omega)
    rw [Channel.load_packet, List.getD_eq_getElem?_getD, List.getElem?_append_left hi, ← List.getD_eq_getElem?_getD] at this
    exact this.symm

theorem next_run (s : Sessions) (e : SEnv) (h : MsgHdr) {r : SReq} {w : List UInt8} (hr : Says r w) {x : List UInt8} (hl : (w ++ x).length ≤ 4096) :
    next s ⟨e, h, w ++ x⟩ = settle (handle e h r s) := by
  unfold next event
  have h1 := loaded (dispatch_reads r hr) x hl e.mem
  rw [bind_ok (lift_ok (Channel.load_ok _ _ hl) _), bind_ok (lift_ok h1 _)]

/-- The log of `k` grows by `l`, all other sessions are left alone. -/
def Grows (k : Nat) (l : List SAct) (s s' : Sessions) : Prop := (s'.objs k).log = (s.objs k).log ++ l ∧
  ∀ j, j ≠ k → s'.objs j = s.objs j

theorem handle_get (s : Sessions) {uid : UInt32} (hv : Pool.valid uid.toNat) (e : SEnv) (h : MsgHdr) (r : SReq) (hr : match r with
    | .activate q => q.requestHdr.authentificationToken.value = .numeric uid
    | .close q => q.requestHdr.authentificationToken.value = .numeric uid
    | .read _ => h.sessionId = uid
    | _ => False) : handle e h r s = onReceive uid.toNat e h r s := by
  have htok : ∀ n : NodeId, n.value = .numeric uid → byToken n (fun k => onReceive k e h r) s = onReceive uid.toNat e h r s := by
    intro n hn
    unfold byToken
    simp only [hn, Ent.get]
    rw [if_pos hv]
  cases r with
  | getEndpoints q => exact hr.elim
  | create q => exact hr.elim
  | activate q => exact htok _ hr
  | close q => exact htok _ hr
  | read q =>
    have hr : h.sessionId = uid := hr
    subst hr
    show (if h.sessionId = invalidSuid then pure () else Ent.get _ _ : SM Sessions Unit) s = _
    rw [if_neg, Ent.get, if_pos hv]
    intro he
    rw [he] at hv
    exact absurd hv (by decide)

/-- The session lives on. -/
theorem next_lives (s : Sessions) {uid : UInt32} (hv : Pool.valid uid.toNat) (e : SEnv) (h : MsgHdr) {r : SReq} (hr : match r with
    | .activate q => q.requestHdr.authentificationToken.value = .numeric uid
    | .close q => q.requestHdr.authentificationToken.value = .numeric uid
    | .read _ => h.sessionId = uid
    | _ => False) {w : List UInt8} (hs : Says r w) {x : List UInt8} (hl : (w ++ x).length ≤ 4096) (hd : dies (s.objs uid.toNat) r = false) :
    next s ⟨e, h, w ++ x⟩ = .ok (s.set uid.toNat (react uid.toNat e h r (s.objs uid.toNat))) := by
  rw [next_run s e h hs hl, handle_get s hv e h r hr, onReceive_run, if_neg (by simp [hd])]
  rfl

/-- Requests to a session that does not exist are dropped. -/
theorem closed_of (h : Reach evs s) (hk : Pool.valid k) (ho : isOpen (s.objs k).log = false) : (s.objs k).st = .init := by
  rcases (reach_inv h).around hk with ha | ⟨l, h1, h2, h3⟩
  · rw [ha.at.isOpen] at ho
    cases ho
  · exact ((h3 k hk).1 h2).st

/-! ## C39 -/

/-- C39: see `Serves`, for every history of messages. -/
theorem C39_serves (h : Reach evs s) (hk : Pool.valid k) : AllOk (Serves k) (s.objs k).log :=
  fun pre a post e => (log_ok h hk pre a post e).1

/-- C39: a well formed read request on the channel that activated the session last is executed and answered. -/
theorem C39_answers (h : Reach evs s) (e : SEnv) (hdr : MsgHdr) (hv : Pool.valid hdr.sessionId.toNat)
    (hh : holder (s.objs hdr.sessionId.toNat).log = some hdr.secureChannelId) (q : UaReadReq) {w : List UInt8} (hq : Says (.read q) w)
    {x : List UInt8} (hl : (w ++ x).length ≤ 4096) : ∃ s' ans, next s ⟨e, hdr, w ++ x⟩ = .ok s' ∧
      Grows hdr.sessionId.toNat [.got hdr (.read q), .served hdr, .answer hdr ans] s s' ∧ Fits hdr.sessionId.toNat (.read q) ans := by
  have ho : isOpen (s.objs hdr.sessionId.toNat).log = true := by
    rcases (reach_inv h).around hv with ha | ⟨l, h1, h2, h3⟩
    · exact ha.at.isOpen
    · rw [((h3 _ hv).1 h2).holder] at hh
      cases hh
  obtain ⟨-, hlive⟩ := live_of h hv ho
  have hc := hlive.holder.symm.trans hh
  have hst : (s.objs hdr.sessionId.toNat).st = .activated := by
    cases hst : (s.objs hdr.sessionId.toNat).st with
    | init => exact absurd hst hlive.st
    | created =>
      rw [hlive.created.1 hst] at hc
      cases hc
    | activated => rfl
  have hd : dies (s.objs hdr.sessionId.toNat) (.read q) = false := by simp only [dies, hst]
  refine ⟨_, reply e hdr.sessionId.toNat (.read q), next_lives s hv e hdr (r := .read q) rfl hq hl hd, ⟨?_, fun j hj => set_other _ _ hj⟩,
    fits _ _ _⟩
  rw [set_at]
  simp only [react, hst]
  rw [if_pos hc]
  simp

/-- C39: on any other channel, and when the session does not exist or is not activated, it is dropped. -/
theorem C39_refuses (h : Reach evs s) (e : SEnv) (hdr : MsgHdr) (hv : Pool.valid hdr.sessionId.toNat)
    (hh : holder (s.objs hdr.sessionId.toNat).log ≠ some hdr.secureChannelId) (q : UaReadReq) {w : List UInt8} (hq : Says (.read q) w)
    {x : List UInt8} (hl : (w ++ x).length ≤ 4096) : ∃ s', next s ⟨e, hdr, w ++ x⟩ = .ok s' ∧
      Grows hdr.sessionId.toNat [.got hdr (.read q)] s s' := by
  have hd : dies (s.objs hdr.sessionId.toNat) (.read q) = false := by
    unfold dies
    split <;> first | rfl | contradiction
  refine ⟨_, next_lives s hv e hdr (r := .read q) rfl hq hl hd, ?_, fun j hj => set_other _ _ hj⟩
  rw [set_at]
  cases hst : (s.objs hdr.sessionId.toNat).st with
  | init => simp only [react, hst]
  | created => simp only [react, hst]
  | activated =>
    have ho : isOpen (s.objs hdr.sessionId.toNat).log = true := by
      cases ho : isOpen (s.objs hdr.sessionId.toNat).log with
      | false => rw [closed_of h hv ho] at hst; cases hst
      | true => rfl
    obtain ⟨-, hlive⟩ := live_of h hv ho
    simp only [react, hst]
    rw [if_neg]
    rw [← hlive.holder]
    exact hh

/-! ## C40 -/

/-- C40: sessions are created and closed alternately; only a close request with its token ends a session. -/
theorem C40_paired (h : Reach evs s) (hk : Pool.valid k) : AllOk (Paired k) (s.objs k).log :=
  fun pre a post e => (log_ok h hk pre a post e).2.1

theorem token_unique {i j : Nat} (hi : Pool.valid i) (hj : Pool.valid j) {n : NodeId} (h1 : IsToken i n) (h2 : IsToken j n) : i = j := by
  have h : UInt32.ofNat i = UInt32.ofNat j := NodeIdValue.numeric.inj (h1.symm.trans h2)
  have h := congrArg UInt32.toNat h
  obtain ⟨-, hi⟩ := hi
  obtain ⟨-, hj⟩ := hj
  simp only [poolCap] at hi hj
  rw [UInt32.toNat_ofNat', UInt32.toNat_ofNat', Nat.mod_eq_of_lt (by omega), Nat.mod_eq_of_lt (by omega)] at h
  exact h

/-- C40: every well formed create request is answered, if an identifier is free, with a session identifier and a token that
no open session has; the session exists from then on. -/
theorem C40_create (h : Reach evs s) (hf : s.ids.len ≠ 0) (e : SEnv) (hdr : MsgHdr) (q : UaCreateSessionReq) {w : List UInt8} (hq : Says (.create q) w)
    {x : List UInt8} (hl : (w ++ x).length ≤ 4096) : ∃ (k : Nat) (s' : Sessions) (rsp : UaCreateSessionRsp), Pool.valid k ∧ isOpen (s.objs k).log = false ∧
      next s ⟨e, hdr, w ++ x⟩ = .ok s' ∧
      Grows k [.got hdr (.create q), .answer hdr (wire (Cont.make 464 rsp)), .created] s s' ∧
      Fits k (.create q) (wire (Cont.make 464 rsp)) ∧ isOpen (s'.objs k).log = true ∧
      ∀ j, Pool.valid j → isOpen (s.objs j).log = true → ¬ IsToken j rsp.sessionId ∧ ¬ IsToken j rsp.authenticationToken := by
  obtain ⟨l, hfree, hgood⟩ := reach_inv h
  have hlen := hfree.holds.hlen
  cases l with
  | nil => exact absurd hlen hf
  | cons k l =>
    have hk := hfree.ids k (by simp)
    have hidle := (hgood k hk).1 (by simp)
    obtain ⟨qq, hq', ha⟩ := alloc_run hfree
    refine ⟨k, Ent.set { s with ids := qq } k (react k e hdr (.create q) (s.objs k)), createRsp e k q, hk, hidle.isOpen, ?_,
      ⟨?_, fun j hj => ?_⟩, fits e k (.create q), ?_, ?_⟩
    · rw [next_run s e hdr (r := .create q) hq hl]
      show settle ((allocId >>= _) s) = _
      rw [bind_ok ha]
      show settle (onReceive k e hdr (.create q) _) = _
      rw [onReceive_run, if_neg]
      · rfl
      · show ¬ dies (s.objs k) (.create q) = true
        simp only [dies, hidle.st]
        simp
    · rw [set_at]
      simp only [react, hidle.st]
      simp [reply]
    · rw [set_other _ _ hj]
    · rw [set_at]
      simp only [react, hidle.st, isOpen_snoc]
    · intro j hj ho
      have hne : j ≠ k := by
        rintro rfl
        rw [hidle.isOpen] at ho
        cases ho
      exact ⟨fun h2 => hne (token_unique hj hk h2 rfl), fun h2 => hne (token_unique hj hk h2 rfl)⟩

/-- C40: an identifier is free exactly if its session does not exist; none is lost. -/
theorem C40_no_leak (h : Reach evs s) : ∃ l, Pool.Free s.ids l ∧ ∀ k, Pool.valid k → (k ∈ l ↔ isOpen (s.objs k).log = false) := by
  obtain ⟨l, hfree, hgood⟩ := reach_inv h
  refine ⟨l, hfree, fun k hk => ⟨fun hm => ((hgood k hk).1 hm).isOpen, fun ho => ?_⟩⟩
  refine Classical.byContradiction fun hn => ?_
  rw [((hgood k hk).2 hn).isOpen] at ho
  cases ho

/-- C40: a well formed create request is dropped only when all 32 sessions exist. -/
theorem C40_full (h : Reach evs s) (hf : s.ids.len = 0) (e : SEnv) (hdr : MsgHdr) (q : UaCreateSessionReq) {w : List UInt8} (hq : Says (.create q) w)
    {x : List UInt8} (hl : (w ++ x).length ≤ 4096) : next s ⟨e, hdr, w ++ x⟩ = .ok s ∧
      ∀ k, Pool.valid k → isOpen (s.objs k).log = true := by
  obtain ⟨l, hfree, hiff⟩ := C40_no_leak h
  have hlen := hfree.holds.hlen
  have hnil : l = [] := List.eq_nil_of_length_eq_zero (by omega)
  subst hnil
  refine ⟨?_, fun k hk => ?_⟩
  · rw [next_run s e hdr (r := .create q) hq hl]
    show settle ((allocId >>= _) s) = _
    have : allocId s = (.ok none, s) := by simp only [allocId, hfree.alloc_nil]
    rw [bind_ok this]
    rfl
  · cases ho : isOpen (s.objs k).log with
    | true => rfl
    | false => exact absurd ((hiff k hk).2 ho) (by simp)

/-- C40: a well formed close request with the token of an open session is answered and ends the session; its identifier
can be used again. -/
theorem C40_close (h : Reach evs s) (e : SEnv) (hdr : MsgHdr) {uid : UInt32} (hv : Pool.valid uid.toNat)
    (ho : isOpen (s.objs uid.toNat).log = true) (q : UaCloseSessionReq) {w : List UInt8} (hq : Says (.close q) w)
    (ht : q.requestHdr.authentificationToken.value = .numeric uid)
    {x : List UInt8} (hl : (w ++ x).length ≤ 4096) : ∃ s' ans, next s ⟨e, hdr, w ++ x⟩ = .ok s' ∧
      Grows uid.toNat [.got hdr (.close q), .answer hdr ans, .released] s s' ∧ Fits uid.toNat (.close q) ans ∧
      s'.ids.len = s.ids.len + 1 := by
  obtain ⟨ha, hlive⟩ := live_of h hv ho
  have hd : dies (s.objs uid.toNat) (.close q) = true := by
    unfold dies
    split
    · rename_i hst
      exact absurd hst hlive.st
    · rfl
    · rename_i h2
      exact absurd rfl (h2 q)
  obtain ⟨l, h1, h2, h3, h4, h5⟩ := ha
  obtain ⟨ids, hx, hf⟩ := h1.release h2 h3
  refine ⟨{ s.set uid.toNat (react uid.toNat e hdr (.close q) (s.objs uid.toNat)) with ids := ids },
    reply e uid.toNat (.close q), ?_, ⟨?_, fun j hj => ?_⟩, fits _ _ _, ?_⟩
  · rw [next_run s e hdr (r := .close q) hq hl, handle_get s hv e hdr (.close q) ht, onReceive_run, if_pos hd]
    have : (s.set uid.toNat (react uid.toNat e hdr (.close q) (s.objs uid.toNat))).ids = s.ids := rfl
    simp only [releaseId, this, hx]
    rfl
  · show ((s.set uid.toNat _).objs uid.toNat).log = _
    rw [set_at]
    cases hst : (s.objs uid.toNat).st with
    | init => exact absurd hst hlive.st
    | created => simp [react, hst]
    | activated => simp [react, hst]
  · show (s.set uid.toNat _).objs j = _
    rw [set_other _ _ hj]
  · have e1 := h1.holds.hlen
    have e2 := hf.holds.hlen
    simp only [List.length_append, List.length_singleton] at e2
    show ids.len = _
    omega

/-! ## C50 -/

/-- C50: see `Answers`, for every history of messages. -/
theorem C50_answers (h : Reach evs s) (hk : Pool.valid k) : AllOk (Answers k) (s.objs k).log :=
  fun pre a post e => (log_ok h hk pre a post e).2.2.1

/-- C50: every well formed get endpoints request is answered; no session is touched. -/
theorem C50_endpoints (s : Sessions) (e : SEnv) (hdr : MsgHdr) (q : UaGetEndpointsReq) {w : List UInt8} (hq : Says (.getEndpoints q) w) {x : List UInt8}
    (hl : (w ++ x).length ≤ 4096) : ∃ s' ans, next s ⟨e, hdr, w ++ x⟩ = .ok s' ∧
      Grows 0 [.got hdr (.getEndpoints q), .answer hdr ans] s s' ∧ Fits 0 (.getEndpoints q) ans := by
  refine ⟨s.set 0 { s.objs 0 with log := (s.objs 0).log ++ [.got hdr (.getEndpoints q)] ++ [.answer hdr (reply e 0 (.getEndpoints q))] },
    reply e 0 (.getEndpoints q), ?_, ⟨?_, fun j hj => set_other _ _ hj⟩, fits _ _ _⟩
  · rw [next_run s e hdr (r := .getEndpoints q) hq hl, endpoints_run]
    rfl
  · rw [set_at]
    simp

/-- C50: every well formed activate request with the token of an open session is answered, behind the association of the
channel it came on with the session. -/
theorem C50_activate (h : Reach evs s) (e : SEnv) (hdr : MsgHdr) {uid : UInt32} (hv : Pool.valid uid.toNat)
    (ho : isOpen (s.objs uid.toNat).log = true) (q : UaActivateSessionReq) {w : List UInt8} (hq : Says (.activate q) w)
    (ht : q.requestHdr.authentificationToken.value = .numeric uid) {x : List UInt8}
    (hl : (w ++ x).length ≤ 4096) : ∃ s' ans, next s ⟨e, hdr, w ++ x⟩ = .ok s' ∧
      Grows uid.toNat [.got hdr (.activate q), .associate { hdr with sessionId := uid }, .answer { hdr with sessionId := uid } ans] s s' ∧
      Fits uid.toNat (.activate q) ans := by
  obtain ⟨-, hlive⟩ := live_of h hv ho
  have hd : dies (s.objs uid.toNat) (.activate q) = false := by
    unfold dies
    split <;> first | rfl | contradiction
  refine ⟨_, reply e uid.toNat (.activate q), next_lives s hv e hdr (r := .activate q) ht hq hl hd,
    ⟨?_, fun j hj => set_other _ _ hj⟩, fits _ _ _⟩
  rw [set_at]
  cases hst : (s.objs uid.toNat).st with
  | init => exact absurd hst hlive.st
  | created => simp [react, hst]
  | activated => simp [react, hst]

/-! ## C51 -/

/-- The message is a close request with the token of session `k`. -/
def Closes (k : Nat) (m : SIn) : Prop := ∃ b q b', Channel.load m.env.mem m.data = .ok b ∧ dispatch b = .ok (some (.close q), b') ∧
  IsToken k q.requestHdr.authentificationToken

theorem react_open {t : Sess} (ht : Live k t) (e : SEnv) (h : MsgHdr) (r : SReq) (hd : dies t r = false) :
    isOpen (react k e h r t).log = true := by
  have ho := ht.isOpen
  cases hs : t.st with
  | init => exact absurd hs ht.st
  | created => cases r <;> simp only [react, hs, isOpen_snoc, ho] <;> simp [dies, hs] at hd
  | activated =>
    cases r <;> simp only [react, hs, isOpen_snoc, ho] <;> try (simp [dies, hs] at hd)
    split <;> simp only [isOpen_snoc, ho]

theorem stays_step {s s' : Sessions} {m : SIn} (h : Reach evs s) (hk : Pool.valid k) (ho : isOpen (s.objs k).log = true)
    (hc : ¬ Closes k m) (hn : next s m = .ok s') : isOpen (s'.objs k).log = true := by
  have hinv := reach_inv h
  obtain ⟨ha, hlive⟩ := live_of h hk ho
  -- a request for session `j`
  have hget : ∀ (uid : UInt32) (r : SReq), (∀ q, r ≠ .create q) → (uid.toNat = k → dies (s.objs k) r = false) →
      settle (Ent.get uid.toNat (onReceive uid.toNat m.env m.hdr r) s) = .ok s' → isOpen (s'.objs k).log = true := by
    intro uid r hr hd hset
    unfold Ent.get at hset
    by_cases hv : Pool.valid uid.toNat
    · rw [if_pos hv, onReceive_run] at hset
      by_cases he : uid.toNat = k
      · subst he
        rw [if_neg (by simp [hd rfl])] at hset
        injection hset with hset
        rw [← hset, set_at]
        exact react_open hlive _ _ _ (hd rfl)
      · have hne : k ≠ uid.toNat := fun h => he h.symm
        split at hset
        · unfold releaseId at hset
          split at hset <;> simp only [settle, Exec.ok.injEq, reduceCtorEq] at hset
          all_goals
            rw [← hset]
            show isOpen ((s.set uid.toNat _).objs k).log = true
            rw [set_other _ _ hne]
            exact ho
        · injection hset with hset
          rw [← hset, set_other _ _ hne]
          exact ho
    · rw [if_neg hv] at hset
      cases hset
  have hsame : ∀ {r : Exec Unit} , settle (r, s) = .ok s' → isOpen (s'.objs k).log = true := by
    intro r hset
    cases r <;> simp only [settle, Exec.ok.injEq, reduceCtorEq] at hset <;> (rw [← hset]; exact ho)
  unfold next event at hn
  rw [bind_run] at hn
  cases hb : Channel.load m.env.mem m.data with
  | throws => rw [hb] at hn; exact hsame (r := .throws) hn
  | abort => rw [hb] at hn; cases hn
  | ub => rw [hb] at hn; cases hn
  | ok b =>
    rw [hb] at hn
    change settle ((lift (dispatch b) >>= _) s) = _ at hn
    rw [bind_run] at hn
    cases hq : dispatch b with
    | throws => rw [hq] at hn; exact hsame (r := .throws) hn
    | abort => rw [hq] at hn; cases hn
    | ub => rw [hq] at hn; cases hn
    | ok rb =>
      obtain ⟨r, b'⟩ := rb
      rw [hq] at hn
      cases r with
      | none => exact hsame (r := .ok ()) hn
      | some r =>
        change settle (handle m.env m.hdr r s) = _ at hn
        have htok : ∀ n : NodeId, (∀ q, r ≠ .create q) → (∀ uid : UInt32, n.value = .numeric uid → uid.toNat = k → dies (s.objs k) r = false) →
            settle (byToken n (fun k => onReceive k m.env m.hdr r) s) = .ok s' → isOpen (s'.objs k).log = true := by
          rintro ⟨ns, v⟩ hr hd hset
          cases v with
          | numeric uid => exact hget uid r hr (hd uid rfl) hset
          | string _ => exact hsame (r := .ok ()) hset
          | guid _ => exact hsame (r := .ok ()) hset
          | «opaque» _ => exact hsame (r := .ok ()) hset
        have hnd : ∀ r', (∀ q, r' ≠ .close q) → dies (s.objs k) r' = false := by
          intro r' hr'
          cases hst : (s.objs k).st <;> cases r' <;> simp only [dies, hst] <;> exact absurd rfl (hr' _)
        cases r with
        | getEndpoints q =>
          rw [endpoints_run] at hn
          injection hn with hn
          rw [← hn, set_other _ _ (by have := hk.1; omega)]
          exact ho
        | create q =>
          change settle ((allocId >>= _) s) = _ at hn
          obtain ⟨l, hfree, hgood⟩ := hinv
          cases l with
          | nil =>
            have : allocId s = (.ok none, s) := by simp only [allocId, hfree.alloc_nil]
            rw [bind_ok this] at hn
            exact hsame (r := .ok ()) hn
          | cons j l =>
            obtain ⟨ids, -, hal⟩ := alloc_run hfree
            rw [bind_ok hal] at hn
            change settle (onReceive j m.env m.hdr (.create q) _) = _ at hn
            rw [onReceive_run] at hn
            have hidle := (hgood j (hfree.ids j (by simp))).1 (by simp)
            have hd : dies (s.objs j) (.create q) = false := by simp only [dies, hidle.st]
            change settle (if dies (s.objs j) (.create q) = true then _ else _) = _ at hn
            rw [if_neg (by simp [hd])] at hn
            injection hn with hn
            have hne : k ≠ j := by
              rintro rfl
              rw [hidle.isOpen] at ho
              cases ho
            rw [← hn, set_other _ _ hne]
            exact ho
        | activate q => exact htok _ (fun q h => by cases h) (fun _ _ _ => hnd _ fun q h => by cases h) hn
        | close q =>
          refine htok _ (fun q h => by cases h) (fun uid hv he => ?_) hn
          refine absurd ⟨b, q, b', hb, hq, ?_⟩ hc
          show _ = _
          rw [hv, ← he, UInt32.ofNat_toNat]
        | read q =>
          change settle ((if m.hdr.sessionId = invalidSuid then pure () else Ent.get _ _ : SM Sessions Unit) s) = _ at hn
          by_cases hi : m.hdr.sessionId = invalidSuid
          · rw [if_pos hi] at hn
            exact hsame (r := .ok ()) hn
          · rw [if_neg hi] at hn
            exact hget _ _ (fun q h => by cases h) (fun _ => hnd _ fun q h => by cases h) hn

def run (s : Sessions) : List SIn → Exec Sessions
  | [] => .ok s
  | m :: evs => do
    let s' ← next s m
    run s' evs

theorem run_reach {evs evs' : List SIn} {s s' : Sessions} (h : Reach evs s) (hr : run s evs' = .ok s') : Reach (evs ++ evs') s' := by
  induction evs' generalizing evs s with
  | nil =>
    injection hr with hr
    subst hr
    rwa [List.append_nil]
  | cons x evs' ih =>
    obtain ⟨s1, h1, h2⟩ := Exec.bind_eq_ok.mp hr
    have := ih (.step h h1) h2
    rwa [List.append_assoc] at this

/-- Against C51: a session survives everything but a close request with its token: no message of the component ends the
sessions of a channel or connection that has gone, and time plays no role, whatever time-out was agreed. -/
theorem C51_survives_violated {s s' : Sessions} {evs' : List SIn} (h : Reach evs s) (hk : Pool.valid k)
    (ho : isOpen (s.objs k).log = true) (hc : ∀ m ∈ evs', ¬ Closes k m) (hr : run s evs' = .ok s') :
    isOpen (s'.objs k).log = true := by
  induction evs' generalizing evs s with
  | nil =>
    injection hr with hr
    subst hr
    exact ho
  | cons m evs' ih =>
    obtain ⟨s1, h1, h2⟩ := Exec.bind_eq_ok.mp hr
    exact ih (.step h h1) (stays_step h hk ho (hc m (by simp)) h1) (fun m' hm => hc m' (by simp [hm])) h2

/-! ## C52 -/

/-- Against C52: an activate request with the token (a number from 1 to 32) takes an open session over, on whatever
channel it comes; the channel that held the session until then is no longer served. -/
theorem C52_takeover_violated (h : Reach evs s) (e : SEnv) (hdr : MsgHdr) {uid : UInt32} (hv : Pool.valid uid.toNat)
    (ho : isOpen (s.objs uid.toNat).log = true) (q : UaActivateSessionReq) {w : List UInt8} (hq : Says (.activate q) w)
    (ht : q.requestHdr.authentificationToken.value = .numeric uid) {x : List UInt8}
    (hl : (w ++ x).length ≤ 4096) : ∃ s', next s ⟨e, hdr, w ++ x⟩ = .ok s' ∧
      holder (s'.objs uid.toNat).log = some hdr.secureChannelId ∧ isOpen (s'.objs uid.toNat).log = true := by
  obtain ⟨s', ans, h1, ⟨h2, -⟩, -⟩ := C50_activate h e hdr hv ho q hq ht hl
  refine ⟨s', h1, ?_, ?_⟩
  · rw [h2]
    simp [holder, List.foldl_append]
  · rw [h2]
    have : isOpen ((s.objs uid.toNat).log ++ [.got hdr (.activate q), .associate { hdr with sessionId := uid },
        .answer { hdr with sessionId := uid } ans]) = isOpen (s.objs uid.toNat).log := by
      simp [isOpen, List.foldl_append]
    rw [this, ho]

/-- Against C52: and a close request ends it, on whatever channel it comes. -/
theorem C52_close_violated (h : Reach evs s) (e : SEnv) (hdr : MsgHdr) {uid : UInt32} (hv : Pool.valid uid.toNat)
    (ho : isOpen (s.objs uid.toNat).log = true) (q : UaCloseSessionReq) {w : List UInt8} (hq : Says (.close q) w)
    (ht : q.requestHdr.authentificationToken.value = .numeric uid) {x : List UInt8}
    (hl : (w ++ x).length ≤ 4096) : ∃ s', next s ⟨e, hdr, w ++ x⟩ = .ok s' ∧
      isOpen (s'.objs uid.toNat).log = false := by
  obtain ⟨s', ans, h1, ⟨h2, -⟩, -⟩ := C40_close h e hdr hv ho q hq ht hl
  refine ⟨s', h1, ?_⟩
  rw [h2]
  simp [isOpen, List.foldl_append]

/-- Every token ever issued is a number from 1 to 32 (against C52: tokens can be guessed). -/
theorem C52_guessable_violated (h : Reach evs s) (hk : Pool.valid k) {pre post : List SAct} {hdr : MsgHdr} {d : List UInt8}
    (hlog : (s.objs k).log = pre ++ .answer hdr d :: post) {h' : MsgHdr} {q : UaCreateSessionReq}
    (hg : lastGot pre = some (h', .create q)) : ∃ (rsp : UaCreateSessionRsp) (n : UInt32), Wire.ok rsp ∧ d = wire (Cont.make 464 rsp) ∧
      rsp.authenticationToken.value = .numeric n ∧ 1 ≤ n.toNat ∧ n.toNat ≤ 32 := by
  obtain ⟨h2, r, h3, -, h5, -⟩ := (log_ok h hk _ _ _ hlog).2.2.1
  rw [hg] at h3
  injection h3 with h3
  injection h3 with h3 h4
  subst h3 h4
  obtain ⟨rsp, e0, e1, -, -, e3, -⟩ := h5
  refine ⟨rsp, UInt32.ofNat k, e0, e1, e3, ?_⟩
  obtain ⟨h6, h7⟩ := hk
  simp only [poolCap] at h7
  rw [UInt32.toNat_ofNat', Nat.mod_eq_of_lt (by omega)]
  omega

/-! ## C55 -/

/-- Against C55: an activate request with a token outside 1 to 32 is undefined behaviour, in every state. -/
theorem C55_activate_token_violated (s : Sessions) (e : SEnv) (hdr : MsgHdr) (q : UaActivateSessionReq) {w : List UInt8} (hq : Says (.activate q) w) {uid : UInt32}
    (ht : q.requestHdr.authentificationToken.value = .numeric uid) (hv : ¬ Pool.valid uid.toNat) {x : List UInt8}
    (hl : (w ++ x).length ≤ 4096) : next s ⟨e, hdr, w ++ x⟩ = .ub := by
  rw [next_run s e hdr (r := .activate q) hq hl]
  simp only [handle, byToken, ht, Ent.get]
  rw [if_neg hv]
  rfl

/-- Against C55: so is a close request. -/
theorem C55_close_token_violated (s : Sessions) (e : SEnv) (hdr : MsgHdr) (q : UaCloseSessionReq) {w : List UInt8} (hq : Says (.close q) w) {uid : UInt32}
    (ht : q.requestHdr.authentificationToken.value = .numeric uid) (hv : ¬ Pool.valid uid.toNat) {x : List UInt8}
    (hl : (w ++ x).length ≤ 4096) : next s ⟨e, hdr, w ++ x⟩ = .ub := by
  rw [next_run s e hdr (r := .close q) hq hl]
  simp only [handle, byToken, ht, Ent.get]
  rw [if_neg hv]
  rfl

/-- The request names a session of the pool, or none. -/
def InPool (h : MsgHdr) (r : SReq) : Prop :=
  match r with
  | .activate q => ∀ uid, q.requestHdr.authentificationToken.value = .numeric uid → Pool.valid uid.toNat
  | .close q => ∀ uid, q.requestHdr.authentificationToken.value = .numeric uid → Pool.valid uid.toNat
  | .read _ => h.sessionId = invalidSuid ∨ Pool.valid h.sessionId.toNat
  | _ => True

/-- C55, for requests that name a session of the pool: they are handled without undefined behaviour and without an
exception.  Missing: the code does not check this. -/
theorem C55_defined_partial (h : Reach evs s) (e : SEnv) (hdr : MsgHdr) (r : SReq) (hr : InPool hdr r) :
    ∃ s', handle e hdr r s = (.ok (), s') := by
  have hget : ∀ uid : UInt32, Pool.valid uid.toNat → ∃ s', Ent.get uid.toNat (onReceive uid.toNat e hdr r) s = (.ok (), s') := by
    intro uid hv
    unfold Ent.get
    rw [if_pos hv, onReceive_run]
    cases hd : dies (s.objs uid.toNat) r with
    | false => exact ⟨_, rfl⟩
    | true =>
      rw [if_pos rfl]
      have ho : isOpen (s.objs uid.toNat).log = true := by
        cases ho : isOpen (s.objs uid.toNat).log with
        | true => rfl
        | false =>
          simp only [dies, closed_of h hv ho] at hd
          cases hd
      obtain ⟨ha, -⟩ := live_of h hv ho
      obtain ⟨ids, -, hq⟩ := releaseId_run (k := uid.toNat) (Around.set (Q := fun _ => True)
        (t := react uid.toNat e hdr r (s.objs uid.toNat)) ha trivial)
      exact ⟨_, hq⟩
  have htok : ∀ n : NodeId, (∀ uid, n.value = .numeric uid → Pool.valid uid.toNat) →
      ∃ s', byToken n (fun k => onReceive k e hdr r) s = (.ok (), s') := by
    rintro ⟨ns, v⟩ hn
    cases v with
    | numeric uid => exact hget uid (hn uid rfl)
    | string _ => exact ⟨s, rfl⟩
    | guid _ => exact ⟨s, rfl⟩
    | «opaque» _ => exact ⟨s, rfl⟩
  cases r with
  | getEndpoints q => exact ⟨_, endpoints_run e hdr q s⟩
  | create q =>
    obtain ⟨l, hfree, hgood⟩ := reach_inv h
    change ∃ s', (allocId >>= _) s = (.ok (), s')
    cases l with
    | nil =>
      have : allocId s = (.ok none, s) := by simp only [allocId, hfree.alloc_nil]
      rw [bind_ok this]
      exact ⟨s, rfl⟩
    | cons j l =>
      obtain ⟨ids, -, hal⟩ := alloc_run hfree
      rw [bind_ok hal]
      change ∃ s', onReceive j e hdr (.create q) _ = (.ok (), s')
      rw [onReceive_run, if_neg]
      · exact ⟨_, rfl⟩
      · have hidle := (hgood j (hfree.ids j (by simp))).1 (by simp)
        show ¬ dies (s.objs j) (.create q) = true
        simp only [dies, hidle.st]
        simp
  | activate q => exact htok _ hr
  | close q => exact htok _ hr
  | read q =>
    change ∃ s', (if hdr.sessionId = invalidSuid then pure () else Ent.get _ _ : SM Sessions Unit) s = (.ok (), s')
    by_cases hi : hdr.sessionId = invalidSuid
    · rw [if_pos hi]
      exact ⟨s, rfl⟩
    · rw [if_neg hi]
      exact hget _ (hr.resolve_left hi)

/-! ## C53 -/

theorem wire_inj {α : Type} [Ua α] [Wire α] [Lawful α] {v w : α} (hv : Wire.ok v) (hw : Wire.ok w) (h : wire v = wire w)
    (hl : (wire v).length ≤ 4096) : v = w := by
  have h1 := Channel.Reads.loaded (Lawful.reads v hv) rfl hl garbage
  have h2 := Channel.Reads.loaded (Lawful.reads w hw) rfl (h ▸ hl) garbage
  rw [h, h2] at h1
  injection h1 with h1
  injection h1 with h1 _
  exact h1.symm

/-- Against C53: no answer to a read request that asks for something carries a result for each node, and yet its service
result is good. -/
theorem C53_results_violated (h : Reach evs s) (hk : Pool.valid k) {pre post : List SAct} {hdr : MsgHdr} {d : List UInt8}
    (hlog : (s.objs k).log = pre ++ .answer hdr d :: post) {h' : MsgHdr} {q : UaReadReq}
    (hg : lastGot pre = some (h', .read q)) (hq : q.nodesToRead ≠ []) :
    ¬ ∃ rsp : UaReadRsp, Wire.ok rsp ∧ d = wire (Cont.make 634 rsp) ∧ rsp.results.length = q.nodesToRead.length := by
  obtain ⟨rsp, h1, h2, hl, h3, h4⟩ := (log_ok h hk _ _ _ hlog).2.2.2 _ _ hg
  rintro ⟨rsp', h5, h6, h7⟩
  subst h2
  have : (Cont.make 634 rsp).msg = (Cont.make 634 rsp').msg := congrArg Cont.msg
    (wire_inj (v := Cont.make 634 rsp) (w := Cont.make 634 rsp') ⟨⟨trivial, rfl, rfl⟩, h1⟩ ⟨⟨trivial, rfl, rfl⟩, h5⟩ h6 hl)
  have : rsp = rsp' := this
  subst this
  rw [h3] at h7
  exact hq (List.eq_nil_of_length_eq_zero h7.symm)

/-! ## C54 -/

/-- OPC 10000-6, NodeIds: the binary encodings of the requests. -/
def typeId : SReq → Nat
  | .getEndpoints _ => 428
  | .create _ => 461
  | .activate _ => 467
  | .close _ => 473
  | .read _ => 631

theorem requestDec_cases (id : UInt32) :
    (id.toUInt16 = 428 ∧ requestDec id = do let r ← dec (Ua.init : UaGetEndpointsReq); pure (some (.getEndpoints r))) ∨
    (id.toUInt16 = 461 ∧ requestDec id = do let r ← dec (Ua.init : UaCreateSessionReq); pure (some (.create r))) ∨
    (id.toUInt16 = 467 ∧ requestDec id = do let r ← dec (Ua.init : UaActivateSessionReq); pure (some (.activate r))) ∨
    (id.toUInt16 = 473 ∧ requestDec id = do let r ← dec (Ua.init : UaCloseSessionReq); pure (some (.close r))) ∨
    (id.toUInt16 = 631 ∧ requestDec id = do let r ← dec (Ua.init : UaReadReq); pure (some (.read r))) ∨
    requestDec id = pure none := by
  unfold requestDec
  split
  · rename_i h; exact .inl ⟨h, rfl⟩
  · rename_i h; exact .inr (.inl ⟨h, rfl⟩)
  · rename_i h; exact .inr (.inr (.inl ⟨h, rfl⟩))
  · rename_i h; exact .inr (.inr (.inr (.inl ⟨h, rfl⟩)))
  · rename_i h; exact .inr (.inr (.inr (.inr (.inl ⟨h, rfl⟩))))
  · exact .inr (.inr (.inr (.inr (.inr rfl))))

/-- C54, for the lower 16 bits of the type identifier; the upper ones and the namespace are not looked at. -/
theorem C54_dispatch_partial {b b' : Buf} {r : SReq} (h : dispatch b = .ok (some r, b')) : ∃ (n : ExpandedNodeId) (b1 : Buf) (id : UInt32),
    dec (Ua.init : ExpandedNodeId) b = .ok (n, b1) ∧ n.nodeId.value = .numeric id ∧ id.toNat % 65536 = typeId r := by
  unfold dispatch at h
  rw [Codec.bind_run] at h
  obtain ⟨⟨n, b1⟩, h1, h2⟩ := Exec.bind_eq_ok.mp h
  obtain ⟨⟨ns, v⟩, u, i⟩ := n
  cases v with
  | string _ => cases h2
  | guid _ => cases h2
  | «opaque» _ => cases h2
  | numeric id =>
    refine ⟨_, b1, id, h1, rfl, ?_⟩
    have hid : ∀ m : UInt16, id.toUInt16 = m → id.toNat % 65536 = m.toNat := by
      rintro _ rfl
      simp
    change requestDec id b1 = _ at h2
    have hmap : ∀ {α : Type} [Ua α] {f : α → SReq}, ((do let r ← dec (Ua.init : α); pure (some (f r)) : Codec (Option SReq)) b1 = .ok (some r, b')) →
        ∃ q, r = f q := by
      intro α _ f h3
      rw [Codec.bind_run] at h3
      obtain ⟨⟨q, b2⟩, h4, h5⟩ := Exec.bind_eq_ok.mp h3
      injection h5 with h5
      injection h5 with h5 _
      injection h5 with h5
      exact ⟨q, h5.symm⟩
    rcases requestDec_cases id with ⟨he, hr⟩ | ⟨he, hr⟩ | ⟨he, hr⟩ | ⟨he, hr⟩ | ⟨he, hr⟩ | hr <;> rw [hr] at h2
    · obtain ⟨q, rfl⟩ := hmap h2
      exact hid _ he
    · obtain ⟨q, rfl⟩ := hmap h2
      exact hid _ he
    · obtain ⟨q, rfl⟩ := hmap h2
      exact hid _ he
    · obtain ⟨q, rfl⟩ := hmap h2
      exact hid _ he
    · obtain ⟨q, rfl⟩ := hmap h2
      exact hid _ he
    · cases h2

/-! ## Runs -/

structure View where
  st : SessSt
  log : List SAct
  free : Nat
deriving DecidableEq

def view (s : Sessions) (k : Nat) : View := ⟨(s.objs k).st, (s.objs k).log, s.ids.len⟩

def observe (k : Nat) (evs : List SIn) : Exec View := do
  let s ← Ent.create fun _ => Sess.create
  let s' ← run s evs
  pure (view s' k)

theorem observe_reach {k : Nat} {evs : List SIn} {x : View} (h : observe k evs = .ok x) : ∃ s, Reach evs s ∧ view s k = x := by
  obtain ⟨s, h1, h2⟩ := Exec.bind_eq_ok.mp h
  obtain ⟨s', h3, h4⟩ := Exec.bind_eq_ok.mp h2
  injection h4 with h4
  exact ⟨s', run_reach (.create h1) h3, h4⟩

def env : SEnv := { mem := garbage, now := ⟨5⟩ }

def reqHdr (token : UInt32) (handle : UInt32) : UaRequestHeader :=
  { (Ua.init : UaRequestHeader) with authentificationToken := ⟨0, .numeric token⟩, requestHandle := handle }

def createReq : SReq := .create { (Ua.init : UaCreateSessionReq) with requestHdr := reqHdr 0 21, maxResponseMessageSize := 9000 }
def activateReq (token : UInt32) : SReq := .activate { (Ua.init : UaActivateSessionReq) with requestHdr := reqHdr token 22 }
def closeReq (token : UInt32) : SReq := .close { (Ua.init : UaCloseSessionReq) with requestHdr := reqHdr token 23 }
def readReq : SReq := .read { (Ua.init : UaReadReq) with requestHdr := reqHdr 1 24, nodesToRead := [Ua.init] }

/-- Connection 3, channel 4 or 5. -/
def on (channel session : UInt32) (r : SReq) : SIn := ⟨env, ⟨3, channel, 9, session⟩, bytesOf r⟩

/-- A session is created and activated on channel 4. -/
def talk : List SIn := [on 4 invalidSuid createReq, on 4 invalidSuid (activateReq 1)]

def talkLog : List SAct := [.got ⟨3, 4, 9, invalidSuid⟩ createReq, .answer ⟨3, 4, 9, invalidSuid⟩ (reply env 1 createReq), .created,
  .got ⟨3, 4, 9, invalidSuid⟩ (activateReq 1), .associate ⟨3, 4, 9, 1⟩, .answer ⟨3, 4, 9, 1⟩ (reply env 1 (activateReq 1))]

theorem talk_runs : observe 1 talk = .ok ⟨.activated, talkLog, 31⟩ := by decide +kernel

/-- Read requests on channel 4 are served, on channel 5 they are not. -/
example : observe 1 (talk ++ [on 5 1 readReq, on 4 1 readReq]) = .ok ⟨.activated, talkLog ++ [.got ⟨3, 5, 9, 1⟩ readReq,
    .got ⟨3, 4, 9, 1⟩ readReq, .served ⟨3, 4, 9, 1⟩, .answer ⟨3, 4, 9, 1⟩ (reply env 1 readReq)], 31⟩ := by decide +kernel

/-- Channel 5 takes the session over: now it is the other way round. -/
example : observe 1 (talk ++ [on 5 invalidSuid (activateReq 1), on 5 1 readReq, on 4 1 readReq]) = .ok ⟨.activated, talkLog ++
    [.got ⟨3, 5, 9, invalidSuid⟩ (activateReq 1), .associate ⟨3, 5, 9, 1⟩, .answer ⟨3, 5, 9, 1⟩ (reply env 1 (activateReq 1)),
      .got ⟨3, 5, 9, 1⟩ readReq, .served ⟨3, 5, 9, 1⟩, .answer ⟨3, 5, 9, 1⟩ (reply env 1 readReq), .got ⟨3, 4, 9, 1⟩ readReq], 31⟩ := by
  decide +kernel

/-- Channel 5 closes the session of channel 4; later read requests are dropped. -/
example : observe 1 (talk ++ [on 5 invalidSuid (closeReq 1), on 4 1 readReq]) = .ok ⟨.init, talkLog ++
    [.got ⟨3, 5, 9, invalidSuid⟩ (closeReq 1), .answer ⟨3, 5, 9, invalidSuid⟩ (reply env 1 (closeReq 1)), .released,
      .got ⟨3, 4, 9, 1⟩ readReq], 32⟩ := by decide +kernel

/-- A second session gets another identifier; the identifiers are used in turn. -/
example : observe 2 (talk ++ [on 5 invalidSuid (closeReq 1), on 4 invalidSuid createReq]) = .ok ⟨.created,
    [.got ⟨3, 4, 9, invalidSuid⟩ createReq, .answer ⟨3, 4, 9, invalidSuid⟩ (reply env 2 createReq), .created], 31⟩ := by decide +kernel

/-- Get endpoints requests are answered without a session. -/
example : observe 0 [on 4 invalidSuid (.getEndpoints Ua.init)] = .ok ⟨.init, [.got ⟨3, 4, 9, invalidSuid⟩ (.getEndpoints Ua.init),
    .answer ⟨3, 4, 9, invalidSuid⟩ (reply env 0 (.getEndpoints Ua.init))], 32⟩ := by decide +kernel

/-- Against C54: type identifier 65997 = 65536 + 461 in namespace 7 creates a session. -/
theorem C54_alias_violated : observe 1 [⟨env, ⟨3, 4, 9, invalidSuid⟩, wire (⟨⟨7, .numeric 65997⟩, none, none⟩ : ExpandedNodeId) ++
    (bytesOf createReq).drop 4⟩] = .ok ⟨.created, [.got ⟨3, 4, 9, invalidSuid⟩ createReq,
      .answer ⟨3, 4, 9, invalidSuid⟩ (reply env 1 createReq), .created], 31⟩ := by decide +kernel

theorem ext_ok : Wire.ok (Ua.init : ExtensionObject) := by
  refine ⟨trivial, trivial, ?_⟩
  simp [Ua.init]

theorem reqHdr_ok (token handle : UInt32) : Wire.ok (reqHdr token handle) :=
  ⟨trivial, trivial, trivial, trivial, str_ok _ (by decide), trivial, ext_ok⟩

theorem sig_ok : Wire.ok (Ua.init : UaSignatureData) := ⟨str_ok _ (by decide), bytes_ok⟩

/-- The hypotheses of the theorems above can be met. -/
theorem talk_reach : ∃ s, Reach talk s ∧ (s.objs 1).log = talkLog ∧ s.ids.len = 31 := by
  obtain ⟨s, h, hv⟩ := observe_reach talk_runs
  exact ⟨s, h, congrArg View.log hv, congrArg View.free hv⟩

theorem createReq_ok : Sendable createReq :=
  ⟨reqHdr_ok _ _, ⟨str_ok _ (by decide), str_ok _ (by decide), ⟨trivial, trivial, trivial, trivial⟩, trivial, str_ok _ (by decide),
    str_ok _ (by decide), none_ok⟩, str_ok _ (by decide), str_ok _ (by decide), str_ok _ (by decide), bytes_ok, bytes_ok, trivial, trivial⟩

theorem activateReq_ok (token : UInt32) : Sendable (activateReq token) :=
  ⟨reqHdr_ok _ _, sig_ok, none_ok, none_ok, ext_ok, sig_ok⟩

theorem closeReq_ok (token : UInt32) : Sendable (closeReq token) := ⟨reqHdr_ok _ _, trivial⟩

/-- Channel 5 takes over the session of channel 4, or closes it. -/
example : ∃ s s', Reach talk s ∧ holder (s.objs 1).log = some 4 ∧ next s (on 5 invalidSuid (activateReq 1)) = .ok s' ∧
    holder (s'.objs 1).log = some 5 := by
  obtain ⟨s, h, hl, -⟩ := talk_reach
  obtain ⟨s', h1, h2, -⟩ := C52_takeover_violated h env ⟨3, 5, 9, invalidSuid⟩ (uid := 1) (by decide)
    (by rw [show (1 : UInt32).toNat = 1 from rfl, hl]; decide +kernel) _ (activateReq_ok 1).says rfl (x := []) (by decide +kernel)
  rw [List.append_nil] at h1
  exact ⟨s, s', h, by rw [hl]; decide +kernel, h1, h2⟩

example : ∃ s s', Reach talk s ∧ isOpen (s.objs 1).log = true ∧ next s (on 5 invalidSuid (closeReq 1)) = .ok s' ∧
    isOpen (s'.objs 1).log = false := by
  obtain ⟨s, h, hl, -⟩ := talk_reach
  have ho : isOpen (s.objs 1).log = true := by rw [hl]; decide +kernel
  obtain ⟨s', h1, h2⟩ := C52_close_violated h env ⟨3, 5, 9, invalidSuid⟩ (uid := 1) (by decide) ho _ (closeReq_ok 1).says rfl (x := [])
    (by decide +kernel)
  rw [List.append_nil] at h1
  exact ⟨s, s', h, ho, h1, h2⟩

/-- A second session is created behind the first. -/
example : ∃ (s : Sessions) (k : Nat) (s' : Sessions) (rsp : UaCreateSessionRsp), Reach talk s ∧ isOpen (s.objs 1).log = true ∧ next s (on 5 invalidSuid createReq) = .ok s' ∧
    Fits k createReq (wire (Cont.make 464 rsp)) ∧ ¬ IsToken 1 rsp.authenticationToken := by
  obtain ⟨s, h, hl, hf⟩ := talk_reach
  have ho : isOpen (s.objs 1).log = true := by rw [hl]; decide +kernel
  obtain ⟨k, s', rsp, -, -, h1, -, h2, -, h3⟩ := C40_create h (by omega) env ⟨3, 5, 9, invalidSuid⟩ _ createReq_ok.says (x := []) (by decide +kernel)
  rw [List.append_nil] at h1
  exact ⟨s, k, s', rsp, h, ho, h1, h2, (h3 1 (by decide) ho).2⟩

/-- Token 33 on channel 5. -/
example : ∃ s, Reach talk s ∧ next s (on 5 invalidSuid (closeReq 33)) = .ub := by
  obtain ⟨s, h, -⟩ := talk_reach
  have := C55_close_token_violated s env ⟨3, 5, 9, invalidSuid⟩ _ (closeReq_ok 33).says (uid := 33) rfl (by decide) (x := []) (by decide +kernel)
  rw [List.append_nil] at this
  exact ⟨s, h, this⟩

/-- The read request of `talk` asks for one node; its answer holds no result. -/
example : ∃ s, Reach (talk ++ [on 4 1 readReq]) s ∧ .answer ⟨3, 4, 9, 1⟩ (reply env 1 readReq) ∈ (s.objs 1).log ∧
    ¬ ∃ rsp : UaReadRsp, Wire.ok rsp ∧ reply env 1 readReq = wire (Cont.make 634 rsp) ∧ rsp.results.length = 1 := by
  have ho : observe 1 (talk ++ [on 4 1 readReq]) = .ok ⟨.activated, talkLog ++ [.got ⟨3, 4, 9, 1⟩ readReq, .served ⟨3, 4, 9, 1⟩,
    .answer ⟨3, 4, 9, 1⟩ (reply env 1 readReq)], 31⟩ := by decide +kernel
  obtain ⟨s, h, hv⟩ := observe_reach ho
  have hlog := congrArg View.log hv
  refine ⟨s, h, ?_, ?_⟩
  · rw [show (s.objs 1).log = _ from hlog]
    simp
  · exact C53_results_violated h (k := 1) (by decide) (pre := talkLog ++ [.got ⟨3, 4, 9, 1⟩ readReq, .served ⟨3, 4, 9, 1⟩]) (post := [])
      (hdr := ⟨3, 4, 9, 1⟩) (by
        have hlog : (s.objs 1).log = _ := hlog
        rw [hlog]
        simp) (h' := ⟨3, 4, 9, 1⟩)
      (q := { (Ua.init : UaReadReq) with requestHdr := reqHdr 1 24, nodesToRead := [Ua.init] }) (by decide +kernel) (by simp)

/-- Against C51: 32 clients create a session each and vanish; nobody can create a session any more. -/
theorem C51_exhausted_violated : ∃ s, Reach (List.replicate 32 (on 4 invalidSuid createReq)) s ∧
    ∀ e hdr (q : UaCreateSessionReq) (w x : List UInt8), Says (.create q) w → (w ++ x).length ≤ 4096 → next s ⟨e, hdr, w ++ x⟩ = .ok s := by
  have ho : observe 0 (List.replicate 32 (on 4 invalidSuid createReq)) = .ok ⟨.init, [], 0⟩ := by decide +kernel
  obtain ⟨s, h, hv⟩ := observe_reach ho
  exact ⟨s, h, fun e hdr q w x hq hl => (C40_full h (congrArg View.free hv) e hdr q hq hl).1⟩

/-! ### The theorems at concrete states -/

theorem readReq_ok : Sendable readReq := by
  refine ⟨reqHdr_ok _ _, trivial, trivial, ?_, ?_⟩
  · show 1 < 2 ^ 31; decide
  · intro x hx
    cases List.mem_singleton.1 hx
    exact ⟨trivial, trivial, str_ok _ (by decide), str_ok _ (by decide)⟩

/-- What C39, C40 and C50 say about every history, for the history `talk`. -/
example : ∃ s l, Reach talk s ∧ (s.objs 1).log = talkLog ∧ AllOk (Serves 1) talkLog ∧ AllOk (Paired 1) talkLog ∧ AllOk (Answers 1) talkLog ∧
    Pool.Free s.ids l ∧ 1 ∉ l := by
  obtain ⟨s, h, hv, -⟩ := talk_reach
  have hk : Pool.valid 1 := by decide
  obtain ⟨l, hl, hi⟩ := C40_no_leak h
  have h1 := C39_serves h hk
  have h2 := C40_paired h hk
  have h3 := C50_answers h hk
  have ho : isOpen (s.objs 1).log = true := by rw [hv]; decide +kernel
  rw [hv] at h1 h2 h3
  exact ⟨s, l, h, hv, h1, h2, h3, hl, fun hm => by rw [(hi 1 hk).1 hm] at ho; cases ho⟩

/-- Channel 4 reads in its session, channel 5 does not. -/
example : ∃ s s' s'' ans, Reach talk s ∧ next s (on 4 1 readReq) = .ok s' ∧
    (s'.objs 1).log = talkLog ++ [.got ⟨3, 4, 9, 1⟩ readReq, .served ⟨3, 4, 9, 1⟩, .answer ⟨3, 4, 9, 1⟩ ans] ∧
    next s (on 5 1 readReq) = .ok s'' ∧ (s''.objs 1).log = talkLog ++ [.got ⟨3, 5, 9, 1⟩ readReq] := by
  obtain ⟨s, h, hv, -⟩ := talk_reach
  have hh : holder (s.objs (1 : UInt32).toNat).log = some 4 := by rw [show (1 : UInt32).toNat = 1 from rfl, hv]; decide +kernel
  obtain ⟨s', ans, h1, h2, -⟩ := C39_answers h env ⟨3, 4, 9, 1⟩ (by decide) hh _ readReq_ok.says (x := []) (by decide +kernel)
  obtain ⟨s'', h3, h4⟩ := C39_refuses h env ⟨3, 5, 9, 1⟩ (by decide) (by show holder (s.objs (1 : UInt32).toNat).log ≠ some 5; rw [hh]; decide) _
    readReq_ok.says (x := []) (by decide +kernel)
  rw [List.append_nil] at h1 h3
  have h5 : (s'.objs 1).log = (s.objs 1).log ++ _ := h2.1
  have h6 : (s''.objs 1).log = (s.objs 1).log ++ _ := h4.1
  exact ⟨s, s', s'', ans, h, h1, by rw [h5, hv]; rfl, h3, by rw [h6, hv]; rfl⟩

/-- The session is closed and can be created again. -/
example : ∃ s s' ans, Reach talk s ∧ next s (on 4 invalidSuid (closeReq 1)) = .ok s' ∧ s'.ids.len = 32 ∧
    (s'.objs 1).log = talkLog ++ [.got ⟨3, 4, 9, invalidSuid⟩ (closeReq 1), .answer ⟨3, 4, 9, invalidSuid⟩ ans, .released] := by
  obtain ⟨s, h, hv, hf⟩ := talk_reach
  obtain ⟨s', ans, h1, h2, -, h3⟩ := C40_close h env ⟨3, 4, 9, invalidSuid⟩ (uid := 1) (by decide)
    (by rw [show (1 : UInt32).toNat = 1 from rfl, hv]; decide +kernel) _ (closeReq_ok 1).says rfl (x := []) (by decide +kernel)
  rw [List.append_nil] at h1
  have h5 : (s'.objs 1).log = (s.objs 1).log ++ _ := h2.1
  exact ⟨s, s', ans, h, h1, by omega, by rw [h5, hv]; rfl⟩

/-- The session is activated once more. -/
example : ∃ s s', Reach talk s ∧ next s (on 4 invalidSuid (activateReq 1)) = .ok s' := by
  obtain ⟨s, h, hv, hf⟩ := talk_reach
  obtain ⟨s', _, h1, -⟩ := C50_activate h env ⟨3, 4, 9, invalidSuid⟩ (uid := 1) (by decide)
    (by rw [show (1 : UInt32).toNat = 1 from rfl, hv]; decide +kernel) _ (activateReq_ok 1).says rfl (x := []) (by decide +kernel)
  rw [List.append_nil] at h1
  exact ⟨s, s', h, h1⟩

/-- The endpoints are asked for. -/
example : ∃ s s' ans, Reach talk s ∧ next s (on 4 1 (.getEndpoints Ua.init)) = .ok s' ∧ Fits 0 (.getEndpoints Ua.init) ans := by
  obtain ⟨s, h, -⟩ := talk_reach
  have ho : Sendable (.getEndpoints Ua.init) := ⟨reqHdr_ok 0 0, str_ok _ (by decide), none_ok, none_ok⟩
  obtain ⟨s', ans, h1, -, h2⟩ := C50_endpoints s env ⟨3, 4, 9, 1⟩ Ua.init ho.says (x := []) (by decide +kernel)
  rw [List.append_nil] at h1
  exact ⟨s, s', ans, h, h1, h2⟩

/-- Session 7 does not exist; a close request that names it is handled. -/
example : ∃ s s', Reach talk s ∧ handle env ⟨3, 4, 9, 1⟩ (closeReq 7) s = (.ok (), s') := by
  obtain ⟨s, h, -⟩ := talk_reach
  obtain ⟨s', h1⟩ := C55_defined_partial h env ⟨3, 4, 9, 1⟩ (closeReq 7) (by intro uid hu; cases hu; decide)
  exact ⟨s, s', h, h1⟩

/-- The identifier at the front of a read request. -/
example : ∃ (b b' b1 : Buf) (n : ExpandedNodeId) (id : UInt32), dispatch b = .ok (some readReq, b') ∧ dec (Ua.init : ExpandedNodeId) b = .ok (n, b1) ∧
    n.nodeId.value = .numeric id ∧ id.toNat % 65536 = 631 := by
  have hd : ∃ b b', dispatch b = .ok (some readReq, b') := by
    exact ⟨{ packet := memWrite garbage 0 (bytesOf readReq), head := (bytesOf readReq).length, tail := 0 }, _,
      dispatch_reads _ readReq_ok.says _ (by decide +kernel) (by decide +kernel)⟩
  obtain ⟨b, b', h⟩ := hd
  obtain ⟨n, b1, id, h1, h2, h3⟩ := C54_dispatch_partial h
  exact ⟨b, b', b1, n, id, h, h1, h2, h3⟩

end Uscada.Ua.Session
