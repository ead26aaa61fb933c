import Verif.UaSessionProps
import Verif.ControllerProps
import Verif.LinkAddr

/-!
# Requests that cannot be carried out, and what the server says of itself

The component of UaService.cpp, UaSession.cpp and UaGetEndpoints.cpp (`UaSession.lean`).  OPC 10000-4, 7.34: "The
`ServiceFault` response is returned when a service level error occurs"; each request is answered, with the response of
its kind or with a fault.  The code knows no fault: there is no such type in DataType.hpp, and the branches that refuse a
request log and return (UaSessionService.cpp:35-39, 52-55, 67-70, 75-79; UaSessionState.hpp:21-27; UaSession.cpp:108-112).
-/

namespace Uscada.Ua.Session

open SM Ent

/-! ## Specification -/

def isAnswer : SAct → Bool
  | .answer _ _ => true
  | _ => false

/-- The answers among the doings of a session. -/
def answersIn (l : List SAct) : List SAct := l.filter isAnswer

/-- The request can be carried out: a session is left to be created, the token is of a session that exists, the channel
is the one that activated the session last.  Only the history of requests is asked, not the state of the objects. -/
def CanBe (s : Sessions) (h : MsgHdr) : SReq → Prop
  | .getEndpoints _ => True
  | .create _ => ∃ k, Pool.valid k ∧ isOpen (s.objs k).log = false
  | .activate q => ∃ k, Pool.valid k ∧ IsToken k q.requestHdr.authentificationToken ∧ isOpen (s.objs k).log = true
  | .close q => ∃ k, Pool.valid k ∧ IsToken k q.requestHdr.authentificationToken ∧ isOpen (s.objs k).log = true
  | .read _ => ∃ k, Pool.valid k ∧ h.sessionId = UInt32.ofNat k ∧ holder (s.objs k).log = some h.secureChannelId

/-- One answer is given, to `h`, by object `k`, and none by any other object. -/
def Answered (h : MsgHdr) (r : SReq) (s s' : Sessions) : Prop := ∃ k hdr d,
  answersIn (s'.objs k).log = answersIn (s.objs k).log ++ [.answer hdr d] ∧ SameWay h hdr ∧ Fits k r d ∧
  ∀ j, j ≠ k → (s'.objs j).log = (s.objs j).log

/-- No answer is given by any object. -/
def Silent (s s' : Sessions) : Prop := ∀ k, answersIn (s'.objs k).log = answersIn (s.objs k).log

/-- What a client has to be told of an endpoint (OPC 10000-4, 7.14): where it is, how to talk to it, and at least one
way to say who the user is. -/
def Usable (d : UaEndpointDescription) : Prop :=
  d.endpointUrl.bytes ≠ [] ∧ d.transportProfileUri.bytes ≠ [] ∧ d.userIdentityTokens ≠ []

/-- The endpoint is where the program listens: the host is the loopback address 127.0.0.1, the number at the end of the
URL is the port. -/
def IsAt (d : UaEndpointDescription) (addr : List UInt8) : Prop :=
  LinkAddr.ipv4addr (fun i => addr.getD i 0) = 127 * 2 ^ 24 + 1 ∧
  d.endpointUrl.bytes = ascii ("opc.tcp://localhost:" ++ toString (LinkAddr.ipv4port fun i => addr.getD i 0))

/-- The endpoints a request for endpoints is answered with, in each state. -/
def TellsAll (d : UaEndpointDescription) : Prop := ∀ (s : Sessions) (e : SEnv) (hdr : MsgHdr) (q : UaGetEndpointsReq) (w x : List UInt8),
  Says (.getEndpoints q) w → (w ++ x).length ≤ 4096 → ∃ (s' : Sessions) (rsp : UaGetEndpointsRsp), next s ⟨e, hdr, w ++ x⟩ = .ok s' ∧ Wire.ok rsp ∧
    answersIn (s'.objs 0).log = answersIn (s.objs 0).log ++ [.answer hdr (wire (Cont.make 431 rsp))] ∧ rsp.endpointDescription = [d]

/-- The endpoints a client is told when it creates a session. -/
def TellsCreator (d : UaEndpointDescription) : Prop := ∀ (evs : List SIn) (s : Sessions) (e : SEnv) (hdr : MsgHdr) (q : UaCreateSessionReq)
  (w x : List UInt8), Reach evs s → CanBe s hdr (.create q) → Says (.create q) w → (w ++ x).length ≤ 4096 →
  ∃ (s' : Sessions) (k : Nat) (rsp : UaCreateSessionRsp), next s ⟨e, hdr, w ++ x⟩ = .ok s' ∧ Pool.valid k ∧ Wire.ok rsp ∧
    answersIn (s'.objs k).log = answersIn (s.objs k).log ++ [.answer hdr (wire (Cont.make 464 rsp))] ∧ rsp.serverEndpoints = [d]

variable {evs : List SIn} {s : Sessions} {k : Nat}

theorem Grows.answered {h hdr : MsgHdr} {r : SReq} {l : List SAct} {d : List UInt8} {s' : Sessions} (hg : Grows k l s s')
    (hl : answersIn l = [.answer hdr d]) (hw : SameWay h hdr) (hf : Fits k r d) : Answered h r s s' := by
  refine ⟨k, hdr, d, ?_, hw, hf, fun j hj => by rw [hg.2 j hj]⟩
  rw [hg.1, answersIn, List.filter_append]
  exact congrArg _ hl

theorem Grows.silent {l : List SAct} {s' : Sessions} (hg : Grows k l s s') (hl : answersIn l = []) : Silent s s' := by
  intro j
  by_cases hj : j = k
  · subst hj
    rw [hg.1, answersIn, List.filter_append]
    exact (congrArg _ hl).trans (List.append_nil _)
  · rw [hg.2 j hj]

theorem token_toNat (uid : UInt32) (n : NodeId) (h : n.value = .numeric uid) : IsToken uid.toNat n := by
  unfold IsToken
  rw [h, UInt32.ofNat_toNat]

theorem toNat_ofNat (hk : Pool.valid k) : (UInt32.ofNat k).toNat = k := by
  obtain ⟨-, h⟩ := hk
  simp only [poolCap] at h
  rw [UInt32.toNat_ofNat', Nat.mod_eq_of_lt (by omega)]

/-! ## C106 -/

/-- C106, for requests that can be carried out: exactly one answer, of the kind of the request, back the way the request
came.  Missing: the others. -/
theorem C106_answered_partial (h : Reach evs s) (e : SEnv) (hdr : MsgHdr) (r : SReq) (hc : CanBe s hdr r) {w : List UInt8} (hq : Says r w)
    {x : List UInt8} (hl : (w ++ x).length ≤ 4096) : ∃ s', next s ⟨e, hdr, w ++ x⟩ = .ok s' ∧ Answered hdr r s s' := by
  cases r with
  | getEndpoints q =>
    obtain ⟨s', ans, h1, h2, h3⟩ := C50_endpoints s e hdr q hq hl
    exact ⟨s', h1, h2.answered rfl ⟨rfl, rfl, rfl⟩ h3⟩
  | create q =>
    obtain ⟨k, hk, ho⟩ := hc
    by_cases hf : s.ids.len = 0
    · rw [(C40_full h hf e hdr q hq hl).2 k hk] at ho
      cases ho
    · obtain ⟨j, s', rsp, -, -, h1, h2, h3, -⟩ := C40_create h hf e hdr q hq hl
      exact ⟨s', h1, h2.answered rfl ⟨rfl, rfl, rfl⟩ h3⟩
  | activate q =>
    obtain ⟨k, hk, ht, ho⟩ := hc
    rw [← toNat_ofNat hk] at ho
    have hk : Pool.valid (UInt32.ofNat k).toNat := by rw [toNat_ofNat hk]; exact hk
    obtain ⟨s', ans, h1, h2, h3⟩ := C50_activate h e hdr hk ho q hq ht hl
    exact ⟨s', h1, h2.answered rfl ⟨rfl, rfl, rfl⟩ h3⟩
  | close q =>
    obtain ⟨k, hk, ht, ho⟩ := hc
    rw [← toNat_ofNat hk] at ho
    have hk : Pool.valid (UInt32.ofNat k).toNat := by rw [toNat_ofNat hk]; exact hk
    obtain ⟨s', ans, h1, h2, h3, -⟩ := C40_close h e hdr hk ho q hq ht hl
    exact ⟨s', h1, h2.answered rfl ⟨rfl, rfl, rfl⟩ h3⟩
  | read q =>
    obtain ⟨k, hk, hs, ho⟩ := hc
    have hn : hdr.sessionId.toNat = k := by rw [hs, toNat_ofNat hk]
    rw [← hn] at hk ho
    obtain ⟨s', ans, h1, h2, h3⟩ := C39_answers h e hdr hk ho q hq hl
    exact ⟨s', h1, h2.answered rfl ⟨rfl, rfl, rfl⟩ h3⟩

/-- A well formed request that cannot be carried out is noted by the object it names, if it names one; nothing else happens. -/
theorem refuses (h : Reach evs s) (e : SEnv) (hdr : MsgHdr) (r : SReq) (hp : InPool hdr r) (hc : ¬ CanBe s hdr r) {w : List UInt8}
    (hq : Says r w) {x : List UInt8} (hl : (w ++ x).length ≤ 4096) : ∃ s' k l, k < 33 ∧ next s ⟨e, hdr, w ++ x⟩ = .ok s' ∧ Grows k l s s' ∧
      (l = [] ∨ l = [.got hdr r]) := by
  have hstay : ∀ {s' : Sessions}, s' = s → Grows 0 [] s s' := by
    rintro _ rfl
    exact ⟨(List.append_nil _).symm, fun _ _ => rfl⟩
  have h33 : ∀ {j : Nat}, Pool.valid j → j < 33 := by
    intro j hj
    have := hj.2
    simp only [poolCap] at this
    omega
  have htok : ∀ (n : NodeId), (∀ uid, n.value = .numeric uid → Pool.valid uid.toNat) →
      ¬ (∃ k, Pool.valid k ∧ IsToken k n ∧ isOpen (s.objs k).log = true) →
      (handle e hdr r s = byToken n (fun k => onReceive k e hdr r) s) →
      ∃ s' k l, k < 33 ∧ next s ⟨e, hdr, w ++ x⟩ = .ok s' ∧ Grows k l s s' ∧ (l = [] ∨ l = [.got hdr r]) := by
    intro n hn hno hh
    rw [next_run s e hdr hq hl, hh]
    obtain ⟨ns, v⟩ := n
    cases v with
    | numeric uid =>
      have hv := hn uid rfl
      have ho : isOpen (s.objs uid.toNat).log = false := by
        cases ho : isOpen (s.objs uid.toNat).log with
        | false => rfl
        | true => exact absurd ⟨_, hv, token_toNat uid _ rfl, ho⟩ hno
      have hst := closed_of h hv ho
      have hcr : ∀ q, r ≠ .create q := by
        rintro q rfl
        exact hc (Classical.byContradiction fun hx => hx ⟨_, hv, ho⟩)
      refine ⟨s.set uid.toNat { s.objs uid.toNat with log := (s.objs uid.toNat).log ++ [.got hdr r] }, uid.toNat, [.got hdr r], h33 hv, ?_,
        ⟨by rw [set_at], fun j hj => set_other _ _ hj⟩, .inr rfl⟩
      show settle (Ent.get uid.toNat (onReceive uid.toNat e hdr r) s) = _
      rw [Ent.get, if_pos hv, onReceive_run, if_neg (by simp [dies, hst])]
      have : react uid.toNat e hdr r (s.objs uid.toNat) = { s.objs uid.toNat with log := (s.objs uid.toNat).log ++ [.got hdr r] } := by
        cases r <;> simp only [react, hst]
        exact absurd rfl (hcr _)
      rw [this]
      rfl
    | string _ => exact ⟨s, 0, [], by decide, rfl, hstay rfl, .inl rfl⟩
    | guid _ => exact ⟨s, 0, [], by decide, rfl, hstay rfl, .inl rfl⟩
    | «opaque» _ => exact ⟨s, 0, [], by decide, rfl, hstay rfl, .inl rfl⟩
  cases r with
  | getEndpoints q => exact absurd trivial hc
  | create q =>
    by_cases hf : s.ids.len = 0
    · exact ⟨s, 0, [], by decide, (C40_full h hf e hdr q hq hl).1, hstay rfl, .inl rfl⟩
    · obtain ⟨j, s', rsp, hj, ho, -⟩ := C40_create h hf e hdr q hq hl
      exact absurd ⟨j, hj, ho⟩ hc
  | activate q => exact htok _ hp hc rfl
  | close q => exact htok _ hp hc rfl
  | read q =>
    rcases hp with hi | hv
    · refine ⟨s, 0, [], by decide, ?_, hstay rfl, .inl rfl⟩
      rw [next_run s e hdr hq hl]
      show settle ((if hdr.sessionId = invalidSuid then pure () else Ent.get _ _ : SM Sessions Unit) s) = _
      rw [if_pos hi]
      rfl
    · obtain ⟨s', h1, h2⟩ := C39_refuses h e hdr hv (fun hh => hc ⟨_, hv, by rw [UInt32.ofNat_toNat], hh⟩) q hq hl
      exact ⟨s', _, _, h33 hv, h1, h2, .inr rfl⟩

/-- Against C106: whatever well formed request that cannot be carried out, in whatever state, the client gets no answer
at all, neither a fault nor any other. -/
theorem C106_silent_violated (h : Reach evs s) (e : SEnv) (hdr : MsgHdr) (r : SReq) (hp : InPool hdr r) (hc : ¬ CanBe s hdr r) {w : List UInt8}
    (hq : Says r w) {x : List UInt8} (hl : (w ++ x).length ≤ 4096) : ∃ s', next s ⟨e, hdr, w ++ x⟩ = .ok s' ∧ Silent s s' := by
  obtain ⟨s', k, l, -, h1, h2, h3⟩ := refuses h e hdr r hp hc hq hl
  refine ⟨s', h1, h2.silent ?_⟩
  rcases h3 with rfl | rfl <;> rfl

/-! ## C107 -/

theorem tells_all : TellsAll endpoint := by
  intro s e hdr q w x hq hl
  refine ⟨_, getEndpointsRsp e q, by rw [next_run s e hdr (r := .getEndpoints q) hq hl, endpoints_run]; rfl, getEndpointsRsp_ok e q, ?_, rfl⟩
  rw [set_at, answersIn, List.filter_append, List.filter_append]
  simp only [List.filter_cons, isAnswer, List.filter_nil]
  simp [answersIn, reply]

/-- The response to a create request. -/
theorem creates (h : Reach evs s) (e : SEnv) (hdr : MsgHdr) (q : UaCreateSessionReq) (hc : CanBe s hdr (.create q)) {w x : List UInt8}
    (hq : Says (.create q) w) (hl : (w ++ x).length ≤ 4096) : ∃ (s' : Sessions) (k : Nat), next s ⟨e, hdr, w ++ x⟩ = .ok s' ∧ Pool.valid k ∧
      answersIn (s'.objs k).log = answersIn (s.objs k).log ++ [.answer hdr (wire (Cont.make 464 (createRsp e k q)))] := by
  obtain ⟨k, hk, ho⟩ := hc
  have hf : s.ids.len ≠ 0 := by
    intro hf
    rw [(C40_full h hf e hdr q hq hl).2 k hk] at ho
    cases ho
  obtain ⟨l, hfree, hgood⟩ := reach_inv h
  have hlen := hfree.holds.hlen
  cases l with
  | nil => exact absurd hlen hf
  | cons k l =>
    have hk := hfree.ids k (by simp)
    have hidle := (hgood k hk).1 (by simp)
    obtain ⟨qq, hq', ha⟩ := alloc_run hfree
    refine ⟨Ent.set { s with ids := qq } k (react k e hdr (.create q) (s.objs k)), k, ?_, hk, ?_⟩
    · rw [next_run s e hdr (r := .create q) hq hl]
      show settle ((allocId >>= _) s) = _
      rw [bind_ok ha]
      show settle (onReceive k e hdr (.create q) _) = _
      rw [onReceive_run, if_neg]
      · rfl
      · show ¬ dies (s.objs k) (.create q) = true
        simp only [dies, hidle.st]
        simp
    · rw [set_at]
      simp only [react, hidle.st, answersIn, List.filter_append, List.filter_cons, isAnswer, List.filter_nil]
      simp [reply]

theorem tells_creator : TellsCreator endpoint := by
  intro evs s e hdr q w x h hc hq hl
  obtain ⟨s', k, h1, h2, h3⟩ := creates h e hdr q hc hq hl
  exact ⟨s', k, createRsp e k q, h1, h2, createRsp_ok e k q, h3, rfl⟩

/-- Against C100: the size of the requests that the server takes (OPC 10000-4, 5.6.2, `maxRequestMessageSize`) is announced as the size
of the responses that the client takes, whatever that is; 0 means that every size is taken. -/
theorem C100_session_violated (h : Reach evs s) (e : SEnv) (hdr : MsgHdr) (q : UaCreateSessionReq) (hc : CanBe s hdr (.create q)) {w x : List UInt8}
    (hq : Says (.create q) w) (hl : (w ++ x).length ≤ 4096) : ∃ (s' : Sessions) (k : Nat) (rsp : UaCreateSessionRsp),
      next s ⟨e, hdr, w ++ x⟩ = .ok s' ∧ Wire.ok rsp ∧
      answersIn (s'.objs k).log = answersIn (s.objs k).log ++ [.answer hdr (wire (Cont.make 464 rsp))] ∧
      rsp.maxRequestMessageSize = q.maxResponseMessageSize := by
  obtain ⟨s', k, h1, -, h3⟩ := creates h e hdr q hc hq hl
  exact ⟨s', k, createRsp e k q, h1, createRsp_ok e k q, h3, rfl⟩

/-- C107: there is one endpoint, the same for all who ask, whatever their request says, and for all who create a session.
It is the address that the controller makes the program listen on, in each of its runs.  Missing: see below. -/
theorem C107_same_partial : ∃ d, TellsAll d ∧ TellsCreator d ∧
    ∀ (rnd : Nat → UInt8) (es : List Controller.Ev) (c : Controller.Ctl) (log : List Controller.Act) (addr : List UInt8),
      Controller.run rnd Controller.Ctl.create [] es = .ok (c, log) → .snd (.uaTransportConfigReq addr) ∈ log → IsAt d addr := by
  refine ⟨endpoint, tells_all, tells_creator, ?_⟩
  intro rnd es c log addr h hm
  obtain ⟨pre, post, hp⟩ := List.append_of_mem hm
  have := (Controller.C60_order_partial rnd es c log h pre _ post hp).2.2
  subst this
  exact ⟨by decide +kernel, by decide +kernel⟩

/-- Against C107: that endpoint names neither the protocol to talk to it nor a way to say who the user is. -/
theorem C107_unusable_violated : ∃ d, TellsAll d ∧ TellsCreator d ∧ ¬ Usable d ∧ d.transportProfileUri.bytes = [] ∧ d.userIdentityTokens = [] :=
  ⟨endpoint, tells_all, tells_creator, fun h => h.2.2 rfl, rfl, rfl⟩

/-- Against C107: a client that asks only for endpoints of the protocols it knows is told of one of none of them. -/
theorem C107_filter_violated (s : Sessions) (e : SEnv) (hdr : MsgHdr) (q : UaGetEndpointsReq) (hp : ∀ u ∈ q.profileUris, u.bytes ≠ [])
    {w x : List UInt8} (hq : Says (.getEndpoints q) w) (hl : (w ++ x).length ≤ 4096) : ∃ (s' : Sessions) (rsp : UaGetEndpointsRsp),
      next s ⟨e, hdr, w ++ x⟩ = .ok s' ∧ answersIn (s'.objs 0).log = answersIn (s.objs 0).log ++ [.answer hdr (wire (Cont.make 431 rsp))] ∧
      ∃ d ∈ rsp.endpointDescription, d.transportProfileUri ∉ q.profileUris := by
  obtain ⟨s', rsp, h1, -, h2, h3⟩ := tells_all s e hdr q w x hq hl
  exact ⟨s', rsp, h1, h2, endpoint, by rw [h3]; simp, fun hm => hp _ hm rfl⟩

/-! ## Examples -/

/-- Session 1 exists and belongs to channel 4: its read request is answered, that of channel 5 is not. -/
example : ∃ s s1 s2, Reach talk s ∧ next s (on 4 1 readReq) = .ok s1 ∧ Answered ⟨3, 4, 9, 1⟩ readReq s s1 ∧
    next s (on 5 1 readReq) = .ok s2 ∧ Silent s s2 := by
  obtain ⟨s, h, hv, -⟩ := talk_reach
  have hh : holder (s.objs 1).log = some 4 := by rw [hv]; decide +kernel
  obtain ⟨s1, h1, h2⟩ := C106_answered_partial h env ⟨3, 4, 9, 1⟩ readReq ⟨1, by decide, rfl, hh⟩ readReq_ok.says (x := []) (by decide +kernel)
  obtain ⟨s2, h3, h4⟩ := C106_silent_violated h env ⟨3, 5, 9, 1⟩ readReq (Or.inr (show Pool.valid (1 : UInt32).toNat by decide)) (by
    rintro ⟨k, hk, hs, ho⟩
    have hs := congrArg UInt32.toNat hs
    rw [toNat_ofNat hk] at hs
    have hs : 1 = k := hs
    subst hs
    rw [hh] at ho
    exact absurd ho (by decide)) readReq_ok.says (x := []) (by decide +kernel)
  rw [List.append_nil] at h1 h3
  exact ⟨s, s1, s2, h, h1, h2, h3, h4⟩

/-- Session 7 does not exist; the request to close it is not answered. -/
example : ∃ s s', Reach talk s ∧ next s (on 4 1 (closeReq 7)) = .ok s' ∧ Silent s s' := by
  obtain ⟨s, h, hv⟩ := observe_reach (k := 7) (evs := talk) (x := ⟨.init, [], 31⟩) (by decide +kernel)
  have hl : (s.objs 7).log = [] := congrArg View.log hv
  obtain ⟨s', h1, h2⟩ := C106_silent_violated h env ⟨3, 4, 9, 1⟩ (closeReq 7) (by intro uid hu; cases hu; decide) (by
    rintro ⟨k, hk, hs, ho⟩
    have hs := NodeIdValue.numeric.inj hs
    have hs := congrArg UInt32.toNat hs
    rw [toNat_ofNat hk] at hs
    have hs : 7 = k := hs
    subst hs
    rw [hl] at ho
    exact absurd ho (by decide)) (closeReq_ok 7).says (x := []) (by decide +kernel)
  rw [List.append_nil] at h1
  exact ⟨s, s', h, h1, h2⟩

/-- A request of a client that knows the binary protocol only. -/
def binaryOnly : UaGetEndpointsReq := { (Ua.init : UaGetEndpointsReq) with profileUris := [⟨ascii "http://opcfoundation.org/UA-Profile/Transport/uatcp-uasc-uabinary"⟩] }

/-- It is told of an endpoint of no protocol. -/
example : ∃ (s s' : Sessions) (rsp : UaGetEndpointsRsp), Reach talk s ∧ next s (on 4 1 (.getEndpoints binaryOnly)) = .ok s' ∧
    SAct.answer ⟨3, 4, 9, 1⟩ (wire (Cont.make 431 rsp)) ∈ answersIn (s'.objs 0).log ∧
    ∃ d ∈ rsp.endpointDescription, d.transportProfileUri ∉ binaryOnly.profileUris := by
  obtain ⟨s, h, -⟩ := talk_reach
  have ho : Sendable (.getEndpoints binaryOnly) := ⟨reqHdr_ok 0 0, str_ok _ (by decide), none_ok, by
    refine ⟨by decide, fun u hu => ?_⟩
    obtain rfl := List.mem_singleton.1 hu
    exact str_ok _ (by decide +kernel)⟩
  obtain ⟨s', rsp, h1, h2, h3⟩ := C107_filter_violated s env ⟨3, 4, 9, 1⟩ binaryOnly (by
    intro u hu
    obtain rfl := List.mem_singleton.1 hu
    decide +kernel) ho.says (x := []) (by decide +kernel)
  rw [List.append_nil] at h1
  exact ⟨s, s', rsp, h, h1, by rw [h2]; simp, h3⟩

/-- A client that takes responses of 5 bytes is told that it may send requests of 5 bytes. -/
example : ∃ (s s' : Sessions) (k : Nat) (rsp : UaCreateSessionRsp), Reach talk s ∧
    SAct.answer ⟨3, 5, 9, invalidSuid⟩ (wire (Cont.make 464 rsp)) ∈ answersIn (s'.objs k).log ∧ rsp.maxRequestMessageSize = 5 := by
  obtain ⟨s, h, hv⟩ := observe_reach (k := 7) (evs := talk) (x := ⟨.init, [], 31⟩) (by decide +kernel)
  have hl : (s.objs 7).log = [] := congrArg View.log hv
  obtain ⟨hd, hdesc, h3, h4, h5, h6, h7, h8, -⟩ := createReq_ok
  obtain ⟨s', k, rsp, -, -, h2, h3⟩ := C100_session_violated h env ⟨3, 5, 9, invalidSuid⟩ { (Ua.init : UaCreateSessionReq) with requestHdr := reqHdr 0 21, maxResponseMessageSize := 5 }
    ⟨7, by decide, by rw [hl]; rfl⟩ (Sendable.says ⟨hd, hdesc, h3, h4, h5, h6, h7, h8, trivial⟩) (x := []) (by decide +kernel)
  exact ⟨s, s', k, rsp, h, by rw [h2]; simp, h3⟩

/-- A run of the controller that listens. -/
example (rnd : Nat → UInt8) : ∃ c log, Controller.run rnd Controller.Ctl.create [] [.start true, .ua .transportInitRsp] = .ok (c, log) ∧
    log.getLast? = some (.snd (.uaTransportConfigReq [127, 0, 0, 1, 17, 17])) := ⟨_, _, rfl, rfl⟩

end Uscada.Ua.Session
