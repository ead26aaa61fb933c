import Verif.UaBlind
/-!
# C90: messages that make the answers carry uninitialised memory

An open request is decoded from a buffer that holds the payload of the chunk, 12 bytes that stand behind the chunk in the receive buffer
(C46), and what the stack held before.  Nothing compares the end of what is decoded with the end of the payload.
-/

namespace Uscada.Ua

open SM Wire

/-! ## Proper messages -/

theorem Reads.inside {α : Type} {c : Codec α} {n : Nat} {w y : List UInt8} {v : α} (h : Reads c w v) (hy : n ≤ y.length) :
    Inside c n (w ++ y) := ⟨w, y, rfl, hy, .inl ⟨v, h⟩⟩

/-- C90: the open request of a proper client contains what is read of it; the 12 bytes behind it are added by the transport component. -/
theorem C90_proper_open {c : UInt32} {sec : UaSecurityHeader} {seq : UaSequenceHeader} {req : Cont UaOpenSecureChannelReq 446}
    {w x : List UInt8} (h : Channel.SaysOpen sec seq req w) (hx : x.length = 12) : Channel.Whole (.open c (w ++ x)) :=
  (Channel.open_reads sec seq req h).inside (by omega)

/-- C90: so does the close request, behind the token and the sequence header. -/
theorem C90_proper_close {c ch : UInt32} {req : Cont UaCloseSecureChannelReq 452} {a w x : List UInt8} (ha : a.length = 12)
    (h : std false req w) (hx : x.length = 12) : Channel.Whole (.close c ch (a ++ (w ++ x))) := by
  have hr : Reads (dec (Ua.init : Cont UaCloseSecureChannelReq 452)) w req := Accepts.acc req w h
  show Inside _ 12 ((a ++ (w ++ x)).drop 12)
  rw [← ha, List.drop_left]
  exact hr.inside (by omega)

/-- C90: so does each service request; 24 bytes are added behind it. -/
theorem C90_proper_request {r : SReq} {w x : List UInt8} (hs : Session.Says r w) (hx : x.length = 24) :
    Inside Session.dispatch 24 (w ++ x) := (Session.dispatch_reads r hs).inside (by omega)

/-! ## The buffers of the answers

In the model of the components the answers are encoded into memory that holds `garbage` everywhere.  Any other content leads to the same. -/

/-- An encoder run on a buffer that is constructed over `m`, and the copy into a message that has room for `room` bytes (`Channel.encoded`,
`Session.packed`). -/
def stored (room : Nat) (m : Mem) (c : Codec Unit) : Exec (List UInt8) := do
  let r ← c (Buf.create m)
  if r.2.size ≤ room then pure r.2.bytes else .ub

/-- What the server encodes: UaTcpConnection.cpp:44-57, 72-85, 104-117, 250-266, UaServerSecureChannel.cpp:58-78, 132-143, 228-242,
UaSession.cpp:31-43, 60-62, 89-91, UaGetEndpoints.cpp:28-36, UaAttributeService.cpp:28-30. -/
inductive ServerEnc : Codec Unit → Prop
  | ack : ServerEnc ackEnc
  | secured (a b c flag : UInt8) (channel : UInt32) (d : List UInt8) : ServerEnc (secEnc a b c flag channel d)
  | opened (e : CEnv) (channel token tx request handle lifetime : UInt32) :
    ServerEnc (Channel.openRspEnc e channel token tx request handle lifetime)
  | closed (e : CEnv) (token tx request handle : UInt32) : ServerEnc (Channel.closeRspEnc e token tx request handle)
  | sent (token tx request : UInt32) (d : List UInt8) : ServerEnc (Channel.sendEnc token tx request d)
  | endpoints (e : SEnv) (q : UaGetEndpointsReq) : ServerEnc (enc (Cont.make 431 (Session.getEndpointsRsp e q)))
  | created (e : SEnv) (k : Nat) (q : UaCreateSessionReq) : ServerEnc (enc (Cont.make 464 (Session.createRsp e k q)))
  | activated (e : SEnv) (q : UaActivateSessionReq) : ServerEnc (enc (Cont.make 470 (Session.activateRsp e q)))
  | left (e : SEnv) (q : UaCloseSessionReq) : ServerEnc (enc (Cont.make 476 (Session.closeRsp e q)))
  | read (e : SEnv) (q : UaReadReq) : ServerEnc (enc (Cont.make 634 (Session.readRsp e q)))

theorem ServerEnc.writes {c : Codec Unit} (h : ServerEnc c) : ∃ w, Writes c w := by
  cases h with
  | ack => exact ⟨_, Writes.bind (writes_header _ _ _ _) (Lawful.writes ackMsg ⟨trivial, trivial, trivial, trivial, trivial⟩)⟩
  | secured a b c flag channel d => exact ⟨_, Writes.bind (Lawful.writes (⟨(a, b, c), flag, 0, channel⟩ : UaMessageHeader)
      ⟨⟨trivial, trivial, trivial⟩, trivial, trivial, trivial⟩) (writes_raw d)⟩
  | opened e a b c d f g => exact ⟨_, Channel.open_writes e a b c d f g⟩
  | closed e a b c d => exact ⟨_, Channel.close_writes e a b c d⟩
  | sent a b c d => exact ⟨_, Channel.send_writes a b c d⟩
  | endpoints e q => exact ⟨_, Lawful.writes (Cont.make 431 (Session.getEndpointsRsp e q)) ⟨⟨trivial, rfl, rfl⟩, Session.getEndpointsRsp_ok e q⟩⟩
  | created e k q => exact ⟨_, Lawful.writes (Cont.make 464 (Session.createRsp e k q)) ⟨⟨trivial, rfl, rfl⟩, Session.createRsp_ok e k q⟩⟩
  | activated e q => exact ⟨_, Lawful.writes (Cont.make 470 (Session.activateRsp e q)) ⟨⟨trivial, rfl, rfl⟩, Session.activateRsp_ok e q⟩⟩
  | left e q => exact ⟨_, Lawful.writes (Cont.make 476 (Session.closeRsp e q)) ⟨⟨trivial, rfl, rfl⟩, Session.closeRsp_ok e q⟩⟩
  | read e q => exact ⟨_, Lawful.writes (Cont.make 634 (Session.readRsp e q)) ⟨⟨trivial, rfl, rfl⟩, Session.readRsp_ok e q⟩⟩

theorem stored_any {c : Codec Unit} {w : List UInt8} (h : Writes c w) (room : Nat) (m : Mem) : stored room m c =
    if w.length ≤ 4096 ∧ w.length ≤ room then .ok w else .ub := by
  unfold stored
  rw [h (Buf.create m) (by simp [Buf.create])]
  by_cases hw : w.length ≤ 4096
  · rw [if_pos (by simp only [Buf.create, maxPacketLen]; omega), Exec.ok_bind]
    have hs : ((Buf.create m).append w).size = w.length := by simp only [Buf.size, Buf.append, Buf.create]; omega
    simp only [hs, hw, true_and]
    split
    · simp only [Exec.pure_eq, Exec.ok.injEq, Buf.bytes, hs]
      exact Channel.load_packet m w
    · rfl
  · rw [if_neg (by simp only [Buf.create, maxPacketLen]; omega), if_neg (by omega)]
    rfl

theorem frame_any {c : Codec Unit} {w : List UInt8} (h : Writes c w) (m m' : Mem) : frame m c = frame m' c := by
  unfold frame
  rw [h (Buf.create m) (by simp [Buf.create]), h (Buf.create m') (by simp [Buf.create])]
  by_cases hw : w.length ≤ 4096
  · rw [if_pos (by simp only [Buf.create, maxPacketLen]; omega), if_pos (by simp only [Buf.create, maxPacketLen]; omega), Exec.ok_bind, Exec.ok_bind]
    simp only [setPayloadSize, Buf.append, Buf.create, messageHeaderSize, maxPacketLen, Nat.zero_add, Nat.reduceLeDiff, if_true, Exec.ok_bind,
      Exec.pure_eq, Exec.ok.injEq, Buf.bytes, Buf.size]
    apply memRead_ext (MsgStorage.length_memRead _ _ _)
    intro i hi
    rw [getD_memRead _ _ _ _ (by omega)]
    simp only [memWrite]
    split
    · rfl
    · rw [if_pos (by omega), if_pos (by omega)]
  · rw [if_neg (by simp only [Buf.create, maxPacketLen]; omega), if_neg (by simp only [Buf.create, maxPacketLen]; omega)]

/-- C90: what the server encodes does not depend on what the buffers held before. -/
theorem C90_buffers {c : Codec Unit} (h : ServerEnc c) (m : Mem) : frame garbage c = frame m c ∧
    Channel.encoded c = stored 4072 m c ∧ Session.packed c = stored 4068 m c := by
  obtain ⟨w, hw⟩ := h.writes
  refine ⟨frame_any hw _ _, ?_, ?_⟩
  · rw [stored_any hw]
    exact stored_any hw 4072 garbage
  · rw [stored_any hw]
    exact stored_any hw 4068 garbage

/-- C90: an encoder that moves its position without writing, as for the padding of a structure, would hand out what the buffer held before. -/
example : stored 4072 (fun _ => 1) (fun b => .ok ((), { b with head := b.head + 2 })) ≠
    stored 4072 (fun _ => 2) (fun b => .ok ((), { b with head := b.head + 2 })) := by decide

namespace Channel

open Ent

/-- The answer to whatever is decoded as an open request. -/
theorem open_decoded {u : Nat → UInt32 × UInt32} {evs : List (CEnv × CIn)} {s : Chans} (h : Reach u evs s) (hf : s.ids.len ≠ 0) (e : CEnv)
    (c : UInt32) {d : List UInt8} (hl : d.length ≤ 4096) {seq : UaSequenceHeader} {req : UaOpenSecureChannelReq} {b : Buf}
    (hr : openReqDec ((Buf.create e.mem).append d) = .ok ((seq, req), b)) : ∃ k s' ans tx, Pool.valid k ∧ next s e (.open c d) = .ok s' ∧
      Grows k [.got (.open c d), .opened c e.token seq.sequenceNumber, .openRsp c (UInt32.ofNat k) ans] s s' ∧
      AnswersOpen ans (UInt32.ofNat k) e.token tx seq.requestId req.requestHdr.requestHandle req.requestLifetime := by
  obtain ⟨l, hfree, hgood⟩ := reach_inv (A := False) h False.elim
  have hlen := hfree.holds.hlen
  cases l with
  | nil => exact absurd hlen hf
  | cons k l =>
    have hk := hfree.ids k (by simp)
    have hidle := (hgood k hk).1 (by simp)
    obtain ⟨q, hq, ha⟩ := alloc_run hfree
    refine ⟨k, ({ s with ids := q } : Chans).set k (opened k e c d seq.sequenceNumber seq.requestId
      req.requestHdr.requestHandle req.requestLifetime (s.objs k)), openAnswer e (UInt32.ofNat k) e.token (s.objs k).tx seq.requestId
      req.requestHdr.requestHandle req.requestLifetime, (s.objs k).tx, hk, ?_, ?_, ?_⟩
    rotate_left
    · refine ⟨?_, fun j hj => by rw [set_other _ _ hj]⟩
      rw [set_at]
      simp [opened]
    · exact ⟨_, _, rfl, rfl, rfl, ⟨rfl, rfl, rfl, rfl⟩, rfl, rfl, rfl, rfl⟩
    · show settle ((allocId >>= _) s) = _
      rw [bind_ok ha]
      show settle (onReceive k e (.open c d) { s with ids := q }) = _
      unfold onReceive
      rw [note, bind_ok (obj_run _ _ _), bind_ok (self_run _ _), set_at]
      simp only [hidle.st]
      rw [receiveOpen_eq, SM.assoc, bind_ok (lift_ok (load_ok _ _ hl) _), SM.assoc, bind_ok (lift_ok hr _),
        bind_ok (answerOpen_run _ _ _ _ _ _ _ _), obj_run]
      simp only [set_at, set_set]
      rfl

theorem word_of (z : List UInt8) (h : z.length = 4) : ∃ n : UInt32, leBytes 4 n.toNat = z := by
  match z, h with
  | [a, b, c, d], _ =>
    refine ⟨UInt32.ofNat (a.toNat + 256 * b.toNat + 65536 * c.toNat + 16777216 * d.toNat), ?_⟩
    have ha := a.toNat_lt
    have hb := b.toNat_lt
    have hc := c.toNat_lt
    have hd := d.toNat_lt
    rw [UInt32.toNat_ofNat_of_lt' (by show _ < 4294967296; omega)]
    simp only [leBytes, List.cons.injEq, and_true]
    refine ⟨?_, ?_, ?_, ?_⟩ <;> apply UInt8.toNat_inj.mp <;> rw [UInt8.toNat_ofNat'] <;> omega

/-- Other last bytes are another life time. -/
theorem other_lifetime {sec : UaSecurityHeader} {seq : UaSequenceHeader} {req : Cont UaOpenSecureChannelReq 446} {p v : List UInt8}
    (h : SaysOpen sec seq req (p ++ v)) (hv : v.length = 4) (n : UInt32) :
    SaysOpen sec seq { req with msg := { req.msg with requestLifetime := n } } (p ++ leBytes 4 n.toNat) := by
  obtain ⟨a, _, h1, ⟨b, _, h2, ⟨c, _, h3, ⟨d, _, h4, ⟨e, _, h5, ⟨f, _, h6, ⟨g, _, h7, ⟨i, j, h8, h9, rfl⟩, rfl⟩, rfl⟩, rfl⟩, rfl⟩, rfl⟩, rfl⟩, he⟩ := h
  have hj : j.length = 4 := by rw [show j = leBytes 4 _ from h9]; exact MsgStorage.length_leBytes ..
  have hp : p = a ++ (b ++ (c ++ (d ++ (e ++ (f ++ (g ++ i)))))) := by
    simp only [← List.append_assoc] at he ⊢
    exact (List.append_inj' he (by omega)).1
  refine ⟨a, _, h1, ⟨b, _, h2, ⟨c, _, h3, ⟨d, _, h4, ⟨e, _, h5, ⟨f, _, h6, ⟨g, _, h7, ⟨i, _, h8, rfl, rfl⟩, rfl⟩, rfl⟩, rfl⟩, rfl⟩, rfl⟩, rfl⟩, ?_⟩
  rw [hp]
  simp only [List.append_assoc]

/-- A null nonce, or an empty one. -/
def NoNonce (z : List UInt8) : Prop := z = [0xff, 0xff, 0xff, 0xff] ∨ z = [0, 0, 0, 0]

/-- Other last 16 bytes are another type, another mode, no nonce and another life time. -/
theorem other_end {sec : UaSecurityHeader} {seq : UaSequenceHeader} {req : Cont UaOpenSecureChannelReq 446} {p v : List UInt8}
    (h : SaysOpen sec seq req (p ++ v)) (hv : v.length = 16) (hn : req.msg.clientNonce = ⟨[]⟩) {y z : List UInt8} (hy : y.length = 8)
    (hz : NoNonce z) (n : UInt32) : ∃ a b, SaysOpen sec seq { req with msg := { req.msg with
      securityTokenRequestType := a, securityMode := b, requestLifetime := n } } (p ++ (y ++ (z ++ leBytes 4 n.toNat))) := by
  obtain ⟨a, _, h1, ⟨b, _, h2, ⟨c, _, h3, ⟨d, _, h4, ⟨e, _, h5, ⟨f, _, h6, ⟨g, _, h7, ⟨i, j, h8, h9, rfl⟩, rfl⟩, rfl⟩, rfl⟩, rfl⟩, rfl⟩, rfl⟩, he⟩ := h
  have hj : j.length = 4 := by rw [show j = leBytes 4 _ from h9]; exact MsgStorage.length_leBytes ..
  have hf : f.length = 4 := by rw [show f = leBytes 4 _ from h6]; exact MsgStorage.length_leBytes ..
  have hg : g.length = 4 := by rw [show g = leBytes 4 _ from h7]; exact MsgStorage.length_leBytes ..
  have hi : i.length = 4 := by
    rw [hn] at h8
    rcases h8.2 with h8 | h8
    · rw [h8]; rfl
    · rw [h8.2]; rfl
  have hp : p = a ++ (b ++ (c ++ (d ++ e))) := by
    have he : p ++ v = (a ++ (b ++ (c ++ (d ++ e)))) ++ (f ++ (g ++ (i ++ j))) := by rw [he]; simp only [List.append_assoc]
    exact (List.append_inj' he (by simp only [List.length_append]; omega)).1
  obtain ⟨n1, hn1⟩ := word_of (y.take 4) (by rw [List.length_take]; omega)
  obtain ⟨n2, hn2⟩ := word_of (y.drop 4) (by rw [List.length_drop]; omega)
  refine ⟨n1.toInt32, n2.toInt32, a, _, h1, ⟨b, _, h2, ⟨c, _, h3, ⟨d, _, h4, ⟨e, _, h5, ⟨y.take 4, _, ?_, ⟨y.drop 4, _, ?_, ⟨z, _, ?_, rfl, rfl⟩, rfl⟩, rfl⟩, rfl⟩, rfl⟩, rfl⟩, rfl⟩, ?_⟩
  · exact hn1.symm
  · exact hn2.symm
  · show stdBytes req.msg.clientNonce.bytes z
    rw [hn]
    rcases hz with rfl | rfl
    · exact ⟨by decide, .inr ⟨rfl, rfl⟩⟩
    · exact ⟨by decide, .inl rfl⟩
  · rw [hp]
    simp only [List.append_assoc]
    rw [← List.append_assoc (y.take 4), List.take_append_drop]

end Channel

namespace Session

open Ent

/-- Other last 12 bytes are another timeout and another size. -/
theorem other_limits {q : UaCreateSessionReq} {p v : List UInt8} (h : Says (.create q) (p ++ v)) (hv : v.length = 12) (t : F64) (n : UInt32) :
    Says (.create { q with requestedSessionTimeout := t, maxResponseMessageSize := n }) (p ++ (leBytes 8 t.bits.toNat ++ leBytes 4 n.toNat)) := by
  obtain ⟨o, _, h0, ⟨a, _, h1, ⟨b, _, h2, ⟨c, _, h3, ⟨d, _, h4, ⟨e, _, h5, ⟨f, _, h6, ⟨g, _, h7, ⟨i, j, h8, h9, rfl⟩, rfl⟩, rfl⟩, rfl⟩, rfl⟩, rfl⟩, rfl⟩, rfl⟩, he⟩ := h
  have hi : i.length = 8 := by rw [show i = leBytes 8 _ from h8]; exact MsgStorage.length_leBytes ..
  have hj : j.length = 4 := by rw [show j = leBytes 4 _ from h9]; exact MsgStorage.length_leBytes ..
  have hp : p = o ++ (a ++ (b ++ (c ++ (d ++ (e ++ (f ++ g)))))) := by
    have he : p ++ v = (o ++ (a ++ (b ++ (c ++ (d ++ (e ++ (f ++ g))))))) ++ (i ++ j) := by rw [he]; simp only [List.append_assoc]
    exact (List.append_inj' he (by simp only [List.length_append]; omega)).1
  refine ⟨o, _, h0, ⟨a, _, h1, ⟨b, _, h2, ⟨c, _, h3, ⟨d, _, h4, ⟨e, _, h5, ⟨f, _, h6, ⟨g, _, h7, ⟨_, _, rfl, rfl, rfl⟩, rfl⟩, rfl⟩, rfl⟩, rfl⟩, rfl⟩, rfl⟩, rfl⟩, ?_⟩
  rw [hp]
  simp only [List.append_assoc]
  rfl

/-- Any 12 bytes are a timeout and a size. -/
theorem limits_of (z : List UInt8) (h : z.length = 12) : ∃ (t : F64) (n : UInt32), leBytes 8 t.bits.toNat ++ leBytes 4 n.toNat = z := by
  obtain ⟨a, ha⟩ := Channel.word_of (z.take 4) (by rw [List.length_take]; omega)
  obtain ⟨b, hb⟩ := Channel.word_of ((z.drop 4).take 4) (by rw [List.length_take, List.length_drop]; omega)
  obtain ⟨c, hc⟩ := Channel.word_of (z.drop 8) (by rw [List.length_drop]; omega)
  have h1 := a.toNat_lt
  have h2 := b.toNat_lt
  refine ⟨⟨UInt64.ofNat (a.toNat + 4294967296 * b.toNat)⟩, c, ?_⟩
  rw [UInt64.toNat_ofNat_of_lt' (by show _ < 18446744073709551616; omega)]
  have hs : leBytes 8 (a.toNat + 4294967296 * b.toNat) = leBytes 4 a.toNat ++ leBytes 4 b.toNat := by
    simp only [leBytes, List.cons_append, List.nil_append, List.cons.injEq, and_true]
    refine ⟨?_, ?_, ?_, ?_, ?_, ?_, ?_, ?_⟩ <;> apply UInt8.toNat_inj.mp <;> rw [UInt8.toNat_ofNat', UInt8.toNat_ofNat'] <;> omega
  rw [hs, ha, hb, hc, List.append_assoc, ← List.drop_drop (i := 4) (j := 4), List.take_append_drop, List.take_append_drop]

/-- The answer to a create request, in full. -/
theorem created {evs : List SIn} {s : Sessions} (h : Reach evs s) (hf : s.ids.len ≠ 0) (e : SEnv) (hdr : MsgHdr) {q : UaCreateSessionReq}
    {w : List UInt8} (hq : Says (.create q) w) {x : List UInt8} (hl : (w ++ x).length ≤ 4096) : ∃ (k : Nat) (s' : Sessions), Pool.valid k ∧
      next s ⟨e, hdr, w ++ x⟩ = .ok s' ∧
      Grows k [.got hdr (.create q), .answer hdr (wire (Cont.make 464 (createRsp e k q))), .created] s s' := by
  obtain ⟨l, hfree, hgood⟩ := reach_inv h
  have hlen := hfree.holds.hlen
  cases l with
  | nil => exact absurd hlen hf
  | cons k l =>
    have hk := hfree.ids k (by simp)
    have hidle := (hgood k hk).1 (by simp)
    obtain ⟨qq, hq', ha⟩ := alloc_run hfree
    refine ⟨k, Ent.set { s with ids := qq } k (react k e hdr (.create q) (s.objs k)), hk, ?_, ⟨?_, fun j hj => ?_⟩⟩
    · rw [next_run s e hdr (r := .create q) hq hl]
      show settle ((allocId >>= _) s) = _
      rw [bind_ok ha]
      show settle (onReceive k e hdr (.create q) _) = _
      rw [onReceive_run, if_neg]
      · rfl
      · show ¬ dies (s.objs k) (.create q) = true
        simp only [dies, hidle.st]
        simp
    · rw [Ent.set_at]
      simp only [react, hidle.st]
      simp [reply]
    · rw [Ent.set_other _ _ hj]

end Session

namespace Stack

open Transport (Down TEv tlogs chunk HoldsChunk upOf)
open Session (bytesOf)

variable {m : Nat → Mem} {u : Nat → UInt32 × UInt32} {evs : List (Env × Ev)} {s : Stack}

/-- What the receive buffer of connection `k` holds behind a chunk with payload `p` that comes next: never received, or received before, maybe
from another peer. -/
def behind (s : Stack) (k : Nat) (p : List UInt8) : List UInt8 := memRead (s.srv.conns k).rx.packet (12 + p.length) 12

/-- A chunk that is read at once, and what stands behind it in the receive buffer. -/
theorem reads_whole {k : Nat} (hop : (s.srv.conns k).opened = true) (hblank : Blank s k) {e : Env} {ty : Transport.SecType}
    {flag : UInt8} {c0 : UInt32} {p : List UInt8} (hlen : p.length ≤ 4072) (hrx : e.tcp.rx = .ok (chunk ty flag c0 p)) : ∃ b,
      Uscada.Ua.receive (s.srv.conns k).opened e.tcp.rx (s.srv.conns k).rx = .ok (.done, b) ∧ HoldsChunk b (chunk ty flag c0 p) ∧
      memRead b.packet b.head 12 = behind s k p := by
  have hcl := Transport.chunk_length ty flag c0 p
  have hmem := memRead_append (s.srv.conns k).rx [] (chunk ty flag c0 p) (by rw [hblank.2]; rfl)
  refine ⟨(s.srv.conns k).rx.append (chunk ty flag c0 p), ?_, ⟨hblank.1, hmem⟩, ?_⟩
  · have := hblank.2
    rw [hop, hrx]
    exact receive_ok (by omega) (by omega) (evaluate_prefix ((s.srv.conns k).rx.append (chunk ty flag c0 p)) (chunk ty flag c0 p) []
      hblank.1 hmem (by rw [List.append_nil]; exact isChunk_chunk ty flag c0 (by omega)))
  · have hh : ((s.srv.conns k).rx.append (chunk ty flag c0 p)).head = 12 + p.length := by
      show (s.srv.conns k).rx.head + _ = _
      rw [hblank.2, hcl]
      omega
    rw [hh]
    apply memRead_ext (MsgStorage.length_memRead _ _ _)
    intro i hi
    rw [getD_memRead _ _ _ _ hi]
    show memWrite _ _ _ _ = _
    unfold memWrite
    rw [if_neg (by rw [hblank.2, hcl]; omega)]

/-- Whatever is decoded as an open request is answered. -/
theorem opened_run (h : Reach m u evs s) (hfree : s.chans.ids.len ≠ 0) {k : Nat} (hk : Pool.valid k) (hst : (s.srv.conns k).st = .connected)
    (hop : (s.srv.conns k).opened = true) (hblank : Blank s k) (hbox : s.box = []) {e1 e2 e3 : Env} (h1 : Calm e1) (h2 : Calm e2) (h3 : Calm e3)
    {flag : UInt8} {c0 : UInt32} {p : List UInt8} (hlen : p.length ≤ 4052) (hrx : e1.tcp.rx = .ok (chunk .opn flag c0 p))
    {seq : UaSequenceHeader} {req : UaOpenSecureChannelReq} {b' : Buf}
    (hdec : Channel.openReqDec ((Buf.create e2.chan.mem).append (p ++ behind s k p)) = .ok ((seq, req), b')) : ∃ s' ch ans tx,
      run s [(e1, .net (.linkData k)), (e2, .deliver), (e3, .deliver)] = .ok s' ∧
      Reach m u (evs ++ [(e1, .net (.linkData k)), (e2, .deliver), (e3, .deliver)]) s' ∧
      Channel.AnswersOpen ans ch e2.chan.token tx seq.requestId req.requestHdr.requestHandle req.requestLifetime ∧
      s'.shown k = s.shown k ++ [.sent (chunk .opn 0x46 ch ans)] := by
  obtain ⟨b, hrecv, hold, hx⟩ := reads_whole hop hblank (ty := .opn) (flag := flag) (c0 := c0) (p := p) (by omega) hrx
  obtain ⟨tevs, cevs, sevs, ht, hc, hs, hlong⟩ := reach_parts h
  obtain ⟨t, hn, htk, hto⟩ := Transport.chunk_run m tevs s.srv ht k hk hst e1.tcp h1.starts _ .opn flag c0 p (by omega) hrecv hold (.inl rfl)
  rw [hx] at htk
  generalize hy : behind s k p = x at htk hdec
  have hxl : x.length = 12 := by rw [← hy]; exact MsgStorage.length_memRead _ _ _
  have hsent : sentTcp s.srv t = [.chan (.open (UInt32.ofNat k) (p ++ x))] := by
    rw [sentTcp_eq hk (by rw [htk]) hto]
    rfl
  have hdl : (p ++ x).length ≤ 4064 := by
    rw [List.length_append]
    omega
  have hs1 := step_net (s := s) (e := e1) hn (by rw [hsent]; intro y hy; rw [List.mem_singleton.mp hy]; simp only [Mail.size]; omega) (by
    rw [hbox, hsent]; have := h1.others; simp only [List.length_cons, List.length_nil]; omega)
  rw [hsent, hbox, List.nil_append] at hs1
  have hreach1 : Reach m u (evs ++ [(e1, .net (.linkData k))]) { s with srv := t, box := [.chan (.open (UInt32.ofNat k) (p ++ x))] } :=
    h.step ⟨rfl, hk, (Transport.reach_live ht hk (by rw [hst]; simp)).choose_spec.2.2.2.2.link⟩ hs1
  obtain ⟨j, c, ans, tx, hj, hcn, hcg, hans⟩ := Channel.open_decoded hc hfree e2.chan (UInt32.ofNat k) (by omega) hdec
  have hcs : sentChan s.chans c = [.tcp k (.openRsp (UInt32.ofNat j) 0x46 ans)] := by
    rw [sentChan_eq hj hcg]
    show [Mail.tcp (UInt32.ofNat k).toNat _] = _
    rw [(toNat_eq (lt33 hk)).mpr rfl]
  have hal : ans.length ≤ 276 := small_chan (n := 4064) hcn hdl (.tcp k (.openRsp (UInt32.ofNat j) 0x46 ans)) (by rw [hcs]; exact List.mem_cons_self)
  have hs2 := step_chan (s := { s with srv := t, box := [.chan (.open (UInt32.ofNat k) (p ++ x))] }) (e := e2) (rest := []) (c := c) rfl hcn
    (by show ∀ z ∈ sentChan s.chans c, _; rw [hcs]; intro z hz; rw [List.mem_singleton.mp hz]; simp only [Mail.size]; omega)
    (by show 0 + (sentChan s.chans c).length + _ ≤ _; rw [hcs]; have := h2.others; simp only [List.length_cons, List.length_nil]; omega)
  have hreach2 := hreach1.step (by simp [Possible]) hs2
  obtain ⟨tevs2, _, _, ht2, _⟩ := reach_parts hreach2
  obtain ⟨t3, hn3, ht3k, ht3o⟩ := Transport.open_run m tevs2 t ht2 k hk (by rw [htk]; exact hst) (by rw [htk]; exact hop) e3.tcp h3.writes 0x46
    (UInt32.ofNat j) ans (by omega)
  have ht3s : sentTcp t t3 = [] := by
    rw [sentTcp_eq hk (by rw [ht3k]) ht3o]
    rfl
  have hs3 := step_tcp (s := { s with srv := t, chans := c, box := [] ++ sentChan s.chans c }) (e := e3) (rest := []) (t := t3) (by
      show [] ++ sentChan s.chans c = _; rw [hcs]; rfl) hn3
    (by show ∀ z ∈ sentTcp t t3, _; rw [ht3s]; intro z hz; cases hz)
    (by show 0 + (sentTcp t t3).length + _ ≤ _; rw [ht3s]; have := h3.others; simp only [List.length_nil]; omega)
  have hreach3 := hreach2.step (e := e3) (v := .deliver) (by show [] ++ sentChan s.chans c ≠ []; rw [hcs]; simp) hs3
  refine ⟨{ s with srv := t3, chans := c, box := [] ++ sentTcp t t3 }, UInt32.ofNat j, ans, tx, ?_, ?_, hans, ?_⟩
  · rw [run_cons hs1, run_cons hs2, run_cons hs3]
    rfl
  · simpa only [List.append_assoc, List.cons_append, List.nil_append] using hreach3
  · show (t3.conns k).log.filterMap seen = (s.srv.conns k).log.filterMap seen ++ _
    rw [ht3k, htk]
    simp only [List.append_assoc, List.cons_append, List.nil_append, List.filterMap_append]
    rfl

/-- Against C90: whoever leaves out the last 4 bytes of an open request finds in the answer, as life time of the token, the 4 bytes that the receive
buffer holds behind the request. -/
theorem C90_open_violated (h : Reach m u evs s) (hfree : s.chans.ids.len ≠ 0) {k : Nat} (hk : Pool.valid k)
    (hst : (s.srv.conns k).st = .connected) (hop : (s.srv.conns k).opened = true) (hblank : Blank s k) (hbox : s.box = []) {e1 e2 e3 : Env}
    (h1 : Calm e1) (h2 : Calm e2) (h3 : Calm e3) {flag : UInt8} {c0 : UInt32} {sec : UaSecurityHeader} {seq : UaSequenceHeader}
    {req : Cont UaOpenSecureChannelReq 446} {p v : List UInt8} (hsays : Channel.SaysOpen sec seq req (p ++ v)) (hv : v.length = 4)
    (hlen : p.length ≤ 4052) (hrx : e1.tcp.rx = .ok (chunk .opn flag c0 p)) : ∃ s' ch ans tx lifetime,
      Reach m u (evs ++ [(e1, .net (.linkData k)), (e2, .deliver), (e3, .deliver)]) s' ∧
      s'.shown k = s.shown k ++ [.sent (chunk .opn 0x46 ch ans)] ∧
      Channel.AnswersOpen ans ch e2.chan.token tx seq.requestId req.msg.requestHdr.requestHandle lifetime ∧
      leBytes 4 lifetime.toNat = (behind s k p).take 4 := by
  have hbl : (behind s k p).length = 12 := MsgStorage.length_memRead _ _ _
  obtain ⟨n, hn⟩ := Channel.word_of ((behind s k p).take 4) (by rw [List.length_take]; omega)
  have hr := Channel.open_reads _ _ _ (Channel.other_lifetime hsays hv n)
  have hdec := Channel.Reads.front hr (d := p ++ behind s k p) (x := (behind s k p).drop 4)
    (by rw [hn, List.append_assoc, List.take_append_drop]) (by rw [List.length_append]; omega) e2.chan.mem
  obtain ⟨s', ch, ans, tx, -, g2, g3, g4⟩ := opened_run h hfree hk hst hop hblank hbox h1 h2 h3 hlen hrx hdec
  exact ⟨s', ch, ans, tx, n, g2, g4, g3, hn⟩

/-- Against C90: whoever leaves out the last 16 bytes of an open request with an empty nonce finds there 4 bytes that the stack held before, if the
bytes behind the request are, or look like, the length of an empty nonce; a longer Hello before sees to that. -/
theorem C90_stack_violated (h : Reach m u evs s) (hfree : s.chans.ids.len ≠ 0) {k : Nat} (hk : Pool.valid k)
    (hst : (s.srv.conns k).st = .connected) (hop : (s.srv.conns k).opened = true) (hblank : Blank s k) (hbox : s.box = []) {e1 e2 e3 : Env}
    (h1 : Calm e1) (h2 : Calm e2) (h3 : Calm e3) {flag : UInt8} {c0 : UInt32} {sec : UaSecurityHeader} {seq : UaSequenceHeader}
    {req : Cont UaOpenSecureChannelReq 446} {p v : List UInt8} (hsays : Channel.SaysOpen sec seq req (p ++ v)) (hv : v.length = 16)
    (hnonce : req.msg.clientNonce = ⟨[]⟩) (hlast : Channel.NoNonce ((behind s k p).drop 8))
    (hlen : p.length ≤ 4052) (hrx : e1.tcp.rx = .ok (chunk .opn flag c0 p)) : ∃ s' ch ans tx lifetime,
      Reach m u (evs ++ [(e1, .net (.linkData k)), (e2, .deliver), (e3, .deliver)]) s' ∧
      s'.shown k = s.shown k ++ [.sent (chunk .opn 0x46 ch ans)] ∧
      Channel.AnswersOpen ans ch e2.chan.token tx seq.requestId req.msg.requestHdr.requestHandle lifetime ∧
      leBytes 4 lifetime.toNat = memRead e2.chan.mem (p.length + 12) 4 := by
  have hbl : (behind s k p).length = 12 := MsgStorage.length_memRead _ _ _
  obtain ⟨n, hn⟩ := Channel.word_of (memRead e2.chan.mem (p.length + 12) 4) (MsgStorage.length_memRead _ _ _)
  obtain ⟨a, b, ho⟩ := Channel.other_end hsays hv hnonce (y := (behind s k p).take 8) (by rw [List.length_take]; omega) hlast n
  have hr := Channel.open_reads _ _ _ ho
  rw [← List.append_assoc ((behind s k p).take 8), List.take_append_drop, ← List.append_assoc, hn] at hr
  have hdec := hr ((Buf.create e2.chan.mem).append (p ++ behind s k p))
    (by simp only [Buf.append, Buf.create, List.length_append, maxPacketLen, MsgStorage.length_memRead, hbl]; omega) (by
      rw [List.length_append, memRead_split]
      show memRead _ 0 _ ++ memRead _ (0 + _) _ = _
      rw [Channel.load_packet, MsgStorage.length_memRead]
      congr 1
      apply memRead_ext (MsgStorage.length_memRead _ _ _)
      intro i hi
      rw [getD_memRead _ _ _ _ hi, List.length_append, hbl]
      show memWrite _ _ _ _ = _
      unfold memWrite
      rw [if_neg (by simp only [Buf.create, List.length_append, hbl]; omega)]
      simp only [Nat.zero_add]
      rfl)
  obtain ⟨s', ch, ans, tx, -, g2, g3, g4⟩ := opened_run h hfree hk hst hop hblank hbox h1 h2 h3 hlen hrx hdec
  exact ⟨s', ch, ans, tx, n, g2, g4, g3, hn⟩

/-- Against C90: whoever leaves out the last 12 bytes of a create request finds in the answer, as timeout and as size, the 12 bytes that the receive buffer
holds behind the request. -/
theorem C90_create_violated (h : Reach m u evs s) (hfree : s.sess.ids.len ≠ 0) {k : Nat} {ch : UInt32} {w : Channel.Window} (hr : Ready s k ch w)
    (hblank : Blank s k) {e1 e2 e3 e4 e5 : Env} (h1 : Calm e1) (h2 : Calm e2) (h3 : Calm e3) (h4 : Calm e4) (h5 : Calm e5) {flag : UInt8}
    {id : UInt32} {q : UaCreateSessionReq} {p v : List UInt8} (hsays : Session.Says (.create q) (p ++ v)) (hv : v.length = 12)
    (hlen : p.length ≤ 4032) (hrx : e1.tcp.rx = .ok (chunk .msg flag ch (request w id p))) : ∃ s' tx, ∃ rsp : UaCreateSessionRsp,
      Reach m u (evs ++ five k e1 e2 e3 e4 e5) s' ∧
      s'.shown k = s.shown k ++ [.sent (chunk .msg 0x46 ch (answer w tx id (wire (Cont.make 464 rsp))))] ∧
      Session.GoodHdr rsp.responseHdr q.requestHdr.requestHandle ∧
      wire rsp.revisedSessionTimeout ++ wire rsp.maxRequestMessageSize = behind s k (request w id p) := by
  have hrl := request_length w id p
  obtain ⟨_, _, sevs, _, _, hs, _⟩ := reach_parts h
  obtain ⟨b, hrecv, hold, hx⟩ := reads_whole hr.opened hblank (ty := .msg) (flag := flag) (c0 := ch) (p := request w id p) (by omega) hrx
  obtain ⟨s', ans, -, g1, -, rsp, rfl, g2, g3⟩ := serves h hr h1 h2 h3 h4 h5 hlen ⟨b, hrecv, hold⟩ (P := fun _ ans => ∃ rsp : UaCreateSessionRsp,
    ans = wire (Cont.make 464 rsp) ∧ Session.GoodHdr rsp.responseHdr q.requestHdr.requestHandle ∧
      wire rsp.revisedSessionTimeout ++ wire rsp.maxRequestMessageSize = behind s k (request w id p)) fun y hy hst => by
    obtain ⟨y, z, hy1, hz1, rfl, ⟨b', hrecv', hy2⟩, hz2⟩ := hst
    rw [hrecv] at hrecv'
    obtain rfl : b = b' := by simpa using hrecv'
    rw [hx] at hy2
    obtain ⟨t, n, htn⟩ := Session.limits_of y hy1
    have hsays' := Session.other_limits hsays hv t n
    rw [htn] at hsays'
    obtain ⟨uid, c, c1, c2, c3⟩ := Session.created hs hfree e3.sess (header s k ch id) hsays' (x := z) (by rw [List.append_assoc]; exact hy)
    exact ⟨c, _, uid, _, lt33 c1, by rw [← List.append_assoc]; exact c2, c3, rfl, _, rfl, ⟨rfl, rfl⟩, htn.trans hy2⟩
  obtain ⟨x, n, -, -, -, hlog⟩ := g1.log
  refine ⟨s', n + 1, rsp, g1.reach, ?_, g2, g3⟩
  show (s'.srv.conns k).log.filterMap seen = (s.srv.conns k).log.filterMap seen ++ _
  rw [hlog, List.filterMap_append]
  rfl

/-! ## Examples -/

/-- The messages that are checked below contain what is read of them. -/
def known (os rs : List (List UInt8)) (s : Stack) (e : Env) : Ev → Bool
  | .net (.linkData k) => match Uscada.Ua.receive (s.srv.conns k).opened e.tcp.rx (s.srv.conns k).rx with
    | .ok (.done, b) => 32 ≤ b.head
    | _ => true
  | .net _ => true
  | .deliver => match s.box with
    | .chan (.open _ d) :: _ => os.any fun w => w.isPrefixOf d && w.length + 12 ≤ d.length
    | .chan (.close _ _ _) :: _ => false
    | .chan (.message _ _ d) :: _ => 24 ≤ d.length
    | .sess _ d :: _ => rs.any fun w => w.isPrefixOf d && w.length + 24 ≤ d.length
    | _ => true

theorem known_inside {α : Type} {c : Codec α} {n : Nat} {ws : List (List UInt8)} (hw : ∀ w ∈ ws, ∃ v, Reads c w v) {d : List UInt8}
    (h : (ws.any fun w => w.isPrefixOf d && w.length + n ≤ d.length) = true) : Inside c n d := by
  obtain ⟨w, h1, h2⟩ := List.any_eq_true.mp h
  rw [Bool.and_eq_true, List.isPrefixOf_iff_prefix, decide_eq_true_eq] at h2
  obtain ⟨⟨y, rfl⟩, h3⟩ := h2
  obtain ⟨v, hv⟩ := hw w h1
  rw [List.length_append] at h3
  exact hv.inside (by omega)

theorem known_whole {os rs : List (List UInt8)} (ho : ∀ w ∈ os, ∃ v, Reads Channel.openReqDec w v) (hr : ∀ w ∈ rs, ∃ v, Reads Session.dispatch w v)
    {e : Env} {v : Ev} (h : known os rs s e v = true) : Whole s e v := by
  cases v with
  | net v =>
    cases v with
    | linkData k =>
      intro b hb
      simp only [known, hb, decide_eq_true_eq] at h
      exact ⟨fun _ => h, fun _ => by omega⟩
    | _ => trivial
  | deliver =>
    cases hx : s.box with
    | nil => simp only [Whole, hx]
    | cons x l =>
      cases x with
      | chan y =>
        cases y <;> simp only [Whole, known, hx, Channel.Whole] at h ⊢
        · exact known_inside ho h
        · cases h
        · exact decide_eq_true_eq.mp h
      | tcp k y => simp only [Whole, hx]
      | sess a d =>
        simp only [Whole, known, hx] at h ⊢
        exact known_inside hr h

/-- A history of events that can happen, hurt nobody, and bring whole messages. -/
def plains (os rs : List (List UInt8)) (s : Stack) : List (Env × Ev) → Exec Stack
  | [] => .ok s
  | (e, v) :: l => if Possible s v ∧ Harmless s e v ∧ known os rs s e v = true then step s e v >>= fun s' => plains os rs s' l else .throws

theorem plains_plain {os rs : List (List UInt8)} (ho : ∀ w ∈ os, ∃ v, Reads Channel.openReqDec w v)
    (hd : ∀ w ∈ rs, ∃ v, Reads Session.dispatch w v) {pre evs : List (Env × Ev)} {s' : Stack} (h : Plain m u pre s)
    (hr : plains os rs s evs = .ok s') : Plain m u (pre ++ evs) s' := by
  induction evs generalizing pre s with
  | nil =>
    injection hr with hr
    rw [List.append_nil, ← hr]
    exact h
  | cons x l ih =>
    obtain ⟨e, v⟩ := x
    unfold plains at hr
    split at hr
    · rename_i hp
      obtain ⟨s1, h1, h2⟩ := Exec.bind_eq_ok.mp hr
      have := ih (h.step hp.1 hp.2.1 (known_whole ho hd hp.2.2) h1) h2
      rwa [List.append_assoc] at this
    · cases hr

theorem talk_plains : (do
    let s ← create (fun _ => garbage) Channel.unset
    let s' ← plains [Channel.openReq] [bytesOf Session.createReq, bytesOf (Session.activateReq 1), bytesOf Session.readReq, bytesOf (Session.closeReq 1)] s talk
    pure (s'.shown 1).length) = .ok 7 := by
  decide +kernel

/-- The open request of `connects`. -/
theorem openReq_says : Channel.SaysOpen { (Ua.init : UaSecurityHeader) with securityPolicyUri := ⟨Channel.policyNone⟩ } ⟨51, 9⟩
    (Cont.make 446 { (Ua.init : UaOpenSecureChannelReq) with requestHdr := { (Ua.init : UaRequestHeader) with requestHandle := 4 }, requestLifetime := 3600000 })
    Channel.openReq :=
  Channel.says_open ⟨Session.str_ok _ (by decide +kernel), Session.bytes_ok, Session.bytes_ok⟩ ⟨⟨trivial, rfl, rfl⟩,
    ⟨trivial, trivial, trivial, trivial, Session.str_ok _ (by decide), trivial, Session.ext_ok⟩, trivial, trivial, trivial, Session.bytes_ok, trivial⟩

/-- C90: the client of `talk` sees the same seven things whatever memory held before. -/
example : ∃ s, Plain (fun _ => garbage) Channel.unset talk s ∧ (s.shown 1).length = 7 ∧
    ∀ m u evs, evs.map (fun x => (forget x.1, x.2)) = talk.map (fun x => (forget x.1, x.2)) →
      ∃ s', Reach m u evs s' ∧ ∀ k, s'.shown k = s.shown k := by
  obtain ⟨s, h1, h2⟩ := Exec.bind_eq_ok.mp talk_plains
  obtain ⟨s', h3, h4⟩ := Exec.bind_eq_ok.mp h2
  injection h4 with h4
  have h := plains_plain (fun w hw => ?_) (fun w hw => ?_) (.create h1) h3
  · exact ⟨s', h, h4, fun m u evs he => C90_silent_partial h m u evs he⟩
  · rw [List.mem_singleton.mp hw]
    exact ⟨_, Channel.open_reads _ _ _ openReq_says⟩
  · simp only [List.mem_cons, List.not_mem_nil, or_false] at hw
    rcases hw with rfl | rfl | rfl | rfl
    · exact ⟨_, Session.dispatch_reads _ Session.createReq_ok.says⟩
    · exact ⟨_, Session.dispatch_reads _ (Session.activateReq_ok 1).says⟩
    · exact ⟨_, Session.dispatch_reads _ Session.readReq_ok.says⟩
    · exact ⟨_, Session.dispatch_reads _ (Session.closeReq_ok 1).says⟩

/-- The open request of `connects` without its last `n` bytes. -/
def cut (n : Nat) : List UInt8 := Channel.openReq.take (Channel.openReq.length - n)

/-- A client that sends it. -/
def spies (n : Nat) (e : Env) : List (Env × Ev) := connects.take 2 ++
  [(reads (chunk .opn 0x46 0 (cut n)), .net (.linkData 1)), (e, .deliver), (calm, .deliver)]

def finds (a : Mem) (n : Nat) (e : Env) : Exec (List TAct) := do
  let s ← create (fun _ => a) Channel.unset
  let s' ← runs s (spies n e)
  pure (s'.shown 1)

theorem finds_reach {a : Mem} {n : Nat} {e : Env} {l : List TAct} (h : finds a n e = .ok l) :
    ∃ s, Reach (fun _ => a) Channel.unset (spies n e) s ∧ s.shown 1 = l := by
  obtain ⟨s, h1, h2⟩ := Exec.bind_eq_ok.mp h
  obtain ⟨s', h3, h4⟩ := Exec.bind_eq_ok.mp h2
  injection h4 with h4
  have := runs_reach (pre := []) (.create h1) h3
  exact ⟨s', this, h4⟩

/-- The life times in the answers to open requests: a null nonce stands behind them. -/
def lifetimes (l : List TAct) : List (List UInt8) := l.filterMap fun
  | .sent d => if d.take 3 = [0x4F, 0x50, 0x4E] then some ((d.drop (d.length - 8)).take 4) else none
  | _ => none

/-- C90: two histories that differ in the memory that the receive buffers were constructed in, and the bytes of this memory that the client finds. -/
example : ∃ s s', Reach (fun _ => garbage) Channel.unset (spies 4 calm) s ∧ Reach (fun _ _ => 0x41) Channel.unset (spies 4 calm) s' ∧
    lifetimes (s.shown 1) = [[0xCD, 0xCD, 0xCD, 0xCD]] ∧ lifetimes (s'.shown 1) = [[0x41, 0x41, 0x41, 0x41]] := by
  have h1 : (do let l ← finds garbage 4 calm; pure (lifetimes l)) = .ok [[0xCD, 0xCD, 0xCD, 0xCD]] := by decide +kernel
  have h2 : (do let l ← finds (fun _ => 0x41) 4 calm; pure (lifetimes l)) = .ok [[0x41, 0x41, 0x41, 0x41]] := by decide +kernel
  obtain ⟨l, g1, h1⟩ := Exec.bind_eq_ok.mp h1
  obtain ⟨l', g2, h2⟩ := Exec.bind_eq_ok.mp h2
  injection h1 with h1
  injection h2 with h2
  obtain ⟨s, r1, q1⟩ := finds_reach g1
  obtain ⟨s', r2, q2⟩ := finds_reach g2
  exact ⟨s, s', r1, r2, by rw [q1, h1], by rw [q2, h2]⟩

/-- C90: the same with the memory of the stack; the bytes behind the request are zero. -/
example : ∃ s s', Reach (fun _ _ => 0) Channel.unset (spies 16 calm) s ∧
    Reach (fun _ _ => 0) Channel.unset (spies 16 { calm with chan := { Channel.env with mem := fun _ => 0x42 } }) s' ∧
    lifetimes (s.shown 1) = [[0xCD, 0xCD, 0xCD, 0xCD]] ∧ lifetimes (s'.shown 1) = [[0x42, 0x42, 0x42, 0x42]] := by
  have h1 : (do let l ← finds (fun _ => 0) 16 calm; pure (lifetimes l)) = .ok [[0xCD, 0xCD, 0xCD, 0xCD]] := by decide +kernel
  have h2 : (do let l ← finds (fun _ => 0) 16 { calm with chan := { Channel.env with mem := fun _ => 0x42 } }; pure (lifetimes l)) =
    .ok [[0x42, 0x42, 0x42, 0x42]] := by decide +kernel
  obtain ⟨l, g1, h1⟩ := Exec.bind_eq_ok.mp h1
  obtain ⟨l', g2, h2⟩ := Exec.bind_eq_ok.mp h2
  injection h1 with h1
  injection h2 with h2
  obtain ⟨s, r1, q1⟩ := finds_reach g1
  obtain ⟨s', r2, q2⟩ := finds_reach g2
  exact ⟨s, s', r1, r2, by rw [q1, h1], by rw [q2, h2]⟩

theorem cut_says (n : Nat) : cut n ++ Channel.openReq.drop (Channel.openReq.length - n) = Channel.openReq := List.take_append_drop _ _

/-- C90: the hypotheses of `C90_open_violated` are met by a client that has said hello. -/
example : ∃ s s' ch ans tx lifetime, Reach (fun _ => garbage) Channel.unset (connects.take 2) s ∧
    Reach (fun _ => garbage) Channel.unset (spies 4 calm) s' ∧ s'.shown 1 = s.shown 1 ++ [.sent (chunk .opn 0x46 ch ans)] ∧
    Channel.AnswersOpen ans ch 77 tx 9 4 lifetime ∧ leBytes 4 lifetime.toNat = (behind s 1 (cut 4)).take 4 := by
  obtain ⟨s, h1, h2⟩ := Exec.bind_eq_ok.mp greeted_runs
  obtain ⟨s', h3, h4⟩ := Exec.bind_eq_ok.mp h2
  injection h4 with h4
  injection h4 with h4 h5
  have hr := runs_reach (.create h1) h3
  obtain ⟨t, ch, ans, tx, n, g1, g2, g3, g4⟩ := C90_open_violated hr (k := 1) (by rw [h5]; decide) (by decide) (congrArg View.st h4)
    (congrArg View.opened h4) ⟨congrArg (fun v => v.rx.1) h4, congrArg (fun v => v.rx.2) h4⟩ (congrArg View.box h4) (reads_calm (chunk .opn 0x46 0 (cut 4))) calm_calm
    calm_calm (p := cut 4) (by rw [cut_says]; exact openReq_says) (by decide +kernel) (by decide +kernel) rfl
  exact ⟨s', t, ch, ans, tx, n, hr, g1, g2, g3, g4⟩

theorem greeted_zero : (do
    let s ← create (fun _ _ => 0) Channel.unset
    let s' ← runs s (connects.take 2)
    pure (view s', s'.chans.ids.len, (behind s' 1 (cut 16)).drop 8)) =
      .ok (⟨.connected, true, none, (0, 0), none, none, false, none, [], [], []⟩, 32, [0, 0, 0, 0]) := by
  decide +kernel

/-- C90: so are those of `C90_stack_violated`. -/
example : ∃ s s' ch ans tx lifetime, Reach (fun _ _ => 0) Channel.unset (connects.take 2) s ∧
    Reach (fun _ _ => 0) Channel.unset (spies 16 calm) s' ∧ s'.shown 1 = s.shown 1 ++ [.sent (chunk .opn 0x46 ch ans)] ∧
    Channel.AnswersOpen ans ch 77 tx 9 4 lifetime ∧ leBytes 4 lifetime.toNat = memRead garbage ((cut 16).length + 12) 4 := by
  obtain ⟨s, h1, h2⟩ := Exec.bind_eq_ok.mp greeted_zero
  obtain ⟨s', h3, h4⟩ := Exec.bind_eq_ok.mp h2
  injection h4 with h4
  injection h4 with h4 h5
  injection h5 with h5 h6
  have hr := runs_reach (.create h1) h3
  obtain ⟨t, ch, ans, tx, n, g1, g2, g3, g4⟩ := C90_stack_violated hr (k := 1) (by rw [h5]; decide) (by decide) (congrArg View.st h4)
    (congrArg View.opened h4) ⟨congrArg (fun v => v.rx.1) h4, congrArg (fun v => v.rx.2) h4⟩ (congrArg View.box h4) (reads_calm (chunk .opn 0x46 0 (cut 16))) calm_calm
    calm_calm (p := cut 16) (by rw [cut_says]; exact openReq_says) (by decide +kernel) rfl (.inr h6) (by decide +kernel) rfl
  exact ⟨s', t, ch, ans, tx, n, hr, g1, g2, g3, g4⟩

/-- The client of `connects` leaves out the end of its create request. -/
def cutCreate : List UInt8 := (bytesOf Session.createReq).take ((bytesOf Session.createReq).length - 12)

theorem connects_free : (do
    let s ← create (fun _ => garbage) Channel.unset
    let s' ← runs s connects
    pure (view s', s'.sess.ids.len, longUps s'.srv, behind s' 1 (request ⟨1, 77, 51, false⟩ 10 cutCreate))) =
      .ok (⟨.connected, true, some 1, (0, 0), some ⟨1, 77, 51, false⟩, none, false, none, [], [], []⟩, 32, true, [255, 255, 255, 0, 0, 0, 0, 0, 0, 0, 0, 0]) := by
  decide +kernel

/-- C90: the client of `connects` finds 12 bytes of the message before, which was longer. -/
example : ∃ (s s' : Stack) (tx : UInt32) (rsp : UaCreateSessionRsp), Reach (fun _ => garbage) Channel.unset connects s ∧
    s'.shown 1 = s.shown 1 ++ [.sent (chunk .msg 0x46 1 (answer ⟨1, 77, 51, false⟩ tx 10 (wire (Cont.make 464 rsp))))] ∧
    wire rsp.revisedSessionTimeout ++ wire rsp.maxRequestMessageSize = [255, 255, 255, 0, 0, 0, 0, 0, 0, 0, 0, 0] := by
  obtain ⟨s, h1, h2⟩ := Exec.bind_eq_ok.mp connects_free
  obtain ⟨s', h3, h4⟩ := Exec.bind_eq_ok.mp h2
  injection h4 with h4
  injection h4 with h4 h5
  injection h5 with h5 h6
  injection h6 with h6 h7
  have hr : Reach (fun _ => garbage) Channel.unset connects s' := runs_reach (.create h1) h3
  obtain ⟨t, tx, rsp, g1, g2, g3, g4⟩ := C90_create_violated hr (k := 1) (ch := 1) (w := ⟨1, 77, 51, false⟩) (by rw [h5]; decide)
    ⟨by decide, congrArg View.st h4, congrArg View.opened h4, congrArg View.assoc h4, by decide,
      knows_of hr (longUps_iff h6) (by decide) (congrArg View.window h4), rfl, congrArg View.box h4⟩
    ⟨congrArg (fun v => v.rx.1) h4, congrArg (fun v => v.rx.2) h4⟩ (reads_calm _) calm_calm calm_calm calm_calm calm_calm (flag := 0x46) (id := 10)
    (p := cutCreate) (v := (bytesOf Session.createReq).drop ((bytesOf Session.createReq).length - 12))
    (by rw [cutCreate, List.take_append_drop]; exact Session.createReq_ok.says) (by decide +kernel) (by decide +kernel) rfl
  exact ⟨s', t, tx, rsp, hr, g2, by rw [g4, h7]⟩

end Stack

end Uscada.Ua
