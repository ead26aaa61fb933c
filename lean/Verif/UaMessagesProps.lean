import Verif.UaMessagesLaws
import Verif.UaCodecProps
/-!
# Properties of the OPC UA messages (C28)

`RoundTrips` (UaCodecProps.lean) says that the encoder appends exactly the given bytes and that the
decoder gives the value back from these bytes, wherever they stand, and stops right behind them.
`Wire.ok` asks that strings and arrays are shorter than 2³¹, that texts of localized texts and the
body of an extension object are not present-but-empty, that variants hold one of the values of C27,
and that the type identifier of a container has no optional fields.
-/

namespace Uscada.Ua

open Wire (wire)

/-! ## Transport -/

theorem C28_messageHeader (v : MessageHeader) : RoundTrips v
    ([v.messageType.1, v.messageType.2.1, v.messageType.2.2, v.isFinal] ++
      leBytes 4 v.messageSize.toNat) := by
  have := roundTrips v ⟨⟨trivial, trivial, trivial⟩, trivial, trivial⟩
  have e : wire v = [v.messageType.1, v.messageType.2.1, v.messageType.2.2, v.isFinal] ++
      leBytes 4 v.messageSize.toNat := by
    show wire v.messageType ++ (wire v.isFinal ++ leBytes 4 v.messageSize.toNat) = _
    have h3 : wire v.messageType = [v.messageType.1, v.messageType.2.1, v.messageType.2.2] := by
      show wire v.messageType.1 ++ (wire v.messageType.2.1 ++ wire v.messageType.2.2) = _
      rw [wire_u8, wire_u8, wire_u8]
      rfl
    rw [h3, wire_u8]
    rfl
  rw [e] at this
  exact this

theorem C28_hello (v : HelloMessage) (h : v.endpointUrl.bytes.length < 2 ^ 31) : RoundTrips v
    (leBytes 4 v.protocolVersion.toNat ++ (leBytes 4 v.receiveBufferSize.toNat ++
      (leBytes 4 v.sendBufferSize.toNat ++ (leBytes 4 v.maxMessageSize.toNat ++
      (leBytes 4 v.maxChunkCount.toNat ++ lenBytes v.endpointUrl.bytes))))) :=
  roundTrips v ⟨trivial, trivial, trivial, trivial, trivial, h⟩

theorem C28_acknowledge (v : AcknowledgeMessage) : RoundTrips v
    (leBytes 4 v.protocolVersion.toNat ++ (leBytes 4 v.receiveBufferSize.toNat ++
      (leBytes 4 v.sendBufferSize.toNat ++ (leBytes 4 v.maxMessageSize.toNat ++
      leBytes 4 v.maxChunkCount.toNat)))) :=
  roundTrips v ⟨trivial, trivial, trivial, trivial, trivial⟩

theorem C28_error (v : ErrorMessage) (h : v.reason.bytes.length < 2 ^ 31) : RoundTrips v
    (leBytes 4 v.error.toNat ++ lenBytes v.reason.bytes) :=
  roundTrips v ⟨trivial, h⟩

theorem C28_reverseHello (v : ReverseHelloMessage) (h1 : v.serverUri.bytes.length < 2 ^ 31)
    (h2 : v.endpointUrl.bytes.length < 2 ^ 31) : RoundTrips v
    (lenBytes v.serverUri.bytes ++ lenBytes v.endpointUrl.bytes) :=
  roundTrips v ⟨h1, h2⟩

/-! ## Secure channel -/

theorem C28_uaMessageHeader (v : UaMessageHeader) : RoundTrips v
    ([v.messageType.1, v.messageType.2.1, v.messageType.2.2, v.isFinal] ++
      (leBytes 4 v.messageSize.toNat ++ leBytes 4 v.secureChannelId.toNat)) := by
  have := roundTrips v ⟨⟨trivial, trivial, trivial⟩, trivial, trivial, trivial⟩
  have e : wire v = [v.messageType.1, v.messageType.2.1, v.messageType.2.2, v.isFinal] ++
      (leBytes 4 v.messageSize.toNat ++ leBytes 4 v.secureChannelId.toNat) := by
    show wire v.messageType ++ (wire v.isFinal ++ (leBytes 4 v.messageSize.toNat ++
      leBytes 4 v.secureChannelId.toNat)) = _
    have h3 : wire v.messageType = [v.messageType.1, v.messageType.2.1, v.messageType.2.2] := by
      show wire v.messageType.1 ++ (wire v.messageType.2.1 ++ wire v.messageType.2.2) = _
      rw [wire_u8, wire_u8, wire_u8]
      rfl
    rw [h3, wire_u8]
    rfl
  rw [e] at this
  exact this

theorem C28_securityHeader (v : UaSecurityHeader) (h1 : v.securityPolicyUri.bytes.length < 2 ^ 31)
    (h2 : v.senderCertificate.bytes.length < 2 ^ 31)
    (h3 : v.receiverCertificateThumbprint.bytes.length < 2 ^ 31) : RoundTrips v
    (lenBytes v.securityPolicyUri.bytes ++ (lenBytes v.senderCertificate.bytes ++
      lenBytes v.receiverCertificateThumbprint.bytes)) :=
  roundTrips v ⟨h1, h2, h3⟩

theorem C28_tokenHeader (v : UaSecurityTokenHeader) : RoundTrips v (leBytes 4 v.tokenId.toNat) :=
  roundTrips v trivial

theorem C28_sequenceHeader (v : UaSequenceHeader) : RoundTrips v
    (leBytes 4 v.sequenceNumber.toNat ++ leBytes 4 v.requestId.toNat) :=
  roundTrips v ⟨trivial, trivial⟩

theorem C28_channelToken (v : UaChannelSecurityToken) : RoundTrips v
    (leBytes 4 v.secureChannelId.toNat ++ (leBytes 4 v.tokenId.toNat ++
      (leBytes 8 v.createdAt.val.toUInt64.toNat ++ leBytes 4 v.revisedLifetime.toNat))) :=
  roundTrips v ⟨trivial, trivial, trivial, trivial⟩

theorem C28_requestHeader_partial (v : UaRequestHeader) (h : Wire.ok v) :
    RoundTrips v (wire v) := roundTrips v h
theorem C28_responseHeader_partial (v : UaResponseHeader) (h : Wire.ok v) :
    RoundTrips v (wire v) := roundTrips v h

/-! ## Messages in their containers

Each theorem is about the container as its constructor builds it: the numeric type identifier of the
message, then the message.  Missing: extension objects with a present but empty body and the other
values excluded by `Wire.ok`, see C26 and C27 for what happens to them. -/

/-- The container of a message: four-byte node id (type, namespace 0, identifier), then the
message. -/
theorem cont_roundTrips {α : Type} [Ua α] [Wire α] [Lawful α] (id : UInt32) (m : α)
    (hid : 256 ≤ id.toNat) (hid2 : id.toNat < 65536) (h : Wire.ok m) :
    RoundTrips (Cont.make id m) (1 :: 0 :: (leBytes 2 id.toNat ++ wire m)) := by
  have hk : Wire.ok (Cont.make id m) := ⟨⟨trivial, rfl, rfl⟩, h⟩
  have e : wire (Cont.make id m) = 1 :: 0 :: (leBytes 2 id.toNat ++ wire m) := by
    show wire (⟨⟨0, .numeric id⟩, none, none⟩ : ExpandedNodeId) ++ wire m = _
    rw [ExpandedNodeId.wire_plain _ rfl rfl, ← nodeIdBytes_wire]
    have : nodeIdBytes ⟨0, .numeric id⟩ = 1 :: 0 :: leBytes 2 id.toNat := by
      simp only [nodeIdBytes]
      rw [if_neg (by omega), if_pos (by exact ⟨by decide, hid2⟩)]
      rfl
    rw [this]
    rfl
  rw [← e]
  exact roundTrips _ hk

theorem C28_openReq_partial (m : UaOpenSecureChannelReq) (h : Wire.ok m) :
    RoundTrips (Cont.make 446 m) (1 :: 0 :: 0xbe :: 0x01 :: wire m) :=
  cont_roundTrips 446 m (by decide) (by decide) h
theorem C28_openRsp_partial (m : UaOpenSecureChannelRsp) (h : Wire.ok m) :
    RoundTrips (Cont.make 449 m) (1 :: 0 :: 0xc1 :: 0x01 :: wire m) :=
  cont_roundTrips 449 m (by decide) (by decide) h
theorem C28_closeReq_partial (m : UaCloseSecureChannelReq) (h : Wire.ok m) :
    RoundTrips (Cont.make 452 m) (1 :: 0 :: 0xc4 :: 0x01 :: wire m) :=
  cont_roundTrips 452 m (by decide) (by decide) h
theorem C28_closeRsp_partial (m : UaCloseSecureChannelRsp) (h : Wire.ok m) :
    RoundTrips (Cont.make 455 m) (1 :: 0 :: 0xc7 :: 0x01 :: wire m) :=
  cont_roundTrips 455 m (by decide) (by decide) h
theorem C28_getEndpointsReq_partial (m : UaGetEndpointsReq) (h : Wire.ok m) :
    RoundTrips (Cont.make 428 m) (1 :: 0 :: 0xac :: 0x01 :: wire m) :=
  cont_roundTrips 428 m (by decide) (by decide) h
theorem C28_getEndpointsRsp_partial (m : UaGetEndpointsRsp) (h : Wire.ok m) :
    RoundTrips (Cont.make 431 m) (1 :: 0 :: 0xaf :: 0x01 :: wire m) :=
  cont_roundTrips 431 m (by decide) (by decide) h
theorem C28_createSessionReq_partial (m : UaCreateSessionReq) (h : Wire.ok m) :
    RoundTrips (Cont.make 461 m) (1 :: 0 :: 0xcd :: 0x01 :: wire m) :=
  cont_roundTrips 461 m (by decide) (by decide) h
theorem C28_createSessionRsp_partial (m : UaCreateSessionRsp) (h : Wire.ok m) :
    RoundTrips (Cont.make 464 m) (1 :: 0 :: 0xd0 :: 0x01 :: wire m) :=
  cont_roundTrips 464 m (by decide) (by decide) h
theorem C28_activateSessionReq_partial (m : UaActivateSessionReq) (h : Wire.ok m) :
    RoundTrips (Cont.make 467 m) (1 :: 0 :: 0xd3 :: 0x01 :: wire m) :=
  cont_roundTrips 467 m (by decide) (by decide) h
theorem C28_activateSessionRsp_partial (m : UaActivateSessionRsp) (h : Wire.ok m) :
    RoundTrips (Cont.make 470 m) (1 :: 0 :: 0xd6 :: 0x01 :: wire m) :=
  cont_roundTrips 470 m (by decide) (by decide) h
theorem C28_closeSessionReq_partial (m : UaCloseSessionReq) (h : Wire.ok m) :
    RoundTrips (Cont.make 473 m) (1 :: 0 :: 0xd9 :: 0x01 :: wire m) :=
  cont_roundTrips 473 m (by decide) (by decide) h
theorem C28_closeSessionRsp_partial (m : UaCloseSessionRsp) (h : Wire.ok m) :
    RoundTrips (Cont.make 476 m) (1 :: 0 :: 0xdc :: 0x01 :: wire m) :=
  cont_roundTrips 476 m (by decide) (by decide) h
theorem C28_readReq_partial (m : UaReadReq) (h : Wire.ok m) :
    RoundTrips (Cont.make 631 m) (1 :: 0 :: 0x77 :: 0x02 :: wire m) :=
  cont_roundTrips 631 m (by decide) (by decide) h
theorem C28_readRsp_partial (m : UaReadRsp) (h : Wire.ok m) :
    RoundTrips (Cont.make 634 m) (1 :: 0 :: 0x7a :: 0x02 :: wire m) :=
  cont_roundTrips 634 m (by decide) (by decide) h

/-- Whole frames are tuples: header, security header, sequence header, container. -/
theorem C28_open_frame_partial (hdr : UaMessageHeader) (sec : UaSecurityHeader)
    (seq : UaSequenceHeader) (m : UaOpenSecureChannelReq) (hs : Wire.ok sec) (hm : Wire.ok m) :
    RoundTrips (hdr, sec, seq, Cont.make 446 m)
      (wire hdr ++ (wire sec ++ (wire seq ++ wire (Cont.make 446 m)))) :=
  roundTrips (hdr, sec, seq, Cont.make 446 m)
    ⟨⟨⟨trivial, trivial, trivial⟩, trivial, trivial, trivial⟩, hs, ⟨trivial, trivial⟩,
      ⟨⟨trivial, rfl, rfl⟩, hm⟩⟩

/-- A message too long for the packet is written outside of it. -/
theorem C28_too_long_violated {α : Type} [Ua α] [Wire α] [Lawful α] (v : α) (h : Wire.ok v) :
    Overflows v (wire v) := overflows_of (Lawful.writes v h)

/-- A request whose additional header has an empty body is not received as it was sent. -/
theorem C28_empty_body_violated :
    reDecoded 0 (UaRequestHeader.mk ⟨0, .numeric 1⟩ ⟨0⟩ 1 0 ⟨[]⟩ 0 ⟨⟨0, .numeric 0⟩, some ⟨[]⟩⟩) =
      some (⟨⟨0, .numeric 1⟩, ⟨0⟩, 1, 0, ⟨[]⟩, 0, ⟨⟨0, .numeric 0⟩, none⟩⟩, 29) := by
  decide +kernel

/-- An array sent as null (length -1, as the standard allows) makes the decoder throw. -/
theorem C28_null_array_violated (old : List Str) (b : Buf) (h : b.tail + 4 ≤ 4096)
    (hb : memRead b.packet b.tail 4 = [0xff, 0xff, 0xff, 0xff]) : dec old b = .throws := by
  have hr := Lawful.reads (-1 : Int32) trivial b (by rw [wire_m1]; exact h) (by rw [wire_m1]; exact hb)
  show (do
      let arrayLength ← dec (0 : Int32)
      if arrayLength < 0 then Codec.throws
      else decElems (resizeTo old arrayLength.toInt.toNat) : Codec (List Str)) b = _
  have hr : dec (0 : Int32) b = .ok (-1, b.skip 4) := hr
  rw [Codec.bind_run, hr]
  rfl

/-- The decoder of a container takes the container of any other message with the same layout. -/
theorem C28_type_not_checked_violated {α : Type} [Ua α] [Wire α] [Lawful α] (id id' : UInt32) (m : α)
    (h : Wire.ok m) (b : Buf) (hl : b.tail + (wire (Cont.make id m)).length ≤ 4096)
    (hb : memRead b.packet b.tail (wire (Cont.make id m)).length = wire (Cont.make id m)) :
    ∃ b', dec (Ua.init : Cont α id') b = .ok (⟨⟨⟨0, .numeric id⟩, none, none⟩, m⟩, b') := by
  have hk : Wire.ok (⟨⟨⟨0, .numeric id⟩, none, none⟩, m⟩ : Cont α id') := ⟨⟨trivial, rfl, rfl⟩, h⟩
  exact ⟨_, Lawful.reads _ hk b hl hb⟩

/-- Message headers use the received bytes only, if decoding ends within them (C29). -/
theorem C29_messageHeader_partial (old v : UaMessageHeader) (b b' c : Buf)
    (h : dec old b = .ok (v, b')) (hin : b'.tail ≤ b.head) (hs : SameReceived b c) :
    dec old c = .ok (v, { c with tail := b'.tail }) := (C29_within_partial old v b b' c h hin hs).2

/-- So do whole messages, for instance read requests (C29). -/
theorem C29_readReq_partial (old v : Cont UaReadReq 631) (b b' c : Buf)
    (h : dec old b = .ok (v, b')) (hin : b'.tail ≤ b.head) (hs : SameReceived b c) :
    dec old c = .ok (v, { c with tail := b'.tail }) := (C29_within_partial old v b b' c h hin hs).2

/-! ## Examples -/

example : encoded (HelloMessage.mk 0 65536 65535 0 0 ⟨[0x61, 0x62]⟩) =
    some [0, 0, 0, 0, 0, 0, 1, 0, 0xff, 0xff, 0, 0, 0, 0, 0, 0, 0, 0, 0, 0, 2, 0, 0, 0, 0x61, 0x62] := by
  decide +kernel
example : reDecoded 8 (HelloMessage.mk 0 65536 65535 0 0 ⟨[0x61, 0x62]⟩) =
    some (HelloMessage.mk 0 65536 65535 0 0 ⟨[0x61, 0x62]⟩, 34) := by decide +kernel

/-- A read request of one node. -/
def exampleReadReq : UaReadReq :=
  ⟨⟨⟨1, .numeric 77⟩, ⟨5⟩, 9, 0, ⟨[]⟩, 100, ⟨⟨0, .numeric 0⟩, none⟩⟩, ⟨0⟩, 2,
    [⟨⟨2, .string ⟨[0x78]⟩⟩, 13, ⟨[]⟩, ⟨0, ⟨[]⟩⟩⟩]⟩

theorem exampleReadReq_ok : Wire.ok exampleReadReq := by
  refine ⟨⟨trivial, trivial, trivial, trivial, ?_, trivial, trivial, trivial, ?_⟩, trivial, trivial,
    ?_, ?_⟩
  · show 0 < 2 ^ 31; decide
  · intro h; cases h
  · show 1 < 2 ^ 31; decide
  · intro x hx
    simp only [exampleReadReq, List.mem_singleton] at hx
    subst hx
    refine ⟨?_, trivial, ?_, ?_⟩
    · show 1 < 2 ^ 31; decide
    · show 0 < 2 ^ 31; decide
    · show 0 < 2 ^ 31; decide

example : wire exampleReadReq =
    [1, 1, 77, 0, 5, 0, 0, 0, 0, 0, 0, 0, 9, 0, 0, 0, 0, 0, 0, 0, 0xff, 0xff, 0xff, 0xff, 100, 0, 0, 0,
      0, 0, 0] ++
    [0, 0, 0, 0, 0, 0, 0, 0, 2, 0, 0, 0, 1, 0, 0, 0] ++
    [3, 2, 0, 1, 0, 0, 0, 0x78, 13, 0, 0, 0, 0xff, 0xff, 0xff, 0xff, 0, 0, 0xff, 0xff, 0xff, 0xff] := by
  decide +kernel
/-- The hypotheses of the theorem are met: this request survives being sent. -/
example : ∃ b' b'', enc (Cont.make 631 exampleReadReq) buf0 = .ok ((), b') ∧
    dec (Ua.init : Cont UaReadReq 631) { b' with tail := 0 } = .ok (Cont.make 631 exampleReadReq, b'') ∧
    b''.tail = b''.head :=
  (C28_readReq_partial exampleReadReq exampleReadReq_ok).compose buf0 (by decide +kernel)

/-- A read answer with one value. -/
def exampleReadRsp : UaReadRsp :=
  ⟨⟨⟨5⟩, 9, ⟨0⟩, .leaf DiagFields.init, [⟨[0x61]⟩], ⟨⟨0, .numeric 0⟩, none⟩⟩,
    [⟨⟨some (.scalar (.double ⟨77⟩)), none⟩, some ⟨0⟩, none, none, none, none⟩],
    [.nest DiagFields.init (.leaf ⟨some 4, none, none, none, none, none⟩)]⟩

theorem exampleReadRsp_ok : Wire.ok exampleReadRsp := by
  refine ⟨⟨trivial, trivial, trivial, trivial, ⟨?_, ?_⟩, trivial, trivial, ?_⟩, ⟨?_, ?_⟩, ?_, ?_⟩
  · show 1 < 2 ^ 31; decide
  · intro x hx
    simp only [exampleReadRsp, List.mem_singleton] at hx
    subst hx
    show 1 < 2 ^ 31
    decide
  · intro h; cases h
  · show 1 < 2 ^ 31; decide
  · intro x hx
    simp only [exampleReadRsp, List.mem_singleton] at hx
    subst hx
    exact ⟨rfl, trivial⟩
  · show 1 < 2 ^ 31; decide
  · intro x hx
    simp only [exampleReadRsp, List.mem_singleton] at hx
    subst hx
    exact ⟨trivial, trivial⟩

example : wire exampleReadRsp =
    [5, 0, 0, 0, 0, 0, 0, 0, 9, 0, 0, 0, 0, 0, 0, 0, 0, 1, 0, 0, 0, 1, 0, 0, 0, 0x61, 0, 0, 0] ++
    [1, 0, 0, 0, 3, 11, 77, 0, 0, 0, 0, 0, 0, 0, 0, 0, 0, 0] ++
    [1, 0, 0, 0, 0x40, 1, 4, 0, 0, 0] := by
  decide +kernel
example : ∃ b' b'', enc (Cont.make 634 exampleReadRsp) buf0 = .ok ((), b') ∧
    dec (Ua.init : Cont UaReadRsp 634) { b' with tail := 0 } = .ok (Cont.make 634 exampleReadRsp, b'') ∧
    b''.tail = b''.head :=
  (C28_readRsp_partial exampleReadRsp exampleReadRsp_ok).compose buf0 (by decide +kernel)

end Uscada.Ua
