import Verif.UaMessagesProps

/-!
# C22, C26, C27, C28: the theorems at work

One value for each of the round-trip theorems of `UaCodecProps` and `UaMessagesProps` that has no example of its own there: the value meets
the hypotheses, and is received as it was sent.
-/

namespace Uscada.Ua

/-- Sent through a packet and received. -/
def ComesBack {α : Type} [Ua α] (v : α) : Prop := ∃ b' b'', enc v buf0 = .ok ((), b') ∧ dec (Ua.init : α) { b' with tail := 0 } = .ok (v, b'') ∧
  b''.tail = b''.head

/-- The parts of `Wire.ok` one after the other. -/
macro "parts" : tactic => `(tactic| repeat' (first
  | exact trivial
  | exact rfl
  | (show _ < 2 ^ 31; decide)
  | (intro h; cases h; done)
  | (refine ⟨?_, ?_⟩)
  | (refine List.forall_mem_cons.mpr ⟨?_, ?_⟩)
  | exact fun _ h => nomatch h))

def someRequestHdr : UaRequestHeader := ⟨⟨1, .numeric 77⟩, ⟨5⟩, 9, 3, ⟨[0x61]⟩, 100, ⟨⟨0, .numeric 0⟩, none⟩⟩

def someResponseHdr : UaResponseHeader := ⟨⟨5⟩, 9, ⟨7⟩, .leaf DiagFields.init, [⟨[0x61]⟩, ⟨[]⟩], ⟨⟨0, .numeric 0⟩, none⟩⟩

theorem someRequestHdr_ok : Wire.ok someRequestHdr := by unfold someRequestHdr; parts

theorem someResponseHdr_ok : Wire.ok someResponseHdr := by unfold someResponseHdr; parts

example : ComesBack someRequestHdr := (C28_requestHeader_partial _ someRequestHdr_ok).compose buf0 (by decide +kernel)
example : ComesBack someResponseHdr := (C28_responseHeader_partial _ someResponseHdr_ok).compose buf0 (by decide +kernel)

def someApplication : UaApplicationDescription := ⟨⟨[0x75]⟩, ⟨[]⟩, ⟨none, some ⟨[0x6E]⟩⟩, 1, ⟨[]⟩, ⟨[]⟩, [⟨[0x68]⟩]⟩

def someEndpoint : UaEndpointDescription := ⟨⟨[0x6F, 0x70]⟩, someApplication, ⟨[1, 2]⟩, 1, ⟨[0x4E]⟩, [⟨⟨[0x61]⟩, 0, ⟨[]⟩, ⟨[]⟩, ⟨[0x62]⟩⟩], ⟨[]⟩, 7⟩

theorem someApplication_ok : Wire.ok someApplication := by unfold someApplication; parts

theorem someEndpoint_ok : Wire.ok someEndpoint := by unfold someEndpoint someApplication; parts

def someOpenReq : UaOpenSecureChannelReq := ⟨someRequestHdr, 0, 1, 1, ⟨[5]⟩, 3600000⟩
def someOpenRsp : UaOpenSecureChannelRsp := ⟨someResponseHdr, 0, ⟨1, 77, ⟨8⟩, 3600000⟩, ⟨[6]⟩⟩
def someEndpointsReq : UaGetEndpointsReq := ⟨someRequestHdr, ⟨[0x6F]⟩, [⟨[0x65, 0x6E]⟩], []⟩
def someEndpointsRsp : UaGetEndpointsRsp := ⟨someResponseHdr, [someEndpoint, someEndpoint]⟩
def someCreateReq : UaCreateSessionReq := ⟨someRequestHdr, someApplication, ⟨[0x73]⟩, ⟨[0x6F]⟩, ⟨[0x6E]⟩, ⟨[1]⟩, ⟨[2]⟩, ⟨77⟩, 65536⟩
def someCreateRsp : UaCreateSessionRsp := ⟨someResponseHdr, ⟨0, .numeric 1⟩, ⟨0, .numeric 2⟩, ⟨77⟩, ⟨[1]⟩, ⟨[2]⟩, [someEndpoint], [9], ⟨⟨[0x61]⟩, ⟨[3]⟩⟩, 65536⟩
def someActivateReq : UaActivateSessionReq := ⟨someRequestHdr, ⟨⟨[0x61]⟩, ⟨[3]⟩⟩, [4, 5], [⟨[0x65, 0x6E]⟩], ⟨⟨0, .numeric 321⟩, some ⟨[1]⟩⟩, ⟨⟨[]⟩, ⟨[]⟩⟩⟩
def someActivateRsp : UaActivateSessionRsp := ⟨someResponseHdr, ⟨[1]⟩, [⟨0⟩, ⟨7⟩], [.leaf ⟨some 4, none, none, none, none, none⟩]⟩
def someCloseReq : UaCloseSessionReq := ⟨someRequestHdr, true⟩

theorem someOpenReq_ok : Wire.ok someOpenReq := by unfold someOpenReq someRequestHdr; parts
theorem someOpenRsp_ok : Wire.ok someOpenRsp := by unfold someOpenRsp someResponseHdr; parts
theorem someEndpointsReq_ok : Wire.ok someEndpointsReq := by unfold someEndpointsReq someRequestHdr; parts
theorem someEndpointsRsp_ok : Wire.ok someEndpointsRsp := by unfold someEndpointsRsp someResponseHdr someEndpoint someApplication; parts
theorem someCreateReq_ok : Wire.ok someCreateReq := by unfold someCreateReq someRequestHdr someApplication; parts
theorem someCreateRsp_ok : Wire.ok someCreateRsp := by unfold someCreateRsp someResponseHdr someEndpoint someApplication; parts
theorem someActivateReq_ok : Wire.ok someActivateReq := by unfold someActivateReq someRequestHdr; parts
theorem someActivateRsp_ok : Wire.ok someActivateRsp := by unfold someActivateRsp someResponseHdr; parts
theorem someCloseReq_ok : Wire.ok someCloseReq := by unfold someCloseReq someRequestHdr; parts

example : ComesBack (Cont.make 446 someOpenReq) := (C28_openReq_partial _ someOpenReq_ok).compose buf0 (by decide +kernel)
example : ComesBack (Cont.make 449 someOpenRsp) := (C28_openRsp_partial _ someOpenRsp_ok).compose buf0 (by decide +kernel)
example : ComesBack (Cont.make 452 (⟨someRequestHdr⟩ : UaCloseSecureChannelReq)) := (C28_closeReq_partial _ someRequestHdr_ok).compose buf0 (by decide +kernel)
example : ComesBack (Cont.make 455 (⟨someResponseHdr⟩ : UaCloseSecureChannelRsp)) := (C28_closeRsp_partial _ someResponseHdr_ok).compose buf0 (by decide +kernel)
example : ComesBack (Cont.make 428 someEndpointsReq) := (C28_getEndpointsReq_partial _ someEndpointsReq_ok).compose buf0 (by decide +kernel)
example : ComesBack (Cont.make 431 someEndpointsRsp) := (C28_getEndpointsRsp_partial _ someEndpointsRsp_ok).compose buf0 (by decide +kernel)
example : ComesBack (Cont.make 461 someCreateReq) := (C28_createSessionReq_partial _ someCreateReq_ok).compose buf0 (by decide +kernel)
example : ComesBack (Cont.make 464 someCreateRsp) := (C28_createSessionRsp_partial _ someCreateRsp_ok).compose buf0 (by decide +kernel)
example : ComesBack (Cont.make 467 someActivateReq) := (C28_activateSessionReq_partial _ someActivateReq_ok).compose buf0 (by decide +kernel)
example : ComesBack (Cont.make 470 someActivateRsp) := (C28_activateSessionRsp_partial _ someActivateRsp_ok).compose buf0 (by decide +kernel)
example : ComesBack (Cont.make 473 someCloseReq) := (C28_closeSessionReq_partial _ someCloseReq_ok).compose buf0 (by decide +kernel)
example : ComesBack (Cont.make 476 (⟨someResponseHdr⟩ : UaCloseSessionRsp)) := (C28_closeSessionRsp_partial _ someResponseHdr_ok).compose buf0 (by decide +kernel)

/-! ## Headers and handshake -/

example : ComesBack (⟨(0x48, 0x45, 0x4C), 0x46, 32⟩ : MessageHeader) := (C28_messageHeader _).compose buf0 (by decide +kernel)
example : ComesBack (⟨0, 65536, 65535, 0, 0, ⟨[0x61, 0x62]⟩⟩ : HelloMessage) := (C28_hello _ (by decide)).compose buf0 (by decide +kernel)
example : ComesBack (⟨0, 65536, 65535, 4096, 1⟩ : AcknowledgeMessage) := (C28_acknowledge _).compose buf0 (by decide +kernel)
example : ComesBack (⟨0x80010000, ⟨[0x6E, 0x6F]⟩⟩ : ErrorMessage) := (C28_error _ (by decide)).compose buf0 (by decide +kernel)
example : ComesBack (⟨⟨[0x75]⟩, ⟨[0x6F, 0x70]⟩⟩ : ReverseHelloMessage) := (C28_reverseHello _ (by decide) (by decide)).compose buf0 (by decide +kernel)
example : ComesBack (⟨(0x4D, 0x53, 0x47), 0x46, 40, 7⟩ : UaMessageHeader) := (C28_uaMessageHeader _).compose buf0 (by decide +kernel)
example : ComesBack (⟨⟨[0x68]⟩, ⟨[1, 2]⟩, ⟨[]⟩⟩ : UaSecurityHeader) := (C28_securityHeader _ (by decide) (by decide) (by decide)).compose buf0 (by decide +kernel)
example : ComesBack (⟨77⟩ : UaSecurityTokenHeader) := (C28_tokenHeader _).compose buf0 (by decide +kernel)
example : ComesBack (⟨51, 9⟩ : UaSequenceHeader) := (C28_sequenceHeader _).compose buf0 (by decide +kernel)
example : ComesBack (⟨1, 77, ⟨-5⟩, 3600000⟩ : UaChannelSecurityToken) := (C28_channelToken _).compose buf0 (by decide +kernel)
example : ComesBack ((⟨(0x4F, 0x50, 0x4E), 0x46, 90, 0⟩ : UaMessageHeader), (⟨⟨[0x68]⟩, ⟨[1, 2]⟩, ⟨[]⟩⟩ : UaSecurityHeader), (⟨51, 9⟩ : UaSequenceHeader),
    Cont.make 446 someOpenReq) := (C28_open_frame_partial _ _ _ _ (by parts) someOpenReq_ok).compose buf0 (by decide +kernel)

/-! ## Scalars, names and texts -/

example : ComesBack true := (C22_boolean _).compose buf0 (by decide +kernel)
example : ComesBack (-3 : Int8) := (C22_sbyte _).compose buf0 (by decide +kernel)
example : ComesBack (200 : UInt8) := (C22_byte _).compose buf0 (by decide +kernel)
example : ComesBack (-300 : Int16) := (C22_int16 _).compose buf0 (by decide +kernel)
example : ComesBack (60000 : UInt16) := (C22_uint16 _).compose buf0 (by decide +kernel)
example : ComesBack (-70000 : Int32) := (C22_int32 _).compose buf0 (by decide +kernel)
example : ComesBack (4000000000 : UInt32) := (C22_uint32 _).compose buf0 (by decide +kernel)
example : ComesBack (-5000000000 : Int64) := (C22_int64 _).compose buf0 (by decide +kernel)
example : ComesBack (⟨2, ⟨[0x61]⟩⟩ : QualifiedName) := (C26_qualifiedName _ (by decide)).compose buf0 (by decide +kernel)
example : ComesBack (⟨some ⟨[0x65]⟩, some ⟨[0x61]⟩⟩ : LocalizedText) :=
  (C26_localizedText_partial _ (fun s h => by cases h; decide) (fun s h => by cases h; decide)).compose buf0 (by decide +kernel)
example : ComesBack (⟨some (.scalar (.int32 (-7))), none⟩ : Variant) := (C27_scalar_partial (.int32 (-7)) trivial).compose buf0 (by decide +kernel)

end Uscada.Ua
