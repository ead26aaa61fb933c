import Verif.UaMessagesWire
/-!
# All encodings that the OPC UA standard allows

`wire` is one way to write a value, the one this program uses.  The standard (part 6, binary encoding) leaves the sender a choice: an empty
string may have length 0 or, as a null string, length -1; a numeric node id may have any form it fits; any byte but 0 is true; an empty
array may have length 0 or, as a null array, length -1; an extension object may have a body in XML.  `std n v w` says that the bytes `w`
are an encoding of `v`; with `n = false` there are no null arrays.  Nothing here refers to the encoder or decoder of the model.
-/

namespace Uscada.Ua

class Std (α : Type) where
  std : Bool → α → List UInt8 → Prop

export Std (std)

/-- One after the other. -/
def Then (P Q : List UInt8 → Prop) (w : List UInt8) : Prop := ∃ a b, P a ∧ Q b ∧ w = a ++ b

@[inherit_doc] infixr:67 " ⋄ " => Then

/-! ## Built-in types -/

/-- Part 6, 5.2.2.1: 0 is false, any other value is true. -/
instance : Std Bool := ⟨fun _ v w => ∃ x : UInt8, w = [x] ∧ (v = true ↔ x ≠ 0)⟩

instance : Std UInt8 := ⟨fun _ v w => w = [v]⟩
instance : Std UInt16 := ⟨fun _ v w => w = leBytes 2 v.toNat⟩
instance : Std UInt32 := ⟨fun _ v w => w = leBytes 4 v.toNat⟩
instance : Std Int32 := ⟨fun _ v w => w = leBytes 4 v.toUInt32.toNat⟩
instance : Std F64 := ⟨fun _ v w => w = leBytes 8 v.bits.toNat⟩
instance : Std DateTime := ⟨fun _ v w => w = leBytes 8 v.val.toUInt64.toNat⟩
instance : Std Guid := ⟨fun _ v w => w = wire v⟩

/-- Part 6, 5.2.2.4, 5.2.2.7: the length and the bytes; -1 is the null string, which this program does not tell from the empty one. -/
def stdBytes (bytes w : List UInt8) : Prop := bytes.length < 2 ^ 31 ∧
  (w = leBytes 4 bytes.length ++ bytes ∨ bytes = [] ∧ w = [0xff, 0xff, 0xff, 0xff])

instance : Std Str := ⟨fun _ v => stdBytes v.bytes⟩
instance : Std ByteString := ⟨fun _ v => stdBytes v.bytes⟩

/-- The elements one after the other. -/
def stdElems {α : Type} [Std α] (n : Bool) : List α → List UInt8 → Prop
  | [], w => w = []
  | x :: xs, w => (std n x ⋄ stdElems n xs) w

/-- Part 6, 5.2.5: the length and the elements; -1 is the null array. -/
instance {α : Type} [Std α] : Std (List α) := ⟨fun n v w => v.length < 2 ^ 31 ∧
  (((fun a => a = leBytes 4 v.length) ⋄ stdElems n v) w ∨ n = true ∧ v = [] ∧ w = [0xff, 0xff, 0xff, 0xff])⟩

/-- Part 6, 5.2.2.9: the forms of a node id; a numeric one may have any that it fits. -/
inductive StdNodeId : NodeId → UInt8 → List UInt8 → Prop
  | two (i : UInt32) (h : i.toNat < 256) : StdNodeId ⟨0, .numeric i⟩ 0 (leBytes 1 i.toNat)
  | four (ns : UInt16) (i : UInt32) (h : ns.toNat < 256) (hi : i.toNat < 65536) :
      StdNodeId ⟨ns, .numeric i⟩ 1 (leBytes 1 ns.toNat ++ leBytes 2 i.toNat)
  | numeric (ns : UInt16) (i : UInt32) : StdNodeId ⟨ns, .numeric i⟩ 2 (leBytes 2 ns.toNat ++ leBytes 4 i.toNat)
  | string (ns : UInt16) (s : Str) (w : List UInt8) (h : stdBytes s.bytes w) : StdNodeId ⟨ns, .string s⟩ 3 (leBytes 2 ns.toNat ++ w)
  | guid (ns : UInt16) (g : Guid) : StdNodeId ⟨ns, .guid g⟩ 4 (leBytes 2 ns.toNat ++ wire g)
  | opaque (ns : UInt16) (o : ByteString) (w : List UInt8) (h : stdBytes o.bytes w) : StdNodeId ⟨ns, .opaque o⟩ 5 (leBytes 2 ns.toNat ++ w)

instance : Std NodeId := ⟨fun _ v w => ∃ x xs, StdNodeId v x xs ∧ w = x :: xs⟩

/-- An optional field. -/
def stdOpt {α : Type} [Std α] (n : Bool) : Option α → List UInt8 → Prop
  | none, w => w = []
  | some x, w => std n x w

/-- Part 6, 5.2.2.10: a node id with flags in its first byte. -/
instance : Std ExpandedNodeId := ⟨fun n v w => ∃ x xs a, StdNodeId v.nodeId x xs ∧ (stdOpt n v.namespaceUri ⋄ stdOpt n v.serverIndex) a ∧
  w = UInt8.ofNat (x.toNat + flag v.namespaceUri 0x80 + flag v.serverIndex 0x40) :: (xs ++ a)⟩

instance : Std QualifiedName := ⟨fun n v => std n v.namespaceIndex ⋄ std n v.name⟩

/-- Part 6, 5.2.2.14. -/
instance : Std LocalizedText := ⟨fun n v => (fun w => w = [UInt8.ofNat (flag v.locale 1 + flag v.text 2)]) ⋄ (stdOpt n v.locale ⋄
  stdOpt n v.text)⟩

/-- Part 6, 5.2.2.15: no body, or a body of bytes or XML. -/
instance : Std ExtensionObject := ⟨fun n v => std n v.nodeId ⋄ (match v.byteString with
  | none => fun w => w = [0]
  | some s => (fun w => w = [1] ∨ w = [2]) ⋄ std n s)⟩

/-! ## Messages -/

instance : Std HelloMessage := ⟨fun n v => std n v.protocolVersion ⋄ (std n v.receiveBufferSize ⋄ (std n v.sendBufferSize ⋄ (std n
  v.maxMessageSize ⋄ (std n v.maxChunkCount ⋄ std n v.endpointUrl))))⟩

instance : Std UaSecurityHeader := ⟨fun n v => std n v.securityPolicyUri ⋄ (std n v.senderCertificate ⋄ std n
  v.receiverCertificateThumbprint)⟩

instance : Std UaSecurityTokenHeader := ⟨fun n v => std n v.tokenId⟩

instance : Std UaSequenceHeader := ⟨fun n v => std n v.sequenceNumber ⋄ std n v.requestId⟩

instance : Std UaRequestHeader := ⟨fun n v => std n v.authentificationToken ⋄ (std n v.timestamp ⋄ (std n v.requestHandle ⋄ (std n
  v.returnDignostics ⋄ (std n v.auditEntityId ⋄ (std n v.timeoutHint ⋄ std n v.additionalHeader)))))⟩

instance : Std UaOpenSecureChannelReq := ⟨fun n v => std n v.requestHdr ⋄ (std n v.clientProtocolVer ⋄ (std n v.securityTokenRequestType ⋄
  (std n v.securityMode ⋄ (std n v.clientNonce ⋄ std n v.requestLifetime))))⟩

instance : Std UaCloseSecureChannelReq := ⟨fun n v => std n v.requestHdr⟩

instance : Std UaGetEndpointsReq := ⟨fun n v => std n v.requestHdr ⋄ (std n v.endpointUrl ⋄ (std n v.localeIds ⋄ std n v.profileUris))⟩

instance : Std UaApplicationDescription := ⟨fun n v => std n v.applicationUri ⋄ (std n v.productUri ⋄ (std n v.applicationName ⋄ (std n
  v.applicationType ⋄ (std n v.gatewayServerUri ⋄ (std n v.discoveryProfileUri ⋄ std n v.discoveryUrls)))))⟩

instance : Std UaCreateSessionReq := ⟨fun n v => std n v.requestHdr ⋄ (std n v.clientDescription ⋄ (std n v.serverUri ⋄ (std n v.endpointUrl
  ⋄ (std n v.sessionName ⋄ (std n v.clientNonce ⋄ (std n v.clientCertificate ⋄ (std n v.requestedSessionTimeout ⋄ std n
  v.maxResponseMessageSize)))))))⟩

instance : Std UaSignatureData := ⟨fun n v => std n v.algorithm ⋄ std n v.signature⟩

instance : Std UaCloseSessionReq := ⟨fun n v => std n v.requestHdr ⋄ std n v.deleteSubscriptions⟩

instance : Std UaActivateSessionReq := ⟨fun n v => std n v.requestHdr ⋄ (std n v.clientSignature ⋄ (std n v.clientSoftwareCertificates ⋄
  (std n v.localeIds ⋄ (std n v.userIdentityToken ⋄ std n v.userTokenSignature))))⟩

instance : Std ReadValueId := ⟨fun n v => std n v.nodeId ⋄ (std n v.attributeId ⋄ (std n v.indexRange ⋄ std n v.dataEncoding))⟩

instance : Std UaReadReq := ⟨fun n v => std n v.requestHdr ⋄ (std n v.maxAge ⋄ (std n v.timestampsToReturn ⋄ std n v.nodesToRead))⟩

/-- The type identifier, then the message. -/
instance {α : Type} [Std α] {id : UInt32} : Std (Cont α id) := ⟨fun n v => std n v.eNodeId ⋄ std n v.msg⟩

end Uscada.Ua
