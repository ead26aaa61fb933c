import Verif.UaMessagesWire
import Verif.UaLocal
/-!
# Laws of the OPC UA messages

Every message writes the bytes of its specification, reads them back, and decodes locally.
-/

namespace Uscada.Ua

open Wire (wire)
open Lawful (writes reads)
open LocalDec (loc)

instance : Lawful MessageHeader where
  writes v h := Writes.bind (writes v.messageType h.1) (Writes.bind (writes v.isFinal h.2.1) (writes
    v.messageSize h.2.2))
  reads v h := Reads.bind (reads v.messageType h.1) (Reads.bind (reads v.isFinal h.2.1) (Reads.map (f :=
    fun x => (⟨v.messageType, v.isFinal, x⟩ : MessageHeader)) (reads v.messageSize h.2.2)))
instance : LocalDec MessageHeader :=
  ⟨fun _ => Local.bind (loc _) fun _ => Local.bind (loc _) fun _ => Local.bind (loc _) fun _ =>
    Local.pure _⟩

instance : Lawful HelloMessage where
  writes v h := Writes.bind (writes v.protocolVersion h.1) (Writes.bind (writes v.receiveBufferSize h.2.1)
    (Writes.bind (writes v.sendBufferSize h.2.2.1) (Writes.bind (writes v.maxMessageSize
    h.2.2.2.1) (Writes.bind (writes v.maxChunkCount h.2.2.2.2.1) (writes v.endpointUrl
    h.2.2.2.2.2)))))
  reads v h := Reads.bind (reads v.protocolVersion h.1) (Reads.bind (reads v.receiveBufferSize h.2.1)
    (Reads.bind (reads v.sendBufferSize h.2.2.1) (Reads.bind (reads v.maxMessageSize h.2.2.2.1)
    (Reads.bind (reads v.maxChunkCount h.2.2.2.2.1) (Reads.map (f := fun x =>
    (⟨v.protocolVersion, v.receiveBufferSize, v.sendBufferSize, v.maxMessageSize,
    v.maxChunkCount, x⟩ : HelloMessage)) (reads v.endpointUrl h.2.2.2.2.2))))))
instance : LocalDec HelloMessage :=
  ⟨fun _ => Local.bind (loc _) fun _ => Local.bind (loc _) fun _ => Local.bind (loc _) fun _ =>
    Local.bind (loc _) fun _ => Local.bind (loc _) fun _ => Local.bind (loc _) fun _ =>
    Local.pure _⟩

instance : Lawful AcknowledgeMessage where
  writes v h := Writes.bind (writes v.protocolVersion h.1) (Writes.bind (writes v.receiveBufferSize h.2.1)
    (Writes.bind (writes v.sendBufferSize h.2.2.1) (Writes.bind (writes v.maxMessageSize
    h.2.2.2.1) (writes v.maxChunkCount h.2.2.2.2))))
  reads v h := Reads.bind (reads v.protocolVersion h.1) (Reads.bind (reads v.receiveBufferSize h.2.1)
    (Reads.bind (reads v.sendBufferSize h.2.2.1) (Reads.bind (reads v.maxMessageSize h.2.2.2.1)
    (Reads.map (f := fun x => (⟨v.protocolVersion, v.receiveBufferSize, v.sendBufferSize,
    v.maxMessageSize, x⟩ : AcknowledgeMessage)) (reads v.maxChunkCount h.2.2.2.2)))))
instance : LocalDec AcknowledgeMessage :=
  ⟨fun _ => Local.bind (loc _) fun _ => Local.bind (loc _) fun _ => Local.bind (loc _) fun _ =>
    Local.bind (loc _) fun _ => Local.bind (loc _) fun _ => Local.pure _⟩

instance : Lawful ErrorMessage where
  writes v h := Writes.bind (writes v.error h.1) (writes v.reason h.2)
  reads v h := Reads.bind (reads v.error h.1) (Reads.map (f := fun x => (⟨v.error, x⟩ : ErrorMessage))
    (reads v.reason h.2))
instance : LocalDec ErrorMessage :=
  ⟨fun _ => Local.bind (loc _) fun _ => Local.bind (loc _) fun _ => Local.pure _⟩

instance : Lawful ReverseHelloMessage where
  writes v h := Writes.bind (writes v.serverUri h.1) (writes v.endpointUrl h.2)
  reads v h := Reads.bind (reads v.serverUri h.1) (Reads.map (f := fun x => (⟨v.serverUri, x⟩ :
    ReverseHelloMessage)) (reads v.endpointUrl h.2))
instance : LocalDec ReverseHelloMessage :=
  ⟨fun _ => Local.bind (loc _) fun _ => Local.bind (loc _) fun _ => Local.pure _⟩

instance : Lawful UaMessageHeader where
  writes v h := Writes.bind (writes v.messageType h.1) (Writes.bind (writes v.isFinal h.2.1) (Writes.bind
    (writes v.messageSize h.2.2.1) (writes v.secureChannelId h.2.2.2)))
  reads v h := Reads.bind (reads v.messageType h.1) (Reads.bind (reads v.isFinal h.2.1) (Reads.bind (reads
    v.messageSize h.2.2.1) (Reads.map (f := fun x => (⟨v.messageType, v.isFinal, v.messageSize,
    x⟩ : UaMessageHeader)) (reads v.secureChannelId h.2.2.2))))
instance : LocalDec UaMessageHeader :=
  ⟨fun _ => Local.bind (loc _) fun _ => Local.bind (loc _) fun _ => Local.bind (loc _) fun _ =>
    Local.bind (loc _) fun _ => Local.pure _⟩

instance : Lawful UaSecurityHeader where
  writes v h := Writes.bind (writes v.securityPolicyUri h.1) (Writes.bind (writes v.senderCertificate h.2.1)
    (writes v.receiverCertificateThumbprint h.2.2))
  reads v h := Reads.bind (reads v.securityPolicyUri h.1) (Reads.bind (reads v.senderCertificate h.2.1)
    (Reads.map (f := fun x => (⟨v.securityPolicyUri, v.senderCertificate, x⟩ :
    UaSecurityHeader)) (reads v.receiverCertificateThumbprint h.2.2)))
instance : LocalDec UaSecurityHeader :=
  ⟨fun _ => Local.bind (loc _) fun _ => Local.bind (loc _) fun _ => Local.bind (loc _) fun _ =>
    Local.pure _⟩

instance : Lawful UaSecurityTokenHeader where
  writes v h := writes v.tokenId h
  reads v h := (Reads.map (f := fun x => (⟨x⟩ : UaSecurityTokenHeader)) (reads v.tokenId h))
instance : LocalDec UaSecurityTokenHeader :=
  ⟨fun _ => Local.bind (loc _) fun _ => Local.pure _⟩

instance : Lawful UaSequenceHeader where
  writes v h := Writes.bind (writes v.sequenceNumber h.1) (writes v.requestId h.2)
  reads v h := Reads.bind (reads v.sequenceNumber h.1) (Reads.map (f := fun x => (⟨v.sequenceNumber, x⟩ :
    UaSequenceHeader)) (reads v.requestId h.2))
instance : LocalDec UaSequenceHeader :=
  ⟨fun _ => Local.bind (loc _) fun _ => Local.bind (loc _) fun _ => Local.pure _⟩

instance : Lawful UaRequestHeader where
  writes v h := Writes.bind (writes v.authentificationToken h.1) (Writes.bind (writes v.timestamp h.2.1)
    (Writes.bind (writes v.requestHandle h.2.2.1) (Writes.bind (writes v.returnDignostics
    h.2.2.2.1) (Writes.bind (writes v.auditEntityId h.2.2.2.2.1) (Writes.bind (writes
    v.timeoutHint h.2.2.2.2.2.1) (writes v.additionalHeader h.2.2.2.2.2.2))))))
  reads v h := Reads.bind (reads v.authentificationToken h.1) (Reads.bind (reads v.timestamp h.2.1)
    (Reads.bind (reads v.requestHandle h.2.2.1) (Reads.bind (reads v.returnDignostics h.2.2.2.1)
    (Reads.bind (reads v.auditEntityId h.2.2.2.2.1) (Reads.bind (reads v.timeoutHint
    h.2.2.2.2.2.1) (Reads.map (f := fun x => (⟨v.authentificationToken, v.timestamp,
    v.requestHandle, v.returnDignostics, v.auditEntityId, v.timeoutHint, x⟩ : UaRequestHeader))
    (reads v.additionalHeader h.2.2.2.2.2.2)))))))
instance : LocalDec UaRequestHeader :=
  ⟨fun _ => Local.bind (loc _) fun _ => Local.bind (loc _) fun _ => Local.bind (loc _) fun _ =>
    Local.bind (loc _) fun _ => Local.bind (loc _) fun _ => Local.bind (loc _) fun _ =>
    Local.bind (loc _) fun _ => Local.pure _⟩

instance : Lawful UaResponseHeader where
  writes v h := Writes.bind (writes v.timestamp h.1) (Writes.bind (writes v.requestHandle h.2.1)
    (Writes.bind (writes v.serviceResult h.2.2.1) (Writes.bind (writes v.serviceDiagnostics
    h.2.2.2.1) (Writes.bind (writes v.stringTable h.2.2.2.2.1) (writes v.additionalHeader
    h.2.2.2.2.2)))))
  reads v h := Reads.bind (reads v.timestamp h.1) (Reads.bind (reads v.requestHandle h.2.1) (Reads.bind
    (reads v.serviceResult h.2.2.1) (Reads.bind (reads v.serviceDiagnostics h.2.2.2.1)
    (Reads.bind (reads v.stringTable h.2.2.2.2.1) (Reads.map (f := fun x => (⟨v.timestamp,
    v.requestHandle, v.serviceResult, v.serviceDiagnostics, v.stringTable, x⟩ :
    UaResponseHeader)) (reads v.additionalHeader h.2.2.2.2.2))))))
instance : LocalDec UaResponseHeader :=
  ⟨fun _ => Local.bind (loc _) fun _ => Local.bind (loc _) fun _ => Local.bind (loc _) fun _ =>
    Local.bind (loc _) fun _ => Local.bind (loc _) fun _ => Local.bind (loc _) fun _ =>
    Local.pure _⟩

instance : Lawful UaOpenSecureChannelReq where
  writes v h := Writes.bind (writes v.requestHdr h.1) (Writes.bind (writes v.clientProtocolVer h.2.1)
    (Writes.bind (writes v.securityTokenRequestType h.2.2.1) (Writes.bind (writes v.securityMode
    h.2.2.2.1) (Writes.bind (writes v.clientNonce h.2.2.2.2.1) (writes v.requestLifetime
    h.2.2.2.2.2)))))
  reads v h := Reads.bind (reads v.requestHdr h.1) (Reads.bind (reads v.clientProtocolVer h.2.1)
    (Reads.bind (reads v.securityTokenRequestType h.2.2.1) (Reads.bind (reads v.securityMode
    h.2.2.2.1) (Reads.bind (reads v.clientNonce h.2.2.2.2.1) (Reads.map (f := fun x =>
    (⟨v.requestHdr, v.clientProtocolVer, v.securityTokenRequestType, v.securityMode,
    v.clientNonce, x⟩ : UaOpenSecureChannelReq)) (reads v.requestLifetime h.2.2.2.2.2))))))
instance : LocalDec UaOpenSecureChannelReq :=
  ⟨fun _ => Local.bind (loc _) fun _ => Local.bind (loc _) fun _ => Local.bind (loc _) fun _ =>
    Local.bind (loc _) fun _ => Local.bind (loc _) fun _ => Local.bind (loc _) fun _ =>
    Local.pure _⟩

instance : Lawful UaCloseSecureChannelReq where
  writes v h := writes v.requestHdr h
  reads v h := (Reads.map (f := fun x => (⟨x⟩ : UaCloseSecureChannelReq)) (reads v.requestHdr h))
instance : LocalDec UaCloseSecureChannelReq :=
  ⟨fun _ => Local.bind (loc _) fun _ => Local.pure _⟩

instance : Lawful UaCloseSecureChannelRsp where
  writes v h := writes v.responseHdr h
  reads v h := (Reads.map (f := fun x => (⟨x⟩ : UaCloseSecureChannelRsp)) (reads v.responseHdr h))
instance : LocalDec UaCloseSecureChannelRsp :=
  ⟨fun _ => Local.bind (loc _) fun _ => Local.pure _⟩

instance : Lawful UaChannelSecurityToken where
  writes v h := Writes.bind (writes v.secureChannelId h.1) (Writes.bind (writes v.tokenId h.2.1)
    (Writes.bind (writes v.createdAt h.2.2.1) (writes v.revisedLifetime h.2.2.2)))
  reads v h := Reads.bind (reads v.secureChannelId h.1) (Reads.bind (reads v.tokenId h.2.1) (Reads.bind
    (reads v.createdAt h.2.2.1) (Reads.map (f := fun x => (⟨v.secureChannelId, v.tokenId,
    v.createdAt, x⟩ : UaChannelSecurityToken)) (reads v.revisedLifetime h.2.2.2))))
instance : LocalDec UaChannelSecurityToken :=
  ⟨fun _ => Local.bind (loc _) fun _ => Local.bind (loc _) fun _ => Local.bind (loc _) fun _ =>
    Local.bind (loc _) fun _ => Local.pure _⟩

instance : Lawful UaOpenSecureChannelRsp where
  writes v h := Writes.bind (writes v.responseHdr h.1) (Writes.bind (writes v.serverProtocolVer h.2.1)
    (Writes.bind (writes v.securityToken h.2.2.1) (writes v.serverNonce h.2.2.2)))
  reads v h := Reads.bind (reads v.responseHdr h.1) (Reads.bind (reads v.serverProtocolVer h.2.1)
    (Reads.bind (reads v.securityToken h.2.2.1) (Reads.map (f := fun x => (⟨v.responseHdr,
    v.serverProtocolVer, v.securityToken, x⟩ : UaOpenSecureChannelRsp)) (reads v.serverNonce
    h.2.2.2))))
instance : LocalDec UaOpenSecureChannelRsp :=
  ⟨fun _ => Local.bind (loc _) fun _ => Local.bind (loc _) fun _ => Local.bind (loc _) fun _ =>
    Local.bind (loc _) fun _ => Local.pure _⟩

instance : Lawful UaGetEndpointsReq where
  writes v h := Writes.bind (writes v.requestHdr h.1) (Writes.bind (writes v.endpointUrl h.2.1) (Writes.bind
    (writes v.localeIds h.2.2.1) (writes v.profileUris h.2.2.2)))
  reads v h := Reads.bind (reads v.requestHdr h.1) (Reads.bind (reads v.endpointUrl h.2.1) (Reads.bind
    (reads v.localeIds h.2.2.1) (Reads.map (f := fun x => (⟨v.requestHdr, v.endpointUrl,
    v.localeIds, x⟩ : UaGetEndpointsReq)) (reads v.profileUris h.2.2.2))))
instance : LocalDec UaGetEndpointsReq :=
  ⟨fun _ => Local.bind (loc _) fun _ => Local.bind (loc _) fun _ => Local.bind (loc _) fun _ =>
    Local.bind (loc _) fun _ => Local.pure _⟩

instance : Lawful UaUserTokenPolicy where
  writes v h := Writes.bind (writes v.policyId h.1) (Writes.bind (writes v.tokenType h.2.1) (Writes.bind
    (writes v.issuedTokenType h.2.2.1) (Writes.bind (writes v.issuerEndpointUrl h.2.2.2.1)
    (writes v.securityPolicyUri h.2.2.2.2))))
  reads v h := Reads.bind (reads v.policyId h.1) (Reads.bind (reads v.tokenType h.2.1) (Reads.bind (reads
    v.issuedTokenType h.2.2.1) (Reads.bind (reads v.issuerEndpointUrl h.2.2.2.1) (Reads.map (f
    := fun x => (⟨v.policyId, v.tokenType, v.issuedTokenType, v.issuerEndpointUrl, x⟩ :
    UaUserTokenPolicy)) (reads v.securityPolicyUri h.2.2.2.2)))))
instance : LocalDec UaUserTokenPolicy :=
  ⟨fun _ => Local.bind (loc _) fun _ => Local.bind (loc _) fun _ => Local.bind (loc _) fun _ =>
    Local.bind (loc _) fun _ => Local.bind (loc _) fun _ => Local.pure _⟩

instance : Lawful UaApplicationDescription where
  writes v h := Writes.bind (writes v.applicationUri h.1) (Writes.bind (writes v.productUri h.2.1)
    (Writes.bind (writes v.applicationName h.2.2.1) (Writes.bind (writes v.applicationType
    h.2.2.2.1) (Writes.bind (writes v.gatewayServerUri h.2.2.2.2.1) (Writes.bind (writes
    v.discoveryProfileUri h.2.2.2.2.2.1) (writes v.discoveryUrls h.2.2.2.2.2.2))))))
  reads v h := Reads.bind (reads v.applicationUri h.1) (Reads.bind (reads v.productUri h.2.1) (Reads.bind
    (reads v.applicationName h.2.2.1) (Reads.bind (reads v.applicationType h.2.2.2.1)
    (Reads.bind (reads v.gatewayServerUri h.2.2.2.2.1) (Reads.bind (reads v.discoveryProfileUri
    h.2.2.2.2.2.1) (Reads.map (f := fun x => (⟨v.applicationUri, v.productUri,
    v.applicationName, v.applicationType, v.gatewayServerUri, v.discoveryProfileUri, x⟩ :
    UaApplicationDescription)) (reads v.discoveryUrls h.2.2.2.2.2.2)))))))
instance : LocalDec UaApplicationDescription :=
  ⟨fun _ => Local.bind (loc _) fun _ => Local.bind (loc _) fun _ => Local.bind (loc _) fun _ =>
    Local.bind (loc _) fun _ => Local.bind (loc _) fun _ => Local.bind (loc _) fun _ =>
    Local.bind (loc _) fun _ => Local.pure _⟩

instance : Lawful UaEndpointDescription where
  writes v h := Writes.bind (writes v.endpointUrl h.1) (Writes.bind (writes v.server h.2.1) (Writes.bind
    (writes v.serverCertificate h.2.2.1) (Writes.bind (writes v.securityMode h.2.2.2.1)
    (Writes.bind (writes v.securityPolicyUri h.2.2.2.2.1) (Writes.bind (writes
    v.userIdentityTokens h.2.2.2.2.2.1) (Writes.bind (writes v.transportProfileUri
    h.2.2.2.2.2.2.1) (writes v.securityLevel h.2.2.2.2.2.2.2)))))))
  reads v h := Reads.bind (reads v.endpointUrl h.1) (Reads.bind (reads v.server h.2.1) (Reads.bind (reads
    v.serverCertificate h.2.2.1) (Reads.bind (reads v.securityMode h.2.2.2.1) (Reads.bind (reads
    v.securityPolicyUri h.2.2.2.2.1) (Reads.bind (reads v.userIdentityTokens h.2.2.2.2.2.1)
    (Reads.bind (reads v.transportProfileUri h.2.2.2.2.2.2.1) (Reads.map (f := fun x =>
    (⟨v.endpointUrl, v.server, v.serverCertificate, v.securityMode, v.securityPolicyUri,
    v.userIdentityTokens, v.transportProfileUri, x⟩ : UaEndpointDescription)) (reads
    v.securityLevel h.2.2.2.2.2.2.2))))))))
instance : LocalDec UaEndpointDescription :=
  ⟨fun _ => Local.bind (loc _) fun _ => Local.bind (loc _) fun _ => Local.bind (loc _) fun _ =>
    Local.bind (loc _) fun _ => Local.bind (loc _) fun _ => Local.bind (loc _) fun _ =>
    Local.bind (loc _) fun _ => Local.bind (loc _) fun _ => Local.pure _⟩

instance : Lawful UaGetEndpointsRsp where
  writes v h := Writes.bind (writes v.responseHdr h.1) (writes v.endpointDescription h.2)
  reads v h := Reads.bind (reads v.responseHdr h.1) (Reads.map (f := fun x => (⟨v.responseHdr, x⟩ :
    UaGetEndpointsRsp)) (reads v.endpointDescription h.2))
instance : LocalDec UaGetEndpointsRsp :=
  ⟨fun _ => Local.bind (loc _) fun _ => Local.bind (loc _) fun _ => Local.pure _⟩

instance : Lawful UaCreateSessionReq where
  writes v h := Writes.bind (writes v.requestHdr h.1) (Writes.bind (writes v.clientDescription h.2.1)
    (Writes.bind (writes v.serverUri h.2.2.1) (Writes.bind (writes v.endpointUrl h.2.2.2.1)
    (Writes.bind (writes v.sessionName h.2.2.2.2.1) (Writes.bind (writes v.clientNonce
    h.2.2.2.2.2.1) (Writes.bind (writes v.clientCertificate h.2.2.2.2.2.2.1) (Writes.bind
    (writes v.requestedSessionTimeout h.2.2.2.2.2.2.2.1) (writes v.maxResponseMessageSize
    h.2.2.2.2.2.2.2.2))))))))
  reads v h := Reads.bind (reads v.requestHdr h.1) (Reads.bind (reads v.clientDescription h.2.1)
    (Reads.bind (reads v.serverUri h.2.2.1) (Reads.bind (reads v.endpointUrl h.2.2.2.1)
    (Reads.bind (reads v.sessionName h.2.2.2.2.1) (Reads.bind (reads v.clientNonce
    h.2.2.2.2.2.1) (Reads.bind (reads v.clientCertificate h.2.2.2.2.2.2.1) (Reads.bind (reads
    v.requestedSessionTimeout h.2.2.2.2.2.2.2.1) (Reads.map (f := fun x => (⟨v.requestHdr,
    v.clientDescription, v.serverUri, v.endpointUrl, v.sessionName, v.clientNonce,
    v.clientCertificate, v.requestedSessionTimeout, x⟩ : UaCreateSessionReq)) (reads
    v.maxResponseMessageSize h.2.2.2.2.2.2.2.2)))))))))
instance : LocalDec UaCreateSessionReq :=
  ⟨fun _ => Local.bind (loc _) fun _ => Local.bind (loc _) fun _ => Local.bind (loc _) fun _ =>
    Local.bind (loc _) fun _ => Local.bind (loc _) fun _ => Local.bind (loc _) fun _ =>
    Local.bind (loc _) fun _ => Local.bind (loc _) fun _ => Local.bind (loc _) fun _ =>
    Local.pure _⟩

instance : Lawful UaSignatureData where
  writes v h := Writes.bind (writes v.algorithm h.1) (writes v.signature h.2)
  reads v h := Reads.bind (reads v.algorithm h.1) (Reads.map (f := fun x => (⟨v.algorithm, x⟩ :
    UaSignatureData)) (reads v.signature h.2))
instance : LocalDec UaSignatureData :=
  ⟨fun _ => Local.bind (loc _) fun _ => Local.bind (loc _) fun _ => Local.pure _⟩

instance : Lawful UaCreateSessionRsp where
  writes v h := Writes.bind (writes v.responseHdr h.1) (Writes.bind (writes v.sessionId h.2.1) (Writes.bind
    (writes v.authenticationToken h.2.2.1) (Writes.bind (writes v.revisedSessionTimeout
    h.2.2.2.1) (Writes.bind (writes v.serverNonce h.2.2.2.2.1) (Writes.bind (writes
    v.serverCertificate h.2.2.2.2.2.1) (Writes.bind (writes v.serverEndpoints h.2.2.2.2.2.2.1)
    (Writes.bind (writes v.signedSoftwareCertificate h.2.2.2.2.2.2.2.1) (Writes.bind (writes
    v.serverSignature h.2.2.2.2.2.2.2.2.1) (writes v.maxRequestMessageSize
    h.2.2.2.2.2.2.2.2.2)))))))))
  reads v h := Reads.bind (reads v.responseHdr h.1) (Reads.bind (reads v.sessionId h.2.1) (Reads.bind
    (reads v.authenticationToken h.2.2.1) (Reads.bind (reads v.revisedSessionTimeout h.2.2.2.1)
    (Reads.bind (reads v.serverNonce h.2.2.2.2.1) (Reads.bind (reads v.serverCertificate
    h.2.2.2.2.2.1) (Reads.bind (reads v.serverEndpoints h.2.2.2.2.2.2.1) (Reads.bind (reads
    v.signedSoftwareCertificate h.2.2.2.2.2.2.2.1) (Reads.bind (reads v.serverSignature
    h.2.2.2.2.2.2.2.2.1) (Reads.map (f := fun x => (⟨v.responseHdr, v.sessionId,
    v.authenticationToken, v.revisedSessionTimeout, v.serverNonce, v.serverCertificate,
    v.serverEndpoints, v.signedSoftwareCertificate, v.serverSignature, x⟩ : UaCreateSessionRsp))
    (reads v.maxRequestMessageSize h.2.2.2.2.2.2.2.2.2))))))))))
instance : LocalDec UaCreateSessionRsp :=
  ⟨fun _ => Local.bind (loc _) fun _ => Local.bind (loc _) fun _ => Local.bind (loc _) fun _ =>
    Local.bind (loc _) fun _ => Local.bind (loc _) fun _ => Local.bind (loc _) fun _ =>
    Local.bind (loc _) fun _ => Local.bind (loc _) fun _ => Local.bind (loc _) fun _ =>
    Local.bind (loc _) fun _ => Local.pure _⟩

instance : Lawful UaCloseSessionReq where
  writes v h := Writes.bind (writes v.requestHdr h.1) (writes v.deleteSubscriptions h.2)
  reads v h := Reads.bind (reads v.requestHdr h.1) (Reads.map (f := fun x => (⟨v.requestHdr, x⟩ :
    UaCloseSessionReq)) (reads v.deleteSubscriptions h.2))
instance : LocalDec UaCloseSessionReq :=
  ⟨fun _ => Local.bind (loc _) fun _ => Local.bind (loc _) fun _ => Local.pure _⟩

instance : Lawful UaCloseSessionRsp where
  writes v h := writes v.responseHdr h
  reads v h := (Reads.map (f := fun x => (⟨x⟩ : UaCloseSessionRsp)) (reads v.responseHdr h))
instance : LocalDec UaCloseSessionRsp :=
  ⟨fun _ => Local.bind (loc _) fun _ => Local.pure _⟩

instance : Lawful UaActivateSessionReq where
  writes v h := Writes.bind (writes v.requestHdr h.1) (Writes.bind (writes v.clientSignature h.2.1)
    (Writes.bind (writes v.clientSoftwareCertificates h.2.2.1) (Writes.bind (writes v.localeIds
    h.2.2.2.1) (Writes.bind (writes v.userIdentityToken h.2.2.2.2.1) (writes
    v.userTokenSignature h.2.2.2.2.2)))))
  reads v h := Reads.bind (reads v.requestHdr h.1) (Reads.bind (reads v.clientSignature h.2.1) (Reads.bind
    (reads v.clientSoftwareCertificates h.2.2.1) (Reads.bind (reads v.localeIds h.2.2.2.1)
    (Reads.bind (reads v.userIdentityToken h.2.2.2.2.1) (Reads.map (f := fun x =>
    (⟨v.requestHdr, v.clientSignature, v.clientSoftwareCertificates, v.localeIds,
    v.userIdentityToken, x⟩ : UaActivateSessionReq)) (reads v.userTokenSignature
    h.2.2.2.2.2))))))
instance : LocalDec UaActivateSessionReq :=
  ⟨fun _ => Local.bind (loc _) fun _ => Local.bind (loc _) fun _ => Local.bind (loc _) fun _ =>
    Local.bind (loc _) fun _ => Local.bind (loc _) fun _ => Local.bind (loc _) fun _ =>
    Local.pure _⟩

instance : Lawful UaActivateSessionRsp where
  writes v h := Writes.bind (writes v.responseHdr h.1) (Writes.bind (writes v.serverNonce h.2.1)
    (Writes.bind (writes v.results h.2.2.1) (writes v.diagnosticInfos h.2.2.2)))
  reads v h := Reads.bind (reads v.responseHdr h.1) (Reads.bind (reads v.serverNonce h.2.1) (Reads.bind
    (reads v.results h.2.2.1) (Reads.map (f := fun x => (⟨v.responseHdr, v.serverNonce,
    v.results, x⟩ : UaActivateSessionRsp)) (reads v.diagnosticInfos h.2.2.2))))
instance : LocalDec UaActivateSessionRsp :=
  ⟨fun _ => Local.bind (loc _) fun _ => Local.bind (loc _) fun _ => Local.bind (loc _) fun _ =>
    Local.bind (loc _) fun _ => Local.pure _⟩

instance : Lawful ReadValueId where
  writes v h := Writes.bind (writes v.nodeId h.1) (Writes.bind (writes v.attributeId h.2.1) (Writes.bind
    (writes v.indexRange h.2.2.1) (writes v.dataEncoding h.2.2.2)))
  reads v h := Reads.bind (reads v.nodeId h.1) (Reads.bind (reads v.attributeId h.2.1) (Reads.bind (reads
    v.indexRange h.2.2.1) (Reads.map (f := fun x => (⟨v.nodeId, v.attributeId, v.indexRange, x⟩
    : ReadValueId)) (reads v.dataEncoding h.2.2.2))))
instance : LocalDec ReadValueId :=
  ⟨fun _ => Local.bind (loc _) fun _ => Local.bind (loc _) fun _ => Local.bind (loc _) fun _ =>
    Local.bind (loc _) fun _ => Local.pure _⟩

instance : Lawful UaReadReq where
  writes v h := Writes.bind (writes v.requestHdr h.1) (Writes.bind (writes v.maxAge h.2.1) (Writes.bind
    (writes v.timestampsToReturn h.2.2.1) (writes v.nodesToRead h.2.2.2)))
  reads v h := Reads.bind (reads v.requestHdr h.1) (Reads.bind (reads v.maxAge h.2.1) (Reads.bind (reads
    v.timestampsToReturn h.2.2.1) (Reads.map (f := fun x => (⟨v.requestHdr, v.maxAge,
    v.timestampsToReturn, x⟩ : UaReadReq)) (reads v.nodesToRead h.2.2.2))))
instance : LocalDec UaReadReq :=
  ⟨fun _ => Local.bind (loc _) fun _ => Local.bind (loc _) fun _ => Local.bind (loc _) fun _ =>
    Local.bind (loc _) fun _ => Local.pure _⟩

instance : Lawful UaReadRsp where
  writes v h := Writes.bind (writes v.responseHdr h.1) (Writes.bind (writes v.results h.2.1) (writes
    v.diagnosticInfos h.2.2))
  reads v h := Reads.bind (reads v.responseHdr h.1) (Reads.bind (reads v.results h.2.1) (Reads.map (f :=
    fun x => (⟨v.responseHdr, v.results, x⟩ : UaReadRsp)) (reads v.diagnosticInfos h.2.2)))
instance : LocalDec UaReadRsp :=
  ⟨fun _ => Local.bind (loc _) fun _ => Local.bind (loc _) fun _ => Local.bind (loc _) fun _ =>
    Local.pure _⟩

/-- The identifier a container is constructed with does not matter when it is decoded over. -/
theorem Cont.dec_eNodeId (id : UInt32) :
    dec (⟨⟨0, .numeric id⟩, none, none⟩ : ExpandedNodeId) = dec (Ua.init : ExpandedNodeId) := by
  have h1 : ∀ n, NodeId.decodeBody ⟨0, .numeric id⟩ n = NodeId.decodeBody ⟨0, .numeric 0⟩ n := by
    intro n
    unfold NodeId.decodeBody
    split <;> rfl
  have h2 : dec (⟨0, .numeric id⟩ : NodeId) = dec (⟨0, .numeric 0⟩ : NodeId) := by
    show NodeId.decode _ = NodeId.decode _
    simp only [NodeId.decode, h1]
  show ExpandedNodeId.decode _ = ExpandedNodeId.decode ⟨⟨0, .numeric 0⟩, none, none⟩
  simp only [ExpandedNodeId.decode, h2]

instance {α : Type} [Ua α] [Wire α] [Lawful α] {id : UInt32} : Lawful (Cont α id) where
  writes v h := Writes.bind (writes v.eNodeId h.1) (writes v.msg h.2)
  reads v h := by
    have h1 := reads v.eNodeId h.1
    rw [← Cont.dec_eNodeId id] at h1
    exact Reads.bind h1 (Reads.map (f := fun x => (⟨v.eNodeId, x⟩ : Cont α id)) (reads v.msg h.2))

instance {α : Type} [Ua α] [LocalDec α] {id : UInt32} : LocalDec (Cont α id) :=
  ⟨fun _ => Local.bind (loc _) fun _ => Local.bind (loc _) fun _ => Local.pure _⟩

end Uscada.Ua
