import Verif.UaMessages
import Verif.UaWire
/-!
# What the OPC UA messages look like on the wire

Specification: the fields of each structure one after the other, in the order of the OPC UA
standard (part 4 for the services, part 6 for the transport).
-/

namespace Uscada.Ua

open Wire (wire)

instance : Wire MessageHeader where
  wire v := wire v.messageType ++ (wire v.isFinal ++ wire v.messageSize)
  ok v := Wire.ok v.messageType ∧ Wire.ok v.isFinal ∧ Wire.ok v.messageSize

instance : Wire HelloMessage where
  wire v := wire v.protocolVersion ++ (wire v.receiveBufferSize ++ (wire v.sendBufferSize ++ (wire
    v.maxMessageSize ++ (wire v.maxChunkCount ++ wire v.endpointUrl))))
  ok v := Wire.ok v.protocolVersion ∧ Wire.ok v.receiveBufferSize ∧ Wire.ok v.sendBufferSize ∧ Wire.ok
    v.maxMessageSize ∧ Wire.ok v.maxChunkCount ∧ Wire.ok v.endpointUrl

instance : Wire AcknowledgeMessage where
  wire v := wire v.protocolVersion ++ (wire v.receiveBufferSize ++ (wire v.sendBufferSize ++ (wire
    v.maxMessageSize ++ wire v.maxChunkCount)))
  ok v := Wire.ok v.protocolVersion ∧ Wire.ok v.receiveBufferSize ∧ Wire.ok v.sendBufferSize ∧ Wire.ok
    v.maxMessageSize ∧ Wire.ok v.maxChunkCount

instance : Wire ErrorMessage where
  wire v := wire v.error ++ wire v.reason
  ok v := Wire.ok v.error ∧ Wire.ok v.reason

instance : Wire ReverseHelloMessage where
  wire v := wire v.serverUri ++ wire v.endpointUrl
  ok v := Wire.ok v.serverUri ∧ Wire.ok v.endpointUrl

instance : Wire UaMessageHeader where
  wire v := wire v.messageType ++ (wire v.isFinal ++ (wire v.messageSize ++ wire v.secureChannelId))
  ok v := Wire.ok v.messageType ∧ Wire.ok v.isFinal ∧ Wire.ok v.messageSize ∧ Wire.ok
    v.secureChannelId

instance : Wire UaSecurityHeader where
  wire v := wire v.securityPolicyUri ++ (wire v.senderCertificate ++ wire
    v.receiverCertificateThumbprint)
  ok v := Wire.ok v.securityPolicyUri ∧ Wire.ok v.senderCertificate ∧ Wire.ok
    v.receiverCertificateThumbprint

instance : Wire UaSecurityTokenHeader where
  wire v := wire v.tokenId
  ok v := Wire.ok v.tokenId

instance : Wire UaSequenceHeader where
  wire v := wire v.sequenceNumber ++ wire v.requestId
  ok v := Wire.ok v.sequenceNumber ∧ Wire.ok v.requestId

instance : Wire UaRequestHeader where
  wire v := wire v.authentificationToken ++ (wire v.timestamp ++ (wire v.requestHandle ++ (wire
    v.returnDignostics ++ (wire v.auditEntityId ++ (wire v.timeoutHint ++ wire
    v.additionalHeader)))))
  ok v := Wire.ok v.authentificationToken ∧ Wire.ok v.timestamp ∧ Wire.ok v.requestHandle ∧ Wire.ok
    v.returnDignostics ∧ Wire.ok v.auditEntityId ∧ Wire.ok v.timeoutHint ∧ Wire.ok
    v.additionalHeader

instance : Wire UaResponseHeader where
  wire v := wire v.timestamp ++ (wire v.requestHandle ++ (wire v.serviceResult ++ (wire
    v.serviceDiagnostics ++ (wire v.stringTable ++ wire v.additionalHeader))))
  ok v := Wire.ok v.timestamp ∧ Wire.ok v.requestHandle ∧ Wire.ok v.serviceResult ∧ Wire.ok
    v.serviceDiagnostics ∧ Wire.ok v.stringTable ∧ Wire.ok v.additionalHeader

instance : Wire UaOpenSecureChannelReq where
  wire v := wire v.requestHdr ++ (wire v.clientProtocolVer ++ (wire v.securityTokenRequestType ++ (wire
    v.securityMode ++ (wire v.clientNonce ++ wire v.requestLifetime))))
  ok v := Wire.ok v.requestHdr ∧ Wire.ok v.clientProtocolVer ∧ Wire.ok v.securityTokenRequestType ∧
    Wire.ok v.securityMode ∧ Wire.ok v.clientNonce ∧ Wire.ok v.requestLifetime

instance : Wire UaCloseSecureChannelReq where
  wire v := wire v.requestHdr
  ok v := Wire.ok v.requestHdr

instance : Wire UaCloseSecureChannelRsp where
  wire v := wire v.responseHdr
  ok v := Wire.ok v.responseHdr

instance : Wire UaChannelSecurityToken where
  wire v := wire v.secureChannelId ++ (wire v.tokenId ++ (wire v.createdAt ++ wire v.revisedLifetime))
  ok v := Wire.ok v.secureChannelId ∧ Wire.ok v.tokenId ∧ Wire.ok v.createdAt ∧ Wire.ok
    v.revisedLifetime

instance : Wire UaOpenSecureChannelRsp where
  wire v := wire v.responseHdr ++ (wire v.serverProtocolVer ++ (wire v.securityToken ++ wire
    v.serverNonce))
  ok v := Wire.ok v.responseHdr ∧ Wire.ok v.serverProtocolVer ∧ Wire.ok v.securityToken ∧ Wire.ok
    v.serverNonce

instance : Wire UaGetEndpointsReq where
  wire v := wire v.requestHdr ++ (wire v.endpointUrl ++ (wire v.localeIds ++ wire v.profileUris))
  ok v := Wire.ok v.requestHdr ∧ Wire.ok v.endpointUrl ∧ Wire.ok v.localeIds ∧ Wire.ok v.profileUris

instance : Wire UaUserTokenPolicy where
  wire v := wire v.policyId ++ (wire v.tokenType ++ (wire v.issuedTokenType ++ (wire v.issuerEndpointUrl
    ++ wire v.securityPolicyUri)))
  ok v := Wire.ok v.policyId ∧ Wire.ok v.tokenType ∧ Wire.ok v.issuedTokenType ∧ Wire.ok
    v.issuerEndpointUrl ∧ Wire.ok v.securityPolicyUri

instance : Wire UaApplicationDescription where
  wire v := wire v.applicationUri ++ (wire v.productUri ++ (wire v.applicationName ++ (wire
    v.applicationType ++ (wire v.gatewayServerUri ++ (wire v.discoveryProfileUri ++ wire
    v.discoveryUrls)))))
  ok v := Wire.ok v.applicationUri ∧ Wire.ok v.productUri ∧ Wire.ok v.applicationName ∧ Wire.ok
    v.applicationType ∧ Wire.ok v.gatewayServerUri ∧ Wire.ok v.discoveryProfileUri ∧ Wire.ok
    v.discoveryUrls

instance : Wire UaEndpointDescription where
  wire v := wire v.endpointUrl ++ (wire v.server ++ (wire v.serverCertificate ++ (wire v.securityMode ++
    (wire v.securityPolicyUri ++ (wire v.userIdentityTokens ++ (wire v.transportProfileUri ++
    wire v.securityLevel))))))
  ok v := Wire.ok v.endpointUrl ∧ Wire.ok v.server ∧ Wire.ok v.serverCertificate ∧ Wire.ok
    v.securityMode ∧ Wire.ok v.securityPolicyUri ∧ Wire.ok v.userIdentityTokens ∧ Wire.ok
    v.transportProfileUri ∧ Wire.ok v.securityLevel

instance : Wire UaGetEndpointsRsp where
  wire v := wire v.responseHdr ++ wire v.endpointDescription
  ok v := Wire.ok v.responseHdr ∧ Wire.ok v.endpointDescription

instance : Wire UaCreateSessionReq where
  wire v := wire v.requestHdr ++ (wire v.clientDescription ++ (wire v.serverUri ++ (wire v.endpointUrl
    ++ (wire v.sessionName ++ (wire v.clientNonce ++ (wire v.clientCertificate ++ (wire
    v.requestedSessionTimeout ++ wire v.maxResponseMessageSize)))))))
  ok v := Wire.ok v.requestHdr ∧ Wire.ok v.clientDescription ∧ Wire.ok v.serverUri ∧ Wire.ok
    v.endpointUrl ∧ Wire.ok v.sessionName ∧ Wire.ok v.clientNonce ∧ Wire.ok v.clientCertificate
    ∧ Wire.ok v.requestedSessionTimeout ∧ Wire.ok v.maxResponseMessageSize

instance : Wire UaSignatureData where
  wire v := wire v.algorithm ++ wire v.signature
  ok v := Wire.ok v.algorithm ∧ Wire.ok v.signature

instance : Wire UaCreateSessionRsp where
  wire v := wire v.responseHdr ++ (wire v.sessionId ++ (wire v.authenticationToken ++ (wire
    v.revisedSessionTimeout ++ (wire v.serverNonce ++ (wire v.serverCertificate ++ (wire
    v.serverEndpoints ++ (wire v.signedSoftwareCertificate ++ (wire v.serverSignature ++ wire
    v.maxRequestMessageSize))))))))
  ok v := Wire.ok v.responseHdr ∧ Wire.ok v.sessionId ∧ Wire.ok v.authenticationToken ∧ Wire.ok
    v.revisedSessionTimeout ∧ Wire.ok v.serverNonce ∧ Wire.ok v.serverCertificate ∧ Wire.ok
    v.serverEndpoints ∧ Wire.ok v.signedSoftwareCertificate ∧ Wire.ok v.serverSignature ∧
    Wire.ok v.maxRequestMessageSize

instance : Wire UaCloseSessionReq where
  wire v := wire v.requestHdr ++ wire v.deleteSubscriptions
  ok v := Wire.ok v.requestHdr ∧ Wire.ok v.deleteSubscriptions

instance : Wire UaCloseSessionRsp where
  wire v := wire v.responseHdr
  ok v := Wire.ok v.responseHdr

instance : Wire UaActivateSessionReq where
  wire v := wire v.requestHdr ++ (wire v.clientSignature ++ (wire v.clientSoftwareCertificates ++ (wire
    v.localeIds ++ (wire v.userIdentityToken ++ wire v.userTokenSignature))))
  ok v := Wire.ok v.requestHdr ∧ Wire.ok v.clientSignature ∧ Wire.ok v.clientSoftwareCertificates ∧
    Wire.ok v.localeIds ∧ Wire.ok v.userIdentityToken ∧ Wire.ok v.userTokenSignature

instance : Wire UaActivateSessionRsp where
  wire v := wire v.responseHdr ++ (wire v.serverNonce ++ (wire v.results ++ wire v.diagnosticInfos))
  ok v := Wire.ok v.responseHdr ∧ Wire.ok v.serverNonce ∧ Wire.ok v.results ∧ Wire.ok
    v.diagnosticInfos

instance : Wire ReadValueId where
  wire v := wire v.nodeId ++ (wire v.attributeId ++ (wire v.indexRange ++ wire v.dataEncoding))
  ok v := Wire.ok v.nodeId ∧ Wire.ok v.attributeId ∧ Wire.ok v.indexRange ∧ Wire.ok v.dataEncoding

instance : Wire UaReadReq where
  wire v := wire v.requestHdr ++ (wire v.maxAge ++ (wire v.timestampsToReturn ++ wire v.nodesToRead))
  ok v := Wire.ok v.requestHdr ∧ Wire.ok v.maxAge ∧ Wire.ok v.timestampsToReturn ∧ Wire.ok
    v.nodesToRead

instance : Wire UaReadRsp where
  wire v := wire v.responseHdr ++ (wire v.results ++ wire v.diagnosticInfos)
  ok v := Wire.ok v.responseHdr ∧ Wire.ok v.results ∧ Wire.ok v.diagnosticInfos

/-- A message container: the type identifier, then the message. -/
instance {α : Type} [Wire α] {id : UInt32} : Wire (Cont α id) where
  wire v := wire v.eNodeId ++ wire v.msg
  ok v := Wire.ok v.eNodeId ∧ Wire.ok v.msg

end Uscada.Ua
