import Verif.UaCodec
/-!
# Model of the OPC UA messages

The structures that cross the wire and their operators in
`/repo/src/app/common/ua/common/OpcUaBinaryCodec.cpp`, lines 918-1595.  The fields are those of the
headers in `common/ua/common/types` and `common/ua/common/msg`, the encoders and decoders list the
fields in the order of the operators.  `using` aliases are replaced by the type they stand for
(`UtcTime` is `DateTime`, `Duration` is `Double`, enumerations are `Int32`, certificates are
`ByteString`, `UaAdditionalHeader` and `UaUserIdentityToken` are `ExtensionObject`,
`UaSessionAuthentificationToken` is `NodeId`).
-/

namespace Uscada.Ua

/-- types/MessageHeader.hpp:12-17. -/
structure MessageHeader where
  messageType : Bytes3
  isFinal : UInt8
  messageSize : UInt32
deriving DecidableEq, Repr

/-- MessageHeader, 918-932. -/
instance : Ua MessageHeader where
  init := ⟨Ua.init, Ua.init, Ua.init⟩
  enc v := do
    enc v.messageType
    enc v.isFinal
    enc v.messageSize
  dec old := do
    let messageType ← dec old.messageType
    let isFinal ← dec old.isFinal
    let messageSize ← dec old.messageSize
    pure { messageType, isFinal, messageSize }

/-- msg/HelloMessage.hpp:9-17. -/
structure HelloMessage where
  protocolVersion : UInt32
  receiveBufferSize : UInt32
  sendBufferSize : UInt32
  maxMessageSize : UInt32
  maxChunkCount : UInt32
  endpointUrl : Str
deriving DecidableEq, Repr

/-- HelloMessage, 934-954. -/
instance : Ua HelloMessage where
  init := ⟨Ua.init, Ua.init, Ua.init, Ua.init, Ua.init, Ua.init⟩
  enc v := do
    enc v.protocolVersion
    enc v.receiveBufferSize
    enc v.sendBufferSize
    enc v.maxMessageSize
    enc v.maxChunkCount
    enc v.endpointUrl
  dec old := do
    let protocolVersion ← dec old.protocolVersion
    let receiveBufferSize ← dec old.receiveBufferSize
    let sendBufferSize ← dec old.sendBufferSize
    let maxMessageSize ← dec old.maxMessageSize
    let maxChunkCount ← dec old.maxChunkCount
    let endpointUrl ← dec old.endpointUrl
    pure { protocolVersion, receiveBufferSize, sendBufferSize, maxMessageSize, maxChunkCount, endpointUrl }

/-- msg/AcknowledgeMessage.hpp:8-15. -/
structure AcknowledgeMessage where
  protocolVersion : UInt32
  receiveBufferSize : UInt32
  sendBufferSize : UInt32
  maxMessageSize : UInt32
  maxChunkCount : UInt32
deriving DecidableEq, Repr

/-- AcknowledgeMessage, 956-974. -/
instance : Ua AcknowledgeMessage where
  init := ⟨Ua.init, Ua.init, Ua.init, Ua.init, Ua.init⟩
  enc v := do
    enc v.protocolVersion
    enc v.receiveBufferSize
    enc v.sendBufferSize
    enc v.maxMessageSize
    enc v.maxChunkCount
  dec old := do
    let protocolVersion ← dec old.protocolVersion
    let receiveBufferSize ← dec old.receiveBufferSize
    let sendBufferSize ← dec old.sendBufferSize
    let maxMessageSize ← dec old.maxMessageSize
    let maxChunkCount ← dec old.maxChunkCount
    pure { protocolVersion, receiveBufferSize, sendBufferSize, maxMessageSize, maxChunkCount }

/-- msg/ErrorMessage.hpp:9-13. -/
structure ErrorMessage where
  error : UInt32
  reason : Str
deriving DecidableEq, Repr

/-- ErrorMessage, 976-988. -/
instance : Ua ErrorMessage where
  init := ⟨Ua.init, Ua.init⟩
  enc v := do
    enc v.error
    enc v.reason
  dec old := do
    let error ← dec old.error
    let reason ← dec old.reason
    pure { error, reason }

/-- msg/ReverseHelloMessage.hpp:8-12. -/
structure ReverseHelloMessage where
  serverUri : Str
  endpointUrl : Str
deriving DecidableEq, Repr

/-- ReverseHelloMessage, 990-1002. -/
instance : Ua ReverseHelloMessage where
  init := ⟨Ua.init, Ua.init⟩
  enc v := do
    enc v.serverUri
    enc v.endpointUrl
  dec old := do
    let serverUri ← dec old.serverUri
    let endpointUrl ← dec old.endpointUrl
    pure { serverUri, endpointUrl }

/-- types/UaMessageHeader.hpp:9-12. -/
structure UaMessageHeader where
  messageType : Bytes3
  isFinal : UInt8
  messageSize : UInt32
  secureChannelId : UInt32
deriving DecidableEq, Repr

/-- UaMessageHeader, 1004-1024. -/
instance : Ua UaMessageHeader where
  init := ⟨Ua.init, Ua.init, Ua.init, Ua.init⟩
  enc v := do
    enc v.messageType
    enc v.isFinal
    enc v.messageSize
    enc v.secureChannelId
  dec old := do
    let messageType ← dec old.messageType
    let isFinal ← dec old.isFinal
    let messageSize ← dec old.messageSize
    let secureChannelId ← dec old.secureChannelId
    pure { messageType, isFinal, messageSize, secureChannelId }

/-- types/UaSecurityHeader.hpp:8-13. -/
structure UaSecurityHeader where
  securityPolicyUri : ByteString
  senderCertificate : ByteString
  receiverCertificateThumbprint : ByteString
deriving DecidableEq, Repr

/-- UaSecurityHeader, 1026-1044. -/
instance : Ua UaSecurityHeader where
  init := ⟨Ua.init, Ua.init, Ua.init⟩
  enc v := do
    enc v.securityPolicyUri
    enc v.senderCertificate
    enc v.receiverCertificateThumbprint
  dec old := do
    let securityPolicyUri ← dec old.securityPolicyUri
    let senderCertificate ← dec old.senderCertificate
    let receiverCertificateThumbprint ← dec old.receiverCertificateThumbprint
    pure { securityPolicyUri, senderCertificate, receiverCertificateThumbprint }

/-- types/UaSecurityHeader.hpp:15-18. -/
structure UaSecurityTokenHeader where
  tokenId : UInt32
deriving DecidableEq, Repr

/-- UaSecurityTokenHeader, 1046-1060. -/
instance : Ua UaSecurityTokenHeader where
  init := ⟨Ua.init⟩
  enc v := enc v.tokenId
  dec old := do
    let tokenId ← dec old.tokenId
    pure { tokenId }

/-- types/UaSequenceHeader.hpp:9-13. -/
structure UaSequenceHeader where
  sequenceNumber : UInt32
  requestId : UInt32
deriving DecidableEq, Repr

/-- UaSequenceHeader, 1062-1078. -/
instance : Ua UaSequenceHeader where
  init := ⟨Ua.init, Ua.init⟩
  enc v := do
    enc v.sequenceNumber
    enc v.requestId
  dec old := do
    let sequenceNumber ← dec old.sequenceNumber
    let requestId ← dec old.requestId
    pure { sequenceNumber, requestId }

/-- types/UaRequestHeader.hpp:13-22. -/
structure UaRequestHeader where
  authentificationToken : NodeId
  timestamp : DateTime
  requestHandle : UInt32
  returnDignostics : UInt32
  auditEntityId : Str
  timeoutHint : UInt32
  additionalHeader : ExtensionObject
deriving DecidableEq, Repr

/-- UaRequestHeader, 1080-1106. -/
instance : Ua UaRequestHeader where
  init := ⟨Ua.init, Ua.init, Ua.init, Ua.init, Ua.init, Ua.init, Ua.init⟩
  enc v := do
    enc v.authentificationToken
    enc v.timestamp
    enc v.requestHandle
    enc v.returnDignostics
    enc v.auditEntityId
    enc v.timeoutHint
    enc v.additionalHeader
  dec old := do
    let authentificationToken ← dec old.authentificationToken
    let timestamp ← dec old.timestamp
    let requestHandle ← dec old.requestHandle
    let returnDignostics ← dec old.returnDignostics
    let auditEntityId ← dec old.auditEntityId
    let timeoutHint ← dec old.timeoutHint
    let additionalHeader ← dec old.additionalHeader
    pure { authentificationToken, timestamp, requestHandle, returnDignostics, auditEntityId, timeoutHint, additionalHeader }

/-- types/UaResponseHeader.hpp:13-21. -/
structure UaResponseHeader where
  timestamp : DateTime
  requestHandle : UInt32
  serviceResult : StatusCode
  serviceDiagnostics : DiagnosticInfo
  stringTable : List Str
  additionalHeader : ExtensionObject
deriving DecidableEq, Repr

/-- UaResponseHeader, 1188-1212. -/
instance : Ua UaResponseHeader where
  init := ⟨Ua.init, Ua.init, Ua.init, Ua.init, Ua.init, Ua.init⟩
  enc v := do
    enc v.timestamp
    enc v.requestHandle
    enc v.serviceResult
    enc v.serviceDiagnostics
    enc v.stringTable
    enc v.additionalHeader
  dec old := do
    let timestamp ← dec old.timestamp
    let requestHandle ← dec old.requestHandle
    let serviceResult ← dec old.serviceResult
    let serviceDiagnostics ← dec old.serviceDiagnostics
    let stringTable ← dec old.stringTable
    let additionalHeader ← dec old.additionalHeader
    pure { timestamp, requestHandle, serviceResult, serviceDiagnostics, stringTable, additionalHeader }

/-- msg/UaOpenSecureChannelReq.hpp:13-21. -/
structure UaOpenSecureChannelReq where
  requestHdr : UaRequestHeader
  clientProtocolVer : UInt32
  securityTokenRequestType : Int32
  securityMode : Int32
  clientNonce : ByteString
  requestLifetime : UInt32
deriving DecidableEq, Repr

/-- UaOpenSecureChannelReq, 1108-1132. -/
instance : Ua UaOpenSecureChannelReq where
  init := ⟨Ua.init, Ua.init, Ua.init, Ua.init, Ua.init, Ua.init⟩
  enc v := do
    enc v.requestHdr
    enc v.clientProtocolVer
    enc v.securityTokenRequestType
    enc v.securityMode
    enc v.clientNonce
    enc v.requestLifetime
  dec old := do
    let requestHdr ← dec old.requestHdr
    let clientProtocolVer ← dec old.clientProtocolVer
    let securityTokenRequestType ← dec old.securityTokenRequestType
    let securityMode ← dec old.securityMode
    let clientNonce ← dec old.clientNonce
    let requestLifetime ← dec old.requestLifetime
    pure { requestHdr, clientProtocolVer, securityTokenRequestType, securityMode, clientNonce, requestLifetime }

/-- msg/UaCloseSecureChannelReq.hpp:10-13. -/
structure UaCloseSecureChannelReq where
  requestHdr : UaRequestHeader
deriving DecidableEq, Repr

/-- UaCloseSecureChannelReq, 1134-1148. -/
instance : Ua UaCloseSecureChannelReq where
  init := ⟨Ua.init⟩
  enc v := enc v.requestHdr
  dec old := do
    let requestHdr ← dec old.requestHdr
    pure { requestHdr }

/-- msg/UaCloseSecureChannelRsp.hpp:9-12. -/
structure UaCloseSecureChannelRsp where
  responseHdr : UaResponseHeader
deriving DecidableEq, Repr

/-- UaCloseSecureChannelRsp, 1150-1164. -/
instance : Ua UaCloseSecureChannelRsp where
  init := ⟨Ua.init⟩
  enc v := enc v.responseHdr
  dec old := do
    let responseHdr ← dec old.responseHdr
    pure { responseHdr }

/-- types/UaChannelSecurityToken.hpp:9-15. -/
structure UaChannelSecurityToken where
  secureChannelId : UInt32
  tokenId : UInt32
  createdAt : DateTime
  revisedLifetime : UInt32
deriving DecidableEq, Repr

/-- UaChannelSecurityToken, 1166-1186. -/
instance : Ua UaChannelSecurityToken where
  init := ⟨Ua.init, Ua.init, Ua.init, Ua.init⟩
  enc v := do
    enc v.secureChannelId
    enc v.tokenId
    enc v.createdAt
    enc v.revisedLifetime
  dec old := do
    let secureChannelId ← dec old.secureChannelId
    let tokenId ← dec old.tokenId
    let createdAt ← dec old.createdAt
    let revisedLifetime ← dec old.revisedLifetime
    pure { secureChannelId, tokenId, createdAt, revisedLifetime }

/-- msg/UaOpenSecureChannelRsp.hpp:12-18. -/
structure UaOpenSecureChannelRsp where
  responseHdr : UaResponseHeader
  serverProtocolVer : UInt32
  securityToken : UaChannelSecurityToken
  serverNonce : ByteString
deriving DecidableEq, Repr

/-- UaOpenSecureChannelRsp, 1214-1234. -/
instance : Ua UaOpenSecureChannelRsp where
  init := ⟨Ua.init, Ua.init, Ua.init, Ua.init⟩
  enc v := do
    enc v.responseHdr
    enc v.serverProtocolVer
    enc v.securityToken
    enc v.serverNonce
  dec old := do
    let responseHdr ← dec old.responseHdr
    let serverProtocolVer ← dec old.serverProtocolVer
    let securityToken ← dec old.securityToken
    let serverNonce ← dec old.serverNonce
    pure { responseHdr, serverProtocolVer, securityToken, serverNonce }

/-- msg/UaGetEndpointsReq.hpp:10-16. -/
structure UaGetEndpointsReq where
  requestHdr : UaRequestHeader
  endpointUrl : Str
  localeIds : List Str
  profileUris : List Str
deriving DecidableEq, Repr

/-- UaGetEndpointsReq, 1236-1254. -/
instance : Ua UaGetEndpointsReq where
  init := ⟨Ua.init, Ua.init, Ua.init, Ua.init⟩
  enc v := do
    enc v.requestHdr
    enc v.endpointUrl
    enc v.localeIds
    enc v.profileUris
  dec old := do
    let requestHdr ← dec old.requestHdr
    let endpointUrl ← dec old.endpointUrl
    let localeIds ← dec old.localeIds
    let profileUris ← dec old.profileUris
    pure { requestHdr, endpointUrl, localeIds, profileUris }

/-- types/UaUserTokenPolicy.hpp:10-17. -/
structure UaUserTokenPolicy where
  policyId : Str
  tokenType : Int32
  issuedTokenType : Str
  issuerEndpointUrl : Str
  securityPolicyUri : Str
deriving DecidableEq, Repr

/-- UaUserTokenPolicy, 1364-1384. -/
instance : Ua UaUserTokenPolicy where
  init := ⟨Ua.init, Ua.init, Ua.init, Ua.init, Ua.init⟩
  enc v := do
    enc v.policyId
    enc v.tokenType
    enc v.issuedTokenType
    enc v.issuerEndpointUrl
    enc v.securityPolicyUri
  dec old := do
    let policyId ← dec old.policyId
    let tokenType ← dec old.tokenType
    let issuedTokenType ← dec old.issuedTokenType
    let issuerEndpointUrl ← dec old.issuerEndpointUrl
    let securityPolicyUri ← dec old.securityPolicyUri
    pure { policyId, tokenType, issuedTokenType, issuerEndpointUrl, securityPolicyUri }

/-- types/UaApplicationDescription.hpp:11-20. -/
structure UaApplicationDescription where
  applicationUri : Str
  productUri : Str
  applicationName : LocalizedText
  applicationType : Int32
  gatewayServerUri : Str
  discoveryProfileUri : Str
  discoveryUrls : List Str
deriving DecidableEq, Repr

/-- UaApplicationDescription, 1300-1324. -/
instance : Ua UaApplicationDescription where
  init := ⟨Ua.init, Ua.init, Ua.init, Ua.init, Ua.init, Ua.init, Ua.init⟩
  enc v := do
    enc v.applicationUri
    enc v.productUri
    enc v.applicationName
    enc v.applicationType
    enc v.gatewayServerUri
    enc v.discoveryProfileUri
    enc v.discoveryUrls
  dec old := do
    let applicationUri ← dec old.applicationUri
    let productUri ← dec old.productUri
    let applicationName ← dec old.applicationName
    let applicationType ← dec old.applicationType
    let gatewayServerUri ← dec old.gatewayServerUri
    let discoveryProfileUri ← dec old.discoveryProfileUri
    let discoveryUrls ← dec old.discoveryUrls
    pure { applicationUri, productUri, applicationName, applicationType, gatewayServerUri, discoveryProfileUri, discoveryUrls }

/-- types/UaEndpointDescription.hpp:13-23. -/
structure UaEndpointDescription where
  endpointUrl : Str
  server : UaApplicationDescription
  serverCertificate : ByteString
  securityMode : Int32
  securityPolicyUri : Str
  userIdentityTokens : List UaUserTokenPolicy
  transportProfileUri : Str
  securityLevel : UInt8
deriving DecidableEq, Repr

/-- UaEndpointDescription, 1272-1298. -/
instance : Ua UaEndpointDescription where
  init := ⟨Ua.init, Ua.init, Ua.init, Ua.init, Ua.init, Ua.init, Ua.init, Ua.init⟩
  enc v := do
    enc v.endpointUrl
    enc v.server
    enc v.serverCertificate
    enc v.securityMode
    enc v.securityPolicyUri
    enc v.userIdentityTokens
    enc v.transportProfileUri
    enc v.securityLevel
  dec old := do
    let endpointUrl ← dec old.endpointUrl
    let server ← dec old.server
    let serverCertificate ← dec old.serverCertificate
    let securityMode ← dec old.securityMode
    let securityPolicyUri ← dec old.securityPolicyUri
    let userIdentityTokens ← dec old.userIdentityTokens
    let transportProfileUri ← dec old.transportProfileUri
    let securityLevel ← dec old.securityLevel
    pure { endpointUrl, server, serverCertificate, securityMode, securityPolicyUri, userIdentityTokens, transportProfileUri, securityLevel }

/-- msg/UaGetEndpointsRsp.hpp:10-14. -/
structure UaGetEndpointsRsp where
  responseHdr : UaResponseHeader
  endpointDescription : List UaEndpointDescription
deriving DecidableEq, Repr

/-- UaGetEndpointsRsp, 1256-1270. -/
instance : Ua UaGetEndpointsRsp where
  init := ⟨Ua.init, Ua.init⟩
  enc v := do
    enc v.responseHdr
    enc v.endpointDescription
  dec old := do
    let responseHdr ← dec old.responseHdr
    let endpointDescription ← dec old.endpointDescription
    pure { responseHdr, endpointDescription }

/-- msg/UaCreateSessionReq.hpp:13-24. -/
structure UaCreateSessionReq where
  requestHdr : UaRequestHeader
  clientDescription : UaApplicationDescription
  serverUri : Str
  endpointUrl : Str
  sessionName : Str
  clientNonce : ByteString
  clientCertificate : ByteString
  requestedSessionTimeout : F64
  maxResponseMessageSize : UInt32
deriving DecidableEq, Repr

/-- UaCreateSessionReq, 1386-1414. -/
instance : Ua UaCreateSessionReq where
  init := ⟨Ua.init, Ua.init, Ua.init, Ua.init, Ua.init, Ua.init, Ua.init, Ua.init, Ua.init⟩
  enc v := do
    enc v.requestHdr
    enc v.clientDescription
    enc v.serverUri
    enc v.endpointUrl
    enc v.sessionName
    enc v.clientNonce
    enc v.clientCertificate
    enc v.requestedSessionTimeout
    enc v.maxResponseMessageSize
  dec old := do
    let requestHdr ← dec old.requestHdr
    let clientDescription ← dec old.clientDescription
    let serverUri ← dec old.serverUri
    let endpointUrl ← dec old.endpointUrl
    let sessionName ← dec old.sessionName
    let clientNonce ← dec old.clientNonce
    let clientCertificate ← dec old.clientCertificate
    let requestedSessionTimeout ← dec old.requestedSessionTimeout
    let maxResponseMessageSize ← dec old.maxResponseMessageSize
    pure { requestHdr, clientDescription, serverUri, endpointUrl, sessionName, clientNonce, clientCertificate, requestedSessionTimeout, maxResponseMessageSize }

/-- types/UaSignatureData.hpp:9-13. -/
structure UaSignatureData where
  algorithm : Str
  signature : ByteString
deriving DecidableEq, Repr

/-- UaSignatureData, 1416-1430. -/
instance : Ua UaSignatureData where
  init := ⟨Ua.init, Ua.init⟩
  enc v := do
    enc v.algorithm
    enc v.signature
  dec old := do
    let algorithm ← dec old.algorithm
    let signature ← dec old.signature
    pure { algorithm, signature }

/-- msg/UaCreateSessionRsp.hpp:15-27. -/
structure UaCreateSessionRsp where
  responseHdr : UaResponseHeader
  sessionId : NodeId
  authenticationToken : NodeId
  revisedSessionTimeout : F64
  serverNonce : ByteString
  serverCertificate : ByteString
  serverEndpoints : List UaEndpointDescription
  signedSoftwareCertificate : List UInt8
  serverSignature : UaSignatureData
  maxRequestMessageSize : UInt32
deriving DecidableEq, Repr

/-- UaCreateSessionRsp, 1432-1462. -/
instance : Ua UaCreateSessionRsp where
  init := ⟨Ua.init, Ua.init, Ua.init, Ua.init, Ua.init, Ua.init, Ua.init, Ua.init, Ua.init, Ua.init⟩
  enc v := do
    enc v.responseHdr
    enc v.sessionId
    enc v.authenticationToken
    enc v.revisedSessionTimeout
    enc v.serverNonce
    enc v.serverCertificate
    enc v.serverEndpoints
    enc v.signedSoftwareCertificate
    enc v.serverSignature
    enc v.maxRequestMessageSize
  dec old := do
    let responseHdr ← dec old.responseHdr
    let sessionId ← dec old.sessionId
    let authenticationToken ← dec old.authenticationToken
    let revisedSessionTimeout ← dec old.revisedSessionTimeout
    let serverNonce ← dec old.serverNonce
    let serverCertificate ← dec old.serverCertificate
    let serverEndpoints ← dec old.serverEndpoints
    let signedSoftwareCertificate ← dec old.signedSoftwareCertificate
    let serverSignature ← dec old.serverSignature
    let maxRequestMessageSize ← dec old.maxRequestMessageSize
    pure { responseHdr, sessionId, authenticationToken, revisedSessionTimeout, serverNonce, serverCertificate, serverEndpoints, signedSoftwareCertificate, serverSignature, maxRequestMessageSize }

/-- msg/UaCloseSessionReq.hpp:10-14. -/
structure UaCloseSessionReq where
  requestHdr : UaRequestHeader
  deleteSubscriptions : Bool
deriving DecidableEq, Repr

/-- UaCloseSessionReq, 1464-1478. -/
instance : Ua UaCloseSessionReq where
  init := ⟨Ua.init, Ua.init⟩
  enc v := do
    enc v.requestHdr
    enc v.deleteSubscriptions
  dec old := do
    let requestHdr ← dec old.requestHdr
    let deleteSubscriptions ← dec old.deleteSubscriptions
    pure { requestHdr, deleteSubscriptions }

/-- msg/UaCloseSessionRsp.hpp:9-12. -/
structure UaCloseSessionRsp where
  responseHdr : UaResponseHeader
deriving DecidableEq, Repr

/-- UaCloseSessionRsp, 1480-1492. -/
instance : Ua UaCloseSessionRsp where
  init := ⟨Ua.init⟩
  enc v := enc v.responseHdr
  dec old := do
    let responseHdr ← dec old.responseHdr
    pure { responseHdr }

/-- msg/UaActivateSessionReq.hpp:12-20. -/
structure UaActivateSessionReq where
  requestHdr : UaRequestHeader
  clientSignature : UaSignatureData
  clientSoftwareCertificates : List UInt8
  localeIds : List Str
  userIdentityToken : ExtensionObject
  userTokenSignature : UaSignatureData
deriving DecidableEq, Repr

/-- UaActivateSessionReq, 1494-1516. -/
instance : Ua UaActivateSessionReq where
  init := ⟨Ua.init, Ua.init, Ua.init, Ua.init, Ua.init, Ua.init⟩
  enc v := do
    enc v.requestHdr
    enc v.clientSignature
    enc v.clientSoftwareCertificates
    enc v.localeIds
    enc v.userIdentityToken
    enc v.userTokenSignature
  dec old := do
    let requestHdr ← dec old.requestHdr
    let clientSignature ← dec old.clientSignature
    let clientSoftwareCertificates ← dec old.clientSoftwareCertificates
    let localeIds ← dec old.localeIds
    let userIdentityToken ← dec old.userIdentityToken
    let userTokenSignature ← dec old.userTokenSignature
    pure { requestHdr, clientSignature, clientSoftwareCertificates, localeIds, userIdentityToken, userTokenSignature }

/-- msg/UaActivateSessionRsp.hpp:12-18. -/
structure UaActivateSessionRsp where
  responseHdr : UaResponseHeader
  serverNonce : ByteString
  results : List StatusCode
  diagnosticInfos : List DiagnosticInfo
deriving DecidableEq, Repr

/-- UaActivateSessionRsp, 1518-1536. -/
instance : Ua UaActivateSessionRsp where
  init := ⟨Ua.init, Ua.init, Ua.init, Ua.init⟩
  enc v := do
    enc v.responseHdr
    enc v.serverNonce
    enc v.results
    enc v.diagnosticInfos
  dec old := do
    let responseHdr ← dec old.responseHdr
    let serverNonce ← dec old.serverNonce
    let results ← dec old.results
    let diagnosticInfos ← dec old.diagnosticInfos
    pure { responseHdr, serverNonce, results, diagnosticInfos }

/-- types/ReadValueId.hpp:11-17. -/
structure ReadValueId where
  nodeId : NodeId
  attributeId : UInt32
  indexRange : Str
  dataEncoding : QualifiedName
deriving DecidableEq, Repr

/-- ReadValueId, 1538-1556. -/
instance : Ua ReadValueId where
  init := ⟨Ua.init, Ua.init, Ua.init, Ua.init⟩
  enc v := do
    enc v.nodeId
    enc v.attributeId
    enc v.indexRange
    enc v.dataEncoding
  dec old := do
    let nodeId ← dec old.nodeId
    let attributeId ← dec old.attributeId
    let indexRange ← dec old.indexRange
    let dataEncoding ← dec old.dataEncoding
    pure { nodeId, attributeId, indexRange, dataEncoding }

/-- msg/UaReadReq.hpp:12-18. -/
structure UaReadReq where
  requestHdr : UaRequestHeader
  maxAge : F64
  timestampsToReturn : Int32
  nodesToRead : List ReadValueId
deriving DecidableEq, Repr

/-- UaReadReq, 1558-1576. -/
instance : Ua UaReadReq where
  init := ⟨Ua.init, Ua.init, Ua.init, Ua.init⟩
  enc v := do
    enc v.requestHdr
    enc v.maxAge
    enc v.timestampsToReturn
    enc v.nodesToRead
  dec old := do
    let requestHdr ← dec old.requestHdr
    let maxAge ← dec old.maxAge
    let timestampsToReturn ← dec old.timestampsToReturn
    let nodesToRead ← dec old.nodesToRead
    pure { requestHdr, maxAge, timestampsToReturn, nodesToRead }

/-- msg/UaReadRsp.hpp:10-15. -/
structure UaReadRsp where
  responseHdr : UaResponseHeader
  results : List DataValue
  diagnosticInfos : List DiagnosticInfo
deriving DecidableEq, Repr

/-- UaReadRsp, 1578-1594. -/
instance : Ua UaReadRsp where
  init := ⟨Ua.init, Ua.init, Ua.init⟩
  enc v := do
    enc v.responseHdr
    enc v.results
    enc v.diagnosticInfos
  dec old := do
    let responseHdr ← dec old.responseHdr
    let results ← dec old.results
    let diagnosticInfos ← dec old.diagnosticInfos
    pure { responseHdr, results, diagnosticInfos }

/-- msg/UaMsgCont.hpp:8-17. -/
structure Cont (α : Type) (id : UInt32) where
  eNodeId : ExpandedNodeId
  msg : α
deriving DecidableEq, Repr

/-- The constructor, msg/UaMsgCont.hpp:11-14. -/
def Cont.make {α : Type} (id : UInt32) (msg : α) : Cont α id :=
  ⟨⟨⟨0, .numeric id⟩, none, none⟩, msg⟩

/-- OpcUaBinaryCodec.hpp:274-287: the decoded identifier is not compared with `id`. -/
instance {α : Type} [Ua α] {id : UInt32} : Ua (Cont α id) where
  init := Cont.make id Ua.init
  enc v := do
    enc v.eNodeId
    enc v.msg
  dec old := do
    let eNodeId ← dec old.eNodeId
    let msg ← dec old.msg
    pure { eNodeId, msg }

end Uscada.Ua
