import Verif.Log
/-!
# The log lines of the program

Every use of `LM` in /repo/src/app outside the unit tests and mocks, in the order of files and lines: file, line, task, level,
format and the types of the arguments, the latter read from the declarations of the variables printed.
-/

namespace Uscada.Log

/-- The `LM` lines, each with its file and line below /repo/src/app. -/
def sites : List Site := [
  ⟨"Deployer.cpp", 40, .GEN, .LE, chars! "Unexpected", []⟩,
  ⟨"Deployer.cpp", 100, .GEN, .LE, chars! "Unexpected", []⟩,
  ⟨"common/reactor/Acceptor.cpp", 87, .GEN, .LD, chars! "Close", []⟩,
  ⟨"common/reactor/Acceptor.cpp", 90, .GEN, .LE, chars! "fd del errno: %d", [.int]⟩,
  ⟨"common/reactor/Acceptor.cpp", 94, .GEN, .LE, chars! "close errno: %d", [.int]⟩,
  ⟨"common/reactor/Acceptor.cpp", 108, .GEN, .LW, chars! "Handler is undefined", []⟩,
  ⟨"common/reactor/EntityPool.hpp", 40, .GEN, .LD, chars! "Alloc %s uid=%u", [.name poolNames, .uint]⟩,
  ⟨"common/reactor/EntityPool.hpp", 46, .GEN, .LD, chars! "Release %s uid=%u", [.name poolNames, .uint]⟩,
  ⟨"common/reactor/Epoll.cpp", 60, .GEN, .LE, chars! "epoll_wait errno: %d", [.int]⟩,
  ⟨"common/reactor/Event.cpp", 36, .GEN, .LD, chars! "Close", []⟩,
  ⟨"common/reactor/Event.cpp", 39, .GEN, .LE, chars! "fd del errno: %d", [.int]⟩,
  ⟨"common/reactor/Event.cpp", 43, .GEN, .LE, chars! "close errno: %d", [.int]⟩,
  ⟨"common/reactor/Link.cpp", 80, .GEN, .LI, chars! "fd is closed", []⟩,
  ⟨"common/reactor/Link.cpp", 83, .GEN, .LD, chars! "Close fd=%d", [.int]⟩,
  ⟨"common/reactor/Link.cpp", 86, .GEN, .LE, chars! "fd del errno: %d", [.int]⟩,
  ⟨"common/reactor/Link.cpp", 90, .GEN, .LE, chars! "close errno: %d", [.int]⟩,
  ⟨"common/reactor/Link.cpp", 109, .GEN, .LE, chars! "write errno: %d", [.int]⟩,
  ⟨"common/reactor/Link.cpp", 124, .GEN, .LI, chars! "Link(%d) read EAGAIN", [.int]⟩,
  ⟨"common/reactor/Link.cpp", 129, .GEN, .LI, chars! "Link(%d) read rc: %d errno: %d", [.int, .int, .int]⟩,
  ⟨"common/reactor/Link.cpp", 144, .GEN, .LE, chars! "Handler is undefined", []⟩,
  ⟨"common/reactor/Link.cpp", 158, .GEN, .LE, chars! "fd mod", []⟩,
  ⟨"common/reactor/Reactor.cpp", 113, .CTRL, .LE, chars! "Can not push msg", []⟩,
  ⟨"common/reactor/Reactor.cpp", 145, .GEN, .LE, chars! "Mem storage is empty", []⟩,
  ⟨"common/reactor/Reactor.cpp", 160, .GEN, .LE, chars! "Can not find handler: msgId=%zu", [.size]⟩,
  ⟨"common/reactor/ReactorManager.cpp", 28, .GEN, .LE, chars! "Can not find component, compId=%zu", [.size]⟩,
  ⟨"common/reactor/ReactorManager.cpp", 39, .GEN, .LE, chars! "Can not add component, because already exists, compId=%zu", [.size]⟩,
  ⟨"common/reactor/SenderBase.hpp", 26, .GEN, .LE, chars! "Msg sender is undefined", []⟩,
  ⟨"common/reactor/Thread.cpp", 39, .GEN, .LE, chars! "pthread_attr_destroy", []⟩,
  ⟨"common/reactor/Thread.cpp", 45, .GEN, .LE, chars! "pthread_join", []⟩,
  ⟨"common/reactor/Timer.cpp", 51, .GEN, .LW, chars! "fd is invalid", []⟩,
  ⟨"common/reactor/Timer.cpp", 54, .GEN, .LD, chars! "Close", []⟩,
  ⟨"common/reactor/Timer.cpp", 57, .GEN, .LE, chars! "fd del errno: %d", [.int]⟩,
  ⟨"common/reactor/Timer.cpp", 61, .GEN, .LE, chars! "close errno: %d", [.int]⟩,
  ⟨"common/reactor/Timer.cpp", 115, .GEN, .LE, chars! "Handler is undefined", []⟩,
  ⟨"common/reactor/Timer.cpp", 121, .GEN, .LI, chars! "Timer(%d) EAGAIN", [.int]⟩,
  ⟨"common/reactor/Timer.cpp", 126, .GEN, .LE, chars! "Timer(%d) read rc: %d, errno: %d", [.int, .int, .int]⟩,
  ⟨"common/ua/common/OpcUaBinaryCodec.cpp", 364, .GEN, .LD, chars! "NodeId 2 bytes", []⟩,
  ⟨"common/ua/common/OpcUaBinaryCodec.cpp", 637, .GEN, .LE, chars! "Unexpected, %u", [.uint]⟩,
  ⟨"common/ua/common/OpcUaBinaryCodec.cpp", 658, .GEN, .LE, chars! "Unexpected", []⟩,
  ⟨"common/ua/common/OpcUaBinaryCodec.cpp", 896, .GEN, .LE, chars! "Unexpected", []⟩,
  ⟨"common/ua/common/OpcUaBinaryCodec.cpp", 1006, .UA, .LD, chars! "UaMessageHeader>>", []⟩,
  ⟨"common/ua/common/OpcUaBinaryCodec.cpp", 1017, .UA, .LD, chars! "UaMessageHeader<<", []⟩,
  ⟨"common/ua/common/OpcUaBinaryCodec.cpp", 1028, .UA, .LD, chars! "UaSecurityHeader>>", []⟩,
  ⟨"common/ua/common/OpcUaBinaryCodec.cpp", 1038, .UA, .LD, chars! "UaSecurityHeader<<", []⟩,
  ⟨"common/ua/common/OpcUaBinaryCodec.cpp", 1048, .UA, .LD, chars! "UaSecurityTokenHeader>>", []⟩,
  ⟨"common/ua/common/OpcUaBinaryCodec.cpp", 1056, .UA, .LD, chars! "UaSecurityTokenHeader<<", []⟩,
  ⟨"common/ua/common/OpcUaBinaryCodec.cpp", 1064, .UA, .LD, chars! "UaSequenceHeader>>", []⟩,
  ⟨"common/ua/common/OpcUaBinaryCodec.cpp", 1073, .UA, .LD, chars! "UaSequenceHeader<<", []⟩,
  ⟨"common/ua/common/OpcUaBinaryCodec.cpp", 1082, .UA, .LD, chars! "UaRequestHeader>>", []⟩,
  ⟨"common/ua/common/OpcUaBinaryCodec.cpp", 1096, .UA, .LD, chars! "UaRequestHeader<<", []⟩,
  ⟨"common/ua/common/OpcUaBinaryCodec.cpp", 1110, .UA, .LD, chars! "UaOpenSecureChannelReq>>", []⟩,
  ⟨"common/ua/common/OpcUaBinaryCodec.cpp", 1123, .UA, .LD, chars! "UaOpenSecureChannelReq<<", []⟩,
  ⟨"common/ua/common/OpcUaBinaryCodec.cpp", 1136, .UA, .LD, chars! "UaCloseSecureChannelReq>>", []⟩,
  ⟨"common/ua/common/OpcUaBinaryCodec.cpp", 1144, .UA, .LD, chars! "UaCloseSecureChannelReq<<", []⟩,
  ⟨"common/ua/common/OpcUaBinaryCodec.cpp", 1152, .UA, .LD, chars! "UaCloseSecureChannelRsp>>", []⟩,
  ⟨"common/ua/common/OpcUaBinaryCodec.cpp", 1160, .UA, .LD, chars! "UaCloseSecureChannelRsp<<", []⟩,
  ⟨"common/ua/common/OpcUaBinaryCodec.cpp", 1168, .UA, .LD, chars! "UaChannelSecurityToken>>", []⟩,
  ⟨"common/ua/common/OpcUaBinaryCodec.cpp", 1179, .UA, .LD, chars! "UaChannelSecurityToken<<", []⟩,
  ⟨"common/ua/common/OpcUaBinaryCodec.cpp", 1190, .UA, .LD, chars! "UaResponseHeader>>", []⟩,
  ⟨"common/ua/common/OpcUaBinaryCodec.cpp", 1203, .UA, .LD, chars! "UaResponseHeader<<", []⟩,
  ⟨"common/ua/common/OpcUaBinaryCodec.cpp", 1216, .UA, .LD, chars! "UaOpenSecureChannelRsp>>", []⟩,
  ⟨"common/ua/common/OpcUaBinaryCodec.cpp", 1227, .UA, .LD, chars! "UaOpenSecureChannelRsp<<", []⟩,
  ⟨"common/ua/common/OpcUaBinaryCodec.cpp", 1238, .UA, .LD, chars! "UaGetEndpointsReq>>", []⟩,
  ⟨"common/ua/common/OpcUaBinaryCodec.cpp", 1248, .UA, .LD, chars! "UaGetEndpointsReq<<", []⟩,
  ⟨"common/ua/common/OpcUaBinaryCodec.cpp", 1258, .UA, .LD, chars! "UaGetEndpointsRsp>>", []⟩,
  ⟨"common/ua/common/OpcUaBinaryCodec.cpp", 1266, .UA, .LD, chars! "UaGetEndpointsRsp<<", []⟩,
  ⟨"common/ua/common/OpcUaBinaryCodec.cpp", 1274, .UA, .LD, chars! "UaEndpointDescription>>", []⟩,
  ⟨"common/ua/common/OpcUaBinaryCodec.cpp", 1288, .UA, .LD, chars! "UaEndpointDescription<<", []⟩,
  ⟨"common/ua/common/OpcUaBinaryCodec.cpp", 1302, .UA, .LD, chars! "UaApplicationDescription>>", []⟩,
  ⟨"common/ua/common/OpcUaBinaryCodec.cpp", 1315, .UA, .LD, chars! "UaApplicationDescription<<", []⟩,
  ⟨"common/ua/common/OpcUaBinaryCodec.cpp", 1329, .UA, .LD, chars! "UaApplicationInstanceCertificate>>", []⟩,
  ⟨"common/ua/common/OpcUaBinaryCodec.cpp", 1347, .UA, .LD, chars! "UaApplicationInstanceCertificate<<", []⟩,
  ⟨"common/ua/common/OpcUaBinaryCodec.cpp", 1366, .UA, .LD, chars! "UaUserTokenPolicy>>", []⟩,
  ⟨"common/ua/common/OpcUaBinaryCodec.cpp", 1377, .UA, .LD, chars! "UaUserTokenPolicy<<", []⟩,
  ⟨"common/ua/common/OpcUaBinaryCodec.cpp", 1388, .UA, .LD, chars! "UaCreateSessionReq>>", []⟩,
  ⟨"common/ua/common/OpcUaBinaryCodec.cpp", 1403, .UA, .LD, chars! "UaCreateSessionReq<<", []⟩,
  ⟨"common/ua/common/OpcUaBinaryCodec.cpp", 1418, .UA, .LD, chars! "UaSignatureData>>", []⟩,
  ⟨"common/ua/common/OpcUaBinaryCodec.cpp", 1426, .UA, .LD, chars! "UaSignatureData<<", []⟩,
  ⟨"common/ua/common/OpcUaBinaryCodec.cpp", 1434, .UA, .LD, chars! "UaCreateSessionRsp>>", []⟩,
  ⟨"common/ua/common/OpcUaBinaryCodec.cpp", 1450, .UA, .LD, chars! "UaCreateSessionRsp<<", []⟩,
  ⟨"common/ua/common/OpcUaBinaryCodec.cpp", 1466, .UA, .LD, chars! "UaCloseSessionReq>>", []⟩,
  ⟨"common/ua/common/OpcUaBinaryCodec.cpp", 1474, .UA, .LD, chars! "UaCloseSessionReq<<", []⟩,
  ⟨"common/ua/common/OpcUaBinaryCodec.cpp", 1482, .UA, .LD, chars! "UaCloseSessionRsp>>", []⟩,
  ⟨"common/ua/common/OpcUaBinaryCodec.cpp", 1489, .UA, .LD, chars! "UaCloseSessionRsp<<", []⟩,
  ⟨"common/ua/common/OpcUaBinaryCodec.cpp", 1496, .UA, .LD, chars! "UaActivateSessionReq>>", []⟩,
  ⟨"common/ua/common/OpcUaBinaryCodec.cpp", 1508, .UA, .LD, chars! "UaActivateSessionReq<<", []⟩,
  ⟨"common/ua/common/OpcUaBinaryCodec.cpp", 1520, .UA, .LD, chars! "UaActivateSessionRsp>>", []⟩,
  ⟨"common/ua/common/OpcUaBinaryCodec.cpp", 1530, .UA, .LD, chars! "UaActivateSessionRsp<<", []⟩,
  ⟨"common/ua/common/OpcUaBinaryCodec.cpp", 1540, .UA, .LD, chars! "ReadeValueId>>", []⟩,
  ⟨"common/ua/common/OpcUaBinaryCodec.cpp", 1550, .UA, .LD, chars! "ReadeValueId<<", []⟩,
  ⟨"common/ua/common/OpcUaBinaryCodec.cpp", 1560, .UA, .LD, chars! "UaReadReq>>", []⟩,
  ⟨"common/ua/common/OpcUaBinaryCodec.cpp", 1570, .UA, .LD, chars! "UaReadReq<<", []⟩,
  ⟨"common/ua/common/OpcUaBinaryCodec.cpp", 1580, .UA, .LD, chars! "UaReadRsp>>", []⟩,
  ⟨"common/ua/common/OpcUaBinaryCodec.cpp", 1589, .UA, .LD, chars! "UaReadRsp<<", []⟩,
  ⟨"common/ua/common/UaEntityPool.hpp", 43, .UA, .LD, chars! "Alloc %s uid=%u", [.name poolNames, .uint]⟩,
  ⟨"common/ua/common/UaEntityPool.hpp", 49, .UA, .LD, chars! "Release %s uid=%u", [.name poolNames, .uint]⟩,
  ⟨"common/ua/protocols/connection/ClientConnection.cpp", 72, .UA, .LW, chars! "ClientConnection-0, unexpected packet type", []⟩,
  ⟨"common/ua/protocols/connection/ClientConnection.cpp", 83, .UA, .LD, chars! "ClientConnection-0, received AcknowledgeMessage", []⟩,
  ⟨"common/ua/protocols/connection/ClientConnection.cpp", 110, .UA, .LD, chars! "ClientConnection-0, send HelloMessage, pkt size(%u)", [.uint]⟩,
  ⟨"common/ua/protocols/connection/ClientConnectionConnecting.cpp", 21, .UA, .LE, chars! "Unexpected", []⟩,
  ⟨"common/ua/protocols/connection/ClientConnectionConnecting.cpp", 42, .UA, .LW, chars! "onError", []⟩,
  ⟨"common/ua/protocols/connection/ClientConnectionConnecting.cpp", 49, .UA, .LW, chars! "onTimer", []⟩,
  ⟨"common/ua/protocols/connection/ClientConnectionState.hpp", 18, .UA, .LE, chars! "Unexpected", []⟩,
  ⟨"common/ua/protocols/connection/ClientConnectionState.hpp", 20, .UA, .LE, chars! "Unexpected", []⟩,
  ⟨"common/ua/protocols/connection/ClientConnectionState.hpp", 22, .UA, .LE, chars! "Unexpected", []⟩,
  ⟨"common/ua/protocols/connection/ClientConnectionState.hpp", 24, .UA, .LE, chars! "Unexpected", []⟩,
  ⟨"common/ua/protocols/connection/ClientConnectionState.hpp", 26, .UA, .LE, chars! "Unexpected", []⟩,
  ⟨"common/ua/protocols/connection/ClientConnectionState.hpp", 28, .UA, .LE, chars! "Unexpected", []⟩,
  ⟨"common/ua/protocols/connection/OpcUaConnection.cpp", 60, .UA, .LI, chars! "send return: %d", [.int]⟩,
  ⟨"common/ua/protocols/connection/OpcUaConnection.cpp", 76, .UA, .LW, chars! "Received packet is invalid", []⟩,
  ⟨"common/ua/protocols/connection/OpcUaConnection.cpp", 106, .UA, .LW, chars! "Packet has invalid size", []⟩,
  ⟨"common/ua/protocols/connection/ServerConnection.cpp", 73, .UA, .LD, chars! "ServerConnection-0, sendReverseHello, size(%u)", [.uint]⟩,
  ⟨"common/ua/protocols/connection/ServerConnection.cpp", 98, .UA, .LW, chars! "ServerConnection-0, unexpected packet type", []⟩,
  ⟨"common/ua/protocols/connection/ServerConnection.cpp", 134, .UA, .LD, chars! "ServerConnection-0, send AcknowledgeMessage, size(%u)", [.uint]⟩,
  ⟨"common/ua/protocols/connection/ServerConnectionConnecting.cpp", 21, .UA, .LE, chars! "Unexpected", []⟩,
  ⟨"common/ua/protocols/connection/ServerConnectionConnecting.cpp", 41, .UA, .LW, chars! "onError", []⟩,
  ⟨"common/ua/protocols/connection/ServerConnectionConnecting.cpp", 48, .UA, .LW, chars! "onTimer", []⟩,
  ⟨"common/ua/protocols/connection/ServerConnectionReceiveHello.cpp", 27, .UA, .LE, chars! "Unexpected", []⟩,
  ⟨"common/ua/protocols/connection/ServerConnectionReceiveHello.cpp", 57, .UA, .LW, chars! "onTimer", []⟩,
  ⟨"common/ua/protocols/connection/ServerConnectionState.hpp", 19, .UA, .LE, chars! "Unexpected", []⟩,
  ⟨"common/ua/protocols/connection/ServerConnectionState.hpp", 21, .UA, .LE, chars! "Unexpected", []⟩,
  ⟨"common/ua/protocols/connection/ServerConnectionState.hpp", 23, .UA, .LE, chars! "Unexpected", []⟩,
  ⟨"common/ua/protocols/connection/ServerConnectionState.hpp", 25, .UA, .LE, chars! "Unexpected", []⟩,
  ⟨"common/ua/protocols/connection/ServerConnectionState.hpp", 27, .UA, .LE, chars! "Unexpected", []⟩,
  ⟨"common/ua/protocols/connection/ServerConnectionState.hpp", 29, .UA, .LE, chars! "Unexpected", []⟩,
  ⟨"common/ua/protocols/connection/ServerConnectionState.hpp", 31, .UA, .LE, chars! "Unexpected", []⟩,
  ⟨"common/ua/protocols/secure/OpcUaClientSecureChannel.cpp", 87, .UA, .LD, chars! "OpcUaClientSecureChannel-0, send UaOpenSecureChannelReq, pkt size(%u)", [.uint]⟩,
  ⟨"common/ua/protocols/secure/OpcUaClientSecureChannel.cpp", 97, .UA, .LE, chars! "OpcUaClientSecureChannel-0, unexpected packet type", []⟩,
  ⟨"common/ua/protocols/secure/OpcUaClientSecureChannelConnecting.cpp", 15, .UA, .LE, chars! "Unexpected", []⟩,
  ⟨"common/ua/protocols/secure/OpcUaClientSecureChannelState.hpp", 18, .UA, .LE, chars! "Unexpected", []⟩,
  ⟨"common/ua/protocols/secure/OpcUaClientSecureChannelState.hpp", 20, .UA, .LE, chars! "Unexpected", []⟩,
  ⟨"common/ua/protocols/secure/OpcUaClientSecureChannelState.hpp", 22, .UA, .LE, chars! "Unexpected", []⟩,
  ⟨"common/ua/protocols/secure/OpcUaClientSecureChannelState.hpp", 24, .UA, .LE, chars! "Unexpected", []⟩,
  ⟨"common/ua/protocols/secure/OpcUaClientSecureChannelState.hpp", 26, .UA, .LE, chars! "Unexpected", []⟩,
  ⟨"common/ua/protocols/secure/OpcUaServerSecureChannel.cpp", 42, .UA, .LE, chars! "OpcUaServerSecureChannel-0, unexpected packet type", []⟩,
  ⟨"common/ua/protocols/secure/OpcUaServerSecureChannel.cpp", 119, .UA, .LE, chars! "OpcUaServerSecureChannel-0, unexpected tokenId", []⟩,
  ⟨"common/ua/protocols/secure/OpcUaServerSecureChannel.cpp", 128, .UA, .LE, chars! "OpcUaServerSecureChannel-0, unexpected sequenceNumber", []⟩,
  ⟨"common/ua/protocols/secure/OpcUaServerSecureChannel.cpp", 147, .UA, .LE, chars! "OpcUaServerSecureChannel-0, unexpected tokenId", []⟩,
  ⟨"common/ua/protocols/secure/OpcUaServerSecureChannel.cpp", 156, .UA, .LE, chars! "OpcUaServerSecureChannel-0, unexpected sequenceNumber", []⟩,
  ⟨"common/ua/protocols/secure/OpcUaServerSecureChannel.cpp", 237, .UA, .LD, chars! "OpcUaServerSecureChannel-0, send UaOpenSecureChannelRsp, pkt size(%u)", [.uint]⟩,
  ⟨"common/ua/protocols/secure/OpcUaServerSecureChannelState.hpp", 18, .UA, .LE, chars! "Unexpected", []⟩,
  ⟨"common/ua/protocols/secure/OpcUaServerSecureChannelState.hpp", 20, .UA, .LE, chars! "Unexpected", []⟩,
  ⟨"common/ua/protocols/secure/OpcUaServerSecureChannelState.hpp", 22, .UA, .LE, chars! "Unexpected", []⟩,
  ⟨"common/ua/protocols/secure/OpcUaServerSecureChannelState.hpp", 24, .UA, .LE, chars! "Unexpected", []⟩,
  ⟨"common/ua/protocols/secure/OpcUaServerSecureChannelState.hpp", 26, .UA, .LE, chars! "Unexpected", []⟩,
  ⟨"common/ua/protocols/secure/OpcUaServerSecureChannelState.hpp", 28, .UA, .LE, chars! "Unexpected", []⟩,
  ⟨"common/ua/protocols/secure/OpcUaServerSecureChannelState.hpp", 30, .UA, .LE, chars! "Unexpected", []⟩,
  ⟨"common/utils/FsmBase.hpp", 28, .GEN, .LE, chars! "FSM %s: invalid transition", [.name fsmNames]⟩,
  ⟨"common/utils/FsmBase.hpp", 31, .GEN, .LI, chars! "FSM %s: transit %s -> %s", [.name fsmNames, .name stateNames, .name stateNames]⟩,
  ⟨"controller/ControllerComponent.cpp", 40, .CTRL, .LD, chars! "ControllerStartReq received", []⟩,
  ⟨"controller/ControllerComponent.cpp", 51, .CTRL, .LD, chars! "ControllerStopReq received", []⟩,
  ⟨"controller/ControllerComponent.cpp", 60, .CTRL, .LD, chars! "ModbusInitRsp received", []⟩,
  ⟨"controller/ControllerComponent.cpp", 67, .CTRL, .LD, chars! "ModbusReleaseRsp received", []⟩,
  ⟨"controller/ControllerComponent.cpp", 74, .CTRL, .LD, chars! "ModbusConfigRsp received", []⟩,
  ⟨"controller/ControllerComponent.cpp", 81, .CTRL, .LD, chars! "ModbusClientAduRsp received", []⟩,
  ⟨"controller/ControllerComponent.cpp", 88, .CTRL, .LD, chars! "ModbusAduReq received", []⟩,
  ⟨"controller/ControllerComponent.cpp", 95, .CTRL, .LD, chars! "UaSecureChannelInitRsp received", []⟩,
  ⟨"controller/ControllerComponent.cpp", 103, .CTRL, .LD, chars! "UaSecureChannelConfigRsp received", []⟩,
  ⟨"controller/ControllerComponent.cpp", 111, .CTRL, .LD, chars! "UaSecureChannelReleaseRsp received", []⟩,
  ⟨"controller/ControllerComponent.cpp", 119, .CTRL, .LD, chars! "UaTransportInitRsp received", []⟩,
  ⟨"controller/ControllerComponent.cpp", 127, .CTRL, .LD, chars! "UaTransportConfigRsp received", []⟩,
  ⟨"controller/ControllerComponent.cpp", 135, .CTRL, .LD, chars! "UaTransportReleaseRsp received", []⟩,
  ⟨"controller/ControllerComponent.cpp", 143, .CTRL, .LD, chars! "UaServiceInitRsp received", []⟩,
  ⟨"controller/ControllerComponent.cpp", 151, .CTRL, .LD, chars! "UaServiceConfigRsp received", []⟩,
  ⟨"controller/ControllerComponent.cpp", 159, .CTRL, .LD, chars! "UaServiceReleaseRsp received", []⟩,
  ⟨"controller/modbus/ModbusTestController.cpp", 221, .CTRL, .LD, chars! "TEST CASE: %u, func-%s, startItem-%u, numItems-%u", [.uint, .name functionNames, .uint, .uint]⟩,
  ⟨"controller/modbus/ModbusTestController.cpp", 250, .CTRL, .LE, chars! "TEST CASE: %u, INVALID clientId", [.uint]⟩,
  ⟨"controller/modbus/ModbusTestController.cpp", 256, .CTRL, .LE, chars! "TEST CASE: %u, INVALID status", [.uint]⟩,
  ⟨"controller/modbus/ModbusTestController.cpp", 262, .CTRL, .LE, chars! "TEST CASE: %u, INVALID modbus error", [.uint]⟩,
  ⟨"controller/modbus/ModbusTestController.cpp", 275, .CTRL, .LE, chars! "TEST CASE: %u, INVALID numBytes", [.uint]⟩,
  ⟨"controller/modbus/ModbusTestController.cpp", 280, .CTRL, .LE, chars! "TEST CASE: %u, INVALID data", [.uint]⟩,
  ⟨"controller/modbus/ModbusTestController.cpp", 289, .CTRL, .LE, chars! "TEST CASE: %u, INVALID numBytes", [.uint]⟩,
  ⟨"controller/modbus/ModbusTestController.cpp", 294, .CTRL, .LE, chars! "TEST CASE: %u, INVALID data", [.uint]⟩,
  ⟨"controller/modbus/ModbusTestController.cpp", 303, .CTRL, .LE, chars! "TEST CASE: %u, INVALID numBytes", [.uint]⟩,
  ⟨"controller/modbus/ModbusTestController.cpp", 308, .CTRL, .LE, chars! "TEST CASE: %u, INVALID data", [.uint]⟩,
  ⟨"controller/modbus/ModbusTestController.cpp", 314, .CTRL, .LE, chars! "TEST CASE: %u, Unexpected", [.uint]⟩,
  ⟨"controller/modbus/ModbusTestFsm.hpp", 35, .CTRL, .LE, chars! "Invalid transition", []⟩,
  ⟨"controller/modbus/ModbusTestFsm.hpp", 38, .CTRL, .LD, chars! "Transit: %s -> %s", [.name stateNames, .name stateNames]⟩,
  ⟨"controller/modbus/ModbusTestState.hpp", 23, .CTRL, .LE, chars! "Unexpected call", []⟩,
  ⟨"controller/modbus/ModbusTestState.hpp", 25, .CTRL, .LE, chars! "Unexpected call", []⟩,
  ⟨"controller/modbus/ModbusTestState.hpp", 27, .CTRL, .LE, chars! "Unexpected call", []⟩,
  ⟨"controller/modbus/ModbusTestState.hpp", 29, .CTRL, .LE, chars! "Unexpected call", []⟩,
  ⟨"controller/modbus/ModbusTestState.hpp", 31, .CTRL, .LE, chars! "Unexpected call", []⟩,
  ⟨"controller/modbus/ModbusTestState.hpp", 33, .CTRL, .LE, chars! "Unexpected call", []⟩,
  ⟨"controller/modbus/ModbusTestState.hpp", 35, .CTRL, .LE, chars! "Unexpected call", []⟩,
  ⟨"controller/modbus/ModbusTestState.hpp", 37, .CTRL, .LE, chars! "Unexpected call", []⟩,
  ⟨"controller/ua/UaControllerState.hpp", 29, .CTRL, .LE, chars! "Unexpected", []⟩,
  ⟨"controller/ua/UaControllerState.hpp", 30, .CTRL, .LE, chars! "Unexpected", []⟩,
  ⟨"controller/ua/UaControllerState.hpp", 31, .CTRL, .LE, chars! "Unexpected", []⟩,
  ⟨"controller/ua/UaControllerState.hpp", 32, .CTRL, .LE, chars! "Unexpected", []⟩,
  ⟨"controller/ua/UaControllerState.hpp", 33, .CTRL, .LE, chars! "Unexpected", []⟩,
  ⟨"controller/ua/UaControllerState.hpp", 34, .CTRL, .LE, chars! "Unexpected", []⟩,
  ⟨"controller/ua/UaControllerState.hpp", 35, .CTRL, .LE, chars! "Unexpected", []⟩,
  ⟨"controller/ua/UaControllerState.hpp", 36, .CTRL, .LE, chars! "Unexpected", []⟩,
  ⟨"controller/ua/UaControllerState.hpp", 37, .CTRL, .LE, chars! "Unexpected", []⟩,
  ⟨"controller/ua/UaControllerState.hpp", 38, .CTRL, .LE, chars! "Unexpected", []⟩,
  ⟨"controller/ua/UaControllerState.hpp", 39, .CTRL, .LE, chars! "Unexpected", []⟩,
  ⟨"modbus/Modbus.cpp", 13, .MODBUS, .LD, chars! "Init maxNumServers: %zu, maxNumClients: %zu", [.size, .size]⟩,
  ⟨"modbus/Modbus.cpp", 31, .MODBUS, .LE, chars! "Invalid serverId, %u", [.uint]⟩,
  ⟨"modbus/Modbus.cpp", 43, .MODBUS, .LE, chars! "Invalid clientId, %u", [.uint]⟩,
  ⟨"modbus/Modbus.cpp", 73, .MODBUS, .LE, chars! "Invalid clientId, %u", [.uint]⟩,
  ⟨"modbus/Modbus.cpp", 92, .MODBUS, .LE, chars! "Invalid serverId, %u", [.uint]⟩,
  ⟨"modbus/ModbusCodec.cpp", 41, .MODBUS, .LE, chars! "ADU encode, unsupported function (%s)", [.name functionNames]⟩,
  ⟨"modbus/ModbusCodec.cpp", 71, .MODBUS, .LE, chars! "ADU encode, unexpected slave address(%u)", [.uint]⟩,
  ⟨"modbus/ModbusCodec.cpp", 83, .MODBUS, .LE, chars! "ADU encode, unexpected number of items(%u) in request", [.uint]⟩,
  ⟨"modbus/ModbusCodec.cpp", 100, .MODBUS, .LW, chars! "ADU encode, unexpected number items", []⟩,
  ⟨"modbus/ModbusCodec.cpp", 105, .MODBUS, .LW, chars! "ADU encode, unexpected number of bytes", []⟩,
  ⟨"modbus/ModbusCodec.cpp", 114, .MODBUS, .LW, chars! "ADU encode, expected value is 0xFF00 | 0x0000, but given %u", [.uint]⟩,
  ⟨"modbus/ModbusCodec.cpp", 132, .MODBUS, .LE, chars! "ADU encode, unexpected number of bytes", []⟩,
  ⟨"modbus/ModbusCodec.cpp", 152, .MODBUS, .LE, chars! "ADU encode, unsupported function (%s)", [.name functionNames]⟩,
  ⟨"modbus/ModbusCodec.cpp", 158, .MODBUS, .LE, chars! "ADU encode, unexpected size of ADU(%u)", [.uint]⟩,
  ⟨"modbus/ModbusCodec.cpp", 169, .MODBUS, .LW, chars! "ADU decode, unexpected protocol id", []⟩,
  ⟨"modbus/ModbusCodec.cpp", 176, .MODBUS, .LE, chars! "ADU decode, unexpected slave address(%u)", [.uint]⟩,
  ⟨"modbus/ModbusCodec.cpp", 189, .MODBUS, .LW, chars! "ADU decode, unexpected length of packet %u", [.uint]⟩,
  ⟨"modbus/ModbusCodec.cpp", 196, .MODBUS, .LE, chars! "ADU decode, unexpected number of items(%u) in request", [.uint]⟩,
  ⟨"modbus/ModbusCodec.cpp", 206, .MODBUS, .LW, chars! "ADU decode, unexpected length of packet %u", [.uint]⟩,
  ⟨"modbus/ModbusCodec.cpp", 222, .MODBUS, .LW, chars! "ADU encode, unexpected number of bytes", []⟩,
  ⟨"modbus/ModbusCodec.cpp", 227, .MODBUS, .LW, chars! "ADU decode, unexpected length of packet %u", [.uint]⟩,
  ⟨"modbus/ModbusCodec.cpp", 239, .MODBUS, .LE, chars! "ADU decode, unsupported function (%s)", [.name functionNames]⟩,
  ⟨"modbus/ModbusCodec.cpp", 272, .MODBUS, .LW, chars! "ADU encode, unexpected number of bytes: %u", [.uint]⟩,
  ⟨"modbus/ModbusCodec.cpp", 287, .MODBUS, .LW, chars! "ADU encode, unexpected number of bytes", []⟩,
  ⟨"modbus/ModbusCodec.cpp", 296, .MODBUS, .LW, chars! "ADU encode, expected value is 0xFF00 | 0x0000, but given %u", [.uint]⟩,
  ⟨"modbus/ModbusCodec.cpp", 323, .MODBUS, .LE, chars! "ADU encode, unsupported function (%s)", [.name functionNames]⟩,
  ⟨"modbus/ModbusCodec.cpp", 330, .MODBUS, .LE, chars! "ADU encode, unexpected size of ADU(%u)", [.uint]⟩,
  ⟨"modbus/ModbusCodec.cpp", 341, .MODBUS, .LW, chars! "ADU decode, unexpected protocol id", []⟩,
  ⟨"modbus/ModbusCodec.cpp", 361, .MODBUS, .LW, chars! "ADU decode, unexpected number of bytes: %u", [.uint]⟩,
  ⟨"modbus/ModbusCodec.cpp", 366, .MODBUS, .LW, chars! "ADU decode, unexpected number of bytes: %u", [.uint]⟩,
  ⟨"modbus/ModbusCodec.cpp", 381, .MODBUS, .LW, chars! "ADU decode, unexpected length of packet %u", [.uint]⟩,
  ⟨"modbus/ModbusCodec.cpp", 394, .MODBUS, .LW, chars! "ADU decode, unexpected length of packet %u", [.uint]⟩,
  ⟨"modbus/ModbusCodec.cpp", 403, .MODBUS, .LE, chars! "ADU decode, unsupported function (%s)", [.name functionNames]⟩,
  ⟨"modbus/ModbusComponent.cpp", 40, .MODBUS, .LD, chars! "ModbusInitReq received", []⟩,
  ⟨"modbus/ModbusComponent.cpp", 51, .MODBUS, .LD, chars! "ModbusReleaseReq received", []⟩,
  ⟨"modbus/ModbusComponent.cpp", 61, .MODBUS, .LD, chars! "ModbusConfigReq received", []⟩,
  ⟨"modbus/ModbusComponent.cpp", 69, .MODBUS, .LD, chars! "ModbusClientAduReq received", []⟩,
  ⟨"modbus/ModbusComponent.cpp", 77, .MODBUS, .LD, chars! "ModbusAduRsp received", []⟩,
  ⟨"modbus/client/ModbusAduStorage.cpp", 29, .MODBUS, .LE, chars! "Storage is full", []⟩,
  ⟨"modbus/client/ModbusAduStorage.cpp", 36, .MODBUS, .LE, chars! "Invalid number of bytes, %u", [.uint]⟩,
  ⟨"modbus/client/ModbusAduStorage.cpp", 57, .MODBUS, .LE, chars! "Storage is empty", []⟩,
  ⟨"modbus/client/ModbusAduStorage.cpp", 66, .MODBUS, .LE, chars! "Storage is empty", []⟩,
  ⟨"modbus/client/ModbusClient.cpp", 26, .MODBUS, .LD, chars! "~ModbusClient", []⟩,
  ⟨"modbus/client/ModbusClient.cpp", 60, .MODBUS, .LE, chars! "Client-%u, encode error", [.uint]⟩,
  ⟨"modbus/client/ModbusClient.cpp", 66, .MODBUS, .LD, chars! "Client-%u, TX ADU %s", [.uint, .frame]⟩,
  ⟨"modbus/client/ModbusClient.cpp", 71, .MODBUS, .LI, chars! "Client-%u, send return: %d", [.uint, .int]⟩,
  ⟨"modbus/client/ModbusClient.cpp", 86, .MODBUS, .LW, chars! "Client-%u, received ADU is invalid", [.uint]⟩,
  ⟨"modbus/client/ModbusClient.cpp", 104, .MODBUS, .LW, chars! "Client-%u, received ADU is unexpected", [.uint]⟩,
  ⟨"modbus/client/ModbusClient.cpp", 119, .MODBUS, .LW, chars! "Client-%u, ADU data len is invalid", [.uint]⟩,
  ⟨"modbus/client/ModbusClient.cpp", 132, .MODBUS, .LW, chars! "Client-%u, ADU is invalid", [.uint]⟩,
  ⟨"modbus/client/ModbusClient.cpp", 137, .MODBUS, .LD, chars! "Client-%u, RX ADU %s", [.uint, .frame]⟩,
  ⟨"modbus/client/ModbusClient.cpp", 142, .MODBUS, .LW, chars! "Client-%u, ADU decode error", [.uint]⟩,
  ⟨"modbus/client/ModbusClient.cpp", 148, .MODBUS, .LW, chars! "Client-%u, unexpected transaction %u vs %u", [.uint, .uint, .uint]⟩,
  ⟨"modbus/client/ModbusClient.cpp", 155, .MODBUS, .LW, chars! "Client-%u, unexpected slave addr %u vs %u", [.uint, .uint, .uint]⟩,
  ⟨"modbus/client/ModbusClient.cpp", 162, .MODBUS, .LW, chars! "Client-%u, modbus error code (%s)", [.uint, .name errorNames]⟩,
  ⟨"modbus/client/ModbusClient.cpp", 169, .MODBUS, .LW, chars! "Client-%u, unexpected function %s vs %s", [.uint, .name functionNames, .name functionNames]⟩,
  ⟨"modbus/client/ModbusClient.cpp", 192, .MODBUS, .LI, chars! "Client-%u, ADU storage is empty", [.uint]⟩,
  ⟨"modbus/client/ModbusClient.cpp", 214, .MODBUS, .LD, chars! "Client-%u, ADU storage is empty", [.uint]⟩,
  ⟨"modbus/client/ModbusClient.cpp", 243, .MODBUS, .LD, chars! "Client-%u, start", [.uint]⟩,
  ⟨"modbus/client/ModbusClient.cpp", 262, .MODBUS, .LE, chars! "Client-%u, can not store transaction", [.uint]⟩,
  ⟨"modbus/client/ModbusClientConnected.cpp", 29, .MODBUS, .LE, chars! "Unexpected", []⟩,
  ⟨"modbus/client/ModbusClientFsm.hpp", 35, .MODBUS, .LE, chars! "Invalid transition", []⟩,
  ⟨"modbus/client/ModbusClientFsm.hpp", 38, .MODBUS, .LD, chars! "Transit: %s -> %s", [.name stateNames, .name stateNames]⟩,
  ⟨"modbus/client/ModbusClientReceive.cpp", 38, .MODBUS, .LE, chars! "Unexpected", []⟩,
  ⟨"modbus/client/ModbusClientReceive.cpp", 50, .MODBUS, .LI, chars! "onTimer", []⟩,
  ⟨"modbus/client/ModbusClientSend.cpp", 33, .MODBUS, .LE, chars! "Unexpected", []⟩,
  ⟨"modbus/client/ModbusClientState.hpp", 17, .MODBUS, .LE, chars! "Unexpected call", []⟩,
  ⟨"modbus/client/ModbusClientState.hpp", 19, .MODBUS, .LE, chars! "Unexpected call", []⟩,
  ⟨"modbus/client/ModbusClientState.hpp", 21, .MODBUS, .LE, chars! "Unexpected call", []⟩,
  ⟨"modbus/client/ModbusClientState.hpp", 23, .MODBUS, .LE, chars! "Unexpected call", []⟩,
  ⟨"modbus/client/ModbusClientState.hpp", 25, .MODBUS, .LE, chars! "Unexpected call", []⟩,
  ⟨"modbus/client/ModbusClientState.hpp", 27, .MODBUS, .LE, chars! "Unexpected call", []⟩,
  ⟨"modbus/server/ModbusServer.cpp", 21, .MODBUS, .LD, chars! "~ModbusServer", []⟩,
  ⟨"modbus/server/ModbusServer.cpp", 26, .MODBUS, .LD, chars! "Server-%u, start", [.uint]⟩,
  ⟨"modbus/server/ModbusServer.cpp", 40, .MODBUS, .LD, chars! "Server-%u, ModbusAduRsp received", [.uint]⟩,
  ⟨"modbus/server/ModbusServer.cpp", 50, .MODBUS, .LE, chars! "Server-%u, can not alloc session from pool", [.uint]⟩,
  ⟨"modbus/server/ModbusServer.cpp", 62, .MODBUS, .LD, chars! "Server-%u, remove session-%u", [.uint, .uint]⟩,
  ⟨"modbus/server/ModbusSessionPool.cpp", 28, .MODBUS, .LD, chars! "Alloc session-%u", [.uint]⟩,
  ⟨"modbus/server/ModbusSessionPool.cpp", 35, .MODBUS, .LD, chars! "Release session-%u", [.uint]⟩,
  ⟨"modbus/server/session/ModbusSession.cpp", 57, .MODBUS, .LE, chars! "Session-%u, unexpected", [.uint]⟩,
  ⟨"modbus/server/session/ModbusSession.cpp", 88, .MODBUS, .LW, chars! "Client-%u, received ADU is invalid", [.uint]⟩,
  ⟨"modbus/server/session/ModbusSession.cpp", 125, .MODBUS, .LW, chars! "Session-%u, PDU is invalid", [.uint]⟩,
  ⟨"modbus/server/session/ModbusSession.cpp", 130, .MODBUS, .LD, chars! "Session-%u, RX PDU %s", [.uint, .frame]⟩,
  ⟨"modbus/server/session/ModbusSession.cpp", 134, .MODBUS, .LW, chars! "Session-%u, ADU decode error", [.uint]⟩,
  ⟨"modbus/server/session/ModbusSession.cpp", 160, .MODBUS, .LE, chars! "Session-%u, transactId is unexpected %u vs %u", [.uint, .uint, .uint]⟩,
  ⟨"modbus/server/session/ModbusSession.cpp", 167, .MODBUS, .LE, chars! "Session-%u, modbusAduRsp error status", [.uint]⟩,
  ⟨"modbus/server/session/ModbusSession.cpp", 186, .MODBUS, .LE, chars! "Session-%u, ADU decode error", [.uint]⟩,
  ⟨"modbus/server/session/ModbusSession.cpp", 193, .MODBUS, .LE, chars! "Session-%u, PDU is invalid", [.uint]⟩,
  ⟨"modbus/server/session/ModbusSession.cpp", 198, .MODBUS, .LD, chars! "Session-%u, TX PDU %s", [.uint, .frame]⟩,
  ⟨"modbus/server/session/ModbusSession.cpp", 203, .MODBUS, .LI, chars! "Client-%u, send return: %d", [.uint, .int]⟩,
  ⟨"modbus/server/session/ModbusSessionConnected.cpp", 37, .MODBUS, .LE, chars! "Unexpected", []⟩,
  ⟨"modbus/server/session/ModbusSessionFsm.hpp", 35, .MODBUS, .LE, chars! "Invalid transition", []⟩,
  ⟨"modbus/server/session/ModbusSessionFsm.hpp", 38, .MODBUS, .LD, chars! "Transit: %s -> %s", [.name stateNames, .name stateNames]⟩,
  ⟨"modbus/server/session/ModbusSessionState.hpp", 18, .MODBUS, .LE, chars! "Unexpected call", []⟩,
  ⟨"modbus/server/session/ModbusSessionState.hpp", 20, .MODBUS, .LE, chars! "Unexpected call", []⟩,
  ⟨"modbus/server/session/ModbusSessionState.hpp", 22, .MODBUS, .LE, chars! "Unexpected call", []⟩,
  ⟨"modbus/server/session/ModbusSessionState.hpp", 24, .MODBUS, .LE, chars! "Unexpected call", []⟩,
  ⟨"modbus/server/session/ModbusSessionWaitModbusAduRsp.cpp", 26, .MODBUS, .LE, chars! "Unexpected", []⟩,
  ⟨"modbus/server/session/ModbusSessionWaitModbusAduRsp.cpp", 48, .MODBUS, .LE, chars! "Unexpected", []⟩,
  ⟨"modbus/server/session/ModbusSessionWaitModbusAduRsp.cpp", 56, .MODBUS, .LE, chars! "onTimer", []⟩,
  ⟨"ua/securechannel/UaSecureChannel.cpp", 31, .UASC, .LD, chars! "Can not alloc channel", []⟩,
  ⟨"ua/securechannel/UaSecureChannelComponent.cpp", 35, .UASC, .LD, chars! "UaSecureChannelInitReq received", []⟩,
  ⟨"ua/securechannel/UaSecureChannelComponent.cpp", 45, .UASC, .LD, chars! "UaSecureChannelReleaseReq received", []⟩,
  ⟨"ua/securechannel/UaSecureChannelComponent.cpp", 55, .UASC, .LD, chars! "UaSecureChannelConfigReq received", []⟩,
  ⟨"ua/securechannel/UaSecureChannelComponent.cpp", 63, .UASC, .LD, chars! "UaOpenSecureChannelReq received", []⟩,
  ⟨"ua/securechannel/UaSecureChannelComponent.cpp", 71, .UASC, .LD, chars! "UaCloseSecureChannelReq received", []⟩,
  ⟨"ua/securechannel/UaSecureChannelComponent.cpp", 79, .UASC, .LD, chars! "UaAssociateSecureChannelReq received", []⟩,
  ⟨"ua/securechannel/UaSecureChannelComponent.cpp", 87, .UASC, .LD, chars! "UaSecuredMessageReceiveInd received", []⟩,
  ⟨"ua/securechannel/UaSecureChannelComponent.cpp", 95, .UASC, .LD, chars! "UaEncodedMessageSendReq received", []⟩,
  ⟨"ua/securechannel/UaSecureChannelComponent.cpp", 103, .UASC, .LD, chars! "UaConnectionReleaseInd received", []⟩,
  ⟨"ua/securechannel/channel/UaServerSecureChannel.cpp", 96, .UASC, .LE, chars! "Uid-%u, unexpected connectionId", [.uint]⟩,
  ⟨"ua/securechannel/channel/UaServerSecureChannel.cpp", 111, .UASC, .LE, chars! "Uid-%u, unexpected tokenId", [.uint]⟩,
  ⟨"ua/securechannel/channel/UaServerSecureChannel.cpp", 120, .UASC, .LE, chars! "Uid-%u, unexpected sequenceNumber", [.uint]⟩,
  ⟨"ua/securechannel/channel/UaServerSecureChannel.cpp", 161, .UASC, .LE, chars! "Uid-%u, unexpected connectionId", [.uint]⟩,
  ⟨"ua/securechannel/channel/UaServerSecureChannel.cpp", 173, .UASC, .LE, chars! "Uid-%u, unexpected connectionId", [.uint]⟩,
  ⟨"ua/securechannel/channel/UaServerSecureChannel.cpp", 188, .UASC, .LE, chars! "Uid-%u, unexpected tokenId", [.uint]⟩,
  ⟨"ua/securechannel/channel/UaServerSecureChannel.cpp", 197, .UASC, .LE, chars! "Uid-%u, unexpected sequenceNumber", [.uint]⟩,
  ⟨"ua/securechannel/channel/UaServerSecureChannel.cpp", 219, .UASC, .LE, chars! "Uid-%u, unexpected connectionId", [.uint]⟩,
  ⟨"ua/securechannel/channel/UaServerSecureChannel.cpp", 224, .UASC, .LE, chars! "Uid-%u, unexpected sessionId", [.uint]⟩,
  ⟨"ua/securechannel/channel/UaServerSecureChannelState.hpp", 23, .UASC, .LE, chars! "Unexpected", []⟩,
  ⟨"ua/securechannel/channel/UaServerSecureChannelState.hpp", 25, .UASC, .LE, chars! "Unexpected", []⟩,
  ⟨"ua/securechannel/channel/UaServerSecureChannelState.hpp", 27, .UASC, .LE, chars! "Unexpected", []⟩,
  ⟨"ua/securechannel/channel/UaServerSecureChannelState.hpp", 29, .UASC, .LE, chars! "Unexpected", []⟩,
  ⟨"ua/securechannel/channel/UaServerSecureChannelState.hpp", 31, .UASC, .LE, chars! "Unexpected", []⟩,
  ⟨"ua/securechannel/channel/UaServerSecureChannelState.hpp", 33, .UASC, .LE, chars! "Unexpected", []⟩,
  ⟨"ua/service/UaService.cpp", 34, .UASRV, .LD, chars! "UaEncodedMessageReceiveInd, received", []⟩,
  ⟨"ua/service/UaService.cpp", 46, .UASC, .LE, chars! "Unexpected eNodeId format", []⟩,
  ⟨"ua/service/UaService.cpp", 55, .UASRV, .LE, chars! "Unexpected service id(%u)", [.uint]⟩,
  ⟨"ua/service/UaServiceComponent.cpp", 30, .UASRV, .LD, chars! "UaServiceInitReq received", []⟩,
  ⟨"ua/service/UaServiceComponent.cpp", 40, .UASRV, .LD, chars! "UaServiceReleaseReq received", []⟩,
  ⟨"ua/service/UaServiceComponent.cpp", 50, .UASRV, .LD, chars! "UaServiceConfigReq received", []⟩,
  ⟨"ua/service/UaServiceComponent.cpp", 58, .UASRV, .LD, chars! "UaEncodedMessageReceiveInd received", []⟩,
  ⟨"ua/service/session/UaSession.cpp", 110, .UASRV, .LE, chars! "Uid=%u, unexpected secure channel Id", [.uint]⟩,
  ⟨"ua/service/session/UaSessionService.cpp", 37, .UASRV, .LD, chars! "Can not alloc session", []⟩,
  ⟨"ua/service/session/UaSessionService.cpp", 55, .UASRV, .LE, chars! "Unexpected nodeId format", []⟩,
  ⟨"ua/service/session/UaSessionService.cpp", 70, .UASRV, .LE, chars! "Unexpected nodeId format", []⟩,
  ⟨"ua/service/session/UaSessionService.cpp", 78, .UASRV, .LE, chars! "Unexpected sessionId", []⟩,
  ⟨"ua/service/session/UaSessionState.hpp", 22, .UASRV, .LE, chars! "Unexpected", []⟩,
  ⟨"ua/service/session/UaSessionState.hpp", 24, .UASRV, .LE, chars! "Unexpected", []⟩,
  ⟨"ua/service/session/UaSessionState.hpp", 26, .UASRV, .LE, chars! "Unexpected", []⟩,
  ⟨"ua/service/session/UaSessionState.hpp", 28, .UASRV, .LE, chars! "Unexpected", []⟩,
  ⟨"ua/transport/UaTransportComponent.cpp", 33, .UATL, .LD, chars! "UaTransportInitReq received", []⟩,
  ⟨"ua/transport/UaTransportComponent.cpp", 43, .UATL, .LD, chars! "UaTransportReleaseReq received", []⟩,
  ⟨"ua/transport/UaTransportComponent.cpp", 53, .UATL, .LD, chars! "UaTransportConfigReq received", []⟩,
  ⟨"ua/transport/UaTransportComponent.cpp", 61, .UATL, .LD, chars! "UaOpenSecureChannelRsp received", []⟩,
  ⟨"ua/transport/UaTransportComponent.cpp", 69, .UATL, .LD, chars! "UaCloseSecureChannelRsp received", []⟩,
  ⟨"ua/transport/UaTransportComponent.cpp", 78, .UATL, .LD, chars! "UaSecuredMessageSendReq received", []⟩,
  ⟨"ua/transport/UaTransportComponent.cpp", 86, .UATL, .LD, chars! "UaConnectionReleaseReq received", []⟩,
  ⟨"ua/transport/server/UaTcpConnection.cpp", 27, .UATL, .LE, chars! "Uid-%u, Can not send UaConnectionReleaseInd, secure channel id is undefined", [.uint]⟩,
  ⟨"ua/transport/server/UaTcpConnection.cpp", 40, .UATL, .LE, chars! "Uid-%u, unexpected secureChannelId", [.uint]⟩,
  ⟨"ua/transport/server/UaTcpConnection.cpp", 62, .UATL, .LE, chars! "Uid-%u, send return: %d", [.uint, .int]⟩,
  ⟨"ua/transport/server/UaTcpConnection.cpp", 90, .UATL, .LE, chars! "Uid-%u, send return: %d", [.uint, .int]⟩,
  ⟨"ua/transport/server/UaTcpConnection.cpp", 100, .UATL, .LE, chars! "Uid-%u, unexpected secureChannelId", [.uint]⟩,
  ⟨"ua/transport/server/UaTcpConnection.cpp", 122, .UATL, .LE, chars! "Uid-%u, send return: %d", [.uint, .int]⟩,
  ⟨"ua/transport/server/UaTcpConnection.cpp", 181, .UATL, .LE, chars! "Uid-%u, received packet is invalid", [.uint]⟩,
  ⟨"ua/transport/server/UaTcpConnection.cpp", 211, .UATL, .LE, chars! "Uid-%u, packet has invalid size", [.uint]⟩,
  ⟨"ua/transport/server/UaTcpConnection.cpp", 233, .UATL, .LE, chars! "Uid-%u, unexpected packet type", [.uint]⟩,
  ⟨"ua/transport/server/UaTcpConnection.cpp", 243, .UATL, .LD, chars! "Uid-%u, received HelloMessage", [.uint]⟩,
  ⟨"ua/transport/server/UaTcpConnection.cpp", 270, .UATL, .LD, chars! "Uid-%u, send AcknowledgeMessage", [.uint]⟩,
  ⟨"ua/transport/server/UaTcpConnection.cpp", 275, .UATL, .LI, chars! "Uid-%u, send return: %d", [.uint, .int]⟩,
  ⟨"ua/transport/server/UaTcpConnection.cpp", 298, .UATL, .LD, chars! "Uid-%u, receiveSecuredMessage: %s", [.uint, .name secMsgNames]⟩,
  ⟨"ua/transport/server/UaTcpConnection.cpp", 306, .UATL, .LE, chars! "Uid-%u, unexpected secureChannelId", [.uint]⟩,
  ⟨"ua/transport/server/UaTcpConnection.cpp", 335, .UATL, .LE, chars! "Uid-%u, unexpected secureChannelId", [.uint]⟩,
  ⟨"ua/transport/server/UaTcpConnection.cpp", 350, .UATL, .LE, chars! "Uid-%u, unexpected", [.uint]⟩,
  ⟨"ua/transport/server/UaTcpConnectionState.hpp", 22, .UA, .LE, chars! "Unexpected", []⟩,
  ⟨"ua/transport/server/UaTcpConnectionState.hpp", 24, .UA, .LE, chars! "Unexpected", []⟩,
  ⟨"ua/transport/server/UaTcpConnectionState.hpp", 26, .UA, .LE, chars! "Unexpected", []⟩,
  ⟨"ua/transport/server/UaTcpConnectionState.hpp", 28, .UA, .LE, chars! "Unexpected", []⟩,
  ⟨"ua/transport/server/UaTcpConnectionState.hpp", 30, .UA, .LE, chars! "Unexpected", []⟩,
  ⟨"ua/transport/server/UaTcpConnectionState.hpp", 32, .UA, .LE, chars! "Unexpected", []⟩,
  ⟨"ua/transport/server/UaTcpConnectionState.hpp", 34, .UA, .LE, chars! "Unexpected", []⟩,
  ⟨"ua/transport/server/UaTcpConnectionState.hpp", 36, .UA, .LE, chars! "Unexpected", []⟩,
  ⟨"ua/transport/server/UaTcpConnectionState.hpp", 38, .UA, .LE, chars! "Unexpected", []⟩,
  ⟨"ua/transport/server/UaTcpServer.cpp", 55, .UATL, .LD, chars! "Uid=%u, onAcceptEvent", [.uint]⟩,
  ⟨"ua/transport/server/UaTcpServer.cpp", 63, .UATL, .LD, chars! "Uid=%u, Can not alloc tcp connection", [.uint]⟩]

end Uscada.Log
