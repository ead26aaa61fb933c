{"id": "C01", "title": "Fixed-capacity queue behaves as a FIFO", "statement": "A queue created with capacity N>0 that is never pushed when it holds N elements and never popped or peeked when empty returns elements in exactly the order they were pushed, reports empty exactly when every pushed element has been popped, and never accesses storage outside its N reserved slots.", "quantifier": "every capacity N>0, every element type, every finite sequence of push/pop/front/empty calls that respects the occupancy limits", "why_tests_cant": "Index wrap-around makes the behaviour depend on the whole history of pushes and pops; tests try a few histories and capacities.", "anchors": ["src/app/common/utils/Queue.hpp: Queue::push, pop, front, empty"]}
{"id": "C02", "title": "Pool identifiers are never held by two owners", "statement": "For the entity pools (reactor timers/links/acceptors, OPC UA connections/channels/sessions, Modbus sessions): in every history where only currently held identifiers are released, alloc never returns an identifier that is still held, always returns an identifier for which the pool has an object, and fails exactly when all identifiers are held.", "quantifier": "every pool capacity and every finite history of alloc and matching release calls", "why_tests_cant": "Holds only as an invariant of all interleavings of alloc and release; a test exercises a handful.", "anchors": ["src/app/common/reactor/EntityPool.hpp: EntityPool", "src/app/common/ua/common/UaEntityPool.hpp: UaEntityPool", "src/app/modbus/server/ModbusSessionPool.cpp: ModbusSessionPool"]}
{"id": "C03", "title": "Mailbox stores and returns messages byte for byte in order", "statement": "A message mailbox accepts a message exactly when fewer than its capacity of messages are waiting; every accepted message whose bytes fit its slot is later returned once, unmodified and in acceptance order, whatever other messages are stored or removed in between.", "quantifier": "every chunk size and number of chunks, every finite sequence of push and pop calls with any message contents that fit", "why_tests_cant": "Corruption would appear only for particular message sizes and interleavings of slot reuse.", "anchors": ["src/app/common/reactor/MsgMemStorage.cpp: MsgMemStorage::push, pop, get", "src/app/common/reactor/Reactor.cpp: Reactor::Reactor (chunk size)"]}
{"id": "C04", "title": "Every accepted message is dispatched exactly once, in order", "statement": "For a component reactor with one worker, any interleaving of senders and wake-ups dispatches accepted messages in the order they were accepted, each at most once, and whenever no wake-up is outstanding and no handler threw, no accepted message is left waiting.", "quantifier": "every interleaving of send steps (storing, then signalling) by any number of senders with worker wake-up steps, any mailbox capacity, any registered handlers", "why_tests_cant": "Depends on thread schedules; tests cannot enumerate them.", "anchors": ["src/app/common/reactor/Reactor.cpp: Reactor::send, Reactor::onFdEvent", "src/app/common/reactor/Event.cpp: Event::send, onFileDescriptorEvent"]}
{"id": "C05", "title": "Messages reach the component they are addressed to, and requesters get their answers", "statement": "A message sent through the manager is put into the mailbox of exactly the component it is addressed to and no other; a message for an unregistered component changes nothing. Every response message type is addressed to the component that issued the matching request.", "quantifier": "every set of registered components, every message, every request/response pair of message types", "why_tests_cant": "Addressing is fixed per message type in many headers; a missed type shows up only when that exchange happens in the full system.", "anchors": ["src/app/common/reactor/ReactorManager.cpp: ReactorManager::send, addComponent", "src/app/common/msg: MsgUaSecureChannelInitRsp, MsgUaServiceInitRsp, MsgUaTransportInitRsp, MsgModbusInitRsp"]}
{"id": "C06", "title": "Configured IPv4 address and port are the ones used", "statement": "The port and IPv4 address taken from a link address equal the big-endian values of the configured bytes.", "quantifier": "every link address (all byte values)", "why_tests_cant": "Fails only for byte values of 128 and above combined with particular neighbours; examples with small numbers pass.", "anchors": ["src/app/common/reactor/types/LinkAddr.hpp: ipv4port, ipv4addr"]}
{"id": "C07", "title": "Batched Modbus client request items never overlap", "statement": "In a batched client request, item i starts 16-byte aligned relative to the first item, the data of item i ends at or before the start of item i+1, filling the items in order leaves earlier items intact, and the reported message size covers every item and its data.", "quantifier": "every number of items and every combination of data lengths", "why_tests_cant": "Variable-length layout arithmetic over an unbounded family of length combinations.", "anchors": ["src/app/common/msg/MsgModbusClientAduReq.hpp: size, item", "src/app/common/utils/MemUtils.hpp: memAlign"]}
{"id": "C08", "title": "Modbus requests survive encoding and decoding", "statement": "Whenever the codec encodes a client request whose transaction id fits 16 bits, decoding the produced bytes succeeds and yields the same transaction id, address, function, start item, item count (for reads and multi-writes) and register data.", "quantifier": "every request with any field values and data", "why_tests_cant": "Per-function layout, byte swapping and truncation must agree for all values.", "anchors": ["src/app/modbus/ModbusCodec.cpp: encode(AduRequest), decode(AduRequest)", "src/app/modbus/PduBuffer.hpp"]}
{"id": "C09", "title": "Modbus responses survive encoding and decoding", "statement": "Whenever the codec encodes a server response, decoding the produced bytes succeeds and yields the same transaction id, address, function and function-specific content (error code, data bytes, start item, item count).", "quantifier": "every response with any field values and data", "why_tests_cant": "Same as C08, for the response layouts, including error responses.", "anchors": ["src/app/modbus/ModbusCodec.cpp: encode(AduRespond), decode(AduRespond)"]}
{"id": "C10", "title": "Encoded Modbus frames are well formed and bounded", "statement": "Every frame the codec reports as successfully encoded is at most 260 bytes, has protocol id 0, a length field equal to the number of bytes after it, a slave address of at most 247 for requests, and encoding a request with at most 260 data bytes never writes outside the encode buffer.", "quantifier": "every request and response value", "why_tests_cant": "Boundary lengths depend on the function and the data length; off-by-one errors live at the limits.", "anchors": ["src/app/modbus/ModbusCodec.cpp: encode, isAduValid, pduLen", "src/app/modbus/PduBuffer.hpp: write, writeBe"]}
{"id": "C11", "title": "Modbus decoding depends only on received bytes", "statement": "For every received frame that passes the length check, an accepted (successfully decoded) request or response is determined by the received bytes alone, never by stale buffer content, and decoding never accesses memory outside its buffers.", "quantifier": "every byte string of any length up to the buffer size and every previous buffer content", "why_tests_cant": "Needs all malformed inputs and all leftover buffer contents.", "anchors": ["src/app/modbus/ModbusCodec.cpp: decode(AduRequest), decode(AduRespond), isAduValid"]}
{"id": "C12", "title": "Modbus reception does not depend on TCP segmentation", "statement": "A Modbus frame is handled in the same way however TCP splits it into pieces.", "quantifier": "every valid frame and every way of cutting it into received pieces", "why_tests_cant": "The number of segmentations is exponential and they are chosen by the network.", "anchors": ["src/app/modbus/ModbusCodec.cpp: isAduHdrReceived, isAduReceived, isAduValid", "src/app/modbus/server/session/ModbusSession.cpp: ModbusSession::receive", "src/app/modbus/client/ModbusClient.cpp: ModbusClient::receive"]}
{"id": "C13", "title": "Pending Modbus requests are kept in order with their data", "statement": "The pending-request store returns requests in submission order with exactly the data they were submitted with, even though the caller's buffer is reused, accepts a request exactly when fewer than 64 are pending and it has at most 260 data bytes, and a rejected request leaves the store unchanged.", "quantifier": "every finite sequence of push/front/pop calls with any requests", "why_tests_cant": "Slot reuse and ring indices make corruption history dependent.", "anchors": ["src/app/modbus/client/ModbusAduStorage.cpp: push, front, pop, empty"]}
{"id": "C14", "title": "Every Modbus client request is answered exactly once, in order", "statement": "Each request item given to a Modbus client produces exactly one response carrying its client and transaction id; responses to queued requests come in submission order; no response is produced for a request that was not submitted.", "quantifier": "every sequence of requests, link events, received data, send results and timer expirations", "why_tests_cant": "Responses are produced on many paths (success, error, timeout, disconnect, full queue); only all histories show double or missing answers.", "anchors": ["src/app/modbus/client/ModbusClient.cpp", "src/app/modbus/client/ModbusClientSend.cpp", "src/app/modbus/client/ModbusClientReceive.cpp", "src/app/modbus/client/ModbusClientConnected.cpp"]}
{"id": "C15", "title": "No Modbus client request is left waiting without a running timer", "statement": "At every moment, if a Modbus client still owes an answer then it is in a connected state and its timer is armed; while it is not connected it owes nothing; and each timer expiration while it owes answers brings it strictly closer to having answered all.", "quantifier": "every reachable history of the client", "why_tests_cant": "It is an invariant over all event orders (including errors in the middle of exchanges).", "anchors": ["src/app/modbus/client/ModbusClientFsm.hpp: transit", "src/app/modbus/client/ModbusClientSend.cpp", "src/app/modbus/client/ModbusClientReceive.cpp", "src/app/modbus/client/ModbusClientBackoff.cpp"]}
{"id": "C16", "title": "A successful Modbus answer belongs to the request", "statement": "A client response with success status and no Modbus error is produced only from a received frame with the same transaction id, slave address and function code as the oldest pending request, and carries exactly that frame's data.", "quantifier": "every received byte string, every pending queue", "why_tests_cant": "Requires all possible frames from a faulty or late device.", "anchors": ["src/app/modbus/client/ModbusClient.cpp: ModbusClient::receive"]}
{"id": "C17", "title": "A Modbus server session answers a request at most once and only with the matching transaction", "statement": "On one server connection, every frame sent to the peer answers the last request forwarded to the application, with the same transaction id and slave address, and at most one frame is sent per forwarded request; application answers that arrive without a request waiting are not sent.", "quantifier": "every sequence of received data, application answers, timer expirations and send results", "why_tests_cant": "Late, duplicate and mismatched answers can arrive in any order.", "anchors": ["src/app/modbus/server/session/ModbusSession.cpp: receive, send", "src/app/modbus/server/session/ModbusSessionConnected.cpp", "src/app/modbus/server/session/ModbusSessionWaitModbusAduRsp.cpp"]}
{"id": "C18", "title": "Modbus server sessions return their resources exactly once", "statement": "A server session holds a link and a timer exactly while it is started, and each time it ends it gives its link, its timer and its identifier back exactly once, so an identifier handed to a new connection is never in use by another.", "quantifier": "every sequence of accepts, data, answers and timeouts on any number of connections", "why_tests_cant": "Requires every order in which connections end and are reused.", "anchors": ["src/app/modbus/server/ModbusServer.cpp: onAcceptEvent, onReleaseSession", "src/app/modbus/server/session/ModbusSessionInit.cpp", "src/app/modbus/server/session/ModbusSession.cpp: prepare, releaseSession"]}
{"id": "C19", "title": "The application sees exactly the Modbus request that was received", "statement": "The request forwarded to the application for a received frame contains exactly the fields of that frame and nothing from earlier requests.", "quantifier": "every sequence of received frames on a session", "why_tests_cant": "Leftovers show only for particular sequences of request kinds.", "anchors": ["src/app/modbus/server/session/ModbusSession.cpp: receive", "src/app/modbus/ModbusCodec.cpp: decode(AduRequest)"]}
{"id": "C20", "title": "Batched Modbus requests are dispatched item by item", "statement": "Every item of a batched client request is handed to the client it names if that client is configured, otherwise it is answered with an error status carrying its client and transaction id; the configuration answer reports success exactly for the entities that were configured.", "quantifier": "every batch, every set of configured clients and servers", "why_tests_cant": "Ranges over all mixes of valid and invalid identifiers.", "anchors": ["src/app/modbus/Modbus.cpp: receive(MsgModbusConfigReq), receive(MsgModbusClientAduReq), receive(MsgModbusAduRsp)"]}
{"id": "C21", "title": "Components ignore traffic unless initialised and always acknowledge init and release", "statement": "Each component answers every init and every release request with exactly one response of the matching kind, and requests received before initialisation or after release have no effect.", "quantifier": "every sequence of messages to a component", "why_tests_cant": "Any order of lifecycle and traffic messages is possible.", "anchors": ["src/app/modbus/ModbusComponent.cpp", "src/app/ua/transport/UaTransportComponent.cpp", "src/app/ua/securechannel/UaSecureChannelComponent.cpp", "src/app/ua/service/UaServiceComponent.cpp"]}
{"id": "C22", "title": "OPC UA integers, floats and booleans survive encoding", "statement": "For each fixed-size built-in type, decoding the encoded bytes yields the same value, consumes exactly the bytes that were written, and the bytes are the little-endian representation.", "quantifier": "every value of each type, any preceding and following buffer content", "why_tests_cant": "Value spaces up to 2^64; shift and mask mistakes show only for certain bytes.", "anchors": ["src/app/common/ua/common/OpcUaBinaryCodec.cpp: Boolean..Double, DateTime, StatusCode, Guid"]}
{"id": "C23", "title": "OPC UA strings and byte strings survive encoding", "statement": "Decoding an encoded string or byte string yields the same bytes (an empty string and an absent one are the same on the wire) and consumes exactly what was written.", "quantifier": "every byte content of every length below 2^31", "why_tests_cant": "Unbounded lengths and the null representation.", "anchors": ["src/app/common/ua/common/OpcUaBinaryCodec.cpp: String, ByteString"]}
{"id": "C24", "title": "OPC UA node identifiers survive encoding", "statement": "Decoding an encoded node identifier yields the same namespace and identifier whichever compact form was chosen by the encoder.", "quantifier": "every namespace, every numeric, string, guid and opaque identifier", "why_tests_cant": "Boundaries between the three numeric forms.", "anchors": ["src/app/common/ua/common/OpcUaBinaryCodec.cpp: NodeId"]}
{"id": "C25", "title": "OPC UA expanded node identifiers survive encoding", "statement": "Decoding an encoded expanded node identifier yields the same node id, namespace uri and server index, wherever in the message it is placed.", "quantifier": "every value and every position in the buffer", "why_tests_cant": "Depends on the position at which it is written, which unit tests keep at zero.", "anchors": ["src/app/common/ua/common/OpcUaBinaryCodec.cpp: ExpandedNodeId"]}
{"id": "C26", "title": "OPC UA optional-field structures survive encoding", "statement": "Qualified names, localized texts, diagnostic infos (with any nesting depth) and extension objects decode to the value that was encoded, with each optional field present exactly when it was present.", "quantifier": "every combination of present fields, every nesting depth", "why_tests_cant": "Exponentially many field combinations times unbounded nesting.", "anchors": ["src/app/common/ua/common/OpcUaBinaryCodec.cpp: QualifiedName, LocalizedText, DiagnosticInfo, ExtensionObject"]}
{"id": "C27", "title": "OPC UA variants and data values survive encoding", "statement": "Decoding an encoded variant or data value yields the same typed value, array and timestamps/status fields.", "quantifier": "every variant kind, every array length, every combination of optional fields", "why_tests_cant": "Type tags, masks and array forms multiply.", "anchors": ["src/app/common/ua/common/OpcUaBinaryCodec.cpp: Variant, DataValue"]}
{"id": "C28", "title": "OPC UA protocol messages survive encoding", "statement": "Every transport, secure channel and session message encoded by one side decodes on the other side to the same field values with no bytes left over.", "quantifier": "every field value of every message type", "why_tests_cant": "Field order and type agreement between encoder and decoder must hold for all values.", "anchors": ["src/app/common/ua/common/OpcUaBinaryCodec.cpp: Hello..ReadRsp"]}
{"id": "C29", "title": "OPC UA decoding stays inside the received bytes", "statement": "Decoding any byte sequence as a node identifier, string or message header never uses bytes that were not received.", "quantifier": "every received byte sequence", "why_tests_cant": "Malformed lengths form an unbounded input space.", "anchors": ["src/app/common/ua/common/OpcUaSduBuffer.cpp: read", "src/app/common/ua/common/OpcUaBinaryCodec.cpp: String, ByteString"]}
{"id": "C30", "title": "OPC UA frame reception does not depend on TCP segmentation", "statement": "A connection that receives one complete OPC UA chunk delivers it exactly when its last byte arrives, however TCP split it, and delivers exactly those bytes.", "quantifier": "every chunk of at most 1024 bytes and every way of cutting it into pieces", "why_tests_cant": "Exponentially many segmentations.", "anchors": ["src/app/common/ua/protocols/connection/OpcUaConnection.cpp: receive", "src/app/ua/transport/server/UaTcpConnection.cpp: receive"]}
{"id": "C31", "title": "OPC UA connections hold link and timer exactly while in use", "statement": "A client or server connection holds a link and a timer exactly while it is not idle; every error, timeout or close returns it to idle with both released; an idle connection can be used again.", "quantifier": "every sequence of connect/accept/close calls, link events and timer expirations", "why_tests_cant": "All event orders, including unexpected ones.", "anchors": ["src/app/common/ua/protocols/connection: ClientConnection states", "src/app/common/ua/protocols/connection: ServerConnection states"]}
{"id": "C32", "title": "OPC UA connection users are told how each connection attempt ends", "statement": "For every connect call the user is notified of success at most once and before any data; after a failure or remote close exactly one terminal notification is delivered; no data is delivered before success or after the end.", "quantifier": "every sequence of events on a connection", "why_tests_cant": "Ordering property over unbounded histories.", "anchors": ["src/app/common/ua/protocols/connection/ClientConnectionConnected.cpp", "src/app/common/ua/protocols/connection/ClientConnectionReceiveAck.cpp"]}
{"id": "C33", "title": "Secure channel messages are accepted only with the current token and the next sequence number", "statement": "After a channel is open, a message is passed on only if it carries the issued token id and a sequence number exactly one above the last accepted one (modulo 2^32), so a replayed, skipped or reordered message is never passed on.", "quantifier": "every sequence of received messages with any token ids and sequence numbers", "why_tests_cant": "Histories and wrap-around are unbounded.", "anchors": ["src/app/common/ua/protocols/secure/OpcUaServerSecureChannel.cpp", "src/app/ua/securechannel/channel/UaServerSecureChannel.cpp: receive(MsgUaSecuredMessageReceiveInd)"]}
{"id": "C34", "title": "Sequence numbers sent on a secure channel increase by one", "statement": "The sequence numbers of consecutive messages sent on a channel are consecutive (modulo 2^32), and every newly opened channel starts from the same first number.", "quantifier": "every history of opens, sends and channel reuse", "why_tests_cant": "Reuse after release is history dependent.", "anchors": ["src/app/ua/securechannel/channel/UaServerSecureChannel.cpp: release, receive(MsgUaOpenSecureChannelReq), receive(MsgUaEncodedMessageSendReq)", "src/app/common/ua/protocols/secure/OpcUaServerSecureChannel.cpp"]}
{"id": "C35", "title": "A connection forwards and sends only traffic of its own secure channel", "statement": "A transport connection forwards a message or close request only for the channel associated with it and writes to the peer only answers of that channel; anything else ends the connection.", "quantifier": "every received frame and every request from the channel layer in every state", "why_tests_cant": "Any peer may name any channel id at any time.", "anchors": ["src/app/ua/transport/server/UaTcpConnection.cpp: receiveSecuredMessage, receive(MsgUaSecuredMessageSendReq)"]}
{"id": "C36", "title": "A closed transport connection releases everything and tells its channel", "statement": "When a transport connection ends because of an error, a timeout or a failed answer, its link, timer and identifier are released once and the associated channel (if any) is told exactly once; when it ends at the channel's request the channel is not told again.", "quantifier": "every history of a connection", "why_tests_cant": "Ending can be triggered in every state by every event.", "anchors": ["src/app/ua/transport/server/UaTcpConnection.cpp: release, sendUaConnectionReleaseInd", "src/app/ua/transport/server: UaTcpConnection states"]}
{"id": "C37", "title": "A secure channel serves only the connection that opened it", "statement": "A secure channel passes messages up and down only for the connection that opened it; a message, association or answer naming another connection is never passed on.", "quantifier": "every sequence of messages naming arbitrary connection ids", "why_tests_cant": "Requires all interleavings of several connections.", "anchors": ["src/app/ua/securechannel/channel/UaServerSecureChannel.cpp: receive(...)"]}
{"id": "C38", "title": "A secure channel can be torn down only by its own connection", "statement": "A channel stays established until its own connection closes it, is released, or sends an invalid message; requests that name another connection do not end it.", "quantifier": "every sequence of messages naming arbitrary connection ids", "why_tests_cant": "Cross-connection interference appears only in specific interleavings.", "anchors": ["src/app/ua/securechannel/channel/UaServerSecureChannelEstablished.cpp"]}
{"id": "C39", "title": "Session services run only for the channel that activated the session", "statement": "A service request is executed in a session only if the session is activated and the request came over the secure channel that activated it last.", "quantifier": "every sequence of create/activate/close/service requests over any channels", "why_tests_cant": "Any channel may present any session id in any order.", "anchors": ["src/app/ua/service/session/UaSession.cpp: receive, handler", "src/app/ua/service/session/UaSessionService.cpp"]}
{"id": "C40", "title": "Sessions are created, closed and reused without leaks", "statement": "Each successful create-session answer carries a session id not used by any other open session; a closed session's id can be reused; create fails only when all sessions are in use.", "quantifier": "every history of session requests", "why_tests_cant": "Id reuse depends on the whole history.", "anchors": ["src/app/ua/service/session/UaSessionService.cpp", "src/app/common/ua/common/UaEntityPool.hpp"]}
{"id": "C41", "title": "State changes run exit and entry actions once each, in order", "statement": "A state change runs the exit action of the old state, then the entry action of the new state, each once; a change to the current state runs neither.", "quantifier": "every state machine, every current and target state", "why_tests_cant": "Generic over all state machines.", "anchors": ["src/app/common/utils/FsmBase.hpp: transit", "src/app/modbus/client/ModbusClientFsm.hpp: transit"]}
{"id": "C42", "title": "Timestamps sent on the wire are correct OPC UA times", "statement": "The OPC UA timestamp produced for a POSIX time is the number of 100 ns intervals since 1601-01-01 (Gregorian calendar), never decreases when the POSIX time does not decrease, and does not overflow for any time before year 9999.", "quantifier": "every POSIX time from 1970 up to 9999", "why_tests_cant": "Leap-year arithmetic over centuries.", "anchors": ["src/app/common/utils/TimeUtils.hpp: getCurrentDateTime"]}
{"id": "C43", "title": "Structure comparison is an equivalence and agrees with presence masks", "statement": "The presence mask written for a structure has exactly the bits of the present fields, and fields are compared equal exactly when they hold the same value (an absent and an empty field being the same).", "quantifier": "every structure value", "why_tests_cant": "Combinatorial in the fields.", "anchors": ["src/app/common/ua/common/types/StructType.hpp: compare, encodeMask, encodeMaskSizeCheck"]}
{"id": "C44", "title": "Secure channel answers echo the request", "statement": "The answer to an open or close secure channel request carries the request id and request handle of the request, the channel id of the channel, and a fresh token that later messages must use.", "quantifier": "every request content", "why_tests_cant": "All field values.", "anchors": ["src/app/ua/securechannel/channel/UaServerSecureChannel.cpp: receive(MsgUaOpenSecureChannelReq), receive(MsgUaCloseSecureChannelReq)"]}
{"id": "C45", "title": "The chunk header's size field equals the chunk's length", "statement": "For every message the server or client sends, the size in its header equals the total number of bytes sent, and the receiver extracts the same size.", "quantifier": "every message length that fits", "why_tests_cant": "Length patching after encoding must hold for all lengths.", "anchors": ["src/app/common/ua/common/types/MessageHeader.hpp: getMsgSizeFromHdr, setPayloadSizeToHdr"]}
{"id": "C46", "title": "Payloads handed between OPC UA layers are exactly the received payload", "statement": "When a layer strips its header and hands the rest of a received message to the next layer, the next layer receives exactly the remaining received bytes.", "quantifier": "every received message", "why_tests_cant": "Extra or missing trailing bytes are invisible unless all lengths are considered.", "anchors": ["src/app/ua/transport/server/UaTcpConnection.cpp: receiveSecuredMessage", "src/app/ua/securechannel/channel/UaServerSecureChannel.cpp: receive(MsgUaSecuredMessageReceiveInd)", "src/app/common/ua/common/OpcUaSduBuffer.cpp: size, begin"]}
{"id": "C47", "title": "Bytes sent by an OPC UA peer cannot make the process misbehave", "statement": "Whatever bytes a peer sends during connection set-up and framing, the process neither accesses memory outside its receive buffer nor terminates.", "quantifier": "every byte sequence and every segmentation", "why_tests_cant": "The space of byte sequences is unbounded; the failing ones are specific length fields and type codes.", "anchors": ["src/app/common/ua/protocols/connection/ClientConnection.cpp: receiveAck", "src/app/common/ua/protocols/connection/ServerConnection.cpp: receiveHello", "src/app/ua/transport/server/UaTcpConnection.cpp: receiveHello", "src/app/common/ua/common/OpcUaSduBuffer.cpp: read"]}
{"id": "C48", "title": "Secure channel identifiers are taken and given back exactly once", "statement": "A channel identifier is handed out only while its channel is closed, given back exactly once when the channel ends, and an open request that does not lead to an open channel leaves no identifier taken.", "quantifier": "every history of well formed and malformed open requests, closes, releases and messages", "why_tests_cant": "The leak needs an open request whose decoding throws after the identifier was taken; tests open channels with well formed requests and never exhaust the pool of 32.", "anchors": ["src/app/ua/securechannel/UaSecureChannel.cpp: receive(MsgUaOpenSecureChannelReq)", "src/app/ua/securechannel/channel/UaServerSecureChannel.cpp: release, receive(MsgUaOpenSecureChannelReq)", "src/app/common/ua/common/UaEntityPool.hpp"]}
{"id": "C49", "title": "A secure channel speaks only for the session it is bound to", "statement": "Every message a channel passes up names the session the channel is bound to (or none), and once a channel is bound to a session only answers of that session are sent on it.", "quantifier": "every sequence of associations, messages and answers naming arbitrary sessions and connections", "why_tests_cant": "Needs all interleavings of associations and late answers of other sessions, including reuse of channel identifiers.", "anchors": ["src/app/ua/securechannel/channel/UaServerSecureChannel.cpp: receive(MsgUaAssociateSecureChannelReq), receive(MsgUaSecuredMessageReceiveInd), receive(MsgUaEncodedMessageSendReq)"]}
{"id": "C50", "title": "Session layer answers go back the way the request came", "statement": "Every answer of the service component goes to the connection and channel of the request it answers, carries its request id and request handle, and is of the type the request asks for; an activate answer follows the association of the channel with the session, a read answer follows the execution of the read.", "quantifier": "every history of requests over any channels", "why_tests_cant": "The correspondence must hold for every interleaving of requests of all clients; tests look at single exchanges.", "anchors": ["src/app/ua/service/session/UaSession.cpp: receive", "src/app/ua/service/discovery/UaGetEndpoints.cpp: receive", "src/app/ua/service/attribute/UaAttributeService.cpp: receive"]}
{"id": "C51", "title": "Sessions end with their channel or their time-out", "statement": "A session whose channel has ended, or that was not used for its agreed time-out, ends and its identifier can be used again.", "quantifier": "every history and every passage of time", "why_tests_cant": "Exhaustion of the 32 identifiers needs many clients that vanish without closing their session.", "anchors": ["src/app/ua/service/session/UaSession.cpp: release", "src/app/ua/service/session/UaSessionService.cpp", "src/app/ua/service/UaServiceComponent.cpp"]}
{"id": "C52", "title": "A session is controlled only by its owner", "statement": "Only the client that created a session can activate it, take it over to another channel, or close it; in particular the authentication token cannot be guessed.", "quantifier": "every session, every request of every other client", "why_tests_cant": "Tests use one client with the token it was given.", "anchors": ["src/app/ua/service/session/UaSessionService.cpp: receive(UaActivateSessionReq), receive(UaCloseSessionReq)", "src/app/ua/service/session/UaSession.cpp: receive(UaCreateSessionReq), receive(UaActivateSessionReq)"]}
{"id": "C53", "title": "A read answer holds one result for each node", "statement": "The answer to a read request with a good service result holds as many results as the request asks for nodes.", "quantifier": "every read request", "why_tests_cant": "A claim about all requests.", "anchors": ["src/app/ua/service/attribute/UaAttributeService.cpp: receive", "src/app/ua/service/attribute/UaRead.cpp: receive"]}
{"id": "C54", "title": "Requests are dispatched by their type identifier", "statement": "A message is handled by a service only if its type identifier is exactly the one of the requests of this service.", "quantifier": "every message", "why_tests_cant": "Type identifiers above 65535 and namespaces other than 0 do not occur in tests.", "anchors": ["src/app/ua/service/UaService.cpp: receive", "src/app/common/ua/common/types/DataType.hpp: DataTypeId"]}
{"id": "C55", "title": "Identifiers sent by a client never address memory outside of the session pool", "statement": "Whatever token or session id a request carries, handling it is defined.", "quantifier": "every request in every reachable state", "why_tests_cant": "Tests present identifiers they were given.", "anchors": ["src/app/ua/service/session/UaSessionService.cpp", "src/app/common/ua/common/UaEntityPool.hpp: get"]}
{"id": "C56", "title": "Life cycle of the library server channel", "statement": "Every opening of the server secure channel in protocols/secure is reported as ended at most once and after the opening, requests are reported only while the channel is secured, the channel and its connection hold a link exactly while the channel is in use, and a timeout always ends both.", "quantifier": "every history of user calls, link events, chunks and timeouts", "why_tests_cant": "The state machines of the channel and of the connection call each other; a wrong order of notification and transition shows only in particular interleavings.", "anchors": ["src/app/common/ua/protocols/secure/OpcUaServerSecureChannel.cpp", "src/app/common/ua/protocols/secure/OpcUaServerSecureChannelEstablished.cpp", "src/app/common/ua/protocols/connection/ServerConnection.cpp"]}
{"id": "C57", "title": "Chunks carry the channel, the token and the request they answer", "statement": "Every chunk the server channel of protocols/secure sends carries the channel identifier chosen when it was opened, the token issued last and the identifier of the request accepted last.", "quantifier": "every history", "why_tests_cant": "Identifiers must follow renewals and requests in every order.", "anchors": ["src/app/common/ua/protocols/secure/OpcUaServerSecureChannel.cpp: send", "src/app/common/ua/protocols/secure/OpcUaServerSecureChannel.cpp: sendOpenSecureChannelRsp"]}
{"id": "C58", "title": "Client secure channel: one request, one answer, one end", "statement": "The client channel of protocols/secure sends exactly one open request for each connection, as soon as it is up and always the same well-formed bytes; it accepts an answer only after that; every accepted open ends at most once; while in use it holds a link and a running timer; when the timer runs out the use ends and everything is released, and the channel can be opened again. Every well-formed positive answer is accepted, and the answer of the server channel of the same library in particular.", "quantifier": "every history of user calls, link events, timers and received bytes; every well-formed answer", "why_tests_cant": "Two nested state machines take each other through every interleaving of link events, timers and re-entrant user calls, and what an answer does depends on its numeric contents.", "anchors": ["src/app/common/ua/protocols/secure/OpcUaClientSecureChannel.cpp: sendOpenSecureChannelReq", "src/app/common/ua/protocols/secure/OpcUaClientSecureChannel.cpp: receiveOpenSecureChannelRsp", "src/app/common/ua/protocols/secure/OpcUaClientSecureChannelReceiveOpenRsp.cpp"]}
{"id": "C59", "title": "Reception stays inside of the packet buffer", "statement": "Starting from an empty buffer, whatever sequence of byte strings the socket delivers, reading never writes beyond the 4096-byte packet, never counts more bytes than were received, and the stored bytes are a prefix of the received stream; every read is answered, either by progress or by an error.", "quantifier": "every finite sequence of byte strings of any lengths and contents", "why_tests_cant": "The fill level after a read depends on all reads before it and on the length field inside of the bytes; the dangerous case is a particular sequence of lengths.", "anchors": ["src/app/common/ua/protocols/connection/OpcUaConnection.cpp: receive", "src/app/ua/transport/server/UaTcpConnection.cpp: receive"]}
{"id": "C60", "title": "The controller drives the components in order", "statement": "The controller sends nothing before a start request or after a stop request; it configures the Modbus component only in reaction to its initialisation answer and once per initialisation; it sends the batch of test requests only after the configuration was answered and again only when a timer ran out after sixteen answers; every message to a UA component is a reaction to the matching answer; a stop releases every component that was initialised; every answer is judged by the test case with its number, and an unexpected one makes the controller release the Modbus component; the batch fits in a message and its items read back as the test cases; no event makes it run into undefined behaviour.", "quantifier": "every history of start and stop requests, answers, forwarded requests and timers; every content of the test registers; every content of the message memory", "why_tests_cant": "The order depends on when stop, restarts and late answers arrive in relation to four states; the harmful combinations (stop without start, a stop while configuring, an unknown number) are single points in that space.", "anchors": ["src/app/controller/ControllerComponent.cpp", "src/app/controller/modbus/ModbusTestController.cpp", "src/app/controller/modbus/ModbusTestRun.cpp: onMessage", "src/app/controller/modbus/ModbusTestConfigure.cpp", "src/app/controller/ua/UaController.cpp"]}
{"id": "C61", "title": "Forwarded requests are served from memory that remembers writes", "statement": "While the controller serves requests, every forwarded request is answered at once to the session it came from and with its transaction number; a read returns exactly the bytes last written to those registers or their initial content, and no request of a peer, whatever its transaction number and addresses, makes the controller access memory outside of its registers.", "quantifier": "every history of the controller and every forwarded request; every initial register content", "why_tests_cant": "The answer depends on all writes before it; the transaction number and the address are chosen by a remote peer from 2^16 values each.", "anchors": ["src/app/controller/modbus/ModbusTestController.cpp: process", "src/app/modbus/server/session/ModbusSession.cpp: receive"]}
{"id": "C62", "title": "Descriptors and pooled objects have one owner", "statement": "A pooled link or timer has at most one owner at a time, only its owner gives it back, and nobody is called before taking or after giving back an object. An object opens a descriptor only after closing the one before and closes exactly the descriptors it opened, each once, so the number an object in use holds always stands for its own open descriptor. Pools lose nothing: creation fails only when all thirty-two objects are in use.", "quantifier": "every history of batches of events, every reaction of the handlers, every descriptor number the kernel gives out", "why_tests_cant": "Descriptor numbers are reused by the kernel at once, so a double close is only visible when another object has been given the number in between; leaks show after thirty-two repetitions.", "anchors": ["src/app/common/reactor/Link.cpp: connect, close, release", "src/app/common/reactor/Timer.cpp: create, close, release", "src/app/common/reactor/Acceptor.cpp: accept", "src/app/common/reactor/EntityPool.hpp", "src/app/common/reactor/Reactor.cpp: createTimer, createLink"]}
{"id": "C63", "title": "An event reaches whom it is meant for", "statement": "Every event that the kernel reports is handled once, in the order reported, for the use and the descriptor it was reported for, and none is forgotten. A time-out is reported only for the timer's own open descriptor, once for each expiration, and not when the timer was stopped, started again or released before its event was handled.", "quantifier": "every history of batches of up to ten events and every sequence of operations that the handlers of one batch perform on any objects", "why_tests_cant": "The order of events in one batch and what earlier handlers of the batch do to objects with events still to come is decided by the kernel and by load.", "anchors": ["src/app/common/reactor/Epoll.cpp: wait", "src/app/common/reactor/Link.cpp: onFileDescriptorEvent", "src/app/common/reactor/Timer.cpp: onFileDescriptorEvent", "src/app/common/reactor/Reactor.cpp: run"]}
{"id": "C64", "title": "Messages between the OPC UA components fit their slots", "statement": "Whatever chunks a peer sends within the limits that the acknowledge message advertises, every message that the transport, secure channel and service components send to each other fits the slot of the mailbox it is copied into, so no message overwrites another.", "quantifier": "every history of link events, timer events, accepted connections and message deliveries of the three components together, every number of foreign messages in the mailbox, all contents of chunks", "why_tests_cant": "The size of each message is the size of a chunk chosen by the peer plus overheads that differ per layer; only eight chunk lengths near the limit exceed the slot at one layer and not at the one before, and the overflow lands in a slot that is mostly unused.", "anchors": ["src/app/common/reactor/Reactor.cpp: send", "src/app/common/reactor/MsgMemStorage.cpp: store", "src/app/common/reactor/types/MaxMsgSize.hpp", "src/app/ua/transport/server/UaTcpConnection.cpp: receiveSecuredMessage", "src/app/ua/securechannel/UaSecureChannel.cpp"]}
{"id": "C65", "title": "Answers belong to requests", "statement": "On every connection of the server, the request identifiers of the message chunks written to the peer, in the order of writing, are a subsequence of the request identifiers of the message chunks received on this connection (its number; C94 is about the clients that use it one after the other): no answer without a request, no two answers to one request, no answer overtakes another, and none goes to another connection. Open and close answers never outnumber open and close requests.", "quantifier": "every history of the three components together: all interleavings of up to 32 connections, lost messages, time-outs, failing writes and exceptions in handlers", "why_tests_cant": "An answer passes four message queues and three components, any of which may drop it, reuse its identifiers or be handling another client in between; the claim is about all interleavings.", "anchors": ["src/app/ua/transport/server/UaTcpConnection.cpp", "src/app/ua/securechannel/UaSecureChannel.cpp", "src/app/ua/service/session/UaSession.cpp", "src/app/common/reactor/Reactor.cpp: run"]}
{"id": "C66", "title": "Well formed requests of a connected client are answered", "statement": "From every reachable state in which a client is connected and no message is pending, a well formed open, get endpoints, create session, activate session, read or close session request that arrives as one chunk of limited size (a body of at most 4032 bytes) is processed by all components without an error, and exactly one answer of the right kind is written to this connection, with the channel's token, the next sequence number and the request's identifier; the client can go on with its next request, and no other connection or channel is touched.", "quantifier": "every reachable state of the three components, all 32 connections and channels, every content of the request, every split of the chunk into received pieces", "why_tests_cant": "The states before the request include every history of other clients; tests drive single components with mocks and never the composition.", "anchors": ["src/app/ua/transport/server/UaTcpConnectionConnected.cpp", "src/app/ua/securechannel/UaSecureChannel.cpp", "src/app/ua/service/session/UaSessionService.cpp", "src/app/ua/service/session/UaSession.cpp", "src/app/Deployer.cpp"]}
{"id": "C67", "title": "A Modbus transaction is carried out end to end", "statement": "A request of functions 1 to 6 and 16 within the limits of the protocol that a connected client has pending is sent in one frame; a session of this program that receives the frame, however it is cut, forwards exactly its fields to the application; every suitable answer of the application goes back in one frame, and the client reports exactly this answer to the caller; then both are ready for the next request.", "quantifier": "all requests within the limits, all suitable answers, all states of client and session that are ready, all cuts of the request, any number of requests", "why_tests_cant": "Tests drive client and session separately with fixed frames; the property is about the composition of both state machines and both codecs for all field values.", "anchors": ["src/app/modbus/client/ModbusClient.cpp", "src/app/modbus/server/session/ModbusSession.cpp", "src/app/modbus/ModbusCodec.cpp"]}
{"id": "C68", "title": "The built-in self-test succeeds, round after round", "statement": "From the state the program's start leads to (controller, one client and one server of the Modbus component, client connected), in every execution in which system calls succeed and the five seconds for an answer do not expire while the transaction is under way, every event is handled without undefined behaviour, exception or termination, the test is never judged failed and the Modbus component never released; some event is always due; among any 126 consecutive events one completes a round, and then each of the sixteen expected answers has arrived exactly once, with the bytes of the register files; the mailboxes never hold more than 16 and 1 messages. If the client is not connected when the requests arrive, the test is judged failed at the first answer and the component is released.", "quantifier": "all contents of the register files, all interleavings of messages, frames and timers of the two components, all numbers of rounds", "why_tests_cant": "The self-test is run for some seconds under one schedule; the property quantifies over all interleavings of two event loops, the network and three timers and over the random register contents.", "anchors": ["src/app/controller/modbus/ModbusTestController.cpp", "src/app/modbus/Modbus.cpp", "src/app/modbus/client/ModbusClient.cpp", "src/app/modbus/server/session/ModbusSession.cpp", "src/app/main.cpp"]}
{"id": "C69", "title": "A timer is armed for exactly its interval", "statement": "For every time on the monotonic clock and every positive interval in microseconds, Timer::start arms the timer for exactly that many microseconds later: the seconds and nanoseconds passed to the kernel are valid, the nanoseconds carry into the seconds, and no signed arithmetic overflows. A negative interval is refused or arms for the corresponding time in the past.", "quantifier": "all clock values, all intervals", "why_tests_cant": "A test starts timers at the moment it runs; the carry from nanoseconds to seconds and the overflow depend on the clock value and the interval.", "anchors": ["src/app/common/reactor/Timer.cpp"]}
{"id": "C70", "title": "Log lines are formatted within their array", "statement": "Every use of the log macro, with any values of its arguments and any log levels, formats its line without undefined behaviour: each conversion of the format has an argument of its type, no argument is left over, and the line with its terminating NUL fits into the 1024 characters of the array it is printed into, including the lines that print whole Modbus frames. A line is handed on exactly if its level reaches the level of its task; with the levels the program sets, exactly the lines of the Modbus component and of the controller are suppressed.", "quantifier": "all 372 log lines, all values of their arguments, all levels", "why_tests_cant": "The lines with received frames depend on what the peer sends, and they are suppressed by the default levels; an overflow of the stack array corrupts memory without a visible failure.", "anchors": ["src/app/common/logger/Logger.hpp", "src/app/common/logger/Logger.cpp", "src/app/modbus/PduBuffer.hpp"]}
{"id": "C71", "title": "The program starts and ends without using destroyed objects", "statement": "In every interleaving of the main thread with the reactor threads, from the construction of the reactors to the return of main, no thread uses a component, handler, pool, event or mailbox that has been destroyed, and only threads that exist are joined; once the reactors are stopped, every execution ends after a bounded number of steps with all threads joined; and if a thread can not be started, or main throws, the program still ends.", "quantifier": "all interleavings, all numbers of reactors, all events, all results of creating and pinning threads", "why_tests_cant": "The uses of destroyed objects need an event or a long handler in a window of some hundred milliseconds at the end of the program; a failure to start depends on the machine.", "anchors": ["src/app/main.cpp", "src/app/common/reactor/ReactorManager.cpp", "src/app/common/reactor/Reactor.cpp", "src/app/common/reactor/Thread.cpp", "src/app/common/reactor/Epoll.cpp"]}
{"id": "C72", "title": "Threads share memory without races and without deadlock", "statement": "In every interleaving of the main thread with the threads of the reactors, any two accesses of different threads to one object (the map of components, a mailbox, handlers and pools of a reactor, a component, the static pointers to reactors and senders, the logger and its time buffer) of which one writes or destroys it are ordered by happens before, as built from program order, mutexes, creation and joining of threads, the atomic stop flag and the guarded construction of the static logger; and a thread that waits for a mutex waits for one whose holder can go on.", "quantifier": "all interleavings, all deployments, all messages and handlers of any length", "why_tests_cant": "A race shows only in rare interleavings and may corrupt memory without a visible effect; tools that detect races see only the interleavings that happened.", "anchors": ["src/app/common/reactor/ReactorManager.cpp", "src/app/common/reactor/Reactor.cpp", "src/app/common/reactor/MsgMemStorage.cpp", "src/app/common/logger/Logger.cpp", "src/app/Deployer.cpp", "src/app/main.cpp"]}
{"id": "C73", "title": "Messages between the OPC UA components are neither lost nor multiply", "statement": "Every message that a connection, a secure channel or a session sends to another component is handled: the mailbox of 64 slots of the reactor never is full when one is sent. One event of a link or a timer leads to a bounded number of messages, so that the mailbox is empty again after a bounded number of turns; a client that sends requests without waiting for the answers gets all of them.", "quantifier": "all histories of link events, timers and turns of the mailbox, all received bytes, all states of the 32 connections, channels and sessions", "why_tests_cant": "A message is only lost when 64 others wait; this needs many clients at once and a certain order of events, and the loss leaves no trace but a missing answer.", "anchors": ["src/app/common/reactor/Reactor.cpp", "src/app/common/reactor/MsgMemStorage.cpp", "src/app/ua/transport/server/UaTcpConnection.cpp", "src/app/ua/securechannel/UaSecureChannel.cpp", "src/app/ua/service/session/UaSession.cpp"]}
{"id": "C74", "title": "Every encoding of a request that the standard allows is understood", "statement": "A client may choose between several encodings of the same request (form of node ids, null or empty strings and arrays, value of true, body of an extension object in XML). The server answers a get endpoints, create, activate, close session and read request in the same way, whatever choice the client made; so does it with requests to open and close secure channels. No bytes are an encoding of two requests.", "quantifier": "all requests, all their encodings, all states of the server, all bytes behind the request in the buffer", "why_tests_cant": "The number of encodings is the product of the choices for each field; the tests of the project decode only what its own encoder wrote.", "anchors": ["src/app/common/ua/common/OpcUaBinaryCodec.cpp", "src/app/common/ua/common/OpcUaBinaryCodec.hpp", "src/app/ua/service/UaService.cpp", "src/app/ua/service/session/UaSession.cpp", "src/app/ua/securechannel/UaSecureChannel.cpp"]}
{"id": "C75", "title": "Modbus peers that follow the standard are understood", "statement": "A request that the Modbus application protocol allows (functions 1 to 6 and 16), sent to a unit that the protocol allows and cut in any way, is forwarded with the meaning that the protocol gives it, and the answer that the session then sends is the one that the protocol demands, byte by byte; requests that the protocol forbids are answered with the exception that it demands. The client sends exactly the requests that the protocol allows and reports the results that the answer of the protocol carries.", "quantifier": "all requests, transaction numbers, units, register values, cuts of the stream, all states in which a session waits for a request and a client for an order", "why_tests_cant": "The tests of the project connect its own client with its own server, which agree on byte orders and codes that differ from the standard; the number of requests and values is about 65536 to the power of 125.", "anchors": ["src/app/modbus/ModbusCodec.cpp", "src/app/modbus/server/session/ModbusSession.cpp", "src/app/modbus/client/ModbusClient.cpp"]}
{"id": "C76", "title": "Waiting is bounded in time", "statement": "With time in the model: every request given to a Modbus client is answered within 5.01 seconds for it and for each request before it; a client that waits before the next attempt to connect tries within half a second, and an attempt ends within three seconds; a client whose connection is lost tries to connect again; a Modbus session without data ends within 35 seconds; a connection of an OPC UA client ends within 30 seconds unless it has received a complete message. The delay of the timers is added.", "quantifier": "all histories of events with their times, before and after the moment from which the time is measured, all contents of received data, all results of system calls (timers can be had), all delays of timers", "why_tests_cant": "A test sees a few histories that last some seconds; that bytes which complete no message, requests of other callers, or events of other connections never extend a wait is a claim about all histories of any length.", "anchors": ["src/app/modbus/client/ModbusClient.cpp", "src/app/modbus/client/ModbusClientReceive.cpp", "src/app/modbus/client/ModbusClientSend.cpp", "src/app/modbus/client/ModbusClientBackoff.cpp", "src/app/modbus/server/session/ModbusSession.cpp", "src/app/ua/transport/server/UaTcpConnectionConnected.cpp"]}
{"id": "C77", "title": "What is written to a link is read at its other end", "statement": "A frame given to a link is understood exactly once at the other end, whatever portions it arrives in and whenever the event loops run: a waiting Modbus session forwards the request, an OPC UA connection passes on the chunk, as soon as everything has arrived and has been reported. If a frame can not be written as a whole, the sender is told so. Bytes that have arrived are read.", "quantifier": "all frames, all portions in which bytes arrive, all points at which the event loop runs and bytes arrive between an event and its read, all numbers of bytes the kernel takes in one write", "why_tests_cant": "On one machine the kernel takes small writes as a whole and delivers them in one portion; the interleavings of arrivals, edge-triggered events and reads, and writes that are cut short when the send buffer is full, do not occur in a test.", "anchors": ["src/app/common/reactor/Link.cpp", "src/app/common/reactor/Epoll.cpp", "src/app/modbus/server/session/ModbusSession.cpp", "src/app/ua/transport/server/UaTcpConnection.cpp"]}
{"id": "C78", "title": "A message takes effect when its last chunk has come", "statement": "A request that a client sends in parts takes effect when the part marked as final has come, and then as the concatenation of its parts; a request that the client aborts takes no effect.", "quantifier": "all reachable states of the server, all connected clients, all requests they may send, all chunk types", "why_tests_cant": "Clients in tests send short requests in single final chunks; the type of a chunk only matters to clients that split or abort a message.", "anchors": ["src/app/ua/transport/server/UaTcpConnection.cpp: receiveSecuredMessage", "src/app/ua/securechannel/channel/UaServerSecureChannel.cpp: receive", "src/app/common/msg/types/UaChunkType.hpp"]}
{"id": "C79", "title": "Every orderly dialogue of a client is answered to its end", "statement": "A connected client that sends one request after the other, each chosen after the answers so far, gets exactly one answer to each, with its channel, token, request identifier and the next sequence number, as long as it creates sessions only while some are free, names only sessions it created and has not closed, and reads only in the session it activated last. Other connections, channels and sessions are not changed.", "quantifier": "all reachable states of the server, all finite dialogues of any length including those whose requests depend on the answers, all environments with free message slots", "why_tests_cant": "There are infinitely many dialogues; that the state behind each answer is one in which the next request can be answered is an invariant over all of them.", "anchors": ["src/app/ua/transport/server/UaTcpConnection.cpp", "src/app/ua/securechannel/channel/UaServerSecureChannel.cpp", "src/app/ua/service/session/UaSessionService.cpp", "src/app/ua/service/session/UaSession.cpp"]}
{"id": "C80", "title": "Clients at the same time do not disturb each other", "statement": "Any number of connected clients, each with its own connection, channel and sessions, may send their requests at any time, each one its next when the last was answered. Each hears exactly the answers to its own requests, in its own order; a client that waits has its answer after at most ten deliveries per client, whatever the others ask meanwhile; and if every client is given the chance to talk again and again, and messages are delivered again and again, all come to the end of what they want to ask.", "quantifier": "all reachable states of the server, all numbers of clients, all their dialogues, all interleavings of requests and deliveries, finite and infinite", "why_tests_cant": "The interleavings of the messages of several clients in one mailbox cannot be enumerated; a test with two clients shows one order of events.", "anchors": ["src/app/common/reactor/Reactor.cpp", "src/app/ua/transport/server/UaTcpConnection.cpp", "src/app/ua/securechannel/channel/UaServerSecureChannel.cpp", "src/app/ua/service/session/UaSessionService.cpp", "src/app/ua/service/session/UaSession.cpp"]}
{"id": "C81", "title": "Clients come and go for ever", "statement": "A client that connects, says hello, opens a channel, carries out its dialogue, closes the sessions it created, and ends with a close request or by closing its end of the connection, gets every answer it is due, and behind it as many connections, channels and sessions are free as before; so any infinite succession of such clients is served, from the start of the server on.", "quantifier": "all reachable states with a free connection, a free channel and enough free sessions; all visits that keep to the rules; all infinite successions of them", "why_tests_cant": "A leak of one identifier per visit shows after 32 visits, a leak that depends on what a visit asked or how it ended later or never; no test serves infinitely many clients.", "anchors": ["src/app/ua/transport/server/UaTcpConnection.cpp", "src/app/ua/transport/server/UaTcpServer.cpp", "src/app/ua/securechannel/channel/UaServerSecureChannel.cpp", "src/app/ua/service/session/UaSessionService.cpp", "src/app/common/ua/common/UaEntityPool.hpp"]}
{"id": "C82", "title": "A client is not disturbed by strangers", "statement": "While other connections do anything at all (come and go, send any bytes in any pieces, fail, time out, open and lose channels, create sessions, name foreign channels), a client with a connection, channel and sessions of its own that carries out its dialogue hears nothing but the answers to its own requests, one for each, in order, and each fits its request; each answer comes at most 320 deliveries after the request. The client itself never ends the process. Excepted are the things against which other properties show the server to be defenceless: that the others end the process, that they fill the mailbox or hold every session just when the client needs a slot or a session, and that they take over or close the session of the client.", "quantifier": "all reachable states in which the client is apart from the others; all dialogues that keep to the rules; all histories of events of other connections and of deliveries, of any length; all bytes", "why_tests_cant": "The others may send any bytes at any time; a message that ends in the channel of someone else needs a particular interleaving of particular requests.", "anchors": ["src/app/ua/transport/server/UaTcpConnection.cpp", "src/app/ua/transport/server/UaTcpServer.cpp", "src/app/ua/securechannel/channel/UaServerSecureChannel.cpp", "src/app/ua/service/session/UaSession.cpp", "src/app/ua/service/session/UaSessionService.cpp"]}
{"id": "C83", "title": "The program comes up and goes down completely", "statement": "After the start message of main, in every order in which the reactors work, everything comes up: the three OPC UA components have their entities, the OPC UA server listens, and the Modbus client and the listening Modbus server of the self test are configured (or the self test has failed and has released them). After the stop message, everything is gone. No message that starts, configures, stops or releases something ends the process. With fair threads both ends are reached.", "quantifier": "all interleavings of main, the reactors, the timer of the controller and the links of the Modbus component, of any length; all random numbers of the self test; all infinite fair histories", "why_tests_cant": "The order of the messages between four reactors decides what is still there at the end; a test sees one order. That something never comes up or is never released shows in no finite run.", "anchors": ["src/app/main.cpp", "src/app/Deployer.cpp", "src/app/controller/ControllerComponent.cpp", "src/app/controller/modbus/ModbusTestController.cpp", "src/app/controller/ua/UaController.cpp", "src/app/modbus/ModbusComponent.cpp", "src/app/ua/transport/UaTransportComponent.cpp", "src/app/ua/securechannel/UaSecureChannelComponent.cpp", "src/app/ua/service/UaServiceComponent.cpp"]}
{"id": "C84", "title": "Modbus masters at the same time see one memory", "statement": "While other masters, configurations, batches and the self test of the controller do anything at all, a master that is connected to the Modbus server and sends one request after the other hears at most one answer to each, in order. Each answer is that of the standard for the content that one memory has at one moment between request and answer, and this memory is changed by the requests of all masters, one after the other. The answer comes as soon as the session has read the request, the controller has taken the requests that wait before it and the component has taken the answers that wait before it. Nothing that is done for the master ends the process. Excepted are requests that the controller does not answer or must not get (C61), full mailboxes, failing links and expired timers of the master itself, and that an earlier master leaves messages under way for the same session number.", "quantifier": "all reachable states of the Modbus component, the controller and the messages between them in which the master has just connected; all lists of requests; all cuts of their bytes; all histories of other events, of any length and content", "why_tests_cant": "Which master's write a read sees depends on the interleaving of two reactors and their mailboxes; a test sees a few of them, and an answer that reaches the wrong master needs a session number that comes round again.", "anchors": ["src/app/modbus/Modbus.cpp", "src/app/modbus/server/ModbusServer.cpp", "src/app/modbus/server/session/ModbusSession.cpp", "src/app/modbus/server/session/ModbusSessionWaitModbusAduRsp.cpp", "src/app/controller/modbus/ModbusTestController.cpp", "src/app/common/reactor/Reactor.cpp"]}
{"id": "C85", "title": "Requests of unknown type change nothing", "statement": "Which service gets a request depends on the type of the request alone and not on what was received before: after any history the table of services holds exactly the five services of the constructor, and each message does to the sessions what the fixed assignment of types to services says. A request whose type nobody serves leaves nothing behind, and the memory of the table does not grow with what clients send.", "quantifier": "all histories of messages to the service component, of any length and content; all type identifiers, namespaces and bodies", "why_tests_cant": "Whether an earlier request spoils a later one would have to be tried for all pairs of 65536 types; entries that stay behind show in no answer.", "anchors": ["src/app/ua/service/UaService.cpp", "src/app/ua/service/UaService.hpp", "src/app/ua/service/discovery/UaDiscoveryService.cpp", "src/app/ua/service/session/UaSessionService.cpp", "src/app/ua/service/attribute/UaAttributeService.cpp"]}
{"id": "C86", "title": "The messages of the Modbus masters find slots in the mailboxes", "statement": "Between the Modbus sessions and the controller there is at most one message of each connected master under way, and not more masters are connected than the reactor has links. So the requests and answers of masters that wait for their answers never fill the mailboxes of the two reactors: with the 32 links of the reactor half of the 64 slots stay free for everything else.", "quantifier": "all histories of the Modbus component and the controller, any number of servers, any number of masters that connect, ask and leave in any order, any requests", "why_tests_cant": "A message that finds no slot is dropped silently; whether this can happen depends on the interleaving of all masters with two reactors that run on their own.", "anchors": ["src/app/common/reactor/Reactor.cpp", "src/app/common/reactor/MsgMemStorage.cpp", "src/app/modbus/server/ModbusServer.cpp", "src/app/modbus/server/session/ModbusSession.cpp", "src/app/modbus/server/session/ModbusSessionWaitModbusAduRsp.cpp"]}
{"id": "C87", "title": "Modbus peers cannot make the process misbehave", "statement": "Whatever connects to the Modbus servers and whatever bytes it sends, cut anywhere, no event ends the process or leaves the defined behaviour of the code: not in the sessions that read the bytes, not in the controller that serves the forwarded requests, and not where its answers are turned into frames.", "quantifier": "all histories of the Modbus component and the controller within the assumptions, all bytes, all chunkings, any number of masters, all timers and link failures", "why_tests_cant": "The peers are not under control of the program; the inputs are arbitrary byte streams of any number of connections in any interleaving with timers, failures and the controller, and memory errors need not show when they happen.", "anchors": ["src/app/modbus/server/session/ModbusSession.cpp", "src/app/modbus/server/ModbusServer.cpp", "src/app/modbus/ModbusCodec.cpp", "src/app/controller/modbus/ModbusTestController.cpp", "src/app/common/reactor/Link.cpp"]}
{"id": "C88", "title": "Memory asked for by decoding is bounded by the message", "statement": "Decoding a received message asks for memory in proportion to the bytes that were received, not to numbers that stand in them; when the allocator refuses a request, decoding ends with an exception and otherwise does what it does with unlimited memory.", "quantifier": "all types and messages of the codec, all buffer contents, all allocators (any set of refused request sizes)", "why_tests_cant": "A length field has 2^31 values at every position of every message and an allocator may refuse any request; tests that exhaust the memory of the machine are not run, and with overcommitted memory the failure appears elsewhere.", "anchors": ["src/app/common/ua/common/OpcUaBinaryCodec.cpp", "src/app/common/ua/common/OpcUaBinaryCodec.hpp", "src/app/ua/transport/server/UaTcpConnection.cpp", "src/app/common/ua/protocols/connection/ServerConnection.cpp", "src/app/ua/securechannel/channel/UaServerSecureChannel.cpp"]}
{"id": "C89", "title": "OPC UA peers cannot bring down the process", "statement": "Whatever bytes OPC UA peers send, in whatever pieces and order, and however the deliveries between the transport, secure channel and session components interleave, every handler of the server runs to its end: it does not terminate the process and does not read or write outside its buffers.", "quantifier": "all peers, all bytes, all fragmentations, all interleavings of 32 connections, channels and sessions, all histories", "why_tests_cant": "The state is the product of 32 connections, 32 channels, 32 sessions and the mailbox; the input is any byte sequence. Fuzzing finds some crashing inputs but cannot show that the conditions found are all there are.", "anchors": ["src/app/ua/transport/server/UaTcpConnection.cpp", "src/app/ua/securechannel/channel/UaServerSecureChannel.cpp", "src/app/common/ua/common/OpcUaBinaryCodec.cpp"]}
{"id": "C90", "title": "Answers reveal nothing of uninitialised memory", "statement": "What the peers of the OPC UA server see (that they are accepted, the bytes that come, the end of the connection) depends only on what the peers, the clock and the random device brought: two runs that differ only in what memory held before it was written (receive buffers, members of channels, decode buffers on the stack) show all peers the same.", "quantifier": "all contents of uninitialised memory, all peers, all bytes, all fragmentations, all interleavings, all histories", "why_tests_cant": "This compares pairs of runs over all contents of memory; a test sees one content, which on a fresh process is mostly zero.", "anchors": ["src/app/ua/transport/server/UaTcpConnection.cpp", "src/app/ua/securechannel/channel/UaServerSecureChannel.cpp", "src/app/common/ua/common/OpcUaSduBuffer.hpp"]}
{"id": "C91", "title": "Answers of the Modbus server reveal nothing of uninitialised memory", "statement": "What masters receive from the Modbus server, and what the application is asked on their behalf, depends only on the bytes that arrived and on the answers of the application: two runs with the same events that differ in what receive buffers and stored requests contained before they were written give the same bytes to all masters.", "quantifier": "all contents of uninitialised memory, all bytes, all fragmentations, all histories of all sessions of a server", "why_tests_cant": "This compares pairs of runs over all contents of memory; a test sees one content, which on a fresh process is mostly zero.", "anchors": ["src/app/modbus/server/session/ModbusSession.cpp", "src/app/modbus/ModbusCodec.cpp", "src/app/modbus/PduBuffer.hpp", "src/app/common/msg/MsgModbusAduReq.hpp"]}
{"id": "C92", "title": "What a Modbus client reports reveals nothing of uninitialised memory", "statement": "What the application is told about its requests, and what slaves receive, depends only on the requests, the bytes that arrived and the results of system calls: two runs with the same events that differ in what the receive buffer contained before it was written have the same effects.", "quantifier": "all contents of uninitialised memory, all bytes, all fragmentations, all histories of a client", "why_tests_cant": "This compares pairs of runs over all contents of memory; a test sees one content, which on a fresh process is mostly zero.", "anchors": ["src/app/modbus/client/ModbusClient.cpp", "src/app/modbus/client/ModbusClientReceive.cpp", "src/app/modbus/ModbusCodec.cpp", "src/app/modbus/PduBuffer.hpp"]}
{"id": "C93", "title": "Every event is heard", "statement": "A descriptor that is ready (a connection waits at an acceptor, a link can be read or written, a timer has expired, a message is in the mailbox) has its handler called within ten turns of the reactor, whatever other descriptors are ready; no peer can keep the events of other peers, timers or components from being handled.", "quantifier": "all handlers, all arrivals in all orders, all bytes that peers send, all histories of a reactor", "why_tests_cant": "It needs ready descriptors in a particular order together with a handler that throws; the lost event leaves no trace, and a reactor that has gone deaf looks like an idle one.", "anchors": ["src/app/common/reactor/Epoll.cpp: Epoll::wait", "src/app/common/reactor/Reactor.cpp: Reactor::run, createLink", "src/app/common/reactor/Acceptor.cpp: Acceptor::listen", "src/app/ua/transport/server/UaTcpServer.cpp: UaTcpServer::onAcceptEvent"]}
{"id": "C94", "title": "An answer reaches the client that asked", "statement": "Whatever the server writes to a client is an answer to a request that this client has sent since it was accepted: the request identifiers of the message chunks written since then are a subsequence of those received since then, and no session is bound to its channel that it did not activate, even though connections and channels are reused for later clients.", "quantifier": "every history of the three components together: clients that come and leave at any time with requests under way, any number of connections in use", "why_tests_cant": "The answer is misdirected only when a client leaves while its request is queued and the same connection number is handed out again before the answer has passed four queues; this needs a crowded server and an unlucky order of events.", "anchors": ["src/app/ua/transport/server/UaTcpServer.cpp: onAcceptEvent", "src/app/ua/transport/server/UaTcpConnection.cpp", "src/app/ua/securechannel/UaSecureChannel.cpp", "src/app/ua/securechannel/UaSecureChannelComponent.cpp", "src/app/ua/service/session/UaSession.cpp", "src/app/common/utils/Queue.hpp"]}
{"id": "C95", "title": "Library connections shake hands before they report success", "statement": "A client connection of the library reports success only after it has written a Hello for the current attempt and a complete chunk of type ACK has come; a server connection only after a complete chunk of type HEL has come and it has written an Acknowledge. A client and a server that are connected to each other both report success, however their messages are cut, and respect the limits that the other one states.", "quantifier": "all histories of calls, events and failures of system calls, all bytes of the peer, all ways of cutting the messages", "why_tests_cant": "The order must hold in every history, including those with failing system calls, users that call back from notifications and peers that send anything at any time.", "anchors": ["src/app/common/ua/protocols/connection/ClientConnection.cpp: sendHello, receiveAck", "src/app/common/ua/protocols/connection/ServerConnection.cpp: sendReverseHello, receiveHello, sendAcknowledge", "src/app/common/ua/protocols/connection/ClientConnectionReceiveAck.cpp", "src/app/common/ua/protocols/connection/ServerConnectionReceiveHello.cpp"]}
{"id": "C96", "title": "Every accepted socket gets one connection of its own", "statement": "A socket that the OPC UA server accepts is served by exactly one connection object, which was idle, is the next in the queue of free objects and begins afresh: state, timer, receive buffer and channel are those of a new connection; no other connection changes. A socket that cannot be accepted, or comes while all objects are in use, changes nothing. Connections never begin for any other reason, so all together they have begun at most as often as sockets were accepted.", "quantifier": "all histories of accepts, data, errors, timers and messages of the channel layer, all results of system calls", "why_tests_cant": "A test connects a few clients to an idle server; which object the next socket gets depends on the whole history, and failures of system calls between accept and the start of the connection are hard to provoke.", "anchors": ["src/app/ua/transport/server/UaTcpServer.cpp: onAcceptEvent", "src/app/ua/transport/server/UaTcpConnection.cpp: acceptLink, allocTimer", "src/app/ua/transport/server/UaTcpConnectionInit.cpp"]}
{"id": "C97", "title": "An object that is used again serves like a new one", "statement": "Session objects of the Modbus server and connection and channel objects of the OPC UA server are used for one peer after the other. What a peer sees does not depend on what the peers before it did: a Modbus session that is idle after any history writes the same frames to its next master as a new session would, and values that earlier OPC UA peers left in receive buffers and closed channels do not show to those that come later.", "quantifier": "all earlier histories of the server, all orderly behaviour of the peer that comes next, all values that may be left in the objects", "why_tests_cant": "A test talks to objects that are new or were used by the same well-behaved test; what is left over shows only for particular pairs of earlier and later peers on the same object.", "anchors": ["src/app/modbus/server/session/ModbusSession.cpp: startReceive, onStart", "src/app/modbus/server/session/ModbusSessionInit.cpp", "src/app/ua/transport/server/UaTcpConnection.cpp", "src/app/ua/securechannel/channel/UaServerSecureChannel.cpp"]}
{"id": "C98", "title": "A peer is served only after it has been greeted", "statement": "The OPC UA server serves a peer only after a whole first message of it, a Hello, has come and Acknowledge was written: before that nothing is written to it, nothing of it is handed to the layers above, and its connection is bound to no channel. Everything written afterwards is one whole chunk of a secure channel of at most 4096 bytes. A first message that is not a Hello is not acknowledged.", "quantifier": "all histories of the server (arrivals, received data, failures, deadlines, requests of the layer above in any order and for any connection), all connections, all first messages", "why_tests_cant": "Tests of the handshake use well-behaved clients; that no sequence of events on any connection writes before the greeting or serves a peer without it is a statement about all histories, and that a test for the message type is missing shows only for messages no client sends.", "anchors": ["src/app/ua/transport/server/UaTcpConnection.cpp: receiveHello, sendAcknowledge", "src/app/ua/transport/server/UaTcpConnectionReceiveHello.cpp", "src/app/ua/transport/server/UaTcpConnectionConnected.cpp"]}
{"id": "C99", "title": "A secure channel is open only as long as a connection has it", "statement": "At any time at which no message is under way between the components of the OPC UA server, every open secure channel is the channel of the connection that opened it: a client that renews its channel, or that leaves at any moment, leaves no channel behind, the channels of clients that have left are free again, and a session stays within reach of the client that activated it.", "quantifier": "all histories of the three server components together (arrivals, data, failures, deadlines, deliveries in any order of the clients), all channels, all numbers of renewals, all later histories", "why_tests_cant": "Tests of the server open one channel per connection and close it in order; that a channel which nobody can name any more stays open needs the absence of every later event that could close it, and the loss of all channels shows only after 31 renewals.", "anchors": ["src/app/ua/securechannel/UaSecureChannel.cpp: receive(MsgUaOpenSecureChannelReq)", "src/app/ua/transport/server/UaTcpConnection.cpp: receive(MsgUaOpenSecureChannelRsp), sendReleaseInd", "src/app/ua/securechannel/channel/UaServerSecureChannel.cpp: receive(MsgUaOpenSecureChannelReq), release"]}
{"id": "C100", "title": "The limits of the greeting are kept", "statement": "Hello and Acknowledge agree on the sizes of the chunks: the OPC UA server announces no larger buffers than the Hello asks for, sends no chunk that is larger than the peer's buffer, and receives every chunk that is not larger than the buffer it announced itself, in whatever pieces it arrives.", "quantifier": "all histories of the transport component, all connections, all Hello messages, all chunks between 4097 and 65536 bytes and all ways to cut them into pieces of at most 3072 bytes", "why_tests_cant": "Tests of the server use short chunks and one Hello with the server's own limits; that every larger chunk is lost however it is cut, and that every smaller limit is ignored, are statements about all messages.", "anchors": ["src/app/ua/transport/server/UaTcpDefs.hpp: opcUaReceiveBufferSize", "src/app/ua/transport/server/UaTcpConnection.cpp: receive, sendAcknowledge"]}
{"id": "C101", "title": "A peer is told why its connection ends", "statement": "Before the OPC UA server ends the connection of a peer that has violated the protocol, it writes an Error message that names the reason.", "quantifier": "all histories of the transport component, all connections, everything that is written; all whole chunks of unknown type", "why_tests_cant": "That a message is never written in any history cannot be seen by running some of them.", "anchors": ["src/app/ua/transport/server/UaTcpConnection.cpp: receiveSecuredMessage", "src/app/ua/transport/server/UaTcpConnectionConnected.cpp: onDataReceived"]}
{"id": "C102", "title": "A security token is used no longer than its lifetime", "statement": "The OPC UA server serves no request under a security token whose granted lifetime is over.", "quantifier": "all reachable states of the three server components with a connected client, all open requests and lifetimes, all later readings of the clock, all plans of requests of any length", "why_tests_cant": "Tests do not wait for the end of a lifetime, which is an hour or more; that no clock reading whatever makes a difference is a statement about all times.", "anchors": ["src/app/ua/securechannel/channel/UaServerSecureChannel.cpp: receive(MsgUaOpenSecureChannelReq), receive(MsgUaSecuredMessageReceiveInd)", "src/app/ua/securechannel/channel/UaServerSecureChannel.hpp: storedRequestedLifetime"]}
{"id": "C103", "title": "Sequence numbers wrap as the standard allows", "statement": "The numbers of the chunks of a secure channel grow by one, and behind 4294966271 the sender may begin again with any number below 1024: the OPC UA server sends its chunks with such numbers, and accepts every message of its client with such a number.", "quantifier": "all histories of the secure channel component, all channels, all sequence numbers, all tokens and payloads", "why_tests_cant": "The end of the range comes after four billion messages.", "anchors": ["src/app/ua/securechannel/channel/UaServerSecureChannel.cpp: receive(MsgUaSecuredMessageReceiveInd)"]}
{"id": "C104", "title": "Nodes of the address space carry the attributes of their class", "statement": "Each class of nodes has exactly the attributes that the standard gives to it, mandatory ones always and each once; an attribute reads as the value last written to it, a new node knows its class, writing one attribute changes no other, and looking for a component changes nothing.", "quantifier": "all classes of nodes, all sequences of writes, look-ups and assignments, all values", "why_tests_cant": "Sequences of operations are unbounded, and what a constructor leaves in memory differs from run to run.", "anchors": ["src/app/common/ua/common/Attribute.hpp: Attribute", "src/app/common/ua/common/NodeClassBase.hpp: NodeClassBase", "src/app/common/ua/common/NodeClassObject.hpp: NodeClassObject", "src/app/common/ua/common/NodeClassVariable.hpp: NodeClassVariable", "src/app/common/ua/common/NodeClassReferenceType.hpp: NodeClassReferenceType"]}
{"id": "C105", "title": "The library's server channel takes only whole messages that are meant for it", "statement": "The server channel of protocols/secure passes a chunk on as a message only if it names the identifier of the channel, is the whole message, and has the token and the next number; a renewal has to name the channel and follow in number; everything else ends the channel with an error and gives its connection back.", "quantifier": "all histories, all channel identifiers, chunk types, tokens, numbers and payloads", "why_tests_cant": "Any header can arrive in any state.", "anchors": ["src/app/common/ua/protocols/secure/OpcUaServerSecureChannel.cpp: receiveSecureChannelReq", "src/app/common/ua/protocols/secure/OpcUaServerSecureChannel.cpp: receiveOpenSecureChannelReq"]}
{"id": "C106", "title": "Every request is answered, with its response or with a fault", "statement": "A well formed request that can be carried out (a session is left, the token is that of an existing session, the channel is the one that activated the session last) is answered exactly once, with the response of its kind, back the way it came; a request that cannot be carried out is answered with a service fault.", "quantifier": "every history of requests over any channels, then every well formed request in any encoding that the standard allows", "why_tests_cant": "Which requests can be carried out depends on the whole history of all clients.", "anchors": ["src/app/ua/service/UaService.cpp: receive", "src/app/ua/service/session/UaSession.cpp: UaSession", "src/app/ua/service/session/UaSessionService.cpp: UaSessionService"]}
{"id": "C107", "title": "The server says truthfully where and how it can be reached", "statement": "The endpoints announced to those who ask are those announced to those who create a session; they name the address that the program listens on, the transport profile, and at least one way to identify the user; a client that names the profiles it knows is told only of endpoints with one of them.", "quantifier": "every state of the service component, every request for endpoints and every request for a session, every run of the controller", "why_tests_cant": "The announcement is compared with the address configured in another component, for all requests and runs.", "anchors": ["src/app/ua/service/discovery/UaGetEndpoints.cpp: receive", "src/app/ua/service/session/UaSession.cpp: UaSession", "src/app/controller/ua/UaController.cpp: UaController"]}
{"id": "C108", "title": "A conversation over the library's secure channel goes its way", "statement": "Over an open channel of common/ua/protocols/secure, for as long as the client keeps to the token and to the numbers: every message reaches the user as it was sent, everything that the user says leaves in order with the token in force, the next number and the identifier of the request it answers, every renewal is answered and changes the token, and a close request ends the channel and its connection.", "quantifier": "every reachable open channel, every conversation of any length: messages, things said while told of a message or later, renewals, in any order", "why_tests_cant": "Conversations of any length with any mixture of turns; numbers that wrap around.", "anchors": ["src/app/common/ua/protocols/secure/OpcUaServerSecureChannel.cpp: send", "src/app/common/ua/protocols/secure/OpcUaServerSecureChannel.cpp: receiveSecureChannelReq", "src/app/common/ua/protocols/secure/OpcUaServerSecureChannelEstablished.cpp: onSecureChannelReq"]}
{"id": "C109", "title": "The library's client and server open a channel with each other", "statement": "An idle client channel and an idle server channel of common/ua/protocols, connected with each other, exchange Hello, Acknowledge, open request and open response however the network cuts them into pieces: both end up with an open secure channel, the client has accepted what the server sent, and neither user is told of an error. The same two objects can do so any number of times, and nothing is left behind when the timers end the channel.", "quantifier": "every idle client, every idle server, whatever they did before; every way to cut each of the four messages; every number of meetings", "why_tests_cant": "Every way of cutting the messages, any history of both sides, any number of repetitions; the project's tests hold each side against hand-written bytes only.", "anchors": ["src/app/common/ua/protocols/secure/OpcUaClientSecureChannel.cpp: sendOpenSecureChannelReq", "src/app/common/ua/protocols/secure/OpcUaClientSecureChannel.cpp: receiveOpenSecureChannelRsp", "src/app/common/ua/protocols/secure/OpcUaServerSecureChannel.cpp: receiveSecureChannelReq", "src/app/common/ua/protocols/secure/OpcUaServerSecureChannelEstablished.cpp: onSecureChannelReq"]}
{"id": "C110", "title": "The library's client opens channels with the server program", "statement": "An idle client channel of common/ua/protocols that is connected with the server program of cpu3 exchanges Hello, Acknowledge, open request and open response with it however the network cuts them into pieces: the client accepts the program's answer, its user is told of no error, and the program has assigned a free connection and a free channel to it and touched no others. The same client can do so any number of times; when its timer ends the channel, the program has as many free connections and channels as before.", "quantifier": "every idle client whatever it did before; every reachable state of the three server components with an empty mailbox, a free connection and a free channel; every way to cut each of the four messages; every number of calls", "why_tests_cant": "No test connects the two; any history of both, every cut, and a number of calls beyond the 32 identifiers of each pool.", "anchors": ["src/app/common/ua/protocols/secure/OpcUaClientSecureChannel.cpp: sendOpenSecureChannelReq", "src/app/common/ua/protocols/secure/OpcUaClientSecureChannel.cpp: receiveOpenSecureChannelRsp", "src/app/ua/transport/server/UaTcpConnection.cpp: receive", "src/app/ua/securechannel/channel/UaServerSecureChannel.cpp: UaServerSecureChannel"]}
{"id": "C111", "title": "The Modbus client comes back after every disturbance", "statement": "Whatever has happened to a started Modbus client - links that failed, peers that closed, wrong or missing answers, requests that cannot be sent - once connections are accepted again, the requests that were waiting are answered in their order, each once, and the client is connected after a number of events bounded by the number of these requests; and the next request is carried out by the server and its caller told the answer.", "quantifier": "every reachable state of a started client; every pair of requests of the supported kinds; every server session that has just begun; every application", "why_tests_cant": "A state is the result of an arbitrary history of failures; tests break a connection at a few chosen points.", "anchors": ["src/app/modbus/client/ModbusClientBackoff.cpp: onTimer", "src/app/modbus/client/ModbusClientConnect.cpp: onError", "src/app/modbus/client/ModbusClientSend.cpp: onTimer", "src/app/modbus/client/ModbusClientReceive.cpp: onTimer", "src/app/modbus/client/ModbusClient.cpp: provideRspError"]}
{"id": "C112", "title": "A Modbus request is sent at most once", "statement": "The frames that a Modbus client hands to its links in the whole of its life, over all its connections, are the standard encodings of some of the requests it was given, in the order in which it was given them and none more often than it was given. A request that has been answered is not sent any more, and a request that is reported as successful has been sent.", "quantifier": "every history of events: requests, connections, failures, data of any content, timer expirations and results of system calls", "why_tests_cant": "A repeated or late write shows only after particular sequences of failures, timeouts and reconnections, whose number is unbounded.", "anchors": ["src/app/modbus/client/ModbusClient.cpp: send", "src/app/modbus/client/ModbusClientSend.cpp: onTimer", "src/app/modbus/client/ModbusClientSend.cpp: onDataReceived", "src/app/modbus/client/ModbusClientReceive.cpp: onExit"]}
{"id": "C113", "title": "The Modbus server comes back after every disturbance", "statement": "Whatever masters have done to the Modbus server - wrong, half or unanswered frames, broken links, connections left open - when nothing arrives any more the timers bring back all that was taken: after each session's timer has expired twice no session is started, every session identifier is free exactly once, the reactor has its timers and links back, the next master is accepted and its requests are carried out.", "quantifier": "every history of the server and every history of a client that then turns to it; every application", "why_tests_cant": "The state is the result of an arbitrary history on up to 256 sessions; tests use one master and few failures.", "anchors": ["src/app/modbus/server/ModbusServer.cpp: onReleaseSession", "src/app/modbus/server/session/ModbusSessionConnected.cpp: onTimer", "src/app/modbus/server/session/ModbusSessionWaitModbusAduRsp.cpp: onTimer", "src/app/modbus/server/session/ModbusSession.cpp: releaseSession"]}
{"id": "C114", "title": "The OPC UA server comes back after every disturbance", "statement": "Whatever clients have done to the OPC UA server - connections left open, handshakes begun, channels opened and abandoned - when nothing arrives any more the timers of the connections end what is left: every silence is over after at most 64 steps, in whatever order timers expire and messages are delivered. Behind it every connection is released with its link and timer, all 32 identifiers are free, the channels of the connections are closed, and the next client is served. Sessions end too.", "quantifier": "every history that leaves the process alive, every state with an empty mailbox in it, every order of expirations and deliveries", "why_tests_cant": "Up to 32 connections in any combination of states and every interleaving of 64 steps; tests use one client.", "anchors": ["src/app/ua/transport/server/UaTcpConnectionConnected.cpp: onTimer", "src/app/ua/transport/server/UaTcpConnectionReceiveHello.cpp: onTimer", "src/app/ua/securechannel/channel/UaServerSecureChannelEstablished.cpp: MsgUaConnectionReleaseInd"]}
{"id": "C115", "title": "The library's channels come back after every disturbance", "statement": "Whatever a client channel or a server channel of the OPC UA library has done, when its timer runs out it is idle and holds neither link nor timer, its user has been told of the end exactly if the channel was in use, and it opens secure channels again: the two ends of the library with each other, and the client with the server program once that has come back from its own disturbances.", "quantifier": "every history of the client channel, every history of the server channel, every history of the program and every silence behind it, every way the network cuts the messages of the next opening", "why_tests_cant": "All pairs of histories of two independent programs before the meeting; a test starts with fresh objects.", "anchors": ["src/app/common/ua/protocols/secure/OpcUaClientSecureChannelReceiveOpenRsp.cpp: onClosed", "src/app/common/ua/protocols/connection/ClientConnectionConnected.cpp: onTimer", "src/app/common/ua/protocols/connection/ServerConnectionConnected.cpp: onTimer", "src/app/common/ua/protocols/secure/OpcUaServerSecureChannelEstablished.cpp: onClosed"]}
