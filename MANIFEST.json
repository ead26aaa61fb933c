{
 "claims": [
  {
   "property": "C01",
   "status": "proved",
   "theorems": [
    "Uscada.Queue.C01_queue_is_fifo",
    "Uscada.Queue.C01_overfull_push_violated",
    "Uscada.Queue.C01_underflow_pop_violated",
    "Uscada.Queue.C01_capacity_zero_ub"
   ],
   "note": "Full claim; the _violated/_ub theorems show what happens outside the occupancy limits (no checks in the code)."
  },
  {
   "property": "C02",
   "status": "proved",
   "theorems": [
    "Uscada.Pool.C02_identifiers_exclusive",
    "Uscada.Pool.C02_create_ok",
    "Uscada.Pool.C02_double_release_violated",
    "Uscada.Pool.C02_get_unchecked_ub"
   ],
   "note": "Full claim for histories that release only held identifiers; witnesses for double release and unchecked get."
  },
  {
   "property": "C03",
   "status": "partial",
   "theorems": [
    "Uscada.MsgStorage.C03_mailbox_fifo_partial",
    "Uscada.MsgStorage.C03_reactor_mailbox_partial",
    "Uscada.MsgStorage.C03_oversize_message_violated"
   ],
   "note": "Restricted to messages that fit their chunk; a larger message is accepted and overwrites the next chunk (witness)."
  },
  {
   "property": "C04",
   "status": "partial",
   "theorems": [
    "Uscada.Reactor.C04_dispatch_in_order",
    "Uscada.Reactor.C04_no_message_left_partial",
    "Uscada.Reactor.C04_never_stuck_partial",
    "Uscada.Reactor.C04_acceptance",
    "Uscada.Reactor.C04_throwing_handler_violated"
   ],
   "note": "Order, at-most-once and acceptance in full; 'no message left' for handlers that do not throw, with a witness that a throwing handler leaves messages without a wake-up."
  },
  {
   "property": "C05",
   "status": "partial",
   "theorems": [
    "Uscada.Routing.C05_send_routes",
    "Uscada.Routing.C05_first_registration_wins",
    "Uscada.Routing.C05_delivery_partial",
    "Uscada.Routing.C05_answers_partial",
    "Uscada.Routing.C05_answers_violated"
   ],
   "note": "Routing in full; one response type is addressed to a component that did not issue the request (witness)."
  },
  {
   "property": "C06",
   "status": "partial",
   "theorems": [
    "Uscada.LinkAddr.C06_port_iff_partial",
    "Uscada.LinkAddr.C06_addr_iff_partial",
    "Uscada.LinkAddr.C06_port_violated",
    "Uscada.LinkAddr.C06_addr_violated"
   ],
   "note": "Exact characterisation of the addresses for which the claim holds; it fails for bytes of 128 and more (sign extension)."
  },
  {
   "property": "C07",
   "status": "proved",
   "theorems": [
    "Uscada.AduLayout.C07_items_disjoint",
    "Uscada.AduLayout.C07_fill_read_back"
   ],
   "note": ""
  },
  {
   "property": "C08",
   "status": "proved",
   "theorems": [
    "Uscada.Modbus.C08_request_roundtrip",
    "Uscada.Modbus.C08_accepted_requests"
   ],
   "note": ""
  },
  {
   "property": "C09",
   "status": "partial",
   "theorems": [
    "Uscada.Modbus.C09_response_roundtrip_partial",
    "Uscada.Modbus.C09_truncation_violated",
    "Uscada.Modbus.C09_bit_reads_unsupported"
   ],
   "note": "Needs 16-bit transaction id, one-byte address and a declared error code; witnesses for truncation, and bit-read responses are never encoded."
  },
  {
   "property": "C10",
   "status": "proved",
   "theorems": [
    "Uscada.Modbus.C10_request_frame",
    "Uscada.Modbus.C10_response_frame"
   ],
   "note": "Responses with at most 260 data bytes (the size of the data array)."
  },
  {
   "property": "C11",
   "status": "partial",
   "theorems": [
    "Uscada.Modbus.C11_request_determined",
    "Uscada.Modbus.C11_response_determined_partial",
    "Uscada.Modbus.C11_stale_error_code_violated",
    "Uscada.Modbus.C11_every_short_error_violated"
   ],
   "note": "Requests in full; responses of at least 9 bytes; every error response of eight bytes is decoded with a stale byte as its error code (C11_every_short_error_violated)."
  },
  {
   "property": "C12",
   "status": "partial",
   "theorems": [
    "Uscada.Modbus.Session.C12_session_any_cut",
    "Uscada.Modbus.Session.C12_coalesced_requests_violated",
    "Uscada.Modbus.Session.C12_every_coalesced_violated",
    "Uscada.Modbus.Session.C12_cut_request_lost_violated",
    "Uscada.Modbus.Client.C12_client_safe_cuts_partial",
    "Uscada.Modbus.Client.C12_client_bad_cut_fails",
    "Uscada.Modbus.Client.C12_client_cut_answer_violated"
   ],
   "note": "Server: any cut of a frame is handled like the whole frame when no timer expires in between. Client: proved for cuts whose proper prefixes are shorter than the header or the length field; every other cut is proved to fail. Coalesced frames are dropped, always, and with them everything up to the next timeout (C12_every_coalesced_violated)."
  },
  {
   "property": "C13",
   "status": "proved",
   "theorems": [
    "Uscada.Modbus.AduStorage.C13_pending_requests_in_order"
   ],
   "note": ""
  },
  {
   "property": "C14",
   "status": "partial",
   "theorems": [
    "Uscada.Modbus.Client.C14_exactly_once_partial",
    "Uscada.Modbus.Client.C14_only_submitted",
    "Uscada.Modbus.Client.C14_duplicate_answer_violated",
    "Uscada.Modbus.Client.C14_lost_answer_violated"
   ],
   "note": "Exactly-once and order when the peer is silent while a request waits to be sent and never announces a frame of 260 bytes or more; witnesses for a duplicate and for a lost answer otherwise. 'Only submitted requests are answered' in full."
  },
  {
   "property": "C15",
   "status": "proved",
   "theorems": [
    "Uscada.Modbus.Client.C15_waiting_has_timer",
    "Uscada.Modbus.Client.C15_timers_answer_everything"
   ],
   "note": ""
  },
  {
   "property": "C16",
   "status": "partial",
   "theorems": [
    "Uscada.Modbus.Client.C16_success_matches_partial",
    "Uscada.Modbus.Client.C16_error_zero_violated",
    "Uscada.Modbus.Client.C16_every_error_zero_violated",
    "Uscada.Modbus.Client.C16_stale_answer_violated",
    "Uscada.Modbus.Client.C16_out_of_bounds_violated"
   ],
   "note": "Holds while the client waits for the answer to a sent frame, except for error frames with code 0; outside that state stale bytes are taken as an answer (witness) or read out of bounds (witness)."
  },
  {
   "property": "C17",
   "status": "partial",
   "theorems": [
    "Uscada.Modbus.Session.C17_answers_match_partial",
    "Uscada.Modbus.Session.C17_at_most_one_answer_partial",
    "Uscada.Modbus.Session.C17_frames_only_for_answers",
    "Uscada.Modbus.Session.C17_wrong_slave_violated",
    "Uscada.Modbus.Session.C17_two_answers_violated",
    "Uscada.Modbus.Session.C17_long_answer_violated"
   ],
   "note": "Proved for histories in which no answer with the stored transaction id arrives while nothing waits, no end of stream occurs in the waiting state and answers have at most 260 bytes. Each of these restrictions is needed: counterexamples proved."
  },
  {
   "property": "C18",
   "status": "partial",
   "theorems": [
    "Uscada.Modbus.Server.C18_identifiers_not_shared",
    "Uscada.Modbus.Server.C18_resources_returned_partial",
    "Uscada.Modbus.Server.C18_failed_accept_violated",
    "Uscada.Modbus.Server.C18_every_failure_violated",
    "Uscada.Modbus.Server.C18_server_dead_violated"
   ],
   "note": "No identifier is ever shared (all histories). Conservation of identifiers, timers and links holds while accepts succeed; a failing accept leaks, in every state and for ever (C18_every_failure_violated)."
  },
  {
   "property": "C19",
   "status": "partial",
   "theorems": [
    "Uscada.Modbus.Session.C19_request_is_frame_partial",
    "Uscada.Modbus.Session.C19_leftovers_violated",
    "Uscada.Modbus.Session.C19_phantom_request_violated"
   ],
   "note": "The fields the function uses are exactly those of the bytes received; unused fields hold leftovers, and an end of stream while waiting forwards a phantom request (both proved)."
  },
  {
   "property": "C20",
   "status": "partial",
   "theorems": [
    "Uscada.Modbus.Dispatcher.C20_batch_dispatched",
    "Uscada.Modbus.Dispatcher.C20_exactly_once_partial",
    "Uscada.Modbus.Dispatcher.C20_config_answer_partial",
    "Uscada.Modbus.Dispatcher.C20_config_status_violated",
    "Uscada.Modbus.Dispatcher.C20_config_answer_missing_violated",
    "Uscada.Modbus.Dispatcher.C20_reconfigured_client_loses_requests_violated",
    "Uscada.Modbus.Dispatcher.C20_retry_terminates_violated"
   ],
   "note": "Batch dispatch is proved in full. The configuration answer reports success for identifiers out of range (violated), is missing when an entity fails to start (violated); reconfiguring loses waiting requests; retrying a failed server terminates the process."
  },
  {
   "property": "C21",
   "status": "partial",
   "theorems": [
    "Uscada.Components.C21_modbus_partial",
    "Uscada.Components.C21_transport_partial",
    "Uscada.Components.C21_channel_partial",
    "Uscada.Components.C21_service_partial",
    "Uscada.Components.C21_release_terminates_violated"
   ],
   "note": "Proved for every entity behaviour as long as constructors do not throw and destructors do not terminate; a server whose listen failed makes the release request terminate the process (violated)."
  },
  {
   "property": "C22",
   "status": "proved",
   "theorems": [
    "Uscada.Ua.C22_boolean",
    "Uscada.Ua.C22_sbyte",
    "Uscada.Ua.C22_byte",
    "Uscada.Ua.C22_int16",
    "Uscada.Ua.C22_uint16",
    "Uscada.Ua.C22_int32",
    "Uscada.Ua.C22_uint32",
    "Uscada.Ua.C22_int64",
    "Uscada.Ua.C22_uint64",
    "Uscada.Ua.C22_float",
    "Uscada.Ua.C22_double",
    "Uscada.Ua.C22_dateTime",
    "Uscada.Ua.C22_statusCode",
    "Uscada.Ua.C22_guid",
    "Uscada.Ua.C22_no_room_violated"
   ],
   "note": "For every value, at every position of the packet with room for the bytes. Without room the write is outside of the array (C22_no_room_violated)."
  },
  {
   "property": "C23",
   "status": "partial",
   "theorems": [
    "Uscada.Ua.C23_string_partial",
    "Uscada.Ua.C23_byteString_partial",
    "Uscada.Ua.C23_long_string_violated"
   ],
   "note": "For every string that fits the 4096-byte packet at its position; a longer one is written outside of the array (violated, the code has no check)."
  },
  {
   "property": "C24",
   "status": "proved",
   "theorems": [
    "Uscada.Ua.C24_nodeId",
    "Uscada.Ua.C24_numeric_size",
    "Uscada.Ua.C24_unknown_encoding_violated"
   ],
   "note": "Every node id, at every position with room. Beyond the property: first bytes with low nibble 6 to 15 terminate the process."
  },
  {
   "property": "C25",
   "status": "partial",
   "theorems": [
    "Uscada.Ua.C25_decode",
    "Uscada.Ua.C25_roundtrip_partial",
    "Uscada.Ua.C25_plain_partial",
    "Uscada.Ua.C25_position_violated"
   ],
   "note": "Decoding is right everywhere; encoding is right when the read position equals the write position or without optional fields; elsewhere the flags land in the wrong byte (violated)."
  },
  {
   "property": "C26",
   "status": "partial",
   "theorems": [
    "Uscada.Ua.C26_qualifiedName",
    "Uscada.Ua.C26_localizedText_partial",
    "Uscada.Ua.C26_localizedText_empty",
    "Uscada.Ua.C26_diagnosticInfo",
    "Uscada.Ua.C26_extensionObject_partial",
    "Uscada.Ua.C26_extensionObject_empty_violated"
   ],
   "note": "Qualified names, diagnostic infos of any depth in full; localized texts up to empty = absent (their operator==); an extension object with a present but empty body loses it (violated)."
  },
  {
   "property": "C27",
   "status": "partial",
   "theorems": [
    "Uscada.Ua.C27_scalar_partial",
    "Uscada.Ua.C27_null",
    "Uscada.Ua.C27_array_partial",
    "Uscada.Ua.C27_int32_array",
    "Uscada.Ua.C27_dataValue_partial",
    "Uscada.Ua.C27_xmlElement_violated",
    "Uscada.Ua.C27_array_terminates_violated",
    "Uscada.Ua.C27_dimensions_violated",
    "Uscada.Ua.C27_expandedNodeId_violated"
   ],
   "note": "All scalar types but XmlElement, arrays of the types 1 to 7, all data value fields. XmlElement, arrays of other types, array dimensions and expanded node ids with options inside a variant do not survive (violated)."
  },
  {
   "property": "C28",
   "status": "partial",
   "theorems": [
    "Uscada.Ua.C28_messageHeader",
    "Uscada.Ua.C28_hello",
    "Uscada.Ua.C28_acknowledge",
    "Uscada.Ua.C28_error",
    "Uscada.Ua.C28_reverseHello",
    "Uscada.Ua.C28_uaMessageHeader",
    "Uscada.Ua.C28_securityHeader",
    "Uscada.Ua.C28_tokenHeader",
    "Uscada.Ua.C28_sequenceHeader",
    "Uscada.Ua.C28_channelToken",
    "Uscada.Ua.C28_requestHeader_partial",
    "Uscada.Ua.C28_responseHeader_partial",
    "Uscada.Ua.C28_openReq_partial",
    "Uscada.Ua.C28_openRsp_partial",
    "Uscada.Ua.C28_closeReq_partial",
    "Uscada.Ua.C28_closeRsp_partial",
    "Uscada.Ua.C28_getEndpointsReq_partial",
    "Uscada.Ua.C28_getEndpointsRsp_partial",
    "Uscada.Ua.C28_createSessionReq_partial",
    "Uscada.Ua.C28_createSessionRsp_partial",
    "Uscada.Ua.C28_activateSessionReq_partial",
    "Uscada.Ua.C28_activateSessionRsp_partial",
    "Uscada.Ua.C28_closeSessionReq_partial",
    "Uscada.Ua.C28_closeSessionRsp_partial",
    "Uscada.Ua.C28_readReq_partial",
    "Uscada.Ua.C28_readRsp_partial",
    "Uscada.Ua.C28_open_frame_partial",
    "Uscada.Ua.C28_too_long_violated",
    "Uscada.Ua.C28_empty_body_violated",
    "Uscada.Ua.C28_null_array_violated",
    "Uscada.Ua.C28_type_not_checked_violated"
   ],
   "note": "All 31 structures and 14 message containers, for values whose strings, extension object bodies and variants are covered by C23 to C27. Missing: the values excluded there (an empty extension object body is lost, proved), and messages longer than the 4096-byte packet (undefined behaviour, proved). Null arrays of the standard make the decoder throw; the type identifier of a container is not checked."
  },
  {
   "property": "C29",
   "status": "partial",
   "theorems": [
    "Uscada.Ua.C29_within_partial",
    "Uscada.Ua.C29_nodeId_partial",
    "Uscada.Ua.C29_string_partial",
    "Uscada.Ua.C29_messageHeader_partial",
    "Uscada.Ua.C29_readReq_partial",
    "Uscada.Ua.C29_stale_bytes_violated",
    "Uscada.Ua.C29_every_stale_violated",
    "Uscada.Ua.C29_outside_array_violated"
   ],
   "note": "If decoding ends within the received bytes the result is a function of them alone, for every type. The code does not check this: stale bytes and bytes outside of the array are used (violated; C29_every_stale_violated for every string that was not received as a whole)."
  },
  {
   "property": "C30",
   "status": "partial",
   "theorems": [
    "Uscada.Ua.C30_framing_partial",
    "Uscada.Ua.C30_exact_partial",
    "Uscada.Ua.C30_connection_partial",
    "Uscada.Ua.C30_stream_partial",
    "Uscada.Ua.C30_framing_violated",
    "Uscada.Ua.C30_coalesced_violated"
   ],
   "note": "Proved for every cut with at most 1024 bytes before the last piece, chunks up to the 4096-byte buffer, and pieces that do not run into the next chunk, for the framing code shared by both connection classes and for whole streams through an established connection. C30_exact_partial: these are exactly the cuts with which a chunk is received. Chunks over 1024 bytes with an unlucky cut, and coalesced chunks, are refused: proved negations."
  },
  {
   "property": "C31",
   "status": "partial",
   "theorems": [
    "Uscada.Ua.C31_resources_partial",
    "Uscada.Ua.C31_ends_idle_partial",
    "Uscada.Ua.C31_reusable_partial",
    "Uscada.Ua.C31_timer_exhausted_violated",
    "Uscada.Ua.C31_connect_fails_violated",
    "Uscada.Ua.C31_close_in_success_violated"
   ],
   "note": "Proved for all histories in which the reactor has free entries, system calls succeed, and the user does not reconnect or throw inside a terminal notification. The violated theorems show what happens otherwise: link kept when no timer is left, connection stuck for ever when connect fails at once, undefined behaviour when the user closes inside the success notification."
  },
  {
   "property": "C32",
   "status": "partial",
   "theorems": [
    "Uscada.Ua.C32_order_partial",
    "Uscada.Ua.C32_data_after_success",
    "Uscada.Ua.C32_one_end",
    "Uscada.Ua.C32_link_error_violated",
    "Uscada.Ua.C32_remote_close_violated",
    "Uscada.Ua.C32_reconnect_violated"
   ],
   "note": "The order of notifications is proved for all histories under the conditions of C31. A link error or end of stream on an established connection is not reported until the timer expires, and a reconnect inside the error notification is lost: proved negations."
  },
  {
   "property": "C33",
   "status": "partial",
   "theorems": [
    "Uscada.Ua.Channel.C33_fresh",
    "Uscada.Ua.Channel.C33_accepts",
    "Uscada.Ua.Channel.C33_short_violated",
    "Uscada.Ua.Peer.C33_library_partial",
    "Uscada.Ua.Peer.C33_library_accepts",
    "Uscada.Ua.Peer.C33_library_replay_violated",
    "Uscada.Ua.Peer.C33_library_short_violated"
   ],
   "note": "ua/securechannel, for every history of messages that carry the 12 header bytes (the transport layer always adds 12 bytes, C46_transport_partial). A shorter message is judged by uninitialised memory: C33_short_violated. protocols/secure: C33_library_partial and C33_library_accepts, for chunks that hold a sequence header; there an open request that cannot be decoded moves the window back, so a message can be replayed (C33_library_replay_violated)."
  },
  {
   "property": "C34",
   "status": "partial",
   "theorems": [
    "Uscada.Ua.Channel.C34_consecutive",
    "Uscada.Ua.Channel.C34_first_partial",
    "Uscada.Ua.Channel.C34_first_violated",
    "Uscada.Ua.Peer.C34_library",
    "Uscada.Ua.Peer.C34_library_reuse_violated",
    "Uscada.Ua.Peer.C34_library_gap_violated"
   ],
   "note": "ua/securechannel: consecutive numbers proved; the first number is 1 for the first use of an identifier and 0 afterwards, so the claim of a common first number is false. protocols/secure: the chunks given to the link are numbered 1, 2, 3, ... over the life of the object (C34_library); numbers go on after a new open and a failed write leaves a gap."
  },
  {
   "property": "C35",
   "status": "partial",
   "theorems": [
    "Uscada.Ua.Transport.C35_own_traffic",
    "Uscada.Ua.Transport.C35_foreign_ends",
    "Uscada.Ua.Transport.C35_foreign_chunk_ends",
    "Uscada.Ua.Transport.C35_foreign_answer_ends",
    "Uscada.Ua.Transport.C35_unasked_violated"
   ],
   "note": "ua/transport: in every history everything forwarded, reported or written belongs to the channel assigned last; foreign chunks and answers end the connection. The assignment itself (MsgUaOpenSecureChannelRsp) is not matched with a request of the peer: C35_unasked_violated."
  },
  {
   "property": "C36",
   "status": "partial",
   "theorems": [
    "Uscada.Ua.Transport.C36_life",
    "Uscada.Ua.Transport.C36_resources_partial",
    "Uscada.Ua.Transport.C36_deadline_partial",
    "Uscada.Ua.Transport.C36_timeout_ends",
    "Uscada.Ua.Transport.C36_request_ends",
    "Uscada.Ua.Transport.C36_read_error_ends",
    "Uscada.Ua.Transport.C36_only_accepted",
    "Uscada.Ua.Transport.C36_nobody_accepted",
    "Uscada.Ua.Transport.C36_timer_exhausted_violated",
    "Uscada.Ua.Transport.C36_second_open_violated",
    "Uscada.Ua.Transport.C36_late_answer_violated"
   ],
   "note": "Life cycle proved for every history; a connection begins only with an accepted link, whatever the state; resources are released as long as the reactor has timers. Violated: link and identifier lost when no timer is left, the first of two channels is not told, a channel opened after the end of the connection is not told."
  },
  {
   "property": "C37",
   "status": "proved",
   "theorems": [
    "Uscada.Ua.Channel.C37_serves",
    "Uscada.Ua.Channel.C37_answers"
   ],
   "note": "Every act of a channel concerns the connection that opened it, in every history; answers of the owner are sent."
  },
  {
   "property": "C38",
   "status": "partial",
   "theorems": [
    "Uscada.Ua.Channel.C38_ends_partial",
    "Uscada.Ua.Channel.C38_accepted_partial",
    "Uscada.Ua.Channel.C38_foreign_close_violated",
    "Uscada.Ua.Channel.C38_foreign_message_violated",
    "Uscada.Ua.Channel.C38_foreign_release_violated"
   ],
   "note": "Associations, answers and accepted messages never end a channel. The claim is false for close requests, messages and release indications that name another connection: they end the channel in every reachable state."
  },
  {
   "property": "C39",
   "status": "proved",
   "theorems": [
    "Uscada.Ua.Session.C39_serves",
    "Uscada.Ua.Session.C39_answers",
    "Uscada.Ua.Session.C39_refuses"
   ],
   "note": "For every history; well formed read requests are served exactly on the channel that activated the session last."
  },
  {
   "property": "C40",
   "status": "proved",
   "theorems": [
    "Uscada.Ua.Session.C40_create",
    "Uscada.Ua.Session.C40_full",
    "Uscada.Ua.Session.C40_close",
    "Uscada.Ua.Session.C40_paired",
    "Uscada.Ua.Session.C40_no_leak"
   ],
   "note": "For every history. Identifiers are not lost by the service; that sessions of vanished clients stay open is C51."
  },
  {
   "property": "C41",
   "status": "proved",
   "theorems": [
    "Uscada.Fsm.C41_transit_legal",
    "Uscada.Fsm.C41_same_state",
    "Uscada.Fsm.C41_exit_then_enter"
   ],
   "note": ""
  },
  {
   "property": "C42",
   "status": "proved",
   "theorems": [
    "Uscada.Time.C42_timestamp_correct",
    "Uscada.Time.C42_timestamp_monotone"
   ],
   "note": ""
  },
  {
   "property": "C43",
   "status": "partial",
   "theorems": [
    "Uscada.Ua.C43_mask",
    "Uscada.Ua.C43_diagnosticInfo_mask",
    "Uscada.Ua.C43_localizedText_mask",
    "Uscada.Ua.C43_compare",
    "Uscada.Ua.C43_compare_equivalence",
    "Uscada.Ua.C43_variant_compare_violated"
   ],
   "note": "Masks and comparison of optional fields proved; comparing variants without array dimensions is undefined behaviour (violated)."
  },
  {
   "property": "C44",
   "status": "partial",
   "theorems": [
    "Uscada.Ua.Channel.C44_open",
    "Uscada.Ua.Channel.C44_close",
    "Uscada.Ua.Channel.C33_fresh",
    "Uscada.Ua.Peer.C44_library_open_partial",
    "Uscada.Ua.Peer.C44_library_handle_violated"
   ],
   "note": "ua/securechannel is proved; in protocols/secure the answer is the right one except for the request handle, which is always 0. Open and close answers in full, for every well formed request and every reachable state. The token is what rand() returned; that it differs from earlier tokens is not guaranteed by the code and not claimed."
  },
  {
   "property": "C45",
   "status": "proved",
   "theorems": [
    "Uscada.Ua.C45_sent",
    "Uscada.Ua.C45_extracted",
    "Uscada.Ua.C45_hello",
    "Uscada.Ua.C45_acknowledge",
    "Uscada.Ua.C45_reverseHello",
    "Uscada.Ua.C45_secured",
    "Uscada.Ua.C45_secured_overflow"
   ],
   "note": "For every encoding between 8 and 4096 bytes; longer data is written outside the transmit buffer (C45_secured_overflow)."
  },
  {
   "property": "C46",
   "status": "partial",
   "theorems": [
    "Uscada.Ua.Transport.C46_transport_partial",
    "Uscada.Ua.Transport.C46_transport_violated",
    "Uscada.Ua.Channel.C46_channel_partial",
    "Uscada.Ua.Channel.C46_channel_violated",
    "Uscada.Ua.Peer.C46_library_payload_violated"
   ],
   "note": "The layer above receives the payload followed by 12 bytes: old buffer content from the transport layer, uninitialised stack from the channel layer; the exact claim is false (C46_transport_violated, C46_channel_violated). The library channel hands over 24 old bytes behind the payload (C46_library_payload_violated; C33_library_partial has the positive part)."
  },
  {
   "property": "C47",
   "status": "partial",
   "theorems": [
    "Uscada.Ua.C47_framing",
    "Uscada.Ua.C47_ack",
    "Uscada.Ua.C47_hello_violated"
   ],
   "note": "Framing and the client's handshake are defined for all bytes. The server's handshake is not: a Hello with a large url length is read outside the buffer (proved negation); see also C24_unknown_encoding_violated, C27_array_terminates_violated and C29_outside_array_violated for later messages."
  },
  {
   "property": "C48",
   "status": "partial",
   "theorems": [
    "Uscada.Ua.Channel.C48_paired_partial",
    "Uscada.Ua.Channel.C48_open_not_free",
    "Uscada.Ua.Channel.C48_malformed_violated",
    "Uscada.Ua.Channel.C48_exhausted_violated"
   ],
   "note": "Taking and giving back are paired and open channels are never free; an open request that cannot be decoded leaks its identifier, 32 of them end the service."
  },
  {
   "property": "C49",
   "status": "proved",
   "theorems": [
    "Uscada.Ua.Channel.C49_bound",
    "Uscada.Ua.Channel.C37_answers"
   ],
   "note": "For every history."
  },
  {
   "property": "C50",
   "status": "proved",
   "theorems": [
    "Uscada.Ua.Session.C50_answers",
    "Uscada.Ua.Session.C50_endpoints",
    "Uscada.Ua.Session.C50_activate",
    "Uscada.Ua.Session.C39_answers",
    "Uscada.Ua.Session.C40_create",
    "Uscada.Ua.Session.C40_close"
   ],
   "note": "Every answer, for every history; and every well formed request that the state admits is answered."
  },
  {
   "property": "C51",
   "status": "partial",
   "theorems": [
    "Uscada.Ua.Session.C51_survives_violated",
    "Uscada.Ua.Session.C51_exhausted_violated"
   ],
   "note": "False: a session ends by a close request with its token only, so 32 vanished clients block the server. Both theorems are negations; nothing of the claim holds."
  },
  {
   "property": "C52",
   "status": "partial",
   "theorems": [
    "Uscada.Ua.Session.C52_takeover_violated",
    "Uscada.Ua.Session.C52_close_violated",
    "Uscada.Ua.Session.C52_guessable_violated",
    "Uscada.Ua.Session.C39_serves"
   ],
   "note": "False: any channel can take over or close any session, and tokens are the numbers 1 to 32. What holds is C39: after a take-over the old channel is no longer served."
  },
  {
   "property": "C53",
   "status": "partial",
   "theorems": [
    "Uscada.Ua.Session.C53_results_violated"
   ],
   "note": "False: no read answer holds a result. Reading attributes is not implemented; the answer says good."
  },
  {
   "property": "C54",
   "status": "partial",
   "theorems": [
    "Uscada.Ua.Session.C54_dispatch_partial",
    "Uscada.Ua.Session.C54_alias_violated"
   ],
   "note": "True for the lower 16 bits of a numeric identifier; the rest of the identifier and the namespace are ignored (violated)."
  },
  {
   "property": "C55",
   "status": "partial",
   "theorems": [
    "Uscada.Ua.Session.C55_defined_partial",
    "Uscada.Ua.Session.C55_activate_token_violated",
    "Uscada.Ua.Session.C55_close_token_violated",
    "Uscada.Ua.Stack.C55_activate_remote_violated",
    "Uscada.Ua.Stack.C55_close_remote_violated"
   ],
   "note": "Defined for identifiers inside the pool; any token outside 1 to 32 is an access outside of the pool, in every state, and every connected client can bring it about with one well formed request (violated)."
  },
  {
   "property": "C56",
   "status": "partial",
   "theorems": [
    "Uscada.Ua.Peer.C56_order_partial",
    "Uscada.Ua.Peer.C56_resources_partial",
    "Uscada.Ua.Peer.C56_timeout_partial",
    "Uscada.Ua.Peer.C56_throwing_user_violated",
    "Uscada.Ua.Peer.C56_timer_exhausted_violated",
    "Uscada.Ua.Peer.C56_send_before_open_violated"
   ],
   "note": "protocols/secure, server side. For users that do not throw inside a notification and timers that can be started; the counterexamples show both are needed, and that send before open is undefined."
  },
  {
   "property": "C57",
   "status": "partial",
   "theorems": [
    "Uscada.Ua.Peer.C57_addressed_partial",
    "Uscada.Ua.Peer.C34_library_reuse_violated",
    "Uscada.Ua.Peer.C33_library_short_violated"
   ],
   "note": "protocols/secure, server side, for histories whose chunks hold a sequence header and while a token of this association exists; before that the token of the association before is used (C34_library_reuse_violated)."
  },
  {
   "property": "C58",
   "status": "partial",
   "theorems": [
    "Uscada.Ua.Cli.C58_order_partial",
    "Uscada.Ua.Cli.C58_in_use_partial",
    "Uscada.Ua.Cli.C58_timeout_partial",
    "Uscada.Ua.Cli.C58_accepts_partial",
    "Uscada.Ua.Cli.C58_opens_with_server",
    "Uscada.Ua.Cli.C58_misread_violated",
    "Uscada.Ua.Cli.C58_stuck_violated",
    "Uscada.Ua.Cli.C58_link_kept_violated",
    "Uscada.Ua.Cli.C58_throwing_user_violated",
    "Uscada.Ua.Cli.C58_connect_fails_violated",
    "Uscada.Ua.Cli.C58_data_ignored_violated"
   ],
   "note": "protocols/secure, client side. Order, resources and time-out for users that do not throw inside a notification while links and timers are available (both needed). The answer of the library's own server is accepted (C58_opens_with_server); in general an answer is decoded four bytes early, so that a life time of 4096 ms or more is undefined behaviour. A connection lost while waiting makes the channel useless for good."
  },
  {
   "property": "C59",
   "status": "proved",
   "theorems": [
    "Uscada.Ua.C59_reception"
   ],
   "note": "Reception loop shared by the UA connections; the packet is modelled as 4096 cells and every write outside of them would be undefined behaviour."
  },
  {
   "property": "C60",
   "status": "partial",
   "theorems": [
    "Uscada.Controller.C60_order_partial",
    "Uscada.Controller.C60_stop_partial",
    "Uscada.Controller.C60_verdict_partial",
    "Uscada.Controller.C60_defined_partial",
    "Uscada.Controller.C60_batch",
    "Uscada.Controller.C60_stop_configuring_violated",
    "Uscada.Controller.C60_stop_idle_violated",
    "Uscada.Controller.C60_unknown_number_violated",
    "Uscada.Controller.C60_only_counted_violated"
   ],
   "note": "Order of everything sent, judgement of answers and the batch hold for all histories without undefined behaviour, and C60_defined_partial tells which those are: stop only after start, known numbers, registers in range. A stop without a start is undefined behaviour, a stop while configuring leaves the Modbus component initialised, an answer with an unknown number is undefined behaviour, and answers are only counted."
  },
  {
   "property": "C61",
   "status": "partial",
   "theorems": [
    "Uscada.Controller.C61_served_partial",
    "Uscada.Controller.C61_shared_violated",
    "Uscada.Controller.C61_range_violated",
    "Uscada.Controller.C61_remote_violated"
   ],
   "note": "Requests with transaction numbers below 16 and registers in range are served as the replayed history says, one register file per transaction number. A larger number or address, which a peer chooses, is undefined behaviour; writes under one number are not seen under another; outside of a test run requests are not answered."
  },
  {
   "property": "C62",
   "status": "partial",
   "theorems": [
    "Uscada.Dispatch.C62_owner",
    "Uscada.Dispatch.C62_tidy_partial",
    "Uscada.Dispatch.C62_held_partial",
    "Uscada.Dispatch.C62_pool_partial",
    "Uscada.Dispatch.C62_accept_violated",
    "Uscada.Dispatch.C62_timer_release_partial",
    "Uscada.Dispatch.C62_timer_release_violated",
    "Uscada.Dispatch.C62_timer_leak_violated"
   ],
   "note": "Ownership holds in every history. Descriptors are tidy in every history in which epoll_ctl does not fail for an accepted connection: then the link keeps the closed number and releasing it closes whoever has been given that number, and if that is a timer, releasing the timer ends the process. Pools lose nothing unless the registration of a timer fails, which loses its identifier."
  },
  {
   "property": "C63",
   "status": "partial",
   "theorems": [
    "Uscada.Dispatch.C63_timeout_partial",
    "Uscada.Dispatch.C63_link_state_partial",
    "Uscada.Dispatch.C63_meant_partial",
    "Uscada.Dispatch.C63_no_loss_partial",
    "Uscada.Dispatch.C63_stale_violated",
    "Uscada.Dispatch.C63_reopened_violated",
    "Uscada.Dispatch.C63_released_timer_violated",
    "Uscada.Dispatch.C63_both_ready_violated"
   ],
   "note": "Time-outs are exact, and links are reported as connected or failed only when they are, in every history without failed accept registration. Link events reach the use and descriptor they were reported for when no earlier handler of the batch reopens that link and not more links are created in the batch than were free; nothing is lost when no handler throws or releases a timer with an event still to come. Without these conditions events reach new owners or new connections, or the rest of the batch is forgotten; readiness for reading and writing at once closes the connection."
  },
  {
   "property": "C64",
   "status": "partial",
   "theorems": [
    "Uscada.Ua.Stack.C64_slots_partial",
    "Uscada.Ua.Stack.C64_open_chunk_violated",
    "Uscada.Ua.Stack.C64_message_violated"
   ],
   "note": "As long as no chunk that the transport component passed on was longer than 4056 bytes, the slot size makes no difference to any step of the three components together. OPN chunks of 4065 to 4072 bytes and MSG chunks of 4057 to 4064 bytes overflow a slot, in every reachable state of a connected client, although 65536 bytes are advertised."
  },
  {
   "property": "C65",
   "status": "partial",
   "theorems": [
    "Uscada.Ua.Stack.C65_answers_partial",
    "Uscada.Ua.Stack.C65_numbers",
    "Uscada.Ua.Stack.C65_short_violated"
   ],
   "note": "The order and identity of answers is proved for every history in which each MSG and CLO chunk held at least 12 bytes behind the channel id (shorter ones have no request id of their own); the numbers of OPN, MSG and CLO answers are bounded by those of the requests in every history. A MSG chunk of 11 bytes is answered with a request id that nobody has sent (C65_short_violated)."
  },
  {
   "property": "C66",
   "status": "proved",
   "theorems": [
    "Uscada.Ua.Stack.C66_open",
    "Uscada.Ua.Stack.C66_endpoints",
    "Uscada.Ua.Stack.C66_create",
    "Uscada.Ua.Stack.C66_activate",
    "Uscada.Ua.Stack.C66_read",
    "Uscada.Ua.Stack.C66_close"
   ],
   "note": "From every reachable state of transport, channel and service components together; free slots in the mailbox, a working timer and a writable link during the five or six steps are hypotheses. Longer chunks: C64."
  },
  {
   "property": "C67",
   "status": "partial",
   "theorems": [
    "Uscada.Modbus.Exchange.C67_exchange_partial",
    "Uscada.Modbus.Exchange.C67_batch_partial",
    "Uscada.Modbus.Exchange.C67_bit_reads_violated"
   ],
   "note": "Proved for functions 3, 4, 5, 6 and 16 and any number of pending requests, for every suitable answer and all cuts of the request (of the answer: the cuts of C12). Reads of coils and discrete inputs are sent and forwarded, but no answer without an error can ever be sent back."
  },
  {
   "property": "C68",
   "status": "proved",
   "theorems": [
    "Uscada.SelfTest.C68_succeeds",
    "Uscada.SelfTest.C68_answers",
    "Uscada.SelfTest.C68_alive",
    "Uscada.SelfTest.C68_rounds",
    "Uscada.SelfTest.C68_mailboxes",
    "Uscada.SelfTest.C68_start",
    "Uscada.SelfTest.C68_unconnected"
   ],
   "note": "Controller and Modbus component with mailboxes and connection; frames arrive whole (C12 is about cuts), the OPC UA messages of the controller are left out because they do not reach the test."
  },
  {
   "property": "C69",
   "status": "partial",
   "theorems": [
    "Uscada.Timer.C69_exact_partial",
    "Uscada.Timer.C69_limits_partial",
    "Uscada.Timer.C69_used",
    "Uscada.Timer.C69_negative",
    "Uscada.Timer.C69_overflow_violated"
   ],
   "note": "Exact for all intervals up to 291 years, which includes every interval the program uses; beyond, the multiplication to nanoseconds overflows (C69_limits_partial: exactly which positive intervals are armed and which are undefined behaviour, at every time)."
  },
  {
   "property": "C70",
   "status": "proved",
   "theorems": [
    "Uscada.Log.C70_fits",
    "Uscada.Log.C70_frames",
    "Uscada.Log.C70_default"
   ],
   "note": "The types of the arguments are read from the sources into the table LogSites; the writing of the line by Logger::dispatch is not modelled."
  },
  {
   "property": "C71",
   "status": "partial",
   "theorems": [
    "Uscada.Lifecycle.C71_orderly_partial",
    "Uscada.Lifecycle.C71_ends",
    "Uscada.Lifecycle.C71_cpus",
    "Uscada.Lifecycle.C71_late_event_violated",
    "Uscada.Lifecycle.C71_long_handler_violated",
    "Uscada.Lifecycle.C71_exception_violated"
   ],
   "note": "Holds if every thread starts, no handler runs when the destruction begins and no link or timer event follows. The program does not ensure this: it waits 100 ms where epoll_wait may take a second, and after an exception it joins threads that are not stopped or do not exist. It starts only on a machine with CPUs 2, 4, 6 and 7."
  },
  {
   "property": "C72",
   "status": "partial",
   "theorems": [
    "Uscada.Race.C72_no_race_partial",
    "Uscada.Race.C72_deployed",
    "Uscada.Race.C72_no_deadlock",
    "Uscada.Race.C72_destruction_violated",
    "Uscada.Race.C72_missing_component_violated",
    "Uscada.Race.C72_two_threads_violated"
   ],
   "note": "Holds in every execution of the deployment that main uses, and of any with one thread per reactor and messages only to components that are there, except for the destruction of objects: components are destroyed before the threads are joined, which is a race even if all threads have ended. The other deployment races on the map of components, and reactors with two threads race on their components."
  },
  {
   "property": "C73",
   "status": "partial",
   "theorems": [
    "Uscada.Ua.Stack.C73_work",
    "Uscada.Ua.Stack.C73_drains",
    "Uscada.Ua.Stack.C73_few_partial",
    "Uscada.Ua.Stack.C73_patient_partial",
    "Uscada.Ua.Stack.C73_pipelined_violated"
   ],
   "note": "One event leads to at most six messages, and the mailbox empties. No message is lost while clients are patient, that is nothing happens on a connection while messages about it are under way, or while few events have happened since the mailbox was empty. Without this it is violated: 32 clients with three requests each without waiting lose all third requests, and the connections end at the next one."
  },
  {
   "property": "C74",
   "status": "partial",
   "theorems": [
    "Uscada.Ua.Session.C74_same_partial",
    "Uscada.Ua.Session.C74_meaning",
    "Uscada.Ua.Stack.C66_endpoints",
    "Uscada.Ua.Stack.C66_create",
    "Uscada.Ua.Stack.C66_activate",
    "Uscada.Ua.Stack.C66_read",
    "Uscada.Ua.Stack.C66_close",
    "Uscada.Ua.Stack.C66_open",
    "Uscada.Ua.Channel.C44_close",
    "Uscada.Ua.Session.C74_null_violated",
    "Uscada.Ua.Stack.C74_null_remote_violated",
    "Uscada.Ua.Session.C74_certificate_violated",
    "Uscada.Ua.C74_diagnosticInfo_violated"
   ],
   "note": "Holds for all encodings without null arrays: C66 and the theorems about sessions and channels are stated for all of them. Requests with a null array, which other programs send, are dropped without an answer; software certificates are read with the wrong type; two bits of the mask of diagnostic infos are swapped. The encodings that the standard allows are written down from memory of part 6, UaStd.lean."
  },
  {
   "property": "C75",
   "status": "partial",
   "theorems": [
    "Uscada.Modbus.Standard.C75_session_partial",
    "Uscada.Modbus.Standard.C75_forwarded_partial",
    "Uscada.Modbus.Standard.C75_limits_violated",
    "Uscada.Modbus.Standard.C75_coil_value_violated",
    "Uscada.Modbus.Standard.C75_unit_violated",
    "Uscada.Modbus.Standard.C75_bits_violated",
    "Uscada.Modbus.Standard.C75_coil_on_violated",
    "Uscada.Modbus.Standard.C75_exception_violated",
    "Uscada.Modbus.Standard.C75_unsupported_violated",
    "Uscada.Modbus.Standard.C75_client_sends_partial",
    "Uscada.Modbus.Standard.C75_client_limits_violated",
    "Uscada.Modbus.Standard.C75_client_coil_on_violated",
    "Uscada.Modbus.Standard.C75_client_reports_partial",
    "Uscada.Modbus.Standard.C75_client_deaf_violated"
   ],
   "note": "The standard is a separate specification (bytes of requests, answers and exceptions). Sessions understand every allowed request to units 0 to 247, and every request forwarded is an allowed one except at the limits proved as violations; answers are those of the standard for functions 3, 4, 6 and 16 and for switching coils off. Not so: answers to reads of bits, switching a coil on (byte order), exceptions (code 0x8f), units 248 to 255, unknown functions (no answer, and deaf until the timer), quantities of zero or above the limit. Functions the program does not know are outside of Request."
  },
  {
   "property": "C76",
   "status": "partial",
   "theorems": [
    "Uscada.Modbus.Client.C76_answered_in_time_partial",
    "Uscada.Modbus.Client.C76_tries_again",
    "Uscada.Modbus.Client.C76_attempt_ends",
    "Uscada.Modbus.Session.C76_session_ends",
    "Uscada.Ua.Transport.C76_connection_ends",
    "Uscada.Modbus.Client.C76_lost_link_violated",
    "Uscada.Modbus.Client.C76_first_request_violated"
   ],
   "note": "Time is part of the model: each event has a time, timers never expire early, and `late` bounds the delay of a handler. Answers of the client come in time while bytes arrive only for requests that were sent and no header announces a frame that is too long (C14_lost_answer_violated shows why). Violated: a connected client whose link fails or whose peer closes never connects again until a request comes, which is answered with failure without having been sent."
  },
  {
   "property": "C77",
   "status": "partial",
   "theorems": [
    "Uscada.Stream.C77_in_order",
    "Uscada.Stream.C77_request_partial",
    "Uscada.Stream.C77_chunk_partial",
    "Uscada.Stream.C77_short_write_violated",
    "Uscada.Stream.C77_short_chunk_violated",
    "Uscada.Stream.C77_mixed_violated",
    "Uscada.Stream.C77_stranded_violated"
   ],
   "note": "Sockets as byte streams with edge-triggered events under the links. Frames that the kernel takes as a whole are understood once, for all portions and all interleavings of arrivals and events. Violated: Link::send reports a write of which the kernel took only a part as success, the rest is lost and the next frame is taken for it, which can change what is written to registers; a session whose buffer holds more than 260 bytes does not read when told about data and is not told again."
  },
  {
   "property": "C78",
   "status": "partial",
   "theorems": [
    "Uscada.Ua.Stack.C78_final_partial",
    "Uscada.Ua.Stack.C78_parts_violated"
   ],
   "note": "Requests in one final chunk are executed. Violated: the server does not look at the type of a received chunk, so that for every request a client may send an intermediate chunk (whose message is not complete) and an aborting chunk (whose message is discarded) are executed and answered like the message itself."
  },
  {
   "property": "C79",
   "status": "proved",
   "theorems": [
    "Uscada.Ua.Stack.C79_dialogue"
   ],
   "note": "Dialogues are trees: the next request may depend on the answers. For every plan that keeps to the rules, from every reachable state with a connected client and an empty mailbox, all requests are answered; nothing else happens meanwhile, each chunk is read at once, and there are slots for the messages."
  },
  {
   "property": "C80",
   "status": "proved",
   "theorems": [
    "Uscada.Ua.Stack.C80_together",
    "Uscada.Ua.Stack.C80_answered",
    "Uscada.Ua.Stack.C80_complete"
   ],
   "note": "The clients are those of C79. Between any two deliveries any client that does not wait may send its next request. Assumed: two slots of the mailbox for each client (with 64 slots that is 32 clients, as many as there are connections), each request is read at once, timers start and the links take the bytes; timers do not expire meanwhile."
  },
  {
   "property": "C81",
   "status": "proved",
   "theorems": [
    "Uscada.Ua.Stack.C81_visit",
    "Uscada.Ua.Stack.C81_forever",
    "Uscada.Ua.Stack.C81_from_start"
   ],
   "note": "One client after the other; nothing else happens during a visit. Assumed: links and timers of the reactor are not exhausted (they are pools shared with other components), each chunk is read at once, and there are slots for the messages. A client that does not close its sessions uses them up for good (C51_exhausted_violated), so the claim is about clients that do."
  },
  {
   "property": "C82",
   "status": "proved",
   "theorems": [
    "Uscada.Ua.Stack.C82_undisturbed",
    "Uscada.Ua.Stack.C82_answered",
    "Uscada.Ua.Stack.C82_safe"
   ],
   "note": "The client is that of C79. The others are arbitrary: any event of the model that is not about the connection of the client. Assumed at each step: it does not end the process (C55, C64 and others show how a stranger can), when a message about the connection of the client is delivered there are two free slots and, for a service request, a free session, the link takes the bytes, and a message of a stranger does not activate or close a session the client created (C52 shows that it can). Assumed at the start: no other connection holds the channel of the client and no message under way names it (C38 and C36 show how that can happen)."
  },
  {
   "property": "C83",
   "status": "partial",
   "theorems": [
    "Uscada.Program.C83_up",
    "Uscada.Program.C83_down",
    "Uscada.Program.C83_down_modbus_partial",
    "Uscada.Program.C83_safe",
    "Uscada.Program.C83_settles",
    "Uscada.Program.C83_comes_up",
    "Uscada.Program.C83_goes_down",
    "Uscada.Program.C83_stop_early_violated",
    "Uscada.Program.C83_port_taken_violated",
    "Uscada.Program.C83_config_lost_violated",
    "Uscada.Program.C83_room"
   ],
   "note": "Coming up, and going down of OPC UA and of the controller, in full, for every interleaving, with fairness for the two liveness claims. Going down of the Modbus component if the stop is sent after the start has settled. Good luck (timers, ports, memory for client and server) is assumed for coming up. Missing: a stop that is taken while the self test is being configured leaves the Modbus client and server for ever; if the OPC UA port is taken, the stop ends the process; the secure channel and the service never get their configuration. Mailboxes have no bound here, but C83_room shows for every history that starting and stopping never takes more than 2, 6 and 4 slots of the three mailboxes (of 64). Time is not modelled here."
  },
  {
   "property": "C84",
   "status": "proved",
   "theorems": [
    "Uscada.Masters.C84_connects",
    "Uscada.Masters.C84_one_memory",
    "Uscada.Masters.C84_answered",
    "Uscada.Masters.C84_safe",
    "Uscada.Masters.C84_crossed_violated"
   ],
   "note": "The specification of the memory is that of C61 (one file of registers for each transaction number). Assumed at each step: it does not end the process (C61_range_violated shows how a stranger can), and when a message of the master is passed on there is a slot, the controller is serving and the link takes the answer. Assumed at the start: no message to or from an earlier holder of the session is under way; C84_crossed_violated shows what happens otherwise."
  },
  {
   "property": "C85",
   "status": "partial",
   "theorems": [
    "Uscada.Ua.Session.C85_dispatch",
    "Uscada.Ua.Session.C85_covers",
    "Uscada.Ua.Session.C85_bounded",
    "Uscada.Ua.Session.C85_trace_violated",
    "Uscada.Ua.Session.C85_keeps_violated",
    "Uscada.Ua.Session.C85_fills_violated"
   ],
   "note": "Dispatching in full: the component with the map and the component of C51 to C55 that looks types up are shown to have the same histories, outcomes and sessions. Missing: each unknown type leaves a null entry in the map for as long as the component lives, up to 65536 entries; C85_bounded shows that it is never more."
  },
  {
   "property": "C86",
   "status": "partial",
   "theorems": [
    "Uscada.Masters.C86_bounded_partial",
    "Uscada.Masters.C86_room_partial",
    "Uscada.Masters.C86_passers_violated"
   ],
   "note": "Missing: masters that leave before they are answered, or that ask again after the session has given up waiting, and servers that are replaced while a request is under way; C86_passers_violated shows that masters like that fill the mailbox of the controller. The other kinds of messages in the two mailboxes are not counted: the theorem is about how many slots are left for them."
  },
  {
   "property": "C87",
   "status": "partial",
   "theorems": [
    "Uscada.Masters.C87_component_partial",
    "Uscada.Masters.C87_controller_partial",
    "Uscada.Masters.C87_frame_violated",
    "Uscada.Masters.C87_any_frame_violated",
    "Uscada.Masters.C87_leaving_violated"
   ],
   "note": "C87_controller_partial says exactly which requests the controller survives; one frame of a master that is not among them is undefined behaviour (C87_frame_violated), in every state in which answers are awaited, nothing is under way and the session is ready to be heard (C87_any_frame_violated). Missing: the end of the stream of a master while its request waits for the application and the session is beyond byte 244 of its buffer, where the claim is false (C87_leaving_violated); peers of the clients that are not orderly as in C14, where C16_out_of_bounds_violated shows it false; configuration messages and the controller's own events."
  },
  {
   "property": "C88",
   "status": "partial",
   "theorems": [
    "Uscada.Ua.C88_decoded_partial",
    "Uscada.Ua.C88_refused_partial",
    "Uscada.Ua.C88_hello_violated",
    "Uscada.Ua.C88_open_violated",
    "Uscada.Ua.C88_request_violated",
    "Uscada.Ua.C88_nodes_violated"
   ],
   "note": "Proved for messages that are decoded to their end (fewer elements than bytes, so fewer than 4096), and for every allocator that refuses requests. False for the others: the length is used before a byte behind it is looked at, so that 32 bytes of a Hello, 4 bytes of an Open or 26 bytes of any request ask for up to 2^31-1 elements."
  },
  {
   "property": "C89",
   "status": "partial",
   "theorems": [
    "Uscada.Ua.Stack.C89_survived_partial",
    "Uscada.Ua.C89_proper_open",
    "Uscada.Ua.C89_proper_close",
    "Uscada.Ua.C89_proper_request",
    "Uscada.Ua.Stack.C89_hello_violated",
    "Uscada.Ua.Stack.C89_second_hello_violated",
    "Uscada.Ua.Stack.C89_open_violated",
    "Uscada.Ua.Stack.C89_request_violated"
   ],
   "note": "Proved for every history in which the peers keep to five conditions: the url of a Hello has length -1 or at most 4064, chunks have at most 4056 bytes, the open, close and service requests decode without leaving the buffer or meeting an unknown node id encoding, tokens of activate and close requests lie in 1..32, timers start. Proper requests meet them. Each condition that a peer can break has a theorem that says what happens then (C89_*_violated, C64_*_violated, C55_*_remote_violated)."
  },
  {
   "property": "C90",
   "status": "partial",
   "theorems": [
    "Uscada.Ua.Stack.C90_silent_partial",
    "Uscada.Ua.C90_buffers",
    "Uscada.Ua.C90_proper_open",
    "Uscada.Ua.C90_proper_close",
    "Uscada.Ua.C90_proper_request",
    "Uscada.Ua.Stack.C90_open_violated",
    "Uscada.Ua.Stack.C90_stack_violated",
    "Uscada.Ua.Stack.C90_create_violated"
   ],
   "note": "Proved (two runs, all histories) for peers whose messages contain what is read of them: Hellos of at least 32 bytes, messages with their 12 bytes of header, and open, close and service requests that are decoded, or refused, in front of their end; proper requests are. Missing: the code does not refuse requests that end too early. Without its last 4 bytes an open request is answered with 4 bytes of the receive buffer behind it, without its last 16 bytes with 4 bytes of the stack (C90_open_violated, C90_stack_violated); without its last 12 bytes a create request is answered with 12 bytes of the receive buffer (C90_create_violated). The buffers that answers are encoded into hold a fixed content in the model; that no other content matters is C90_buffers."
  },
  {
   "property": "C91",
   "status": "partial",
   "theorems": [
    "Uscada.Modbus.Blind.C91_answers_partial",
    "Uscada.Modbus.Blind.C91_controller",
    "Uscada.Modbus.C91_local",
    "Uscada.Modbus.Blind.C91_leaving_violated",
    "Uscada.Modbus.Blind.C91_count_violated"
   ],
   "note": "Proved (two runs, all histories of a server, all bytes, including malformed and short frames) if no stream ends behind a decoded request and the application answers only sessions that have forwarded a request; the forwarded requests agree in all that their function uses, and ModbusTestController answers such requests alike; the content of the local variables of ModbusSession::send does not matter in any state (C91_local). Missing: when a stream ends while a request waits, the session decodes what its memory holds behind the request, and the answer can reveal three bytes of it (C91_leaving_violated); the number of items of a forwarded single write is uninitialised (C91_count_violated)."
  },
  {
   "property": "C92",
   "status": "partial",
   "theorems": [
    "Uscada.Modbus.Client.C92_reports_partial",
    "Uscada.Modbus.C92_local",
    "Uscada.Modbus.Client.C92_stub_violated",
    "Uscada.Modbus.Client.C92_leaving_violated"
   ],
   "note": "Proved (two runs, all histories, all bytes, including that both runs leave defined behaviour together) if no slave sends a stub of an answer (a complete frame of less than 9 bytes that agrees with the request as far as it goes) and none closes the connection behind an answer while another request waits; the content of the local variables of ModbusClient::send and ModbusClient::receive does not matter in any state (C92_local). Missing: for every request and every stub, memory decides what is reported, any exception code included (C92_stub_violated); at the end of the stream a request that was never sent can be reported as successful with bytes of memory as data (C92_leaving_violated)."
  },
  {
   "property": "C93",
   "status": "partial",
   "theorems": [
    "Uscada.Heard.C93_served_partial",
    "Uscada.Ua.Transport.C93_open_partial",
    "Uscada.Heard.C93_forgotten_violated",
    "Uscada.Heard.C93_deaf_violated",
    "Uscada.Heard.C93_arrivals_lost_violated",
    "Uscada.Ua.Transport.C93_occupied_violated",
    "Uscada.Ua.Transport.C93_ua_deaf_violated",
    "Uscada.Ua.Transport.C93_babble_violated",
    "Uscada.Modbus.Server.C93_modbus_open_partial",
    "Uscada.Heard.C93_end_is_last",
    "Uscada.Modbus.Server.C93_modbus_drained_violated",
    "Uscada.Modbus.Server.C93_modbus_deaf_violated",
    "Uscada.Modbus.Server.C93_modbus_spins_violated"
   ],
   "note": "Proved for all handlers and arrivals: a ready descriptor is handled within ten turns unless a handler throws or ends the process; the acceptors of the OPC UA server and of a Modbus server do not throw while a link and a timer are free. Missing: what is reported behind a handler that throws is not handled until it becomes ready anew (C93_forgotten_violated; for the OPC UA server after any hello message with a negative length of the url, C93_babble_violated), and an acceptor whose handler throws without taking the connection makes the reactor deaf for ever (C93_deaf_violated, C93_arrivals_lost_violated), which 33 silent clients of the OPC UA server achieve (C93_occupied_violated, C93_ua_deaf_violated). At a Modbus server the 33rd client costs one identifier a turn; the reactor is deaf for 224 turns (C93_modbus_drained_violated, C93_modbus_deaf_violated) and afterwards never rests (C93_modbus_spins_violated)."
  },
  {
   "property": "C94",
   "status": "partial",
   "theorems": [
    "Uscada.Ua.Stack.C94_since_partial",
    "Uscada.Ua.Stack.C94_idle_partial",
    "Uscada.Ua.Stack.C94_turns_partial",
    "Uscada.Ua.Stack.C94_heir_violated",
    "Uscada.Ua.Stack.C94_session_violated"
   ],
   "note": "Proved for every history: what is written on a connection since any moment answers requests received since then or still under way then (C94_since_partial), so a client accepted while no message names its connection gets answers to its own requests only (C94_idle_partial); likewise whenever at most a clients are accepted between two rounds of the mailbox and 4*a identifiers of connections are always free (C94_turns_partial). Message chunks of less than 12 bytes are excluded as in C65. Missing: on a server with 32 clients one that leaves with a request under way leaves its answer to the next client: the token of a new session (C94_heir_violated) or the session itself, whose data the next client then reads without any session of its own (C94_session_violated)."
  },
  {
   "property": "C95",
   "status": "partial",
   "theorems": [
    "Uscada.Ua.C95_primed",
    "Uscada.Ua.C95_success",
    "Uscada.Ua.C95_agree",
    "Uscada.Ua.C95_greets_partial",
    "Uscada.Ua.C95_limits_violated",
    "Uscada.Ua.C95_reverse_violated"
   ],
   "note": "Proved for all histories, states and events without any assumption: success is prepared by Hello or Acknowledge and is brought about by a complete chunk with the awaited letters (C95_primed, C95_success); an idle client and an idle server agree for all cuts (C95_agree); every Hello of the standard that fits the buffer is answered, in pieces of which at most 1024 bytes come before the last (C95_greets_partial). Missing: whatever the limits in an Acknowledge say, the client is connected and writes what it is told to (C95_limits_violated); the reverse connection a server can begin is an error for every client of the library (C95_reverse_violated)."
  },
  {
   "property": "C96",
   "status": "partial",
   "theorems": [
    "Uscada.Ua.Transport.C96_admitted",
    "Uscada.Ua.Transport.C96_refused",
    "Uscada.Ua.Transport.C96_full",
    "Uscada.Ua.Transport.C96_only",
    "Uscada.Ua.Transport.C96_counts",
    "Uscada.Ua.Transport.C96_stranded_violated"
   ],
   "note": "Proved for all histories: which object serves a socket and that it begins afresh when timers can be had and started (C96_admitted); refused sockets and sockets that come when all objects are in use change nothing (C96_refused, C96_full); nothing else makes a connection begin (C96_only, C96_counts). Missing: a socket that is accepted while the reactor has no timer is held for ever by an object that never serves anybody again (C96_stranded_violated)."
  },
  {
   "property": "C97",
   "status": "partial",
   "theorems": [
    "Uscada.Modbus.Reuse.C97_session_partial",
    "Uscada.Modbus.Reuse.C97_inherits_violated",
    "Uscada.Ua.Stack.C97_stack_partial",
    "Uscada.Ua.Stack.C97_remains_violated"
   ],
   "note": "Modbus: after any history of a server an idle session writes the same frames as a new one, for masters and answers as in C91 (C97_session_partial); an answer that was meant for the master before is written to the next one (C97_inherits_violated). OPC UA: what earlier peers left in buffers and channels does not show to later ones whose messages contain all that is read of them (C97_stack_partial); others are told what their predecessor has sent (C97_remains_violated)."
  },
  {
   "property": "C98",
   "status": "partial",
   "theorems": [
    "Uscada.Ua.Transport.C98_order",
    "Uscada.Ua.Transport.C98_first",
    "Uscada.Ua.Transport.C98_letters_violated"
   ],
   "note": "The log of every connection in every history passes through the phases of the specification, and the phase agrees with the state (C98_order); a connection becomes connected only with a whole chunk (C98_first). The first message need not be a Hello: any four bytes in the place of its letters are acknowledged (C98_letters_violated)."
  },
  {
   "property": "C99",
   "status": "partial",
   "theorems": [
    "Uscada.Ua.Stack.C99_held_partial",
    "Uscada.Ua.Stack.C99_rest_partial",
    "Uscada.Ua.Stack.C99_renewal_violated",
    "Uscada.Ua.Stack.C99_exhausted_violated",
    "Uscada.Ua.Stack.C99_forever_violated",
    "Uscada.Ua.Stack.C99_denied_violated",
    "Uscada.Ua.Stack.C99_early_violated",
    "Uscada.Ua.Stack.C99_session_violated"
   ],
   "note": "Proved for histories in which no message is lost, answers to open requests find their connection connected and without a channel, and requests to end a connection find its channel closed: every open channel is the channel of its connection, or a message that sets this right is under way (C99_held_partial), and at rest none is left behind (C99_rest_partial). Without these conditions the property fails. A client that opens a channel while it has one gets a second one, and the first is left behind (C99_renewal_violated, any number of times in C99_exhausted_violated); a channel that is left behind stays open in every later history (C99_forever_violated), so that 31 renewals of one client take the server away from everybody else for good (C99_denied_violated). The same happens to a channel whose client leaves before the answer to its open request comes (C99_early_violated). A session is out of reach once the channel has been renewed (C99_session_violated)."
  },
  {
   "property": "C100",
   "status": "partial",
   "theorems": [
    "Uscada.Ua.Transport.C100_sent_partial",
    "Uscada.Ua.Transport.C100_agree_partial",
    "Uscada.Ua.Transport.C100_agree_violated",
    "Uscada.Ua.Transport.C100_large_violated",
    "Uscada.Ua.Session.C100_session_violated",
    "Uscada.Ua.C100_library_partial",
    "Uscada.Ua.C100_library_violated"
   ],
   "note": "Everything that is written is one chunk of at most 4096 bytes, which fits the least buffer that the standard allows (C100_sent_partial); a Hello with buffers of at least 65536 bytes is answered with limits it allows (C100_agree_partial). Violated: every Hello with smaller buffers is answered with larger ones (C100_agree_violated), and no chunk of 4097 to 65536 bytes is received, whatever it holds and however it is cut (C100_large_violated); the response to every create request announces as limit of the server the limit that the client has named for itself (C100_session_violated). The server connection of the library answers in the same way (C100_library_partial, C100_library_violated). Chunks of up to 4056 bytes are served (C66)."
  },
  {
   "property": "C101",
   "status": "partial",
   "theorems": [
    "Uscada.Ua.Transport.C101_never_violated",
    "Uscada.Ua.Transport.C101_letters_violated",
    "Uscada.Ua.Peer.C101_library_violated"
   ],
   "note": "False: in no history is an Error message written (C101_never_violated); every whole chunk of unknown type ends the connection with nothing written (C101_letters_violated); the server channel of the library drops it and says nothing (C101_library_violated)."
  },
  {
   "property": "C102",
   "status": "partial",
   "theorems": [
    "Uscada.Ua.Stack.C102_expired_violated",
    "Uscada.Ua.Peer.C102_library_violated"
   ],
   "note": "False: the lifetime is granted as asked for and never looked at again; every plan of requests is carried out under the token whatever the clock says. The server channel of the library does the same for every conversation (C102_library_violated)."
  },
  {
   "property": "C103",
   "status": "partial",
   "theorems": [
    "Uscada.Ua.Channel.C103_sent_partial",
    "Uscada.Ua.Channel.C103_next_partial",
    "Uscada.Ua.Channel.C103_wrap_violated",
    "Uscada.Ua.Peer.C103_library_violated"
   ],
   "note": "The numbers that are sent follow each other, also at the end of the range (C103_sent_partial); numbers up to 4294966271 are followed as they should (C103_next_partial). Violated: a client that begins again below 1024 is disconnected, whatever it sends (C103_wrap_violated); the server channel of the library does the same (C103_library_violated)."
  },
  {
   "property": "C104",
   "status": "partial",
   "theorems": [
    "Uscada.Ua.Nodes.C104_reads",
    "Uscada.Ua.Nodes.C104_conforms_partial",
    "Uscada.Ua.Nodes.C104_components",
    "Uscada.Ua.Nodes.C104_variable_violated",
    "Uscada.Ua.Nodes.C104_class_violated",
    "Uscada.Ua.Nodes.C104_lookup_violated"
   ],
   "note": "Attributes read as last written, none disturbs another (C104_reads), components as last assigned (C104_components); four of the five classes have the attributes of the standard (C104_conforms_partial). Violated: value and dataType of a variable bear the number and the type of NodeId (C104_variable_violated); no constructor sets NodeClass, which is uninitialised until written (C104_class_violated); HasComponent adds an entry for every name asked for (C104_lookup_violated). No other file makes nodes yet."
  },
  {
   "property": "C105",
   "status": "partial",
   "theorems": [
    "Uscada.Ua.Peer.C105_refused_partial",
    "Uscada.Ua.Peer.C105_foreign_violated",
    "Uscada.Ua.Peer.C105_renewal_violated"
   ],
   "note": "Messages with another token or number end the channel and give the connection back (C105_refused_partial). Violated: the channel identifier and the chunk type are not looked at: parts of messages and messages for any channel are passed on (C105_foreign_violated), open requests for any channel with any number renew the channel (C105_renewal_violated)."
  },
  {
   "property": "C106",
   "status": "partial",
   "theorems": [
    "Uscada.Ua.Session.C106_answered_partial",
    "Uscada.Ua.Session.C106_silent_violated",
    "Uscada.Ua.Stack.C106_stack_violated"
   ],
   "note": "Requests that can be carried out are answered exactly once, by one object, with the response of their kind (C106_answered_partial). Violated: every other well formed request, in every reachable state, gets no answer at all from the service component (C106_silent_violated), and no byte is written to any connection (C106_stack_violated): the code has no service fault."
  },
  {
   "property": "C107",
   "status": "partial",
   "theorems": [
    "Uscada.Ua.Session.C107_same_partial",
    "Uscada.Ua.Session.C107_unusable_violated",
    "Uscada.Ua.Session.C107_filter_violated"
   ],
   "note": "One endpoint is announced in both responses, and it is the address the controller makes the program listen on (C107_same_partial). Violated: it has no transport profile and no user token policy (C107_unusable_violated), and the profiles a client asks for are ignored (C107_filter_violated)."
  },
  {
   "property": "C108",
   "status": "partial",
   "theorems": [
    "Uscada.Ua.Peer.C108_talk_partial",
    "Uscada.Ua.Peer.C108_pieces_partial",
    "Uscada.Ua.Peer.C108_life_partial",
    "Uscada.Ua.Peer.C108_pipelined_violated"
   ],
   "note": "Any conversation in which the user answers a request before the next one arrives goes its way to the end (C108_talk_partial, by induction over the turns), also when its chunks arrive in pieces (C108_pieces_partial; no more than 1024 bytes before the last piece, see C30), and so does the whole life of a channel from the open request to the close request (C108_life_partial); the link takes what is sent. Violated: a request that was overtaken by another one can not be answered any more, what is said carries the identifier of the later one (C108_pipelined_violated)."
  },
  {
   "property": "C109",
   "status": "proved",
   "theorems": [
    "Uscada.Ua.C109_opens",
    "Uscada.Ua.C109_again"
   ],
   "note": "Both library stacks composed: the bytes that one side writes are the bytes that the other side reads, in any pieces (`Net`). C109_opens gives both logs exactly and leaves the server ready for any conversation (C108); C109_again repeats it any number of times with the same two objects. The circumstances are those of `Meeting.Fine`: links and timers can be had, writes are taken, no user throws and none reacts to the end. That the client has no use for what the server says afterwards is C58."
  },
  {
   "property": "C110",
   "status": "proved",
   "theorems": [
    "Uscada.Ua.C110_opens",
    "Uscada.Ua.C110_again"
   ],
   "note": "Library client and server program composed: each reads the bytes that the other writes, in any pieces (`Net`). C110_opens: client log exactly, the program `Ready` on the channel (so C66, C79 apply), everything else untouched. C110_again: any number of calls, each ended by the client's timer; free connections and channels as before. The circumstances are those of `Dial.Fine`: links, timers and message slots can be had, writes are taken, the user does not throw and does not react to the end; nobody else talks to the program meanwhile."
  },
  {
   "property": "C111",
   "status": "partial",
   "theorems": [
    "Uscada.Modbus.Client.C111_comes_back",
    "Uscada.Modbus.Client.C111_serves_again_partial",
    "Uscada.Modbus.Client.C111_aware_partial"
   ],
   "note": "From every reachable state of a started client: connected within 2n+3 events with the n waiting requests answered in order (C111_comes_back); the first request after that is answered within five events, and the second is carried out end to end by any fresh server session (C111_serves_again_partial, composed with C67). Violated for the first request: a connected client whose link failed does not know and spends a request to find out (C76_first_request_violated); every other client carries out the first one too (C111_aware_partial). Bit reads and zero answers are missing as in C67."
  },
  {
   "property": "C112",
   "status": "partial",
   "theorems": [
    "Uscada.Modbus.Client.C112_sent_at_most_once",
    "Uscada.Modbus.Client.C112_sent_before_answered_partial",
    "Uscada.Modbus.Client.C112_success_was_sent_partial",
    "Uscada.Modbus.Client.C112_success_from_peer",
    "Uscada.Modbus.Client.C112_answered_then_sent_violated"
   ],
   "note": "At most once and in order: every history. Sent before answered, and sent if successful: histories in which no bytes arrive while a request waits to be sent (`Orderly` of C14); otherwise such bytes are taken as the answer and the request is sent after its caller was told that it has succeeded (C112_answered_then_sent_violated)."
  },
  {
   "property": "C113",
   "status": "partial",
   "theorems": [
    "Uscada.Modbus.Server.C113_sessions_end",
    "Uscada.Modbus.Server.C113_comes_back_partial",
    "Uscada.Modbus.Server.C113_accepts_again_partial",
    "Uscada.Modbus.Server.C113_together_partial",
    "Uscada.Modbus.Server.C113_lost_violated"
   ],
   "note": "Sessions end and give their identifiers back after any history (C113_sessions_end). All identifiers, timers and links are back, and the next master is served, after any history in which accepts succeed; C113_together_partial joins it with C111: both ends after any histories. What failing accepts have lost stays lost for ever (C113_lost_violated, any number of them and any silence)."
  },
  {
   "property": "C114",
   "status": "partial",
   "theorems": [
    "Uscada.Ua.Stack.C114_silence_ends_partial",
    "Uscada.Ua.Stack.C114_comes_back_partial",
    "Uscada.Ua.Stack.C114_channels_closed_partial",
    "Uscada.Ua.Stack.C114_serves_again_partial",
    "Uscada.Ua.Stack.C114_sessions_violated"
   ],
   "note": "For histories in which nothing hurts the process (`Tame` of C89) and timers can be had and started: every silence is defined and over after at most 64 steps, whatever its order; behind it connections, identifiers and channels are free and the next visit (C81) takes place. All channels are closed if the history was orderly (C99). Sessions do not end (C114_sessions_violated, any silence); identifiers of connections and channels that were lost before (C96_stranded_violated, C48_malformed_violated) stay lost."
  },
  {
   "property": "C115",
   "status": "partial",
   "theorems": [
    "Uscada.Ua.C115_client_back_partial",
    "Uscada.Ua.C115_server_back_partial",
    "Uscada.Ua.C115_meets_again_partial",
    "Uscada.Ua.C115_dials_again_partial",
    "Uscada.Ua.C115_waiting_violated"
   ],
   "note": "For users that do not throw when notified, while links and timers are available, and (server) chunks that hold their headers: both channels come back from every state, except that of a client which waits for the answer to its open request. Composed with C109 (both ends of the library) and with C110 and C114 (the client and the program, each after any history). Violated: a client that waits is lost for good in every history that leads there (C115_waiting_violated)."
  }
 ]
}
