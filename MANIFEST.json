{
 "claims": [
  {
   "property": "C01",
   "status": "proved",
   "theorems": [
    "Modbus.Props.C01_request_round_trip",
    "Modbus.Props.C01_request_injective"
   ],
   "note": ""
  },
  {
   "property": "C02",
   "status": "proved",
   "theorems": [
    "Modbus.Props.C02_accepts_iff_denotes"
   ],
   "note": ""
  },
  {
   "property": "C03",
   "status": "proved",
   "theorems": [
    "Modbus.Props.C03_rejections_classified"
   ],
   "note": ""
  },
  {
   "property": "C04",
   "status": "proved",
   "theorems": [
    "Modbus.Props.C04_valid_iff_in_range"
   ],
   "note": ""
  },
  {
   "property": "C05",
   "status": "proved",
   "theorems": [
    "Modbus.Props.C05_request_conformant"
   ],
   "note": ""
  },
  {
   "property": "C06",
   "status": "proved",
   "theorems": [
    "Modbus.Props.C06_response_round_trip"
   ],
   "note": ""
  },
  {
   "property": "C07",
   "status": "proved",
   "theorems": [
    "Modbus.Props.C07_bit_response_iff"
   ],
   "note": ""
  },
  {
   "property": "C08",
   "status": "partial",
   "theorems": [
    "Modbus.Props.C08_register_response_iff_partial",
    "Modbus.Props.C08_violated"
   ],
   "note": "The code does not compare the byte count with 2*qty, only its parity; C08_violated is the counterexample, the partial theorem is the exact acceptance condition."
  },
  {
   "property": "C09",
   "status": "proved",
   "theorems": [
    "Modbus.Props.C09_exception_iff"
   ],
   "note": ""
  },
  {
   "property": "C10",
   "status": "partial",
   "theorems": [
    "Modbus.Props.C10_exception_survives_partial",
    "Modbus.Props.C10_violated",
    "Modbus.Props.C10_memory_parity_becomes_unknown"
   ],
   "note": "MemoryParityError is encoded as 0x07 but decoded from 0x08."
  },
  {
   "property": "C11",
   "status": "proved",
   "theorems": [
    "Modbus.Props.C11_decode_total"
   ],
   "note": ""
  },
  {
   "property": "C12",
   "status": "partial",
   "theorems": [
    "Modbus.Props.C12_write_response_faithful_partial",
    "Modbus.Props.C12_violated"
   ],
   "note": "The code does not compare the echo with the request; the partial theorem says the reported response is exactly what was received."
  },
  {
   "property": "C13",
   "status": "proved",
   "theorems": [
    "Modbus.Props.C13_response_trichotomy",
    "Modbus.Props.C13_foreign_function_code"
   ],
   "note": ""
  },
  {
   "property": "C14",
   "status": "proved",
   "theorems": [
    "Modbus.Props.C14_frame_layout"
   ],
   "note": ""
  },
  {
   "property": "C15",
   "status": "proved",
   "theorems": [
    "Modbus.Props.C15_framing_round_trip",
    "Modbus.Props.C15_built_frames_received"
   ],
   "note": ""
  },
  {
   "property": "C16",
   "status": "partial",
   "theorems": [
    "Modbus.Props.C16_segmentation_invariant_partial",
    "Modbus.Props.C16_framing_invariant_partial",
    "Modbus.Props.C16_violated"
   ],
   "note": "With a rejecting copy_from the delivered bytes of frames announcing more than 253 PDU bytes depend on the segmentation (witness). Proved: full invariance when Modbus frames fit or copy_from truncates; framing (ids, lengths, count, order) invariant for all bytes."
  },
  {
   "property": "C17",
   "status": "proved",
   "theorems": [
    "Modbus.Props.C17_foreign_frames_skipped"
   ],
   "note": ""
  },
  {
   "property": "C18",
   "status": "partial",
   "theorems": [
    "Modbus.Props.C18_delivered_from_frame_partial",
    "Modbus.Props.C18_violated"
   ],
   "note": "Oversize frames are delivered with leftover buffer content when copy_from rejects."
  },
  {
   "property": "C19",
   "status": "partial",
   "theorems": [
    "Modbus.Props.C19_immediate_delivery_partial",
    "Modbus.Props.C19_violated"
   ],
   "note": "A frame with an empty PDU (length 1) is delivered only when a further byte arrives."
  },
  {
   "property": "C20",
   "status": "proved",
   "theorems": [
    "Modbus.Props.C20_reset_forgets"
   ],
   "note": ""
  },
  {
   "property": "C21",
   "status": "proved",
   "theorems": [
    "Modbus.Props.C21_receiver_memory_safe"
   ],
   "note": ""
  },
  {
   "property": "C22",
   "status": "proved",
   "theorems": [
    "Modbus.Props.C22_response_identifiers",
    "Modbus.Props.server_total"
   ],
   "note": ""
  },
  {
   "property": "C23",
   "status": "proved",
   "theorems": [
    "Modbus.Props.C23_at_most_one_response",
    "Modbus.Props.C23_pipelined"
   ],
   "note": ""
  },
  {
   "property": "C24",
   "status": "proved",
   "theorems": [
    "Modbus.Props.C24_request_reaches_session",
    "Modbus.Props.C24_received_request",
    "Modbus.Props.C24_served"
   ],
   "note": "C24_served: in every history, in terms of the calls made. Responses that do not fit a PDU are the subject of C32."
  },
  {
   "property": "C25",
   "status": "proved",
   "theorems": [
    "Modbus.Props.C25_silence",
    "Modbus.Props.C25_unknown_unit_ignored",
    "Modbus.Props.C24_served"
   ],
   "note": "In every history: C25_unknown_unit_ignored for unknown units, C24_served (field ignored) for registered ones."
  },
  {
   "property": "C26",
   "status": "proved",
   "theorems": [
    "Modbus.Props.C26_unsupported_refused",
    "Modbus.Props.C24_served"
   ],
   "note": "In every history: C24_served, field unsupported."
  },
  {
   "property": "C27",
   "status": "proved",
   "theorems": [
    "Modbus.Props.C27_out_of_range_refused",
    "Modbus.Props.C24_served"
   ],
   "note": "In every history: C24_served, field refused."
  },
  {
   "property": "C28",
   "status": "proved",
   "theorems": [
    "Modbus.Props.C28_session_failures",
    "Modbus.Props.C24_served"
   ],
   "note": "In every history: C24_served, fields failed and kept."
  },
  {
   "property": "C29",
   "status": "proved",
   "theorems": [
    "Modbus.Props.C29_session_isolation"
   ],
   "note": ""
  },
  {
   "property": "C30",
   "status": "partial",
   "theorems": [
    "Modbus.Props.C30_new_unit_partial",
    "Modbus.Props.C30_first_registration_stays_partial",
    "Modbus.Props.C30_violated"
   ],
   "note": "add_session uses insert, which does not replace an existing session; the partial theorems say what happens instead."
  },
  {
   "property": "C31",
   "status": "proved",
   "theorems": [
    "Modbus.Props.C31_nothing_after_shutdown",
    "Modbus.Props.C31_shutdown_once",
    "Modbus.Props.C31_server_shutdown_at_most_once",
    "Modbus.Props.C31_takes_effect",
    "Modbus.Props.C31_session_told",
    "Modbus.Props.C31_server_told"
   ],
   "note": "The last three say in terms of the calls made when shutdown takes effect and who is told."
  },
  {
   "property": "C32",
   "status": "partial",
   "theorems": [
    "Modbus.Props.C32_fitting_responses_partial",
    "Modbus.Props.C32_oversized_registers_leak",
    "Modbus.Props.C32_violated"
   ],
   "note": "Responses with more values than fit a PDU are sent with a wrong byte count and a byte of leftover memory."
  },
  {
   "property": "C33",
   "status": "proved",
   "theorems": [
    "Modbus.Props.C33_default_session"
   ],
   "note": ""
  },
  {
   "property": "C34",
   "status": "proved",
   "theorems": [
    "Modbus.Props.C34_framing_per_connection",
    "Modbus.Props.C34_other_connections_irrelevant"
   ],
   "note": ""
  },
  {
   "property": "C35",
   "status": "proved",
   "theorems": [
    "Modbus.Props.C35_refines_four_maps",
    "Modbus.Props.C35_tables_independent"
   ],
   "note": "Every history of add/get/set operations and requests."
  },
  {
   "property": "C36",
   "status": "proved",
   "theorems": [
    "Modbus.Props.C36_write_coils_all_or_nothing",
    "Modbus.Props.C36_write_registers_all_or_nothing"
   ],
   "note": "Every reachable database."
  },
  {
   "property": "C37",
   "status": "proved",
   "theorems": [
    "Modbus.Props.C37_range_check",
    "Modbus.Props.C37_address_check",
    "Modbus.Props.C37_no_wrap"
   ],
   "note": "Every reachable database, all four tables."
  },
  {
   "property": "C38",
   "status": "proved",
   "theorems": [
    "Modbus.Props.C38_reads"
   ],
   "note": "All four tables."
  },
  {
   "property": "C39",
   "status": "proved",
   "theorems": [
    "Modbus.Props.C39_add_never_overwrites"
   ],
   "note": "All four tables."
  },
  {
   "property": "C40",
   "status": "proved",
   "theorems": [
    "Modbus.Props.C40_requests_keep_points"
   ],
   "note": "Any sequence of requests."
  },
  {
   "property": "C41",
   "status": "proved",
   "theorems": [
    "Modbus.Props.C41_serialised",
    "Modbus.Props.C41_complete_executions",
    "Modbus.Props.C41_no_deadlock"
   ],
   "note": "Every schedule of any number of threads at the granularity of map operations and loop iterations."
  },
  {
   "property": "C45",
   "status": "proved",
   "theorems": [
    "Modbus.Props.C45_one_outstanding"
   ],
   "note": ""
  },
  {
   "property": "C46",
   "status": "proved",
   "theorems": [
    "Modbus.Props.C46_submission_order"
   ],
   "note": ""
  },
  {
   "property": "C47",
   "status": "proved",
   "theorems": [
    "Modbus.Props.C47_handlers_at_most_once"
   ],
   "note": ""
  },
  {
   "property": "C49",
   "status": "proved",
   "theorems": [
    "Modbus.Props.C49_response_matches_request",
    "Modbus.Props.C49_messages_are_received_frames",
    "Modbus.Props.C49_all_frames_taken",
    "Modbus.Props.C49_delivered"
   ],
   "note": ""
  },
  {
   "property": "C50",
   "status": "proved",
   "theorems": [
    "Modbus.Props.C50_mismatch_ignored",
    "Modbus.Props.C50_late_answer_not_taken"
   ],
   "note": ""
  },
  {
   "property": "C53",
   "status": "proved",
   "theorems": [
    "Modbus.Props.C53_error_fails_everything",
    "Modbus.Props.C53_works_after_error"
   ],
   "note": ""
  },
  {
   "property": "C54",
   "status": "proved",
   "theorems": [
    "Modbus.Props.C54_transaction_ids",
    "Modbus.Props.C54_close_requests_differ"
   ],
   "note": ""
  },
  {
   "property": "C55",
   "status": "proved",
   "theorems": [
    "Modbus.Props.C55_only_valid_requests_sent",
    "Modbus.Props.C55_invalid_request",
    "Modbus.Props.C55_invalid_request_reported"
   ],
   "note": "'exactly once' for requests submitted before shutdown took effect; later ones are dropped (see C48)"
  },
  {
   "property": "C56",
   "status": "proved",
   "theorems": [
    "Modbus.Props.C56_shutdown_final",
    "Modbus.Props.C56_takes_effect",
    "Modbus.Props.C56_sessions_told"
   ],
   "note": "C56_takes_effect is for fair executions."
  },
  {
   "property": "C48",
   "status": "partial",
   "theorems": [
    "Modbus.Props.C48_exactly_once_partial",
    "Modbus.Props.C48_violated",
    "Modbus.Props.C48_dropped_forever"
   ],
   "note": "The full statement is false: requests in progress at shutdown, or submitted later, are dropped without calling the handler (C48_violated, C48_dropped_forever). Proved for every history before shutdown takes effect."
  },
  {
   "property": "C51",
   "status": "partial",
   "theorems": [
    "Modbus.Props.C51_own_timeout_partial",
    "Modbus.Props.C51_orderly_partial",
    "Modbus.Props.C51_violated",
    "Modbus.Props.C51_some_timeout"
   ],
   "note": "The full statement is false: a timer whose expiry is already queued when its request is answered times out the next request (C51_violated). Proved for histories without such late timers, and (C51_orderly_partial) for histories in which callbacks of expired timers run before anything the connection reports later; unconditionally, some sent request's time is up."
  },
  {
   "property": "C52",
   "status": "proved",
   "theorems": [
    "Modbus.Props.C52_never_stuck",
    "Modbus.Props.C52_every_request_completes",
    "Modbus.Props.C52_completes_in_silence",
    "Modbus.Props.C52_in_time"
   ],
   "note": "Liveness: in every infinite fair execution without shutdown every submitted request's handler is called."
  },
  {
   "property": "C57",
   "status": "proved",
   "theorems": [
    "Modbus.Props.C57_typed_results"
   ],
   "note": ""
  },
  {
   "property": "C42",
   "status": "proved",
   "theorems": [
    "Modbus.Props.C42_read_end_to_end"
   ],
   "note": "Composition of the client channel, framing in both directions with arbitrary segmentation, server channel and database models."
  },
  {
   "property": "C43",
   "status": "proved",
   "theorems": [
    "Modbus.Props.C43_write_end_to_end",
    "Modbus.Props.C43_write_then_read"
   ],
   "note": ""
  },
  {
   "property": "C44",
   "status": "proved",
   "theorems": [
    "Modbus.Props.C44_refusal_end_to_end"
   ],
   "note": ""
  },
  {
   "property": "C58",
   "status": "partial",
   "theorems": [
    "Modbus.Props.C58_single_request_partial",
    "Modbus.Props.C58_one_per_start_partial",
    "Modbus.Props.C58_violated",
    "Modbus.Props.C58_two_loops_persist"
   ],
   "note": "The full statement is false: stop and start while a request is outstanding create a second, permanent polling loop. Proved if every restart happens after everything earlier has settled; unconditionally at most one per start."
  },
  {
   "property": "C59",
   "status": "partial",
   "theorems": [
    "Modbus.Props.C59_polling_time_respected_partial",
    "Modbus.Props.C59_violated"
   ],
   "note": "Fails with two loops (C58). Proved for orderly starts."
  },
  {
   "property": "C60",
   "status": "partial",
   "theorems": [
    "Modbus.Props.C60_stop_stops_partial",
    "Modbus.Props.C60_after_stop_bounded_partial",
    "Modbus.Props.C60_violated"
   ],
   "note": "A timer that has expired when stop takes effect still sends its request. Proved when no expired timer is queued at stops and starts are orderly; unconditionally at most one further request per left-over timer."
  },
  {
   "property": "C61",
   "status": "proved",
   "theorems": [
    "Modbus.Props.C61_handled_once",
    "Modbus.Props.C61_polling_continues",
    "Modbus.Props.C61_timer_polls",
    "Modbus.Props.C61_always_pending",
    "Modbus.Props.C61_calls_take_effect",
    "Modbus.Props.C61_calls_are_heard"
   ],
   "note": ""
  },
  {
   "property": "C62",
   "status": "partial",
   "theorems": [
    "Modbus.Props.C62_reconnects_partial",
    "Modbus.Props.C62_never_gives_up_partial",
    "Modbus.Props.C62_failure_leads_to_reconnect_partial",
    "Modbus.Props.C62_violated",
    "Modbus.Props.C62_stuck_forever"
   ],
   "note": "The full statement is false: after a failure to resolve the address (or to bind) the socket stays open and the client can never connect again (C62_stuck_forever). Proved for all other failures."
  },
  {
   "property": "C63",
   "status": "partial",
   "theorems": [
    "Modbus.Props.C63_clean_framing_partial",
    "Modbus.Props.C63_violated"
   ],
   "note": "The full statement is false: an orderly end of stream in the middle of a frame leaves the partial frame in the receiver. Proved when connections end by errors only and attempts start after left-over events are over."
  },
  {
   "property": "C64",
   "status": "partial",
   "theorems": [
    "Modbus.Props.C64_whole_frames_partial",
    "Modbus.Props.C64_violated",
    "Modbus.Props.C64_use_after_free",
    "Modbus.Props.C64_truncated_frame",
    "Modbus.Props.C64_server_whole_frames_partial",
    "Modbus.Props.C64_server_violated",
    "Modbus.Props.C64_server_use_after_free"
   ],
   "note": "The full statement is false on both sides: data sent while the previous data is being written frees the memory in use (client: after a timeout; server: pipelined requests), and partial writes truncate frames. Proved for histories with one complete write at a time."
  },
  {
   "property": "C65",
   "status": "partial",
   "theorems": [
    "Modbus.Props.C65_no_leftovers_partial",
    "Modbus.Props.C65_violated"
   ],
   "note": "The full statement is false: the second of two queued closes kills the next attempt. Proved when attempts start after everything about the earlier connection is over."
  },
  {
   "property": "C66",
   "status": "partial",
   "theorems": [
    "Modbus.Props.C66_single_attempt_partial",
    "Modbus.Props.C66_connect_submits_partial",
    "Modbus.Props.C66_newest_only_partial",
    "Modbus.Props.C66_open_submits_partial",
    "Modbus.Props.C66_violated"
   ],
   "note": "The full statement is false as a consequence of C65. Proved when attempts start after everything about the earlier connection is over; that only the newest data is submitted is proved unconditionally."
  },
  {
   "property": "C67",
   "status": "proved",
   "theorems": [
    "Modbus.Props.C67_silent_after_shutdown",
    "Modbus.Props.C67_shutdown_takes_effect",
    "Modbus.Props.C67_call_takes_effect"
   ],
   "note": ""
  },
  {
   "property": "C68",
   "status": "partial",
   "theorems": [
    "Modbus.Props.C68_limit_partial",
    "Modbus.Props.C68_evicts_oldest_partial",
    "Modbus.Props.C68_zero",
    "Modbus.Props.C68_violated"
   ],
   "note": "The full statement is false if the channel is started twice (two accept loops: the evicted connection may be one not accepted yet). Proved for a single start and every limit below 2^32-1."
  },
  {
   "property": "C69",
   "status": "partial",
   "theorems": [
    "Modbus.Props.C69_count_partial",
    "Modbus.Props.C69_violated",
    "Modbus.Props.C69_not_reset"
   ],
   "note": "The full statement is false: a failing accept decrements a number that had not been incremented (underflow to 2^32-1), and shutdown does not reset it. Proved for a single start, without failing accepts, until shutdown."
  },
  {
   "property": "C70",
   "status": "partial",
   "theorems": [
    "Modbus.Props.C70_accepting_partial",
    "Modbus.Props.C70_violated",
    "Modbus.Props.C70_deaf_forever",
    "Modbus.Props.C70_started"
   ],
   "note": "The full statement is false: a failing accept ends the accept loop for good. Proved as long as no accept fails."
  },
  {
   "property": "C71",
   "status": "proved",
   "theorems": [
    "Modbus.Props.C71_removed_once",
    "Modbus.Props.C71_close_closes",
    "Modbus.Props.C71_silent_when_closed"
   ],
   "note": ""
  },
  {
   "property": "C72",
   "status": "partial",
   "theorems": [
    "Modbus.Props.C72_registered_stopped_partial",
    "Modbus.Props.C72_stopped_request_is_silent_partial",
    "Modbus.Props.C72_scheduled_as_alone_partial",
    "Modbus.Props.C72_one_time_once_partial",
    "Modbus.Props.C72_calls_are_heard_partial",
    "Modbus.Props.C72_scheduled_is_sent_partial",
    "Modbus.Props.C72_one_time_served_partial",
    "Modbus.Props.C72_one_time_reported_partial",
    "Modbus.Props.C72_poll_reported_partial",
    "Modbus.Props.C72_shutdown_stops_partial",
    "Modbus.Props.C72_violated",
    "Modbus.Props.C72_sent_after_shutdown",
    "Modbus.Props.C72_unstopped_request"
   ],
   "note": "The full statement is false: session shutdown does not touch pending one-time requests (C72_violated), and a request scheduled while another thread shuts the session down may poll for ever (C72_unstopped_request). Proved: requests whose registration call precedes the shutdown call are stopped once the strand is empty, and are silent then under the conditions of C60; every call on the session and on its scheduled requests takes effect at its turn."
  },
  {
   "property": "C73",
   "status": "proved",
   "theorems": [
    "Modbus.Props.C73_at_most_once",
    "Modbus.Props.C73_all_stopped",
    "Modbus.Props.C73_destructor",
    "Modbus.Props.C73_threads",
    "Modbus.Props.C73_shutdown_works",
    "Modbus.Props.C73_creation_works",
    "Modbus.Props.C73_only_when_asked"
   ],
   "note": "Joining of threads is the thread pool's and not modelled."
  },
  {
   "property": "C74",
   "status": "proved",
   "theorems": [
    "Modbus.Props.C74_value",
    "Modbus.Props.C74_exception",
    "Modbus.Props.C74_lifetime",
    "Modbus.Props.C74_slicing_not_detected",
    "Modbus.Props.C74_slicing_detected",
    "Modbus.Props.C74_moved_from"
   ],
   "note": "For objects made from values, exceptions of their own class, non-null pointers, copies and moves. The check for slicing does not work for the library's own (non-polymorphic) classes; a moved-from exception must not be asked (C74_moved_from)."
  },
  {
   "property": "C75",
   "status": "partial",
   "theorems": [
    "Modbus.Props.C75_identifier_text_partial",
    "Modbus.Props.C75_identifiers_in_a_row_partial",
    "Modbus.Props.C75_violated",
    "Modbus.Props.C75_tid_ambiguous",
    "Modbus.Props.C75_showbase",
    "Modbus.Props.C75_leaves_format"
   ],
   "note": "The full statement is false on streams set to std::left (0x0A and 0xA0 look alike) or std::showbase. Proved for all other streams, new ones in particular."
  },
  {
   "property": "C76",
   "status": "proved",
   "theorems": [
    "Modbus.Props.C76_message_identifies",
    "Modbus.Props.C76_message_nonempty",
    "Modbus.Props.C76_message_names_code"
   ],
   "note": ""
  },
  {
   "property": "C77",
   "status": "partial",
   "theorems": [
    "Modbus.Props.C77_answers_are_genuine",
    "Modbus.Props.C77_own_answer_partial",
    "Modbus.Props.C77_violated",
    "Modbus.Props.C77_late_answer_taken"
   ],
   "note": "The full statement is false: transaction ids repeat after 65536 requests, and a late answer to a request that timed out is then given to the handler of another request (C77_violated). Proved unconditionally: the response is a registered session's result for a request of this client, sent on this connection to the same unit under the same transaction id. Proved if no request sent on the connection is 65536 or more requests older: it is the handler's own request."
  },
  {
   "property": "C78",
   "status": "proved",
   "theorems": [
    "Modbus.Props.C78_requests_arrive_in_order",
    "Modbus.Props.C78_calls_follow_messages",
    "Modbus.Props.C78_replies_arrive_in_order",
    "Modbus.Props.C78_state_is_replay"
   ],
   "note": "Network assumption: bytes of a connection arrive in order and unchanged or not at all (a TCP connection)."
  },
  {
   "property": "C79",
   "status": "proved",
   "theorems": [
    "Modbus.Props.C79_no_request_lost"
   ],
   "note": "Network assumption as in C78."
  },
  {
   "property": "C80",
   "status": "proved",
   "theorems": [
    "Modbus.Props.C80_delivery_answers_everything"
   ],
   "note": "There is a sequence of deliveries (and nothing else) after which all are answered. Network assumption as in C78."
  },
  {
   "property": "C81",
   "status": "proved",
   "theorems": [
    "Modbus.Props.C81_answered_at_one_moment",
    "Modbus.Props.C81_final_contents",
    "Modbus.Props.C81_later_sees_earlier",
    "Modbus.Props.C81_read_your_register",
    "Modbus.Props.C81_read_your_coil"
   ],
   "note": "Network assumption as in C78. The bound on the number of requests is part of the property (transaction ids repeat, see C77)."
  },
  {
   "property": "C82",
   "status": "partial",
   "theorems": [
    "Modbus.Props.C82_at_most_once_partial",
    "Modbus.Props.C82_violated",
    "Modbus.Props.C82_frame_sent_twice"
   ],
   "note": "The full statement is false: after two errors on one connection a left-over close cuts off the next attempt, and the frame of a later request is given to the network twice. Proved when attempts start after everything about the earlier connection is over."
  },
  {
   "property": "C83",
   "status": "partial",
   "theorems": [
    "Modbus.Props.C83_on_behalf_partial",
    "Modbus.Props.C83_violated",
    "Modbus.Props.C83_sent_after_timeout"
   ],
   "note": "The full statement is false: a request that ran into its timeout while the connection was being established is sent afterwards. Proved (attempts starting after everything about the earlier connection is over): the request is waiting or was reported as timed out."
  },
  {
   "property": "C84",
   "status": "partial",
   "theorems": [
    "Modbus.Props.C84_loss_reported_partial",
    "Modbus.Props.C84_violated",
    "Modbus.Props.C84_eof_not_reported"
   ],
   "note": "The full statement is false: an orderly close by the server is not told to the channel. Proved, in every history, for all other ways a connection or an attempt can end."
  },
  {
   "property": "C85",
   "status": "partial",
   "theorems": [
    "Modbus.Props.C85_memory_safe_partial",
    "Modbus.Props.C85_only_writes_partial",
    "Modbus.Props.C85_violated"
   ],
   "note": "The full statement is false: a request handed over while another is being written frees the memory in use. Proved if requests are handed over only while nothing is being written; in every history only completions of writes can be undefined."
  },
  {
   "property": "C86",
   "status": "partial",
   "theorems": [
    "Modbus.Props.C86_first_answer_partial",
    "Modbus.Props.C86_answers_partial",
    "Modbus.Props.C86_violated"
   ],
   "note": "The full statement is false: the beginning of an answer cut off by an orderly close swallows the first answer on the next connection. Proved when connections end by errors only and attempts start after left-over events are over."
  },
  {
   "property": "C87",
   "status": "partial",
   "theorems": [
    "Modbus.Props.C87_reconnects_partial",
    "Modbus.Props.C87_violated",
    "Modbus.Props.C87_dead_forever"
   ],
   "note": "The full statement is false: after one failure to resolve the server's name no connection is ever attempted again (C87_dead_forever). Proved without failures to resolve and of the local socket."
  },
  {
   "property": "C88",
   "status": "partial",
   "theorems": [
    "Modbus.Props.C88_exchange_partial",
    "Modbus.Props.C88_next_exchange_partial",
    "Modbus.Props.C88_violated"
   ],
   "note": "False for the same reasons as C86 and C87; proved for all histories without these causes."
  },
  {
   "property": "C89",
   "status": "partial",
   "theorems": [
    "Modbus.Props.C89_shutdown_partial",
    "Modbus.Props.C89_violated"
   ],
   "note": "The full statement is false: a connect handler queued before the connection's own shutdown task still sends the request. Proved: nothing new is handed over, and nothing is sent after that task (see C92)."
  },
  {
   "property": "C90",
   "status": "partial",
   "theorems": [
    "Modbus.Props.C90_answers_transmitted_partial",
    "Modbus.Props.C90_violated"
   ],
   "note": "The full statement is false: the rest of a packet received earlier can answer a request sent while the packet is processed. Proved (attempts starting after everything about the earlier connection is over): the answered request had been given to the network on the connection the bytes came from."
  },
  {
   "property": "C91",
   "status": "proved",
   "theorems": [
    "Modbus.Props.C91_in_order"
   ],
   "note": "In every history."
  },
  {
   "property": "C92",
   "status": "proved",
   "theorems": [
    "Modbus.Props.C92_winds_down",
    "Modbus.Props.C92_shutdown_queued"
   ],
   "note": "In every history."
  },
  {
   "property": "C93",
   "status": "partial",
   "theorems": [
    "Modbus.Props.C93_defined_partial",
    "Modbus.Props.C93_receiving_partial",
    "Modbus.Props.C93_violated",
    "Modbus.Props.C93_pipelining_client",
    "Modbus.Props.C93_front_of_empty"
   ],
   "note": "The full statement is false: a client sending two requests at once makes the server free the first answer while it is being written; started three times, the server may take the first element of an empty list. Proved for a single start, whole writes and clients waiting for answers; in every history everything but completed writes and accepted connections is defined."
  },
  {
   "property": "C94",
   "status": "partial",
   "theorems": [
    "Modbus.Props.C94_asked_by_frames_partial",
    "Modbus.Props.C94_violated",
    "Modbus.Props.C94_body_taken_for_frame"
   ],
   "note": "The full statement is false: after a failed write the parser starts afresh on data already read, so that the body of a frame is taken for a frame. Proved for connections without errors so far and frames of legal size; that the request is the content of a message taken from a connection is proved always."
  },
  {
   "property": "C95",
   "status": "proved",
   "theorems": [
    "Modbus.Props.C95_own_answers"
   ],
   "note": "In every history."
  },
  {
   "property": "C96",
   "status": "partial",
   "theorems": [
    "Modbus.Props.C96_whole_answers_partial",
    "Modbus.Props.C96_violated",
    "Modbus.Props.C96_torn_answer"
   ],
   "note": "The full statement is false: the rest of an answer of which the network took only a part is never sent, and the next answer follows. Proved for every connection whose own client waits for answers and whose writes are whole, whatever the other connections do."
  },
  {
   "property": "C97",
   "status": "partial",
   "theorems": [
    "Modbus.Props.C97_all_closed_partial",
    "Modbus.Props.C97_nothing_served",
    "Modbus.Props.C97_shutdown_takes_effect",
    "Modbus.Props.C97_shutdown_closes_partial",
    "Modbus.Props.C97_violated",
    "Modbus.Props.C97_never_closed"
   ],
   "note": "The full statement is false: started twice, the server can lose track of a connection and never close it. That nothing is served after shutdown is proved in every history; that all is closed and over, for a single start and limits below 2^32-1."
  },
  {
   "property": "C98",
   "status": "proved",
   "theorems": [
    "Modbus.Props.C98_answered"
   ],
   "note": "In every history. Frames of length 1 just before are excluded (C19)."
  },
  {
   "property": "C99",
   "status": "proved",
   "theorems": [
    "Modbus.Props.C99_connections_independent"
   ],
   "note": "In every history; `Concerns` lists the steps that are about the connection: completions of its operations and running its own handlers."
  },
  {
   "property": "C100",
   "status": "partial",
   "theorems": [
    "Modbus.Props.C100_genuine_partial",
    "Modbus.Props.C100_violated",
    "Modbus.Props.C100_tail_of_a_frame"
   ],
   "note": "The full statement is false: when a write fails the parser is reset while the connection is still taken to be up, and the tail of a frame that had already arrived is taken for the answer to the next request. Proved when attempts start after everything about the earlier connection is over, connections end by errors only and nothing is received on a connection after an error on it."
  },
  {
   "property": "C101",
   "status": "partial",
   "theorems": [
    "Modbus.Props.C101_answers_are_genuine_partial",
    "Modbus.Props.C101_own_answer_partial",
    "Modbus.Props.C101_violated",
    "Modbus.Props.C101_spelled"
   ],
   "note": "The full statement is false: the tail of an answer can be taken for the answer to a later request after a failed write (C100 seen end to end), so that a request the server never got is reported successful (C101_violated). Proved for clients whose connections are calm (attempts started after everything about the earlier connection is over, one whole write at a time at both ends, ends by errors only, nothing received on a connection after an error on it), whatever other clients do; for the handler's own request if no request sent on the connection is 65536 or more requests older. The network is assumed to be TCP-like."
  },
  {
   "property": "C102",
   "status": "partial",
   "theorems": [
    "Modbus.Props.C102_at_most_once_partial",
    "Modbus.Props.C102_one_call_for_one_message_partial",
    "Modbus.Props.C102_violated",
    "Modbus.Props.C102_executed_twice"
   ],
   "note": "The full statement is false (consequence of C82): a session is asked twice to carry out one request. Proved for clients that send calmly (the part of calmness in C101 that concerns sending), over all their connections; one call for one message is proved for every history."
  },
  {
   "property": "C103",
   "status": "partial",
   "theorems": [
    "Modbus.Props.C103_only_what_was_asked_partial",
    "Modbus.Props.C103_violated",
    "Modbus.Props.C103_half_a_request"
   ],
   "note": "The full statement is false: when the network takes only part of a request, the rest is never sent, and the beginning of the next request completes it to a request nobody made. Proved for messages from clients that send calmly (as in C102), whatever others do."
  },
  {
   "property": "C104",
   "status": "partial",
   "theorems": [
    "Modbus.Props.C104_real_time_order_partial",
    "Modbus.Props.C104_violated",
    "Modbus.Props.C104_spelled"
   ],
   "note": "The full statement is false for the same reason as C101. Proved for two calm clients (possibly the same one) as long as transaction ids on the connections do not repeat."
  },
  {
   "property": "C105",
   "status": "partial",
   "theorems": [
    "Modbus.Props.C105_in_order_on_one_connection_partial",
    "Modbus.Props.C105_violated",
    "Modbus.Props.C105_overtaken"
   ],
   "note": "The full statement is false even for calm clients: a request given up by the client may still be taken from an old connection after a later request was executed and confirmed on a new one; an old write then overwrites a newer, confirmed one. Proved for each connection by itself, for clients that send calmly (as in C102)."
  },
  {
   "property": "C106",
   "status": "partial",
   "theorems": [
    "Modbus.Props.C106_exchange_partial",
    "Modbus.Props.C106_violated"
   ],
   "note": "The full statement is false: after one failure to resolve the server's name a client never transmits anything again (consequence of C87). Proved, with an explicit schedule in which all tasks run in the order in which they were queued, for clients whose local socket never failed, whose name resolutions succeeded, and whose connections ended by errors only with nothing left over."
  },
  {
   "property": "C107",
   "status": "proved",
   "theorems": [
    "Modbus.Props.C107_conversation"
   ],
   "note": "In every history of all clients and the server, from every state in which the connection is established, both ends have received whole messages only and nothing is in transit; such states are reached by C106_exchange_partial, and the theorem ends in such a state again."
  },
  {
   "property": "C108",
   "status": "partial",
   "theorems": [
    "Modbus.Props.C108_conversation_partial",
    "Modbus.Props.C108_violated"
   ],
   "note": "The full statement is false for the same reason as C106. Proved under the assumptions on the client's history of C106."
  },
  {
   "property": "C109",
   "status": "partial",
   "theorems": [
    "Modbus.Props.C109_contents",
    "Modbus.Props.C109_answered_at_one_moment_partial",
    "Modbus.Props.C109_later_sees_earlier_partial",
    "Modbus.Props.C109_violated",
    "Modbus.Props.C109_spelled"
   ],
   "note": "The statement about responses is false for the same reason as C101; it is proved for calm clients as long as transaction ids on the connection do not repeat. The statement about the database's contents is proved for every history."
  },
  {
   "property": "C110",
   "status": "partial",
   "theorems": [
    "Modbus.Props.C110_read_what_was_written_partial",
    "Modbus.Props.C110_read_coil_partial",
    "Modbus.Props.C110_violated"
   ],
   "note": "The full statement is false: a client can be told that its write succeeded although the server never got it (C110_violated). Proved for two calm clients (possibly the same one) as long as transaction ids on their connections do not repeat."
  },
  {
   "property": "C111",
   "status": "proved",
   "theorems": [
    "Modbus.Props.C111_poll_is_request",
    "Modbus.Props.C111_own_results_only",
    "Modbus.Props.C111_all_results",
    "Modbus.Props.C111_identities",
    "Modbus.Props.C111_sessions_open",
    "Modbus.Props.C111_one_time_sent",
    "Modbus.Props.C111_calls_accepted",
    "Modbus.Props.C111_calls_are_heard",
    "Modbus.Props.C111_scheduled_is_polled",
    "Modbus.Props.C111_causes"
   ],
   "note": "In every history of the composed client (channel, sessions, scheduled requests); calls on sessions and requests are accepted and take effect in turn, and nothing is started, stopped or given another polling time without such a call (C111_causes)."
  },
  {
   "property": "C112",
   "status": "proved",
   "theorems": [
    "Modbus.Props.C112_polls_for_ever",
    "Modbus.Props.C112_unless_told"
   ],
   "note": "C112_unless_told: unless the user calls stop on the request or shutdown on its session or the channel. Under fairness of the executor and as long as the channel is not shut down and the request not stopped; that such executions exist for every such history is fair_execution_exists."
  },
  {
   "property": "C113",
   "status": "partial",
   "theorems": [
    "Modbus.Props.C113_bounded_partial",
    "Modbus.Props.C113_one_at_a_time_partial",
    "Modbus.Props.C113_not_restarted_partial",
    "Modbus.Props.C113_violated"
   ],
   "note": "The full statement (never more than one) is false: stop and start with a poll outstanding give a second one. Proved: at most as many as starts took effect; at most one if the request has not been stopped; at most one if the user has not called start."
  },
  {
   "property": "C114",
   "status": "partial",
   "theorems": [
    "Modbus.Props.C114_nothing_sent",
    "Modbus.Props.C114_polling_ends_partial",
    "Modbus.Props.C114_silent_afterwards",
    "Modbus.Props.C114_session_ends_partial",
    "Modbus.Props.C114_violated",
    "Modbus.Props.C114_race"
   ],
   "note": "That nothing is sent any more is proved in general. That every scheduled request is off afterwards is false (C114_violated, C114_race); it is proved for requests whose registration was asked for before, on sessions not shut down before."
  },
  {
   "property": "C115",
   "status": "partial",
   "theorems": [
    "Modbus.Props.C115_polling_time_partial",
    "Modbus.Props.C115_on_the_wire_partial",
    "Modbus.Props.C115_not_restarted_partial",
    "Modbus.Props.C115_violated"
   ],
   "note": "The full statement is false (two polling loops after stop and start). Proved for requests that have not been stopped, and for requests on which the user has not called start."
  },
  {
   "property": "C116",
   "status": "proved",
   "theorems": [
    "Modbus.Props.C116_bounded_work",
    "Modbus.Props.C116_comes_to_rest"
   ],
   "note": "Bounded work in every history without further user calls; rest is reached in every fair execution (quiet_execution_exists shows that every history can be continued to one)."
  },
  {
   "property": "C117",
   "status": "partial",
   "theorems": [
    "Modbus.Props.C117_released_partial",
    "Modbus.Props.C117_released_in_time_partial",
    "Modbus.Props.C117_polling_kept",
    "Modbus.Props.C117_in_flight_kept",
    "Modbus.Props.C117_sessions_kept",
    "Modbus.Props.C117_violated"
   ],
   "note": "The full statement is false: a request scheduled on a session after the channel's shutdown is registered there and never taken out (a cycle of references). Proved if no scheduled request is registered after the shutdown has taken effect, also in time (fair executions). Sessions are kept until the channel is shut down, even if shut down themselves (C117_sessions_kept)."
  },
  {
   "property": "C118",
   "status": "partial",
   "theorems": [
    "Modbus.Props.C118_races_partial",
    "Modbus.Props.C118_disciplined_partial",
    "Modbus.Props.C118_violated",
    "Modbus.Props.C118_races_real"
   ],
   "note": "The full statement is false. Proved: every race involves one of six functions (create_session, send_request, get_frequency, is_running, server start and add_session) called off the channel's strand, each of them does race (C118_races_real), and users who keep the rules of Disciplined have no races."
  },
  {
   "property": "C119",
   "status": "partial",
   "theorems": [
    "Modbus.Props.C119_no_garbage",
    "Modbus.Props.C119_closed_released",
    "Modbus.Props.C119_sessions_released",
    "Modbus.Props.C119_bounded_partial",
    "Modbus.Props.C119_released_partial",
    "Modbus.Props.C119_served_kept_partial",
    "Modbus.Props.C119_violated"
   ],
   "note": "There are no cycles of references (C119_no_garbage), closed connections and the sessions of a channel that has been shut down are released in every history. The bound and the release of all connections after shutdown are false if the channel is started twice (C119_violated: a connection the server has lost track of); they are proved for channels started once whose limit is not 2^32-1."
  },
  {
   "property": "C120",
   "status": "partial",
   "theorems": [
    "Modbus.Props.C120_polled_values_partial",
    "Modbus.Props.C120_violated"
   ],
   "note": "The full statement is false, as for C101 (bytes of an older answer are taken for the answer of a later request). Proved for calm clients (CalmPolling: no connection attempt while an earlier connection is still about, connections end by errors, writes are complete) as long as the transaction ids used on one connection do not repeat."
  },
  {
   "property": "C121",
   "status": "partial",
   "theorems": [
    "Modbus.Props.C121_polls_see_writes_partial",
    "Modbus.Props.C121_polls_see_coils_partial",
    "Modbus.Props.C121_violated"
   ],
   "note": "The full statement is false for the same reason as C110. Proved for holding registers and coils if both clients are calm and the transaction ids on their connections do not repeat."
  },
  {
   "property": "C122",
   "status": "proved",
   "theorems": [
    "Modbus.Props.C122_client_level",
    "Modbus.Props.C122_server_level",
    "Modbus.Props.C122_client_shows",
    "Modbus.Props.C122_server_shows",
    "Modbus.Props.C122_client_printed",
    "Modbus.Props.C122_server_printed"
   ],
   "note": "For every history of loggers, managers, channels and lines, under the stated assumptions about spdlog (DESIGN.md section 3). Sinks with a level of their own are outside the model."
  },
  {
   "property": "C123",
   "status": "partial",
   "theorems": [
    "Modbus.Props.C123_level_partial",
    "Modbus.Props.C123_level_ignored",
    "Modbus.Props.C123_violated"
   ],
   "note": "The full statement is false: the level of the logger given to the manager has no effect at all (C123_level_ignored); each channel has the level it is created with, Info if none is given. Proved if no channel is created with a level below that of the logger."
  },
  {
   "property": "C124",
   "status": "proved",
   "theorems": [
    "Modbus.Props.C124_log_is_truthful",
    "Modbus.Props.C124_lines_match_effects"
   ],
   "note": "For the lines of ClientChannelTcp; the lines of the connection are not related to its effects."
  },
  {
   "property": "C125",
   "status": "proved",
   "theorems": [
    "Modbus.Props.C125_no_silent_message",
    "Modbus.Props.C125_message_is_handled",
    "Modbus.Props.C125_warning_has_a_message",
    "Modbus.Props.C125_unknown_unit"
   ],
   "note": "For the lines of ServerChannelTcp; the lines of the connections are not related to their effects."
  },
  {
   "property": "C126",
   "status": "proved",
   "theorems": [
    "Modbus.Props.C126_once_and_on_time",
    "Modbus.Props.C126_cancelled",
    "Modbus.Props.C126_called",
    "Modbus.Props.C126_delay",
    "Modbus.Props.C126_prompt",
    "Modbus.Props.C126_in_time",
    "Modbus.Props.C126_total"
   ],
   "note": "C126_called is for fair executions; ufair_execution_exists shows that every history without shutdown and cancellation can be continued to one (usched_fair for any history)."
  },
  {
   "property": "C127",
   "status": "partial",
   "theorems": [
    "Modbus.Props.C127_requests_partial",
    "Modbus.Props.C127_timers_partial",
    "Modbus.Props.C127_takes_effect",
    "Modbus.Props.C127_violated"
   ],
   "note": "The full statement is false: timers of the user are called after shutdown, and so are the handlers of invalid requests. Proved: nothing is sent, requests made afterwards are dropped, the only handlers called are those of invalid requests made before the shutdown, and no action is called if every timer has been called or cancelled in time."
  },
  {
   "property": "C128",
   "status": "proved",
   "theorems": [
    "Modbus.Props.C128_polls_for_ever",
    "Modbus.Props.C128_one_at_a_time",
    "Modbus.Props.C128_period"
   ],
   "note": "Going on for ever: in fair executions without shutdown and without cancelling the loop's timers. The other two: for histories in which the loop is started once."
  },
  {
   "property": "C129",
   "status": "proved",
   "theorems": [
    "Modbus.Props.C129_own_handler",
    "Modbus.Props.C129_answered",
    "Modbus.Props.C129_runs_through"
   ],
   "note": "C129_answered: in fair executions in which the channel is not shut down. C129_runs_through leaves out calls by other threads in the meantime, which would mix with the calls of the function in the log."
  },
  {
   "property": "C130",
   "status": "partial",
   "theorems": [
    "Modbus.Props.C130_violated",
    "Modbus.Props.C130_server_partial",
    "Modbus.Props.C130_client_partial",
    "Modbus.Props.C130_request_answered_partial"
   ],
   "note": "C130_violated: a client whose connection attempts overlap (a read and a write both fail, and a request is made between the two closings) can have two reads in progress into the same buffer. C130_server_partial: holds for servers. C130_client_partial: holds for clients whose attempts do not overlap and that have no local failures. C130_request_answered_partial: C98 without the hypothesis that a read is in progress."
  },
  {
   "property": "C131",
   "status": "proved",
   "theorems": [
    "Modbus.Props.C131_client_lines",
    "Modbus.Props.C131_client_state_lines",
    "Modbus.Props.C131_client_eof_line",
    "Modbus.Props.C131_server_lines"
   ],
   "note": "Texts of the lines and the numbers in the lines about bytes sent are outside the model. The lines of a server do not say which connection they are about."
  },
  {
   "property": "C132",
   "status": "partial",
   "theorems": [
    "Modbus.Props.C132_violated",
    "Modbus.Props.C132_called_twice",
    "Modbus.Props.C132_others_called_twice",
    "Modbus.Props.C132_deaf",
    "Modbus.Props.C132_silent",
    "Modbus.Props.C132_no_exception_partial",
    "Modbus.Props.C132_requests_partial",
    "Modbus.Props.C132_calls_partial",
    "Modbus.Props.C132_recovers_partial"
   ],
   "note": "The full statement is false. C132_deaf: after an exception while received data are processed nothing is sent and no handler of an allowed request is called until the connection fails, whatever happens. C132_silent: the same after an exception on a timeout, until something is received or the connection fails. Proved: without exceptions nothing changes; requests are sent in order, at most once and one at a time; a handler is called at most once more than exceptions were thrown; after a connection error during which no handler throws the channel works again."
  },
  {
   "property": "C133",
   "status": "partial",
   "theorems": [
    "Modbus.Props.C133_violated",
    "Modbus.Props.C133_accepting_partial",
    "Modbus.Props.C133_ready_partial",
    "Modbus.Props.C133_client_served_partial"
   ],
   "note": "The full statement is false: a failing accept ends the accept loop for good (C70). Proved as long as no accept fails; waiting for the next client and serving it moreover if start was called once and the limit is not 2^32-1."
  },
  {
   "property": "C134",
   "status": "partial",
   "theorems": [
    "Modbus.Props.C134_violated",
    "Modbus.Props.C134_told_wrong",
    "Modbus.Props.C134_defined",
    "Modbus.Props.C134_exception",
    "Modbus.Props.C134_deaf",
    "Modbus.Props.C134_only_by_exception",
    "Modbus.Props.C134_as_if_partial",
    "Modbus.Props.C134_replies",
    "Modbus.Props.C134_others_partial",
    "Modbus.Props.C134_served_partial",
    "Modbus.Props.C134_no_exception_partial",
    "Modbus.Props.C134_told_partial",
    "Modbus.Props.C134_after_shutdown"
   ],
   "note": "The full statement is false: after an exception from on_request the connection is never read again, and an exception from shutdown keeps other sessions from being told (or has them told twice). Proved: exactly these are the consequences. C134_as_if_partial reduces everything else to sessions that fail instead of throwing, on connections whose data end at the exception. Assumed: the executor drops the task that threw and goes on."
  },
  {
   "property": "C135",
   "status": "partial",
   "theorems": [
    "Modbus.Props.C135_violated",
    "Modbus.Props.C135_dead",
    "Modbus.Props.C135_restarted",
    "Modbus.Props.C135_as_if_partial",
    "Modbus.Props.C135_only_by_exception",
    "Modbus.Props.C135_handled_once",
    "Modbus.Props.C135_one_per_start",
    "Modbus.Props.C135_polling_time_partial",
    "Modbus.Props.C135_stop_stops_partial"
   ],
   "note": "The full statement is false: after an exception nothing is polled any more although the request goes on running (C135_dead: until a stop takes effect, whatever happens; start does nothing), and C135_restarted: stop and start bring it back. C135_only_by_exception: nothing but an exception has this effect. C135_handled_once holds without conditions; the polling time and stop as in C58 to C60, in orderly histories (their defects do not come from exceptions). Assumed: the executor drops the task that threw and goes on."
  },
  {
   "property": "C136",
   "status": "partial",
   "theorems": [
    "Modbus.Props.C136_violated",
    "Modbus.Props.C136_serialised_partial",
    "Modbus.Props.C136_undone_partial",
    "Modbus.Props.C136_no_deadlock"
   ],
   "note": "The full statement is false: what a transaction did before it threw stays. Proved: everything else (the mutex is released, the exception reaches the caller, executions are serial with each transaction carried out up to its exception, no deadlock), and the full statement for transactions that throw before they change anything."
  },
  {
   "property": "C137",
   "status": "partial",
   "theorems": [
    "Modbus.Props.C137_violated",
    "Modbus.Props.C137_defined_partial",
    "Modbus.Props.C137_exactly"
   ],
   "note": "The full statement is false: every function of the database locks the mutex the transaction holds. C137_exactly: for one transaction, undefined if and only if it comes to such a call. C137_defined_partial: no execution is undefined if no transaction makes such calls."
  },
  {
   "property": "C138",
   "status": "partial",
   "theorems": [
    "Modbus.Props.C138_violated",
    "Modbus.Props.C138_served_client_evicted",
    "Modbus.Props.C138_never_read_again",
    "Modbus.Props.C138_others_read_partial",
    "Modbus.Props.C138_others_heard_partial",
    "Modbus.Props.C138_limit_partial",
    "Modbus.Props.C138_evicts_oldest_partial",
    "Modbus.Props.C138_count_partial",
    "Modbus.Props.C138_accepting_partial",
    "Modbus.Props.C138_removed_once",
    "Modbus.Props.C138_all_closed_partial",
    "Modbus.Props.C138_messages_partial",
    "Modbus.Props.C138_replies",
    "Modbus.Props.C138_others_answered_partial",
    "Modbus.Props.C138_exception"
   ],
   "note": "The full statement is false: after an exception from on_request nobody reads the connection, for ever (C138_never_read_again), and it keeps its place: with the limit reached, a client that is being served is closed in its stead (C138_served_client_evicted). Proved whatever sessions throw: all other connections are read, heard and answered, what reaches the channel is what was received and what is sent are replies to it; what exactly an exception does (C138_exception); and the limit, the eviction of the oldest, the count, accepting and closing, under the conditions of C68 to C71 and C97."
  },
  {
   "property": "C139",
   "status": "partial",
   "theorems": [
    "Modbus.Props.C139_violated",
    "Modbus.Props.C139_shutdown_called",
    "Modbus.Props.C139_reason_partial",
    "Modbus.Props.C139_counted",
    "Modbus.Props.C139_stays_partial",
    "Modbus.Props.C139_throwing_partial"
   ],
   "note": "The full statement is false: when start is called twice, failing accepts wrap the counter around (C69), and the only client of a server that allows five is sent away. Proved: the full statement if start is called only once; however often it is called, the same with what the server counts instead of the number of connections (C139_counted); C139_stays_partial: with C130, a connected client stays connected and is read; C139_throwing_partial: exceptions of sessions end no connection."
  },
  {
   "property": "C140",
   "status": "partial",
   "theorems": [
    "Modbus.Props.C140_violated",
    "Modbus.Props.C140_reason_partial",
    "Modbus.Props.C140_request_fails",
    "Modbus.Props.C140_no_failure",
    "Modbus.Props.C140_shutdown_called"
   ],
   "note": "The full statement is false: a read and a write that fail at once queue two closes, and the second closes the next attempt, of which nothing has failed (C65). C140_reason_partial: with attempts started only after everything about the earlier connections is over, every report, close and failed request has its reason. C140_no_failure, C140_request_fails and C140_shutdown_called hold for every history."
  },
  {
   "property": "C141",
   "status": "proved",
   "theorems": [
    "Modbus.Props.C141_accounting",
    "Modbus.Props.C141_exactly",
    "Modbus.Props.C141_cancelled",
    "Modbus.Props.C141_started",
    "Modbus.Props.C141_shutdown"
   ],
   "note": "Accounting over all histories of arbitrary user code: a permutation of the calls made (by other threads and by the functions begun) and what has been done or is still to be done by a running function. The times and identities of timers and the order of requests are the subject of C126-C128."
  },
  {
   "property": "C142",
   "status": "proved",
   "theorems": [
    "Modbus.Props.C142_created",
    "Modbus.Props.C142_identities",
    "Modbus.Props.C142_send",
    "Modbus.Props.C142_send_within",
    "Modbus.Props.C142_schedule",
    "Modbus.Props.C142_schedule_within",
    "Modbus.Props.C142_origin",
    "Modbus.Props.C142_wire",
    "Modbus.Props.C142_timeout",
    "Modbus.Props.C142_own_timeout"
   ],
   "note": "The public overloads of client sessions on top of the polling client. That a timeout may hit a request whose time is not up when a timer's callback runs late is C51; the clause about the request's own time has this condition in its statement."
  },
  {
   "property": "C143",
   "status": "proved",
   "theorems": [
    "Modbus.Props.C143_filled",
    "Modbus.Props.C143_flips",
    "Modbus.Props.C143_once_per_key",
    "Modbus.Props.C143_points",
    "Modbus.Props.C143_custom_coils",
    "Modbus.Props.C143_custom_refuses"
   ],
   "note": "The example program on the model of the database shared by threads (C41). The end of the standard input, after which the program reads a variable nothing was stored in, is not modelled (DESIGN.md, observations)."
  },
  {
   "property": "C144",
   "status": "proved",
   "theorems": [
    "Modbus.Props.C144_in_order",
    "Modbus.Props.C144_is_running",
    "Modbus.Props.C144_get_frequency",
    "Modbus.Props.C144_catches_up",
    "Modbus.Props.C144_up_to_date",
    "Modbus.Props.C144_yes_means_polling",
    "Modbus.Props.C144_no_means_silence"
   ],
   "note": "A question is taken to see the member as the strand last wrote it; without synchronisation by the user the read is a data race (C118)."
  },
  {
   "property": "C145",
   "status": "partial",
   "theorems": [
    "Modbus.Props.C145_violated",
    "Modbus.Props.C145_time_violated",
    "Modbus.Props.C145_keys_switch_partial"
   ],
   "note": "Violated: a key typed again before the strand has carried out the first call asks the old state and makes the same call again. Proved if each key is typed when the calls made before have been carried out."
  },
  {
   "property": "C146",
   "status": "proved",
   "theorems": [
    "Modbus.Props.C146_runs",
    "Modbus.Props.C146_keys_ask",
    "Modbus.Props.C146_one_schedule",
    "Modbus.Props.C146_other_calls",
    "Modbus.Props.C146_toggle",
    "Modbus.Props.C146_frequency",
    "Modbus.Props.C146_after_quit",
    "Modbus.Props.C146_only_these",
    "Modbus.Props.C146_wire"
   ],
   "note": "On the model of the interface of client sessions (C142). What the handlers print and the end of the standard input are not modelled."
  },
  {
   "property": "C147",
   "status": "partial",
   "theorems": [
    "Modbus.Props.C147_violated",
    "Modbus.Props.C147_executed_twice",
    "Modbus.Props.C147_at_most_once_partial",
    "Modbus.Props.C147_in_order_partial",
    "Modbus.Props.C147_not_more_than_polled_partial",
    "Modbus.Props.C147_one_call_for_one_message_partial"
   ],
   "note": "Violated: when a connection attempt is started while another one is in progress, the frame of a poll may go out twice (as in C82, C102). Proved for clients that send calmly (see C102)."
  },
  {
   "property": "C148",
   "status": "partial",
   "theorems": [
    "Modbus.Props.C148_violated",
    "Modbus.Props.C148_exactly_once_partial",
    "Modbus.Props.C148_polls_exactly_once_partial"
   ],
   "note": "Violated: bytes of an older answer may be taken for the answer to a request that was never executed (C101). Proved for calm clients with at most 65536 requests: transaction ids have 16 bits."
  },
  {
   "property": "C149",
   "status": "partial",
   "theorems": [
    "Modbus.Props.C149_violated",
    "Modbus.Props.C149_rate_partial",
    "Modbus.Props.C149_paced_partial"
   ],
   "note": "Violated at the server: one poll may be executed twice (C147). Proved for the server when the client sends calmly (see C102), and for the sending of polls by the client in all histories."
  }
 ]
}