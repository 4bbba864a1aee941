{"id": "C01", "title": "Request encode/decode round trip", "statement": "For each of the eight supported request types, if the client accepts a request as valid then the PDU it puts on the wire is decoded by the server into exactly the same request: same starting address, same quantity, same values in the same order.", "quantifier": "every request of every type whose quantity is in the allowed range, every address and every list of values", "why_tests_cant": "There are about 2^16 * 2^1968 distinct valid requests; tests only try a few fixed ones and boundary quantities.", "anchors": ["lib/src/messages/*RequestImpl.cpp: build_message, parse, is_valid"]}
{"id": "C02", "title": "Server accepts exactly the conformant requests", "statement": "The server accepts a PDU as a request of a given type if and only if it is the conformant encoding of a request in range (function code, exact length, quantity in range, byte count consistent, coil value 0xFF00/0x0000), and the decoded request is the one the bytes denote.", "quantifier": "every byte string of every length", "why_tests_cant": "An iff over all byte strings needs both directions; tests enumerate a few malformed samples.", "anchors": ["lib/src/messages/*RequestImpl.cpp: parse"]}
{"id": "C03", "title": "Exact classification of rejected requests", "statement": "A rejected request PDU yields a Modbus IllegalDataValue exception precisely when it is structurally sound up to a quantity / byte-count / coil-value field that is out of range, and a malformed-request error otherwise; no third kind of error is ever produced.", "quantifier": "every byte string of every length, every request type", "why_tests_cant": "The classification depends on the order of the checks for every combination of defects, which samples cannot cover.", "anchors": ["lib/src/messages/*RequestImpl.cpp: parse"]}
{"id": "C04", "title": "Only in-range requests are considered valid", "statement": "A request is reported valid exactly when its quantity is within the Modbus limits: 1..2000 bits to read, 1..125 registers to read, 1..1968 coils to write, 1..123 registers to write; single writes are always valid.", "quantifier": "every request of every type", "why_tests_cant": "Universally quantified over all quantities and value lists, including lists longer than 65535.", "anchors": ["lib/src/messages/*RequestImpl.cpp: is_valid"]}
{"id": "C05", "title": "Request bytes conform to the Modbus application protocol and fit a PDU", "statement": "The PDU of every valid request is byte for byte what the Modbus application protocol prescribes (big endian fields, LSB-first coil packing, zero padding bits) and is at most 253 bytes long; its announced length equals the number of bytes written.", "quantifier": "every valid request of every type", "why_tests_cant": "Byte-level layout for every list of values cannot be enumerated.", "anchors": ["lib/src/messages/*RequestImpl.cpp: get_message_length, build_message"]}
{"id": "C06", "title": "Response encode/decode round trip", "statement": "If a server session answers a request with a response having as many values as requested (and within protocol limits), then decoding the server's encoding on the client gives back the same values in order; for reads they are labelled with consecutive addresses from the requested starting address; for writes the echoed fields are preserved.", "quantifier": "every valid request and every matching response of every type", "why_tests_cant": "The space of value vectors is astronomically large.", "anchors": ["lib/src/messages/*ResponseImpl.cpp: build_message, parse"]}
{"id": "C07", "title": "Bit responses are accepted only when well formed", "statement": "The client reports success for a read coils / discrete inputs exchange if and only if the PDU is the expected function code, a byte count equal to ceil(qty/8), and exactly that many bytes; the i-th reported value is bit i (LSB first) of the payload.", "quantifier": "every byte string and every requested quantity", "why_tests_cant": "Iff over all byte strings.", "anchors": ["lib/src/messages/ReadBitsResponseImpl.cpp: parse"]}
{"id": "C08", "title": "Register responses are accepted only when well formed", "statement": "The client reports success for a read registers exchange if and only if the PDU is the expected function code, a byte count equal to 2*qty, and exactly that many bytes; the i-th value is the i-th big-endian word.", "quantifier": "every byte string and every requested quantity", "why_tests_cant": "Iff over all byte strings: it needs the absence of any accepted malformed PDU.", "anchors": ["lib/src/messages/ReadRegistersResponseImpl.cpp: parse"]}
{"id": "C09", "title": "Exception responses are recognised exactly", "statement": "A response PDU is reported to the client as a Modbus exception if and only if it consists of exactly two bytes, the request's function code with the top bit set and an exception code; the reported exception type is the one the Modbus specification assigns to that code, or Unknown for unassigned codes.", "quantifier": "every byte string and every request type", "why_tests_cant": "Iff over all byte strings.", "anchors": ["lib/src/messages/IMessage.cpp: parse_function_code", "lib/src/messages/ExceptionType.cpp: parse_exception_type"]}
{"id": "C10", "title": "Exception codes survive the wire", "statement": "If a server session answers with a Modbus exception of some type, the client's handler receives a Modbus exception of the same type.", "quantifier": "every exception type and every request type", "why_tests_cant": "Tests check the encoder's and the decoder's tables separately, each against itself; only the composition shows whether they agree.", "anchors": ["lib/include/modbus/messages/ExceptionType.h", "lib/src/messages/ExceptionType.cpp", "lib/src/messages/ExceptionResponse.cpp"]}
{"id": "C11", "title": "Decoding untrusted bytes is total and memory safe", "statement": "Decoding any received byte string as any request or as the response to any request terminates with a value or a classified error and never reads past the received bytes or uses an uninitialised variable.", "quantifier": "every byte string, every message type, every outstanding request", "why_tests_cant": "Absence of undefined behaviour for all inputs cannot be shown by sampling.", "anchors": ["lib/src/messages/*Impl.cpp: parse"]}
{"id": "C12", "title": "Write acknowledgements must echo the request", "statement": "The client reports a write as successful only if the response echoes the address and value (or quantity) of the request.", "quantifier": "every write request and every response PDU", "why_tests_cant": "It is a statement about all non-matching responses.", "anchors": ["lib/src/messages/WriteSingleCoilResponseImpl.cpp", "lib/src/messages/WriteSingleRegisterResponseImpl.cpp", "lib/src/messages/WriteMultipleCoilsResponseImpl.cpp", "lib/src/messages/WriteMultipleRegistersResponseImpl.cpp"]}
{"id": "C13", "title": "A malformed or foreign response is never reported as data", "statement": "Whatever bytes are received, the client's result for a request is exactly one of: a decoded value whose first byte was the request's function code, a Modbus exception whose first byte was the function code with the top bit set, or a malformed-response error; in particular a response for another function code is always malformed-response.", "quantifier": "every byte string, every request type", "why_tests_cant": "Universally quantified over all byte strings.", "anchors": ["lib/src/messages/*ResponseImpl.cpp: parse", "lib/src/messages/IMessage.cpp"]}
{"id": "C14", "title": "MBAP frame layout", "statement": "Every frame produced for a message consists of the transaction id, protocol id 0, a length field equal to the number of bytes that follow it, the unit id and the PDU; it is never longer than 260 bytes, and its length field always matches its real length even when a session supplied an oversized response.", "quantifier": "every unit id, transaction id, message and every prior content of the output buffer", "why_tests_cant": "All messages, including oversized ones and any leftover memory content.", "anchors": ["lib/src/messages/mbap/MbapMessage.cpp: build_message"]}
{"id": "C15", "title": "Stream framing round trip under any segmentation", "statement": "If a peer sends any sequence of frames with PDUs of 1..253 bytes, then however TCP splits the byte stream into reads, the receiver hands over exactly those messages (unit id, transaction id, PDU), in order, each exactly once.", "quantifier": "every list of messages and every way of cutting the concatenated bytes into chunks", "why_tests_cant": "The number of segmentations is exponential in the stream length.", "anchors": ["lib/src/messages/mbap/MbapParser.cpp: parse"]}
{"id": "C16", "title": "Segmentation never matters", "statement": "Feeding the receiver a byte stream in pieces has the same observable outcome as feeding it at once, for arbitrary (even hostile) bytes.", "quantifier": "every byte stream, every segmentation, every parser state reached so far", "why_tests_cant": "Exponential number of segmentations of arbitrary streams.", "anchors": ["lib/src/messages/mbap/MbapParser.cpp: parse"]}
{"id": "C17", "title": "Foreign and empty-header frames are skipped without losing synchronisation", "statement": "Frames with a non-zero protocol id or a zero length field produce no message and do not affect the delivery of the frames before and after them.", "quantifier": "every position and content of such frames in every stream and segmentation", "why_tests_cant": "Interaction of skipped frames with arbitrary neighbours and segmentations.", "anchors": ["lib/src/messages/mbap/MbapParser.cpp: find_body_size, send_data"]}
{"id": "C18", "title": "Delivered bytes come from the frame itself", "statement": "Every byte of a delivered PDU was received as part of that very frame (no bytes of earlier frames or uninitialised memory are ever handed over).", "quantifier": "every byte stream and segmentation, including frames announcing more than 253 PDU bytes", "why_tests_cant": "A confidentiality style property over all streams.", "anchors": ["lib/src/messages/mbap/MbapParser.cpp: parse, send_data"]}
{"id": "C19", "title": "A complete frame is delivered immediately", "statement": "As soon as the last byte of a frame has been received the message is delivered, without waiting for further bytes; and never before that byte.", "quantifier": "every frame, every prefix of the stream", "why_tests_cant": "Statement about all prefixes of all streams.", "anchors": ["lib/src/messages/mbap/MbapParser.cpp: parse"]}
{"id": "C20", "title": "Reset forgets partial data", "statement": "After a reset, the receiver behaves for all future (conformant) input exactly as a newly created one, whatever was received before.", "quantifier": "every history before the reset and every stream after it", "why_tests_cant": "All histories times all futures.", "anchors": ["lib/src/messages/mbap/MbapParser.cpp: reset"]}
{"id": "C21", "title": "Receiver memory safety", "statement": "Whatever bytes are received in whatever segmentation, the receiver never writes outside its 260-byte buffer, never delivers more than 253 PDU bytes, and always terminates.", "quantifier": "every byte stream and segmentation", "why_tests_cant": "Absence of out-of-bounds writes on all hostile inputs.", "anchors": ["lib/src/messages/mbap/MbapParser.cpp", "lib/src/messages/mbap/MbapParser.h"]}
{"id": "C22", "title": "Responses carry the identifiers of their request and go to the asking connection", "statement": "Every frame the server channel sends in reaction to a request carries that request's transaction id and unit id and is sent on the connection the request came from.", "quantifier": "every history of server operations, every request frame, every session behaviour", "why_tests_cant": "Arbitrary session code and arbitrary request bytes.", "anchors": ["lib/src/server/channel/ServerChannelTcp.cpp: on_mbap, process_message, send_message"]}
{"id": "C23", "title": "At most one response per request, in request order", "statement": "For every sequence of frames received on a connection (also pipelined in one read), the server sends at most one response per frame and the responses are in the order of the requests.", "quantifier": "every stream of frames, segmentation and session behaviour", "why_tests_cant": "All sequences of requests.", "anchors": ["lib/src/server/channel/ServerChannelTcp.cpp: on_mbap", "lib/src/server/channel/ServerConnectionListener.cpp"]}
{"id": "C24", "title": "A well-formed request reaches the session and its answer reaches the wire", "statement": "A conformant request addressed to a registered unit of a running channel causes exactly one call of that unit's session with exactly that request, and if the session returns a response, exactly that response's encoding is sent.", "quantifier": "every request, session, channel state", "why_tests_cant": "Arbitrary session code, all requests.", "anchors": ["lib/src/server/channel/ServerChannelTcp.cpp: process_message"]}
{"id": "C25", "title": "Silence for unaddressed or malformed requests", "statement": "Requests to an unknown unit, empty PDUs and structurally malformed PDUs of supported function codes cause no session call and no response.", "quantifier": "every such request", "why_tests_cant": "Universally quantified absence of effects.", "anchors": ["lib/src/server/channel/ServerChannelTcp.cpp: on_mbap, process_message"]}
{"id": "C26", "title": "Unsupported function codes are refused", "statement": "A non-empty PDU for a registered unit whose function code is not one of the eight supported ones is answered with the two bytes (function code with top bit set, 0x01) and no session is called.", "quantifier": "every function code outside the supported set, every remaining payload", "why_tests_cant": "All payloads.", "anchors": ["lib/src/server/channel/ServerChannelTcp.cpp: on_mbap"]}
{"id": "C27", "title": "Out-of-range requests are refused with illegal data value", "statement": "A structurally sound request whose quantity, byte count or coil value is out of range is answered with (function code with top bit set, 0x03), and the session is not called.", "quantifier": "every such request", "why_tests_cant": "All out-of-range values.", "anchors": ["lib/src/server/channel/ServerChannelTcp.cpp: process_message", "lib/src/messages/*RequestImpl.cpp: parse"]}
{"id": "C28", "title": "Session failures are mapped faithfully", "statement": "If the session fails a request with a Modbus exception, exactly the two-byte exception response with that exception's code is sent; if it fails with any other exception nothing is sent.", "quantifier": "every exception value and request type", "why_tests_cant": "Arbitrary session code.", "anchors": ["lib/src/server/channel/ServerChannelTcp.cpp: process_message", "lib/src/messages/ExceptionResponse.cpp"]}
{"id": "C29", "title": "Session isolation", "statement": "A request addressed to one unit never calls, or changes the state of, the session of another unit.", "quantifier": "every set of registered sessions, every request", "why_tests_cant": "All registries and requests.", "anchors": ["lib/src/server/channel/ServerChannelTcp.cpp: on_mbap"]}
{"id": "C30", "title": "Adding a session for a used unit replaces the old one", "statement": "After add_session(u, s) has taken effect on a running channel, requests for unit u are handled by s, even if another session was registered for u before.", "quantifier": "every history of add_session calls", "why_tests_cant": "All histories; the tests never add two sessions for a unit.", "anchors": ["lib/include/modbus/server/IServerChannel.h:87", "lib/src/server/channel/ServerChannelTcp.cpp: add_session"]}
{"id": "C31", "title": "Nothing happens after server shutdown", "statement": "After a channel's shutdown has taken effect no session receives a request, no response is sent, no session can be added and listening cannot be started; every registered session is told to shut down exactly once and the listening server is shut down at most once, however often shutdown is called.", "quantifier": "every interleaving of API calls and incoming requests", "why_tests_cant": "All schedules.", "anchors": ["lib/src/server/channel/ServerChannelTcp.cpp: shutdown, start, add_session, on_mbap"]}
{"id": "C32", "title": "Oversized session responses never produce an inconsistent frame", "statement": "Whatever number of values a session returns, the frame sent is decodable: its PDU byte count equals the number of payload bytes that follow and no byte of it comes from leftover memory.", "quantifier": "every session response, including ones with more values than fit", "why_tests_cant": "All response sizes and leftover memory contents.", "anchors": ["lib/src/messages/mbap/MbapMessage.cpp: build_message", "lib/src/messages/ReadBitsResponseImpl.cpp: build_message", "lib/src/messages/ReadRegistersResponseImpl.cpp: build_message", "lib/src/server/channel/ServerChannelTcp.cpp: send_message"]}
{"id": "C33", "title": "Unimplemented session operations answer illegal function", "statement": "A session that overrides none of the request callbacks makes the server answer every well-formed request with exception code 0x01.", "quantifier": "every well-formed request of every type", "why_tests_cant": "All requests.", "anchors": ["lib/include/modbus/server/IServerSession.h", "lib/src/server/channel/ServerChannelTcp.cpp"]}
{"id": "C34", "title": "Connections are independent on the server", "statement": "Bytes received on one connection (including garbage, partial frames and errors) never change how bytes received on another connection are framed, and after a receive error a connection's framing starts afresh.", "quantifier": "every interleaving of reads and errors on any number of connections", "why_tests_cant": "All interleavings.", "anchors": ["lib/src/server/channel/ServerConnectionListener.cpp", "lib/src/server/channel/ServerConnectionListenerBuilder.cpp"]}
{"id": "C35", "title": "In-memory database refines four independent maps", "statement": "For every history of add/get/set operations and Modbus requests, the in-memory database gives the same answers as four independent partial maps from address to value, one per data table; operations on one table never affect another.", "quantifier": "every finite history of operations", "why_tests_cant": "All histories.", "anchors": ["lib/src/server/db/InMemoryDatabase.cpp", "lib/src/server/db/SingleTypeDatabase.cpp"]}
{"id": "C36", "title": "Multi-point writes are all or nothing", "statement": "A write of several coils or registers either updates every addressed point with its value and acknowledges, or changes nothing at all and answers IllegalDataAddress; it is acknowledged exactly when every addressed point exists.", "quantifier": "every database content, starting address and list of values", "why_tests_cant": "All contents and ranges, including holes in the middle and the end of the address space.", "anchors": ["lib/src/server/db/SingleTypeDatabase.cpp: set_values, is_valid_range"]}
{"id": "C37", "title": "Range checks have no wrap-around", "statement": "A range is valid exactly when it is non-empty and all its addresses start, start+1, ..., start+count-1 (as integers, at most 65535) exist; ranges running past 65535 are always refused.", "quantifier": "every database content, start and count", "why_tests_cant": "All contents and ranges.", "anchors": ["lib/src/server/db/SingleTypeDatabase.cpp: is_valid_range"]}
{"id": "C38", "title": "Reads return the stored values in address order", "statement": "A successful read of n points from address a returns n entries whose i-th entry is labelled with address a+i and holds the current value of that point.", "quantifier": "every database content, start and count", "why_tests_cant": "All contents.", "anchors": ["lib/src/server/db/SingleTypeDatabase.cpp: get_values", "lib/src/server/db/InMemoryDatabase.cpp: on_request"]}
{"id": "C39", "title": "Adding a point never overwrites", "statement": "add_* returns true and creates the point with the given value if and only if it did not exist; otherwise it returns false and changes nothing.", "quantifier": "every history and address", "why_tests_cant": "All histories.", "anchors": ["lib/src/server/db/SingleTypeDatabase.cpp: add_value"]}
{"id": "C40", "title": "Modbus requests never create or delete points, nor write inputs", "statement": "Whatever requests a client sends, the set of existing addresses of every table is unchanged, and discrete inputs and input registers keep their values.", "quantifier": "every sequence of requests", "why_tests_cant": "All request sequences.", "anchors": ["lib/src/server/db/InMemoryDatabase.cpp: on_request"]}
{"id": "C41", "title": "Concurrent database users are serialised", "statement": "For any number of threads concurrently running requests, add_* calls and multi-step transactions, every execution gives each of them the same results, and the database the same final content, as running them one after another in some order consistent with each thread's program order.", "quantifier": "every interleaving of the individual steps of every set of thread programs", "why_tests_cant": "All interleavings of all programs.", "anchors": ["lib/src/server/db/InMemoryDatabase.cpp: execute_transaction, on_request, add_*"]}
{"id": "C42", "title": "End-to-end read", "statement": "A valid read request sent by a client and answered by a server backed by the in-memory database makes the client's handler receive exactly the current values of the requested points with their addresses, through encoding, framing and arbitrary TCP segmentation in both directions.", "quantifier": "every database content, every valid read request, transaction id, unit id, every segmentation", "why_tests_cant": "Composition of all layers over all values.", "anchors": ["lib/src/client", "lib/src/server", "lib/src/messages"]}
{"id": "C43", "title": "End-to-end write then read", "statement": "After a write of in-range values is acknowledged end to end, a subsequent read through the wire of those points returns the written values, and points outside the written range are unchanged.", "quantifier": "every database content, write request and later read", "why_tests_cant": "Composition of all layers over all values.", "anchors": ["lib/src/client", "lib/src/server", "lib/src/messages"]}
{"id": "C44", "title": "End-to-end refusal", "statement": "A valid request addressing a non-existing point makes the client's handler receive a Modbus IllegalDataAddress exception and leaves the database unchanged.", "quantifier": "every database content and every valid request with a missing point", "why_tests_cant": "Composition over all values.", "anchors": ["lib/src/client", "lib/src/server", "lib/src/messages"]}
{"id": "C45", "title": "One outstanding request", "statement": "At every moment at most one request of a client channel has been put on the wire and not yet been completed.", "quantifier": "every interleaving of API calls, received bytes, timer expirations, connection errors and shutdown", "why_tests_cant": "All schedules.", "anchors": ["lib/include/modbus/client/IClientChannel.h:42", "lib/src/client/channel/ClientChannelTcp.cpp: check_pending_requests"]}
{"id": "C46", "title": "Requests are sent in submission order", "statement": "Requests go on the wire in the order in which they were submitted; none overtakes another and none is sent twice.", "quantifier": "every schedule", "why_tests_cant": "All schedules.", "anchors": ["lib/src/client/channel/ClientChannelTcp.cpp: send_request, check_pending_requests"]}
{"id": "C47", "title": "Handlers are called at most once", "statement": "No response handler is ever called twice, whatever duplicates, late responses, timeouts, errors or shutdowns occur.", "quantifier": "every schedule", "why_tests_cant": "All schedules.", "anchors": ["lib/src/client/channel/ClientChannelTcp.cpp"]}
{"id": "C48", "title": "Handlers are called exactly once", "statement": "Every submitted request's handler is eventually called: at any moment a submitted request is either still queued, outstanding with its timeout running, or its handler has been called exactly once.", "quantifier": "every schedule, including channel shutdown", "why_tests_cant": "All schedules.", "anchors": ["lib/src/client/channel/ClientChannelTcp.cpp"]}
{"id": "C49", "title": "A response is given to the request it answers, and only to it", "statement": "A handler receives a response only if a complete frame carrying the transaction id and unit id of its own request was received while that request was outstanding, and it receives exactly that frame's PDU. Conversely the first such frame received while the request is outstanding is given to its handler at once.", "quantifier": "every schedule and every received byte stream", "why_tests_cant": "All schedules and streams.", "anchors": ["lib/src/client/channel/ClientChannelTcp.cpp: on_mbap_message"]}
{"id": "C50", "title": "Unsolicited, duplicate and late responses are ignored", "statement": "A frame whose transaction id or unit id differs from the outstanding request's, or which arrives with no outstanding request, changes nothing; in particular a late answer to any of the previous 65535 requests is never taken for the current one's.", "quantifier": "every schedule and frame", "why_tests_cant": "All schedules; wrap-around of the 16-bit id needs 65536 requests.", "anchors": ["lib/src/client/channel/ClientChannelTcp.cpp: on_mbap_message", "lib/src/TransactionIdentifier.cpp"]}
{"id": "C51", "title": "Timeouts hit only the request whose time is up", "statement": "A handler is called with a timeout only if at least its own request's timeout has elapsed since that request was sent.", "quantifier": "every schedule, including a timer expiring just when the response arrives", "why_tests_cant": "A race between timer expiry and response processing; tests use a mock executor with one interleaving.", "anchors": ["lib/src/client/channel/ClientChannelTcp.cpp: check_pending_requests, on_mbap_message"]}
{"id": "C52", "title": "The channel never gets stuck", "statement": "Whenever a request is outstanding its timeout timer is running or its expiry is about to be processed, and whenever no request is outstanding no request is queued; hence if timers fire, every submitted request completes. When its time is up, the expiry of the timer and its callback suffice for the handler to be told.", "quantifier": "every reachable state of every schedule before shutdown", "why_tests_cant": "Liveness over all schedules.", "anchors": ["lib/src/client/channel/ClientChannelTcp.cpp"]}
{"id": "C53", "title": "A connection error fails everything that was waiting", "statement": "When the connection reports an error, the handlers of the outstanding request and of all queued requests are called exactly once with a connection error, nothing remains queued, and requests submitted later are sent normally.", "quantifier": "every state of the channel", "why_tests_cant": "All queue contents.", "anchors": ["lib/src/client/channel/ClientChannelTcp.cpp: on_error, cancel_all_pending_requests, cancel_current_request"]}
{"id": "C54", "title": "Transaction ids are consecutive", "statement": "The n-th request accepted by a channel uses transaction id n modulo 65536; therefore any two requests fewer than 65536 submissions apart have different ids.", "quantifier": "every n", "why_tests_cant": "Unbounded n and wrap-around.", "anchors": ["lib/src/client/channel/ClientChannelTcp.cpp: send_request", "lib/src/TransactionIdentifier.cpp"]}
{"id": "C55", "title": "Invalid requests are never sent", "statement": "Every frame a client puts on the wire carries a valid request; an invalid request is not sent, consumes no transaction id, its handler is called with nothing but a malformed-request error, and if it was submitted before channel shutdown took effect its handler is called exactly once.", "quantifier": "every schedule and request", "why_tests_cant": "All schedules.", "anchors": ["lib/src/client/channel/ClientChannelTcp.cpp: send_request"]}
{"id": "C56", "title": "Client shutdown is final", "statement": "Calling shutdown on a client channel takes effect in every fair execution. After that nothing more is sent, no session can be created and no handler of an accepted request is called. Every session created before is told, once.", "quantifier": "every schedule", "why_tests_cant": "All schedules.", "anchors": ["lib/src/client/channel/ClientChannelTcp.cpp: shutdown"]}
{"id": "C57", "title": "Typed results match the request", "statement": "The result given to the user's handler of a session request is the decoding, for exactly that request, of the PDU received, or exactly the channel's error.", "quantifier": "every request, PDU and error", "why_tests_cant": "All PDUs.", "anchors": ["lib/src/client/session/ClientSessionImpl.cpp: meta_send_request"]}
{"id": "C58", "title": "A scheduled request polls with at most one request in flight", "statement": "A scheduled request never has more than one request in flight or more than one pending poll timer.", "quantifier": "every schedule of start, stop, set_frequency, responses and timer expirations", "why_tests_cant": "All schedules; the tests never stop and restart while a request is outstanding and then answer both.", "anchors": ["lib/include/modbus/client/IScheduledRequest.h:37", "lib/src/client/session/ScheduledRequest.hpp"]}
{"id": "C59", "title": "Polling respects the minimum time between requests", "statement": "After a response has been received, the next request of the same polling run is sent no earlier than the configured polling time later.", "quantifier": "every schedule", "why_tests_cant": "All schedules.", "anchors": ["lib/include/modbus/client/IScheduledRequest.h:37", "lib/src/client/session/ScheduledRequest.hpp"]}
{"id": "C60", "title": "Stop really stops", "statement": "Once stop has taken effect no further request is sent until start is called.", "quantifier": "every schedule, including a poll timer that has just expired", "why_tests_cant": "A race between timer expiry and stop.", "anchors": ["lib/include/modbus/client/IScheduledRequest.h:55", "lib/src/client/session/ScheduledRequest.hpp: stop, execute"]}
{"id": "C61", "title": "Every polled response is reported once and polling continues", "statement": "Each completed request of a scheduled request calls the user's handler exactly once (success or failure alike), and while running, every completion is followed by a new poll timer with the frequency then configured.", "quantifier": "every schedule", "why_tests_cant": "All schedules.", "anchors": ["lib/src/client/session/ScheduledRequest.hpp: execute, set_frequency"]}
{"id": "C62", "title": "The client reconnects after failures", "statement": "After any connection failure (resolve, connect, read, write error or end of stream), a later request makes the client attempt a new connection.", "quantifier": "every history of connection events", "why_tests_cant": "All histories; tests cover connect failure and peer close only.", "anchors": ["lib/src/client/channel/AsioClientTcpConnection.cpp: send, resolve_handler, connect_handler, close"]}
{"id": "C63", "title": "A new connection starts with clean framing", "statement": "Bytes received on a new connection are framed independently of bytes received on earlier connections.", "quantifier": "every history of connections, including ones cut in the middle of a frame", "why_tests_cant": "All cut points.", "anchors": ["lib/src/client/channel/AsioClientTcpConnection.cpp: read_handler", "lib/src/client/channel/ClientChannelTcp.cpp: on_error"]}
{"id": "C64", "title": "Only whole frames go on the wire", "statement": "The byte stream a client or server puts on a connection is a concatenation of complete frames in the order they were sent, and no memory is freed while an asynchronous write still uses it.", "quantifier": "every schedule of sends and write completions, including partial writes and back pressure", "why_tests_cant": "All schedules; loopback tests always complete writes immediately and entirely.", "anchors": ["lib/src/client/channel/AsioClientTcpConnection.cpp: send, send_buffer, write_handler", "lib/src/server/channel/AsioServerTcpConnection.cpp: send, send_buffer, write_handler"]}
{"id": "C65", "title": "Leftover events of a dead connection do not disturb the next one", "statement": "Completion events belonging to a connection that has already been closed never close the new connection nor fail requests sent on it.", "quantifier": "every schedule", "why_tests_cant": "Race between aborted operations and a quick reconnect.", "anchors": ["lib/src/client/channel/AsioClientTcpConnection.cpp: read_handler, write_handler, close"]}
{"id": "C66", "title": "At most one connection attempt or connection at a time", "statement": "The client never starts a second resolve/connect while one is in progress or a connection is established, and data submitted while connecting is sent once connected, the newest data only.", "quantifier": "every schedule of sends and completions", "why_tests_cant": "All schedules.", "anchors": ["lib/src/client/channel/AsioClientTcpConnection.cpp: send"]}
{"id": "C67", "title": "A shut down client connection is silent", "statement": "After the client connection's shutdown no data is sent and the listener receives no further data, error or write notification.", "quantifier": "every schedule", "why_tests_cant": "All schedules.", "anchors": ["lib/src/client/channel/AsioClientTcpConnection.cpp: shutdown"]}
{"id": "C68", "title": "The server respects its connection limit by evicting the oldest", "statement": "A server never keeps more connections than its configured maximum; when a new connection exceeds it, exactly the oldest one is closed and the new one is kept.", "quantifier": "every sequence of accepts, disconnections and errors, every maximum", "why_tests_cant": "All histories; the test only checks the count once.", "anchors": ["lib/include/modbus/server/IServerChannel.h:41", "lib/src/server/channel/AsioServer.cpp: handle_accept, remove_connection"]}
{"id": "C69", "title": "The connection count is exact", "statement": "The number of connections the server reports always equals the number of connections it currently keeps.", "quantifier": "every sequence of accepts, accept failures, disconnections and shutdowns", "why_tests_cant": "All histories.", "anchors": ["lib/src/server/channel/AsioServer.cpp: get_num_connections, remove_connection, shutdown"]}
{"id": "C70", "title": "The server keeps listening", "statement": "As long as it is not shut down, a started server always has an accept operation pending, so further clients can connect.", "quantifier": "every sequence of accepts, accept failures and disconnections", "why_tests_cant": "Liveness over all histories.", "anchors": ["lib/src/server/channel/AsioServer.cpp: handle_accept, start_accept"]}
{"id": "C71", "title": "A lost server connection is removed once", "statement": "When a connection fails or is closed, it is removed from the server's list exactly once and its socket is closed, however many operations on it fail.", "quantifier": "every schedule of failures and posted closes", "why_tests_cant": "All schedules.", "anchors": ["lib/src/server/channel/AsioServerTcpConnection.cpp: close, send_error, notify_close", "lib/src/server/channel/AsioServer.cpp: remove_connection"]}
{"id": "C72", "title": "Session shutdown cancels pending and scheduled requests", "statement": "After a client session's shutdown has taken effect, none of its pending requests is sent or reported and none of its scheduled requests polls any more.", "quantifier": "every schedule", "why_tests_cant": "All schedules.", "anchors": ["lib/include/modbus/client/IClientSession.h:94", "lib/src/client/session/ClientSessionImpl.cpp: shutdown"]}
{"id": "C73", "title": "Manager shutdown reaches every channel exactly once", "statement": "Each call of shutdown, and the destructor, shuts down exactly the channels whose creation had returned and that are not shut down yet; none is shut down twice or without being asked. Creating channels works before and after shutdown. The manager always runs at least one thread, and the requested number if that is at least one.", "quantifier": "every history of create and shutdown calls", "why_tests_cant": "All histories.", "anchors": ["lib/src/ModbusManagerImpl.cpp", "lib/src/IModbusManager.cpp"]}
{"id": "C74", "title": "Expected is either a value or an exception", "statement": "An Expected object reports valid exactly when it holds a value; then get returns that value and reports no exception; otherwise get raises exactly the stored exception and has_exception<E> holds exactly for the stored exception's class and its bases; copies and moves preserve this.", "quantifier": "every value, exception and class query", "why_tests_cant": "All values and types of exceptions.", "anchors": ["lib/include/modbus/Expected.h"]}
{"id": "C75", "title": "Identifiers print unambiguously", "statement": "Unit and transaction identifiers print as 0x followed by exactly two respectively four upper-case hexadecimal digits; distinct identifiers print differently.", "quantifier": "every identifier and every prior formatting state of the stream", "why_tests_cant": "All identifiers and stream states.", "anchors": ["lib/src/UnitIdentifier.cpp", "lib/src/TransactionIdentifier.cpp"]}
{"id": "C76", "title": "Exception messages identify the exception", "statement": "The message of a Modbus exception error is not empty, two exceptions have the same message exactly if they have the same exception type, and the message of an exception received from a device is the name the Modbus specification gives to the received code (\"Unknown\" for other codes).", "quantifier": "every pair of exception types", "why_tests_cant": "A test compares single texts; the claim is about all pairs.", "anchors": ["lib/src/messages/ExceptionType.cpp: operator<<", "lib/include/modbus/exceptions/ModbusException.h: get_message"]}
{"id": "C77", "title": "Answers are genuine across the network", "statement": "When a client of this library talks to a server of this library, a response reported to a handler is what the session registered for the request's unit returned for that handler's own request, executed exactly then once, between the request being sent and the response being reported.", "quantifier": "every history of both channels: any API calls, timers, timeouts, segmentation and delay of the bytes, connection losses, other clients on the server, and any server sessions", "why_tests_cant": "Late answers, timeouts, reconnects and the reuse of transaction ids interact; a test sees one interleaving of two asynchronous machines.", "anchors": ["lib/src/client/channel/ClientChannelTcp.cpp: on_mbap, check_pending_requests, on_error", "lib/src/server/channel/ServerChannelTcp.cpp: on_mbap, process_message", "lib/src/messages/mbap/MbapParser.cpp"]}
{"id": "C78", "title": "Requests and replies keep their order", "statement": "On each connection the server takes exactly the requests the client put on it, unchanged, in order, each at most once; it calls a session only directly after taking a message, with the request that message carries; the client takes the server's replies on its current connection in order, each at most once; and the state of the server's program is the result of those calls, one after the other.", "quantifier": "every history of both channels, any segmentation and any server sessions", "why_tests_cant": "Duplicated, reordered or merged requests would only show for particular segmentations and interleavings with timeouts and reconnects.", "anchors": ["lib/src/client/channel/ClientChannelTcp.cpp", "lib/src/server/channel/ServerConnectionListener.cpp", "lib/src/server/channel/ServerChannelTcp.cpp", "lib/src/messages/mbap/MbapParser.cpp"]}
{"id": "C79", "title": "No request is lost between client and server", "statement": "If a client of this library talks to a server of this library, then a request sent to a unit whose session had been registered before the request was made, and which always answers, has had its handler called once no bytes are underway on the client's connection any more, unless the server's end of the connection is gone or one of the channels is shut down.", "quantifier": "every history of both channels: any segmentation, timeouts, reconnects, other requests and other clients", "why_tests_cant": "A lost request needs a particular segmentation of the bytes together with a particular parser and queue state on either side.", "anchors": ["lib/src/client/channel/ClientChannelTcp.cpp", "lib/src/server/channel/ServerChannelTcp.cpp: on_mbap, process_message", "lib/src/server/channel/ServerConnectionListener.cpp", "lib/src/messages/mbap/MbapParser.cpp"]}
{"id": "C80", "title": "Delivery alone answers every waiting request", "statement": "In whatever state client and server are, with the connection alive, no channel shut down, and every waiting request made to a unit whose session had been registered before and always answers: if from now on the network just delivers what is sent, every waiting request, sent already or still queued, gets a response.", "quantifier": "every reachable state of both channels, any number of queued requests, any earlier timeouts and reconnects", "why_tests_cant": "It is a liveness claim over all reachable states and queue lengths.", "anchors": ["lib/src/client/channel/ClientChannelTcp.cpp", "lib/src/server/channel/ServerChannelTcp.cpp: on_mbap, process_message", "lib/src/server/channel/ServerConnectionListener.cpp", "lib/src/messages/mbap/MbapParser.cpp"]}
{"id": "C81", "title": "A database served over the network is linearizable", "statement": "When a client of this library, beside any others, uses a server of this library whose sessions are sessions of one in-memory database, then every response it gets is the one the four data tables give at a single moment between the call and the response, in the state left by all requests executed before, in order; so a request made after another one was answered sees that one's effect, and a read after an acknowledged write returns the value written unless another request executed since assigned a different one (as long as fewer than 65536 requests were made by the client).", "quantifier": "every history of client, network and server, any mix of reads and writes, any other clients, timeouts, reconnects and segmentation", "why_tests_cant": "Consistency under concurrency is a claim about all interleavings of several clients, retransmissions after reconnects and late answers.", "anchors": ["lib/src/server/db/InMemoryDatabase.cpp: on_request", "lib/src/server/channel/ServerChannelTcp.cpp: process_message", "lib/src/client/channel/ClientChannelTcp.cpp: on_mbap"]}
{"id": "C82", "title": "Each request is sent at most once", "statement": "A client gives the frame of each submitted request to the network at most once, in the order of submission (so a write request is never executed twice by the server).", "quantifier": "every history of a client channel together with its own TCP connection: any API calls, timeouts, completions of network operations, failures and reconnects in any order", "why_tests_cant": "A repeated transmission needs errors of two operations on one connection, with requests submitted at particular moments between their handlers.", "anchors": ["lib/src/client/channel/ClientChannelTcp.cpp", "lib/src/client/channel/AsioClientTcpConnection.cpp"]}
{"id": "C83", "title": "Nothing is sent for a request that is over", "statement": "Whenever a client gives a frame to the network, it is the frame of a submitted request that is still waiting for its answer.", "quantifier": "every history of a client channel together with its own TCP connection: any API calls, timeouts, completions of network operations, failures and reconnects in any order", "why_tests_cant": "It depends on the moment at which the connection becomes established relative to the timeouts of the requests.", "anchors": ["lib/src/client/channel/ClientChannelTcp.cpp", "lib/src/client/channel/AsioClientTcpConnection.cpp"]}
{"id": "C84", "title": "Losing the connection is reported", "statement": "When a client's connection (or the attempt to establish it) ends, every request that was handed to the channel has been reported to its caller.", "quantifier": "every history of a client channel together with its own TCP connection: any API calls, timeouts, completions of network operations, failures and reconnects in any order", "why_tests_cant": "All reachable states of queue, timers and connection at the moment of the loss.", "anchors": ["lib/src/client/channel/ClientChannelTcp.cpp", "lib/src/client/channel/AsioClientTcpConnection.cpp"]}
{"id": "C85", "title": "A client never has undefined behaviour", "statement": "No history of API calls, timeouts, incoming bytes and network completions leads a client into undefined behaviour (use of freed memory, access out of bounds, empty optional or function).", "quantifier": "every history of a client channel together with its own TCP connection: any API calls, timeouts, completions of network operations, failures and reconnects in any order", "why_tests_cant": "Undefined behaviour may go unnoticed in a test, and the histories are unbounded.", "anchors": ["lib/src/client/channel/ClientChannelTcp.cpp", "lib/src/client/channel/AsioClientTcpConnection.cpp"]}
{"id": "C86", "title": "The first answer on a new connection is delivered", "statement": "If what has been received on a new connection so far is exactly the frame answering the outstanding request, in whatever pieces, the request's handler is called with that answer, whatever happened on earlier connections.", "quantifier": "every history of a client channel together with its own TCP connection: any API calls, timeouts, completions of network operations, failures and reconnects in any order", "why_tests_cant": "All ways in which the earlier connections ended and all segmentations.", "anchors": ["lib/src/client/channel/ClientChannelTcp.cpp", "lib/src/client/channel/AsioClientTcpConnection.cpp"]}
{"id": "C87", "title": "A client at rest reconnects", "statement": "When nothing is in progress or waiting in a client without a connection and not shut down, submitting a request makes it attempt a new connection, whatever happened before.", "quantifier": "every history of a client channel together with its own TCP connection: any API calls, timeouts, completions of network operations, failures and reconnects in any order", "why_tests_cant": "All histories leading to a state at rest.", "anchors": ["lib/src/client/channel/ClientChannelTcp.cpp", "lib/src/client/channel/AsioClientTcpConnection.cpp"]}
{"id": "C88", "title": "A request after any history is answered if all goes well", "statement": "When nothing is in progress or waiting in a client without a connection and not shut down, and from then on name resolution, connecting, writing succeed and the server answers, a submitted request is transmitted and its handler gets the answer.", "quantifier": "every history of a client channel together with its own TCP connection: any API calls, timeouts, completions of network operations, failures and reconnects in any order", "why_tests_cant": "All histories leading to a state at rest.", "anchors": ["lib/src/client/channel/ClientChannelTcp.cpp", "lib/src/client/channel/AsioClientTcpConnection.cpp"]}
{"id": "C89", "title": "Nothing is sent after shutdown", "statement": "Once a client channel's shutdown has been carried out (all handlers of waiting requests have been called), nothing is given to the network any more.", "quantifier": "every history of a client channel together with its own TCP connection: any API calls, timeouts, completions of network operations, failures and reconnects in any order", "why_tests_cant": "It depends on which handlers are queued at the moment of the shutdown.", "anchors": ["lib/src/client/channel/ClientChannelTcp.cpp", "lib/src/client/channel/AsioClientTcpConnection.cpp"]}
{"id": "C90", "title": "Answers come after their requests", "statement": "A request is answered only with bytes that were received, on the same connection, after the request's frame had been given to the network.", "quantifier": "every history of a client channel together with its own TCP connection: any API calls, timeouts, completions of network operations, failures and reconnects in any order", "why_tests_cant": "All segmentations of the incoming bytes and all states of the queue.", "anchors": ["lib/src/client/channel/ClientChannelTcp.cpp", "lib/src/client/channel/AsioClientTcpConnection.cpp"]}
{"id": "C91", "title": "Requests are sent in the order of submission", "statement": "The frames a client gives to the network are frames of submitted requests (with the request's transaction id), and none of them follows the frame of a request that was submitted later.", "quantifier": "every history of a client channel together with its own TCP connection: any API calls, timeouts, completions of network operations, failures and reconnects in any order", "why_tests_cant": "All orders of completions, timeouts and reconnects.", "anchors": ["lib/src/client/channel/ClientChannelTcp.cpp", "lib/src/client/channel/AsioClientTcpConnection.cpp"]}
{"id": "C92", "title": "Shutdown winds the connection down", "statement": "Once a client channel's shutdown has been carried out, no frame is handed to its connection and no connection attempt is begun; and a single task, which is queued at that moment, ends all activity on the network for good, whatever happens afterwards.", "quantifier": "every history of a client channel together with its own TCP connection: any API calls, timeouts, completions of network operations, failures and reconnects in any order", "why_tests_cant": "It is a claim about all continuations of all histories.", "anchors": ["lib/src/client/channel/ClientChannelTcp.cpp", "lib/src/client/channel/AsioClientTcpConnection.cpp"]}
{"id": "C93", "title": "A server never has undefined behaviour", "statement": "No history of API calls, incoming bytes and network completions leads a server into undefined behaviour (use of freed memory, access out of bounds, first element of an empty list).", "quantifier": "every history of a server channel together with all its TCP connections: any API calls, any number of clients sending any bytes, completions of network operations and failures in any order", "why_tests_cant": "Undefined behaviour may go unnoticed in a test, and the histories are unbounded; clients are not under the test's control.", "anchors": ["lib/src/server/channel/ServerChannelTcp.cpp", "lib/src/server/channel/AsioServer.cpp", "lib/src/server/channel/AsioServerTcpConnection.cpp", "lib/src/server/channel/ServerConnectionListener.cpp"]}
{"id": "C94", "title": "Sessions are only asked what clients ask", "statement": "Whatever request a session of a server is called with is the content of a Modbus frame in the byte stream received on some connection.", "quantifier": "every history of a server channel together with all its TCP connections: any API calls, any number of clients sending any bytes, completions of network operations and failures in any order", "why_tests_cant": "All byte streams, all segmentations and all moments at which operations on a connection fail.", "anchors": ["lib/src/server/channel/ServerChannelTcp.cpp", "lib/src/server/channel/AsioServer.cpp", "lib/src/server/channel/AsioServerTcpConnection.cpp", "lib/src/server/channel/ServerConnectionListener.cpp"]}
{"id": "C95", "title": "A client gets answers to its own requests only", "statement": "The answers a server gives on a connection are replies to messages received on that very connection, with their transaction and unit ids, in order and at most one each; all bytes sent on the connection are parts of these.", "quantifier": "every history of a server channel together with all its TCP connections: any API calls, any number of clients sending any bytes, completions of network operations and failures in any order", "why_tests_cant": "All interleavings of any number of clients.", "anchors": ["lib/src/server/channel/ServerChannelTcp.cpp", "lib/src/server/channel/AsioServer.cpp", "lib/src/server/channel/AsioServerTcpConnection.cpp", "lib/src/server/channel/ServerConnectionListener.cpp"]}
{"id": "C96", "title": "A client receives whole answers", "statement": "The byte stream a server sends on a connection is a sequence of whole answers, in order (the last one possibly incomplete).", "quantifier": "every history of a server channel together with all its TCP connections: any API calls, any number of clients sending any bytes, completions of network operations and failures in any order", "why_tests_cant": "It depends on how many bytes each write operation transfers.", "anchors": ["lib/src/server/channel/ServerChannelTcp.cpp", "lib/src/server/channel/AsioServer.cpp", "lib/src/server/channel/AsioServerTcpConnection.cpp", "lib/src/server/channel/ServerConnectionListener.cpp"]}
{"id": "C97", "title": "Server shutdown ends everything", "statement": "After the shutdown of a server channel no session is called and nothing is answered; and when the tasks queued have been carried out (which takes finitely many steps and no event from outside) all sockets are closed and no operation is in progress.", "quantifier": "every history of a server channel together with all its TCP connections: any API calls, any number of clients sending any bytes, completions of network operations and failures in any order", "why_tests_cant": "All states in which the shutdown may find the connections, the accept loop and the queue.", "anchors": ["lib/src/server/channel/ServerChannelTcp.cpp", "lib/src/server/channel/AsioServer.cpp", "lib/src/server/channel/AsioServerTcpConnection.cpp", "lib/src/server/channel/ServerConnectionListener.cpp"]}
{"id": "C98", "title": "A request is answered on the wire", "statement": "A well-formed request for a registered unit id arriving on a connection that is being read, after whole frames and no error, leads to exactly one call of the session, with this request, and to exactly the frame of the session's answer being sent on this connection, whatever else has happened on the server.", "quantifier": "every history of a server channel together with all its TCP connections: any API calls, any number of clients sending any bytes, completions of network operations and failures in any order", "why_tests_cant": "All earlier histories, all requests and all answers of the session.", "anchors": ["lib/src/server/channel/ServerChannelTcp.cpp", "lib/src/server/channel/AsioServer.cpp", "lib/src/server/channel/AsioServerTcpConnection.cpp", "lib/src/server/channel/ServerConnectionListener.cpp"]}
{"id": "C99", "title": "Connections do not disturb each other", "statement": "Whatever happens on one connection of a server (any bytes, errors, end of the connection), and API calls, leave every other connection's state, its operations in progress, its pending handlers, its partly received frame and all that was received and sent on it unchanged.", "quantifier": "every history of a server channel together with all its TCP connections: any API calls, any number of clients sending any bytes, completions of network operations and failures in any order", "why_tests_cant": "All states of all connections and all events.", "anchors": ["lib/src/server/channel/ServerChannelTcp.cpp", "lib/src/server/channel/AsioServer.cpp", "lib/src/server/channel/AsioServerTcpConnection.cpp", "lib/src/server/channel/ServerConnectionListener.cpp"]}
{"id": "C100", "title": "A response is a whole frame of its request's connection", "statement": "When a request's handler is called with a response, the bytes received so far on the connection to which the request was given, cut into frames from the very first byte, contain a frame with the request's transaction and unit ids whose content is this response.", "quantifier": "every history of a client channel together with its TCP connections: any calls, completions and failures of network operations in any order, any bytes received in any pieces", "why_tests_cant": "All byte streams and segmentations, and all moments at which operations on the connection may fail.", "anchors": ["lib/src/client/channel/ClientChannelTcp.cpp", "lib/src/client/channel/AsioClientTcpConnection.cpp", "lib/src/messages/mbap/MbapParser.cpp"]}
{"id": "C101", "title": "A reported response is what the session returned for that request", "statement": "When a client's response handler is called with a response, a session of the server was called, after the request had been put on the wire and before the handler was called, with exactly the handler's request, and the response is what that session returned, given the effects of all calls made before for whichever client.", "quantifier": "every history of any number of clients and a server, each with its TCP connections, joined by a network that delivers the bytes of each connection in order and in arbitrary pieces: any API calls, completions and failures of network operations in any order, other peers sending any bytes", "why_tests_cant": "All interleavings of clients, server and network, all places at which byte streams are cut and operations fail, all states of the sessions.", "anchors": ["lib/src/client/channel/ClientChannelTcp.cpp", "lib/src/client/channel/AsioClientTcpConnection.cpp", "lib/src/server/channel/ServerChannelTcp.cpp", "lib/src/server/channel/AsioServer.cpp", "lib/src/server/channel/AsioServerTcpConnection.cpp", "lib/src/messages/mbap/MbapParser.cpp"]}
{"id": "C102", "title": "A request is executed at most once", "statement": "Each call of a session on behalf of a client belongs to a request this client made (same unit, same request, the transaction id belonging to it), and different calls of sessions belong to different requests, on whichever of the client's connections they come.", "quantifier": "every history of any number of clients and a server, each with its TCP connections, joined by a network that delivers the bytes of each connection in order and in arbitrary pieces: any API calls, completions and failures of network operations in any order, other peers sending any bytes", "why_tests_cant": "All histories of reconnections, left-over handlers, timeouts and failures.", "anchors": ["lib/src/client/channel/ClientChannelTcp.cpp", "lib/src/client/channel/AsioClientTcpConnection.cpp", "lib/src/server/channel/ServerChannelTcp.cpp", "lib/src/server/channel/AsioServer.cpp", "lib/src/server/channel/AsioServerTcpConnection.cpp", "lib/src/messages/mbap/MbapParser.cpp"]}
{"id": "C103", "title": "Sessions are called only with what clients asked", "statement": "If a session of the server is called because of bytes from a client's connection, that client had made exactly this request, to the unit the session is registered for, and had put it on the wire.", "quantifier": "every history of any number of clients and a server, each with its TCP connections, joined by a network that delivers the bytes of each connection in order and in arbitrary pieces: any API calls, completions and failures of network operations in any order, other peers sending any bytes", "why_tests_cant": "All ways in which writes may be cut, connections fail and streams be re-framed.", "anchors": ["lib/src/client/channel/ClientChannelTcp.cpp", "lib/src/client/channel/AsioClientTcpConnection.cpp", "lib/src/server/channel/ServerChannelTcp.cpp", "lib/src/server/channel/AsioServer.cpp", "lib/src/server/channel/AsioServerTcpConnection.cpp", "lib/src/messages/mbap/MbapParser.cpp"]}
{"id": "C104", "title": "Requests follow each other in real time", "statement": "If a request is made (by any client) after the response to another request (of any client) was reported, and is itself answered, the session executes it after the other one, in a state that contains the other one's effect and everything executed since.", "quantifier": "every history of any number of clients and a server, each with its TCP connections, joined by a network that delivers the bytes of each connection in order and in arbitrary pieces: any API calls, completions and failures of network operations in any order, other peers sending any bytes", "why_tests_cant": "All pairs of clients and all interleavings.", "anchors": ["lib/src/client/channel/ClientChannelTcp.cpp", "lib/src/client/channel/AsioClientTcpConnection.cpp", "lib/src/server/channel/ServerChannelTcp.cpp", "lib/src/server/channel/AsioServer.cpp", "lib/src/server/channel/AsioServerTcpConnection.cpp", "lib/src/messages/mbap/MbapParser.cpp"]}
{"id": "C105", "title": "A client's requests are executed in order", "statement": "The sessions execute the requests of a client in the order in which the client made them.", "quantifier": "every history of any number of clients and a server, each with its TCP connections, joined by a network that delivers the bytes of each connection in order and in arbitrary pieces: any API calls, completions and failures of network operations in any order, other peers sending any bytes", "why_tests_cant": "All delays of the network and all histories of timeouts and reconnections.", "anchors": ["lib/src/client/channel/ClientChannelTcp.cpp", "lib/src/client/channel/AsioClientTcpConnection.cpp", "lib/src/server/channel/ServerChannelTcp.cpp", "lib/src/server/channel/AsioServer.cpp", "lib/src/server/channel/AsioServerTcpConnection.cpp", "lib/src/messages/mbap/MbapParser.cpp"]}
{"id": "C106", "title": "A request can be carried out whenever client and server are ready", "statement": "Whatever happened before: when a client has nothing to do, the server is running, has nothing to do, has room for a connection and is accepting, and a request is submitted to a unit whose session answers, then, if the network operations succeed, the request goes out, the session is called once with exactly this request, and what it returns is reported to the request's handler.", "quantifier": "every history of any number of clients and a server, each with its TCP connections, joined by a network that delivers the bytes of each connection in order and in arbitrary pieces: any API calls, completions and failures of network operations in any order, other peers sending any bytes", "why_tests_cant": "All histories before; every request, every state of the session.", "anchors": ["lib/src/client/channel/ClientChannelTcp.cpp", "lib/src/client/channel/AsioClientTcpConnection.cpp", "lib/src/server/channel/ServerChannelTcp.cpp", "lib/src/server/channel/AsioServer.cpp", "lib/src/server/channel/AsioServerTcpConnection.cpp", "lib/src/messages/mbap/MbapParser.cpp"]}
{"id": "C107", "title": "Any number of requests on an established connection", "statement": "When a client is connected to the server, has nothing to do, and nothing is in transit, then any number of requests, made one after the other, can be carried out on this connection, if the network operations succeed and the sessions return a result or a Modbus exception: each session call is made once, in the order of the requests, each sees the effects of the earlier ones, each handler is given what its own call returned, no new connection is attempted, and afterwards the connection is ready for more.", "quantifier": "every history of any number of clients and a server, each with its TCP connections, joined by a network that delivers the bytes of each connection in order and in arbitrary pieces: any API calls, completions and failures of network operations in any order, other peers sending any bytes", "why_tests_cant": "All histories before, all lists of requests of any length, all session behaviours.", "anchors": ["lib/src/client/channel/ClientChannelTcp.cpp", "lib/src/client/channel/AsioClientTcpConnection.cpp", "lib/src/server/channel/ServerChannelTcp.cpp", "lib/src/server/channel/AsioServer.cpp", "lib/src/server/channel/AsioServerTcpConnection.cpp", "lib/src/messages/mbap/MbapParser.cpp"]}
{"id": "C108", "title": "A client at rest can carry out any number of requests on one connection", "statement": "Whatever happened before: when a client has nothing to do and the server is running, has nothing to do, has room and is accepting, any number of requests made one after the other can be carried out, if the network operations succeed, with a single connection attempt, and with every handler given what the session returned for its request.", "quantifier": "every history of any number of clients and a server, each with its TCP connections, joined by a network that delivers the bytes of each connection in order and in arbitrary pieces: any API calls, completions and failures of network operations in any order, other peers sending any bytes", "why_tests_cant": "All histories before, all lists of requests of any length.", "anchors": ["lib/src/client/channel/ClientChannelTcp.cpp", "lib/src/client/channel/AsioClientTcpConnection.cpp", "lib/src/server/channel/ServerChannelTcp.cpp", "lib/src/server/channel/AsioServer.cpp", "lib/src/server/channel/AsioServerTcpConnection.cpp", "lib/src/messages/mbap/MbapParser.cpp"]}
{"id": "C109", "title": "Several clients and one database: one moment per request", "statement": "When all sessions of a server share one in-memory database, its contents are at every time what the requests executed so far leave, one after the other; and whatever several clients do at the same time, each response decodes to exactly what the four tables give at one moment between the call and the response, when this request and no other was executed.", "quantifier": "every history of any number of clients and a server, each with its TCP connections, joined by a network that delivers the bytes of each connection in order and in arbitrary pieces: any API calls, completions and failures of network operations in any order, other peers sending any bytes", "why_tests_cant": "All histories of any number of clients, the server and the network, with all interleavings, losses of connections and segmentations.", "anchors": ["lib/src/client/channel/ClientChannelTcp.cpp", "lib/src/client/channel/AsioClientTcpConnection.cpp", "lib/src/server/channel/ServerChannelTcp.cpp", "lib/src/server/channel/AsioServer.cpp", "lib/src/server/channel/AsioServerTcpConnection.cpp", "lib/src/messages/mbap/MbapParser.cpp"]}
{"id": "C110", "title": "What one client has written, another client reads", "statement": "Once a write of a holding register or coil has been reported successful to a client, a read including it made afterwards by any client gives the value written, unless a request executed since the write was made assigned another value.", "quantifier": "every history of any number of clients and a server, each with its TCP connections, joined by a network that delivers the bytes of each connection in order and in arbitrary pieces: any API calls, completions and failures of network operations in any order, other peers sending any bytes", "why_tests_cant": "All histories of any number of clients, the server and the network, with all interleavings, losses of connections and segmentations.", "anchors": ["lib/src/client/channel/ClientChannelTcp.cpp", "lib/src/client/channel/AsioClientTcpConnection.cpp", "lib/src/server/channel/ServerChannelTcp.cpp", "lib/src/server/channel/AsioServer.cpp", "lib/src/server/channel/AsioServerTcpConnection.cpp", "lib/src/messages/mbap/MbapParser.cpp"]}
{"id": "C111", "title": "A scheduled request's handler gets exactly its own results", "statement": "Every poll of a scheduled request is one request to the session's unit with the request and timeout given to schedule_request; its handler is called when and only when the channel reports the result of one of its own polls, once per poll, however many sessions and scheduled requests share the connection.", "quantifier": "For all histories of the client: API calls on the channel, its sessions and their scheduled requests, tasks and timers run by the executor in any order, events of the connection, received bytes, passing of time.", "why_tests_cant": "Which handler gets which result depends on the interleaving of any number of sessions, scheduled requests and one-time requests; tests run a few of them one after the other.", "anchors": ["lib/src/client/channel/ClientChannelTcp.cpp", "lib/src/client/session/ClientSessionImpl.cpp", "lib/src/client/session/ScheduledRequest.hpp"]}
{"id": "C112", "title": "Polling goes on for ever", "statement": "A request that was scheduled is polled again and again, and its handler called again and again, as long as it is not stopped and neither session nor channel is shut down, whatever the network, the server and other users of the connection do, provided the executor runs posted tasks and expired timers.", "quantifier": "For all histories of the client: API calls on the channel, its sessions and their scheduled requests, tasks and timers run by the executor in any order, events of the connection, received bytes, passing of time.", "why_tests_cant": "A liveness property of infinite executions: no finite test can show that a loop never stalls.", "anchors": ["lib/src/client/channel/ClientChannelTcp.cpp", "lib/src/client/session/ClientSessionImpl.cpp", "lib/src/client/session/ScheduledRequest.hpp"]}
{"id": "C113", "title": "Polls do not pile up", "statement": "However slow the server is, a scheduled request has at most one poll waiting for its result.", "quantifier": "For all histories of the client: API calls on the channel, its sessions and their scheduled requests, tasks and timers run by the executor in any order, events of the connection, received bytes, passing of time.", "why_tests_cant": "Needs all timings of answers relative to timers, stops and starts.", "anchors": ["lib/src/client/channel/ClientChannelTcp.cpp", "lib/src/client/session/ClientSessionImpl.cpp", "lib/src/client/session/ScheduledRequest.hpp"]}
{"id": "C114", "title": "Shutting the channel down ends polling", "statement": "Once the shutdown of the channel has taken effect nothing is sent any more, and when the executor has run what was posted every request scheduled before is off; none counts as running that will never call its handler again.", "quantifier": "For all histories of the client: API calls on the channel, its sessions and their scheduled requests, tasks and timers run by the executor in any order, events of the connection, received bytes, passing of time.", "why_tests_cant": "Needs all interleavings of shutdown with scheduling, starting and stopping on other threads.", "anchors": ["lib/src/client/channel/ClientChannelTcp.cpp", "lib/src/client/session/ClientSessionImpl.cpp", "lib/src/client/session/ScheduledRequest.hpp"]}
{"id": "C115", "title": "The polling time is kept", "statement": "Between the result of a poll and the next poll of the same scheduled request on the connection, at least the polling time in effect passes.", "quantifier": "For all histories of the client: API calls on the channel, its sessions and their scheduled requests, tasks and timers run by the executor in any order, events of the connection, received bytes, passing of time.", "why_tests_cant": "Needs all interleavings of answers, timers, changes of the polling time and other requests on the connection.", "anchors": ["lib/src/client/channel/ClientChannelTcp.cpp", "lib/src/client/session/ClientSessionImpl.cpp", "lib/src/client/session/ScheduledRequest.hpp"]}
{"id": "C116", "title": "After shutdown the client comes to rest", "statement": "After the channel has been shut down and if the user calls nothing more, only a bounded amount of work is left: the executor runs finitely many tasks and timers, whatever the connection does, and from some time on no task is posted and no timer is running, so that the threads can be joined.", "quantifier": "For all histories of the client: API calls on the channel, its sessions and their scheduled requests, tasks and timers run by the executor in any order, events of the connection, received bytes, passing of time.", "why_tests_cant": "A liveness property over all interleavings of tasks, timers and late events of the connection; a test sees one schedule and cannot tell 'not yet' from 'never'.", "anchors": ["lib/src/client/channel/ClientChannelTcp.cpp", "lib/src/client/session/ClientSessionImpl.cpp", "lib/src/client/session/ScheduledRequest.hpp"]}
{"id": "C117", "title": "Nothing leaks", "statement": "When the channel has been shut down, the executor has run what was left and the user has dropped the handles, the memory of the channel, its sessions and its scheduled requests is released, although they hold references to each other; and as long as a request is polled it is kept alive without any handle.", "quantifier": "For all histories of the client: API calls on the channel, its sessions and their scheduled requests, tasks and timers run by the executor in any order, events of the connection, received bytes, passing of time.", "why_tests_cant": "A leak shows only at the end of a process, on the one interleaving that closes a cycle of references; a test cannot show that no interleaving does.", "anchors": ["lib/src/client/channel/ClientChannelTcp.cpp", "lib/src/client/session/ClientSessionImpl.cpp", "lib/src/client/session/ScheduledRequest.hpp"]}
{"id": "C118", "title": "The API can be used from several threads", "statement": "The functions of the API may be called from any thread at any time without a data race in the library.", "quantifier": "For all histories of any number of user threads, strands, channels, sessions and scheduled requests, and all ways the user synchronises threads.", "why_tests_cant": "A data race is undefined behaviour on schedules a test does not control; sanitizers see only the executions that happen.", "anchors": ["lib/src/client/channel/ClientChannelTcp.cpp", "lib/src/client/session/ClientSessionImpl.cpp", "lib/src/client/session/ScheduledRequest.hpp", "lib/src/server/channel/ServerChannelTcp.cpp", "lib/src/ModbusManagerImpl.cpp"]}
{"id": "C119", "title": "A server releases what it no longer needs", "statement": "The memory a server uses does not grow with the number of clients it has served: when nothing is left to do there are at most max_num_connections + 1 connection objects; a closed connection is released with all it has; after shutdown the channel, the connections and the sessions are released as soon as the user drops them; a connection in service is never released.", "quantifier": "For all histories of a server channel with any number of connections, all interleavings and completions, all users' handles.", "why_tests_cant": "A test sees the allocations of the histories it runs; a leak may need a particular order of accepts, failures and shutdown.", "anchors": ["lib/src/server/channel/ServerChannelTcp.cpp", "lib/src/server/channel/AsioServer.cpp", "lib/src/server/channel/AsioServerTcpConnection.cpp", "lib/src/server/channel/ServerConnectionListener.h"]}
{"id": "C120", "title": "A polled value comes from the device", "statement": "Whenever the response handler of a scheduled request is called with a response, that response is what the server's session returned when it was called, once, with exactly the scheduled request, for a message to the unit of the client session, between the sending of this poll and the call of the handler.", "quantifier": "For all histories of any number of clients with sessions and scheduled requests, their connections, the network and the server: all API calls, interleavings, fragmentations, delays, errors and timeouts.", "why_tests_cant": "A test compares a few polled values with a server whose answers it knows; whether an answer to an older poll, to another scheduled request or to another session can be reported needs all interleavings of timeouts, reconnections and partial reads.", "anchors": ["lib/src/client/channel/ClientChannelTcp.cpp", "lib/src/client/session/ClientSessionImpl.cpp", "lib/src/client/session/ScheduledRequest.hpp", "lib/src/client/channel/AsioClientTcpConnection.cpp", "lib/src/server/channel/ServerChannelTcp.cpp", "lib/src/server/channel/AsioServerTcpConnection.cpp"]}
{"id": "C121", "title": "Polls see what has been written", "statement": "With a server whose sessions keep their values in the in-memory database: once a write of a register or coil has been answered with success, to whichever client, the response to each poll of it that any client sends afterwards gives the written value, unless a request executed since the write was made assigned another value.", "quantifier": "For all histories of any number of clients with sessions and scheduled requests, their connections, the network and the server: all API calls, interleavings, fragmentations, delays, errors and timeouts.", "why_tests_cant": "A stale value would appear only in particular interleavings of several clients, the network and the server.", "anchors": ["lib/src/client/channel/ClientChannelTcp.cpp", "lib/src/client/session/ClientSessionImpl.cpp", "lib/src/client/session/ScheduledRequest.hpp", "lib/src/client/channel/AsioClientTcpConnection.cpp", "lib/src/server/channel/ServerChannelTcp.cpp", "lib/src/server/channel/AsioServerTcpConnection.cpp"]}
{"id": "C122", "title": "A channel logs at the level it was created with", "statement": "A line of a channel or of its connections is printed if and only if its level is at least the level given when the channel was created; it is printed on exactly the sinks of the logger given to the manager, under the name of the channel (with ' - Connection' or ' - Server'). Other channels, the level of the manager's logger and later changes of levels make no difference.", "quantifier": "For all histories: any loggers, managers and channels, created in any order, with any names and levels, and any lines written.", "why_tests_cant": "A test looks at a few lines of one channel; that nothing done elsewhere, earlier or later, changes what a channel prints is a statement about all histories.", "anchors": ["lib/src/logging/Logger.h", "lib/src/logging/LoggerFactory.cpp", "lib/src/logging/LoggingLevelConversion.h", "lib/src/ModbusManagerImpl.cpp"]}
{"id": "C123", "title": "The level of a logger limits what is printed with it", "statement": "What is printed by the channels of a manager that was given a console logger is at least of the level the logger was created with.", "quantifier": "For all histories: any loggers, managers and channels, created in any order, with any names and levels, and any lines written.", "why_tests_cant": "A test shows that one line is or is not printed; that nothing below the level is ever printed is a statement about all channels and lines.", "anchors": ["lib/src/logging/Logger.h", "lib/src/logging/LoggerFactory.cpp", "lib/src/ModbusManagerImpl.cpp"]}
{"id": "C124", "title": "The client's log is truthful", "statement": "The lines written by a client channel are, in order, what an observer would write who only sees its effects: one line for every frame sent (with the unit and transaction id in the frame, the timeout given by the caller and the length of the PDU), for every chunk of data, for every message received (with its ids, and whether it answers the request that is out), for every timeout (with the ids of the request that is out), for every failure of the connection and for the shutdown; and no other line.", "quantifier": "For all histories of a client channel: all API calls, responses in any fragmentation, errors, timeouts, and their interleavings.", "why_tests_cant": "A test compares the log of a few exchanges; a line with the ids of the wrong request, a missing line or one too many would show only in particular interleavings of responses, timeouts, errors and shutdown.", "anchors": ["lib/src/client/channel/ClientChannelTcp.cpp"]}
{"id": "C125", "title": "No message vanishes silently at a server", "statement": "Every message a server receives before it is shut down is either handed to the session of its unit, as the request it denotes, or answered by a warning in the log, written at once, that says what is wrong with it (unknown unit, unsupported function code, invalid); warnings are written for no other reason; after the shutdown messages lead to nothing.", "quantifier": "For all histories of a server channel: all API calls, messages on any number of connections in any fragmentation, errors, any user sessions.", "why_tests_cant": "All byte sequences that can be a message, and all states of the server, would have to be tried.", "anchors": ["lib/src/server/channel/ServerChannelTcp.cpp"]}
{"id": "C126", "title": "A timer's action is called once, on time, unless it is cancelled", "statement": "The action of a timer started on a session is called at most once, never before the time the timer was started for, and not at all if the timer is cancelled before that time; once its time has come and it has been neither called nor cancelled, the executor can call it at once; if it is never cancelled, it is called in every fair execution, whatever happens to the channel. The user's functions may start and cancel timers, make requests and shut the channel down themselves.", "quantifier": "For all client channels, all functions the user may give as response handlers and timer actions (what they call may depend on everything that has happened), all calls from other threads, everything the connection and the executor do, and all interleavings.", "why_tests_cant": "A test starts and cancels a few timers; the races between expiry, cancellation and the functions that run on the strand are decided by the executor.", "anchors": ["lib/src/client/session/ClientSessionImpl.cpp", "lib/src/TimerWrapper.cpp"]}
{"id": "C127", "title": "After the shutdown of a channel no function of the user's is called", "statement": "A shutdown of a client channel takes effect in every fair execution, whether called from another thread or by a function of the user's. Once the shutdown of a client channel has taken effect, no response handler and no action of a timer is called any more.", "quantifier": "For all client channels, all functions the user may give as response handlers and timer actions (what they call may depend on everything that has happened), all calls from other threads, everything the connection and the executor do, and all interleavings.", "why_tests_cant": "A test sees what is called after one shutdown; what was posted, armed or queued at that moment differs from execution to execution.", "anchors": ["lib/src/client/channel/ClientChannelTcp.cpp", "lib/src/client/session/ClientSessionImpl.cpp"]}
{"id": "C128", "title": "Polling written with timers goes on and does not pile up", "statement": "A polling loop as the documentation suggests (an action that sends a request, whose response handler starts a timer for the action again) goes on for ever: any number of requests are made and any number of response handlers called, whatever the server answers or does not answer. It has at most one request waiting at any time, and between one call of the action, or of the response handler, and the next call of the action at least the chosen time passes.", "quantifier": "For all functions the user may give, and all fair infinite executions of a channel with them. The last two statements hold for all histories.", "why_tests_cant": "For ever cannot be tested, and the server, the connection and other users of the channel can interfere in unboundedly many ways.", "anchors": ["lib/src/client/session/ClientSessionImpl.cpp", "lib/src/client/channel/ClientChannelTcp.cpp", "lib/include/modbus/client/IClientSession.h"]}
{"id": "C129", "title": "Response handlers may use the API", "statement": "Each response handler is called at most once, in the order in which the results come in, and for the request it was given with, whatever the handlers and timer actions do: send requests, start and cancel timers, shut down. If the channel is not shut down, the handler of every request, wherever it was made, is called in every fair execution. A function that has begun makes all its calls, in order, before the next one begins.", "quantifier": "For all client channels, all functions the user may give as response handlers and timer actions (what they call may depend on everything that has happened), all calls from other threads, everything the connection and the executor do, and all interleavings.", "why_tests_cant": "Handlers that make requests, whose handlers make requests, interleave with results, timeouts and errors in unboundedly many ways.", "anchors": ["lib/src/client/session/ClientSessionImpl.cpp", "lib/src/client/channel/ClientChannelTcp.cpp"]}
{"id": "C130", "title": "Open connections are read, one read at a time", "statement": "Whoever is connected is heard: as long as a connection is established and nothing has failed on it, the library has a read in progress on it or is about to handle what a read has brought. There is never more than one read in progress on a connection, so no two reads fill the same buffer at the same time.", "quantifier": "For all histories of a client's connection and of a listening server with any number of connections: all calls, all results of asynchronous operations, all orders of the queued tasks.", "why_tests_cant": "A read that is not started again after some rare sequence of events, or started twice, shows only in that sequence; there are unboundedly many.", "anchors": ["lib/src/server/channel/AsioServerTcpConnection.cpp", "lib/src/server/channel/AsioServer.cpp", "lib/src/client/channel/AsioClientTcpConnection.cpp"]}
{"id": "C131", "title": "The connections' log lines tell what happened", "statement": "Every attempt to connect, failure, arrival of bytes, write that is done, connection established and socket closed is written to the log exactly once, in the order in which they happen, and nothing else is. The numbers of bytes received are the right ones. After its shutdown has taken effect a client's connection writes nothing.", "quantifier": "For all histories of a client's connection and of a listening server with any number of connections.", "why_tests_cant": "That no history leads to a missing, wrong or additional line is a statement about unboundedly many histories.", "anchors": ["lib/src/client/channel/AsioClientTcpConnection.cpp", "lib/src/server/channel/AsioServerTcpConnection.cpp"]}
{"id": "C132", "title": "A response handler that throws harms no other request", "statement": "If a response handler throws (for instance because it calls get() on a result that is a timeout or a connection error without looking at is_valid), and the executor goes on with the next task, then no handler is called twice, and the other requests of the channel are still sent, in order and one at a time, and told their results.", "quantifier": "For all sequences of API calls, received data, expiring timers and connection errors, and for all choices of which calls of handlers throw.", "why_tests_cant": "Which of the calls throws, in which state of the channel, and everything that may happen afterwards are unboundedly many cases; that a request is never sent is not something a finite test can show.", "anchors": ["lib/src/client/channel/ClientChannelTcp.cpp", "lib/src/MbapParser.cpp", "lib/src/client/channel/AsioClientTcpConnection.cpp", "lib/include/modbus/Expected.h"]}
{"id": "C133", "title": "A started server serves whoever connects", "statement": "Once start() has been carried out, and until shutdown() is called, a client can connect at any time. Its connection is read as soon as it has been accepted, and whatever other clients do and whatever is called in the meantime, its first request for a unit whose session has been added by then is given to exactly that session, exactly as it was sent, and exactly the frame of the session's answer goes out on its connection.", "quantifier": "For all sequences of API calls, accepted and failing connections, received data, completed and failing writes and tasks run by the strand, all numbers of clients, all sessions and all requests.", "why_tests_cant": "That nothing which happens before or elsewhere keeps a client from being served is a statement about all histories of all clients.", "anchors": ["lib/src/server/channel/ServerChannelTcp.cpp", "lib/src/server/channel/AsioServer.cpp", "lib/src/server/channel/AsioServerTcpConnection.cpp", "lib/src/server/channel/ServerConnectionListener.cpp"]}
{"id": "C134", "title": "Sessions that throw", "statement": "Whatever exceptions sessions throw: every open connection goes on handing over the requests it receives, no request is answered twice or for another one, other clients and other sessions are served as if nothing had been thrown, after the shutdown nothing more happens, and the shutdown tells every registered session exactly once.", "quantifier": "For all sessions, all choices of the requests and shutdowns for which they throw, and all sequences of API calls, connections opened, failing and closed, received data and tasks run by the strand.", "why_tests_cant": "What an exception skips shows only in what happens later, on that connection and on all others, in histories no test enumerates.", "anchors": ["lib/src/server/channel/ServerChannelTcp.cpp", "lib/src/server/channel/ServerConnectionListener.cpp", "lib/src/server/channel/AsioServerTcpConnection.cpp"]}
{"id": "C135", "title": "Scheduled requests whose handler throws", "statement": "Whatever exceptions the handler of a scheduled request throws: while the request is running, a poll is in progress or the next one is scheduled; the handler is called exactly once per completed poll; there is at most one poll at a time, with at least the polling time between a result and the next poll; and after stop() takes effect nothing is sent until start().", "quantifier": "For all choices of the results at which the handler throws, all polling times and all sequences of start, stop, set_frequency, responses, clock ticks, expiring timers and tasks run by the executor.", "why_tests_cant": "What an exception skips shows only in what does not happen later, in histories with starts, stops and exceptions at any place.", "anchors": ["lib/src/client/session/ScheduledRequest.hpp"]}
{"id": "C136", "title": "Transactions that throw", "statement": "If the function given to execute_transaction throws, the caller of execute_transaction gets the exception, the database is as if the transaction had not been carried out, and all other users of the database go on; with any number of threads every execution gives the same results and the same database as carrying out the calls one after another in an order consistent with each thread's program.", "quantifier": "For all databases, all numbers of threads, all programs of add_* calls, requests and transactions that throw at any point, and all schedules.", "why_tests_cant": "Whether an exception at any point of any transaction leaves the mutex or the tables in a bad state for some other thread depends on all interleavings.", "anchors": ["lib/src/server/db/InMemoryDatabase.cpp", "lib/include/modbus/server/db/InMemoryDatabase.h"]}
{"id": "C137", "title": "Transactions may use the database", "statement": "A function given to execute_transaction may call every function of the database, through the IDatabase it is given or directly; no execution is undefined.", "quantifier": "For all databases, transactions, numbers of threads, programs and schedules.", "why_tests_cant": "Locking a mutex one already owns is undefined behaviour, which a test can at best run into as a hang; that nothing else leads to it is a statement about all programs.", "anchors": ["lib/src/server/db/InMemoryDatabase.cpp", "lib/include/modbus/server/db/InMemoryDatabase.h"]}
{"id": "C138", "title": "Sessions that throw do not stop connections from being read", "statement": "Whatever a session does, even if it throws, every connection the server has accepted and that has neither failed nor been closed is being read, so that later requests and the end of the connection are noticed; the limit on connections, the eviction of the oldest, the number reported, accepting and closing are not affected by exceptions.", "quantifier": "For all sessions, all patterns of exceptions, all numbers of clients, all data they send in any segmentation, all failures, all limits and all interleavings.", "why_tests_cant": "A connection that silently stops being read shows only as something that does not happen; that the bookkeeping survives exceptions at any point of any history needs an argument about all histories.", "anchors": ["lib/src/server/channel/ServerConnectionListener.cpp", "lib/src/server/channel/AsioServer.cpp", "lib/src/server/channel/AsioServerTcpConnection.cpp", "lib/src/server/channel/ServerChannelTcp.cpp"]}
{"id": "C139", "title": "A server ends a connection only for a reason", "statement": "A server drops a connection, closes its socket or reports an error on it only if accepting it or reading or writing on it failed (or reached the end of the stream), if it is the oldest connection when another client connects and as many as allowed are already connected, or if the channel's shutdown was called; so a connected client stays connected and is read whatever the other clients do.", "quantifier": "For all limits, all numbers of clients, all data, all failures on other connections, all sessions and all interleavings.", "why_tests_cant": "That nothing else ever ends a connection is a statement about all histories of all connections; a test sees only the histories it produces.", "anchors": ["lib/src/server/channel/AsioServer.cpp", "lib/src/server/channel/AsioServerTcpConnection.cpp", "lib/src/server/channel/ServerChannelTcp.cpp"]}
{"id": "C140", "title": "A client gives up a connection, and fails requests, only for a reason", "statement": "The client reports its current connection attempt as failed, or closes it, only after one of that attempt's own operations (resolving, connecting, reading, writing) has failed or the peer has closed that connection; a request fails with a connection error only right after such a report; while nothing fails there is only one connection attempt and no request fails with a connection error; and nothing is shut down unless shutdown() has been called.", "quantifier": "for all channel configurations, all histories of API calls, timers, completions of network operations and orders of queued handlers", "why_tests_cant": "A test sees the failures it provokes; that none happens without a cause is a claim about every history, including those in which handlers of an earlier connection are still queued when the next attempt starts.", "anchors": ["lib/src/client/channel/AsioClientTcpConnection.cpp", "lib/src/client/channel/ClientChannelTcp.cpp"]}
{"id": "C141", "title": "Every call of the user's code counts exactly once, and nothing is done in their name without a call", "statement": "Whatever response handlers and timer actions call, at whatever moment: every request, response handler and timer they or other threads ask for is taken on exactly as often as it is asked for, with the arguments given; a timer is cancelled only if cancel has been called for it, a timer is started only for a time and action somebody asked for, and the connection is shut down only if shutdown() has been called.", "quantifier": "for all user code (functions of everything that has happened), all calls of other threads, all configurations and all interleavings of the strand, timers and network", "why_tests_cant": "User code may react to anything that has happened; that no call is lost, doubled or made up is a statement about all programs and all interleavings.", "anchors": ["lib/src/client/channel/ClientChannelTcp.cpp", "lib/src/client/session/ClientSessionImpl.cpp"]}
{"id": "C142", "title": "A session's requests go to its unit, with the timeout given or else the session's default", "statement": "create_session creates a new session until the channel has shut down and none afterwards. Every call of send_request makes exactly one request, and every call of schedule_request schedules exactly one, for the unit the session was created with, with the request given, and with the timeout given or, if none was given, the default timeout of that session. Every request the client handles, and every frame it puts on the wire, comes from such a call. A request fails with a timeout only when the time so allowed for some request sent is up; if no timer's callback runs late, for this very request.", "quantifier": "for all histories: any number of sessions with any units and defaults, calls of all overloads in any order, tasks, timers and network events in any interleaving", "why_tests_cant": "Which unit and which timeout a request gets must not depend on what other sessions do, nor on anything that has happened before; tests try single sessions with one timeout.", "anchors": ["lib/src/client/session/ClientSessionImpl.cpp", "lib/src/client/session/ScheduledRequest.hpp", "lib/src/client/channel/ClientChannelTcp.cpp"]}
{"id": "C143", "title": "The example server does what it says", "statement": "The database of the example server starts with the points 0 to 99 in all four tables (coils and discrete inputs on exactly at odd addresses, registers holding their own addresses) and always has exactly these points. While any number of threads serve requests, typing 'f' inverts coil 0, once per 'f' before the first 'q', never loses a client's write or another flip, never uses the variable the program leaves uninitialised, and touches nothing else. Unit 1 answers a request for up to eight coils by 'the first is on, the others are off' at the addresses asked for, makes a request for more coils fail as malformed, and refuses every other request as an illegal function.", "quantifier": "for all keys typed, all programs of any number of threads making requests, all schedules of the threads' single steps, all contents of the uninitialised variable; for unit 1 all requests in all states of the server", "why_tests_cant": "The key and the requests race on the same database; the uninitialised variable is harmless only because no interleaving can make coil 0 disappear.", "anchors": ["examples/server/main.cpp", "lib/src/server/db/InMemoryDatabase.cpp"]}
{"id": "C144", "title": "What is_running and get_frequency answer", "statement": "The calls of start, stop and set_frequency on a scheduled request are carried out in the order in which they were made, each once. is_running and get_frequency answer exactly what the calls carried out so far ask for, never something no prefix of the calls asks for and never an older state than an earlier answer; once the calls made are carried out, the answers are those of the last calls. 'Running' means that a request is in flight or a timer set; after 'not running' and until a start takes effect, at most the polls whose timers were already set are sent.", "quantifier": "for all histories of calls, questions, tasks, timers, responses and passing time", "why_tests_cant": "The calls take effect on another thread; the tests ask only when nothing is waiting.", "anchors": ["lib/include/modbus/client/IScheduledRequest.h:48-100", "lib/src/client/session/ScheduledRequest.hpp:44-107"]}
{"id": "C145", "title": "The keys of the example client switch polling and its frequency", "statement": "In the example client, key 's' turns polling off if it is on and on if it is off, and key 'f' switches between two and five seconds: when everything has been carried out, polling is on if and only if 's' was typed an even number of times, and the frequency is two seconds if and only if 'f' was typed an even number of times.", "quantifier": "for all sequences of keys and all schedules of the background threads", "why_tests_cant": "Asking first and calling afterwards is a race with the background thread; it shows only when keys are typed faster than the calls are carried out.", "anchors": ["examples/client/main.cpp:105-128", "lib/src/client/session/ScheduledRequest.hpp"]}
{"id": "C146", "title": "The example client asks for what its keys say", "statement": "The example client schedules one request, a read of 59 holding registers from address 36 every two seconds; each key 'r' makes one request to read the coil at address 36, each 'w' one to write 11, 22 and 33 from address 36, each 's' one start or stop (stop exactly if polling is on), each 'f' one change of the frequency, to two or five seconds and never to what it is; other keys make none, and no key is obeyed after 'q'. Everything goes to unit 1 with three seconds allowed, so every frame on the wire is, after its transaction id, one of three fixed byte strings. No keys and no schedule of the threads lead to undefined behaviour.", "quantifier": "for all sequences of keys and all histories of tasks, timers, received data, connection errors and passing time in between", "why_tests_cant": "The example is an interactive program with background threads; no test runs it, and its traffic depends on the interleaving.", "anchors": ["examples/client/main.cpp:25-140", "lib/src/client/session/ClientSessionImpl.cpp:67-279"]}
{"id": "C147", "title": "A scheduled request is executed at most once per poll, in order", "statement": "Whatever the sessions of the server are called with for a message from a client goes back to a poll of one of this client's scheduled requests or to a one-time request, with the same request and for the unit of the client session; different calls go back to different polls or requests, so that what only one scheduled request asks for is executed at most as often as it was polled; on one connection the calls are made in the order of the polls and requests.", "quantifier": "for all numbers of clients, sessions and scheduled requests, all user programs of the server, and all histories of polls, one-time requests, tasks, timers, network operations and losses of connections", "why_tests_cant": "Execution twice or in the wrong order needs particular interleavings of timeouts, reconnections and writes; the tests drive a client with a mock of the connection and never join it to a server.", "anchors": ["lib/src/client/session/ScheduledRequest.hpp:80-111", "lib/src/client/channel/ClientChannelTcp.cpp:60-219", "lib/src/client/channel/AsioClientTcpConnection.cpp", "lib/src/server/channel/ServerChannelTcp.cpp:95-215", "lib/src/server/channel/AsioServerTcpConnection.cpp"]}
{"id": "C148", "title": "What was answered was executed exactly once", "statement": "The calls of the server's sessions for messages from a client go back to different requests of this client, one-time requests or polls of scheduled requests, with the same request and for the same unit; and each request or poll that was answered is one of those: it was executed exactly once. (What was not answered was executed once or not at all.)", "quantifier": "for all numbers of clients, all user programs of the server, and all histories of requests, polls, tasks, timers, network operations and losses of connections", "why_tests_cant": "A missing or repeated execution needs particular interleavings of timeouts, late answers and reconnections between two communicating programs; no test joins a client to a server.", "anchors": ["lib/src/client/channel/ClientChannelTcp.cpp:60-219", "lib/src/client/channel/AsioClientTcpConnection.cpp", "lib/src/client/session/ScheduledRequest.hpp:90-107", "lib/src/server/channel/ServerChannelTcp.cpp:99-215", "lib/src/server/channel/AsioServerTcpConnection.cpp"]}
{"id": "C149", "title": "A device is not asked more often than the polling time allows", "statement": "From each poll of a scheduled request on which the user calls neither start nor set_frequency to each later poll of it, the polling time passes at least as many times as polls are sent: late timers, slow answers or lost connections are never made up for. So if only this scheduled request asks for something, and its polls are sent between the times S and T, then the server executes it at most (T - S) divided by the polling time, plus one, times.", "quantifier": "for all numbers of clients, sessions and scheduled requests, all polling times, all user programs of the server, and all histories of polls, tasks, timers, network operations and losses of connections", "why_tests_cant": "A rate is a statement about histories of any length: late timers, timeouts and reconnections must not let the polls catch up. The tests look at one or two polls of a client with a mock of the connection.", "anchors": ["lib/src/client/session/ScheduledRequest.hpp:30-111", "lib/src/client/session/ClientSessionImpl.cpp", "lib/src/client/channel/ClientChannelTcp.cpp:60-219", "lib/src/server/channel/ServerChannelTcp.cpp:95-215"]}
