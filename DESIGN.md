# Formal model of modbus-cpp: design

Source of truth: `/repo` (C++, read as text, never built or run).  Model, specifications and proofs: `lean/Verif`.
Properties: `properties.jsonl`.  Status per property: `MANIFEST.json`.  Mutation log: `seeded/LOG.jsonl`.

Build: `lake build` in `lean/` (Lean 4.33.0, Mathlib as installed).

## 1. Structure

* `Verif/Types.lean`  plain data shared by model and specifications; no behaviour.
* `Verif/Model/*`  executable model, one definition per C++ function (or loop, or posted lambda), each citing file and lines.
* `Verif/Spec/*`   small specifications, written from the English (Modbus PDU layout, MBAP stream, abstract maps, what it means for
  a log of effects to be right).  They use the model's data types, not its functions; the exception are the predicates over reachable
  states of the state machines (`CliReach`, `TcpReach`, ...), which by nature mention `init` and `step`.
* `Verif/Lemmas/*` helper lemmas and invariants.
* `Verif/Props/*`  the property theorems (namespace `Modbus.Props`, names `Cnn_...`) and, beside each, an `example` in which its
  hypotheses are met by a concrete, non-trivial case.

Naming: `Cnn_Statement` is the full property where the code does not have it, `Cnn_violated` its negation (with a concrete run of
the model as witness), `..._partial` what does hold.

| Model file | C++ |
|---|---|
| `Bytes` | the parts of ser4cpp that are used (assumed, external) |
| `Messages` | `lib/src/messages/*Impl.cpp/.h`, `IMessage.cpp`, `ExceptionResponse.cpp`, `ExceptionType.cpp`, the limits in `lib/include/modbus/messages/*.h` |
| `Mbap` | `lib/src/messages/mbap/MbapMessage.cpp`, `MbapParser.cpp` |
| `Server` | `lib/src/server/channel/ServerChannelTcp.cpp`, `ServerConnectionListener.cpp`, `ServerConnectionListenerBuilder.cpp`, defaults of `IServerSession.h` |
| `Db`, `DbThreads` | `lib/src/server/db/SingleTypeDatabase.cpp`, `InMemoryDatabase.cpp` (values; threads and mutex) |
| `Client` | `lib/src/client/channel/ClientChannelTcp.cpp`, `PendingRequest.h`, response handler of `ClientSessionImpl::meta_send_request` |
| `Scheduled` | `lib/src/client/session/ScheduledRequest.hpp` |
| `ClientConn` | `lib/src/client/channel/AsioClientTcpConnection.cpp` |
| `AsioServer` | `lib/src/server/channel/AsioServer.cpp`, `AsioServerTcpConnection.cpp` |
| `Session` | `lib/src/client/session/ClientSessionImpl.cpp` |
| `Stack` | no file of its own: how `ClientChannelTcp` and `AsioClientTcpConnection` call each other (models `Client` and `ClientConn` joined) |
| `ServerStack` | no file of its own: how `ServerChannelTcp`, `ServerConnectionListener`, `AsioServer` and `AsioServerTcpConnection` call each other (models `Server` and `AsioServer` joined) |
| `System` | no file of its own: the models `Client` and `Server` joined by TCP connections (network assumed, see the file's comment) |
| `World` | no file of its own: any number of clients (`Stack`) and a server (`ServerStack`) with all their connections, joined by a network (assumed, see the file's comment) |
| `Polling` | no file of its own: the client channel (`Cli`), its sessions and their scheduled requests (`Session`, `Scheduled`) together: `ClientSessionImpl.cpp:241-258`, `ScheduledRequest.hpp:84-105`, `ClientChannelTcp.cpp:95-105` |
| `SessionApi` | `ClientSessionImpl.cpp:40-51, 67-228` (constructor and overloads), `ClientChannelTcp.cpp:42-57`, on top of `Polling` |
| `ExampleServer` | `examples/server/main.cpp` (the session of unit 1, the points of unit 2, the keys), on top of `DbThreads` |
| `Queries` | `ScheduledRequest.hpp:44-88` (calls and questions of one scheduled request, on top of `Scheduled`), `examples/client/main.cpp:105-128` (keys `s` and `f`) |
| `ExampleClient` | `examples/client/main.cpp` (the scheduled request and all keys), on top of `SessionApi` |
| `PollWorld` | no file of its own: `Polling` with the client's own connection (`ClientConn`), any number of such clients and a server (`ServerStack`), joined by the network of `World` |
| `UserCode` | `ClientSessionImpl.cpp:231-239`, `TimerWrapper.cpp`, with response handlers and timer actions as arbitrary code that calls the API, on top of `Client` |
| `Logging`, `ConnLogging` | the `m_logger->` lines of `ClientChannelTcp.cpp`, `ServerChannelTcp.cpp`, `AsioClientTcpConnection.cpp`, `AsioServerTcpConnection.cpp`; `lib/src/logging` |
| `Throwing` | `ClientChannelTcp.cpp`, `MbapParser.cpp`, `AsioClientTcpConnection.cpp` again, with response handlers that throw (the functions of `Client` with an early exit) |
| `ServerThrowing` | `ServerChannelTcp.cpp`, `ServerConnectionListener.cpp`, `AsioServerTcpConnection.cpp` again, with sessions that throw (the functions of `Server` with an early exit) |
| `ServerStackThrowing` | `AsioServer.cpp`, `AsioServerTcpConnection.cpp` joined with `ServerThrowing`: what an exception of a session does to the connections (the functions of `AsioServer` and `ServerStack`, with an end of the read handler before `begin_read`) |
| `ScheduledThrowing` | `ScheduledRequest.hpp` again, with a handler that throws |
| `DbThrowing` | `InMemoryDatabase.cpp` again, with transactions that throw or call the database itself |
| `Manager` | `lib/src/ModbusManagerImpl.cpp`, `lib/src/IModbusManager.cpp` |
| `Expected` | `lib/include/modbus/Expected.h` with the classes of `lib/include/modbus/exceptions` |
| `Format` | `UnitIdentifier.cpp`, `TransactionIdentifier.cpp`, `ExceptionType.cpp` (`operator<<`), `ModbusException.h` |

### Modelling conventions

* Bytes are `UInt8`, 16-bit fields `UInt16`, `unsigned int` `UInt32` (wrap-around included).  `size_t` is `Nat`, with subtraction
  modulo 2^64 where the code can underflow (`subSizeT`, `sizeT`).
* `ser4cpp::rseq_t` is `List UInt8`; `ser4cpp::wseq_t` over a fixed buffer is a pair (bytes already written, memory not yet
  written), so leftover memory content is visible in the model.
* Undefined behaviour is an explicit outcome: `CM α := ub | ret a`.  An unchecked `read_from` on a too short view, dereferencing
  `end()`, `front()` of an empty list, reading the inactive member of a union, an asynchronous write from freed memory are `ub`.
* `Expected<T>` is `Except Exc T` (the class itself is modelled separately, C74), with `Exc` the library's exception classes (`other`
  stands for user-defined ones).
* A strand (`exe4cpp::StrandExecutor`) runs one task at a time, tasks posted earlier first.  Each model `step` is one strand
  task, one API call or one event of the environment (data, errors, time).  Histories are arbitrary lists of steps: every order of events the
  environment may choose is considered, with no bound on length.
* Timers have an identity and a deadline; an expired timer's callback is queued first and run later.  `Timer::cancel` removes an
  armed timer, but cannot retract a queued callback (asio semantics).
* Effects the user or the peer can see (bytes sent, handlers called, sessions asked, ...) go to a log, in the order in which they happen;
  properties speak about the log.
* The user's code is arbitrary: server sessions are functions on an arbitrary state, response handlers may call the API again (API
  calls may occur between any two steps).

## 2. Properties and methods

| Property | Method |
|---|---|
| C01-C13 | case analysis on list shapes, induction for bit packing and register lists, comparison with `Spec/Pdu` |
| C14-C21 | the parser refines a deframer on the whole stream (`Spec/Stream`), by induction over the stream and the chunks, for any initial buffer content and both readings of `copy_from` |
| C22-C34 | case analysis and induction over histories of the channel |
| C35-C41 | refinement to four abstract maps; invariant of sorted keys; simulation of every thread schedule by a sequential one |
| C42-C44 | composition of client, framing in both directions, server and database |
| C45-C57 | invariants by induction over histories of the channel; C52 also as liveness over infinite fair executions |
| C58-C61 | same, for one scheduled request |
| C62-C67 | same, for the client's connection with its asynchronous operations and buffer lifetimes |
| C68-C71 | same, for the listening server and its connections |
| C72 | same, for a session with all its scheduled requests; projection to C58-C61 |
| C73 | induction over histories |
| C74 | case analysis over constructions of objects |
| C75, C76 | arithmetic of digits; case analysis |
| C77–C81 | invariant of client, network and server together by induction over their joint histories |
| C82–C92 | the channel and its connection composed on one strand; every history projects to a history of each, the logs are tied by an invariant; C88 by symbolic execution of the exchange |
| C93–C99 | the server channel and its connections composed on one strand, proved as C82–C92; C97 with a measure that decreases with every task run after the shutdown; C99 by a frame argument for every step |
| C100 | as C82–C92, following the bytes given to the parser |
| C101–C105 | all clients, the server and the network composed (`World`); invariant by induction over joint histories, which ties the bytes in transit to both ends' logs |
| C106–C108 | symbolic execution of a whole exchange (connecting, sending, serving, answering) from every state of rest; C107, C108 by induction over the list of requests |
| C109, C110 | C101 with the database of C35 behind the sessions: replay of the session calls, as C81 |
| C111 | channel, sessions and scheduled requests composed on one strand (`Polling`); every history projects to a history of each part, invariant on the joint log |
| C112 | liveness: every poll completes (C52), every timer expires, so the loop goes on; that fair executions exist is proved with a dovetailing scheduler |
| C113–C115 | invariants of the composed client; C114 follows the posted stop tasks in the sessions' queues; C115 by C59 and the monotone clock of the joint log |
| C116 | a measure that falls with every task or timer run after shutdown, and fairness |
| C117 | reference counts as a least fixpoint over the graph of `shared_ptr`s (`Ownership`); invariant on the posted shutdown and registration tasks |
| C118 | what every function reads and writes on which thread (`Threads`), happens-before as an inductive relation, case analysis of conflicting accesses |
| C119 | the same for the server (`ServerOwnership`); acyclic graph, invariants of the accept loop (C68, C97) |
| C120, C121 | clients with sessions, scheduled requests and connections, and a server (`Plk`, `PWorld`); each step, sessions and scheduled requests left out, is a step of `World` (refinement), so C101 to C110 carry over; joined with C111 |
| C122, C123 | loggers, managers, channels and sinks as a machine (`Logs`); loggers of the library never change; C123 also by a relation between histories that differ in one level |
| C124 | the lines of the channel next to its effects (`Cli.runLines`); a witness that sees only the effects (`Witness`) writes the same lines; invariant linking witness and channel |
| C125 | effects and lines of the server interleaved (`Srv.runTrace`), accepted by a grammar (`Accounted`) |
| C126, C129 | channel and user's code together (`Upr`): timers, response handlers and actions that call the API; invariants; liveness by projection to the channel (C52); fair executions by a scheduler that lets the user's code go first |
| C127 | requests after shutdown are dropped (`late_calls`), handlers are finished when the shutdown runs (`shutdown_idle`) |
| C128 | liveness: action, request, handler, timer, action; safety: a balance of timers, requests and calls still to come, at most one (`Loop`) |
| C130 | invariant of the connections: while the socket is open and nobody has given up, exactly one read is under way |
| C131 | lines next to the effects of the connections (`ConnLogging`), accepted by a grammar, as C124, C125 |
| C132, C134–C136, C138 | the functions again with an early exit (`Throwing`, `ServerThrowing`, `ScheduledThrowing`, `DbThrowing`, `ServerStackThrowing`); invariants of the same kind; with functions that never throw they are the functions of the other models |
| C133 | fairness of the accept loop and of the network; induction on what is still to be accepted |
| C137 | a transaction as a program over the interface of the database; induction over the program |
| C139, C140 | every step that ends a connection or fails a request shows its cause in the history; invariants that carry the cause from the step where it is queued to the one where it acts |
| C141 | accounting: a permutation between the calls made and what has been done or is still to do (`Books`) |
| C142 | the overloads of the sessions (`SessionApi`) on top of `Polling`; the joint log is made of blocks (`Formed`) |
| C143 | C41 turns the threads into a serial execution; an invariant relates its tables to those the requests alone would have led to (`Holds`) |
| C144, C145 | the log of calls, their carrying out and answers (`Queries`); the members are a function of the calls carried out, which are a prefix of the calls made |
| C146 | invariant of the example program (`ExampleClient`): the calls in the log are a function of the keys read; C142 traces every request of the channel and C55 every frame to such a call |
| C147 | C102 and C105 along the projection of worlds of polling clients onto worlds of channels (`Lemmas/PollWorld`), joined to C111 (a poll is one call of the channel); counting calls and polls by induction on the blocks of the log |
| C148 | C101 gives the execution behind an answer, C102 the request behind an execution; both have the rank of the request as transaction id, and ranks below 65536 are different for different requests |
| C149 | invariant of one scheduled request: from each poll on, the number of polls sent since, times the polling time, has passed by the deadline of every armed timer, and by the present time when a timer has expired; lifted to the client as in C115, joined to C147 |

No property is left out as inexpressible.  `MANIFEST.json` gives the theorems of each.

## 3. Trusted base

1. Lean's kernel (4.33.0), and the elaborator's faithful display of the statements.
2. Axioms: only `propext`, `Classical.choice`, `Quot.sound`.  Section 6 lists them per theorem.  No axiom is added; there is no `sorry`,
   `admit`, `native_decide`, `bv_decide`, `unsafe`, `implemented_by` or `extern`.  Closed witnesses are evaluated by the kernel (`decide`,
   `decide +kernel`, `rfl`).
3. The model is a hand translation of the C++ text; that it is faithful is a matter of reading (each definition cites its lines).
4. Assumptions about code that is not in `/repo` (the libraries are fetched at build time and were not available):
   * ser4cpp: `UIntN::read_from` is big-endian, returns false without consuming or writing when the view is too short;
     `UIntN::write_to` writes nothing when there is no room; `take(n)` is the first min(n, length) bytes; `skip`/`advance` drop bytes;
     `copy_from` with too long a source either copies nothing or truncates (both are covered, `CopyPolicy`); a
     `StaticBuffer`'s content is arbitrary until written.
   * exe4cpp: a strand runs posted functions one at a time in the order of posting; a default-constructed `Timer` ignores `cancel`;
     assigning a `Timer` does not cancel the old one; `cancel` cannot retract an expiry already queued; timers do not expire early.
   * asio: closing or cancelling a socket or acceptor completes its operations with an error at once, but does not retract
     handlers already queued; operations on a closed socket complete with an error; opening an open socket is an error;
     `async_send` may write part of the buffer and uses the caller's memory until completion; `async_read_some` returns between 1 and
     4096 bytes (the buffer size) or an error; an accepted socket is open from the completion of the accept; `async_connect` with a range of
     endpoints closes and reopens the socket; at most one completion per operation.
   * spdlog: a logger has a name, a level (`info` if none is set) and sinks; a line of at least the logger's level goes to each of its sinks, in order;
     sinks take all they are given.
   * the C++ standard library: `std::map`, `unordered_map`, `list`, `deque`, `mutex`, `exception_ptr` (null after a move), `ostream`
     formatting in locale "C", `int` of 32 and `size_t` of 64 bits.
   * TCP, only for the end-to-end statements: bytes arrive unchanged and in order (any segmentation).
5. Memory model: API calls are modelled as atomic, although some read or write members off the strand without synchronisation.  C118 says which
   these are and under which rules for the user there are no data races; all other properties are about executions without data races.

### Not modelled

* The texts of log lines, and the numbers in the lines about bytes sent; the texts of exceptions other than `ModbusException::get_message`.
* `Ipv4Endpoint` (stores two values), DNS, choice among several endpoints; `bind` to the adapter's address.
* `AsioServerTcpConnection::shutdown` (never called by the library).
* Object lifetimes and memory exhaustion, except buffers of asynchronous writes, the members of `Expected`, and the references between channel,
  sessions, scheduled requests, handlers and tasks of a client (C117), and between channel, listening server, connections, listeners and sessions of a
  server (C119).
* Exceptions thrown by functions of the user, except by response handlers (C132), sessions (C134, C138), handlers of scheduled requests (C135) and transactions (C136) (assumed there: the executor drops the task and goes on with the next).
* The thread pool beyond its size; performance; the tests of the repository; of the examples, what is printed (see the comments of `Model/ExampleClient` and `Model/ExampleServer`).

## 4. Simplifications worth knowing

Each is also stated in the comment of the definition concerned.

* `std::unordered_map` iteration order (used when the server's sessions are told to shut down) is insertion order.
* The parser's sink does not call back into the parser (true for both sinks).
* `ClientConn` and `AsioServer` allow the strand to run queued handlers in any order (more behaviours than asio has); the properties hold for
  all of them.  The witnesses of violations use orders that asio can produce.
* `ServerStack` (server channel and connections together) has the callbacks of one read handler carried out before the data they send are handed
  to the connection (`send` calls nothing back; the order of the sends is kept).
* `Stack` (channel and connection together) carries out the sends of one channel callback at its end (`send` calls nothing back), and,
  like `ClientConn`, allows the strand to run queued handlers in any order.
* `World` (clients, server and network): which connection of which client a connection of the server belongs to is chosen in advance; as connections
  are numbered in the order of their creation at both ends, this is the same as linking them when they are established.  Bytes count as put on the
  wire when the write completes, and can arrive at the other end from then on.  All clients connect to this one server.
* In `Scheduled` (C58–C61, C71, C72) a scheduled request's `send_request` is abstracted to "in flight until the channel reports the result at most once" (C47);
  `Polling` joins it with the real channel.  There, what the channel and the sessions have queued may run in any order (each keeps its own order).
* `schedule_request` and `create_..._channel` are split at the points where another thread can intervene.

## 5. Findings

Where the code does not have a property, there is a theorem `Cnn_violated`.  Summary, most serious first.

* C64 use after free.  `send` replaces the shared write buffer while an `async_send` may still be reading it (client: new request after a
  timeout; server: pipelined requests on one connection).  The handler of the first write also clears the buffer of the second.
  `async_send` (not `async_write`) may truncate a frame silently.
* C62 the client never reconnects after a failure to resolve the address or to bind: the socket stays open, and
  every later `open` fails; such requests end only by their timeout.
* C70, C133 one failing `async_accept` ends the accept loop: the server is deaf until restarted.  C69: the same event decrements a connection count that was
  not incremented (wraps to 2^32-1, so later accepts evict).  The count is not reset by shutdown.
* C32 a session response with too many values is sent with an inconsistent byte count and a byte of uninitialised memory.
* C18, C16 an MBAP frame announcing more than 253 PDU bytes is delivered with leftover buffer content (if `copy_from` rejects).
* C51 a timer whose expiry is already queued when its request is answered times out the next request.
* C58, C59 `stop` and `start` while a request is outstanding create a second polling loop that persists.  C60: a timer already expired when
  `stop` takes effect still sends.
* C65, C66 the second of two queued closes kills the next connection attempt; two attempts can be in progress at once.
* C63 an orderly end of stream inside a frame leaves the partial frame in the receiver, which corrupts the next connection's framing.
* C48 requests in progress or submitted at shutdown never have their handlers called.
* C72 session shutdown does not cancel one-time requests; a request scheduled concurrently with shutdown polls for ever.
* C10 `MemoryParityError` is encoded as 0x07, decoded from 0x08 (the standard's value), so it arrives as `Unknown`.
* C08 the byte count of a register response is only checked for parity.  C12 acknowledgements of writes are not compared with the request.
* C30 `add_session` keeps the old session although the documentation says it is replaced.
* C19 a frame with an empty PDU is delivered only when a further byte arrives.
* C68 starting the server channel twice runs two accept loops, and eviction may hit a connection not accepted yet.  A limit of 0 keeps nobody.
* C74 the slicing check of `Expected::from_exception` is void for the library's own classes (not polymorphic); asking a moved-from
  exception is undefined behaviour.
* C77 transaction ids repeat after 65536 requests on one connection: a late answer to a request that timed out is given to the handler of
  a newer request with the same id (there is no check that the answer is for that request).
* C82 (consequence of C65) a request's frame can be given to the network twice, on the same connection: a write may be executed twice.
* C83 a request that was reported as timed out is still sent when the connection is established later.
* C84 an orderly close by the server is not reported: the waiting requests run into their timeouts.  C86: with half an answer received, the first
  answer on the next connection is lost as well.
* C85 (C64 seen from the API) a request whose predecessor timed out while being written frees the memory being written.
* C87, C88 one failure to resolve the server's name makes the client useless for ever.
* C89 a connect handler queued before the shutdown task still sends a request whose handler has been called with the shutdown error.
* C90 an answer may precede its request: the rest of a packet answers a request that is sent while the packet is processed.
* C93 (C64 seen from outside) any client can make the server use freed memory by sending two requests at once.  Started three times with limit 0, the
  server may call `front()` on an empty list.
* C94 when writing an answer fails, the parser is reset while data read earlier is still to be handed to it: the body of a frame can be
  executed as a request of its own.
* C96 an answer of which the network took only a part is not completed, and the next answer follows: the client's framing is broken.
* C97 (consequence of C68) a server started twice can lose track of a connection, which is then not closed by shutdown.
* C100 (the client's side of C94) when a write fails, the parser is reset while data of the same connection is still to be handed to it, and new requests are
  accepted for that connection: the tail of a frame can be taken for the answer to a new request.
* C101, C104, C109, C110 (C100 end to end) a client can be told that a write succeeded which the server never got.
* C102 (C82 end to end) the server can execute one request of a client twice.
* C103 when the network takes only part of a request, the client takes it for sent; the next request is appended to that part, and the server may execute a
  mixture of both (e.g. "write 42 to register 3", cut after eight bytes, becomes "write 0 to register 1").
* C105 a request that timed out may be executed after later requests on a new connection: an old write overwrites a newer, confirmed one.
* C106, C108 (C87 end to end) after one failed name resolution no request of the client ever reaches the server again.
* C113, C115 (C58, C59 in the whole client) `stop` and `start` with a poll outstanding give two polls at a time and polls closer than the polling time.
* C114 shutting the channel down does not stop a scheduled request that was started again after its session was shut down, nor one whose
  `schedule_request` is interrupted by the shutdown.  A request scheduled or started after the channel's shutdown reports that it is running, but
  its poll is dropped silently: its handler is never called.
* C117 a request scheduled on a session after the channel was shut down is never released: session and request hold each other.  A session that
  is shut down and dropped stays in the channel's list until the channel is shut down, so opening and closing sessions uses ever more memory.
* C118 `create_session` pushes to the channel's list of sessions on the caller's thread: two threads that open sessions corrupt it, and so does one that opens
  a session while another shuts the channel down.  `create_session`, `send_request`, `is_running`, `get_frequency` and the server channel's `start` and `add_session`
  read plain members that tasks on the strand write; even a single thread that calls `schedule_request` and then `is_running` has a data race.
* C119 started twice, a server may lose track of a connection (see C97): it is kept open, and allocated, for as long as its client likes, even after
  the shutdown of the channel.
* C120, C121 (C101, C110 for scheduled requests) a poll may be reported with bytes of an older answer, and a scheduled write that never reached the device
  may be reported successful.
* C147, C149 (C82, C102 for scheduled requests) one poll of a scheduled write may be executed twice by the server, so more often than the polling time allows.
* C148 (C101) a request may be answered although it was never executed.
* C123 the level given to `create_console_logger` (or `create_custom_logger`) has no effect on what is printed: every channel is given a clone of the logger
  with the level of its own (`Info` by default).  `create_custom_logger` changes the level of the user's own logger instead, for all its other uses.  Loggers of
  sessions are cloned without a level and would print from `Info` on whatever the channel's level (sessions never write at present).
* C127 `IClientChannel::shutdown` does not cancel the timers a user has started with `IClientSession::start`
  (ClientSessionImpl.cpp:231-239 keeps no record of them): their actions are called afterwards (`C127_violated`; `C126_called` shows that
  they always are).  Handlers of invalid requests made before are called too.  A user whose actions refer to objects destroyed after `shutdown` has to cancel the timers,
  early enough.
* C130 a client whose connection attempts overlap (see C61-C63) can have two `async_read_some` in progress at the same time, on the same socket and into the
  same `m_read_buffer` (AsioClientTcpConnection.cpp:208-219): both write to it, and the bytes are delivered in whatever order the two complete (`C130_violated`).
* C132 nothing in the library is protected against handlers that throw, and `Expected::get` throws on every result that is no response, so a handler that
  calls `get` unchecked throws at the first timeout.  `cancel_current_request` is then not reached (ClientChannelTcp.cpp:203-204): the request stays the current one,
  without timer, and the channel sends nothing more (`C132_silent`) unless a late answer arrives, which is given to the same handler a second time (`C132_called_twice`).  An
  exception out of `on_mbap_message` (line 153) moreover skips `begin_read`, so that the connection is never read again (`C132_deaf`), and the parser is not reset.  An exception
  while a connection error is reported (line 225) leaves the requests that were already told in the queue; they are sent or told again (`C132_others_called_twice`).
* C134 the same on the server: an exception out of a session's `on_request` (ServerChannelTcp.cpp:178) skips `begin_read` (AsioServerTcpConnection.cpp:121).  No answer is sent,
  the rest of the received data is lost, and the connection stays open and occupies one of the places of the server but is never read again (`C134_exception`, `C134_deaf`), not even to
  notice that the client closed it.  An exception out of a session's `shutdown` (ServerChannelTcp.cpp:82) keeps the sessions after it from being told; the sessions stay registered, and the
  next `shutdown` tells those before it again (`C134_told_wrong`).
* C138 consequence for the connections: the place of such a connection is never given back, not even when its client disconnects (`C138_never_read_again`: no error is ever noticed).
  Once the limit is reached, new clients push out the oldest connection, which may be one that is being served, while the one nobody reads stays (`C138_served_client_evicted`).
* C139 another consequence of the counter of C69: with `start` called twice and both accepts failing, the counter has wrapped around, and the only client of a server that allows
  five connections is sent away as one too many (`C139_violated`).
* C140 the second of two queued closes closes the client's next connection attempt although nothing of that attempt has failed and the new server has not
  closed it (`C140_violated`, the cause is C65).
* C135 a handler of a scheduled request that throws skips the start of the timer for the next poll (ScheduledRequest.hpp:96-104): polling is over, `is_running` goes on returning
  true, and `start` does nothing (`C135_dead`).  `stop` followed by `start` brings it back (`C135_restarted`).
* C136 a transaction that throws is not undone: what it did before the exception stays (`C136_violated`).
* C137 a function given to `execute_transaction` that calls a function of the database itself, not of the `IDatabase` it is given, locks a mutex its thread
  already owns (InMemoryDatabase.cpp:25-178), which is undefined behaviour (`C137_exactly`).
* C145 the example client's keys `s` and `f` ask (`is_running`, `get_frequency`) and then call; typed twice before the strand has carried out the first call they
  make the same call twice, so the second key is lost (`C145_violated`, `C145_time_violated`).
* C75 identifiers print ambiguously on streams set to `std::left` or `std::showbase`; the stream is left in hexadecimal, upper case, fill '0'.

Observations without a property: `m_tcp_connection->shutdown()` cancels but does not close the client's socket; ports are silently truncated to 16 bits;
`IModbusManager::shutdown` does not join the threads although the comment says so; the client's write error resets the parser while data of the
same connection may still arrive; `async_connect` reopens the socket, which apparently loses the earlier `bind` to the adapter;
at the end of the standard input both example programs go on reading `cmd`, in which nothing has been stored (examples/server/main.cpp:76-79,
examples/client/main.cpp:55-58), and the example client calls `is_running` and `get_frequency` while the strand may be writing what they read (see C118).

## 6. Axioms per theorem

(From `collectAxioms`; all names in `Modbus.Props`.)

* Classical.choice, Quot.sound, propext:
  C01_request_injective, C01_request_round_trip, C02_accepts_iff_denotes, C03_rejections_classified, C04_valid_iff_in_range,
  C05_request_conformant, C06_response_round_trip, C07_bit_response_iff, C08_register_response_iff_partial, C09_exception_iff,
  C100_genuine_partial, C100_tail_of_a_frame, C100_violated, C101_answers_are_genuine_partial, C101_own_answer_partial,
  C101_spelled, C101_violated, C102_at_most_once_partial, C102_executed_twice, C102_one_call_for_one_message_partial,
  C102_violated, C103_half_a_request, C103_only_what_was_asked_partial, C103_violated, C104_real_time_order_partial,
  C104_spelled, C104_violated, C105_in_order_on_one_connection_partial, C105_overtaken, C105_violated, C106_exchange_partial,
  C106_violated, C107_conversation, C108_conversation_partial, C108_violated, C109_answered_at_one_moment_partial, C109_contents,
  C109_later_sees_earlier_partial, C109_spelled, C109_violated, C10_exception_survives_partial,
  C10_memory_parity_becomes_unknown, C110_read_coil_partial, C110_read_what_was_written_partial, C110_violated, C111_all_results,
  C111_calls_accepted, C111_calls_are_heard, C111_causes, C111_identities, C111_one_time_sent, C111_own_results_only,
  C111_poll_is_request, C111_scheduled_is_polled, C111_sessions_open, C112_polls_for_ever, C112_unless_told,
  C113_bounded_partial, C113_not_restarted_partial, C113_one_at_a_time_partial, C113_violated, C114_nothing_sent,
  C114_polling_ends_partial, C114_race, C114_session_ends_partial, C114_silent_afterwards, C114_violated,
  C115_not_restarted_partial, C115_on_the_wire_partial, C115_polling_time_partial, C115_violated, C116_bounded_work,
  C116_comes_to_rest, C117_in_flight_kept, C117_polling_kept, C117_released_in_time_partial, C117_released_partial,
  C117_sessions_kept, C117_violated, C119_bounded_partial, C119_closed_released, C119_released_partial, C119_served_kept_partial,
  C119_sessions_released, C119_violated, C11_decode_total, C120_polled_values_partial, C120_spelled, C120_violated,
  C121_polls_see_coils_partial, C121_polls_see_writes_partial, C121_spelled, C121_violated, C122_client_level,
  C122_client_printed, C122_client_shows, C122_server_level, C122_server_printed, C122_server_shows, C123_level_partial,
  C124_lines_match_effects, C124_log_is_truthful, C125_message_is_handled, C125_no_silent_message, C125_unknown_unit,
  C125_warning_has_a_message, C126_called, C126_cancelled, C126_delay, C126_in_time, C126_once_and_on_time, C126_prompt,
  C126_total, C127_requests_partial, C127_takes_effect, C127_timers_partial, C127_violated, C128_one_at_a_time, C128_period,
  C128_polls_for_ever, C129_answered, C129_own_handler, C129_runs_through, C12_write_response_faithful_partial,
  C130_client_partial, C130_request_answered_partial, C130_server_partial, C131_client_lines, C131_client_state_lines,
  C132_called_twice, C132_calls_partial, C132_deaf, C132_no_exception_partial, C132_others_called_twice, C132_recovers_partial,
  C132_requests_partial, C132_silent, C132_violated, C133_accepting_partial, C133_client_served_partial, C133_ready_partial,
  C133_violated, C134_after_shutdown, C134_as_if_partial, C134_deaf, C134_defined, C134_exception, C134_no_exception_partial,
  C134_only_by_exception, C134_others_partial, C134_replies, C134_served_partial, C134_told_partial, C134_told_wrong,
  C134_violated, C135_as_if_partial, C135_handled_once, C135_one_per_start, C135_only_by_exception, C135_polling_time_partial,
  C135_restarted, C135_stop_stops_partial, C136_no_deadlock, C136_serialised_partial, C136_undone_partial, C137_defined_partial,
  C137_exactly, C138_accepting_partial, C138_all_closed_partial, C138_count_partial, C138_evicts_oldest_partial, C138_exception,
  C138_limit_partial, C138_messages_partial, C138_never_read_again, C138_others_answered_partial, C138_others_heard_partial,
  C138_others_read_partial, C138_removed_once, C138_replies, C138_served_client_evicted, C138_violated, C139_counted,
  C139_reason_partial, C139_shutdown_called, C139_stays_partial, C139_throwing_partial, C139_violated, C13_foreign_function_code,
  C13_response_trichotomy, C140_no_failure, C140_reason_partial, C140_request_fails, C140_shutdown_called, C140_violated,
  C141_accounting, C141_cancelled, C141_exactly, C141_shutdown, C141_started, C142_created, C142_identities, C142_origin,
  C142_origin_mem, C142_own_timeout, C142_schedule, C142_schedule_within, C142_send, C142_send_within, C142_timeout, C142_wire,
  C143_custom_coils, C143_custom_refuses, C143_filled, C143_flips, C143_once_per_key, C143_points, C144_catches_up,
  C144_get_frequency, C144_in_order, C144_is_running, C144_no_means_silence, C144_up_to_date, C144_yes_means_polling,
  C145_keys_switch_partial, C146_after_quit, C146_frequency, C146_keys_ask, C146_one_schedule, C146_only_these, C146_other_calls,
  C146_runs, C146_toggle, C146_wire, C147_at_most_once_partial, C147_executed_twice, C147_in_order_partial,
  C147_not_more_than_polled_partial, C147_one_call_for_one_message_partial, C147_violated, C148_exactly_once_partial,
  C148_polls_exactly_once_partial, C148_violated, C149_paced_partial, C149_rate_partial, C149_violated,
  C15_built_frames_received, C15_framing_round_trip, C16_framing_invariant_partial, C16_segmentation_invariant_partial,
  C16_violated, C17_foreign_frames_skipped, C18_delivered_from_frame_partial, C18_violated, C19_immediate_delivery_partial,
  C19_violated, C20_reset_forgets, C21_receiver_memory_safe, C22_response_identifiers, C23_at_most_one_response, C23_pipelined,
  C24_received_request, C24_request_reaches_session, C24_served, C25_silence, C25_unknown_unit_ignored, C27_out_of_range_refused,
  C28_session_failures, C30_first_registration_stays_partial, C30_new_unit_partial, C30_violated, C31_nothing_after_shutdown,
  C31_server_shutdown_at_most_once, C31_server_told, C31_session_told, C31_shutdown_once, C31_takes_effect,
  C32_fitting_responses_partial, C32_oversized_registers_leak, C33_default_session, C34_framing_per_connection,
  C34_other_connections_irrelevant, C35_refines_four_maps, C35_tables_independent, C36_write_coils_all_or_nothing,
  C36_write_registers_all_or_nothing, C37_address_check, C37_no_wrap, C37_range_check, C38_reads, C39_add_never_overwrites,
  C40_requests_keep_points, C41_complete_executions, C41_no_deadlock, C41_serialised, C42_read_end_to_end, C43_write_end_to_end,
  C43_write_then_read, C44_refusal_end_to_end, C45_one_outstanding, C46_submission_order, C47_handlers_at_most_once,
  C48_dropped_forever, C48_exactly_once_partial, C48_violated, C49_all_frames_taken, C49_delivered,
  C49_messages_are_received_frames, C49_response_matches_request, C50_late_answer_not_taken, C51_orderly_partial,
  C51_own_timeout_partial, C51_some_timeout, C51_violated, C52_completes_in_silence, C52_every_request_completes, C52_in_time,
  C52_never_stuck, C53_error_fails_everything, C53_works_after_error, C54_close_requests_differ, C54_transaction_ids,
  C55_invalid_request, C55_invalid_request_reported, C55_only_valid_requests_sent, C56_sessions_told, C56_shutdown_final,
  C56_takes_effect, C57_typed_results, C58_single_request_partial, C59_polling_time_respected_partial,
  C60_after_stop_bounded_partial, C60_stop_stops_partial, C61_always_pending, C61_calls_are_heard, C61_calls_take_effect,
  C61_handled_once, C61_polling_continues, C61_timer_polls, C62_never_gives_up_partial, C63_clean_framing_partial, C63_violated,
  C64_server_whole_frames_partial, C64_whole_frames_partial, C65_no_leftovers_partial, C66_connect_submits_partial,
  C66_newest_only_partial, C66_open_submits_partial, C66_single_attempt_partial, C67_call_takes_effect,
  C68_evicts_oldest_partial, C68_limit_partial, C68_zero, C69_count_partial, C70_accepting_partial, C70_deaf_forever,
  C70_started, C71_close_closes, C71_removed_once, C71_silent_when_closed, C72_calls_are_heard_partial,
  C72_one_time_once_partial, C72_one_time_reported_partial, C72_one_time_served_partial, C72_poll_reported_partial,
  C72_registered_stopped_partial, C72_scheduled_as_alone_partial, C72_scheduled_is_sent_partial, C72_shutdown_stops_partial,
  C72_stopped_request_is_silent_partial, C72_unstopped_request, C73_all_stopped, C73_at_most_once, C73_creation_works,
  C73_destructor, C73_shutdown_works, C75_leaves_format, C75_showbase, C76_message_identifies, C76_message_names_code,
  C76_message_nonempty, C77_answers_are_genuine, C77_late_answer_taken, C77_own_answer_partial, C77_violated,
  C78_calls_follow_messages, C78_replies_arrive_in_order, C78_requests_arrive_in_order, C78_state_is_replay, C79_no_request_lost,
  C80_delivery_answers_everything, C81_answered_at_one_moment, C81_final_contents, C81_later_sees_earlier, C81_read_your_coil,
  C81_read_your_register, C82_at_most_once_partial, C82_frame_sent_twice, C82_violated, C83_on_behalf_partial,
  C83_sent_after_timeout, C83_violated, C84_eof_not_reported, C84_loss_reported_partial, C84_violated, C85_memory_safe_partial,
  C85_only_writes_partial, C85_violated, C86_answers_partial, C86_first_answer_partial, C86_violated, C87_dead_forever,
  C87_reconnects_partial, C87_violated, C88_exchange_partial, C88_next_exchange_partial, C88_violated, C89_shutdown_partial,
  C89_violated, C90_answers_transmitted_partial, C90_violated, C91_in_order, C92_shutdown_queued, C92_winds_down,
  C93_defined_partial, C93_front_of_empty, C93_pipelining_client, C93_receiving_partial, C93_violated,
  C94_asked_by_frames_partial, C94_body_taken_for_frame, C94_violated, C95_own_answers, C96_torn_answer, C96_violated,
  C96_whole_answers_partial, C97_all_closed_partial, C97_never_closed, C97_nothing_served, C97_shutdown_closes_partial,
  C97_shutdown_takes_effect, C97_violated, C98_answered, C99_connections_independent.

* Quot.sound, propext:
  C08_violated, C10_violated, C118_disciplined_partial, C119_no_garbage, C12_violated, C130_violated, C131_client_eof_line,
  C131_server_lines, C135_dead, C135_violated, C136_violated, C145_time_violated, C145_violated, C14_frame_layout,
  C26_unsupported_refused, C29_session_isolation, C32_violated, C50_mismatch_ignored, C58_one_per_start_partial,
  C58_two_loops_persist, C58_violated, C59_violated, C60_violated, C62_reconnects_partial, C62_stuck_forever,
  C64_server_use_after_free, C64_server_violated, C64_truncated_frame, C64_violated, C66_violated, C68_violated, C69_not_reset,
  C69_violated, C70_violated, C72_sent_after_shutdown, C72_violated, C73_only_when_asked, C73_threads, C74_exception,
  C75_identifier_text_partial, C75_identifiers_in_a_row_partial, C75_tid_ambiguous, C75_violated.

* propext:
  C118_races_partial, C118_races_real, C118_violated, C123_level_ignored, C123_violated, C137_violated,
  C62_failure_leads_to_reconnect_partial, C62_violated, C64_use_after_free, C65_violated, C67_shutdown_takes_effect,
  C67_silent_after_shutdown, C74_lifetime, C74_moved_from, C74_slicing_detected, C74_slicing_not_detected, C74_value.

## Mutation tests: what the log shows and what it does not

`seeded/LOG.jsonl` has one line per edit of the model.  A theorem counts as failed if its proof, or the proof of any lemma it uses, no longer goes
through.  Most theorems about histories rest on one lemma that follows the code step by step, and that lemma fails for nearly every edit, harmless ones
included: 25 of the 28 controls (edits that make no claim false) have failed theorems as well.  A failed theorem is therefore not by itself evidence that the
statement excludes the edited program.  The field `evidence` of each line says which case it is:

* *the proof of a theorem of the claim failed itself*: stronger, but still a failing proof and not a counterexample;
* *only lemmas below the theorem failed*: the weak case, the majority of the lines;
* *refuted*: the hypotheses and the conclusion of the theorem were evaluated on the edited model and the conclusion found false in a concrete history.  This
  is the strong case;
* *not fulfilled in a long fair run*: the same for statements on infinite executions, of which only a long beginning can be evaluated.

Lines without a refutation should not be read as showing that the theorem is tight.  Evaluating the statements in this way for the model of the user's
code (`UserCode`) showed that four edits whose proofs had all failed were not excluded by any statement (shutdown does nothing; timers too late, in two ways;
a running function is cut off), and that three edits recorded as harmless were not.  `C56_takes_effect`, `C127_takes_effect`, `C126_prompt`, `C126_in_time`
and `C129_runs_through` were added for this reason.  For the client channel it showed that nothing excluded timers that are never cancelled (three edits; the
hypothesis of `C51_own_timeout_partial` excluded the histories that matter) and sessions not told at shutdown; `C51_orderly_partial`, `C56_sessions_told`,
`C49_delivered` and `C52_in_time` were added, and seven labels in the log corrected.  For the server channel it showed sessions that answer for the wrong
units and a shutdown that does not reach everybody not to be excluded (`ServerTight`), for the client's connection a call of shutdown without effect and
requests never sent on an open connection (`StackTight`).  For the polling client it showed that a request may stop by itself: C112, C113 and C115 assumed that
no stop had taken effect, and nothing said why a stop takes effect.  `C111_causes`, `C112_unless_told`, `C113_not_restarted_partial` and
`C115_not_restarted_partial` were added.

Besides the edits chosen by hand there are automatic ones (every comparison, constant, update and condition of a model file changed one at a time; lines with
`"what": "automatic edit"`).  They are only evaluated, not rebuilt.  Those not found to make a statement false carry a note why they are believed equivalent.
They covered, among the models with exceptions, `ServerThrowing`, `UserThrowing` and `ServerStackThrowing`; for the last one they showed that nothing tied the
messages that reach the channel to the data received (a listener told of errors after successful writes instead of failed ones was not excluded), for which
`C138_messages_partial`, `C138_replies`, `C138_others_answered_partial` and `C138_exception` were added.
The last group of edits chosen by hand adds effects without a cause (a connection closed after every answer, a timeout that shuts the channel down, waiting
requests failed with a connection error by someone else's timeout).  Several made no earlier statement false; C139 and C140 were added for them.
