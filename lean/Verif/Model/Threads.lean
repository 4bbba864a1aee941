/-!
Which memory the functions of the library read and write, and on which thread.

Every channel has a strand (ModbusManagerImpl.cpp:47, 70); posted tasks, timers and the callbacks of the connection (all given through
`m_executor->wrap`) run there one at a time.  API calls run on the thread of their caller, which may be a user's thread or a strand (a call made in a
handler).  This file says what each of them touches; `Spec/Threads.lean` says what a data race is (C++11 memory model).

Simplifications: members that never change after construction are left out, and so is construction (an object is used after its constructor has
returned); reference counts, loggers, the executor and asio's own objects are taken to be safe; members that are only used together and only on the
strand are one location (`requests`, `conn`, `asio`).  What a task or callback touches is an upper bound (all branches).  What the handlers
of the user's touch themselves is the user's business.
-/

namespace Modbus

/-- Strands: of client channels and of server channels, by number. -/
inductive Strand where
  | client (c : Nat)
  | server (c : Nat)
deriving DecidableEq

/-- Memory locations. -/
inductive Loc where
  /-- `ClientChannelTcp::m_is_shutdown`, ClientChannelTcp.h:71. -/
  | down (c : Nat)
  /-- `ClientChannelTcp::m_sessions`, ClientChannelTcp.h:72. -/
  | sessions (c : Nat)
  /-- `m_parser`, `m_pending_requests`, `m_current_request`, `m_current_timer`, `m_next_transaction_id`, ClientChannelTcp.h:73-77. -/
  | requests (c : Nat)
  /-- The members of the channel's `AsioClientTcpConnection`, AsioClientTcpConnection.h:66-74. -/
  | conn (c : Nat)
  /-- `ClientSessionImpl::m_scheduled_requests` of session `s`, ClientSessionImpl.h:150. -/
  | scheduled (c s : Nat)
  /-- `ScheduledRequest::m_running`, ScheduledRequest.h:61. -/
  | running (c s i : Nat)
  /-- `ScheduledRequest::m_frequency`, ScheduledRequest.h:59. -/
  | frequency (c s i : Nat)
  /-- `ScheduledRequest::m_timer`, ScheduledRequest.h:62. -/
  | timer (c s i : Nat)
  /-- `ServerChannelTcp::m_is_shutdown`, ServerChannelTcp.h:58. -/
  | sDown (c : Nat)
  /-- `ServerChannelTcp::m_is_started`, ServerChannelTcp.h:59. -/
  | sStarted (c : Nat)
  /-- `ServerChannelTcp::m_sessions`, ServerChannelTcp.h:60. -/
  | sSessions (c : Nat)
  /-- The members of the channel's `AsioServer` and its connections and listeners. -/
  | asio (c : Nat)
  /-- `ModbusManagerImpl::m_client_channels`, ModbusManagerImpl.h:48. -/
  | clientList
  /-- `ModbusManagerImpl::m_server_channels`, ModbusManagerImpl.h:49. -/
  | serverList
deriving DecidableEq

/-- API calls; `c` is the channel, `s` the session, `i` the scheduled request. -/
inductive ApiCall where
  | createSession (c : Nat)
  | send (c s : Nat)
  | shutdown (c : Nat)
  | schedule (c s i : Nat)
  | sessionShutdown (c s : Nat)
  | start (c s i : Nat)
  | stop (c s i : Nat)
  | setFrequency (c s i : Nat)
  | getFrequency (c s i : Nat)
  | isRunning (c s i : Nat)
  | serverStart (c : Nat)
  | addSession (c : Nat)
  | serverShutdown (c : Nat)
  | createClient
  | createServer
  | managerShutdown
deriving DecidableEq

/-- Posted tasks. -/
inductive PostedTask where
  /-- ClientChannelTcp.cpp:70-83. -/
  | request (c : Nat)
  /-- ClientChannelTcp.cpp:87-90. -/
  | malformed (c : Nat)
  /-- ClientChannelTcp.cpp:96-111. -/
  | shutdown (c : Nat)
  /-- ClientSessionImpl.cpp:57-64. -/
  | sessionShutdown (c s : Nat)
  /-- ClientSessionImpl.cpp:274-276. -/
  | register (c s i : Nat)
  /-- ScheduledRequest.hpp:49-55. -/
  | start (c s i : Nat)
  /-- ScheduledRequest.hpp:61-67. -/
  | stop (c s i : Nat)
  /-- ScheduledRequest.hpp:73-75. -/
  | setFrequency (c s i : Nat)
  /-- ServerChannelTcp.cpp:60-65. -/
  | serverStart (c : Nat)
  /-- ServerChannelTcp.cpp:92-96. -/
  | addSession (c : Nat)
  /-- ServerChannelTcp.cpp:70-85. -/
  | serverShutdown (c : Nat)
deriving DecidableEq

/-- The strand a task is posted to. -/
def PostedTask.strand : PostedTask → Strand
  | .request c => .client c
  | .malformed c => .client c
  | .shutdown c => .client c
  | .sessionShutdown c _ => .client c
  | .register c _ _ => .client c
  | .start c _ _ => .client c
  | .stop c _ _ => .client c
  | .setFrequency c _ _ => .client c
  | .serverStart c => .server c
  | .addSession c => .server c
  | .serverShutdown c => .server c

/-- A piece of code: an API call, a posted task, or a callback (of a connection, an acceptor or a timer) on a strand, including the tasks that
only connections and acceptors post (AsioClientTcpConnection.cpp:90, 108; AsioServer.cpp:32, 67; AsioServerTcpConnection.cpp:57). -/
inductive Act where
  | call (c : ApiCall)
  | task (t : PostedTask)
  | callback (st : Strand)
deriving DecidableEq

/-- What an API call touches on its caller's thread (`w`: it writes).  ClientChannelTcp.cpp:47-54 (`create_session`), 67 (`send_request`; through
ClientSessionImpl.cpp:247, which reads only constants); ScheduledRequest.hpp:81, 87 (`get_frequency`, `is_running`); ServerChannelTcp.cpp:58, 90;
ModbusManagerImpl.cpp:57-60, 80-83, 90-102.  The others only post. -/
def ApiCall.touches : ApiCall → Loc → Bool → Prop
  | .createSession c, l, w => (l = .down c ∧ w = false) ∨ l = .sessions c
  | .send c _, l, w => l = .down c ∧ w = false
  | .getFrequency c s i, l, w => l = .frequency c s i ∧ w = false
  | .isRunning c s i, l, w => l = .running c s i ∧ w = false
  | .serverStart c, l, w => l = .sDown c ∧ w = false
  | .addSession c, l, w => l = .sDown c ∧ w = false
  | .createClient, l, _ => l = .clientList
  | .createServer, l, _ => l = .serverList
  | .managerShutdown, l, _ => l = .clientList ∨ l = .serverList
  | _, _, _ => False

/-- What a response handler touches if it is a scheduled request's: ScheduledRequest.hpp:96-106. -/
def pollTouches (c : Nat) (l : Loc) (w : Bool) : Prop :=
  ∃ s i, (l = .running c s i ∧ w = false) ∨ (l = .frequency c s i ∧ w = false) ∨ l = .timer c s i

/-- What a task touches; lines as at `PostedTask`.  `start` calls `execute`, which calls `send_request` (ClientChannelTcp.cpp:67); requests are sent by
`check_pending_requests`, which uses the connection. -/
def PostedTask.touches : PostedTask → Loc → Bool → Prop
  | .request c, l, w => (l = .down c ∧ w = false) ∨ l = .requests c ∨ l = .conn c
  | .malformed c, l, w => pollTouches c l w
  | .shutdown c, l, _ => l = .down c ∨ l = .sessions c ∨ l = .requests c ∨ l = .conn c
  | .sessionShutdown c s, l, _ => l = .scheduled c s
  | .register c s _, l, _ => l = .scheduled c s
  | .start c s i, l, w => l = .running c s i ∨ (l = .down c ∧ w = false)
  | .stop c s i, l, _ => l = .running c s i ∨ l = .timer c s i
  | .setFrequency c s i, l, _ => l = .frequency c s i
  | .serverStart c, l, w => (l = .sDown c ∧ w = false) ∨ l = .sStarted c ∨ l = .asio c
  | .addSession c, l, w => (l = .sDown c ∧ w = false) ∨ l = .sSessions c
  | .serverShutdown c, l, _ => l = .sDown c ∨ l = .sStarted c ∨ l = .sSessions c ∨ l = .asio c

/-- What a callback touches: of the client's connection and timers, ClientChannelTcp.cpp:113-168, 195-206 with AsioClientTcpConnection.cpp:86-240 and
ScheduledRequest.hpp:90-107; of the server's acceptor and connections, AsioServer.cpp:30-103, AsioServerTcpConnection.cpp:53-191, ServerChannelTcp.cpp:99-150. -/
def callbackTouches : Strand → Loc → Bool → Prop
  | .client c, l, w => (l = .down c ∧ w = false) ∨ l = .requests c ∨ l = .conn c ∨ pollTouches c l w
  | .server c, l, w => (l = .sDown c ∧ w = false) ∨ (l = .sSessions c ∧ w = false) ∨ l = .asio c

/-- What a piece of code touches. -/
def Act.touches : Act → Loc → Bool → Prop
  | .call c => c.touches
  | .task t => t.touches
  | .callback st => callbackTouches st

/-- What an API call posts: ClientChannelTcp.cpp:70, 87, 96; ClientSessionImpl.cpp:57, 272, 274; ScheduledRequest.hpp:49, 61, 73; ServerChannelTcp.cpp:60, 70, 92;
ModbusManagerImpl.cpp:92-102 (`shutdown` of every channel). -/
def ApiCall.posts : ApiCall → PostedTask → Prop
  | .send c _, t => t = .request c ∨ t = .malformed c
  | .shutdown c, t => t = .shutdown c
  | .schedule c s i, t => t = .start c s i ∨ t = .register c s i
  | .sessionShutdown c s, t => t = .sessionShutdown c s
  | .start c s i, t => t = .start c s i
  | .stop c s i, t => t = .stop c s i
  | .setFrequency c s i, t => t = .setFrequency c s i
  | .serverStart c, t => t = .serverStart c
  | .addSession c, t => t = .addSession c
  | .serverShutdown c, t => t = .serverShutdown c
  | .managerShutdown, t => ∃ c, t = .shutdown c ∨ t = .serverShutdown c
  | _, _ => False

/-- What tasks and callbacks post: the channel's shutdown calls that of its sessions (ClientChannelTcp.cpp:100-103), which stop their scheduled requests
(ClientSessionImpl.cpp:58-61); a poll is a call of `send_request` (ScheduledRequest.hpp:94). -/
def Act.posts : Act → PostedTask → Prop
  | .call c => c.posts
  | .task (.shutdown c) => fun t => ∃ s, t = .sessionShutdown c s
  | .task (.sessionShutdown c s) => fun t => ∃ i, t = .stop c s i
  | .task (.start c _ _) => fun t => t = .request c ∨ t = .malformed c
  | .callback (.client c) => fun t => t = .request c ∨ t = .malformed c
  | _ => fun _ => False

end Modbus
