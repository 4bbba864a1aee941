import Verif.Model.Polling

/-!
Who keeps whom allocated in a client: the `shared_ptr`s between the channel (ClientChannelTcp.h:67-76), its sessions
(ClientSessionImpl.h:144-150), their scheduled requests (ScheduledRequest.h:54-62), the response handlers (ClientSessionImpl.cpp:247,
ScheduledRequest.hpp:94) and the tasks and timer callbacks held by the executor.

Simplifications: the connection, the executor and the loggers are left out (none of them owns one of these objects: the connection's
listener is a `weak_ptr`, AsioClientTcpConnection.h:74).  Which session a one-time request belongs to is not part of the state; its handler
counts as holding every session, so that nothing is called free too early.  A callback counts as held until it has run or its timer is
cancelled.
-/

namespace Modbus

/-- The objects: the channel, its sessions, their scheduled requests, by number. -/
inductive Obj where
  | channel
  | session (s : Nat)
  | request (s i : Nat)
deriving DecidableEq

namespace Pcl

/-- What the response handler given with call `uid` of the channel's `send_request` holds: the session (`self`,
ClientSessionImpl.cpp:247), for a poll also the scheduled request (`self`, ScheduledRequest.hpp:94). -/
def handlerHolds (v : Pcl) (uid : Nat) (x : Obj) : Prop :=
  match v.owner.lookup uid with
  | some (s, i, _) => x = .session s ∨ x = .request s i
  | none => ∃ s, x = .session s

/-- `x` has a `shared_ptr` to `y`: the channel to its sessions (`m_sessions`, ClientChannelTcp.h:72) and through the handlers of
the requests it has (`m_pending_requests`, `m_current_request`, ClientChannelTcp.h:74-75); a session to its channel (`m_channel`,
ClientSessionImpl.h:146) and to its scheduled requests (`m_scheduled_requests`, ClientSessionImpl.h:150); a scheduled request to its
session (`m_session`, ScheduledRequest.h:54). -/
def holds (v : Pcl) : Obj → Obj → Prop
  | .channel, y => (∃ s ∈ v.cli.sessions, y = .session s) ∨ ∃ r, (r ∈ v.cli.pending ∨ v.cli.current = some r) ∧ v.handlerHolds r.uid y
  | .session s, y => ∃ p, v.sess[s]? = some p ∧ (y = .channel ∨ ∃ i ∈ p.sess.registered, y = .request s i)
  | .request s i, y => ∃ p, v.sess[s]? = some p ∧ i < p.sess.polls.length ∧ y = .session s

/-- A posted task has the handler of call `uid` (ClientChannelTcp.cpp:70, 87). -/
def handlerPosted (v : Pcl) (uid : Nat) : Prop :=
  ∃ t ∈ v.cli.tasks, match t with
    | .request u _ _ _ => u = uid
    | .malformed u => u = uid
    | .shutdown => False

/-- The executor holds the object, by a posted task or a timer's callback: every lambda given to `post` or `start` has `self`
(ClientChannelTcp.cpp:70, 87, 96, 195; ClientSessionImpl.cpp:57, 274; ScheduledRequest.hpp:49, 61, 73, 102); the task that registers a
scheduled request has that too (ClientSessionImpl.cpp:274). -/
def queued (v : Pcl) : Obj → Prop
  | .channel => v.cli.tasks ≠ [] ∨ v.cli.armed ≠ [] ∨ v.cli.fired ≠ []
  | .session s => (∃ p, v.sess[s]? = some p ∧ (SessTask.shutdown ∈ p.sess.tasks ∨ ∃ i, SessTask.register i ∈ p.sess.tasks)) ∨
      ∃ uid, v.handlerPosted uid ∧ v.handlerHolds uid (.session s)
  | .request s i => (∃ p, v.sess[s]? = some p ∧ ((∃ t, SessTask.poll i t ∈ p.sess.tasks) ∨ SessTask.register i ∈ p.sess.tasks ∨
      ∃ q, p.sess.polls[i]? = some q ∧ (q.armed ≠ [] ∨ q.fired ≠ []))) ∨
      ∃ uid, v.handlerPosted uid ∧ v.handlerHolds uid (.request s i)

end Pcl

end Modbus
