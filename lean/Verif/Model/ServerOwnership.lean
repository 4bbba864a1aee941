import Verif.Model.ServerStack

/-!
Who keeps whom allocated in a server: the `shared_ptr`s between the channel (ServerChannelTcp.h:58-64), the listening server (AsioServer.h:51-58),
the connections (AsioServerTcpConnection.h:58-68), their listeners (ServerConnectionListener.h:47-49), the user's sessions, and the handlers and
posted functions held by the executor.

Simplifications: the executor, the loggers and the listener builder (owned by the listening server only, and owning nothing: its pointer to the
channel is a `weak_ptr`, ServerConnectionListenerBuilder.h:36) are left out.  A handler counts as held until it has run.
-/

namespace Modbus

/-- The objects: channel, listening server, connections and their listeners by number, sessions of the user. -/
inductive SObj where
  | channel
  | server
  | conn (c : Nat)
  | listener (c : Nat)
  | session (s : SessId)
deriving DecidableEq

/-- The connection a function queued on the strand holds: itself by `self` in `close` (AsioServerTcpConnection.cpp:57) and in the handlers of its reads
and writes (152-155, 165-168); the handler of an accept holds the connection to be accepted (AsioServer.cpp:73-77). -/
def ATask.heldConn : ATask → Option Nat
  | .startAccept => none
  | .shutdown => none
  | .close c => some c
  | .accepted c _ => some c
  | .read c _ => some c
  | .written c _ => some c

/-- Does a function queued on the strand hold the listening server?  `start_accept` and `shutdown` by `self` (AsioServer.cpp:32, 67), the handler of an
accept by the bound pointer (73-77). -/
def ATask.holdsServer : ATask → Bool
  | .startAccept => true
  | .shutdown => true
  | .accepted _ _ => true
  | _ => false

/-- The connection the handler of an operation in progress holds (AsioServerTcpConnection.cpp:152-155, 165-168; AsioServer.cpp:73-77). -/
def AOp.heldConn : AOp → Nat
  | .accept c => c
  | .read c => c
  | .write c _ _ => c

namespace Svk

variable {W : Type}

/-- `x` has a `shared_ptr` to `y`: the channel to the listening server (`m_server`, ServerChannelTcp.h:60) and to its sessions (`m_sessions`, 64);
the listening server to its connections (`m_connections`, AsioServer.h:58); a connection to its listener (`m_connection_listener`,
AsioServerTcpConnection.h:68).  The pointers back are `weak_ptr`s (AsioServerTcpConnection.h:60, ServerConnectionListener.h:47-48). -/
def holds (v : Svk W) : SObj → SObj → Prop
  | .channel, y => y = .server ∨ ∃ x ∈ v.srv.sessions, y = .session x.2
  | .server, y => ∃ c ∈ v.asv.list, y = .conn c
  | .conn c, y => y = .listener c
  | .listener _, _ => False
  | .session _, _ => False

/-- The executor holds the object: the channel by its posted tasks (ServerChannelTcp.cpp:60, 70, 92), a session by the task that adds it (92). -/
def queued (v : Svk W) : SObj → Prop
  | .channel => v.srv.tasks ≠ []
  | .server => (∃ t ∈ v.asv.queue, t.holdsServer = true) ∨ ∃ o ∈ v.asv.flying, Asv.isAccept o = true
  | .conn c => (∃ t ∈ v.asv.queue, t.heldConn = some c) ∨ ∃ o ∈ v.asv.flying, o.heldConn = c
  | .listener _ => False
  | .session s => ∃ u, STask.addSession u s ∈ v.srv.tasks

end Svk

end Modbus
