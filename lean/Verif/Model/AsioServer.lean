import Verif.Model.Mbap

/-!
Model of the listening server and its TCP connections: lib/src/server/channel/AsioServer.cpp and AsioServerTcpConnection.cpp (all of
both, except `AsioServerTcpConnection::shutdown`, lines 74-84, which nothing in the library calls; hence `m_is_shutdown` of the
connections is always false).

As for the client's connection (Model/ClientConn.lean), an asynchronous operation completes at any time with any result the operating
system may give (`Op.complete`), which queues its handler; the strand runs handlers and posted functions (`Op.run`).  Assumptions about
asio: closing a socket or the acceptor completes the operations in progress on it with an error at once, but does not retract queued
handlers; the socket of an accepted connection is open from the completion of the accept on; an operation on a closed socket completes
with an error; `async_send` may write part of the buffer only, and uses the caller's memory until it has completed.

Ghost data: connections are numbered in the order of their creation; `starts` counts the calls of `start`.

Not modelled: logging; the listener (Model/Server.lean), except that it may call `send` any number of times while it handles received
data (`replies` of `Op.run`).
-/

namespace Modbus

/-- Asynchronous operations in progress. -/
inductive AOp where
  /-- `async_accept`, AsioServer.cpp:72. -/
  | accept (c : Nat)
  /-- `async_read_some`, AsioServerTcpConnection.cpp:152. -/
  | read (c : Nat)
  /-- `async_send` from buffer object `buf` holding `data`, AsioServerTcpConnection.cpp:165. -/
  | write (c : Nat) (buf : Nat) (data : List UInt8)
deriving DecidableEq, Repr

/-- What is queued on the strand: posted lambdas and handlers of completed operations. -/
inductive ATask where
  | startAccept
  | shutdown
  | close (c : Nat)
  | accepted (c : Nat) (ok : Bool)
  /-- Completed read; `none` is an error (or end of stream, which is treated alike). -/
  | read (c : Nat) (r : Option (List UInt8))
  | written (c : Nat) (ok : Bool)
deriving DecidableEq, Repr

/-- Observable effects. -/
inductive AEv where
  /-- The server took the accepted connection `c` into account (`++m_num_connections`). -/
  | joined (c : Nat)
  /-- Connection `c` was removed from the server's list. -/
  | left (c : Nat)
  /-- The socket of connection `c` was closed. -/
  | closed (c : Nat)
  /-- The listener's `on_receive`. -/
  | receive (c : Nat) (bytes : List UInt8)
  /-- The listener's `on_error`. -/
  | error (c : Nat)
  /-- The listener's `on_write_done`. -/
  | writeDone (c : Nat)
  /-- The listener's `send`. -/
  | asked (c : Nat) (data : List UInt8)
  /-- Data was given to the operating system (`async_send` started). -/
  | submit (c : Nat) (data : List UInt8)
  /-- Bytes went out on connection `c`. -/
  | wire (c : Nat) (bytes : List UInt8)
deriving DecidableEq, Repr

/-- The members of an `AsioServerTcpConnection` (AsioServerTcpConnection.h:58-66): is the socket open, `m_is_connected`,
`m_write_buffer` with the identity of the buffer object. -/
structure AConn where
  isOpen : Bool
  connected : Bool
  wbuf : Option (Nat × List UInt8)
deriving DecidableEq, Repr

/-- State: the members of `AsioServer` (AsioServer.h:51-58), all connections ever created, the operations in progress, the strand's
queue and the log. -/
structure Asv where
  isShutdown : Bool
  max : UInt32
  num : UInt32
  list : List Nat
  conns : Nat → AConn
  nextConn : Nat
  nextBuf : Nat
  starts : Nat
  flying : List AOp
  queue : List ATask
  log : List AEv

/-- Result with which an operation completes. -/
inductive ARes where
  | ok
  | sent (n : Nat)
  | data (bytes : List UInt8)
  | error
deriving DecidableEq, Repr

namespace Asv

/-- The constructor, AsioServer.cpp:10-22; of the connections, AsioServerTcpConnection.cpp:27-38. -/
def init (max : UInt32) : Asv :=
  { isShutdown := false, max := max, num := 0, list := [], conns := fun _ => ⟨false, false, none⟩, nextConn := 0, nextBuf := 0, starts := 0,
    flying := [], queue := [], log := [] }

/-- Appends an effect to the log. -/
def emit (v : Asv) (e : AEv) : Asv := { v with log := v.log ++ [e] }

/-- Appends to the strand's queue. -/
def post (v : Asv) (t : ATask) : Asv := { v with queue := v.queue ++ [t] }

/-- Changes connection `c`. -/
def setConn (v : Asv) (c : Nat) (x : AConn) : Asv := { v with conns := fun i => if i = c then x else v.conns i }

/-- Is this an operation on the socket of connection `c`? -/
def onSocket (c : Nat) : AOp → Bool
  | .accept _ => false
  | .read c' => c' = c
  | .write c' _ _ => c' = c

/-- The handler queued for an aborted operation. -/
def aborted : AOp → ATask
  | .accept c => .accepted c false
  | .read c => .read c none
  | .write c _ _ => .written c false

/-- Is this an accept? -/
def isAccept : AOp → Bool
  | .accept _ => true
  | _ => false

/-- The operations selected by `p` complete with an error. -/
def abort (v : Asv) (p : AOp → Bool) : Asv :=
  { v with queue := v.queue ++ (v.flying.filter p).map aborted, flying := v.flying.filter fun o => !p o }

/-- `AsioServer::remove_connection`, AsioServer.cpp:47-56, with `AsioServerTcpConnection::close` (AsioServerTcpConnection.cpp:53-57),
which posts.  `--m_num_connections` wraps around (`unsigned int`). -/
def removeConnection (v : Asv) (c : Nat) : Asv :=
  if c ∈ v.list then { (v.post (.close c)).emit (.left c) with list := v.list.erase c, num := v.num - 1 } else v

/-- The lambda posted by `close`, AsioServerTcpConnection.cpp:57-71. -/
def runClose (v : Asv) (c : Nat) : Asv :=
  let x := v.conns c
  if x.isOpen then
    (((v.setConn c { x with connected := false, isOpen := false }).abort (onSocket c)).emit (.closed c)).removeConnection c
  else v.setConn c { x with connected := false }

/-- `AsioServer::start_accept`, AsioServer.cpp:63-67. -/
def startAccept (v : Asv) : Asv := if v.isShutdown then v else v.post .startAccept

/-- The lambda posted by `start_accept`, AsioServer.cpp:67-78. -/
def runStartAccept (v : Asv) : Asv :=
  if v.isShutdown then v
  else { v with list := v.list ++ [v.nextConn], nextConn := v.nextConn + 1, flying := v.flying ++ [.accept v.nextConn] }

/-- The lambda posted by `shutdown`, AsioServer.cpp:32-44. -/
def runShutdown (v : Asv) : Asv :=
  let v := { v with isShutdown := true }.abort isAccept
  { v with queue := v.queue ++ v.list.map .close, log := v.log ++ v.list.map .left, list := [] }

/-- `AsioServerTcpConnection::send_buffer`, AsioServerTcpConnection.cpp:159-170. -/
def sendBuffer (v : Asv) (c : Nat) : Asv :=
  match (v.conns c).wbuf with
  | none => v
  | some (b, data) =>
    if (v.conns c).connected then
      let v := v.emit (.submit c data)
      if (v.conns c).isOpen then { v with flying := v.flying ++ [.write c b data] } else v.post (.written c false)
    else v

/-- `AsioServerTcpConnection::send`, AsioServerTcpConnection.cpp:45-51. -/
def send (v : Asv) (c : Nat) (data : List UInt8) : Asv :=
  ({ v.emit (.asked c data) with nextBuf := v.nextBuf + 1 }.setConn c { v.conns c with wbuf := some (v.nextBuf, data) }).sendBuffer c

/-- `AsioServerTcpConnection::begin_read`, AsioServerTcpConnection.cpp:146-157. -/
def beginRead (v : Asv) (c : Nat) : Asv :=
  if (v.conns c).connected then
    if (v.conns c).isOpen then { v with flying := v.flying ++ [.read c] } else v.post (.read c none)
  else v

/-- `AsioServerTcpConnection::start`, AsioServerTcpConnection.cpp:86-95. -/
def startConn (v : Asv) (c : Nat) : Asv := ((v.setConn c { v.conns c with connected := true }).sendBuffer c).beginRead c

/-- `AsioServer::handle_accept`, AsioServer.cpp:81-103.  `m_connections.front()` of an empty list is undefined behaviour. -/
def onAccepted (v : Asv) (c : Nat) (ok : Bool) : CM Asv :=
  if v.isShutdown then .ret v
  else if ok then
    let v := { v.emit (.joined c) with num := v.num + 1 }
    if v.max < v.num then
      match v.list with
      | [] => .ub
      | front :: _ => .ret ((v.removeConnection front).startConn c).startAccept
    else .ret (v.startConn c).startAccept
  else .ret (v.removeConnection c)

/-- `close` followed by `send_error`, as in both handlers: AsioServerTcpConnection.cpp:109-110, 131-132, 172-191. -/
def fail (v : Asv) (c : Nat) : Asv := ((v.post (.close c)).emit (.error c)).removeConnection c

/-- The listener's answers, AsioServerTcpConnection.cpp:118. -/
def sendAll (v : Asv) (c : Nat) : List (List UInt8) → Asv
  | [] => v
  | d :: ds => (v.send c d).sendAll c ds

/-- `AsioServerTcpConnection::read_handler`, AsioServerTcpConnection.cpp:102-122; `replies` is what the listener sends meanwhile. -/
def onRead (v : Asv) (c : Nat) (r : Option (List UInt8)) (replies : List (List UInt8)) : Asv :=
  match r with
  | none => v.fail c
  | some bytes => ((v.emit (.receive c bytes)).sendAll c replies).beginRead c

/-- `AsioServerTcpConnection::write_handler`, AsioServerTcpConnection.cpp:124-144. -/
def onWritten (v : Asv) (c : Nat) (ok : Bool) : Asv :=
  if ok then (v.setConn c { v.conns c with wbuf := none }).emit (.writeDone c) else v.fail c

/-- Runs a queued task. -/
def runTask (v : Asv) (replies : List (List UInt8)) : ATask → CM Asv
  | .startAccept => .ret v.runStartAccept
  | .shutdown => .ret v.runShutdown
  | .close c => .ret (v.runClose c)
  | .accepted c ok => v.onAccepted c ok
  | .read c r => .ret (v.onRead c r replies)
  | .written c ok => .ret (v.onWritten c ok)

/-- The operation at position `i` completes; combinations that cannot happen change nothing.  A write that completes successfully
has read the caller's buffer: undefined behaviour if that buffer object no longer exists. -/
def complete (v : Asv) (i : Nat) (r : ARes) : CM Asv :=
  let rest := { v with flying := v.flying.eraseIdx i }
  match v.flying[i]? with
  | none => .ret v
  | some (.accept c) =>
    match r with
    | .ok => .ret ((rest.setConn c { v.conns c with isOpen := true }).post (.accepted c true))
    | .error => .ret (rest.post (.accepted c false))
    | _ => .ret v
  | some (.read c) =>
    match r with
    | .data bs => if 1 ≤ bs.length ∧ bs.length ≤ 4096 then .ret (rest.post (.read c (some bs))) else .ret v
    | .error => .ret (rest.post (.read c none))
    | _ => .ret v
  | some (.write c b data) =>
    match r with
    | .sent n =>
      if 1 ≤ n ∧ n ≤ data.length then
        if (v.conns c).wbuf.map (·.1) = some b then .ret ((rest.emit (.wire c (data.take n))).post (.written c true)) else .ub
      else .ret v
    | .error => .ret (rest.post (.written c false))
    | _ => .ret v

/-- What can happen. -/
inductive Op where
  /-- `start`, called by the channel (ServerChannelTcp.cpp:63). -/
  | start
  /-- `shutdown`, called by the channel (ServerChannelTcp.cpp:76). -/
  | shutdown
  /-- The operation in progress at position `i` completes. -/
  | complete (i : Nat) (r : ARes)
  /-- The strand runs the task at position `k` of its queue (asio runs them in order; any order is allowed here). -/
  | run (k : Nat) (replies : List (List UInt8))
deriving DecidableEq, Repr

/-- One step.  `start`: AsioServer.cpp:24-28. -/
def step (v : Asv) : Op → CM Asv
  | .start => .ret { v.startAccept with starts := v.starts + 1 }
  | .shutdown => .ret (v.post .shutdown)
  | .complete i r => v.complete i r
  | .run k replies =>
    match v.queue[k]? with
    | none => .ret v
    | some t => { v with queue := v.queue.eraseIdx k }.runTask replies t

/-- A history of steps. -/
def run (v : Asv) : List Op → CM Asv
  | [] => .ret v
  | op :: ops => do
    let v ← v.step op
    v.run ops

end Asv

end Modbus
