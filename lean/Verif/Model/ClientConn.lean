import Verif.Model.Mbap

/-!
Model of the client's TCP connection: lib/src/client/channel/AsioClientTcpConnection.cpp (all of it).

Everything runs on the channel's strand.  The asynchronous operations of asio are modelled by two steps: the operation completes
(`Op.complete`, at any time, with any result the operating system may give), which queues its handler; and the strand runs the
handler (`Op.run`).  Assumptions about asio: closing or cancelling the socket completes the operations in progress on it with an
error at once, but does not retract handlers already queued; an operation started on a closed socket completes with an error;
opening an open socket is an error; `async_send` may write only part of the buffer, and uses the caller's memory until it has
completed; `async_connect` (with a list of endpoints) closes the socket and opens it again.

Ghost data: every operation, queued handler and posted `close` carries the number of the connection attempt (`conn`) during which
it was started.

Not modelled: logging, the choice among several resolved endpoints, sharing of the receive buffer by several reads in progress.
-/

namespace Modbus

/-- `ConnectionStatus`, AsioClientTcpConnection.h:48-53. -/
inductive TStatus where
  | notConnected
  | connecting
  | connected
deriving DecidableEq, Repr

/-- Asynchronous operations in progress. -/
inductive TOp where
  /-- `async_resolve`, AsioClientTcpConnection.cpp:74. -/
  | resolve (c : Nat)
  /-- `async_connect`, AsioClientTcpConnection.cpp:128. -/
  | connect (c : Nat)
  /-- `async_read_some`, AsioClientTcpConnection.cpp:212. -/
  | read (c : Nat)
  /-- `async_send` from buffer object `buf` holding `data`, AsioClientTcpConnection.cpp:224. -/
  | write (c : Nat) (buf : Nat) (data : List UInt8)
deriving DecidableEq, Repr

/-- Result of a read.  `again` is not a result: it is the rest of the read handler, left to do when the listener's `on_receive`
returns (`begin_read`, AsioClientTcpConnection.cpp:182); the listener may call `send` in between. -/
inductive TRead where
  | data (bytes : List UInt8)
  | eof
  | error
  | again
deriving DecidableEq, Repr

/-- What is queued on the strand: posted lambdas and handlers of completed operations. -/
inductive TTask where
  | close (c : Nat)
  | shutdown
  | resolved (c : Nat) (ok : Bool)
  | connected (c : Nat) (ok : Bool)
  | read (c : Nat) (r : TRead)
  | written (c : Nat) (ok : Bool)
deriving DecidableEq, Repr

/-- Observable effects. -/
inductive TEv where
  /-- `send(data)` was called (before shutdown took effect). -/
  | asked (data : List UInt8)
  /-- Connection attempt number `c` begins. -/
  | attempt (c : Nat)
  /-- `send` gave up (adapter address, open or bind failed). -/
  | gaveUp
  /-- Data was given to the operating system's connection `c` (`async_send` started). -/
  | submit (c : Nat) (data : List UInt8)
  /-- Bytes went out on connection `c`. -/
  | wire (c : Nat) (bytes : List UInt8)
  /-- The listener's `on_receive`, bytes read from connection `c`. -/
  | receive (c : Nat) (bytes : List UInt8)
  /-- The listener's `on_error`, for an event belonging to attempt `c`, during attempt `cur`. -/
  | error (c cur : Nat)
  /-- The listener's `on_write_done`. -/
  | writeDone
  /-- The connection was closed, for an event belonging to attempt `c`, during attempt `cur`. -/
  | closed (c cur : Nat)
deriving DecidableEq, Repr

/-- State: the members of `AsioClientTcpConnection` (AsioClientTcpConnection.h:63-76), the operations in progress, the strand's
queue, the number of connection attempts so far (`conn`) and the log.  `wbuf` is `m_write_buffer` with the identity of the buffer
object. -/
structure Tcp where
  isShutdown : Bool
  status : TStatus
  isOpen : Bool
  conn : Nat
  wbuf : Option (Nat × List UInt8)
  nextBuf : Nat
  flying : List TOp
  queue : List TTask
  log : List TEv
deriving DecidableEq

/-- How the local part of opening a connection goes: the adapter address parses, `open` succeeds, `bind` succeeds. -/
inductive TLocal where
  | ok
  | badAdapter
  | openFails
  | bindFails
deriving DecidableEq, Repr

/-- Result with which an operation completes. -/
inductive TRes where
  | ok
  | sent (n : Nat)
  | data (bytes : List UInt8)
  | eof
  | error
deriving DecidableEq, Repr

namespace Tcp

/-- The constructor, AsioClientTcpConnection.cpp:26-40. -/
def init : Tcp :=
  { isShutdown := false, status := .notConnected, isOpen := false, conn := 0, wbuf := none, nextBuf := 0, flying := [], queue := [], log := [] }

/-- Appends an effect to the log. -/
def emit (v : Tcp) (e : TEv) : Tcp := { v with log := v.log ++ [e] }

/-- Appends to the strand's queue. -/
def post (v : Tcp) (t : TTask) : Tcp := { v with queue := v.queue ++ [t] }

/-- The handler queued for an operation aborted by closing the socket; resolving does not use the socket. -/
def aborted : TOp → Option TTask
  | .resolve _ => none
  | .connect c => some (.connected c false)
  | .read c => some (.read c .error)
  | .write c _ _ => some (.written c false)

/-- Is this `async_resolve`? -/
def TOp.isResolve : TOp → Bool
  | .resolve _ => true
  | _ => false

/-- The operations in progress on the socket complete with an error (asio, on `cancel` and `close`). -/
def abortAll (v : Tcp) : Tcp :=
  { v with queue := v.queue ++ v.flying.filterMap aborted, flying := v.flying.filter TOp.isResolve }

/-- `send_buffer`, AsioClientTcpConnection.cpp:218-229. -/
def sendBuffer (v : Tcp) : Tcp :=
  if v.isShutdown then v
  else
    match v.wbuf with
    | none => v
    | some (b, data) =>
      let v := v.emit (.submit v.conn data)
      if v.isOpen then { v with flying := v.flying ++ [.write v.conn b data] } else v.post (.written v.conn false)

/-- `begin_read`, AsioClientTcpConnection.cpp:208-216. -/
def beginRead (v : Tcp) : Tcp :=
  if v.isShutdown then v
  else if v.isOpen then { v with flying := v.flying ++ [.read v.conn] }
  else v.post (.read v.conn .error)

/-- `send_error`, AsioClientTcpConnection.cpp:231-240, for an event belonging to attempt `c`. -/
def sendError (v : Tcp) (c : Nat) : Tcp := if v.isShutdown then v else v.emit (.error c v.conn)

/-- `close`, AsioClientTcpConnection.cpp:86-90. -/
def close (v : Tcp) (c : Nat) : Tcp := if v.isShutdown then v else v.post (.close c)

/-- `send`, AsioClientTcpConnection.cpp:47-84. -/
def send (v : Tcp) (data : List UInt8) (loc : TLocal) : Tcp :=
  if v.isShutdown then v
  else
    let v := { v.emit (.asked data) with wbuf := some (v.nextBuf, data), nextBuf := v.nextBuf + 1 }
    match v.status with
    | .notConnected =>
      if loc = .badAdapter then v.emit .gaveUp
      else if v.isOpen ∨ loc = .openFails then v.emit .gaveUp
      else if loc = .bindFails then { v.emit .gaveUp with isOpen := true }
      else
        let v := { v with isOpen := true, status := .connecting, conn := v.conn + 1 }
        let v := v.emit (.attempt v.conn)
        { v with flying := v.flying ++ [.resolve v.conn] }
    | .connecting => v
    | .connected => v.sendBuffer

/-- The lambda posted by `close`, AsioClientTcpConnection.cpp:91-103. -/
def runClose (v : Tcp) (c : Nat) : Tcp :=
  if v.isShutdown then v
  else
    let v := { v.emit (.closed c v.conn) with status := .notConnected }
    if v.isOpen then { v.abortAll with isOpen := false } else v

/-- The lambda posted by `shutdown`, AsioClientTcpConnection.cpp:108-113. -/
def runShutdown (v : Tcp) : Tcp := { v with isShutdown := true }.abortAll

/-- `resolve_handler`, AsioClientTcpConnection.cpp:116-133. -/
def onResolved (v : Tcp) (c : Nat) (ok : Bool) : Tcp :=
  if v.isShutdown then v
  else if ok then
    let v := v.abortAll
    { v with isOpen := true, flying := v.flying ++ [.connect v.conn] }
  else { v with status := .notConnected }.sendError c

/-- `connect_handler`, AsioClientTcpConnection.cpp:135-152. -/
def onConnected (v : Tcp) (c : Nat) (ok : Bool) : Tcp :=
  if v.isShutdown then v
  else if ok then { v with status := .connected }.sendBuffer.beginRead
  else (v.close c).sendError c

/-- `read_handler`, AsioClientTcpConnection.cpp:154-183, in two parts: up to the call of `on_receive`, and the rest (`again`).
Between the two the listener's `send`s can happen; that other tasks could run in between is allowed here, though the strand excludes
it. -/
def onRead (v : Tcp) (c : Nat) (r : TRead) : Tcp :=
  if v.isShutdown then v
  else
    match r with
    | .eof => v.close c
    | .error => (v.close c).sendError c
    | .data bs => (v.emit (.receive c bs)).post (.read c .again)
    | .again => v.beginRead

/-- `write_handler`, AsioClientTcpConnection.cpp:185-206. -/
def onWritten (v : Tcp) (c : Nat) (ok : Bool) : Tcp :=
  if v.isShutdown then v
  else if ok then { v with wbuf := none }.emit .writeDone
  else (v.close c).sendError c

/-- Runs a queued task. -/
def runTask (v : Tcp) : TTask → Tcp
  | .close c => v.runClose c
  | .shutdown => v.runShutdown
  | .resolved c ok => v.onResolved c ok
  | .connected c ok => v.onConnected c ok
  | .read c r => v.onRead c r
  | .written c ok => v.onWritten c ok

/-- The operation at position `i` completes; combinations that cannot happen change nothing.  A write that completes successfully
has read the caller's buffer: undefined behaviour if that buffer object no longer exists. -/
def complete (v : Tcp) (i : Nat) (r : TRes) : CM Tcp :=
  let rest := { v with flying := v.flying.eraseIdx i }
  match v.flying[i]? with
  | none => .ret v
  | some (.resolve c) =>
    match r with
    | .ok => .ret (rest.post (.resolved c true))
    | .error => .ret (rest.post (.resolved c false))
    | _ => .ret v
  | some (.connect c) =>
    match r with
    | .ok => .ret (rest.post (.connected c true))
    | .error => .ret (rest.post (.connected c false))
    | _ => .ret v
  | some (.read c) =>
    match r with
    | .data bs => if 1 ≤ bs.length ∧ bs.length ≤ 4096 then .ret (rest.post (.read c (.data bs))) else .ret v
    | .eof => .ret (rest.post (.read c .eof))
    | .error => .ret (rest.post (.read c .error))
    | _ => .ret v
  | some (.write c b data) =>
    match r with
    | .sent n =>
      if 1 ≤ n ∧ n ≤ data.length then
        if v.wbuf.map (·.1) = some b then .ret ((rest.emit (.wire c (data.take n))).post (.written c true)) else .ub
      else .ret v
    | .error => .ret (rest.post (.written c false))
    | _ => .ret v

/-- What can happen. -/
inductive Op where
  /-- `send` (called by the channel, on the strand). -/
  | send (data : List UInt8) (loc : TLocal)
  /-- `shutdown` (called by the channel). -/
  | shutdown
  /-- The operation in progress at position `i` completes. -/
  | complete (i : Nat) (r : TRes)
  /-- The strand runs the task at position `k` of its queue (asio runs them in order; any order is allowed here). -/
  | run (k : Nat)
deriving DecidableEq, Repr

/-- One step. -/
def step (v : Tcp) : Op → CM Tcp
  | .send data loc => .ret (v.send data loc)
  | .shutdown => .ret (v.post .shutdown)
  | .complete i r => v.complete i r
  | .run k =>
    match v.queue[k]? with
    | none => .ret v
    | some t => .ret ({ v with queue := v.queue.eraseIdx k }.runTask t)

/-- How the channel's parser sees the events of the connection: `ClientChannelTcp::on_receive` parses (ClientChannelTcp.cpp:114-121),
`on_error` resets the parser (ClientChannelTcp.cpp:129); no other event touches it.  Returns the delivered messages. -/
def framing (p : Parser) : List TEv → CM (Parser × List Mbap)
  | [] => .ret (p, [])
  | .receive _ bytes :: es => do
    let (p1, out1) ← p.parse bytes
    let (p2, out2) ← framing p1 es
    return (p2, out1 ++ out2)
  | .error _ _ :: es => framing p.reset es
  | _ :: es => framing p es

/-- A history of steps. -/
def run (v : Tcp) : List Op → CM Tcp
  | [] => .ret v
  | op :: ops => do
    let v ← v.step op
    v.run ops

end Tcp

end Modbus
