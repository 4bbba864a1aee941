import Verif.Model.Server
import Verif.Model.AsioServer

/-!
The server as its clients see it: the channel (`Srv`, ServerChannelTcp.cpp, ServerConnectionListener.cpp) together with the listening
server and its connections (`Asv`, AsioServer.cpp, AsioServerTcpConnection.cpp), all running on one strand.  What is added here is how
they call each other: the channel's `m_server->start` and `m_server->shutdown` (ServerChannelTcp.cpp:63, 76), the listener built for an
accepted connection (AsioServer.cpp:98), the connection's calls of `on_receive` and `on_error` (AsioServerTcpConnection.cpp:116-119,
172-182) and the channel's `connection.send` (ServerChannelTcp.cpp:212); `on_write_done` does nothing
(ServerConnectionListener.cpp:15-18).

Simplifications: the strand may run what the connections have queued in any order (asio keeps the order), and API calls and
completions of operations may come at any time in between.  The answers given during one `on_receive` are carried out at its end,
in order; `send` calls nothing back (AsioServerTcpConnection.cpp:45-51), so the channel cannot notice.  Listeners are kept when their
connection object is destroyed (nothing happens on them then).
-/

namespace Modbus

/-- What happens in the server, in order: effects of the channel and effects of the connections. -/
inductive VEv where
  | ch (e : SEv)
  | net (e : AEv)
deriving DecidableEq

/-- Channel and connections, and the log of effects.  `steps` is ghost data: every step of the connections so far, with the state
before it. -/
structure Svk (W : Type) where
  srv : Srv W
  asv : Asv
  log : List VEv
  steps : List (Asv × Asv.Op)

namespace Svk

variable {W : Type}

/-- Both objects have been constructed (ServerChannelTcp.cpp:44-54, AsioServer.cpp:10-22). -/
def init (w : W) (max : UInt32) : Svk W :=
  { srv := Srv.init w, asv := Asv.init max, log := [], steps := [] }

/-- The connections make a step (AsioServer.cpp, AsioServerTcpConnection.cpp). -/
def net (v : Svk W) (op : Asv.Op) : CM (Svk W) := do
  let a ← v.asv.step op
  return { v with asv := a, log := v.log ++ (a.log.drop v.asv.log.length).map .net, steps := v.steps ++ [(v.asv, op)] }

/-- An effect of the channel; calls of the listening server are carried out (ServerChannelTcp.cpp:63, 76). -/
def relay1 (v : Svk W) (e : SEv) : CM (Svk W) :=
  let v := { v with log := v.log ++ [.ch e] }
  match e with
  | .serverStart => v.net .start
  | .serverShutdown => v.net .shutdown
  | _ => .ret v

/-- The effects of one step of the channel, in order. -/
def relay (v : Svk W) : List SEv → CM (Svk W)
  | [] => .ret v
  | e :: es => do
    let v ← v.relay1 e
    v.relay es

/-- The channel or a listener makes a step that answers nothing (ServerChannelTcp.cpp, ServerConnectionListener.cpp). -/
def chan (env : ServerEnv W) (v : Svk W) (op : Srv.Op) : CM (Svk W) := do
  let s ← v.srv.step env op
  { v with srv := s }.relay (s.log.drop v.srv.log.length)

/-- The answers for connection `c` among some effects of the channel (ServerChannelTcp.cpp:212). -/
def answers (c : ConnId) : List SEv → List (List UInt8)
  | [] => []
  | .send c' bytes :: es => if c' = c then bytes :: answers c es else answers c es
  | _ :: es => answers c es

/-- A connection's read handler hands data to its listener, which calls the channel, which answers
(AsioServerTcpConnection.cpp:113-121); `k` is the handler's position in the queue. -/
def receive (env : ServerEnv W) (v : Svk W) (k : Nat) (c : ConnId) (bytes : List UInt8) : CM (Svk W) := do
  let s ← v.srv.step env (.receive c bytes)
  let new := s.log.drop v.srv.log.length
  let op : Asv.Op := .run k (answers c new)
  let a ← v.asv.step op
  let anew := (a.log.drop v.asv.log.length).map VEv.net
  return { srv := s, asv := a, log := v.log ++ anew.take 1 ++ new.map .ch ++ anew.drop 1, steps := v.steps ++ [(v.asv, op)] }

/-- What can happen. -/
inductive Op where
  /-- An API call or posted task of the channel (not: events of the connections). -/
  | chan (op : Srv.Op)
  /-- The operation in progress at position `i` completes. -/
  | complete (i : Nat) (r : ARes)
  /-- The strand runs the connections' task at position `k`; `mem` is the uninitialised content of the parser's buffer if that
  builds a listener. -/
  | run (k : Nat) (mem : Vector UInt8 260)

/-- Steps of the channel that are not caused by the connections. -/
def own : Srv.Op → Bool
  | .start => true
  | .shutdown => true
  | .addSession _ _ => true
  | .runTask => true
  | _ => false

/-- One step.  Accepting: AsioServer.cpp:81-103 (the listener is built before `start` is called, which only begins a read). -/
def step (env : ServerEnv W) (v : Svk W) : Op → CM (Svk W)
  | .chan op => if own op then v.chan env op else .ret v
  | .complete i r => v.net (.complete i r)
  | .run k mem =>
    match v.asv.queue[k]? with
    | some (.accepted c true) => do
      let w ← v.net (.run k [])
      if v.asv.isShutdown then return w else w.chan env (.opened c mem)
    | some (.read c (some bytes)) => v.receive env k c bytes
    | some (.read c none) => do
      let w ← v.net (.run k [])
      w.chan env (.error c)
    | some (.written c false) => do
      let w ← v.net (.run k [])
      w.chan env (.error c)
    | _ => v.net (.run k [])

/-- A history of steps. -/
def run (env : ServerEnv W) (v : Svk W) : List Op → CM (Svk W)
  | [] => .ret v
  | op :: ops => do
    let v ← v.step env op
    v.run env ops

end Svk

end Modbus
