import Verif.Model.Client
import Verif.Model.ClientConn

/-!
The client as the user sees it: the channel (`Cli`, ClientChannelTcp.cpp) together with its own TCP connection (`Tcp`,
AsioClientTcpConnection.cpp), both running on one strand.  What is added here is how the two call each other: the channel's
`m_tcp_connection->send` (ClientChannelTcp.cpp:192-193) and `m_tcp_connection->shutdown` (ClientChannelTcp.cpp:109), and the
connection's calls of `on_receive` (AsioClientTcpConnection.cpp:176-180) and `on_error` (AsioClientTcpConnection.cpp:231-240);
`on_write_done` does nothing for the channel (IConnectionListener.h:31).

Simplification: the strand may run what is queued in any order (asio keeps the order), and API calls, timers and completions of
operations may come at any time in between.  The sends a channel makes during one callback are carried out at its end, in
order; `send` calls nothing back (AsioClientTcpConnection.cpp:47-84), so the channel cannot notice.
-/

namespace Modbus

/-- What happens in the client, in order: effects of the channel and effects of the connection. -/
inductive KEv where
  | ch (e : CEv)
  | net (e : TEv)
deriving DecidableEq

/-- What the library does not control: the channel's surroundings and how the local part of opening a connection goes (for the
`n`-th call of `send`). -/
structure StkEnv where
  client : ClientEnv
  loc : Nat → TLocal

/-- Channel and connection, and the log of effects.  `steps` is ghost data: every step of the connection so far, with the state
before it. -/
structure Stk where
  cli : Cli
  tcp : Tcp
  log : List KEv
  steps : List (Tcp × Tcp.Op)

namespace Stk

/-- Both objects have been constructed (ClientChannelTcp.cpp:28-40, AsioClientTcpConnection.cpp:26-40). -/
def init (env : StkEnv) : Stk :=
  { cli := Cli.init env.client, tcp := Tcp.init, log := [], steps := [] }

/-- The connection makes a step (AsioClientTcpConnection.cpp). -/
def net (v : Stk) (op : Tcp.Op) : CM Stk := do
  let t ← v.tcp.step op
  return { v with tcp := t, log := v.log ++ (t.log.drop v.tcp.log.length).map .net, steps := v.steps ++ [(v.tcp, op)] }

/-- An effect of the channel; calls of the connection are carried out (ClientChannelTcp.cpp:193, 109). -/
def relay1 (env : StkEnv) (v : Stk) (e : CEv) : CM Stk :=
  let v := { v with log := v.log ++ [.ch e] }
  match e with
  | .sent _ bytes _ => v.net (.send bytes (env.loc v.tcp.nextBuf))
  | .tcpShutdown => v.net .shutdown
  | _ => .ret v

/-- The effects of one step of the channel, in order. -/
def relay (env : StkEnv) (v : Stk) : List CEv → CM Stk
  | [] => .ret v
  | e :: es => do
    let v ← v.relay1 env e
    v.relay env es

/-- The channel makes a step (ClientChannelTcp.cpp). -/
def chan (env : StkEnv) (v : Stk) (op : Cli.Op) : CM Stk := do
  let c ← v.cli.step env.client op
  { v with cli := c }.relay env (c.log.drop v.cli.log.length)

/-- The connection's calls of its listener (AsioClientTcpConnection.cpp:176-180, 231-240). -/
def deliver (env : StkEnv) (v : Stk) : List TEv → CM Stk
  | [] => .ret v
  | .receive _ bytes :: es => do
    let v ← v.chan env (.receive bytes)
    v.deliver env es
  | .error _ _ :: es => do
    let v ← v.chan env .error
    v.deliver env es
  | _ :: es => v.deliver env es

/-- Does handling this leave the rest of the read handler to do? -/
def TTask.isData : TTask → Bool
  | .read _ (.data _) => true
  | _ => false

/-- What can happen. -/
inductive Op where
  /-- An API call, posted task or timer of the channel (not: `receive` and `error`, which come from the connection). -/
  | chan (op : Cli.Op)
  /-- The operation in progress at position `i` completes. -/
  | complete (i : Nat) (r : TRes)
  /-- The strand runs the connection's task at position `k`. -/
  | run (k : Nat)

/-- Steps of the channel that are not caused by the connection. -/
def own : Cli.Op → Bool
  | .receive _ => false
  | .error => false
  | _ => true

/-- One step.  A read handler that delivers data (AsioClientTcpConnection.cpp:173-182) calls the channel, which may call `send`,
and then starts the next read; the rest of the handler is the last task queued when the channel is called. -/
def step (env : StkEnv) (v : Stk) : Op → CM Stk
  | .chan op => if own op then v.chan env op else .ret v
  | .complete i r => v.net (.complete i r)
  | .run k => do
    let w ← v.net (.run k)
    let w' ← w.deliver env (w.tcp.log.drop v.tcp.log.length)
    match v.tcp.queue[k]? with
    | some t => if TTask.isData t ∧ w.tcp.isShutdown = false then w'.net (.run (w.tcp.queue.length - 1)) else .ret w'
    | none => .ret w'

/-- A history of steps. -/
def run (env : StkEnv) (v : Stk) : List Op → CM Stk
  | [] => .ret v
  | op :: ops => do
    let v ← v.step env op
    v.run env ops

end Stk

end Modbus
