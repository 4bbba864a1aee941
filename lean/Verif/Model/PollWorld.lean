import Verif.Model.Polling
import Verif.Model.World

/-!
Any number of whole clients with their sessions and scheduled requests, and a whole server, joined by a network.

`Plk`: the client with sessions and scheduled requests (`Pcl`: ClientChannelTcp.cpp, ClientSessionImpl.cpp, ScheduledRequest.hpp) together
with its own TCP connection (`Tcp`: AsioClientTcpConnection.cpp).  How channel and connection call each other is as in `Stk`
(Model/Stack.lean), with the same simplifications.

`PWorld`: such clients and a server (`Svk`), joined by the same network as in Model/World.lean.
-/

namespace Modbus

/-- What happens in a client, in order: effects of channel, sessions and scheduled requests, and effects of the connection. -/
inductive PKEv where
  | up (e : LEv)
  | net (e : TEv)
deriving DecidableEq

/-- Client and connection, and the log of effects.  `steps` is ghost data: every step of the connection so far, with the state before it. -/
structure Plk where
  pcl : Pcl
  tcp : Tcp
  log : List PKEv
  steps : List (Tcp × Tcp.Op)

namespace Plk

/-- Both objects have been constructed (ClientChannelTcp.cpp:28-40, AsioClientTcpConnection.cpp:26-40). -/
def init (env : StkEnv) : Plk :=
  { pcl := Pcl.init env.client, tcp := Tcp.init, log := [], steps := [] }

/-- The connection makes a step (AsioClientTcpConnection.cpp). -/
def net (v : Plk) (op : Tcp.Op) : CM Plk := do
  let t ← v.tcp.step op
  return { v with tcp := t, log := v.log ++ (t.log.drop v.tcp.log.length).map .net, steps := v.steps ++ [(v.tcp, op)] }

/-- An effect of the client; calls of the connection are carried out (ClientChannelTcp.cpp:193, 109). -/
def relay1 (env : StkEnv) (v : Plk) (e : LEv) : CM Plk :=
  let v := { v with log := v.log ++ [.up e] }
  match e with
  | .ch (.sent _ bytes _) => v.net (.send bytes (env.loc v.tcp.nextBuf))
  | .ch .tcpShutdown => v.net .shutdown
  | _ => .ret v

/-- The effects of one step of the client, in order. -/
def relay (env : StkEnv) (v : Plk) : List LEv → CM Plk
  | [] => .ret v
  | e :: es => do
    let v ← v.relay1 env e
    v.relay env es

/-- The client makes a step (ClientChannelTcp.cpp, ClientSessionImpl.cpp, ScheduledRequest.hpp). -/
def up (env : StkEnv) (v : Plk) (op : Pcl.Op) : CM Plk := do
  let p ← v.pcl.step env.client op
  { v with pcl := p }.relay env (p.log.drop v.pcl.log.length)

/-- The connection's calls of its listener (AsioClientTcpConnection.cpp:176-180, 231-240). -/
def deliver (env : StkEnv) (v : Plk) : List TEv → CM Plk
  | [] => .ret v
  | .receive _ bytes :: es => do
    let v ← v.up env (.chan (.receive bytes))
    v.deliver env es
  | .error _ _ :: es => do
    let v ← v.up env (.chan .error)
    v.deliver env es
  | _ :: es => v.deliver env es

/-- What can happen. -/
inductive Op where
  /-- An API call, posted task or timer of the channel, a session or a scheduled request (not: `receive` and `error`, which come from the
  connection). -/
  | up (op : Pcl.Op)
  /-- The operation in progress at position `i` completes. -/
  | complete (i : Nat) (r : TRes)
  /-- The strand runs the connection's task at position `k`. -/
  | run (k : Nat)

/-- Steps of the client that are not caused by the connection. -/
def own : Pcl.Op → Bool
  | .chan (.receive _) => false
  | .chan .error => false
  | _ => true

/-- One step (as for `Stk`).  A read handler that delivers data (AsioClientTcpConnection.cpp:173-182) calls the channel, which may call
`send`, and then starts the next read; the rest of the handler is the last task queued when the channel is called. -/
def step (env : StkEnv) (v : Plk) : Op → CM Plk
  | .up op => if own op then v.up env op else .ret v
  | .complete i r => v.net (.complete i r)
  | .run k => do
    let w ← v.net (.run k)
    let w' ← w.deliver env (w.tcp.log.drop v.tcp.log.length)
    match v.tcp.queue[k]? with
    | some t => if Stk.TTask.isData t ∧ w.tcp.isShutdown = false then w'.net (.run (w.tcp.queue.length - 1)) else .ret w'
    | none => .ret w'

end Plk

/-- What happens, in order: in the clients and in the server. -/
inductive PWEv where
  | cli (j : Nat) (e : PKEv)
  | srv (e : VEv)
deriving DecidableEq

/-- All clients and the server.  Ghost data: `up c`, the bytes the network has delivered on connection `c` of the server; `down j n`, the
bytes it has delivered on connection `n` of client `j`. -/
structure PWorld (W : Type) where
  cli : Nat → Plk
  srv : Svk W
  up : Nat → List UInt8
  down : Nat → Nat → List UInt8
  log : List PWEv

namespace PWorld

variable {W : Type}

/-- Everything has been constructed (ClientChannelTcp.cpp:28-40, ServerChannelTcp.cpp:44-54). -/
def init (env : WorldEnv W) (w : W) : PWorld W :=
  { cli := fun j => Plk.init (env.client j), srv := Svk.init w env.max, up := fun _ => [], down := fun _ _ => [], log := [] }

/-- Client `j` makes a step (ClientChannelTcp.cpp, ClientSessionImpl.cpp, ScheduledRequest.hpp, AsioClientTcpConnection.cpp). -/
def clientStep (env : WorldEnv W) (v : PWorld W) (j : Nat) (op : Plk.Op) : CM (PWorld W) := do
  let k ← (v.cli j).step (env.client j) op
  return { v with
    cli := fun i => if i = j then k else v.cli i
    log := v.log ++ (k.log.drop (v.cli j).log.length).map (.cli j) }

/-- The server makes a step (ServerChannelTcp.cpp, AsioServer.cpp, AsioServerTcpConnection.cpp). -/
def serverStep (env : WorldEnv W) (v : PWorld W) (op : Svk.Op) : CM (PWorld W) := do
  let s ← v.srv.step env.server op
  return { v with
    srv := s
    log := v.log ++ (s.log.drop v.srv.log.length).map .srv }

/-- What can happen. -/
inductive Op where
  /-- Anything at client `j` but the arrival of data. -/
  | client (j : Nat) (op : Plk.Op)
  /-- Anything at the server but the arrival of data. -/
  | server (op : Svk.Op)
  /-- The server's read in progress at position `i` gets data (AsioServerTcpConnection.cpp:146-157). -/
  | arrive (i : Nat) (d : List UInt8)
  /-- The read in progress at position `i` of client `j` gets data, which comes from the server's connection `c`
  (AsioClientTcpConnection.cpp:208-216). -/
  | hear (j i c : Nat) (d : List UInt8)

/-- Does data arrive at a client? -/
def givesClient : Plk.Op → Bool
  | .complete _ (.data _) => true
  | _ => false

/-- The bytes client `j` put on its connection `n` so far. -/
def sentUp (v : PWorld W) (j n : Nat) : List UInt8 := (Spec.tcpWires n (v.cli j).tcp.log).flatten

/-- The bytes the server put on its connection `c` so far. -/
def sentDown (v : PWorld W) (c : Nat) : List UInt8 := (Spec.asvWires c v.srv.asv.log).flatten

/-- May the server's connection `c` get `d` next? (An assumption about TCP, as in Model/World.lean.) -/
def mayArrive (env : WorldEnv W) (v : PWorld W) (c : Nat) (d : List UInt8) : Bool :=
  World.piece d && match env.peer c with
    | none => true
    | some (j, n) => (v.up c ++ d).isPrefixOf (v.sentUp j n)

/-- May connection `n` of client `j` get `d` from the server's connection `c` next? (An assumption about TCP.) -/
def mayHear (env : WorldEnv W) (v : PWorld W) (j n c : Nat) (d : List UInt8) : Bool :=
  World.piece d && env.peer c == some (j, n) && (v.down j n ++ d).isPrefixOf (v.sentDown c)

/-- One step; what cannot happen changes nothing. -/
def step (env : WorldEnv W) (v : PWorld W) : Op → CM (PWorld W)
  | .client j op => if givesClient op then .ret v else v.clientStep env j op
  | .server op => if World.givesServer op then .ret v else v.serverStep env op
  | .arrive i d =>
    match v.srv.asv.flying[i]? with
    | some (.read c) =>
      if v.mayArrive env c d then
        { v with up := fun c' => if c' = c then v.up c ++ d else v.up c' }.serverStep env (.complete i (.data d))
      else .ret v
    | _ => .ret v
  | .hear j i c d =>
    match (v.cli j).tcp.flying[i]? with
    | some (.read n) =>
      if v.mayHear env j n c d then
        { v with down := fun j' n' => if j' = j ∧ n' = n then v.down j n ++ d else v.down j' n' }.clientStep env j (.complete i (.data d))
      else .ret v
    | _ => .ret v

/-- A history of steps. -/
def run (env : WorldEnv W) (v : PWorld W) : List Op → CM (PWorld W)
  | [] => .ret v
  | op :: ops => do
    let v ← v.step env op
    v.run env ops

end PWorld

end Modbus
