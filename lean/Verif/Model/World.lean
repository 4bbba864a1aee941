import Verif.Model.Stack
import Verif.Model.ServerStack
import Verif.Spec.ClientConn
import Verif.Spec.AsioServer

/-!
Any number of whole clients (`Stk`: ClientChannelTcp.cpp with AsioClientTcpConnection.cpp) and a whole server (`Svk`: ServerChannelTcp.cpp
with AsioServer.cpp and AsioServerTcpConnection.cpp), joined by a network.  Everything the library does is in these two models; what is
added here is the network, which is an assumption about TCP and not code of the library:

* each connection of the server belongs to one connection of one of the clients, or to a stranger, from whom anything may come
  (`WorldEnv.peer`; the server numbers its connections in the order of their creation, each client its attempts to connect);
* the bytes a connection delivers at one end are the bytes the operating system took at the other end, in order and without gaps, cut
  into arbitrary pieces, with arbitrary delay; after a while nothing more may come;
* accepting, refusing, errors, ends of stream, timers, API calls and the order in which things are handled are arbitrary.

All clients connect to this server only.
-/

namespace Modbus

/-- What happens, in order: in the clients and in the server. -/
inductive WEv where
  | cli (j : Nat) (e : KEv)
  | srv (e : VEv)
deriving DecidableEq

/-- What the library does not control.  `peer c`: to which client's which attempt the server's connection `c` belongs (`none`: to a
stranger). -/
structure WorldEnv (W : Type) where
  client : Nat → StkEnv
  server : ServerEnv W
  max : UInt32
  peer : Nat → Option (Nat × Nat)
  inj : ∀ c c' x, peer c = some x → peer c' = some x → c = c'

/-- All clients and the server.  Ghost data: `up c`, the bytes the network has delivered on connection `c` of the server; `down j n`, the
bytes it has delivered on connection `n` of client `j`. -/
structure World (W : Type) where
  cli : Nat → Stk
  srv : Svk W
  up : Nat → List UInt8
  down : Nat → Nat → List UInt8
  log : List WEv

namespace World

variable {W : Type}

/-- Everything has been constructed (ClientChannelTcp.cpp:28-40, ServerChannelTcp.cpp:44-54). -/
def init (env : WorldEnv W) (w : W) : World W :=
  { cli := fun j => Stk.init (env.client j), srv := Svk.init w env.max, up := fun _ => [], down := fun _ _ => [], log := [] }

/-- Client `j` makes a step (ClientChannelTcp.cpp, AsioClientTcpConnection.cpp). -/
def clientStep (env : WorldEnv W) (v : World W) (j : Nat) (op : Stk.Op) : CM (World W) := do
  let k ← (v.cli j).step (env.client j) op
  return { v with
    cli := fun i => if i = j then k else v.cli i
    log := v.log ++ (k.log.drop (v.cli j).log.length).map (.cli j) }

/-- The server makes a step (ServerChannelTcp.cpp, AsioServer.cpp, AsioServerTcpConnection.cpp). -/
def serverStep (env : WorldEnv W) (v : World W) (op : Svk.Op) : CM (World W) := do
  let s ← v.srv.step env.server op
  return { v with
    srv := s
    log := v.log ++ (s.log.drop v.srv.log.length).map .srv }

/-- What can happen. -/
inductive Op where
  /-- Anything at client `j` but the arrival of data. -/
  | client (j : Nat) (op : Stk.Op)
  /-- Anything at the server but the arrival of data. -/
  | server (op : Svk.Op)
  /-- The server's read in progress at position `i` gets data (AsioServerTcpConnection.cpp:146-157). -/
  | arrive (i : Nat) (d : List UInt8)
  /-- The read in progress at position `i` of client `j` gets data, which comes from the server's connection `c`
  (AsioClientTcpConnection.cpp:208-216). -/
  | hear (j i c : Nat) (d : List UInt8)

/-- Does data arrive at a client? -/
def givesClient : Stk.Op → Bool
  | .complete _ (.data _) => true
  | _ => false

/-- Does data arrive at the server? -/
def givesServer : Svk.Op → Bool
  | .complete _ (.data _) => true
  | _ => false

/-- Can one read return this? (The buffers have 4096 bytes: AsioClientTcpConnection.h:71, AsioServerTcpConnection.h:64.) -/
def piece (d : List UInt8) : Bool := 1 ≤ d.length && d.length ≤ 4096

/-- The bytes client `j` put on its connection `n` so far. -/
def sentUp (v : World W) (j n : Nat) : List UInt8 := (Spec.tcpWires n (v.cli j).tcp.log).flatten

/-- The bytes the server put on its connection `c` so far. -/
def sentDown (v : World W) (c : Nat) : List UInt8 := (Spec.asvWires c v.srv.asv.log).flatten

/-- May the server's connection `c` get `d` next? -/
def mayArrive (env : WorldEnv W) (v : World W) (c : Nat) (d : List UInt8) : Bool :=
  piece d && match env.peer c with
    | none => true
    | some (j, n) => (v.up c ++ d).isPrefixOf (v.sentUp j n)

/-- May connection `n` of client `j` get `d` from the server's connection `c` next? -/
def mayHear (env : WorldEnv W) (v : World W) (j n c : Nat) (d : List UInt8) : Bool :=
  piece d && env.peer c == some (j, n) && (v.down j n ++ d).isPrefixOf (v.sentDown c)

/-- One step; what cannot happen changes nothing. -/
def step (env : WorldEnv W) (v : World W) : Op → CM (World W)
  | .client j op => if givesClient op then .ret v else v.clientStep env j op
  | .server op => if givesServer op then .ret v else v.serverStep env op
  | .arrive i d =>
    match v.srv.asv.flying[i]? with
    | some (.read c) =>
      if v.mayArrive env c d then
        { v with up := fun c' => if c' = c then v.up c ++ d else v.up c' }.serverStep env (.complete i (.data d))
      else .ret v
    | _ => .ret v
  | .hear j i c d =>
    match (v.cli j).tcp.flying[i]? with
    | some (.read n) =>
      if v.mayHear env j n c d then
        { v with down := fun j' n' => if j' = j ∧ n' = n then v.down j n ++ d else v.down j' n' }.clientStep env j (.complete i (.data d))
      else .ret v
    | _ => .ret v

/-- A history of steps. -/
def run (env : WorldEnv W) (v : World W) : List Op → CM (World W)
  | [] => .ret v
  | op :: ops => do
    let v ← v.step env op
    v.run env ops

end World

end Modbus
