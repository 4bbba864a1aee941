import Verif.Model.Client
import Verif.Model.Server

/-!
A client channel (ClientChannelTcp.cpp) and a server channel (ServerChannelTcp.cpp, ServerConnectionListener.cpp) joined by
TCP connections.  Both channels are the models `Cli` and `Srv`; what is added here is the network between them.

Simplification: a connection carries bytes in both directions, in order, unchanged and cut into arbitrary chunks, with
arbitrary delay, until it breaks; what is in transit when it breaks may or may not reach the server and is lost for the
client.  A break is reported to the client channel (`on_error`), and what the client sends afterwards goes to a new
connection.  This is what the two connection classes (ClientTcpConnection.cpp, AsioServerTcpConnection.cpp) do apart from
the deviations recorded with C62-C66 and C69-C73, which are about them alone.
-/

namespace Modbus

/-- What happens in the system, in order: effects of the client channel while its connection number `i` is the current one,
and effects of the server channel. -/
inductive XEv where
  | cli (i : Nat) (e : CEv)
  | srv (e : SEv)
deriving DecidableEq

/-- Both channels and the bytes in transit.  `conn`: number of the client's current connection.  `up i`, `down i`: bytes
sent on connection number `i` by the client, by the server, and not yet received.  The server knows the client's connection
number `i` as connection `2 * i`; its other connections (odd numbers) belong to other clients. -/
structure Sys (W : Type) where
  cli : Cli
  srv : Srv W
  conn : Nat
  up : Nat → List UInt8
  down : Nat → List UInt8
  log : List XEv

/-- What the libraries on both sides do not control. -/
structure SysEnv (W : Type) where
  client : ClientEnv
  server : ServerEnv W

namespace Sys

variable {W : Type}

/-- The bytes given to `ITcpConnection::send` (ClientChannelTcp.cpp:193) among some effects of the client channel. -/
def sentBytes : List CEv → List UInt8
  | [] => []
  | .sent _ bytes _ :: es => bytes ++ sentBytes es
  | _ :: es => sentBytes es

/-- The bytes given to `ITcpConnection::send` (ServerChannelTcp.cpp:212) of connection `c` among some effects of the server
channel. -/
def repliedBytes (c : ConnId) : List SEv → List UInt8
  | [] => []
  | .send c' bytes :: es => if c' = c then bytes ++ repliedBytes c es else repliedBytes c es
  | _ :: es => repliedBytes c es

/-- The client channel makes a step (ClientChannelTcp.cpp); what it sends is put on its current connection. -/
def clientStep (env : SysEnv W) (v : Sys W) (op : Cli.Op) : CM (Sys W) := do
  let c ← v.cli.step env.client op
  let new := c.log.drop v.cli.log.length
  return { v with
    cli := c
    up := fun i => if i = v.conn then v.up i ++ sentBytes new else v.up i
    log := v.log ++ new.map (.cli v.conn) }

/-- The server channel makes a step (ServerChannelTcp.cpp); what it sends is put on the connections it names. -/
def serverStep (env : SysEnv W) (v : Sys W) (op : Srv.Op) : CM (Sys W) := do
  let s ← v.srv.step env.server op
  let new := s.log.drop v.srv.log.length
  return { v with
    srv := s
    down := fun i => v.down i ++ repliedBytes (2 * i) new
    log := v.log ++ new.map .srv }

/-- What can happen. -/
inductive Op where
  /-- An API call, posted task or timer of the client channel (not: `receive` and `error`, which come from the network). -/
  | client (op : Cli.Op)
  /-- An API call or posted task of the server channel, an event of another client's connection, or the server's end of
  one of the client's connections being destroyed. -/
  | server (op : Srv.Op)
  /-- The next `n` bytes on connection number `i` arrive at the server (ServerConnectionListener.cpp:20-23). -/
  | arrive (i n : Nat)
  /-- The next `n` bytes on the current connection arrive at the client (ClientChannelTcp.cpp:114-121). -/
  | hear (n : Nat)
  /-- The client's connection breaks, which the client channel is told (ClientChannelTcp.cpp:123-138); its next connection
  gets a listener at the server (ServerConnectionListenerBuilder.cpp:29-32). -/
  | reconnect (mem : Vector UInt8 260)

/-- Steps of the client channel that are not caused by the network. -/
def ownClient : Cli.Op → Bool
  | .receive _ => false
  | .error => false
  | _ => true

/-- Steps of the server channel that are not caused by data on one of the client's connections. -/
def ownServer : Srv.Op → Bool
  | .opened c _ => c % 2 == 1
  | .receive c _ => c % 2 == 1
  | .error c => c % 2 == 1
  | _ => true

/-- One step. -/
def step (env : SysEnv W) (v : Sys W) : Op → CM (Sys W)
  | .client op => if ownClient op then v.clientStep env op else .ret v
  | .server op => if ownServer op then v.serverStep env op else .ret v
  | .arrive i n =>
    { v with up := fun j => if j = i then (v.up i).drop n else v.up j }.serverStep env (.receive (2 * i) ((v.up i).take n))
  | .hear n =>
    { v with down := fun j => if j = v.conn then (v.down v.conn).drop n else v.down j }.clientStep env
      (.receive ((v.down v.conn).take n))
  | .reconnect mem => do
    let v ← v.clientStep env .error
    { v with conn := v.conn + 1 }.serverStep env (.opened (2 * (v.conn + 1)) mem)

/-- Both channels are new; the client's first connection (number 0) has a listener at the server. -/
def init (env : SysEnv W) (w : W) (mem : Vector UInt8 260) : Sys W :=
  { cli := Cli.init env.client
    srv := { Srv.init w with listeners := [(0, Parser.init env.server.pol mem.toList)] }
    conn := 0
    up := fun _ => []
    down := fun _ => []
    log := [] }

/-- A history of steps. -/
def run (env : SysEnv W) (v : Sys W) : List Op → CM (Sys W)
  | [] => .ret v
  | op :: ops => do
    let v ← v.step env op
    v.run env ops

end Sys

end Modbus
