import Verif.Model.ServerStack
import Verif.Model.ServerThrowing

/-!
The server as its clients see it (Model/ServerStack), with sessions that may throw (Model/ServerThrowing).  What is added here is the effect of an exception on the
connections: it leaves `AsioServerTcpConnection::read_handler` in the middle (AsioServerTcpConnection.cpp:113-121; `on_receive` is called in line 118, `begin_read` in
line 121), so that the connection is not read any more; everything else about it stays as it is.

Assumptions and simplifications: those of the two models.
-/

namespace Modbus

/-- The listening server with its connections, and (ghost data) the connections an exception has come from. -/
structure AsvT where
  asv : Asv
  dead : List Nat

namespace AsvT

/-- AsioServer.cpp:10-22. -/
def init (max : UInt32) : AsvT := { asv := Asv.init max, dead := [] }

/-- What can happen. -/
inductive Op where
  /-- A step without exception. -/
  | op (o : Asv.Op)
  /-- The strand runs the task at position `k`, a read handler whose listener throws after it has sent `replies`. -/
  | throws (k : Nat) (replies : List (List UInt8))
deriving DecidableEq, Repr

/-- One step.  The exception: AsioServerTcpConnection.cpp:113-121, line 121 is not reached. -/
def step (t : AsvT) : Op → CM AsvT
  | .op o => do
    let a ← t.asv.step o
    return { t with asv := a }
  | .throws k replies =>
    match t.asv.queue[k]? with
    | some (.read c (some bytes)) =>
      .ret { asv := ({ t.asv with queue := t.asv.queue.eraseIdx k }.emit (.receive c bytes)).sendAll c replies, dead := c :: t.dead }
    | _ => .ret t

/-- A history of steps. -/
def run (t : AsvT) : List Op → CM AsvT
  | [] => .ret t
  | op :: ops => do
    let t ← t.step op
    t.run ops

end AsvT

/-- Channel and connections (each with the log of its effects).  `steps` is ghost data: every step of the connections so far, with the state before it. -/
structure SvkT (W : Type) where
  srv : SrvT W
  net : AsvT
  steps : List (AsvT × AsvT.Op)

namespace SvkT

variable {W : Type}

/-- Both objects have been constructed (ServerChannelTcp.cpp:44-54, AsioServer.cpp:10-22). -/
def init (w : W) (max : UInt32) : SvkT W :=
  { srv := SrvT.init w, net := AsvT.init max, steps := [] }

/-- The connections make a step without exception (AsioServer.cpp, AsioServerTcpConnection.cpp). -/
def act (v : SvkT W) (o : Asv.Op) : CM (SvkT W) := do
  let n ← v.net.step (.op o)
  return { v with net := n, steps := v.steps ++ [(v.net, .op o)] }

/-- An effect of the channel; calls of the listening server are carried out (ServerChannelTcp.cpp:63, 76). -/
def relay1 (v : SvkT W) : SEv → CM (SvkT W)
  | .serverStart => v.act .start
  | .serverShutdown => v.act .shutdown
  | _ => .ret v

/-- The effects of one step of the channel, in order. -/
def relay (v : SvkT W) : List SEv → CM (SvkT W)
  | [] => .ret v
  | e :: es => do
    let v ← v.relay1 e
    v.relay es

/-- The channel or a listener makes a step that answers nothing (ServerChannelTcp.cpp, ServerConnectionListener.cpp). -/
def chan (env : ServerEnv W) (th : SThrows W) (v : SvkT W) (op : Srv.Op) : CM (SvkT W) := do
  let s ← v.srv.step env th op
  { v with srv := s }.relay (s.srv.log.drop v.srv.srv.log.length)

/-- A connection's read handler hands data to its listener, which calls the channel, which answers and may throw
(AsioServerTcpConnection.cpp:113-121); `k` is the handler's position in the queue.  (A connection that had thrown before has no read handler.) -/
def receive (env : ServerEnv W) (th : SThrows W) (v : SvkT W) (k : Nat) (c : ConnId) (bytes : List UInt8) : CM (SvkT W) := do
  let s ← v.srv.step env th (.receive c bytes)
  let new := s.srv.log.drop v.srv.srv.log.length
  let op : AsvT.Op := if c ∈ s.deaf then .throws k (Svk.answers c new) else .op (.run k (Svk.answers c new))
  let n ← v.net.step op
  return { srv := s, net := n, steps := v.steps ++ [(v.net, op)] }

/-- One step.  Accepting: AsioServer.cpp:81-103 (the listener is built before `start` is called, which only begins a read). -/
def step (env : ServerEnv W) (th : SThrows W) (v : SvkT W) : Svk.Op → CM (SvkT W)
  | .chan op => if Svk.own op then v.chan env th op else .ret v
  | .complete i r => v.act (.complete i r)
  | .run k mem =>
    match v.net.asv.queue[k]? with
    | some (.accepted c true) => do
      let w ← v.act (.run k [])
      if v.net.asv.isShutdown then return w else w.chan env th (.opened c mem)
    | some (.read c (some bytes)) => v.receive env th k c bytes
    | some (.read c none) => do
      let w ← v.act (.run k [])
      w.chan env th (.error c)
    | some (.written c false) => do
      let w ← v.act (.run k [])
      w.chan env th (.error c)
    | _ => v.act (.run k [])

/-- A history of steps. -/
def run (env : ServerEnv W) (th : SThrows W) (v : SvkT W) : List Svk.Op → CM (SvkT W)
  | [] => .ret v
  | op :: ops => do
    let v ← v.step env th op
    v.run env th ops

end SvkT

end Modbus
