import Verif.Model.Server

/-!
The server channel with sessions that may throw.  `IServerSession::on_request` and `shutdown` are the user's code
(lib/include/modbus/server/IServerSession.h:108-201), and the library catches nothing: an exception leaves all functions up to the executor
(ServerChannelTcp.cpp, ServerConnectionListener.cpp, MbapParser.cpp, AsioServerTcpConnection.cpp), and what they had still to do is not done.

Assumption: the executor survives, that is, it drops the task that threw and runs the next one.  (If the exception ends the process instead, nothing happens after it.)

Simplifications: as in Model/Server.  Of the connection only this is modelled: after an exception from `on_receive` it does not read any more (`begin_read` is not
reached, AsioServerTcpConnection.cpp:116-122).  The parser's state after an exception is taken to be that after the whole data; it does not matter, as nothing is
received on the connection any more.
-/

namespace Modbus

/-- Which calls of sessions throw, depending on the state of the user's program: `session->on_request(request)` and `session->shutdown()`. -/
structure SThrows (W : Type) where
  request : SessId → (k : Kind) → Req k → W → Bool
  shutdown : SessId → W → Bool

namespace Srv

variable {W : Type}

/-- `ServerChannelTcp::process_message`, ServerChannelTcp.cpp:152-199: if `on_request` (line 178) throws, nothing is sent.  The user's state is changed by what the session
did before it threw.  The second component says whether there was an exception. -/
def processMessageT (env : ServerEnv W) (th : SThrows W) (v : Srv W) (k : Kind) (s : SessId) (m : Mbap) (fc : UInt8) (c : ConnId) : CM (Srv W × Bool) := do
  match ← parseReq k m.data with
  | .error (.modbus t) => return (v.sendMessage env c m.unit m.tid (exceptionMsg fc t), false)
  | .error _ => return (v, false)
  | .ok request =>
    let thrown := th.request s k request v.world
    let (world, result) := env.onRequest s k request v.world
    let v := { v.emit (.request s k request) with world := world }
    if thrown then return (v, true)
    else
      match result with
      | .error (.modbus t) => return (v.sendMessage env c m.unit m.tid (exceptionMsg fc t), false)
      | .error _ => return (v, false)
      | .ok response => return (v.sendMessage env c m.unit m.tid (respMsg k response), false)

/-- `ServerChannelTcp::on_mbap`, ServerChannelTcp.cpp:99-150. -/
def onMbapT (env : ServerEnv W) (th : SThrows W) (v : Srv W) (c : ConnId) (m : Mbap) : CM (Srv W × Bool) :=
  let v := v.emit (.mbap c m)
  if v.isShutdown then .ret (v, false)
  else
    match v.sessions.lookup m.unit with
    | none => .ret (v, false)
    | some s =>
      if m.data.length < 1 then .ret (v, false)
      else do
        let (fc, _) ← getU8 m.data
        match kindOf fc with
        | some k => v.processMessageT env th k s m fc c
        | none => return (v.sendMessage env c m.unit m.tid (exceptionMsg fc .illegalFunction), false)

/-- The messages in the received data, ServerConnectionListener.cpp:20-38; an exception leaves `MbapParser::parse` (MbapParser.cpp:30-51, 100-103), so that the messages that
follow are lost. -/
def onMbapsT (env : ServerEnv W) (th : SThrows W) (v : Srv W) (c : ConnId) : List Mbap → CM (Srv W × Bool)
  | [] => .ret (v, false)
  | m :: ms => do
    let (v, thrown) ← v.onMbapT env th c m
    if thrown then return (v, true)
    else v.onMbapsT env th c ms

/-- The loop of `ServerChannelTcp::shutdown`, ServerChannelTcp.cpp:80-83. -/
def tellSessions (th : SThrows W) (v : Srv W) : List (UInt8 × SessId) → Srv W × Bool
  | [] => (v, false)
  | x :: xs =>
    let v := v.emit (.sessionShutdown x.2)
    if th.shutdown x.2 v.world then (v, true) else v.tellSessions th xs

/-- The posted lambdas, ServerChannelTcp.cpp:60-65, 70-85, 92-96: if a session throws from its `shutdown`, the sessions that follow are not told and line 84
(`m_sessions.clear()`) is not reached. -/
def runTaskT (th : SThrows W) (v : Srv W) : STask → Srv W
  | .shutdown =>
    let v := { v with isShutdown := true }
    let v := if v.isStarted then { v.emit .serverShutdown with isStarted := false } else v
    match v.tellSessions th v.sessions with
    | (v, true) => v
    | (v, false) => { v with sessions := [] }
  | t => v.runTask t

end Srv

/-- The server channel, and the connections that do not read any more because of an exception. -/
structure SrvT (W : Type) where
  srv : Srv W
  deaf : List ConnId

namespace SrvT

variable {W : Type}

/-- ServerChannelTcp.cpp:44-54. -/
def init (w : W) : SrvT W := { srv := Srv.init w, deaf := [] }

/-- One step.  Data that arrive on a connection that does not read are not seen (ServerConnectionListener.cpp:20-23, AsioServerTcpConnection.cpp:101-124). -/
def step (env : ServerEnv W) (th : SThrows W) (v : SrvT W) : Srv.Op → CM (SrvT W)
  | .receive c data =>
    if c ∈ v.deaf then .ret v
    else
      match v.srv.listeners.lookup c with
      | none => .ret v
      | some p => do
        let (p, ms) ← p.parse data
        let (s, thrown) ← { v.srv with listeners := Srv.setListener v.srv.listeners c p }.onMbapsT env th c ms
        return { srv := s, deaf := if thrown then c :: v.deaf else v.deaf }
  | .runTask =>
    match v.srv.tasks with
    | [] => .ret v
    | t :: ts => .ret { v with srv := { v.srv with tasks := ts }.runTaskT th t }
  | .dropped c => do
    let s ← v.srv.step env (.dropped c)
    return { srv := s, deaf := v.deaf.filter fun x => x ≠ c }
  | op => do
    let s ← v.srv.step env op
    return { v with srv := s }

/-- A history of steps. -/
def run (env : ServerEnv W) (th : SThrows W) (v : SrvT W) : List Srv.Op → CM (SrvT W)
  | [] => .ret v
  | op :: ops => do
    let v ← v.step env th op
    v.run env th ops

end SrvT

end Modbus
