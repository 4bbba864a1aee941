import Verif.Model.Mbap

/-!
Model of the server side above the TCP connections: lib/src/server/channel/ServerChannelTcp.cpp,
ServerConnectionListener.cpp, ServerConnectionListenerBuilder.cpp and the defaults of
lib/include/modbus/server/IServerSession.h.
-/

namespace Modbus

/-- Identity of a user's session object (`std::shared_ptr<IServerSession>`). -/
abbrev SessId := Nat
/-- Identity of a TCP connection (`ITcpConnection`). -/
abbrev ConnId := Nat

/-- The user's code and other things the library does not control.  `onRequest s k r w` is `s->on_request(r)`: an arbitrary
function of an arbitrary state `W` of the user's program.  `junk n` is the uninitialised content of the `n`-th response
buffer (`ser4cpp::StaticBuffer<260>`, ServerChannelTcp.cpp:206). -/
structure ServerEnv (W : Type) where
  pol : CopyPolicy
  onRequest : SessId → (k : Kind) → Req k → W → W × Expected (Resp k)
  junk : Nat → Vector UInt8 260

/-- Observable effects of the server channel, in the order they happen. -/
inductive SEv where
  /-- A connection handed a message to the channel (`channel->on_mbap`, ServerConnectionListener.cpp:36). -/
  | mbap (c : ConnId) (m : Mbap)
  /-- `session->on_request(request)` was called. -/
  | request (s : SessId) (k : Kind) (r : Req k)
  /-- `connection.send(bytes)` was called. -/
  | send (c : ConnId) (bytes : List UInt8)
  /-- `session->shutdown()` was called. -/
  | sessionShutdown (s : SessId)
  /-- `m_server->start(...)` was called. -/
  | serverStart
  /-- `m_server->shutdown()` was called. -/
  | serverShutdown
deriving DecidableEq

/-- Tasks posted to the strand by the channel. -/
inductive STask where
  | start
  | shutdown
  | addSession (u : UInt8) (s : SessId)
deriving DecidableEq, Repr

/-- State of `ServerChannelTcp` (ServerChannelTcp.h:57-63) with its strand's queue, the listeners (one parser per
connection, ServerConnectionListener.h:47-49), the user's state and the log of effects.  `sessions` is the
`std::unordered_map` as an association list; its iteration order (used in `shutdown` only) is unspecified in C++, here
insertion order. -/
structure Srv (W : Type) where
  isShutdown : Bool
  isStarted : Bool
  sessions : List (UInt8 × SessId)
  tasks : List STask
  listeners : List (ConnId × Parser)
  world : W
  nsend : Nat
  log : List SEv

namespace Srv

variable {W : Type}

/-- `ServerChannelTcp::ServerChannelTcp`, ServerChannelTcp.cpp:44-54. -/
def init (w : W) : Srv W :=
  { isShutdown := false, isStarted := false, sessions := [], tasks := [], listeners := [], world := w, nsend := 0, log := [] }

/-- Appends an effect to the log. -/
def emit (v : Srv W) (e : SEv) : Srv W := { v with log := v.log ++ [e] }

/-- `ServerChannelTcp::send_message`, ServerChannelTcp.cpp:201-213. -/
def sendMessage (env : ServerEnv W) (v : Srv W) (c : ConnId) (unit : UInt8) (tid : UInt16) (message : Msg) : Srv W :=
  let bytes := buildMbap unit tid message ⟨[], (env.junk v.nsend).toList⟩
  { v.emit (.send c bytes) with nsend := v.nsend + 1 }

/-- `ServerChannelTcp::process_message`, ServerChannelTcp.cpp:152-199. -/
def processMessage (env : ServerEnv W) (v : Srv W) (k : Kind) (s : SessId) (m : Mbap) (fc : UInt8) (c : ConnId) :
    CM (Srv W) := do
  match ← parseReq k m.data with
  | .error (.modbus t) => return v.sendMessage env c m.unit m.tid (exceptionMsg fc t)
  | .error _ => return v
  | .ok request =>
    let (world, result) := env.onRequest s k request v.world
    let v := { v.emit (.request s k request) with world := world }
    match result with
    | .error (.modbus t) => return v.sendMessage env c m.unit m.tid (exceptionMsg fc t)
    | .error _ => return v
    | .ok response => return v.sendMessage env c m.unit m.tid (respMsg k response)

/-- The `switch` of ServerChannelTcp.cpp:115-144. -/
def kindOf (fc : UInt8) : Option Kind :=
  if fc = 0x01 then some .readCoils
  else if fc = 0x02 then some .readDiscreteInputs
  else if fc = 0x03 then some .readHoldingRegisters
  else if fc = 0x04 then some .readInputRegisters
  else if fc = 0x05 then some .writeSingleCoil
  else if fc = 0x06 then some .writeSingleRegister
  else if fc = 0x0F then some .writeMultipleCoils
  else if fc = 0x10 then some .writeMultipleRegisters
  else none

/-- `ServerChannelTcp::on_mbap`, ServerChannelTcp.cpp:99-150. -/
def onMbap (env : ServerEnv W) (v : Srv W) (c : ConnId) (m : Mbap) : CM (Srv W) :=
  let v := v.emit (.mbap c m)
  if v.isShutdown then .ret v
  else
    match v.sessions.lookup m.unit with
    | none => .ret v
    | some s =>
      if m.data.length < 1 then .ret v
      else do
        let (fc, _) ← getU8 m.data
        match kindOf fc with
        | some k => v.processMessage env k s m fc c
        | none => return v.sendMessage env c m.unit m.tid (exceptionMsg fc .illegalFunction)

/-- Successive `on_mbap_message` callbacks during one `m_parser.parse(data)`, ServerConnectionListener.cpp:20-38.
The weak pointers are alive: the connection is the caller, the channel is kept alive by its creator (after the channel is
destroyed messages are dropped, which is a silent special case not modelled). -/
def onMbaps (env : ServerEnv W) (v : Srv W) (c : ConnId) : List Mbap → CM (Srv W)
  | [] => .ret v
  | m :: ms => do
    let v ← v.onMbap env c m
    v.onMbaps env c ms

/-- Replaces the parser of a connection. -/
def setListener (ls : List (ConnId × Parser)) (c : ConnId) (p : Parser) : List (ConnId × Parser) :=
  match ls with
  | [] => []
  | (c', p') :: ls => if c' = c then (c, p) :: ls else (c', p') :: setListener ls c p

/-- What can happen: API calls from any thread, the strand running its next task, and events of the connections. -/
inductive Op where
  | start
  | shutdown
  | addSession (u : UInt8) (s : SessId)
  | runTask
  /-- A new connection gets a listener (ServerConnectionListenerBuilder.cpp:29-32); `mem` is the uninitialised content of
  its parser's buffer. -/
  | opened (c : ConnId) (mem : Vector UInt8 260)
  | receive (c : ConnId) (data : List UInt8)
  | error (c : ConnId)
  /-- The connection object (with its listener) is destroyed. -/
  | dropped (c : ConnId)

/-- The lambda posted by `start`, `shutdown` or `add_session`: ServerChannelTcp.cpp:60-65, 70-85, 92-96. -/
def runTask (v : Srv W) : STask → Srv W
  | .start => if v.isShutdown then v else { v.emit .serverStart with isStarted := true }
  | .shutdown =>
    let v := { v with isShutdown := true }
    let v := if v.isStarted then { v.emit .serverShutdown with isStarted := false } else v
    { v with log := v.log ++ v.sessions.map fun x => .sessionShutdown x.2, sessions := [] }
  | .addSession u s =>
    if v.isShutdown then v
    else if (v.sessions.lookup u).isSome then v  -- `insert` does not overwrite
    else { v with sessions := v.sessions ++ [(u, s)] }

/-- One step.  `start`, `shutdown`, `add_session`: ServerChannelTcp.cpp:56-97; `receive`, `error`:
ServerConnectionListener.cpp:20-28.  Events of a connection without listener do not exist (no step). -/
def step (env : ServerEnv W) (v : Srv W) : Op → CM (Srv W)
  | .start => if v.isShutdown then .ret v else .ret { v with tasks := v.tasks ++ [.start] }
  | .shutdown => .ret { v with tasks := v.tasks ++ [.shutdown] }
  | .addSession u s => if v.isShutdown then .ret v else .ret { v with tasks := v.tasks ++ [.addSession u s] }
  | .runTask =>
    match v.tasks with
    | [] => .ret v
    | t :: ts => .ret ({ v with tasks := ts }.runTask t)
  | .opened c mem =>
    if (v.listeners.lookup c).isSome then .ret v
    else .ret { v with listeners := v.listeners ++ [(c, Parser.init env.pol mem.toList)] }
  | .receive c data =>
    match v.listeners.lookup c with
    | none => .ret v
    | some p => do
      let (p, ms) ← p.parse data
      { v with listeners := setListener v.listeners c p }.onMbaps env c ms
  | .error c =>
    match v.listeners.lookup c with
    | none => .ret v
    | some p => .ret { v with listeners := setListener v.listeners c p.reset }
  | .dropped c => .ret { v with listeners := v.listeners.filter fun x => x.1 ≠ c }

/-- A history of steps. -/
def run (env : ServerEnv W) (v : Srv W) : List Op → CM (Srv W)
  | [] => .ret v
  | op :: ops => do
    let v ← v.step env op
    v.run env ops

end Srv

/-- Default `IServerSession::on_request` overloads, lib/include/modbus/server/IServerSession.h:114-201. -/
def defaultOnRequest {W : Type} (_k : Kind) (_r : Req _k) (w : W) : W × Expected (Resp _k) :=
  (w, .error (.modbus .illegalFunction))

end Modbus
