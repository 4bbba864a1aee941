import Verif.Model.Mbap

/-!
Model of the client channel: lib/src/client/channel/ClientChannelTcp.cpp, PendingRequest.h.

The channel runs on one strand.  API calls (from any thread) only read `m_is_shutdown` and post to the strand; the
response handlers given by users run on the strand and can, through the API, do nothing to the channel but make such
calls, so calls made inside handlers are covered by API calls made right after the step.  The order of effects is kept
in a log.  Time is a natural number that only grows; timers are kept by identity.
-/

namespace Modbus

/-- A request message (`IMessage`): one of the eight request types. -/
abbrev AnyReq := (k : Kind) × Req k

/-- What the library does not control: the behaviour of `copy_from`, the uninitialised content of the `n`-th send buffer
(ClientChannelTcp.cpp:186) and of the parser's buffer. -/
structure ClientEnv where
  pol : CopyPolicy
  junk : Nat → Vector UInt8 260
  mem : Vector UInt8 260

/-- `PendingRequest` (PendingRequest.h:29-50); the response handler is identified by `uid`, the number of the call of
`send_request` it was given to. -/
structure PendingReq where
  uid : Nat
  unit : UInt8
  tid : UInt16
  req : AnyReq
  timeout : Nat
deriving DecidableEq

/-- Tasks posted to the strand (ClientChannelTcp.cpp:70-83, 87-90, 96-111). -/
inductive CTask where
  | request (uid : Nat) (unit : UInt8) (req : AnyReq) (timeout : Nat)
  | malformed (uid : Nat)
  | shutdown
deriving DecidableEq

/-- Observable effects, in the order they happen. -/
inductive CEv where
  /-- `send_request` was called (and given the number `uid`). -/
  | call (uid : Nat) (unit : UInt8) (req : AnyReq) (timeout : Nat)
  /-- `m_tcp_connection->send(bytes)` was called for request `uid` at time `now`. -/
  | sent (uid : Nat) (bytes : List UInt8) (now : Nat)
  /-- The connection delivered data. -/
  | data (bytes : List UInt8)
  /-- The parser handed over a message. -/
  | mbap (m : Mbap)
  /-- The response handler of request `uid` was called at time `now`. -/
  | handler (uid : Nat) (result : Expected (List UInt8)) (now : Nat)
  /-- The connection reported an error. -/
  | connError
  /-- `create_session` returned a session (or null). -/
  | session (s : Option Nat)
  /-- `session->shutdown()`. -/
  | sessionShutdown (s : Nat)
  /-- `m_tcp_connection->shutdown()`. -/
  | tcpShutdown
deriving DecidableEq

/-- State of `ClientChannelTcp` (ClientChannelTcp.h:67-77) with its strand and timers.  `armed`: timers that have not
expired (identity, deadline).  `fired`: expired timers whose callback is queued and can no longer be cancelled. -/
structure Cli where
  isShutdown : Bool
  sessions : List Nat
  parser : Parser
  pending : List PendingReq
  current : Option PendingReq
  timer : Option Nat
  nextTid : UInt16
  tasks : List CTask
  armed : List (Nat × Nat)
  fired : List Nat
  now : Nat
  nextTimer : Nat
  nextUid : Nat
  nextSession : Nat
  nsend : Nat
  log : List CEv

namespace Cli

/-- `ClientChannelTcp::ClientChannelTcp`, ClientChannelTcp.cpp:28-40. -/
def init (env : ClientEnv) : Cli :=
  { isShutdown := false, sessions := [], parser := Parser.init env.pol env.mem.toList, pending := [], current := none,
    timer := none, nextTid := 0x0000, tasks := [], armed := [], fired := [], now := 0, nextTimer := 0, nextUid := 0,
    nextSession := 0, nsend := 0, log := [] }

/-- Appends an effect to the log. -/
def emit (v : Cli) (e : CEv) : Cli := { v with log := v.log ++ [e] }

/-- `m_current_timer.cancel()`: an armed timer is removed; an already queued callback is not retracted; a null timer is
left alone. -/
def cancelTimer (v : Cli) : Cli :=
  match v.timer with
  | none => v
  | some t => { v with armed := v.armed.filter fun x => x.1 ≠ t }

/-- `ClientChannelTcp::check_pending_requests`, ClientChannelTcp.cpp:170-208. -/
def checkPending (env : ClientEnv) (v : Cli) : Cli :=
  if v.isShutdown then v
  else
    match v.current, v.pending with
    | none, r :: rest =>
      let bytes := buildMbap r.unit r.tid (reqMsg r.req.1 r.req.2) ⟨[], (env.junk v.nsend).toList⟩
      let v := { v with current := some r, pending := rest }
      let v := { v.emit (.sent r.uid bytes v.now) with nsend := v.nsend + 1 }
      { v with armed := v.armed ++ [(v.nextTimer, v.now + r.timeout)], timer := some v.nextTimer, nextTimer := v.nextTimer + 1 }
    | _, _ => v

/-- `ClientChannelTcp::cancel_current_request`, ClientChannelTcp.cpp:210-219. -/
def cancelCurrent (env : ClientEnv) (v : Cli) : Cli :=
  match v.current with
  | none => v
  | some _ => { v with current := none }.cancelTimer.checkPending env

/-- `ClientChannelTcp::cancel_all_pending_requests`, ClientChannelTcp.cpp:221-229. -/
def cancelPending (v : Cli) : Cli :=
  { v with log := v.log ++ v.pending.map fun r => .handler r.uid (.error .connection) v.now, pending := [] }

/-- `ClientChannelTcp::on_error`, ClientChannelTcp.cpp:123-138. -/
def onError (env : ClientEnv) (v : Cli) : Cli :=
  let v := v.emit .connError
  if v.isShutdown then v
  else
    let v := { v with parser := v.parser.reset }
    let v := v.cancelPending
    match v.current with
    | none => v
    | some r => (v.emit (.handler r.uid (.error .connection) v.now)).cancelCurrent env

/-- `ClientChannelTcp::on_mbap_message`, ClientChannelTcp.cpp:140-168. -/
def onMbap (env : ClientEnv) (v : Cli) (m : Mbap) : Cli :=
  let v := v.emit (.mbap m)
  if v.isShutdown then v
  else
    match v.current with
    | some r =>
      if m.tid = r.tid ∧ m.unit = r.unit then
        let v := v.cancelTimer
        let v := v.emit (.handler r.uid (.ok m.data) v.now)
        let v := { v with current := none }
        v.checkPending env
      else v
    | none => v

/-- The callbacks during one `m_parser.parse(data)`. -/
def onMbaps (env : ClientEnv) (v : Cli) (ms : List Mbap) : Cli := ms.foldl (onMbap env) v

/-- `ClientChannelTcp::on_receive`, ClientChannelTcp.cpp:114-121. -/
def onReceive (env : ClientEnv) (v : Cli) (data : List UInt8) : CM Cli :=
  let v := v.emit (.data data)
  if v.isShutdown then .ret v
  else do
    let (p, ms) ← v.parser.parse data
    return { v with parser := p }.onMbaps env ms

/-- The timer's callback, ClientChannelTcp.cpp:195-206. -/
def onTimer (env : ClientEnv) (v : Cli) : Cli :=
  if v.isShutdown then v
  else
    match v.current with
    | none => v
    | some r => (v.emit (.handler r.uid (.error .timeout) v.now)).cancelCurrent env

/-- The posted lambdas, ClientChannelTcp.cpp:70-83, 87-90, 96-111. -/
def runTask (env : ClientEnv) (v : Cli) : CTask → Cli
  | .request uid unit req timeout =>
    if v.isShutdown then v
    else
      let v := { v with pending := v.pending ++ [PendingReq.mk uid unit v.nextTid req timeout] }
      let v := { v with nextTid := v.nextTid + 1 }
      v.checkPending env
  | .malformed uid => v.emit (.handler uid (.error .malformedRequest) v.now)
  | .shutdown =>
    let v := { v with isShutdown := true }
    let v := { v with log := v.log ++ v.sessions.map CEv.sessionShutdown, sessions := [] }
    let v := { v with pending := [], current := none }
    v.cancelTimer.emit .tcpShutdown

/-- What can happen. -/
inductive Op where
  /-- `send_request` (ClientChannelTcp.cpp:60-92). -/
  | submit (unit : UInt8) (req : AnyReq) (timeout : Nat)
  /-- `shutdown`. -/
  | shutdown
  /-- `create_session`. -/
  | createSession
  /-- The strand runs its next posted task. -/
  | runTask
  /-- The connection delivers data. -/
  | receive (data : List UInt8)
  /-- The connection reports an error. -/
  | error
  /-- Time passes. -/
  | tick (n : Nat)
  /-- Timer `t`, whose deadline has come, expires: its callback is queued. -/
  | expire (t : Nat)
  /-- The strand runs the queued callback of timer `t`. -/
  | runTimer (t : Nat)

/-- One step.  Calls of `send_request` after shutdown has taken effect are dropped (ClientChannelTcp.cpp:65). -/
def step (env : ClientEnv) (v : Cli) : Op → CM Cli
  | .submit unit req timeout =>
    let uid := v.nextUid
    let v := { v.emit (.call uid unit req timeout) with nextUid := v.nextUid + 1 }
    if v.isShutdown then .ret v
    else if isValid req.1 req.2 then .ret { v with tasks := v.tasks ++ [.request uid unit req timeout] }
    else .ret { v with tasks := v.tasks ++ [.malformed uid] }
  | .shutdown => .ret { v with tasks := v.tasks ++ [.shutdown] }
  | .createSession =>
    if v.isShutdown then .ret (v.emit (.session none))
    else .ret { v.emit (.session (some v.nextSession)) with
      sessions := v.sessions ++ [v.nextSession], nextSession := v.nextSession + 1 }
  | .runTask =>
    match v.tasks with
    | [] => .ret v
    | t :: ts => .ret ({ v with tasks := ts }.runTask env t)
  | .receive data => v.onReceive env data
  | .error => .ret (v.onError env)
  | .tick n => .ret { v with now := v.now + n }
  | .expire t =>
    match v.armed.lookup t with
    | none => .ret v
    | some deadline =>
      if deadline ≤ v.now then .ret { v with armed := v.armed.filter (fun x => x.1 ≠ t), fired := v.fired ++ [t] }
      else .ret v
  | .runTimer t =>
    if t ∈ v.fired then .ret ({ v with fired := v.fired.filter fun x => x ≠ t }.onTimer env)
    else .ret v

/-- A history of steps. -/
def run (env : ClientEnv) (v : Cli) : List Op → CM Cli
  | [] => .ret v
  | op :: ops => do
    let v ← v.step env op
    v.run env ops

end Cli

/-- `meta_send_request`'s handler, lib/src/client/session/ClientSessionImpl.cpp:247-257: what the user's handler of a
request is called with, given what the channel reports. -/
def typedResult (k : Kind) (r : Req k) (x : Expected (List UInt8)) : CM (Expected (Resp k)) :=
  match x with
  | .error e => .ret (.error e)
  | .ok data => parseResp k r data

end Modbus
