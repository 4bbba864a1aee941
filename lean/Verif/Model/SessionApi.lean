import Verif.Model.Polling

/-!
The public interface of client sessions: `create_session` with a default timeout, and the overloads of `send_request` and `schedule_request` with and without a
timeout (ClientSessionImpl.cpp:40-51, 67-228), on top of the polling client (`Pcl`), where the timeout is always given.

Simplifications: as for `Pcl`.  The overloads for the different kinds of requests differ only in their types; `schedule_request` exists for the four kinds of reads
only, here it takes any request.
-/

namespace Modbus

/-- What happens at the interface, in order. -/
inductive IfEv where
  /-- `create_session(unit, default)` returned session number `s`. -/
  | created (s : Nat) (unit : UInt8) (default : Nat)
  /-- `send_request` was called on session `s`, with a timeout or without; the request has number `uid`. -/
  | asked (s uid : Nat) (req : AnyReq) (given : Option Nat)
  /-- `schedule_request` was called on session `s`, with a timeout or without, and returned scheduled request number `i` of that session. -/
  | polled (s i : Nat) (req : AnyReq) (given : Option Nat) (freq : Nat)
  /-- Something happened in the client. -/
  | inner (e : LEv)
deriving DecidableEq

/-- The client with its sessions' `m_default_timeout` (ClientSessionImpl.h). -/
structure Clt where
  pcl : Pcl
  defaults : List Nat
  log : List IfEv

namespace Clt

/-- The channel has been constructed (ClientChannelTcp.cpp:28-40). -/
def init (env : ClientEnv) : Clt := { pcl := Pcl.init env, defaults := [], log := [] }

/-- What has newly happened in the client. -/
def news (v : Clt) (w : Pcl) : List IfEv := (w.log.drop v.pcl.log.length).map .inner

/-- `ClientChannelTcp::create_session`, ClientChannelTcp.cpp:42-57, with the constructor of the session, ClientSessionImpl.cpp:40-51. -/
def createSession (env : ClientEnv) (v : Clt) (unit : UInt8) (default : Nat) : CM Clt := do
  let w ← v.pcl.step env (.createSession unit)
  if v.pcl.cli.isShutdown then return { v with pcl := w, log := v.log ++ v.news w }
  else return { pcl := w, defaults := v.defaults ++ [default], log := v.log ++ v.news w ++ [.created v.defaults.length unit default] }

/-- `meta_send_request` on session `s`, ClientSessionImpl.cpp:241-258, called by `send_request` with a timeout (ClientSessionImpl.cpp:73-78 and the like); `given`
records what the user gave. -/
def send (env : ClientEnv) (v : Clt) (s : Nat) (req : AnyReq) (given : Option Nat) (timeout : Nat) : CM Clt :=
  match v.pcl.sess[s]? with
  | none => .ret v
  | some _ => do
    let w ← v.pcl.step env (.send s req timeout)
    return { v with pcl := w, log := v.log ++ .asked s v.pcl.cli.nextUid req given :: v.news w }

/-- `send_request` without a timeout, ClientSessionImpl.cpp:67-71 and the like. -/
def sendDefault (env : ClientEnv) (v : Clt) (s : Nat) (req : AnyReq) : CM Clt :=
  match v.defaults[s]? with
  | none => .ret v
  | some d => v.send env s req none d

/-- `meta_schedule_request` on session `s`, ClientSessionImpl.cpp:260-279 (up to the post of `start`), called by `schedule_request` with a timeout
(ClientSessionImpl.cpp:178-184 and the like). -/
def schedule (env : ClientEnv) (v : Clt) (s : Nat) (req : AnyReq) (given : Option Nat) (timeout freq : Nat) : CM Clt :=
  match v.pcl.sess[s]? with
  | none => .ret v
  | some p => do
    let w ← v.pcl.step env (.schedule s req timeout freq)
    return { v with pcl := w, log := v.log ++ .polled s p.reqs.length req given freq :: v.news w }

/-- `schedule_request` without a timeout, ClientSessionImpl.cpp:171-176 and the like. -/
def scheduleDefault (env : ClientEnv) (v : Clt) (s : Nat) (req : AnyReq) (freq : Nat) : CM Clt :=
  match v.defaults[s]? with
  | none => .ret v
  | some d => v.schedule env s req none d freq

/-- What can happen. -/
inductive Op where
  /-- `create_session`. -/
  | createSession (unit : UInt8) (default : Nat)
  /-- `send_request(request, handler)` on session `s`. -/
  | send (s : Nat) (req : AnyReq)
  /-- `send_request(request, timeout, handler)`. -/
  | sendWithin (s : Nat) (req : AnyReq) (timeout : Nat)
  /-- `schedule_request(request, frequency, handler)`. -/
  | schedule (s : Nat) (req : AnyReq) (freq : Nat)
  /-- `schedule_request(request, timeout, frequency, handler)`. -/
  | scheduleWithin (s : Nat) (req : AnyReq) (timeout freq : Nat)
  /-- Another call by the user on a session or one of its scheduled requests. -/
  | api (s : Nat) (op : Sess.Op)
  /-- A task or timer of a session. -/
  | sess (s : Nat) (op : Sess.Op)
  /-- A call of the channel's `shutdown`, a task or timer of the channel, or an event of its connection. -/
  | chan (op : Cli.Op)
  /-- Time passes. -/
  | tick (n : Nat)

/-- Whatever else happens in the client. -/
def inside (env : ClientEnv) (v : Clt) (op : Pcl.Op) : CM Clt := do
  let w ← v.pcl.step env op
  return { v with pcl := w, log := v.log ++ v.news w }

/-- One step: ClientSessionImpl.cpp, see `Op`. -/
def step (env : ClientEnv) (v : Clt) : Op → CM Clt
  | .createSession unit default => v.createSession env unit default
  | .send s req => v.sendDefault env s req
  | .sendWithin s req timeout => v.send env s req (some timeout) timeout
  | .schedule s req freq => v.scheduleDefault env s req freq
  | .scheduleWithin s req timeout freq => v.schedule env s req (some timeout) timeout freq
  | .api s op => v.inside env (.api s op)
  | .sess s op => v.inside env (.sess s op)
  | .chan op => v.inside env (.chan op)
  | .tick n => v.inside env (.tick n)

/-- A history of steps. -/
def run (env : ClientEnv) (v : Clt) : List Op → CM Clt
  | [] => .ret v
  | op :: ops => do
    let v ← v.step env op
    v.run env ops

end Clt

end Modbus
