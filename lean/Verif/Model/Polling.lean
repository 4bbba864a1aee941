import Verif.Model.Client
import Verif.Model.Session

/-!
A polling client: the client channel (`Cli`, ClientChannelTcp.cpp) together with its sessions (`Sess`, ClientSessionImpl.cpp) and
their scheduled requests (`Poll`, ScheduledRequest.hpp), all running on one strand.  What is added here is how they call each
other: a scheduled request's `m_session->send_request` (ScheduledRequest.hpp:93, ClientSessionImpl.cpp:241-258), the channel's call of
the response handler, which leads to the scheduled request's (ClientSessionImpl.cpp:247-257, ScheduledRequest.hpp:93-105), and the
channel's `session->shutdown()` (ClientChannelTcp.cpp:99-102).

Simplifications: the strand may run what the channel and the sessions have queued in any order (asio keeps the order), except that
each of them keeps its own order.  What the channel reports during one of its steps is carried out at the end of that step, in
order; a scheduled request's handler starts a timer and calls nothing of the channel, so the channel cannot notice.  One-time
requests go to the channel directly.  Not modelled: the default timeout (here the timeout is always given; see `SessionApi`), the user's handlers.
-/

namespace Modbus

deriving instance DecidableEq for Sess.Op

/-- What happens in the client, in order. -/
inductive LEv where
  /-- `create_session` returned session number `s` for this unit. -/
  | opened (s : Nat) (unit : UInt8)
  /-- `schedule_request` was called on session `s`, giving scheduled request number `i` of that session. -/
  | scheduled (s i : Nat) (req : AnyReq) (timeout freq : Nat)
  /-- Another call by the user on session `s` or on its scheduled requests. -/
  | api (s : Nat) (op : Sess.Op)
  /-- An effect of the channel. -/
  | ch (e : CEv)
  /-- An effect of session `s` or of its scheduled requests. -/
  | sess (s : Nat) (e : SessEv)
deriving DecidableEq

/-- A session (ClientSessionImpl.h): its unit identifier, its scheduled requests, and what each of them sends (`m_request`,
`m_timeout` of ScheduledRequest.h). -/
structure PSess where
  unit : UInt8
  sess : Sess
  reqs : List (AnyReq × Nat)

/-- Channel and sessions.  `owner`: which call of the channel's `send_request` (`uid`) was made by which scheduled request
(session, number, identity), that is, which lambda is the call's response handler (ScheduledRequest.hpp:93).  `log`: the effects. -/
structure Pcl where
  cli : Cli
  sess : List PSess
  owner : List (Nat × Nat × Nat × Nat)
  log : List LEv

namespace Pcl

/-- The channel has been constructed (ClientChannelTcp.cpp:28-40). -/
def init (env : ClientEnv) : Pcl := { cli := Cli.init env, sess := [], owner := [], log := [] }

/-- `m_channel->send_request`, ClientSessionImpl.cpp:246. -/
def submit (env : ClientEnv) (v : Pcl) (unit : UInt8) (req : AnyReq) (timeout : Nat) : CM Pcl := do
  let c ← v.cli.step env (.submit unit req timeout)
  return { v with cli := c, log := v.log ++ (c.log.drop v.cli.log.length).map .ch }

/-- An effect of session `s`; a request sent by a scheduled request is given to the channel (ScheduledRequest.hpp:93). -/
def fromSess1 (env : ClientEnv) (v : Pcl) (s : Nat) (e : SessEv) : CM Pcl :=
  let v := { v with log := v.log ++ [.sess s e] }
  match e with
  | .poll i (.sent id _) =>
    match v.sess[s]? with
    | none => .ret v
    | some p =>
      match p.reqs[i]? with
      | none => .ret v
      | some r => { v with owner := v.owner ++ [(v.cli.nextUid, s, i, id)] }.submit env p.unit r.1 r.2
  | _ => .ret v

/-- The effects of one step of session `s`, in order. -/
def fromSess (env : ClientEnv) (v : Pcl) (s : Nat) : List SessEv → CM Pcl
  | [] => .ret v
  | e :: es => do
    let v ← v.fromSess1 env s e
    v.fromSess env s es

/-- Session `s` makes a step (ClientSessionImpl.cpp, ScheduledRequest.hpp). -/
def sessStep (env : ClientEnv) (v : Pcl) (s : Nat) (op : Sess.Op) : CM Pcl :=
  match v.sess[s]? with
  | none => .ret v
  | some p =>
    let q := p.sess.step op
    { v with sess := v.sess.set s { p with sess := q } }.fromSess env s (q.log.drop p.sess.log.length)

/-- An effect of the channel: response handlers of scheduled requests and the sessions' `shutdown` are called. -/
def fromChan1 (env : ClientEnv) (v : Pcl) (e : CEv) : CM Pcl :=
  let v := { v with log := v.log ++ [.ch e] }
  match e with
  | .handler uid _ _ =>
    match v.owner.lookup uid with
    | none => .ret v
    | some (s, i, id) => v.sessStep env s (.respond i id)
  | .sessionShutdown s => v.sessStep env s .shutdown
  | _ => .ret v

/-- The effects of one step of the channel, in order. -/
def fromChan (env : ClientEnv) (v : Pcl) : List CEv → CM Pcl
  | [] => .ret v
  | e :: es => do
    let v ← v.fromChan1 env e
    v.fromChan env es

/-- The channel makes a step (ClientChannelTcp.cpp). -/
def chanStep (env : ClientEnv) (v : Pcl) (op : Cli.Op) : CM Pcl := do
  let c ← v.cli.step env op
  { v with cli := c }.fromChan env (c.log.drop v.cli.log.length)

/-- What can happen. -/
inductive Op where
  /-- `create_session`, ClientChannelTcp.cpp:42-57. -/
  | createSession (unit : UInt8)
  /-- `send_request` (one-time) on session `s`, ClientSessionImpl.cpp:67-169. -/
  | send (s : Nat) (req : AnyReq) (timeout : Nat)
  /-- `schedule_request` on session `s`, up to and including the post of `start`, ClientSessionImpl.cpp:266-272. -/
  | schedule (s : Nat) (req : AnyReq) (timeout freq : Nat)
  /-- Another call by the user on session `s` or one of its scheduled requests. -/
  | api (s : Nat) (op : Sess.Op)
  /-- A posted task or a timer of session `s` or one of its scheduled requests. -/
  | sess (s : Nat) (op : Sess.Op)
  /-- A call of the channel's `shutdown`, a posted task or a timer of the channel, or an event of its connection. -/
  | chan (op : Cli.Op)
  /-- Time passes. -/
  | tick (n : Nat)

/-- The user's calls: `schedule_request` returns (its registration is posted), `shutdown`, `start`, `stop`, `set_frequency`. -/
def userCall : Sess.Op → Bool
  | .register _ => true
  | .shutdown => true
  | .call _ _ => true
  | _ => false

/-- Tasks and timers of a session. -/
def ownSess : Sess.Op → Bool
  | .runTask => true
  | .expire _ _ => true
  | .runTimer _ _ => true
  | _ => false

/-- Steps of the channel that are not calls of `send_request` or `create_session`. -/
def ownChan : Cli.Op → Bool
  | .submit .. => false
  | .createSession => false
  | .tick _ => false
  | _ => true

/-- One step. -/
def step (env : ClientEnv) (v : Pcl) : Op → CM Pcl
  | .createSession unit => do
    let w ← v.chanStep env .createSession
    if v.cli.isShutdown then return w
    else return { w with sess := w.sess ++ [{ unit := unit, sess := Sess.init.step (.tick w.cli.now), reqs := [] }],
                         log := w.log ++ [.opened w.sess.length unit] }
  | .send s req timeout =>
    match v.sess[s]? with
    | none => .ret v
    | some p => v.submit env p.unit req timeout
  | .schedule s req timeout freq =>
    match v.sess[s]? with
    | none => .ret v
    | some p =>
      { v with sess := v.sess.set s { p with reqs := p.reqs ++ [(req, timeout)] },
               log := v.log ++ [LEv.scheduled s p.reqs.length req timeout freq] }.sessStep env s (.schedule freq)
  | .api s op => if userCall op ∧ s < v.sess.length then { v with log := v.log ++ [LEv.api s op] }.sessStep env s op else .ret v
  | .sess s op => if ownSess op then v.sessStep env s op else .ret v
  | .chan op => if ownChan op then v.chanStep env op else .ret v
  | .tick n => do
    let w ← v.chanStep env (.tick n)
    return { w with sess := w.sess.map fun p => { p with sess := p.sess.step (.tick n) } }

/-- A history of steps. -/
def run (env : ClientEnv) (v : Pcl) : List Op → CM Pcl
  | [] => .ret v
  | op :: ops => do
    let v ← v.step env op
    v.run env ops

end Pcl

end Modbus
