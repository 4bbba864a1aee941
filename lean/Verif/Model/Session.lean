import Verif.Model.Scheduled

/-!
Model of a client session: lib/src/client/session/ClientSessionImpl.cpp, `shutdown` (55-65), `meta_send_request` (241-258) and
`meta_schedule_request` (260-279), with all the scheduled requests of the session (`Poll`, ScheduledRequest.hpp).

All tasks go through one strand (`m_executor`, shared by the channel, the session and its scheduled requests: first in, first
out).  The channel is abstracted to "hands the request to the channel" and "the channel reports the result, at most once".
`schedule_request` posts twice (`start`, then the registration); another thread's post may come in between, so the two posts are
two steps (`schedule`, `register`).  Not modelled: the typed request and response (see C57), timeouts (see C50), memory.
-/

namespace Modbus

/-- Tasks on the strand. -/
inductive SessTask where
  /-- The channel starts on one-time request `id` (ClientChannelTcp.cpp:75-106). -/
  | send (id : Nat)
  /-- A lambda posted by scheduled request `i`. -/
  | poll (i : Nat) (t : PTask)
  /-- `m_scheduled_requests.push_back`, ClientSessionImpl.cpp:274-276. -/
  | register (i : Nat)
  /-- The lambda of `shutdown`, ClientSessionImpl.cpp:57-64. -/
  | shutdown
deriving DecidableEq

/-- Observable effects. -/
inductive SessEv where
  /-- `shutdown` took effect. -/
  | down
  /-- One-time request `id` was given to the connection. -/
  | sent (id : Nat)
  /-- The handler of one-time request `id` was called. -/
  | reported (id : Nat)
  /-- An effect of scheduled request `i`. -/
  | poll (i : Nat) (e : PEv)
deriving DecidableEq

/-- State: `m_scheduled_requests` (`registered`), every scheduled request ever created (`polls`; their own `tasks` field stays
empty, the strand is `tasks`), the ones whose registration is not posted yet (`halfway`), one-time requests given to the
connection and not reported (`inFlight`), the time. -/
structure Sess where
  polls : List Poll
  registered : List Nat
  halfway : List Nat
  tasks : List SessTask
  inFlight : List Nat
  nextId : Nat
  now : Nat
  log : List SessEv

namespace Sess

/-- A new session, ClientSessionImpl.cpp:41-53. -/
def init : Sess :=
  { polls := [], registered := [], halfway := [], tasks := [], inFlight := [], nextId := 0, now := 0, log := [] }

/-- Appends effects to the log. -/
def emit (v : Sess) (es : List SessEv) : Sess := { v with log := v.log ++ es }

/-- Scheduled request `i` changes by `f`; what it did goes to the log. -/
def onPoll (v : Sess) (i : Nat) (f : Poll → Poll) : Sess :=
  match v.polls[i]? with
  | none => v
  | some p => { v with polls := v.polls.set i (f p) }.emit (((f p).log.drop p.log.length).map (.poll i))

/-- Runs a task of the strand. -/
def runTask (v : Sess) : SessTask → Sess
  | .send id => { v with inFlight := v.inFlight ++ [id] }.emit [.sent id]
  | .poll i t => v.onPoll i fun p => p.runTask t
  | .register i => { v with registered := v.registered ++ [i] }
  | .shutdown =>
    { v with tasks := v.tasks ++ v.registered.map fun i => SessTask.poll i .stop, registered := [] }.emit [.down]

/-- What can happen. -/
inductive Op where
  /-- `send_request` (one-time), ClientSessionImpl.cpp:67-169, 241-258. -/
  | send
  /-- `schedule_request`, up to and including the post of `start`, ClientSessionImpl.cpp:266-272. -/
  | schedule (freq : Nat)
  /-- The rest of `schedule_request`: the post of the registration, ClientSessionImpl.cpp:274-276. -/
  | register (i : Nat)
  /-- `shutdown`, ClientSessionImpl.cpp:55-65. -/
  | shutdown
  /-- The user calls `start`, `stop` or `set_frequency` on scheduled request `i`. -/
  | call (i : Nat) (t : PTask)
  | runTask
  /-- The channel reports the result of one-time request `id`. -/
  | report (id : Nat)
  /-- The channel reports the result of request `id` of scheduled request `i`. -/
  | respond (i id : Nat)
  | tick (n : Nat)
  /-- Timer `t` of scheduled request `i` expires. -/
  | expire (i t : Nat)
  /-- The strand runs the queued callback of timer `t` of scheduled request `i`. -/
  | runTimer (i t : Nat)

/-- One step. -/
def step (v : Sess) : Op → Sess
  | .send => { v with tasks := v.tasks ++ [.send v.nextId], nextId := v.nextId + 1 }
  | .schedule f =>
    { v with polls := v.polls ++ [{ Poll.init f with now := v.now }], halfway := v.halfway ++ [v.polls.length],
             tasks := v.tasks ++ [.poll v.polls.length .start] }
  | .register i =>
    if i ∈ v.halfway then { v with halfway := v.halfway.filter (fun x => x ≠ i), tasks := v.tasks ++ [.register i] } else v
  | .shutdown => { v with tasks := v.tasks ++ [.shutdown] }
  | .call i t => if i < v.polls.length then { v with tasks := v.tasks ++ [.poll i t] } else v
  | .runTask =>
    match v.tasks with
    | [] => v
    | t :: ts => { v with tasks := ts }.runTask t
  | .report id =>
    if id ∈ v.inFlight then { v with inFlight := v.inFlight.filter fun x => x ≠ id }.emit [.reported id] else v
  | .respond i id => v.onPoll i fun p => p.step (.respond id)
  | .tick n => { v with now := v.now + n, polls := v.polls.map fun p => p.step (.tick n) }
  | .expire i t => v.onPoll i fun p => p.step (.expire t)
  | .runTimer i t => v.onPoll i fun p => p.step (.runTimer t)

/-- A history of steps. -/
def run (v : Sess) (ops : List Op) : Sess := ops.foldl step v

end Sess

end Modbus
