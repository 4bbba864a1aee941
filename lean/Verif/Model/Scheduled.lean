import Verif.Types

/-!
Model of one scheduled request: lib/src/client/session/ScheduledRequest.hpp (all of it).

Everything runs on the session's strand; API calls post to it.  The channel's `send_request` is abstracted: a request is in
flight from the call until the channel reports its result, which the channel does at most once per request (C47).
Not modelled: the content of requests and responses (see C57), the unsynchronised reads of `is_running`/`get_frequency` by
other threads.
-/

namespace Modbus

/-- Tasks posted by `start`, `stop` and `set_frequency`. -/
inductive PTask where
  | start
  | stop
  | setFrequency (f : Nat)
deriving DecidableEq

/-- Observable effects. -/
inductive PEv where
  /-- `start` took effect (it has no effect while running). -/
  | started
  /-- `stop` took effect. -/
  | stopped
  /-- `set_frequency` took effect. -/
  | frequency (f : Nat)
  /-- `m_session->send_request(...)`, the `id`-th, at time `now`. -/
  | sent (id : Nat) (now : Nat)
  /-- The user's handler was called with the result of request `id` at time `now`. -/
  | handled (id : Nat) (now : Nat)
deriving DecidableEq

/-- State: the members of `ScheduledRequest` (ScheduledRequest.h), its strand and its timers (`armed`: identity and deadline of
timers that have not expired; `fired`: expired ones whose callback is queued and can no longer be cancelled). -/
structure Poll where
  running : Bool
  freq : Nat
  timer : Option Nat
  tasks : List PTask
  inFlight : List Nat
  armed : List (Nat × Nat)
  fired : List Nat
  now : Nat
  nextTimer : Nat
  nextId : Nat
  log : List PEv

namespace Poll

/-- The constructor, ScheduledRequest.hpp:27-42. -/
def init (freq : Nat) : Poll :=
  { running := false, freq := freq, timer := none, tasks := [], inFlight := [], armed := [], fired := [], now := 0, nextTimer := 0,
    nextId := 0, log := [] }

/-- Appends an effect to the log. -/
def emit (v : Poll) (e : PEv) : Poll := { v with log := v.log ++ [e] }

/-- `execute`, ScheduledRequest.hpp:90-92: sends the request. -/
def execute (v : Poll) : Poll :=
  { v.emit (.sent v.nextId v.now) with inFlight := v.inFlight ++ [v.nextId], nextId := v.nextId + 1 }

/-- `m_timer.cancel()`: see `Cli.cancelTimer`. -/
def cancelTimer (v : Poll) : Poll :=
  match v.timer with
  | none => v
  | some t => { v with armed := v.armed.filter fun x => x.1 ≠ t }

/-- The posted lambdas: ScheduledRequest.hpp:48-55, 60-67, 72-75. -/
def runTask (v : Poll) : PTask → Poll
  | .start => if v.running then v else { v.emit .started with running := true }.execute
  | .stop => if v.running then { v.emit .stopped with running := false }.cancelTimer else v.emit .stopped
  | .setFrequency f => { v.emit (.frequency f) with freq := f }

/-- The response handler, ScheduledRequest.hpp:93-105. -/
def onResponse (v : Poll) (id : Nat) : Poll :=
  let v := { v with inFlight := v.inFlight.filter fun x => x ≠ id }
  let v := v.emit (.handled id v.now)
  if v.running then
    { v with armed := v.armed ++ [(v.nextTimer, v.now + v.freq)], timer := some v.nextTimer, nextTimer := v.nextTimer + 1 }
  else v

/-- What can happen. -/
inductive Op where
  | start
  | stop
  | setFrequency (f : Nat)
  | runTask
  /-- The channel reports the result of request `id`. -/
  | respond (id : Nat)
  | tick (n : Nat)
  /-- Timer `t`, whose deadline has come, expires. -/
  | expire (t : Nat)
  /-- The strand runs the queued callback of timer `t`, ScheduledRequest.hpp:101-103. -/
  | runTimer (t : Nat)

/-- One step (`start`, `stop`, `set_frequency`: ScheduledRequest.hpp:44-76). -/
def step (v : Poll) : Op → Poll
  | .start => { v with tasks := v.tasks ++ [.start] }
  | .stop => { v with tasks := v.tasks ++ [.stop] }
  | .setFrequency f => { v with tasks := v.tasks ++ [.setFrequency f] }
  | .runTask =>
    match v.tasks with
    | [] => v
    | t :: ts => { v with tasks := ts }.runTask t
  | .respond id => if id ∈ v.inFlight then v.onResponse id else v
  | .tick n => { v with now := v.now + n }
  | .expire t =>
    match v.armed.lookup t with
    | none => v
    | some deadline =>
      if deadline ≤ v.now then { v with armed := v.armed.filter (fun x => x.1 ≠ t), fired := v.fired ++ [t] } else v
  | .runTimer t => if t ∈ v.fired then { v with fired := v.fired.filter fun x => x ≠ t }.execute else v

/-- A history of steps. -/
def run (v : Poll) (ops : List Op) : Poll := ops.foldl step v

end Poll

end Modbus
