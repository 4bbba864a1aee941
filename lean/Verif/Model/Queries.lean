import Verif.Model.Scheduled

/-!
What a user sees of one scheduled request: the calls of `start`, `stop` and `set_frequency`, the answers of `is_running` and `get_frequency`
(lib/src/client/session/ScheduledRequest.hpp:44-88), and the two keys of the example client that first ask and then call (examples/client/main.cpp:105-128).

The calls post to the strand (`Poll`); the two questions read the members at once, on the thread that asks.  Simplification: such a read sees the member as the
strand last wrote it (without synchronisation by the user the read is a data race, see C118).  `start` is also called by `schedule_request`
(ClientSessionImpl.cpp:272) and `stop` by the session's `shutdown` (ClientSessionImpl.cpp:57-64): here they are calls like the user's.
-/

namespace Modbus

/-- What happens to a scheduled request, in order. -/
inductive QEv where
  /-- `start`, `stop` or `set_frequency` was called. -/
  | called (t : PTask)
  /-- The strand began to carry out a call. -/
  | done (t : PTask)
  /-- `is_running` was called and returned this. -/
  | running (b : Bool)
  /-- `get_frequency` was called and returned this. -/
  | frequency (f : Nat)
  /-- An effect. -/
  | eff (e : PEv)
deriving DecidableEq

/-- A scheduled request and what happened to it. -/
structure Qry where
  poll : Poll
  log : List QEv

namespace Qry

/-- The constructor, ScheduledRequest.hpp:27-42. -/
def init (freq : Nat) : Qry := { poll := Poll.init freq, log := [] }

/-- `is_running`, ScheduledRequest.hpp:84-88. -/
def isRunning (v : Qry) : Bool := v.poll.running

/-- `get_frequency`, ScheduledRequest.hpp:78-82. -/
def getFrequency (v : Qry) : Nat := v.poll.freq

/-- What a step is, besides its effects. -/
def header (v : Qry) : Poll.Op → List QEv
  | .start => [.called .start]
  | .stop => [.called .stop]
  | .setFrequency f => [.called (.setFrequency f)]
  | .runTask => (v.poll.tasks.take 1).map .done
  | _ => []

/-- A step of the scheduled request, ScheduledRequest.hpp:44-76, 90-107. -/
def inside (v : Qry) (op : Poll.Op) : Qry :=
  { poll := v.poll.step op
    log := v.log ++ v.header op ++ ((v.poll.step op).log.drop v.poll.log.length).map .eff }

/-- The user calls `is_running`. -/
def askRunning (v : Qry) : Qry := { v with log := v.log ++ [.running v.isRunning] }

/-- The user calls `get_frequency`. -/
def askFrequency (v : Qry) : Qry := { v with log := v.log ++ [.frequency v.getFrequency] }

/-- What can happen. -/
inductive Op where
  /-- A call of `start`, `stop` or `set_frequency`, a task, a timer, a response, or time passes. -/
  | step (op : Poll.Op)
  | isRunning
  | getFrequency
  /-- Key `s` of the example, examples/client/main.cpp:105-116. -/
  | keyS
  /-- Key `f` of the example, examples/client/main.cpp:117-128, with `f` and `g` for its two seconds and five seconds. -/
  | keyF (f g : Nat)

/-- One step. -/
def step (v : Qry) : Op → Qry
  | .step op => v.inside op
  | .isRunning => v.askRunning
  | .getFrequency => v.askFrequency
  | .keyS => if v.isRunning then v.askRunning.inside .stop else v.askRunning.inside .start
  | .keyF f g => if v.getFrequency = f then v.askFrequency.inside (.setFrequency g) else v.askFrequency.inside (.setFrequency f)

/-- A history of steps. -/
def run (v : Qry) (ops : List Op) : Qry := ops.foldl step v

end Qry

end Modbus
