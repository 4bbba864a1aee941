import Verif.Model.PollWorld
import Verif.Spec.World
import Verif.Spec.Polling

/-! Vocabulary for stating properties of clients with scheduled requests and a server joined by a network. -/

namespace Modbus.Spec

variable {W : Type}

/-- What the user, the channel, the sessions and the scheduled requests of client `j` do, in order. -/
def atClient (j : Nat) (log : List PWEv) : List LEv :=
  log.filterMap fun e => match e with
    | .cli i (.up e) => if i = j then some e else none
    | _ => none

/-- What happens in the server, in order. -/
def atServer (log : List PWEv) : List VEv :=
  log.filterMap fun e => match e with
    | .srv e => some e
    | _ => none

/-- What channels and connections of the clients and the server do, in order: sessions and scheduled requests left out. -/
def flatEv : PWEv → Option WEv
  | .cli j (.up (.ch e)) => some (.cli j (.ch e))
  | .cli j (.net e) => some (.cli j (.net e))
  | .cli _ (.up _) => none
  | .srv e => some (.srv e)

def flatLog (log : List PWEv) : List WEv := log.filterMap flatEv

/-- Every state that can be reached, when the server's user's program starts in state `w`. -/
inductive PWReach (env : WorldEnv W) (w : W) : PWorld W → Prop
  | init : PWReach env w (PWorld.init env w)
  | step {v v' : PWorld W} {op : PWorld.Op} : PWReach env w v → v.step env op = .ret v' → PWReach env w v'

/-- As `Calm` (Spec/World.lean): client `j` starts connection attempts only when everything about earlier connections is over and sends
only when nothing is being written, its connections end by errors only, the network takes what is written completely, nothing is
received on a connection after an error on it; and on the server's ends of its connections likewise. -/
structure CalmPolling (env : WorldEnv W) (j : Nat) (v : PWorld W) : Prop where
  steps : ∀ x ∈ (v.cli j).steps, FreshStarts x.1 x.2 ∧ NoEof x.1 x.2 ∧ Patient x.1 x.2
  quiet : ∀ a b c cur, netLog (inClient j (flatLog v.log)) = a ++ .error c cur :: b → tcpReceived c b = []
  server : ∀ c n, env.peer c = some (j, n) → VThroughout (PatientClient c) v.srv ∧ QuietAfterError c (cnLog (atServer v.log))

/-- The part of `CalmPolling` that concerns what client `j` sends (`CalmSending`). -/
structure CalmPollingSending (env : WorldEnv W) (j : Nat) (v : PWorld W) : Prop where
  steps : ∀ x ∈ (v.cli j).steps, FreshStarts x.1 x.2 ∧ Patient x.1 x.2
  quiet : ∀ c n, env.peer c = some (j, n) → QuietAfterError c (cnLog (atServer v.log))

theorem CalmPolling.sending {env : WorldEnv W} {j : Nat} {v : PWorld W} (h : CalmPolling env j v) : CalmPollingSending env j v :=
  ⟨fun x hx => ⟨(h.steps x hx).1, (h.steps x hx).2.2⟩, fun c n hp => (h.server c n hp).2⟩

/-- How often sessions were called with request `q` for messages to `unit` from connections of client `j`. -/
def timesExecuted (env : WorldEnv W) (j : Nat) (unit : UInt8) (q : AnyReq) (log : List SEv) : Nat :=
  (executedFor env j log).countP fun x => decide (x.2.1.unit = unit ∧ x.2.2 = q)

/-- In the log of a client, `q` is asked of `unit` by scheduled request `i` of session `s` only: each call of the channel for it comes
right after the sending of a poll of that scheduled request. -/
def AskedOnlyBy (s i : Nat) (unit : UInt8) (q : AnyReq) (l : List LEv) : Prop :=
  ∀ a b u tmo, l = a ++ .ch (.call u unit q tmo) :: b → ∃ id t, a.getLast? = some (.sess s (.poll i (.sent id t)))

/-- In the log of a client: `send_request` of the channel was called (call number `u`) with `q` for `unit`, either by a scheduled request
with this request, of a session for this unit, or by nobody's poll (that is, for a one-time request). -/
def AskedFor (l : List LEv) (u : Nat) (unit : UInt8) (q : AnyReq) : Prop :=
  ∃ a b tmo, l = a ++ .ch (.call u unit q tmo) :: b ∧
    ((∃ a' s i id t f, a = a' ++ [.sess s (.poll i (.sent id t))] ∧ LEv.opened s unit ∈ a' ∧ LEv.scheduled s i q tmo f ∈ a') ∨
      ∀ s i id t, a.getLast? ≠ some (.sess s (.poll i (.sent id t))))

end Modbus.Spec
