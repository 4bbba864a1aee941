import Verif.Model.World
import Verif.Spec.Stack
import Verif.Spec.ServerStack

/-! Vocabulary for stating properties of clients and a server joined by a network. -/

namespace Modbus.Spec

variable {W : Type}

/-- What happens in client `j`, in order. -/
def inClient (j : Nat) (log : List WEv) : List KEv :=
  log.filterMap fun e => match e with
    | .cli i e => if i = j then some e else none
    | _ => none

/-- What happens in the server, in order. -/
def inServer (log : List WEv) : List VEv :=
  log.filterMap fun e => match e with
    | .srv e => some e
    | _ => none

/-- Every state that can be reached, when the server's user's program starts in state `w`. -/
inductive WReach (env : WorldEnv W) (w : W) : World W → Prop
  | init : WReach env w (World.init env w)
  | step {v v' : World W} {op : World.Op} : WReach env w v → v.step env op = .ret v' → WReach env w v'

/-- The circumstances in which client `j` is served faithfully: it starts connection attempts only when everything about earlier
connections is over and sends only when nothing is being written, its connections end by errors only, the network takes what is
written completely, nothing is received on a connection after an error on it; and on the server's ends of its connections
likewise.  Other clients and strangers may do what they like. -/
structure Calm (env : WorldEnv W) (j : Nat) (v : World W) : Prop where
  steps : Throughout (fun t op => FreshStarts t op ∧ NoEof t op ∧ Patient t op) (v.cli j)
  quiet : ∀ a b c cur, netLog (inClient j v.log) = a ++ .error c cur :: b → tcpReceived c b = []
  server : ∀ c n, env.peer c = some (j, n) → VThroughout (PatientClient c) v.srv ∧ QuietAfterError c (cnLog (inServer v.log))

/-- The part of `Calm` that concerns what client `j` sends: it starts connection attempts only when everything about earlier connections is
over and sends only when nothing is being written, the network takes what it writes completely, and the server's ends of its connections
receive nothing after an error.  Nothing is said about the answers. -/
structure CalmSending (env : WorldEnv W) (j : Nat) (v : World W) : Prop where
  steps : Throughout (fun t op => FreshStarts t op ∧ Patient t op) (v.cli j)
  quiet : ∀ c n, env.peer c = some (j, n) → QuietAfterError c (cnLog (inServer v.log))

theorem Calm.sending {env : WorldEnv W} {j : Nat} {v : World W} (h : Calm env j v) : CalmSending env j v :=
  ⟨fun x hx => ⟨(h.steps x hx).1, (h.steps x hx).2.2⟩, fun c n hp => (h.server c n hp).2⟩

/-- The messages the server takes from connections of client `j`, in order, with the client's number of the connection. -/
def takenBy (env : WorldEnv W) (j : Nat) (log : List SEv) : List (Nat × Mbap) :=
  log.filterMap fun e => match e with
    | .mbap c m => match env.peer c with
      | some (i, n) => if i = j then some (n, m) else none
      | none => none
    | _ => none

/-- The calls of sessions, in order: the connection from which the message came, the message, the request. -/
def executed : List SEv → List (Nat × Mbap × AnyReq)
  | .mbap c m :: .request _ k q :: log => (c, m, ⟨k, q⟩) :: executed log
  | _ :: log => executed log
  | [] => []

/-- All calls of sessions, in order, with or without a message before them. -/
def sessionCalls (log : List SEv) : List AnyReq := log.filterMap fun e => match e with | .request _ k q => some ⟨k, q⟩ | _ => none

/-- The calls of sessions for messages from connections of client `j`, in order. -/
def executedFor (env : WorldEnv W) (j : Nat) (log : List SEv) : List (Nat × Mbap × AnyReq) :=
  (executed log).filter fun x => (env.peer x.1).map (·.1) == some j

/-- In client `j`, no request that went out on the connection to which request `u` was given is 65536 or more allowed requests older than
`u`, among what happened before (`past`).  (Transaction ids have 16 bits.) -/
def RecentOn (j u : Nat) (past : List WEv) : Prop := ∀ n b t2 u' b' t', CEv.sent u b t2 ∈ chLog (inClient j past) → KEv.net (.submit n b) ∈ inClient j past →
  CEv.sent u' b' t' ∈ chLog (inClient j past) → KEv.net (.wire n b') ∈ inClient j past → rank (chLog (inClient j past)) u < rank (chLog (inClient j past)) u' + 65536

end Modbus.Spec
