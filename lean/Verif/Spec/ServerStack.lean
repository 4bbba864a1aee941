import Verif.Model.ServerStack
import Verif.Spec.AsioServer

/-! Vocabulary for stating properties of the whole server (channel, listening server and connections). -/

namespace Modbus.Spec

variable {W : Type}

/-- The effects of the channel, in order. -/
def svLog (log : List VEv) : List SEv :=
  log.filterMap fun e => match e with
    | .ch e => some e
    | _ => none

/-- The effects of the connections, in order. -/
def cnLog (log : List VEv) : List AEv :=
  log.filterMap fun e => match e with
    | .net e => some e
    | _ => none

/-- Every state a server with limit `max` can reach, when the user's program starts in state `w`. -/
inductive VReach (env : ServerEnv W) (w : W) (max : UInt32) : Svk W → Prop
  | init : VReach env w max (Svk.init w max)
  | step {v v' : Svk W} {op : Svk.Op} : VReach env w max v → v.step env op = .ret v' → VReach env w max v'

/-- Every step the connections have made so far satisfies `P` (the state before and the step). -/
def VThroughout (P : Asv → Asv.Op → Prop) (v : Svk W) : Prop := ∀ x ∈ v.steps, P x.1 x.2

/-- The chunks received on connection `c`, in order. -/
def asvReceived (c : Nat) (log : List AEv) : List (List UInt8) :=
  log.filterMap fun e => match e with
    | .receive c' d => if c' = c then some d else none
    | _ => none

/-- The data the channel handed to connection `c`, in order. -/
def asvAsked (c : Nat) (log : List AEv) : List (List UInt8) :=
  log.filterMap fun e => match e with
    | .asked c' d => if c' = c then some d else none
    | _ => none

/-- The state of the user's program after the calls of its sessions recorded in the log, made one after the other in that order. -/
def played (onRequest : SessId → (k : Kind) → Req k → W → W × Expected (Resp k)) (w : W) (log : List SEv) : W :=
  log.foldl (fun w e => match e with
    | .request s k r => (onRequest s k r w).1
    | _ => w) w

/-- No data is received on connection `c` after an error was reported on it. -/
def QuietAfterError (c : Nat) (log : List AEv) : Prop := ∀ a b, log = a ++ .error c :: b → asvReceived c b = []

/-- The step is about connection `c`: an operation on its socket completes, or one of its handlers (or its closing) runs. -/
def Concerns (v : Asv) (c : Nat) : Svk.Op → Prop
  | .chan _ => False
  | .complete i _ => v.flying[i]? = some (.accept c) ∨ v.flying[i]? = some (.read c) ∨ ∃ b d, v.flying[i]? = some (.write c b d)
  | .run k _ => v.queue[k]? = some (.close c) ∨ (∃ ok, v.queue[k]? = some (.accepted c ok)) ∨ (∃ r, v.queue[k]? = some (.read c r)) ∨
      ∃ ok, v.queue[k]? = some (.written c ok)

end Modbus.Spec
