import Verif.Model.Stack
import Verif.Spec.Client
import Verif.Spec.ClientConn

/-! Vocabulary for stating properties of the whole client (channel and connection). -/

namespace Modbus.Spec

/-- The effects of the channel, in order. -/
def chLog (log : List KEv) : List CEv :=
  log.filterMap fun e => match e with
    | .ch e => some e
    | _ => none

/-- The effects of the connection, in order. -/
def netLog (log : List KEv) : List TEv :=
  log.filterMap fun e => match e with
    | .net e => some e
    | _ => none

/-- Every state the client can reach. -/
inductive KReach (env : StkEnv) : Stk → Prop
  | init : KReach env (Stk.init env)
  | step {v v' : Stk} {op : Stk.Op} : KReach env v → v.step env op = .ret v' → KReach env v'

/-- Every step the connection has made so far satisfies `P` (the state before and the step). -/
def Throughout (P : Tcp → Tcp.Op → Prop) (v : Stk) : Prop := ∀ x ∈ v.steps, P x.1 x.2

end Modbus.Spec
