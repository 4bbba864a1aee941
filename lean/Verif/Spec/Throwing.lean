import Verif.Model.Throwing
import Verif.Spec.Client

/-! Vocabulary for stating what exceptions thrown by response handlers do. -/

namespace Modbus.Spec

/-- How many of the calls of handlers among `l`, after the events `pre`, throw. -/
def thrownAfter (th : Throws) (pre : List CEv) : List CEv → Nat
  | [] => 0
  | .handler u x t :: l => (if th pre u x then 1 else 0) + thrownAfter th (pre ++ [.handler u x t]) l
  | e :: l => thrownAfter th (pre ++ [e]) l

/-- How many calls of handlers have thrown. -/
def thrown (th : Throws) (l : List CEv) : Nat := thrownAfter th [] l

/-- Handlers that call `get` on the result without asking `is_valid` first. -/
def justGet : Throws := fun _ _ x => match x with
  | .ok _ => false
  | .error _ => true

/-- States of a client channel that can be reached. -/
inductive TReach (env : ClientEnv) (th : Throws) : CliT → Prop where
  | init : TReach env th (CliT.init env)
  | step {v v' : CliT} (op : Cli.Op) : TReach env th v → v.step env th op = .ret v' → TReach env th v'

end Modbus.Spec
