import Verif.Model.ServerStackThrowing
import Verif.Spec.ServerStack
import Verif.Spec.Reading

/-! Vocabulary for stating properties of a server whose sessions may throw. -/

namespace Modbus.Spec

variable {W : Type}

/-- Histories of a listening server with limit `max` whose listeners may throw, all of whose steps without exception satisfy `P` (the state before and the step). -/
inductive AsvTReach (max : UInt32) (P : Asv → Asv.Op → Prop) : AsvT → Prop
  | init : AsvTReach max P (AsvT.init max)
  | step {t t' : AsvT} {op : AsvT.Op} : AsvTReach max P t → (∀ o, op = .op o → P t.asv o) → t.step op = .ret t' → AsvTReach max P t'

/-- Every state a server with limit `max` can reach, when the user's program starts in state `w` and its sessions throw as `th` says. -/
inductive VTReach (env : ServerEnv W) (th : SThrows W) (w : W) (max : UInt32) : SvkT W → Prop
  | init : VTReach env th w max (SvkT.init w max)
  | step {v v' : SvkT W} {op : Svk.Op} : VTReach env th w max v → v.step env th op = .ret v' → VTReach env th w max v'

/-- Every step without exception the connections have made so far satisfies `P` (the state before and the step). -/
def VTThroughout (P : Asv → Asv.Op → Prop) (v : SvkT W) : Prop := ∀ x ∈ v.steps, ∀ o, x.2 = .op o → P x.1.asv o

end Modbus.Spec
