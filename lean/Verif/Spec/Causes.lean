import Verif.Spec.ServerStack
import Verif.Spec.ServerStackThrowing

/-! Vocabulary for stating why connections end. -/

namespace Modbus.Spec

variable {W : Type}

/-- Something has ended connection `c`: it was dropped, its listener was told of an error, or its socket was closed. -/
def EndedIn (log : List AEv) (c : Nat) : Prop := AEv.left c ∈ log ∨ AEv.error c ∈ log ∨ AEv.closed c ∈ log

/-- Accepting connection `c`, a read or a write on it failed (or reached the end of the stream). -/
def FailedIn (steps : List (Asv × Asv.Op)) (c : Nat) : Prop :=
  ∃ a i, (a, Asv.Op.complete i .error) ∈ steps ∧
    (a.flying[i]? = some (.accept c) ∨ a.flying[i]? = some (.read c) ∨ ∃ b d, a.flying[i]? = some (.write c b d))

/-- Another client connected when `max` connections were kept, of which `c` was the oldest. -/
def CrowdedIn (steps : List (Asv × Asv.Op)) (max : UInt32) (c : Nat) : Prop :=
  ∃ a k rs d, (a, Asv.Op.run k rs) ∈ steps ∧ a.queue[k]? = some (.accepted d true) ∧ max.toNat ≤ (kept a.log).length ∧ (kept a.log ++ [d]).head? = some c

/-- The steps of the connections that were not cut short by an exception. -/
def plainSteps (steps : List (AsvT × AsvT.Op)) : List (Asv × Asv.Op) :=
  steps.filterMap fun x => match x.2 with
    | .op o => some (x.1.asv, o)
    | .throws _ _ => none

end Modbus.Spec
