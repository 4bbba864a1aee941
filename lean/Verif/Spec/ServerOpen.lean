import Verif.Spec.ServerStack

/-! Vocabulary for stating that a started server serves whoever connects. -/

namespace Modbus.Spec

variable {W : Type}

/-- A call of the server's API. -/
def vCall : Svk.Op → Bool
  | .chan .start | .chan .shutdown | .chan (.addSession ..) => true
  | _ => false

/-- The strand runs a task posted by such a call. -/
def vRun : Svk.Op → Bool
  | .chan .runTask => true
  | _ => false

/-- `start` has been called, and the strand has run as many tasks since as calls had been made before, and one more. -/
def VStarted (ops : List Svk.Op) : Prop := ∃ pre post, ops = pre ++ .chan .start :: post ∧ pre.countP vCall < post.countP vRun

/-- Session `s` was the first one added for unit `u`, and the strand has run as many tasks since as calls had been made before, and
one more. -/
def VAdded (u : UInt8) (s : SessId) (ops : List Svk.Op) : Prop :=
  ∃ pre post, ops = pre ++ .chan (.addSession u s) :: post ∧ (∀ s', Svk.Op.chan (.addSession u s') ∉ pre) ∧ pre.countP vCall < post.countP vRun

/-- Nothing that happens is about connection `c`. -/
def Elsewhere (env : ServerEnv W) (c : Nat) : Svk W → List Svk.Op → Prop
  | _, [] => True
  | v, op :: ops => ¬Concerns v.asv c op ∧ ∀ u, v.step env op = .ret u → Elsewhere env c u ops

end Modbus.Spec
