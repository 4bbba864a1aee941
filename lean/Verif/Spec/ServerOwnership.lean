import Verif.Model.ServerOwnership

/-! When memory of a server is released, by reference counting.  `user` says which objects are held from outside: by handles of the user's, by the
manager's list of channels. -/

namespace Modbus.Spec

variable {W : Type}

/-- The object's reference count has fallen to zero: it is held neither from outside nor by the executor, and everything that ever held it
is itself released. -/
inductive SFreed (v : Svk W) (user : SObj → Prop) : SObj → Prop
  | intro {x : SObj} : ¬ user x → ¬ v.queued x → (∀ y, v.holds y x → SFreed v user y) → SFreed v user x

/-- The object can still be reached from outside. -/
inductive SInUse (v : Svk W) (user : SObj → Prop) : SObj → Prop
  | held {x : SObj} : user x → SInUse v user x
  | via {x y : SObj} : SInUse v user x → v.holds x y → SInUse v user y

/-- What a user can hold: the channel and their own sessions.  (Connections and the listening server are not part of the API.) -/
def ByUser (user : SObj → Prop) : Prop := ∀ x, user x → x = .channel ∨ ∃ s, x = .session s

end Modbus.Spec
