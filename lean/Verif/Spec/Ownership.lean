import Verif.Model.Ownership

/-! When memory is released, by reference counting.  `user` says which objects are held from outside: by handles of the user's, by calls of
the user's in progress, by the manager's list of channels. -/

namespace Modbus.Spec

/-- The object's reference count has fallen to zero: it is held neither from outside nor by the executor, and everything that ever held it
is itself released.  (The least such set: objects that hold each other in a cycle are never released.) -/
inductive Freed (v : Pcl) (user : Obj → Prop) : Obj → Prop
  | intro {x : Obj} : ¬ user x → ¬ v.queued x → (∀ y, v.holds y x → Freed v user y) → Freed v user x

/-- The object can still be reached from outside. -/
inductive InUse (v : Pcl) (user : Obj → Prop) : Obj → Prop
  | held {x : Obj} : user x → InUse v user x
  | via {x y : Obj} : InUse v user x → v.holds x y → InUse v user y

end Modbus.Spec
