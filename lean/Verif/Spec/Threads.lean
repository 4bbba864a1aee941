import Verif.Model.Threads

/-! Executions on several threads, happens-before and data races (C++11, [intro.races]). -/

namespace Modbus.Spec

/-- Where code runs: a thread of the user's, or a strand (handlers of the user's run on strands, too). -/
inductive Ctx where
  | thread (t : Nat)
  | strand (st : Strand)
deriving DecidableEq

/-- Something is executed; a task comes from an earlier event (by number), which posted it. -/
structure MEvent where
  ctx : Ctx
  act : Act
  src : Nat

/-- The manager's functions lock its mutex. -/
def Act.locks : Act → Bool
  | .call .createClient => true
  | .call .createServer => true
  | .call .managerShutdown => true
  | _ => false

/-- A history of the program: tasks and callbacks run on their strands, and tasks have been posted before.  API calls may be made from
everywhere. -/
def Lawful (x : List MEvent) : Prop := ∀ (j : Nat) (e : MEvent), x[j]? = some e → match e.act with
  | .call _ => True
  | .task t => e.ctx = .strand t.strand ∧ e.src < j ∧ ∃ e', x[e.src]? = some e' ∧ Act.posts e'.act t
  | .callback st => e.ctx = .strand st

/-- Event `i` happens before event `j`: order on one thread or strand, posting a task before running it, the manager's mutex, and whatever
the user synchronises (`sync`). -/
inductive HB (x : List MEvent) (sync : Nat → Nat → Prop) : Nat → Nat → Prop
  | order {i j : Nat} {e e' : MEvent} : i < j → x[i]? = some e → x[j]? = some e' → e.ctx = e'.ctx → HB x sync i j
  | post {j : Nat} {e : MEvent} {t : PostedTask} : x[j]? = some e → e.act = .task t → HB x sync e.src j
  | lock {i j : Nat} {e e' : MEvent} : i < j → x[i]? = some e → x[j]? = some e' → Act.locks e.act = true → Act.locks e'.act = true → HB x sync i j
  | sync {i j : Nat} : i < j → sync i j → HB x sync i j
  | trans {i j k : Nat} : HB x sync i j → HB x sync j k → HB x sync i k

/-- Events `i` and `j` race for location `l`: both touch it, at least one writes it, and neither happens before the other (`i` comes first in the
history, so `j` cannot happen before `i`). -/
def Race (x : List MEvent) (sync : Nat → Nat → Prop) (i j : Nat) (l : Loc) : Prop :=
  i < j ∧ ¬ HB x sync i j ∧ ∃ e e' w w', x[i]? = some e ∧ x[j]? = some e' ∧ Act.touches e.act l w ∧ Act.touches e'.act l w' ∧ (w = true ∨ w' = true)

end Modbus.Spec
