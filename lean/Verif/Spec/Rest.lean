import Verif.Model.Polling

/-! What a client with scheduled requests has left to do. -/

namespace Modbus.Spec

/-- The operation is a call of the user's (on the channel, a session or a scheduled request). -/
def byUser : Pcl.Op → Bool
  | .createSession _ => true
  | .send _ _ _ => true
  | .schedule _ _ _ _ => true
  | .api _ _ => true
  | .chan .shutdown => true
  | _ => false

/-- The executor has something to do for this operation: there is a posted task, a timer whose time has come, an expired timer
whose callback has not run. -/
def atWork (v : Pcl) : Pcl.Op → Bool
  | .chan .runTask => !v.cli.tasks.isEmpty
  | .chan (.expire t) => match v.cli.armed.lookup t with
    | some d => d ≤ v.cli.now
    | none => false
  | .chan (.runTimer t) => decide (t ∈ v.cli.fired)
  | .sess s .runTask => match v.sess[s]? with
    | some p => !p.sess.tasks.isEmpty
    | none => false
  | .sess s (.expire i t) => match v.sess[s]?.bind fun p => p.sess.polls[i]? with
    | some q => match q.armed.lookup t with
      | some d => d ≤ q.now
      | none => false
    | none => false
  | .sess s (.runTimer i t) => match v.sess[s]?.bind fun p => p.sess.polls[i]? with
    | some q => decide (t ∈ q.fired)
    | none => false
  | _ => false

/-- How often the executor has something to do in a history. -/
def workSteps (env : ClientEnv) : Pcl → List Pcl.Op → Nat
  | _, [] => 0
  | v, op :: ops => (if atWork v op then 1 else 0) + match v.step env op with
    | .ret w => workSteps env w ops
    | .ub => 0

/-- Nothing is left to do: no posted tasks, no timers. -/
def AtRest (v : Pcl) : Prop := v.cli.tasks = [] ∧ v.cli.armed = [] ∧ v.cli.fired = [] ∧
  ∀ p ∈ v.sess, p.sess.tasks = [] ∧ ∀ q ∈ p.sess.polls, q.armed = [] ∧ q.fired = []

end Modbus.Spec
