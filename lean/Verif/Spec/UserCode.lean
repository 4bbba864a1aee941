import Verif.Model.UserCode

/-! Vocabulary for stating properties of the user's code and timers: views of the log (`UEv`). -/

namespace Modbus.Spec

/-- The effects of the channel. -/
def chanOf (log : List UEv) : List CEv :=
  log.filterMap fun e => match e with
    | .ch e => some e
    | _ => none

/-- The timers started, in order. -/
def timersStarted (log : List UEv) : List Nat :=
  log.filterMap fun e => match e with
    | .started k _ _ _ => some k
    | _ => none

/-- The timers whose actions have been called, in order. -/
def actionsRun (log : List UEv) : List Nat :=
  log.filterMap fun e => match e with
    | .action k _ _ => some k
    | _ => none

/-- The requests whose response handlers have been called, in order. -/
def repliesRun (log : List UEv) : List Nat :=
  log.filterMap fun e => match e with
    | .reply uid _ _ => some uid
    | _ => none

/-- The requests made and their response handlers. -/
def requestsMade (log : List UEv) : List (Nat × Nat) :=
  log.filterMap fun e => match e with
    | .asked uid f => some (uid, f)
    | _ => none

/-- The calls of response handlers: request and function. -/
def repliesMade (log : List UEv) : List (Nat × Nat) :=
  log.filterMap fun e => match e with
    | .reply uid f _ => some (uid, f)
    | _ => none

/-- A call that names one of the functions 0 and 1. -/
def _root_.Modbus.UCall.loops : UCall → Bool
  | .send _ _ _ f => f < 2
  | .start _ f => f < 2
  | .startAt _ f => f < 2
  | .cancel _ => false
  | .shutdown => false

/-- Polling written by the user: function 0 sends the request, with function 1 as the response handler, which starts a timer that runs function 0 again after
`period`.  Both may do other things too; nothing else uses these functions. -/
structure PollLoop (prog : UserCode) (unit : UInt8) (req : AnyReq) (tmo period : Nat) : Prop where
  poll : ∀ l, ∃ pre post, prog 0 l = pre ++ .send unit req tmo 1 :: post ∧ ∀ c ∈ pre ++ post, c.loops = false
  again : ∀ l, ∃ pre post, prog 1 l = pre ++ .start period 0 :: post ∧ ∀ c ∈ pre ++ post, c.loops = false
  other : ∀ f l, 2 ≤ f → ∀ c ∈ prog f l, c.loops = false

/-- A call from outside that names one of the functions 0 and 1. -/
def kicks : Upr.Op → Bool
  | .call c => c.loops
  | _ => false

end Modbus.Spec
