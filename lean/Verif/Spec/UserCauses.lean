import Verif.Spec.UserCode

/-! Vocabulary for accounting for the calls of the user's code. -/

namespace Modbus.Spec

/-- The function that begins with this event. -/
def beginsWith : UEv → Option Nat
  | .action _ f _ => some f
  | .reply _ f _ => some f
  | _ => none

/-- The calls the functions begun in `l` make, all together; `past` is what happened before `l`. -/
def functionCalls (prog : UserCode) (past : List UEv) : List UEv → List UCall
  | [] => []
  | e :: l => (match beginsWith e with | some f => prog f (past ++ [e]) | none => []) ++ functionCalls prog (past ++ [e]) l

/-- The calls other threads make. -/
def threadCalls (ops : List Upr.Op) : List UCall :=
  ops.filterMap fun op => match op with
    | .call c => some c
    | _ => none

/-- What a call is for: a request is made, a response handler is given, a timer is started for an action. -/
inductive Matter where
  | request (unit : UInt8) (req : AnyReq) (timeout : Nat)
  | handler (f : Nat)
  | timer (f : Nat)
deriving DecidableEq

/-- What these calls ask for. -/
def matterOfCalls (cs : List UCall) : List Matter :=
  cs.flatMap fun c => match c with
    | .send unit req tmo f => [.request unit req tmo, .handler f]
    | .start _ f => [.timer f]
    | .startAt _ f => [.timer f]
    | _ => []

/-- What has been done. -/
def matterOfLog (log : List UEv) : List Matter :=
  log.flatMap fun e => match e with
    | .ch (.call _ unit req tmo) => [.request unit req tmo]
    | .asked _ f => [.handler f]
    | .started _ _ f _ => [.timer f]
    | _ => []

/-- The call `c` has been made: by another thread, or it is among the calls of a function that has begun. -/
def CallMade (prog : UserCode) (ops : List Upr.Op) (log : List UEv) (c : UCall) : Prop := c ∈ threadCalls ops ∨ c ∈ functionCalls prog [] log

end Modbus.Spec
