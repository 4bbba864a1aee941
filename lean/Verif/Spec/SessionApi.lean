import Verif.Model.SessionApi
import Verif.Spec.Polling

/-! Vocabulary for stating properties of the interface of client sessions. -/

namespace Modbus.Spec

/-- What happened in the client. -/
def insideOf (log : List IfEv) : List LEv :=
  log.filterMap fun e => match e with
    | .inner e => some e
    | _ => none

/-- The sessions created. -/
def creations (log : List IfEv) : List Nat :=
  log.filterMap fun e => match e with
    | .created s _ _ => some s
    | _ => none

/-- Request `u` is for `unit`, asks `q` and allows the time `d`, according to the user's calls: it was made with `send_request` on a session created for this unit, or
it is a poll of a request scheduled on such a session; and `d` is the timeout given with the call or, if none was given, the default of the session. -/
def AsCalled (log : List IfEv) (u : Nat) (unit : UInt8) (q : AnyReq) (d : Nat) : Prop :=
  ∃ s default given, .created s unit default ∈ log ∧ d = given.getD default ∧
    (.asked s u q given ∈ log ∨
     ∃ i id t freq a b, log = a ++ .inner (.sess s (.poll i (.sent id t))) :: .inner (.ch (.call u unit q d)) :: b ∧ .polled s i q given freq ∈ a)

end Modbus.Spec
