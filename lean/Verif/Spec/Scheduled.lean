import Verif.Model.Scheduled

/-! Vocabulary for stating properties of scheduled requests: views of the log of observable effects (`PEv`). -/

namespace Modbus.Spec

/-- The requests sent, in order. -/
def pollsSent (log : List PEv) : List Nat :=
  log.filterMap fun e => match e with
    | .sent id _ => some id
    | _ => none

/-- The requests whose result was given to the user's handler, in order (once per call). -/
def pollsHandled (log : List PEv) : List Nat :=
  log.filterMap fun e => match e with
    | .handled id _ => some id
    | _ => none

/-- The configured polling time, `f` being the initial one. -/
def pollTime (f : Nat) (log : List PEv) : Nat :=
  log.foldl (fun f e => match e with
    | .frequency g => g
    | _ => f) f

/-- Polling is on: the last of the starts and stops that took effect is a start. -/
def pollOn (log : List PEv) : Bool :=
  log.foldl (fun b e => match e with
    | .started => true
    | .stopped => false
    | _ => b) false

end Modbus.Spec
