import Verif.Model.Polling
import Verif.Spec.Session

/-! Vocabulary for stating properties of polling clients: views of the log of observable effects (`LEv`). -/

namespace Modbus.Spec

/-- The effects of the channel. -/
def ofChannel (log : List LEv) : List CEv :=
  log.filterMap fun e => match e with
    | .ch e => some e
    | _ => none

/-- The effects of session `s`. -/
def ofSession (s : Nat) (log : List LEv) : List SessEv :=
  log.filterMap fun e => match e with
    | .sess s' e => if s' = s then some e else none
    | _ => none

/-- The effects of scheduled request `i` of session `s`. -/
def ofPoll (s i : Nat) (log : List LEv) : List PEv := effectsOf i (ofSession s log)

/-- The sessions created. -/
def openings (log : List LEv) : List Nat :=
  log.filterMap fun e => match e with
    | .opened s _ => some s
    | _ => none

/-- The requests scheduled on session `s`. -/
def schedulings (s : Nat) (log : List LEv) : List Nat :=
  log.filterMap fun e => match e with
    | .scheduled s' i _ _ _ => if s' = s then some i else none
    | _ => none

/-- Request `i` of session `s` has been scheduled and its registration asked for (`schedule_request` has returned). -/
def RegisteredIn (s i : Nat) (l : List LEv) : Prop := ∃ a b q tmo f, l = a ++ LEv.api s (.register i) :: b ∧ LEv.scheduled s i q tmo f ∈ a

end Modbus.Spec
