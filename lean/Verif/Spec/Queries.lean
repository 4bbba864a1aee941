import Verif.Model.Queries
import Verif.Spec.Scheduled

/-! Vocabulary for stating what the answers of `is_running` and `get_frequency` mean. -/

namespace Modbus.Spec

/-- The calls of `start`, `stop` and `set_frequency`, in order. -/
def callsMade (log : List QEv) : List PTask :=
  log.filterMap fun e => match e with
    | .called t => some t
    | _ => none

/-- The calls carried out, in order. -/
def callsDone (log : List QEv) : List PTask :=
  log.filterMap fun e => match e with
    | .done t => some t
    | _ => none

/-- The effects. -/
def pollEffects (log : List QEv) : List PEv :=
  log.filterMap fun e => match e with
    | .eff e => some e
    | _ => none

/-- Whether polling is wanted after these calls: the last `start` or `stop` decides. -/
def wantsPolling (calls : List PTask) : Bool :=
  calls.foldl (fun b t => match t with
    | .start => true
    | .stop => false
    | .setFrequency _ => b) false

/-- The polling time wanted after these calls, `f` being the one given when the request was scheduled: the last `set_frequency` decides. -/
def wantsTime (f : Nat) (calls : List PTask) : Nat :=
  calls.foldl (fun f t => match t with
    | .setFrequency g => g
    | _ => f) f

end Modbus.Spec
