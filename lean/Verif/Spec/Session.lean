import Verif.Model.Session
import Verif.Spec.Scheduled

/-! Vocabulary for stating properties of client sessions: views of the log of observable effects (`SessEv`). -/

namespace Modbus.Spec

/-- The effects of scheduled request `i`. -/
def effectsOf (i : Nat) (log : List SessEv) : List PEv :=
  log.filterMap fun e => match e with
    | .poll j e => if j = i then some e else none
    | _ => none

/-- How many one-time requests were reported / sent under identity `id`. -/
def timesReported (id : Nat) (log : List SessEv) : Nat := log.count (.reported id)

def timesSent (id : Nat) (log : List SessEv) : Nat := log.count (.sent id)

end Modbus.Spec
