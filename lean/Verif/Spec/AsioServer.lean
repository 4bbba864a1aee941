import Verif.Model.AsioServer

/-! Vocabulary for stating properties of the listening server. -/

namespace Modbus.Spec

/-- Histories of a server with limit `max`, all of whose steps satisfy `P` (the state before and the step). -/
inductive AsvReach (max : UInt32) (P : Asv → Asv.Op → Prop) : Asv → Prop
  | init : AsvReach max P (Asv.init max)
  | step {v v' : Asv} {op : Asv.Op} : AsvReach max P v → P v op → v.step op = .ret v' → AsvReach max P v'

/-- Every history. -/
def anyAsv : Asv → Asv.Op → Prop := fun _ _ => True

/-- Effect of an event on the connections kept: a joining connection is added at the end, a leaving one is taken out. -/
def keepStep (l : List Nat) : AEv → List Nat
  | .joined c => l ++ [c]
  | .left c => l.erase c
  | _ => l

/-- The connections that joined and have not left, oldest first. -/
def kept (log : List AEv) : List Nat := log.foldl keepStep []

/-- Restriction on histories: `start` is called only once. -/
def SingleStart (v : Asv) (op : Asv.Op) : Prop := op = .start → v.starts = 0

/-- Restriction on histories: accepting never fails. -/
def NoAcceptError (v : Asv) (op : Asv.Op) : Prop := ∀ i c, op = .complete i .error → v.flying[i]? ≠ some (.accept c)

/-- Restriction on histories: the server is not shut down. -/
def NoShutdown (_ : Asv) (op : Asv.Op) : Prop := op ≠ .shutdown

/-- An accept is in progress, its handler is queued, or starting one is queued. -/
def Accepting (v : Asv) : Prop :=
  (∃ c, AOp.accept c ∈ v.flying) ∨ (∃ c ok, ATask.accepted c ok ∈ v.queue) ∨ ATask.startAccept ∈ v.queue

/-- The data given to connection `c`, in order. -/
def asvSubmits (c : Nat) (log : List AEv) : List (List UInt8) :=
  log.filterMap fun e => match e with
    | .submit c' d => if c' = c then some d else none
    | _ => none

/-- The chunks that went out on connection `c`, in order. -/
def asvWires (c : Nat) (log : List AEv) : List (List UInt8) :=
  log.filterMap fun e => match e with
    | .wire c' d => if c' = c then some d else none
    | _ => none

/-- A write on connection `c` is in progress, or its handler has not run yet. -/
def AWriteBusy (v : Asv) (c : Nat) : Prop := (∃ b d, AOp.write c b d ∈ v.flying) ∨ ∃ ok, ATask.written c ok ∈ v.queue

/-- Restriction on histories: writes are never partial, the listener sends at most one answer while handling received data, and none
while an earlier answer is still being written. -/
def PatientClients (v : Asv) (op : Asv.Op) : Prop :=
  (∀ k c bytes replies, op = .run k replies → v.queue[k]? = some (.read c (some bytes)) → replies = [] ∨ (∃ d, replies = [d]) ∧ ¬AWriteBusy v c) ∧
  ∀ i n c b d, op = .complete i (.sent n) → v.flying[i]? = some (AOp.write c b d) → n = d.length

/-- Restriction on histories, for connection `c` only: its writes are never partial, the listener sends at most one answer while
handling data received on it, and none while an earlier answer is still being written on it. -/
def PatientClient (c : Nat) (v : Asv) (op : Asv.Op) : Prop :=
  (∀ k bytes replies, op = .run k replies → v.queue[k]? = some (.read c (some bytes)) → replies = [] ∨ (∃ d, replies = [d]) ∧ ¬AWriteBusy v c) ∧
  ∀ i n b d, op = .complete i (.sent n) → v.flying[i]? = some (AOp.write c b d) → n = d.length

end Modbus.Spec
