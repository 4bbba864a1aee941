import Verif.Spec.Client
import Verif.Model.System

/-!
Vocabulary for stating properties of client and server together: views of the log of what happened (`XEv`).  Nothing here
depends on how the channels work.
-/

namespace Modbus.Spec

variable {W : Type}

/-- What the client channel did. -/
def cliLog (log : List XEv) : List CEv :=
  log.filterMap fun e => match e with
    | .cli _ e => some e
    | .srv _ => none

/-- What the server channel did. -/
def srvLog (log : List XEv) : List SEv :=
  log.filterMap fun e => match e with
    | .cli _ _ => none
    | .srv e => some e

/-- The requests put on connection number `i`, in order: number of the call and bytes. -/
def requestsOn (i : Nat) (log : List XEv) : List (Nat × List UInt8) :=
  log.filterMap fun e => match e with
    | .cli j (.sent u bytes _) => if j = i then some (u, bytes) else none
    | _ => none

/-- The messages the server took from connection number `i`, in order. -/
def takenFrom (i : Nat) (log : List XEv) : List Mbap :=
  log.filterMap fun e => match e with
    | .srv (.mbap c m) => if c = 2 * i then some m else none
    | _ => none

/-- The frames the server sent on connection number `i`, in order. -/
def repliesOn (i : Nat) (log : List XEv) : List (List UInt8) :=
  log.filterMap fun e => match e with
    | .srv (.send c bytes) => if c = 2 * i then some bytes else none
    | _ => none

/-- The state of the user's program on the server after all calls of its sessions recorded in the log, made one after the
other in that order. -/
def replay (onRequest : SessId → (k : Kind) → Req k → W → W × Expected (Resp k)) (w : W) (log : List XEv) : W :=
  log.foldl (fun w e => match e with
    | .srv (.request s k r) => (onRequest s k r w).1
    | _ => w) w

end Modbus.Spec
