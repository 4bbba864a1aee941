import Verif.Model.AsioServer
import Verif.Model.ClientConn

/-! Vocabulary for stating that connections are read, one read at a time. -/

namespace Modbus.Spec

/-- Reads into the buffer of the server's connection `c` that are in progress, or whose result has not been dealt with. -/
def asvReads (v : Asv) (c : Nat) : Nat :=
  (v.flying.filter fun o => match o with
    | .read c' => decide (c' = c)
    | _ => false).length +
  (v.queue.filter fun t => match t with
    | .read c' _ => decide (c' = c)
    | _ => false).length

/-- Reads into the buffer of the client's connection that are in progress. -/
def tcpReadsFlying (v : Tcp) : Nat :=
  (v.flying.filter fun o => match o with
    | .read _ => true
    | _ => false).length

/-- Results of reads of the client's connection that have not been dealt with. -/
def tcpReadsQueued (v : Tcp) : Nat :=
  (v.queue.filter fun t => match t with
    | .read _ _ => true
    | _ => false).length

end Modbus.Spec
