import Verif.Spec.ClientConn

/-! Vocabulary for stating why the client's connection fails. -/

namespace Modbus.Spec

/-- In this step resolving, connecting, reading or writing of connection attempt `c` fails, or the peer has closed the connection. -/
def Broke (v : Tcp) (op : Tcp.Op) (c : Nat) : Prop :=
  (∃ i, op = .complete i .error ∧
    (v.flying[i]? = some (.resolve c) ∨ v.flying[i]? = some (.connect c) ∨ v.flying[i]? = some (.read c) ∨ ∃ b d, v.flying[i]? = some (.write c b d))) ∨
  ∃ i, op = .complete i .eof ∧ v.flying[i]? = some (.read c)

/-- The connection attempts of a log, in order. -/
def tcpAttempted (log : List TEv) : List Nat :=
  log.filterMap fun e => match e with
    | .attempt c => some c
    | _ => none

end Modbus.Spec
