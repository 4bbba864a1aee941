import Verif.Spec.Stream
import Verif.Model.Client

/-!
Vocabulary for stating properties of the client channel: views of the log of observable effects (`CEv`).  Nothing here
depends on how the channel works.
-/

namespace Modbus.Spec

/-- The request is one Modbus allows. -/
def Allowed (q : AnyReq) : Prop := InRange q.1 q.2

/-- The calls of `send_request`: number, unit, request, timeout. -/
def submissions (log : List CEv) : List (Nat × UInt8 × AnyReq × Nat) :=
  log.filterMap fun e => match e with
    | .call u unit req t => some (u, unit, req, t)
    | _ => none

/-- The numbers of the requests put on the wire, in order. -/
def sentUids (log : List CEv) : List Nat :=
  log.filterMap fun e => match e with
    | .sent u _ _ => some u
    | _ => none

/-- The numbers of the requests whose handler was called, in order (once per call). -/
def handledUids (log : List CEv) : List Nat :=
  log.filterMap fun e => match e with
    | .handler u _ _ => some u
    | _ => none

instance (q : AnyReq) : Decidable (Allowed q) := inferInstanceAs (Decidable (_ ∧ _))

/-- The numbers of the calls of `send_request` with an allowed request, in order. -/
def allowedUids (log : List CEv) : List Nat :=
  (submissions log).filterMap fun c => if Allowed c.2.2.1 then some c.1 else none

/-- How many allowed requests were submitted before request `u`. -/
def rank (log : List CEv) (u : Nat) : Nat := ((allowedUids log).filter (· < u)).length

/-- What happened before the shutdown took effect. -/
def beforeShutdown (log : List CEv) : List CEv := log.takeWhile fun e => e ≠ .tcpShutdown

/-- The chunks of bytes received since the last connection error (or the beginning). -/
def chunksSince (log : List CEv) : List (List UInt8) :=
  log.foldl (fun acc e => match e with
    | .data d => acc ++ [d]
    | .connError => []
    | _ => acc) []

/-- The messages taken from the received bytes since the last connection error (or the beginning). -/
def messagesSince (log : List CEv) : List Mbap :=
  log.foldl (fun acc e => match e with
    | .mbap m => acc ++ [m]
    | .connError => []
    | _ => acc) []

/-- `bytes` is the frame that carries request `q` to `unit` with transaction id `tid`. -/
def IsRequestFrame (unit : UInt8) (tid : UInt16) (q : AnyReq) (bytes : List UInt8) : Prop :=
  ∃ pdu, RequestPdu q.1 q.2 pdu ∧ pdu.length ≤ 253 ∧ bytes = (frameOf ⟨unit, tid, pdu⟩).bytes

end Modbus.Spec
