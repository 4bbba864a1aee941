import Verif.Model.ExampleClient
import Verif.Spec.SessionApi
import Verif.Spec.Pdu

/-! Vocabulary for stating what the example client does. -/

namespace Modbus.Spec

/-- The requests made with `send_request`, in order, with the session and the timeout given. -/
def sendCalls (log : List IfEv) : List (Nat × AnyReq × Option Nat) :=
  log.filterMap fun e => match e with
    | .asked s _ q g => some (s, q, g)
    | _ => none

/-- The requests scheduled, in order: session, number, request, timeout given, frequency. -/
def requestsScheduled (log : List IfEv) : List (Nat × Nat × AnyReq × Option Nat × Nat) :=
  log.filterMap fun e => match e with
    | .polled s i q g f => some (s, i, q, g, f)
    | _ => none

/-- What a key asks for with `send_request`. -/
def keyRequest (c : Char) : Option (Nat × AnyReq × Option Nat) :=
  if c = 'r' then some (0, ⟨.readCoils, ⟨36, 1⟩⟩, some 3000)
  else if c = 'w' then some (0, ⟨.writeMultipleRegisters, ⟨36, [11, 22, 33]⟩⟩, none)
  else none

/-- The other calls on sessions and their scheduled requests, in order. -/
def otherCalls (log : List IfEv) : List (Nat × Sess.Op) :=
  log.filterMap fun e => match e with
    | .inner (.api s op) => some (s, op)
    | _ => none

/-- Which key makes this call; `p` stands for the second half of `schedule_request` at the beginning. -/
def callKey : Nat × Sess.Op → Option Char
  | (0, .register 0) => some 'p'
  | (0, .call 0 .start) => some 's'
  | (0, .call 0 .stop) => some 's'
  | (0, .call 0 (.setFrequency f)) => if f = 2000 ∨ f = 5000 then some 'f' else none
  | _ => none

/-- The three frames of the example, after the transaction id: the poll of 59 holding registers from address 36, key `r` (one coil at address 36) and key `w` (11, 22
and 33 to the registers from address 36), all to unit 1. -/
def exampleFrames : List (List UInt8) :=
  [[0, 0, 0, 6, 1, 3, 0, 36, 0, 59], [0, 0, 0, 6, 1, 1, 0, 36, 0, 1], [0, 0, 0, 13, 1, 16, 0, 36, 0, 3, 6, 0, 11, 0, 22, 0, 33]]

end Modbus.Spec
