import Verif.Types

/-!
Model of the stream operators: lib/src/UnitIdentifier.cpp:24-30, lib/src/TransactionIdentifier.cpp:57-63 and
lib/src/messages/ExceptionType.cpp:48-73, with the part of `std::ostream` they use (as in the C++ standard, locale "C"): the
formatting state and the output of strings and of `unsigned int`.  Error states of streams are not modelled.
-/

namespace Modbus

/-- Flags for the position of the padding. -/
inductive Adjust where
  | none
  | left
  | right
  | internal
deriving DecidableEq

/-- Flags for the base of integers (no flag: decimal). -/
inductive Radix where
  | dec
  | oct
  | hex
deriving DecidableEq

/-- A stream: what has been written, and the formatting state. -/
structure OStream where
  out : List Char
  width : Nat
  fill : Char
  adjust : Adjust
  radix : Radix
  uppercase : Bool
  showbase : Bool
deriving DecidableEq

namespace OStream

/-- A new stream. -/
def fresh : OStream :=
  { out := [], width := 0, fill := ' ', adjust := .none, radix := .dec, uppercase := false, showbase := false }

/-- Writes `pre ++ body` padded to the width: after it with `left`, between the parts with `internal`, before it otherwise; the
width is used up. -/
def put (s : OStream) (pre body : List Char) : OStream :=
  let pad := List.replicate (s.width - (pre.length + body.length)) s.fill
  let text := match s.adjust with
    | .left => pre ++ body ++ pad
    | .internal => pre ++ pad ++ body
    | _ => pad ++ pre ++ body
  { s with out := s.out ++ text, width := 0 }

/-- `operator<<(const char*)`: no part to pad after, so `internal` pads before. -/
def putStr (s : OStream) (text : List Char) : OStream := s.put [] text

/-- The character of a digit. -/
def digit (upper : Bool) (d : Nat) : Char :=
  if d < 10 then Char.ofNat (48 + d) else if upper then Char.ofNat (55 + d) else Char.ofNat (87 + d)

/-- The digits of `n`, most significant first. -/
def digits (base : Nat) (upper : Bool) (n : Nat) : List Char :=
  if _h : 2 ≤ base ∧ base ≤ n then digits base upper (n / base) ++ [digit upper (n % base)] else [digit upper n]
termination_by n
decreasing_by exact Nat.div_lt_self (by omega) (by omega)

/-- `operator<<(unsigned int)`. -/
def putNat (s : OStream) (n : Nat) : OStream :=
  match s.radix with
  | .dec => s.put [] (digits 10 s.uppercase n)
  | .oct => s.put [] (if s.showbase && n ≠ 0 then '0' :: digits 8 s.uppercase n else digits 8 s.uppercase n)
  | .hex =>
    s.put (if s.showbase && n ≠ 0 then (if s.uppercase then ['0', 'X'] else ['0', 'x']) else []) (digits 16 s.uppercase n)

end OStream

/-- `operator<<` of UnitIdentifier.cpp:24-30 (with `w = 2`) and TransactionIdentifier.cpp:57-63 (`w = 4`). -/
def putId (w : Nat) (s : OStream) (n : Nat) : OStream :=
  let s := s.putStr ['0', 'x']
  let s := { s with uppercase := true }
  let s := { s with width := w }
  let s := { s with fill := '0' }
  let s := { s with radix := .hex }
  s.putNat n

/-- `operator<<(ostream&, const UnitIdentifier&)`. -/
def putUnit (s : OStream) (u : UInt8) : OStream := putId 2 s u.toNat

/-- `operator<<(ostream&, const TransactionIdentifier&)`. -/
def putTid (s : OStream) (t : UInt16) : OStream := putId 4 s t.toNat

/-- `operator<<(ostream&, const ExceptionType&)`, ExceptionType.cpp:48-73. -/
def putExceptionType (s : OStream) (e : ExceptionType) : OStream :=
  match e with
  | .illegalFunction => s.putStr "Illegal function".toList
  | .illegalDataAddress => s.putStr "Illegal data address".toList
  | .illegalDataValue => s.putStr "Illegal data value".toList
  | .serverDeviceFailure => s.putStr "Server device failure".toList
  | .acknowledge => s.putStr "Acknowledge".toList
  | .serverDeviceBusy => s.putStr "Server device busy".toList
  | .memoryParityError => s.putStr "Memory parity error".toList
  | .gatewayPathUnavailable => s.putStr "Gateway path unavailable".toList
  | .gatewayTargetDeviceFailedToRespond => s.putStr "Gateway target device failed to respond".toList
  | .unknown => s.putStr "Unknown".toList

/-- `ModbusException::get_message`, ModbusException.h:48-53. -/
def exceptionMessage (e : ExceptionType) : List Char := (putExceptionType .fresh e).out

end Modbus
