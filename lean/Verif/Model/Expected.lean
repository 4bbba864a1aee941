import Verif.Model.Bytes

/-!
Model of lib/include/modbus/Expected.h (all of it): a value or an exception in a union, with a flag telling which.

Exception classes are the library's (lib/include/modbus/exceptions) and the user's; `polymorphic` says whether `typeid` of a
reference looks at the dynamic type.  An exception object is its class and a content.  `std::exception_ptr` is null or refers to
an exception object.  Reading the inactive union member, an uninitialised flag, or rethrowing a null pointer is undefined
behaviour (`CM.ub`).  `moved` is what moving from a value of type `T` leaves behind; moving from an `exception_ptr` leaves null.
Assumed: copies and moves of `T` and of exception classes do not throw and copies are equal to the original.
-/

namespace Modbus

/-- Classes of exceptions. -/
inductive ExcClass where
  /-- IException.h:38 -/
  | iException
  /-- ConnectionException.h:37 -/
  | connection
  /-- MalformedModbusRequestException.h:34 -/
  | malformedRequest
  /-- MalformedModbusResponseException.h:35 -/
  | malformedResponse
  /-- ModbusException.h:39 -/
  | modbus
  /-- TimeoutException.h:33 -/
  | timeout
  /-- `std::invalid_argument`, thrown by `Expected` itself. -/
  | invalidArgument
  /-- A user class, polymorphic or not, without base. -/
  | user (n : Nat) (poly : Bool)
  /-- A user class derived (publicly) from another class. -/
  | derived (n : Nat) (base : ExcClass)
deriving DecidableEq

namespace ExcClass

/-- The base class.  The library's classes derive from `IException`.  (`std::invalid_argument` has bases, too: not modelled.) -/
def base : ExcClass → Option ExcClass
  | .connection | .malformedRequest | .malformedResponse | .modbus | .timeout => some .iException
  | .derived _ b => some b
  | .iException | .invalidArgument | .user _ _ => none

/-- Whether the class has virtual functions.  `IException` has none (IException.h:38-62), so neither have the library's classes. -/
def polymorphic : ExcClass → Bool
  | .iException | .connection | .malformedRequest | .malformedResponse | .modbus | .timeout => false
  | .invalidArgument => true
  | .user _ p => p
  | .derived _ b => b.polymorphic

/-- `catch(const E&)` catches an exception of class `c`: `c` is `E` or has `E` among its bases. -/
def caughtBy (c E : ExcClass) : Bool :=
  c == E || match c with
    | .connection | .malformedRequest | .malformedResponse | .modbus | .timeout => E == .iException
    | .derived _ b => b.caughtBy E
    | .iException | .invalidArgument | .user _ _ => false

end ExcClass

/-- An exception object. -/
structure ExcObj where
  cls : ExcClass
  content : Nat
deriving DecidableEq

/-- The union of Expected.h:275-279 with its active member. -/
inductive Slot (T : Type) where
  | raw
  | value (t : T)
  | exc (e : Option ExcObj)

/-- `Expected<T>`: the union and `m_has_value` (`none`: not initialised). -/
structure Exp (T : Type) where
  slot : Slot T
  hasValue : Option Bool

namespace Exp

variable {T : Type}

/-- Reads `m_has_value`. -/
def flag (x : Exp T) : CM Bool :=
  match x.hasValue with
  | none => .ub
  | some b => .ret b

/-- Reads `m_value`. -/
def readValue (x : Exp T) : CM T :=
  match x.slot with
  | .value t => .ret t
  | _ => .ub

/-- Reads `m_exception`. -/
def readExc (x : Exp T) : CM (Option ExcObj) :=
  match x.slot with
  | .exc e => .ret e
  | _ => .ub

/-- `Expected(const T&)`, `Expected(T&&)`, Expected.h:65, 73. -/
def ofValue (t : T) : Exp T := { slot := .value t, hasValue := some true }

/-- Copy constructor, Expected.h:82-93. -/
def copy (rhs : Exp T) : CM (Exp T) := do
  let b ← rhs.flag
  if b then
    let t ← rhs.readValue
    return { slot := .value t, hasValue := some b }
  else
    let e ← rhs.readExc
    return { slot := .exc e, hasValue := some b }

/-- Move constructor, Expected.h:102-113: the new object and what is left of the source. -/
def move (moved : T → T) (rhs : Exp T) : CM (Exp T × Exp T) := do
  let b ← rhs.flag
  if b then
    let t ← rhs.readValue
    return ({ slot := .value t, hasValue := some b }, { rhs with slot := .value (moved t) })
  else
    let e ← rhs.readExc
    return ({ slot := .exc e, hasValue := some b }, { rhs with slot := .exc none })

/-- Destructor, Expected.h:120-124. -/
def destroy (x : Exp T) : CM Unit := do
  let b ← x.flag
  if b then
    let _ ← x.readValue
    return ()
  else
    let _ ← x.readExc
    return ()

/-- `from_exception(std::exception_ptr)`, Expected.h:157-163 (and the private constructor, 273). -/
def ofPtr (e : Option ExcObj) : Exp T :=
  let result : Exp T := { slot := .raw, hasValue := none }
  let result := { result with hasValue := some false }
  { result with slot := .exc e }

/-- `from_exception<E>(const E&)`, Expected.h:142-150, called with a reference of type `E` to an object of class `obj.cls`.  The copy
made by `make_exception_ptr` has class `E`. -/
def ofException (E : ExcClass) (obj : ExcObj) : Except ExcObj (Exp T) :=
  let typeidOfObj := if E.polymorphic then obj.cls else E
  if typeidOfObj ≠ E then .error { cls := .invalidArgument, content := 0 }
  else .ok (ofPtr (some { obj with cls := E }))

/-- `is_valid`, Expected.h:173-176. -/
def isValid (x : Exp T) : CM Bool := x.flag

/-- `std::rethrow_exception`. -/
def rethrow {α : Type} : Option ExcObj → CM (Except ExcObj α)
  | none => .ub
  | some e => .ret (.error e)

/-- `get` (both), Expected.h:187-212. -/
def get (x : Exp T) : CM (Except ExcObj T) := do
  let b ← x.flag
  if !b then
    let e ← x.readExc
    rethrow e
  else
    let t ← x.readValue
    return .ok t

/-- `has_exception<E>`, Expected.h:221-234. -/
def hasException (x : Exp T) (E : ExcClass) : CM Bool := do
  let b ← x.flag
  if !b then
    let e ← x.readExc
    match e with
    | none => .ub
    | some e => return e.cls.caughtBy E
  else return false

/-- `get_exception()`, Expected.h:243-247. -/
def getPtr (x : Exp T) : CM (Except ExcObj (Option ExcObj)) := do
  let b ← x.flag
  if b then return .error { cls := .invalidArgument, content := 0 }
  else
    let e ← x.readExc
    return .ok e

/-- `get_exception<E>()`, Expected.h:257-270: returns a copy of type `E`. -/
def getAs (x : Exp T) (E : ExcClass) : CM (Except ExcObj ExcObj) := do
  let b ← x.flag
  if !b then
    let e ← x.readExc
    match e with
    | none => .ub
    | some e =>
      if e.cls.caughtBy E then return .ok { e with cls := E }
      else return .error { cls := .invalidArgument, content := 0 }
  else return .error { cls := .invalidArgument, content := 0 }

end Exp

end Modbus
