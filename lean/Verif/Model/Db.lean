import Verif.Model.Server

/-!
Model of the in-memory database: lib/src/server/db/SingleTypeDatabase.cpp and InMemoryDatabase.cpp.
-/

namespace Modbus

/-- `std::map<Address, T>` (lib/include/modbus/server/db/SingleTypeDatabase.h:43): the list of its elements in iteration
order.  An iterator is modelled by the suffix of the list that starts at the element it points to; `[]` is `end()`. -/
abbrev Table (T : Type) := List (UInt16 × T)

namespace Table

variable {T : Type}

/-- `std::map::find`. -/
def find (t : Table T) (a : UInt16) : Table T :=
  match t with
  | [] => []
  | (k, v) :: r => if k = a then (k, v) :: r else find r a

/-- `std::map::insert({a, v})` with its `.second`: keeps the elements in key order, does nothing if the key is present. -/
def insert (t : Table T) (a : UInt16) (v : T) : Table T × Bool :=
  match t with
  | [] => ([(a, v)], true)
  | (k, w) :: r =>
    if a < k then ((a, v) :: (k, w) :: r, true)
    else if k = a then ((k, w) :: r, false)
    else
      let (r, b) := insert r a v
      ((k, w) :: r, b)

/-- Assignment through an iterator: `it->second = v` for the iterator of key `a` (used after a successful `find`). -/
def assign (t : Table T) (a : UInt16) (v : T) : Table T :=
  match t with
  | [] => []
  | (k, w) :: r => if k = a then (k, v) :: r else (k, w) :: assign r a v

/-- `SingleTypeDatabase::add_value`, SingleTypeDatabase.cpp:21-25. -/
def addValue (t : Table T) (a : UInt16) (v : T) : Table T × Bool := t.insert a v

/-- `SingleTypeDatabase::set_value`, SingleTypeDatabase.cpp:27-38. -/
def setValue (t : Table T) (a : UInt16) (v : T) : Table T × Bool :=
  match t.find a with
  | [] => (t, false)
  | _ :: _ => (t.assign a v, true)

/-- `SingleTypeDatabase::get_value`, SingleTypeDatabase.cpp:60-71: `none` models returning `false` (output untouched). -/
def getValue (t : Table T) (a : UInt16) : Option T :=
  match t.find a with
  | [] => none
  | (_, v) :: _ => some v

/-- `static_cast<size_t>(int)` on a 64-bit platform. -/
def sizeT (i : Int) : Nat := (i % 2 ^ 64).toNat

/-- Loop of `is_valid_range`, SingleTypeDatabase.cpp:117-130 (`current` and `start` are promoted to `int`). -/
def rangeLoop (start : UInt16) (count : Nat) (current : UInt16) (it : Table T) : Bool :=
  match it with
  | [] => sizeT ((current.toNat : Int) - start.toNat + 1) == count
  | (k, _) :: r =>
    if sizeT ((current.toNat : Int) - start.toNat + 1) < count then
      if (k.toNat : Int) ≠ (current.toNat : Int) + 1 then false
      else rangeLoop start count k r
    else sizeT ((current.toNat : Int) - start.toNat + 1) == count

/-- `SingleTypeDatabase::is_valid_range`, SingleTypeDatabase.cpp:105-131. -/
def isValidRange (t : Table T) (start : UInt16) (count : Nat) : Bool :=
  match t.find start with
  | [] => false
  | _ :: it => rangeLoop start count start it

/-- Loop of `get_values`, SingleTypeDatabase.cpp:83-88: dereferencing `end()` is undefined behaviour. -/
def readLoop (it : Table T) (n : Nat) : CM (List T) :=
  match n with
  | 0 => .ret []
  | n + 1 =>
    match it with
    | [] => .ub
    | (_, v) :: r => do
      let vs ← readLoop r n
      return v :: vs

/-- `SingleTypeDatabase::get_values`, SingleTypeDatabase.cpp:73-91: `output.size()` is `n`; `none` models `false`. -/
def getValues (t : Table T) (start : UInt16) (n : Nat) : CM (Option (List T)) :=
  if !t.isValidRange start n then .ret none
  else do
    let vs ← readLoop (t.find start) n
    return some vs

/-- Loop of `set_values`, SingleTypeDatabase.cpp:50-55, from the element the iterator points to. -/
def writeLoop (it : Table T) (vs : List T) : CM (Table T) :=
  match vs with
  | [] => .ret it
  | v :: vs =>
    match it with
    | [] => .ub
    | (k, _) :: r => do
      let r ← writeLoop r vs
      return (k, v) :: r

/-- The elements before the iterator of key `a` are left alone. -/
def updateFrom (t : Table T) (a : UInt16) (f : Table T → CM (Table T)) : CM (Table T) :=
  match t with
  | [] => f []
  | (k, v) :: r =>
    if k = a then f ((k, v) :: r)
    else do
      let r ← updateFrom r a f
      return (k, v) :: r

/-- `SingleTypeDatabase::set_values`, SingleTypeDatabase.cpp:40-58. -/
def setValues (t : Table T) (start : UInt16) (vs : List T) : CM (Table T × Bool) :=
  if !t.isValidRange start vs.length then .ret (t, false)
  else do
    let t ← t.updateFrom start fun it => writeLoop it vs
    return (t, true)

/-- `SingleTypeDatabase::is_valid`, SingleTypeDatabase.cpp:93-103. -/
def isValid (t : Table T) (a : UInt16) : Bool :=
  match t.find a with
  | [] => false
  | _ :: _ => true

end Table

/-- State of `InMemoryDatabase` (lib/include/modbus/server/db/InMemoryDatabase.h:126-130).  The mutex is modelled in
`Verif.Model.DbThreads`. -/
structure Db where
  coils : Table Bool
  discretes : Table Bool
  holdings : Table UInt16
  inputs : Table UInt16
deriving DecidableEq, Repr

namespace Db

/-- A new database. -/
def empty : Db := ⟨[], [], [], []⟩

/-- Loop of InMemoryDatabase.cpp:69-73 (and 88-92): `i` is the next index. -/
def labelBitsFrom (start : UInt16) (i : Nat) : List Bool → List BitVal
  | [] => []
  | v :: vs => ⟨UInt16.ofNat (start.toNat + i), v⟩ :: labelBitsFrom start (i + 1) vs

/-- Loop of InMemoryDatabase.cpp:107-111 (and 126-130): `i` is the next index. -/
def labelRegsFrom (start : UInt16) (i : Nat) : List UInt16 → List RegVal
  | [] => []
  | v :: vs => ⟨UInt16.ofNat (start.toNat + i), v⟩ :: labelRegsFrom start (i + 1) vs

/-- `InMemoryDatabase::on_request` for bit reads, InMemoryDatabase.cpp:58-94. -/
def readBits (t : Table Bool) (r : ReadReq) : CM (Expected (List BitVal)) := do
  match ← t.getValues r.start r.qty.toNat with
  | none => return .error (.modbus .illegalDataAddress)
  | some vs => return .ok (labelBitsFrom r.start 0 vs)

/-- `InMemoryDatabase::on_request` for register reads, InMemoryDatabase.cpp:96-132. -/
def readRegs (t : Table UInt16) (r : ReadReq) : CM (Expected (List RegVal)) := do
  match ← t.getValues r.start r.qty.toNat with
  | none => return .error (.modbus .illegalDataAddress)
  | some vs => return .ok (labelRegsFrom r.start 0 vs)

/-- `InMemoryDatabase::on_request` (all overloads), InMemoryDatabase.cpp:58-188, without the locking. -/
def onRequest (db : Db) : (k : Kind) → Req k → CM (Db × Expected (Resp k))
  | .readCoils, r => do
    let x ← readBits db.coils r
    return (db, x)
  | .readDiscreteInputs, r => do
    let x ← readBits db.discretes r
    return (db, x)
  | .readHoldingRegisters, r => do
    let x ← readRegs db.holdings r
    return (db, x)
  | .readInputRegisters, r => do
    let x ← readRegs db.inputs r
    return (db, x)
  | .writeSingleCoil, r =>
    match db.coils.setValue r.addr r.value with
    | (_, false) => .ret (db, .error (.modbus .illegalDataAddress))
    | (t, true) => .ret ({ db with coils := t }, .ok ⟨r.addr, r.value⟩)
  | .writeSingleRegister, r =>
    match db.holdings.setValue r.addr r.value with
    | (_, false) => .ret (db, .error (.modbus .illegalDataAddress))
    | (t, true) => .ret ({ db with holdings := t }, .ok ⟨r.addr, r.value⟩)
  | .writeMultipleCoils, r => do
    match ← db.coils.setValues r.start r.values with
    | (_, false) => return (db, .error (.modbus .illegalDataAddress))
    | (t, true) => return ({ db with coils := t }, .ok ⟨r.start, UInt16.ofNat r.values.length⟩)
  | .writeMultipleRegisters, r => do
    match ← db.holdings.setValues r.start r.values with
    | (_, false) => return (db, .error (.modbus .illegalDataAddress))
    | (t, true) => return ({ db with holdings := t }, .ok ⟨r.start, UInt16.ofNat r.values.length⟩)

end Db

/-- Operations on the database: `add_*` (InMemoryDatabase.cpp:23-49), `get_*` and `set_*` of `IDatabase`
(InMemoryDatabase.cpp:190-228), `on_request` (58-188). -/
inductive DbOp where
  | addCoil (a : UInt16) (v : Bool)
  | addDiscrete (a : UInt16) (v : Bool)
  | addHolding (a : UInt16) (v : UInt16)
  | addInput (a : UInt16) (v : UInt16)
  | getCoil (a : UInt16)
  | getDiscrete (a : UInt16)
  | getHolding (a : UInt16)
  | getInput (a : UInt16)
  | setCoil (a : UInt16) (v : Bool)
  | setDiscrete (a : UInt16) (v : Bool)
  | setHolding (a : UInt16) (v : UInt16)
  | setInput (a : UInt16) (v : UInt16)
  | request (k : Kind) (r : Req k)

/-- Results of operations. -/
inductive DbRes where
  | done (b : Bool)
  | bit (v : Option Bool)
  | reg (v : Option UInt16)
  | response (k : Kind) (r : Expected (Resp k))

namespace Db

/-- One operation: lib/src/server/db/InMemoryDatabase.cpp, see `DbOp`. -/
def apply (db : Db) : DbOp → CM (Db × DbRes)
  | .addCoil a v => let (t, b) := db.coils.addValue a v; .ret ({ db with coils := t }, .done b)
  | .addDiscrete a v => let (t, b) := db.discretes.addValue a v; .ret ({ db with discretes := t }, .done b)
  | .addHolding a v => let (t, b) := db.holdings.addValue a v; .ret ({ db with holdings := t }, .done b)
  | .addInput a v => let (t, b) := db.inputs.addValue a v; .ret ({ db with inputs := t }, .done b)
  | .getCoil a => .ret (db, .bit (db.coils.getValue a))
  | .getDiscrete a => .ret (db, .bit (db.discretes.getValue a))
  | .getHolding a => .ret (db, .reg (db.holdings.getValue a))
  | .getInput a => .ret (db, .reg (db.inputs.getValue a))
  | .setCoil a v => let (t, b) := db.coils.setValue a v; .ret ({ db with coils := t }, .done b)
  | .setDiscrete a v => let (t, b) := db.discretes.setValue a v; .ret ({ db with discretes := t }, .done b)
  | .setHolding a v => let (t, b) := db.holdings.setValue a v; .ret ({ db with holdings := t }, .done b)
  | .setInput a v => let (t, b) := db.inputs.setValue a v; .ret ({ db with inputs := t }, .done b)
  | .request k r => do
    let (db, x) ← db.onRequest k r
    return (db, .response k x)

/-- A history of operations with their results. -/
def run (db : Db) : List DbOp → CM (Db × List DbRes)
  | [] => .ret (db, [])
  | op :: ops => do
    let (db, x) ← db.apply op
    let (db, xs) ← db.run ops
    return (db, x :: xs)

end Db

end Modbus
