import Verif.Spec.Pdu
import Verif.Model.Db

/-!
Independent specification of the database: four partial maps from addresses to values.  (Only the types `DbOp` and
`DbRes`, which name the operations and their results, are taken from the model.)
-/

namespace Modbus.Spec

/-- A data table. -/
abbrev Map (T : Type) := UInt16 → Option T

/-- The point exists. -/
def Exists {T : Type} (m : Map T) (a : UInt16) : Prop := (m a).isSome = true

instance {T : Type} (m : Map T) (a : UInt16) : Decidable (Exists m a) := inferInstanceAs (Decidable (_ = _))

/-- All of the `n` points from address `a` on exist; there is at least one, and none is above 65535. -/
def RangeExists {T : Type} (m : Map T) (a : UInt16) (n : Nat) : Prop :=
  1 ≤ n ∧ ∀ i, i < n → a.toNat + i ≤ 65535 ∧ Exists m (UInt16.ofNat (a.toNat + i))

instance {T : Type} (m : Map T) (a : UInt16) (n : Nat) : Decidable (RangeExists m a n) :=
  inferInstanceAs (Decidable (_ ∧ _))

/-- The table after assigning `v` to point `a`. -/
def put {T : Type} (m : Map T) (a : UInt16) (v : T) : Map T := fun x => if x = a then some v else m x

/-- The table after assigning `vs` to the points from `a` on. -/
def putAll {T : Type} (m : Map T) (a : UInt16) (vs : List T) : Map T := fun x =>
  if a.toNat ≤ x.toNat then
    match vs[x.toNat - a.toNat]? with
    | some v => some v
    | none => m x
  else m x

/-- The values of the `n` points from `a` on (`none` if one is missing). -/
def values {T : Type} (m : Map T) (a : UInt16) (n : Nat) : Option (List T) :=
  (List.range n).mapM fun i => m (UInt16.ofNat (a.toNat + i))

/-- The four tables. -/
structure Tables where
  coils : Map Bool
  discretes : Map Bool
  holdings : Map UInt16
  inputs : Map UInt16

/-- `add_*`: creates the point if it does not exist. -/
def add {T : Type} (m : Map T) (a : UInt16) (v : T) : Map T × DbRes :=
  if Exists m a then (m, .done false) else (put m a v, .done true)

/-- `set_*`: changes the point if it exists. -/
def set {T : Type} (m : Map T) (a : UInt16) (v : T) : Map T × DbRes :=
  if Exists m a then (put m a v, .done true) else (m, .done false)

/-- Refusal. -/
def illegalAddress {α : Type} : Expected α := .error (.modbus .illegalDataAddress)

/-- A read of `n` points. -/
def read {T α : Type} (m : Map T) (a : UInt16) (n : Nat) (label : List T → α) : Expected α :=
  if RangeExists m a n then
    match values m a n with
    | some vs => .ok (label vs)
    | none => illegalAddress
  else illegalAddress

/-- What a Modbus request does to the four tables and what is answered. -/
def serve (d : Tables) : (k : Kind) → Req k → Tables × Expected (Resp k)
  | .readCoils, r => (d, read d.coils r.start r.qty.toNat (labelBits r.start))
  | .readDiscreteInputs, r => (d, read d.discretes r.start r.qty.toNat (labelBits r.start))
  | .readHoldingRegisters, r => (d, read d.holdings r.start r.qty.toNat (labelRegs r.start))
  | .readInputRegisters, r => (d, read d.inputs r.start r.qty.toNat (labelRegs r.start))
  | .writeSingleCoil, r =>
    if Exists d.coils r.addr then ({ d with coils := put d.coils r.addr r.value }, .ok r) else (d, illegalAddress)
  | .writeSingleRegister, r =>
    if Exists d.holdings r.addr then ({ d with holdings := put d.holdings r.addr r.value }, .ok r) else (d, illegalAddress)
  | .writeMultipleCoils, r =>
    if RangeExists d.coils r.start r.values.length then
      ({ d with coils := putAll d.coils r.start r.values }, .ok ⟨r.start, UInt16.ofNat r.values.length⟩)
    else (d, illegalAddress)
  | .writeMultipleRegisters, r =>
    if RangeExists d.holdings r.start r.values.length then
      ({ d with holdings := putAll d.holdings r.start r.values }, .ok ⟨r.start, UInt16.ofNat r.values.length⟩)
    else (d, illegalAddress)

/-- One operation on the four tables. -/
def dbStep (d : Tables) : DbOp → Tables × DbRes
  | .addCoil a v => let (m, x) := add d.coils a v; ({ d with coils := m }, x)
  | .addDiscrete a v => let (m, x) := add d.discretes a v; ({ d with discretes := m }, x)
  | .addHolding a v => let (m, x) := add d.holdings a v; ({ d with holdings := m }, x)
  | .addInput a v => let (m, x) := add d.inputs a v; ({ d with inputs := m }, x)
  | .getCoil a => (d, .bit (d.coils a))
  | .getDiscrete a => (d, .bit (d.discretes a))
  | .getHolding a => (d, .reg (d.holdings a))
  | .getInput a => (d, .reg (d.inputs a))
  | .setCoil a v => let (m, x) := set d.coils a v; ({ d with coils := m }, x)
  | .setDiscrete a v => let (m, x) := set d.discretes a v; ({ d with discretes := m }, x)
  | .setHolding a v => let (m, x) := set d.holdings a v; ({ d with holdings := m }, x)
  | .setInput a v => let (m, x) := set d.inputs a v; ({ d with inputs := m }, x)
  | .request k r => let (d, x) := serve d k r; (d, .response k x)

/-- A history of operations with their results. -/
def dbRun (d : Tables) : List DbOp → Tables × List DbRes
  | [] => (d, [])
  | op :: ops =>
    let (d, x) := dbStep d op
    let (d, xs) := dbRun d ops
    (d, x :: xs)

/-- Four empty tables. -/
def noTables : Tables := ⟨fun _ => none, fun _ => none, fun _ => none, fun _ => none⟩

end Modbus.Spec
