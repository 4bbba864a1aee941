import Verif.Model.Db

/-!
Threads using one `InMemoryDatabase`: every public operation takes the mutex (`std::lock_guard` at the top of each
function), and what it does with the maps is split into elementary steps between which other threads may run.

Granularity (a simplification): one step is one `std::map` operation (`insert`, `find` followed by an access to the
element found), one range check, or one iteration of the copy loops of `get_values`/`set_values`.  Threads are
sequentially consistent at this granularity; the mutex is modelled as a lock with an owner.
-/

namespace Modbus

/-- What a thread does between taking and releasing the mutex: elementary steps on the shared database.  `act f k` changes
the database with `f` and continues with `k` applied to the database as it was read in this step. -/
inductive Sec (α : Type) where
  | ub
  | ret (r : α)
  | act (f : Db → CM Db) (k : Db → Sec α)

namespace Sec

/-- Sequencing. -/
def bind {α β : Type} (s : Sec α) (g : α → Sec β) : Sec β :=
  match s with
  | .ub => .ub
  | .ret r => g r
  | .act f k => .act f fun db => (k db).bind g

/-- Running the steps without interruption. -/
def run {α : Type} (s : Sec α) (db : Db) : CM (Db × α) :=
  match s with
  | .ub => .ub
  | .ret r => .ret (db, r)
  | .act f k =>
    match f db with
    | .ub => .ub
    | .ret db' => (k db).run db'

end Sec

/-- One of the four maps of the database (lib/include/modbus/server/db/InMemoryDatabase.h:126-130). -/
structure TableRef (T : Type) where
  get : Db → Table T
  put : Db → Table T → Db

/-- `m_coil_db`. -/
def coilsRef : TableRef Bool := ⟨Db.coils, fun db t => { db with coils := t }⟩
/-- `m_discrete_input_db`. -/
def discretesRef : TableRef Bool := ⟨Db.discretes, fun db t => { db with discretes := t }⟩
/-- `m_holding_register_db`. -/
def holdingsRef : TableRef UInt16 := ⟨Db.holdings, fun db t => { db with holdings := t }⟩
/-- `m_input_register_db`. -/
def inputsRef : TableRef UInt16 := ⟨Db.inputs, fun db t => { db with inputs := t }⟩

/-- One iteration of the loop of `get_values` per step (SingleTypeDatabase.cpp:83-88): `i` is how far the iterator, which
started at `start`, has advanced. -/
def secReadLoop {T α : Type} (t : TableRef T) (start : UInt16) (i : Nat) (n : Nat) (acc : List T) (fin : List T → α) : Sec α :=
  match n with
  | 0 => .ret (fin acc)
  | n + 1 => .act .ret fun db =>
    match ((t.get db).find start).drop i with
    | [] => .ub
    | (_, v) :: _ => secReadLoop t start (i + 1) n (acc ++ [v]) fin

/-- `on_request` of a read: InMemoryDatabase.cpp:58-132 with SingleTypeDatabase.cpp:73-91. -/
def secRead {T α : Type} (t : TableRef T) (r : ReadReq) (label : List T → α) : Sec (Expected α) :=
  .act .ret fun db =>
    if !(t.get db).isValidRange r.start r.qty.toNat then .ret (.error (.modbus .illegalDataAddress))
    else secReadLoop t r.start 0 r.qty.toNat [] fun vs => .ok (label vs)

/-- Assignment to the element `i` places after the beginning of `it`. -/
def Table.writeAt {T : Type} (it : Table T) (i : Nat) (v : T) : CM (Table T) :=
  match it, i with
  | [], _ => .ub
  | (k, _) :: r, 0 => .ret ((k, v) :: r)
  | x :: r, i + 1 => do
    let r ← Table.writeAt r i v
    return x :: r

/-- One iteration of the loop of `set_values` per step (SingleTypeDatabase.cpp:50-55). -/
def secWriteLoop {T α : Type} (t : TableRef T) (start : UInt16) (i : Nat) (vs : List T) (fin : α) : Sec α :=
  match vs with
  | [] => .ret fin
  | v :: vs => .act
    (fun db => do
      let x ← (t.get db).updateFrom start fun it => it.writeAt i v
      return t.put db x)
    fun _ => secWriteLoop t start (i + 1) vs fin

/-- `on_request` of a write of several points: InMemoryDatabase.cpp:162-188 with SingleTypeDatabase.cpp:40-58. -/
def secWrite {T : Type} (t : TableRef T) (start : UInt16) (vs : List T) : Sec (Expected WriteMultiResp) :=
  .act .ret fun db =>
    if !(t.get db).isValidRange start vs.length then .ret (.error (.modbus .illegalDataAddress))
    else secWriteLoop t start 0 vs (.ok ⟨start, UInt16.ofNat vs.length⟩)

/-- An operation that is a single step. -/
def secAtomic (o : DbOp) : Sec DbRes :=
  .act (fun db => do let (db, _) ← db.apply o; return db) fun db =>
    match db.apply o with
    | .ub => .ub
    | .ret (_, x) => .ret x

/-- The steps of each operation, lib/src/server/db/InMemoryDatabase.cpp:23-49, 58-228. -/
def secOp : DbOp → Sec DbRes
  | .request .readCoils r => (secRead coilsRef r (Db.labelBitsFrom r.start 0)).bind fun x => .ret (.response .readCoils x)
  | .request .readDiscreteInputs r =>
    (secRead discretesRef r (Db.labelBitsFrom r.start 0)).bind fun x => .ret (.response .readDiscreteInputs x)
  | .request .readHoldingRegisters r =>
    (secRead holdingsRef r (Db.labelRegsFrom r.start 0)).bind fun x => .ret (.response .readHoldingRegisters x)
  | .request .readInputRegisters r =>
    (secRead inputsRef r (Db.labelRegsFrom r.start 0)).bind fun x => .ret (.response .readInputRegisters x)
  | .request .writeMultipleCoils r =>
    (secWrite coilsRef r.start r.values).bind fun x => .ret (.response .writeMultipleCoils x)
  | .request .writeMultipleRegisters r =>
    (secWrite holdingsRef r.start r.values).bind fun x => .ret (.response .writeMultipleRegisters x)
  | o => secAtomic o

/-- The member functions of `IDatabase` (lib/include/modbus/server/db/IDatabase.h), which is all the function given to
`execute_transaction` gets to use. -/
inductive TxOp where
  | getCoil (a : UInt16)
  | getDiscrete (a : UInt16)
  | getHolding (a : UInt16)
  | getInput (a : UInt16)
  | setCoil (a : UInt16) (v : Bool)
  | setDiscrete (a : UInt16) (v : Bool)
  | setHolding (a : UInt16) (v : UInt16)
  | setInput (a : UInt16) (v : UInt16)

/-- The operation. -/
def TxOp.op : TxOp → DbOp
  | .getCoil a => .getCoil a
  | .getDiscrete a => .getDiscrete a
  | .getHolding a => .getHolding a
  | .getInput a => .getInput a
  | .setCoil a v => .setCoil a v
  | .setDiscrete a v => .setDiscrete a v
  | .setHolding a v => .setHolding a v
  | .setInput a v => .setInput a v

/-- The user's function run by `execute_transaction` (InMemoryDatabase.cpp:51-56): any finite program that calls
`IDatabase` functions and decides what to do next from their results. -/
inductive Tx where
  | done
  | op (o : TxOp) (k : DbRes → Tx)

/-- The steps of a transaction; its result is the list of results seen by the user's function. -/
def secTx (acc : List DbRes) : Tx → Sec (List DbRes)
  | .done => .ret acc
  | .op o k => (secOp o.op).bind fun x => secTx (acc ++ [x]) (k x)

/-- Public operations of `InMemoryDatabase` (lib/include/modbus/server/db/InMemoryDatabase.h): `add_*`, `on_request`,
`execute_transaction`. -/
inductive Call where
  | addCoil (a : UInt16) (v : Bool)
  | addDiscrete (a : UInt16) (v : Bool)
  | addHolding (a : UInt16) (v : UInt16)
  | addInput (a : UInt16) (v : UInt16)
  | request (k : Kind) (r : Req k)
  | transaction (t : Tx)

/-- The steps of a call. -/
def Call.sec : Call → Sec (List DbRes)
  | .addCoil a v => (secOp (.addCoil a v)).bind fun x => .ret [x]
  | .addDiscrete a v => (secOp (.addDiscrete a v)).bind fun x => .ret [x]
  | .addHolding a v => (secOp (.addHolding a v)).bind fun x => .ret [x]
  | .addInput a v => (secOp (.addInput a v)).bind fun x => .ret [x]
  | .request k r => (secOp (.request k r)).bind fun x => .ret [x]
  | .transaction t => secTx [] t

/-- Whether the function begins with `std::lock_guard<std::mutex>`: InMemoryDatabase.cpp:25, 32, 39, 46 (`add_*`), 53
(`execute_transaction`), 60, 79, 98, 117, 136, 150, 164, 178 (`on_request`). -/
def Call.takesLock : Call → Bool
  | .addCoil .. => true
  | .addDiscrete .. => true
  | .addHolding .. => true
  | .addInput .. => true
  | .request .readCoils _ => true
  | .request .readDiscreteInputs _ => true
  | .request .readHoldingRegisters _ => true
  | .request .readInputRegisters _ => true
  | .request .writeSingleCoil _ => true
  | .request .writeSingleRegister _ => true
  | .request .writeMultipleCoils _ => true
  | .request .writeMultipleRegisters _ => true
  | .transaction _ => true

/-- A thread: a finite program of calls, each chosen from the results of the earlier ones. -/
inductive Prog where
  | done
  | call (c : Call) (k : List DbRes → Prog)

/-- Where a thread is: about to run a program, or inside a call. -/
inductive Thread where
  | idle (p : Prog)
  | inside (s : Sec (List DbRes)) (c : Call) (k : List DbRes → Prog)

/-- The threads, the database they share, the owner of its mutex, and the calls that returned, in order. -/
structure Threads where
  db : Db
  lock : Option Nat
  threads : List Thread
  trace : List (Nat × Call × List DbRes)

namespace Threads

/-- Threads about to start. -/
def init (db : Db) (ps : List Prog) : Threads := ⟨db, none, ps.map .idle, []⟩

/-- The scheduler lets thread `i` make one step; a thread waiting for the mutex does not move. -/
def step (c : Threads) (i : Nat) : CM Threads :=
  match c.threads[i]? with
  | none => .ret c
  | some (.idle .done) => .ret c
  | some (.idle (.call x k)) =>
    if x.takesLock then
      match c.lock with
      | some _ => .ret c
      | none => .ret { c with lock := some i, threads := c.threads.set i (.inside x.sec x k) }
    else .ret { c with threads := c.threads.set i (.inside x.sec x k) }
  | some (.inside .ub _ _) => .ub
  | some (.inside (.ret r) x k) =>
    .ret { c with
      lock := if x.takesLock then none else c.lock
      threads := c.threads.set i (.idle (k r))
      trace := c.trace ++ [(i, x, r)] }
  | some (.inside (.act f g) x k) =>
    match f c.db with
    | .ub => .ub
    | .ret db => .ret { c with db := db, threads := c.threads.set i (.inside (g c.db) x k) }

/-- An execution: the scheduler's choices, one after another. -/
def run (c : Threads) : List Nat → CM Threads
  | [] => .ret c
  | i :: is => do
    let c ← c.step i
    c.run is

end Threads

end Modbus
