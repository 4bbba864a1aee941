import Verif.Model.DbThreads

/-!
Transactions that throw, and transactions that call the database object itself instead of the `IDatabase` they are given: InMemoryDatabase.cpp:51-56.

The function given to `execute_transaction` is called while a `std::lock_guard` owns the mutex (line 53).  If it throws, the destructor of the guard releases the mutex and the exception
reaches the caller of `execute_transaction`; nothing is undone.  If it calls a public function of the database, that function locks the mutex the thread already owns, which is undefined
behaviour for a `std::mutex` (in practice the thread waits for itself for ever).

Simplification: the caller of `execute_transaction` catches the exception (otherwise the program ends).  Calling an empty `std::function` is a transaction that throws at once.
-/

namespace Modbus

/-- The function given to `execute_transaction`, InMemoryDatabase.cpp:51-56: as `Tx`, and it may throw at any point (`throw`) or call a function of the database itself (`own`). -/
inductive TxT where
  | done
  | throw
  | op (o : TxOp) (k : DbRes → TxT)
  | own (c : Call) (k : List DbRes → TxT)

/-- The steps of such a transaction, InMemoryDatabase.cpp:53-55; the result is what the function has seen, and whether it threw. -/
def secTxT (acc : List DbRes) : TxT → Sec (List DbRes × Bool)
  | .done => .ret (acc, false)
  | .throw => .ret (acc, true)
  | .op o k => (secOp o.op).bind fun x => secTxT (acc ++ [x]) (k x)
  | .own c k => if c.takesLock then .ub else c.sec.bind fun x => secTxT (acc ++ x) (k x)

/-- The public operations, lib/include/modbus/server/db/InMemoryDatabase.h: those of `Call`, and `execute_transaction` with such a function. -/
inductive CallT where
  | plain (c : Call)
  | transaction (t : TxT)

/-- The steps of a call (InMemoryDatabase.cpp:23-188). -/
def CallT.sec : CallT → Sec (List DbRes × Bool)
  | .plain c => c.sec.bind fun x => .ret (x, false)
  | .transaction t => secTxT [] t

/-- Whether the function begins with `std::lock_guard<std::mutex>`: see `Call.takesLock`; InMemoryDatabase.cpp:53. -/
def CallT.takesLock : CallT → Bool
  | .plain c => c.takesLock
  | .transaction _ => true

/-- A thread: a finite program of calls (of the functions of InMemoryDatabase.cpp), each chosen from what the earlier ones returned or threw. -/
inductive ProgT where
  | done
  | call (x : CallT) (k : List DbRes → Bool → ProgT)

/-- Where a thread is: about to run a program, or inside a call of a function of InMemoryDatabase.cpp. -/
inductive ThreadT where
  | idle (p : ProgT)
  | inside (s : Sec (List DbRes × Bool)) (x : CallT) (k : List DbRes → Bool → ProgT)

/-- The threads, the database they share, the owner of its mutex (InMemoryDatabase.h:126-130), and the calls that ended, in order, with what they gave and whether they threw. -/
structure ThreadsT where
  db : Db
  lock : Option Nat
  threads : List ThreadT
  trace : List (Nat × CallT × List DbRes × Bool)

namespace ThreadsT

/-- Threads about to start (InMemoryDatabase.h). -/
def init (db : Db) (ps : List ProgT) : ThreadsT := ⟨db, none, ps.map .idle, []⟩

/-- The scheduler lets thread `i` make one step (of a function of InMemoryDatabase.cpp:23-188); a thread waiting for the mutex does not move.  A call ends, by returning or by an
exception, with the destructor of the guard, which releases the mutex. -/
def step (c : ThreadsT) (i : Nat) : CM ThreadsT :=
  match c.threads[i]? with
  | none => .ret c
  | some (.idle .done) => .ret c
  | some (.idle (.call x k)) =>
    if x.takesLock then
      match c.lock with
      | some _ => .ret c
      | none => .ret { c with lock := some i, threads := c.threads.set i (.inside x.sec x k) }
    else .ret { c with threads := c.threads.set i (.inside x.sec x k) }
  | some (.inside .ub _ _) => .ub
  | some (.inside (.ret (r, b)) x k) =>
    .ret { c with
      lock := if x.takesLock then none else c.lock
      threads := c.threads.set i (.idle (k r b))
      trace := c.trace ++ [(i, x, r, b)] }
  | some (.inside (.act f g) x k) =>
    match f c.db with
    | .ub => .ub
    | .ret db => .ret { c with db := db, threads := c.threads.set i (.inside (g c.db) x k) }

/-- An execution: the scheduler's choices, one after another (threads calling InMemoryDatabase.cpp). -/
def run (c : ThreadsT) : List Nat → CM ThreadsT
  | [] => .ret c
  | i :: is => do
    let c ← c.step i
    c.run is

end ThreadsT

end Modbus
