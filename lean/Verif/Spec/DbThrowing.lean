import Verif.Spec.DbThreads
import Verif.Model.DbThrowing

/-!
Specification of transactions that may throw or use the database itself.  Only the types naming calls, transactions and programs are taken from the model.
-/

namespace Modbus.Spec

/-- A transaction carried out at once, up to its end or the exception: what it leaves, what it has seen and whether it threw. -/
def runTxT (d : Tables) : TxT → Tables × List DbRes × Bool
  | .done => (d, [], false)
  | .throw => (d, [], true)
  | .op o k =>
    let (d, x) := txStep d o
    let (d, xs, b) := runTxT d (k x)
    (d, x :: xs, b)
  | .own c k =>
    let (d, ys) := exec d c
    let (d, xs, b) := runTxT d (k ys)
    (d, ys ++ xs, b)

/-- A call carried out at once. -/
def execT (d : Tables) : CallT → Tables × List DbRes × Bool
  | .plain c => let (d, x) := exec d c; (d, x, false)
  | .transaction t => runTxT d t

/-- A call carried out at once, an exception undoing everything. -/
def execUndo (d : Tables) (x : CallT) : Tables × List DbRes × Bool :=
  let (d', r, b) := execT d x
  (if b then d else d', r, b)

/-- `calls`, carried out one after another on `d` as `ex` says, each giving the recorded result, leave `d'`. -/
inductive SerialBy (ex : Tables → CallT → Tables × List DbRes × Bool) : Tables → List (Nat × CallT × List DbRes × Bool) → Tables → Prop
  | nil (d : Tables) : SerialBy ex d [] d
  | cons {d d' : Tables} {i : Nat} {x : CallT} {r : List DbRes × Bool} {calls : List (Nat × CallT × List DbRes × Bool)} :
      (ex d x).2 = r → SerialBy ex (ex d x).1 calls d' → SerialBy ex d ((i, x, r) :: calls) d'

/-- Program `p`, making `calls` in this order and seeing what they return or throw, still has `q` to do. -/
inductive DoesT : ProgT → List (CallT × List DbRes × Bool) → ProgT → Prop
  | nil (p : ProgT) : DoesT p [] p
  | cons {x : CallT} {k : List DbRes → Bool → ProgT} {r : List DbRes} {b : Bool} {calls : List (CallT × List DbRes × Bool)} {q : ProgT} :
      DoesT (k r b) calls q → DoesT (.call x k) ((x, r, b) :: calls) q

/-- The calls of thread `i`. -/
def callsOfT (i : Nat) (trace : List (Nat × CallT × List DbRes × Bool)) : List (CallT × List DbRes × Bool) :=
  (trace.filter fun e => e.1 = i).map (·.2)

/-- The transaction never calls the database itself. -/
def NoOwn : TxT → Prop
  | .done => True
  | .throw => True
  | .op _ k => ∀ x, NoOwn (k x)
  | .own _ _ => False

/-- No transaction of the program ever calls the database itself. -/
def NoOwnProg : ProgT → Prop
  | .done => True
  | .call (.plain _) k => ∀ r b, NoOwnProg (k r b)
  | .call (.transaction t) k => NoOwn t ∧ ∀ r b, NoOwnProg (k r b)

/-- Carried out on `d`, the transaction comes to call the database itself. -/
def CallsOwn (d : Tables) : TxT → Prop
  | .done => False
  | .throw => False
  | .op o k => CallsOwn (txStep d o).1 (k (txStep d o).2)
  | .own _ _ => True

end Modbus.Spec
