import Verif.Spec.Db
import Verif.Model.DbThreads

/-!
Specification of serial use of the database by several threads.  Only the types naming calls, transactions and thread
programs are taken from the model.
-/

namespace Modbus.Spec

/-- What each function of `IDatabase` does with the tables (lib/include/modbus/server/db/IDatabase.h). -/
def txStep (d : Tables) : TxOp → Tables × DbRes
  | .getCoil a => dbStep d (.getCoil a)
  | .getDiscrete a => dbStep d (.getDiscrete a)
  | .getHolding a => dbStep d (.getHolding a)
  | .getInput a => dbStep d (.getInput a)
  | .setCoil a v => dbStep d (.setCoil a v)
  | .setDiscrete a v => dbStep d (.setDiscrete a v)
  | .setHolding a v => dbStep d (.setHolding a v)
  | .setInput a v => dbStep d (.setInput a v)

/-- A transaction carried out at once. -/
def runTx (d : Tables) : Tx → Tables × List DbRes
  | .done => (d, [])
  | .op o k =>
    let (d, x) := txStep d o
    let (d, xs) := runTx d (k x)
    (d, x :: xs)

/-- A call carried out at once. -/
def exec (d : Tables) : Call → Tables × List DbRes
  | .addCoil a v => let (d, x) := dbStep d (.addCoil a v); (d, [x])
  | .addDiscrete a v => let (d, x) := dbStep d (.addDiscrete a v); (d, [x])
  | .addHolding a v => let (d, x) := dbStep d (.addHolding a v); (d, [x])
  | .addInput a v => let (d, x) := dbStep d (.addInput a v); (d, [x])
  | .request k r => let (d, x) := dbStep d (.request k r); (d, [x])
  | .transaction t => runTx d t

/-- `calls`, carried out one after another on `d`, each giving the recorded result, leave `d'`. -/
inductive Serial : Tables → List (Nat × Call × List DbRes) → Tables → Prop
  | nil (d : Tables) : Serial d [] d
  | cons {d d' : Tables} {i : Nat} {c : Call} {r : List DbRes} {calls : List (Nat × Call × List DbRes)} :
      (exec d c).2 = r → Serial (exec d c).1 calls d' → Serial d ((i, c, r) :: calls) d'

/-- Program `p`, making `calls` in this order and seeing their results, still has `q` to do. -/
inductive Does : Prog → List (Call × List DbRes) → Prog → Prop
  | nil (p : Prog) : Does p [] p
  | cons {c : Call} {k : List DbRes → Prog} {r : List DbRes} {calls : List (Call × List DbRes)} {q : Prog} :
      Does (k r) calls q → Does (.call c k) ((c, r) :: calls) q

/-- The calls of thread `i`. -/
def callsOf (i : Nat) (trace : List (Nat × Call × List DbRes)) : List (Call × List DbRes) :=
  (trace.filter fun e => e.1 = i).map (·.2)

end Modbus.Spec
