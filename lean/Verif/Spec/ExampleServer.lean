import Verif.Spec.DbThreads

/-!
What the example server is expected to do (examples/server/main.cpp).  Only the types naming calls and their results are taken from the model.
-/

namespace Modbus.Spec

/-- The first `n` of the points of the example: coil and discrete input `a` are on exactly if `a` is odd, the registers hold their own address. -/
def examplePoints (n : Nat) : Tables where
  coils a := if a.toNat < n then some (decide (a.toNat % 2 = 1)) else none
  discretes a := if a.toNat < n then some (decide (a.toNat % 2 = 1)) else none
  holdings a := if a.toNat < n then some a else none
  inputs a := if a.toNat < n then some a else none

/-- What a request writes to coil 0 of a database with the points 0 to 99, if anything. -/
def writesCoil0 : (k : Kind) → Req k → Option Bool
  | .writeSingleCoil, r => if r.addr = 0 then some r.value else none
  | .writeMultipleCoils, r => if r.start = 0 ∧ r.values.length ≤ 100 then r.values.head? else none
  | _, _ => none

/-- The request reads coil 0. -/
def ReadsCoil0 : (k : Kind) → Req k → Prop
  | .readCoils, r => r.start = 0
  | _, _ => False

/-- Coil 0 after some calls, if it was `v` before: transactions invert it, requests may write it. -/
def coil0 (v : Bool) : List (Nat × Call × List DbRes) → Bool
  | [] => v
  | (_, .transaction _, _) :: l => coil0 (!v) l
  | (_, .request k r, _) :: l =>
    match writesCoil0 k r with
    | some w => coil0 w l
    | none => coil0 v l
  | _ :: l => coil0 v l

/-- The tables after the requests alone. -/
def requestsAlone (d : Tables) : List (Nat × Call × List DbRes) → Tables
  | [] => d
  | (_, .request k r, _) :: l => requestsAlone (serve d k r).1 l
  | _ :: l => requestsAlone d l

/-- The program only makes requests. -/
def Asks : Prog → Prop
  | .done => True
  | .call c k => (∃ j r, c = .request j r) ∧ ∀ x, Asks (k x)

/-- How often `f` was typed before the first `q`. -/
def flipsTyped : List Char → Nat
  | [] => 0
  | c :: cs => if c = 'q' then 0 else (if c = 'f' then 1 else 0) + flipsTyped cs

/-- The number of transactions. -/
def transactions (l : List (Nat × Call × List DbRes)) : Nat :=
  l.countP fun e => match e.2.1 with
    | .transaction _ => true
    | _ => false

end Modbus.Spec
