import Verif.Model.DbThreads

/-!
Model of the example server program, examples/server/main.cpp: what the session of unit 1 answers, what the database of unit 2 is filled with, and what the keys do.

The database is used by the main thread and by the threads of the manager at the same time (`Verif.Model.DbThreads`).

Simplifications: the logger, the manager and the channel (main.cpp:45-58, 69, 72) are modelled elsewhere; the end of the standard input, after which `cmd` (main.cpp:76) is read although nothing was ever stored in
it, is not modelled: the input is a finite list of characters, after which the program goes on waiting.
-/

namespace Modbus.ExampleServer

/-- `CustomSession`, examples/server/main.cpp:27-40; the other requests are left to the defaults of lib/include/modbus/server/IServerSession.h:114-201. -/
def custom : (k : Kind) → Req k → Expected (Resp k)
  | .readCoils, _ => .ok [⟨16, true⟩]
  | k, r => (defaultOnRequest k r ()).2

/-- The body of the loop, examples/server/main.cpp:64-67. -/
def lap (i : UInt16) : List DbOp :=
  [.addCoil i (i % 2 != 0), .addDiscrete i (i % 2 != 0), .addHolding i i, .addInput i i]

/-- The loop from `i` on, examples/server/main.cpp:62-68. -/
def fillFrom (i : UInt16) : List DbOp :=
  if i < 100 then lap i ++ fillFrom (i + 1) else []
termination_by 100 - i.toNat
decreasing_by
  rename_i h
  have h : i.toNat < 100 := h
  rw [UInt16.toNat_add, show (1 : UInt16).toNat = 1 from rfl]
  omega

/-- The calls that fill the new database, examples/server/main.cpp:61-68. -/
def fill : List DbOp := fillFrom 0

/-- The transaction of key `f`, examples/server/main.cpp:84-88.  `value` is not initialised (line 85): `indeterminate` is what it happens to contain if `get_coil` does not store anything in it. -/
def flip (indeterminate : Bool) : Tx :=
  .op (.getCoil 0x0000) fun x =>
    let value := match x with
      | .bit (some v) => v
      | _ => indeterminate
    .op (.setCoil 0x0000 (!value)) fun _ => .done

/-- The loop of the main thread, examples/server/main.cpp:74-98: the characters typed, each with the content of the uninitialised variable should it be a `f`. -/
def mainLoop : List (Char × Bool) → Prog
  | [] => .done
  | (cmd, indeterminate) :: rest =>
    if cmd = 'f' then .call (.transaction (flip indeterminate)) fun _ => mainLoop rest
    else if cmd = 'q' then .done
    else mainLoop rest

end Modbus.ExampleServer
