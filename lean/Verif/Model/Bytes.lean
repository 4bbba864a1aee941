import Verif.Types

/-!
Model of the parts of ser4cpp (external library, not in /repo) that modbus-cpp uses, and of C++
undefined behaviour.  These are assumptions of the trusted base (see DESIGN.md).
-/

namespace Modbus

/-- Outcome of C++ code: `ub` marks undefined behaviour (here: use of an uninitialised variable after an
unchecked read from a too short view). -/
inductive CM (α : Type) where
  | ub
  | ret (a : α)
deriving DecidableEq, Repr

namespace CM

/-- Sequential composition: undefined behaviour is contagious. -/
def bind {α β : Type} : CM α → (α → CM β) → CM β
  | .ub, _ => .ub
  | .ret a, f => f a

instance : Monad CM where
  pure := CM.ret
  bind := CM.bind

@[simp] theorem ret_bind {α β : Type} (a : α) (f : α → CM β) : (CM.ret a >>= f) = f a := rfl
@[simp] theorem ub_bind {α β : Type} (f : α → CM β) : ((CM.ub : CM α) >>= f) = CM.ub := rfl
@[simp] theorem pure_eq {α : Type} (a : α) : (pure a : CM α) = CM.ret a := rfl

end CM

/-- High byte of a `uint16_t` as written by `ser4cpp::UInt16::write_to` (big endian). -/
def hiByte (v : UInt16) : UInt8 := (v >>> 8).toUInt8

/-- Low byte of a `uint16_t` as written by `ser4cpp::UInt16::write_to` (big endian). -/
def loByte (v : UInt16) : UInt8 := v.toUInt8

/-- `ser4cpp::UInt16` big endian composition. -/
def joinU16 (hi lo : UInt8) : UInt16 := (hi.toUInt16 <<< 8) ||| lo.toUInt16

/-- `ser4cpp::UInt8::read_from(view, out)`: `none` models `false` (view unchanged, `out` not written). -/
def readU8 : List UInt8 → Option (UInt8 × List UInt8)
  | [] => none
  | b :: r => some (b, r)

/-- `ser4cpp::UInt16::read_from(view, out)`: `none` models `false` (view unchanged, `out` not written). -/
def readU16 : List UInt8 → Option (UInt16 × List UInt8)
  | hi :: lo :: r => some (joinU16 hi lo, r)
  | _ => none

/-- `UInt8::read_from` into an uninitialised local whose result is used without checking the return value. -/
def getU8 (view : List UInt8) : CM (UInt8 × List UInt8) :=
  match readU8 view with
  | none => .ub
  | some x => .ret x

/-- `UInt16::read_from` into an uninitialised local whose result is used without checking the return value. -/
def getU16 (view : List UInt8) : CM (UInt16 × List UInt8) :=
  match readU16 view with
  | none => .ub
  | some x => .ret x

/-- `ser4cpp::wseq_t` over a buffer: `done` are the bytes before the write position, `rest` the (old) memory content
from the write position to the end of the buffer.  `done ++ rest` is the buffer memory. -/
structure WSeq where
  done : List UInt8
  rest : List UInt8
deriving DecidableEq, Repr

namespace WSeq

/-- Contents of the whole buffer the view was created from. -/
def mem (w : WSeq) : List UInt8 := w.done ++ w.rest

/-- `ser4cpp::UInt8::write_to`: writes nothing when there is no room. -/
def writeU8 (w : WSeq) (b : UInt8) : WSeq :=
  match w.rest with
  | [] => w
  | _ :: r => ⟨w.done ++ [b], r⟩

/-- `ser4cpp::UInt16::write_to`: writes nothing when there is no room for both bytes. -/
def writeU16 (w : WSeq) (v : UInt16) : WSeq :=
  match w.rest with
  | _ :: _ :: r => ⟨w.done ++ [hiByte v, loByte v], r⟩
  | _ => w

end WSeq

/-- What `ser4cpp::wseq_t::copy_from` does with a source longer than the remaining room.  The library is not part
of /repo; `reject` (copy nothing) is our reading of ser4cpp, `truncate` (copy what fits) the other memory-safe
possibility.  All theorems about the parser hold for both unless they name one. -/
inductive CopyPolicy where
  | reject
  | truncate
deriving DecidableEq, Repr

/-- `ser4cpp::wseq_t::copy_from`. -/
def WSeq.copyFrom (pol : CopyPolicy) (w : WSeq) (src : List UInt8) : WSeq :=
  if src.length ≤ w.rest.length then
    ⟨w.done ++ src, w.rest.drop src.length⟩
  else
    match pol with
    | .reject => w
    | .truncate => ⟨w.done ++ src.take w.rest.length, []⟩

end Modbus
