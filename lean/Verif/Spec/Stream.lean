import Verif.Spec.Pdu

/-!
Independent specification of MBAP streams ("MODBUS Messaging on TCP/IP Implementation Guide V1.0b", section 3.1.3):
a stream is a concatenation of frames, each a 7-byte header (transaction id, protocol id, length, unit id) followed by
the rest of the `length` bytes announced (the unit id is the first of them).
-/

namespace Modbus.Spec

/-- One frame on the wire. -/
structure Frame where
  tid : UInt16
  proto : UInt16
  len : UInt16
  unit : UInt8
  body : List UInt8
deriving DecidableEq, Repr

namespace Frame

/-- The frame has as many bytes as its length field says (a zero length field announces nothing: header only). -/
def Complete (f : Frame) : Prop := f.body.length = f.len.toNat - 1

/-- The bytes of a frame. -/
def bytes (f : Frame) : List UInt8 := be f.tid.toNat ++ be f.proto.toNat ++ be f.len.toNat ++ f.unit :: f.body

/-- Frames carrying a Modbus message: protocol id 0 and a length covering at least the unit id. -/
def isModbus (f : Frame) : Bool := f.proto == 0 && f.len != 0

/-- The frame's length field announces at most 253 bytes of PDU (the Modbus limit). -/
def Fits (f : Frame) : Prop := f.len.toNat ≤ 254

/-- The message carried. -/
def message (f : Frame) : Mbap := ⟨f.unit, f.tid, f.body⟩

end Frame

/-- The frame for sending a message. -/
def frameOf (m : Mbap) : Frame := ⟨m.tid, 0, UInt16.ofNat (m.data.length + 1), m.unit, m.data⟩

/-- Concatenation of frames. -/
def streamOf (fs : List Frame) : List UInt8 := fs.flatMap Frame.bytes

/-- `pend` does not contain a complete frame at its beginning. -/
def Incomplete (pend : List UInt8) : Prop := ∀ f : Frame, f.Complete → ¬ f.bytes <+: pend

/-- `s` consists of the complete frames `fs` followed by the incomplete `pend`. -/
structure Splits (s : List UInt8) (fs : List Frame) (pend : List UInt8) : Prop where
  complete : ∀ f ∈ fs, f.Complete
  incomplete : Incomplete pend
  eq : s = streamOf fs ++ pend

end Modbus.Spec
