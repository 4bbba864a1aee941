import Verif.Types

/-!
Independent specification of the Modbus application protocol PDUs ("MODBUS Application Protocol Specification V1.1b3",
sections 6.1-6.6, 6.11, 6.12, 7), written with natural-number arithmetic only.  Nothing here refers to the model.
-/

namespace Modbus.Spec

/-- A 16-bit field on the wire: most significant byte first. -/
def be (n : Nat) : List UInt8 := [UInt8.ofNat (n / 256), UInt8.ofNat (n % 256)]

/-- Number of bytes needed for `n` bits. -/
def bytesFor (n : Nat) : Nat := (n + 7) / 8

/-- Bit `i` of a packed bit field: bit `i mod 8` (weight `2^(i mod 8)`) of byte `i / 8`; `none` outside. -/
def bit? (bytes : List UInt8) (i : Nat) : Option Bool :=
  (bytes[i / 8]?).map fun b => b.toNat.testBit (i % 8)

/-- `bytes` is the packed form of `bits`: the right number of bytes, bit `i` is the `i`-th value,
padding bits are zero. -/
structure Packs (bits : List Bool) (bytes : List UInt8) : Prop where
  length_eq : bytes.length = bytesFor bits.length
  bit_eq : ∀ i, i < 8 * bytes.length → bit? bytes i = some (bits[i]?.getD false)

/-- The first `n` bits of `bytes` are exactly `bits` (padding bits are not constrained). -/
structure FirstBits (n : Nat) (bytes : List UInt8) (bits : List Bool) : Prop where
  bits_length : bits.length = n
  bytes_length : bytes.length = bytesFor n
  bit_eq : ∀ i, i < n → bit? bytes i = bits[i]?

/-- Registers on the wire. -/
def regBytes (rs : List UInt16) : List UInt8 := rs.flatMap fun r => be r.toNat

/-- Function code of each request. -/
def fc : Kind → UInt8
  | .readCoils => 1
  | .readDiscreteInputs => 2
  | .readHoldingRegisters => 3
  | .readInputRegisters => 4
  | .writeSingleCoil => 5
  | .writeSingleRegister => 6
  | .writeMultipleCoils => 15
  | .writeMultipleRegisters => 16

/-- Value field of a single coil write. -/
def coilWord (b : Bool) : Nat := if b then 0xFF00 else 0

/-- Largest quantity allowed in a request of each kind. -/
def maxQty : Kind → Nat
  | .readCoils => 2000
  | .readDiscreteInputs => 2000
  | .readHoldingRegisters => 125
  | .readInputRegisters => 125
  | .writeSingleCoil => 1
  | .writeSingleRegister => 1
  | .writeMultipleCoils => 1968
  | .writeMultipleRegisters => 123

/-- Number of points a request is about. -/
def qty : (k : Kind) → Req k → Nat
  | .readCoils, r => r.qty.toNat
  | .readDiscreteInputs, r => r.qty.toNat
  | .readHoldingRegisters, r => r.qty.toNat
  | .readInputRegisters, r => r.qty.toNat
  | .writeSingleCoil, _ => 1
  | .writeSingleRegister, _ => 1
  | .writeMultipleCoils, r => r.values.length
  | .writeMultipleRegisters, r => r.values.length

/-- First address a request is about. -/
def addr : (k : Kind) → Req k → UInt16
  | .readCoils, r => r.start
  | .readDiscreteInputs, r => r.start
  | .readHoldingRegisters, r => r.start
  | .readInputRegisters, r => r.start
  | .writeSingleCoil, r => r.addr
  | .writeSingleRegister, r => r.addr
  | .writeMultipleCoils, r => r.start
  | .writeMultipleRegisters, r => r.start

/-- A request is in range when its quantity is between 1 and the limit. -/
def InRange (k : Kind) (r : Req k) : Prop := 1 ≤ qty k r ∧ qty k r ≤ maxQty k

/-- `RequestPdu k r bytes`: `bytes` is the PDU the protocol prescribes for sending request `r`. -/
def RequestPdu : (k : Kind) → Req k → List UInt8 → Prop
  | .readCoils, r, d => d = 1 :: (be r.start.toNat ++ be r.qty.toNat)
  | .readDiscreteInputs, r, d => d = 2 :: (be r.start.toNat ++ be r.qty.toNat)
  | .readHoldingRegisters, r, d => d = 3 :: (be r.start.toNat ++ be r.qty.toNat)
  | .readInputRegisters, r, d => d = 4 :: (be r.start.toNat ++ be r.qty.toNat)
  | .writeSingleCoil, r, d => d = 5 :: (be r.addr.toNat ++ be (coilWord r.value))
  | .writeSingleRegister, r, d => d = 6 :: (be r.addr.toNat ++ be r.value.toNat)
  | .writeMultipleCoils, r, d => ∃ body, Packs r.values body ∧
      d = 15 :: (be r.start.toNat ++ be r.values.length ++ UInt8.ofNat (bytesFor r.values.length) :: body)
  | .writeMultipleRegisters, r, d =>
      d = 16 :: (be r.start.toNat ++ be r.values.length ++ UInt8.ofNat (2 * r.values.length) :: regBytes r.values)

/-- `Denotes k bytes r`: `bytes` is a conformant request PDU of kind `k` and its meaning is `r`.  It differs from
`RequestPdu` only in that receivers do not care about the padding bits of packed coils. -/
def Denotes : (k : Kind) → List UInt8 → Req k → Prop
  | .writeMultipleCoils, d, r => InRange .writeMultipleCoils r ∧ ∃ body, FirstBits r.values.length body r.values ∧
      d = 15 :: (be r.start.toNat ++ be r.values.length ++ UInt8.ofNat (bytesFor r.values.length) :: body)
  | k, d, r => InRange k r ∧ RequestPdu k r d

/-- `OutOfRange k bytes`: the PDU is structurally sound up to and including its first quantity, byte count or coil value
field that has a forbidden value. -/
def OutOfRange : (k : Kind) → List UInt8 → Prop
  | .writeSingleCoil, d => ∃ a v : UInt16, d = 5 :: (be a.toNat ++ be v.toNat) ∧ v ≠ 0xFF00 ∧ v ≠ 0
  | .writeSingleRegister, _ => False
  | .writeMultipleCoils, d => ∃ (a q : UInt16) (bc : UInt8) (rest : List UInt8),
      d = 15 :: (be a.toNat ++ be q.toNat ++ bc :: rest) ∧
      ((q = 0 ∨ 1968 < q.toNat) ∨ bc.toNat ≠ bytesFor q.toNat)
  | .writeMultipleRegisters, d => ∃ (a q : UInt16) (bc : UInt8) (rest : List UInt8),
      d = 16 :: (be a.toNat ++ be q.toNat ++ bc :: rest) ∧
      ((q = 0 ∨ 123 < q.toNat) ∨ bc.toNat ≠ 2 * q.toNat)
  | k, d => ∃ a q : UInt16, d = fc k :: (be a.toNat ++ be q.toNat) ∧ (q = 0 ∨ maxQty k < q.toNat)

/-- Addresses are 16 bits wide: the `i`-th address after `a` (modulo 2^16). -/
def nthAddr (a : UInt16) (i : Nat) : UInt16 := UInt16.ofNat (a.toNat + i)

/-- `vs` labels `bits` with consecutive addresses from `a`. -/
def labelBits (a : UInt16) (bits : List Bool) : List BitVal :=
  bits.mapIdx fun i b => ⟨nthAddr a i, b⟩

/-- `vs` labels `regs` with consecutive addresses from `a`. -/
def labelRegs (a : UInt16) (regs : List UInt16) : List RegVal :=
  regs.mapIdx fun i r => ⟨nthAddr a i, r⟩

/-- `ResponsePdu k r bytes`: `bytes` is the PDU the protocol prescribes for answering with `r`
(for reads only the values travel, not the addresses). -/
def ResponsePdu : (k : Kind) → Resp k → List UInt8 → Prop
  | .readCoils, r, d => ∃ body, Packs (r.map (·.value)) body ∧ d = 1 :: UInt8.ofNat (bytesFor r.length) :: body
  | .readDiscreteInputs, r, d => ∃ body, Packs (r.map (·.value)) body ∧ d = 2 :: UInt8.ofNat (bytesFor r.length) :: body
  | .readHoldingRegisters, r, d => d = 3 :: UInt8.ofNat (2 * r.length) :: regBytes (r.map (·.value))
  | .readInputRegisters, r, d => d = 4 :: UInt8.ofNat (2 * r.length) :: regBytes (r.map (·.value))
  | .writeSingleCoil, r, d => d = 5 :: (be r.addr.toNat ++ be (coilWord r.value))
  | .writeSingleRegister, r, d => d = 6 :: (be r.addr.toNat ++ be r.value.toNat)
  | .writeMultipleCoils, r, d => d = 15 :: (be r.start.toNat ++ be r.qty.toNat)
  | .writeMultipleRegisters, r, d => d = 16 :: (be r.start.toNat ++ be r.qty.toNat)

/-- `r` has as many values as `q` asked for, labelled with the requested addresses (reads);
no condition for writes. -/
def Answers : (k : Kind) → Req k → Resp k → Prop
  | .readCoils, q, r => ∃ bits : List Bool, bits.length = q.qty.toNat ∧ r = labelBits q.start bits
  | .readDiscreteInputs, q, r => ∃ bits : List Bool, bits.length = q.qty.toNat ∧ r = labelBits q.start bits
  | .readHoldingRegisters, q, r => ∃ regs : List UInt16, regs.length = q.qty.toNat ∧ r = labelRegs q.start regs
  | .readInputRegisters, q, r => ∃ regs : List UInt16, regs.length = q.qty.toNat ∧ r = labelRegs q.start regs
  | .writeSingleCoil, _, _ => True
  | .writeSingleRegister, _, _ => True
  | .writeMultipleCoils, _, _ => True
  | .writeMultipleRegisters, _, _ => True

/-- The response echoes the request (writes). -/
def Echoes : (k : Kind) → Req k → Resp k → Prop
  | .writeSingleCoil, q, r => r = q
  | .writeSingleRegister, q, r => r = q
  | .writeMultipleCoils, q, r => r.start = q.start ∧ r.qty.toNat = q.values.length
  | .writeMultipleRegisters, q, r => r.start = q.start ∧ r.qty.toNat = q.values.length
  | _, _, _ => True

/-- Exception codes assigned by the Modbus specification, section 7. -/
def exceptionOfCode (c : UInt8) : ExceptionType :=
  match c.toNat with
  | 1 => .illegalFunction
  | 2 => .illegalDataAddress
  | 3 => .illegalDataValue
  | 4 => .serverDeviceFailure
  | 5 => .acknowledge
  | 6 => .serverDeviceBusy
  | 8 => .memoryParityError
  | 10 => .gatewayPathUnavailable
  | 11 => .gatewayTargetDeviceFailedToRespond
  | _ => .unknown

end Modbus.Spec
