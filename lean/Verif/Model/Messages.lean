import Verif.Model.Bytes

/-!
Model of the PDU codecs: lib/src/messages/*.cpp
-/

namespace Modbus

/-- `class IMessage` as used by the MBAP layer: `get_message_length` and `build_message`
(lib/src/messages/IMessage.h). -/
structure Msg where
  length : Nat
  build : WSeq → WSeq

/-! ### Exceptions -/

/-- Numeric values of `enum class ExceptionType`, lib/include/modbus/messages/ExceptionType.h:34-113. -/
def ExceptionType.toByte : ExceptionType → UInt8
  | .illegalFunction => 0x01
  | .illegalDataAddress => 0x02
  | .illegalDataValue => 0x03
  | .serverDeviceFailure => 0x04
  | .acknowledge => 0x05
  | .serverDeviceBusy => 0x06
  | .memoryParityError => 0x07
  | .gatewayPathUnavailable => 0x0A
  | .gatewayTargetDeviceFailedToRespond => 0x0B
  | .unknown => 0x0C

/-- `parse_exception_type`, lib/src/messages/ExceptionType.cpp:21-46. -/
def parseExceptionType (code : UInt8) : ExceptionType :=
  if code = 0x01 then .illegalFunction
  else if code = 0x02 then .illegalDataAddress
  else if code = 0x03 then .illegalDataValue
  else if code = 0x04 then .serverDeviceFailure
  else if code = 0x05 then .acknowledge
  else if code = 0x06 then .serverDeviceBusy
  else if code = 0x08 then .memoryParityError
  else if code = 0x0A then .gatewayPathUnavailable
  else if code = 0x0B then .gatewayTargetDeviceFailedToRespond
  else .unknown

/-- `ExceptionResponse`, lib/src/messages/ExceptionResponse.cpp:40-49. -/
def exceptionMsg (fc : UInt8) (t : ExceptionType) : Msg where
  length := 2
  build w := (w.writeU8 (fc ||| 0x80)).writeU8 t.toByte

/-- `IMessage::parse_function_code`, lib/src/messages/IMessage.cpp:25-57.  On success returns the advanced view. -/
def parseFunctionCode (fc : UInt8) (data : List UInt8) : CM (Expected (List UInt8)) :=
  if data.length < 1 then
    .ret (.error .malformedResponse)
  else do
    let (c, data) ← getU8 data
    if (c &&& 0x7F) ≠ fc then
      return .error .malformedResponse
    else if (c &&& 0x80) ≠ 0 then
      if data.length ≠ 1 then
        return .error .malformedResponse
      else do
        let (code, _) ← getU8 data
        return .error (.modbus (parseExceptionType code))
    else
      return .ok data

/-! ### Read requests -/

/-- `max_bits`, lib/include/modbus/messages/ReadCoilsRequest.h:44, ReadDiscreteInputsRequest.h:44 (used by `is_valid`). -/
def maxBits : UInt16 := 2000
/-- `ReadBitsRequestImpl::max_bits`, lib/src/messages/ReadBitsRequestImpl.h:42 (used by `parse`). -/
def maxBitsImpl : UInt16 := 2000
/-- `max_registers`, lib/include/modbus/messages/ReadHoldingRegistersRequest.h:44, ReadInputRegistersRequest.h:44. -/
def maxReadRegs : UInt16 := 125
/-- `ReadRegistersRequestImpl::max_registers`, lib/src/messages/ReadRegistersRequestImpl.h:41. -/
def maxReadRegsImpl : UInt16 := 125
/-- `max_coils`, lib/include/modbus/messages/WriteMultipleCoilsRequest.h:45. -/
def maxCoils : UInt16 := 1968
/-- `max_registers`, lib/include/modbus/messages/WriteMultipleRegistersRequest.h:45. -/
def maxWriteRegs : UInt16 := 123

/-- `is_valid`: ReadBitsRequestImpl.cpp:39-43 (max 2000) and ReadRegistersRequestImpl.cpp:33-37 (max 125). -/
def readReqValid (mx : UInt16) (r : ReadReq) : Bool :=
  decide (r.qty > 0) && decide (r.qty ≤ mx)

/-- `get_message_length` / `build_message`: ReadBitsRequestImpl.cpp:46-57, ReadRegistersRequestImpl.cpp:46-57. -/
def readReqMsg (fc : UInt8) (r : ReadReq) : Msg where
  length := 5
  build w := ((w.writeU8 fc).writeU16 r.start).writeU16 r.qty

/-- `parse`: ReadBitsRequestImpl.cpp:66-102, ReadRegistersRequestImpl.cpp:66-102. -/
def parseReadReq (fc : UInt8) (mx : UInt16) (data : List UInt8) : CM (Expected ReadReq) :=
  if data.length ≠ 5 then
    .ret (.error .malformedRequest)
  else do
    let (c, view) ← getU8 data
    if c ≠ fc then
      return .error .malformedRequest
    else do
      let (start, view) ← getU16 view
      let (qty, _) ← getU16 view
      if qty < 1 ∨ qty > mx then
        return .error (.modbus .illegalDataValue)
      else
        return .ok ⟨start, qty⟩

/-! ### Bits -/

/-- `size_t` subtraction (wraps around modulo 2^64). -/
def subSizeT (a b : Nat) : Nat := if b ≤ a then a - b else a + 2 ^ 64 - b

/-- `get_byte_count_from_qty_of_outputs`, WriteMultipleCoilsRequestImpl.cpp:145-154; the same computation is inlined in
ReadBitsResponseImpl.cpp:46-50 and 114-118. -/
def byteCount (qty : Nat) : Nat :=
  if qty % 8 ≠ 0 then qty / 8 + 1 else qty / 8

/-- `static_cast<bool>((current_value >> i) & 0x01)`, ReadBitsResponseImpl.cpp:138, WriteMultipleCoilsRequestImpl.cpp:137. -/
def bitOf (b : UInt8) (i : Nat) : Bool := ((b.toNat >>> i) &&& 0x01) != 0

/-- Loop of ReadBitsResponseImpl.cpp:61-82: packs values LSB first.
Arguments: remaining values, `current_byte`, `current_offset`, buffer. -/
def packLoop : List Bool → UInt8 → Nat → WSeq → WSeq
  | [], cur, off, w => if off ≠ 0 then w.writeU8 cur else w
  | v :: vs, cur, off, w =>
    let cur := if v then cur ||| UInt8.ofNat (1 <<< off) else cur
    let off := off + 1
    if off = 8 then packLoop vs 0x00 0 (w.writeU8 cur) else packLoop vs cur off w

/-- Inner loop of WriteMultipleCoilsRequestImpl.cpp:61-70.  First argument: iterations left (`8 - j`);
returns `value` and `current_bit`. -/
def coilByteLoop (values : List Bool) : Nat → (j current_bit : Nat) → UInt8 → UInt8 × Nat
  | 0, _, current_bit, value => (value, current_bit)
  | n + 1, j, current_bit, value =>
    if h : current_bit < values.length then
      coilByteLoop values n (j + 1) (current_bit + 1)
        (value ||| UInt8.ofNat ((values[current_bit]).toNat <<< j))
    else
      (value, current_bit)

/-- Outer loop of WriteMultipleCoilsRequestImpl.cpp:57-73.  First argument: iterations left. -/
def coilBytesLoop (values : List Bool) : Nat → (current_bit : Nat) → WSeq → WSeq
  | 0, _, w => w
  | n + 1, current_bit, w =>
    let (value, current_bit) := coilByteLoop values 8 0 current_bit 0x00
    coilBytesLoop values n current_bit (w.writeU8 value)

/-- Inner loop of ReadBitsResponseImpl.cpp:136-141.  First argument: iterations left.
Returns `current_address` and `response.values`. -/
def extractBitVals (b : UInt8) : Nat → (i : Nat) → UInt16 → List BitVal → UInt16 × List BitVal
  | 0, _, addr, acc => (addr, acc)
  | n + 1, i, addr, acc => extractBitVals b n (i + 1) (addr + 1) (acc ++ [⟨addr, bitOf b i⟩])

/-- Outer loop of ReadBitsResponseImpl.cpp:126-142. -/
def unpackBitVals (qty : Nat) : List UInt8 → UInt16 → List BitVal → List BitVal
  | [], _, acc => acc
  | b :: view, addr, acc =>
    let n := subSizeT qty acc.length
    let n := if n > 8 then 8 else n
    let (addr, acc) := extractBitVals b n 0 addr acc
    unpackBitVals qty view addr acc

/-- Inner loop of WriteMultipleCoilsRequestImpl.cpp:135-139.  First argument: iterations left. -/
def extractBits (b : UInt8) : Nat → (i : Nat) → List Bool → List Bool
  | 0, _, acc => acc
  | n + 1, i, acc => extractBits b n (i + 1) (acc ++ [bitOf b i])

/-- Outer loop of WriteMultipleCoilsRequestImpl.cpp:126-140. -/
def unpackBits (qty : Nat) : List UInt8 → List Bool → List Bool
  | [], acc => acc
  | b :: view, acc =>
    let n := subSizeT qty acc.length
    let n := if n > 8 then 8 else n
    unpackBits qty view (extractBits b n 0 acc)

/-! ### Read bits response -/

/-- `ReadBitsResponseImpl::get_message_length` / `build_message`, ReadBitsResponseImpl.cpp:44-83. -/
def bitsRespMsg (fc : UInt8) (values : List BitVal) : Msg where
  length := 2 + byteCount values.length
  build w :=
    packLoop (values.map (·.value)) 0x00 0
      ((w.writeU8 fc).writeU8 (UInt8.ofNat (2 + byteCount values.length - 2)))

/-- `ReadBitsResponseImpl::parse`, ReadBitsResponseImpl.cpp:87-145. -/
def parseBitsResp (fc : UInt8) (req : ReadReq) (data : List UInt8) : CM (Expected (List BitVal)) := do
  let r ← parseFunctionCode fc data
  match r with
  | .error e => return .error e
  | .ok view =>
    if view.length < 1 then
      return .error .malformedResponse
    else do
      let (length, view) ← getU8 view
      if view.length ≠ length.toNat then
        return .error .malformedResponse
      else if length.toNat ≠ byteCount req.qty.toNat then
        return .error .malformedResponse
      else
        return .ok (unpackBitVals req.qty.toNat view req.start [])

/-! ### Read registers response -/

/-- Loop of ReadRegistersResponseImpl.cpp:56-59 and WriteMultipleRegistersRequestImpl.cpp:55-58. -/
def writeRegs : List UInt16 → WSeq → WSeq
  | [], w => w
  | v :: vs, w => writeRegs vs (w.writeU16 v)

/-- Loop of ReadRegistersResponseImpl.cpp:96-102. -/
def readRegVals : List UInt8 → UInt16 → List RegVal
  | hi :: lo :: view, addr => ⟨addr, joinU16 hi lo⟩ :: readRegVals view (addr + 1)
  | _, _ => []

/-- Loop of WriteMultipleRegistersRequestImpl.cpp:111-115. -/
def readRegs : List UInt8 → List UInt16
  | hi :: lo :: view => joinU16 hi lo :: readRegs view
  | _ => []

/-- `ReadRegistersResponseImpl::get_message_length` / `build_message`, ReadRegistersResponseImpl.cpp:44-60. -/
def regsRespMsg (fc : UInt8) (values : List RegVal) : Msg where
  length := 2 + values.length * 2
  build w :=
    writeRegs (values.map (·.value))
      ((w.writeU8 fc).writeU8 (UInt8.ofNat (2 + values.length * 2 - 2)))

/-- `ReadRegistersResponseImpl::parse`, ReadRegistersResponseImpl.cpp:64-105. -/
def parseRegsResp (fc : UInt8) (req : ReadReq) (data : List UInt8) : CM (Expected (List RegVal)) := do
  let r ← parseFunctionCode fc data
  match r with
  | .error e => return .error e
  | .ok view =>
    if view.length < 1 then
      return .error .malformedResponse
    else do
      let (length, view) ← getU8 view
      if length.toNat % 2 ≠ 0 then
        return .error .malformedResponse
      else if view.length ≠ 2 * req.qty.toNat then
        return .error .malformedResponse
      else
        return .ok (readRegVals view req.start)

/-! ### Write single coil -/

/-- `WriteSingleCoilRequestImpl::ON`, lib/src/messages/WriteSingleCoilRequestImpl.h:28. -/
def coilOn : UInt16 := 0xFF00
/-- `WriteSingleCoilRequestImpl::OFF`, lib/src/messages/WriteSingleCoilRequestImpl.h:29. -/
def coilOff : UInt16 := 0x0000

/-- WriteSingleCoilRequestImpl.cpp:41-57 and WriteSingleCoilResponseImpl.cpp:40-56 (identical code). -/
def singleCoilMsg (v : BitVal) : Msg where
  length := 5
  build w := ((w.writeU8 0x05).writeU16 v.addr).writeU16 (if v.value = true then coilOn else coilOff)

/-- `WriteSingleCoilRequestImpl::parse`, WriteSingleCoilRequestImpl.cpp:64-109. -/
def parseSingleCoilReq (data : List UInt8) : CM (Expected BitVal) :=
  if data.length ≠ 5 then
    .ret (.error .malformedRequest)
  else do
    let (c, view) ← getU8 data
    if c ≠ 0x05 then
      return .error .malformedRequest
    else do
      let (addr, view) ← getU16 view
      let (value, _) ← getU16 view
      if value = coilOn then return .ok ⟨addr, true⟩
      else if value = coilOff then return .ok ⟨addr, false⟩
      else return .error (.modbus .illegalDataValue)

/-- `WriteSingleCoilResponseImpl::parse`, WriteSingleCoilResponseImpl.cpp:58-103 (`req` is unused in the code). -/
def parseSingleCoilResp (_req : BitVal) (data : List UInt8) : CM (Expected BitVal) := do
  let r ← parseFunctionCode 0x05 data
  match r with
  | .error e => return .error e
  | .ok view =>
    if view.length ≠ 4 then
      return .error .malformedResponse
    else do
      let (addr, view) ← getU16 view
      let (value, _) ← getU16 view
      if value = coilOn then return .ok ⟨addr, true⟩
      else if value = coilOff then return .ok ⟨addr, false⟩
      else return .error .malformedResponse

/-! ### Write single register -/

/-- WriteSingleRegisterRequestImpl.cpp:40-50 and WriteSingleRegisterResponseImpl.cpp:40-50 (identical code). -/
def singleRegMsg (v : RegVal) : Msg where
  length := 5
  build w := ((w.writeU8 0x06).writeU16 v.addr).writeU16 v.value

/-- `WriteSingleRegisterRequestImpl::parse`, WriteSingleRegisterRequestImpl.cpp:57-86. -/
def parseSingleRegReq (data : List UInt8) : CM (Expected RegVal) :=
  if data.length ≠ 5 then
    .ret (.error .malformedRequest)
  else do
    let (c, view) ← getU8 data
    if c ≠ 0x06 then
      return .error .malformedRequest
    else do
      let (addr, view) ← getU16 view
      let (value, _) ← getU16 view
      return .ok ⟨addr, value⟩

/-- `WriteSingleRegisterResponseImpl::parse`, WriteSingleRegisterResponseImpl.cpp:52-81 (`req` is unused). -/
def parseSingleRegResp (_req : RegVal) (data : List UInt8) : CM (Expected RegVal) := do
  let r ← parseFunctionCode 0x06 data
  match r with
  | .error e => return .error e
  | .ok view =>
    if view.length ≠ 4 then
      return .error .malformedResponse
    else do
      let (addr, view) ← getU16 view
      let (value, _) ← getU16 view
      return .ok ⟨addr, value⟩

/-! ### Write multiple coils -/

/-- `WriteMultipleCoilsRequestImpl::is_valid`, WriteMultipleCoilsRequestImpl.cpp:36-40. -/
def writeCoilsValid (r : WriteCoilsReq) : Bool :=
  decide (r.values.length > 0) && decide (r.values.length ≤ maxCoils.toNat)

/-- `get_message_length` / `build_message`, WriteMultipleCoilsRequestImpl.cpp:42-74. -/
def writeCoilsMsg (r : WriteCoilsReq) : Msg where
  length := 6 + byteCount r.values.length
  build w :=
    let num_bytes := byteCount r.values.length
    coilBytesLoop r.values num_bytes 0
      ((((w.writeU8 0x0F).writeU16 r.start).writeU16 (UInt16.ofNat r.values.length)).writeU8 (UInt8.ofNat num_bytes))

/-- `WriteMultipleCoilsRequestImpl::parse`, WriteMultipleCoilsRequestImpl.cpp:81-143. -/
def parseWriteCoilsReq (data : List UInt8) : CM (Expected WriteCoilsReq) :=
  if data.length < 6 then
    .ret (.error .malformedRequest)
  else do
    let (c, view) ← getU8 data
    if c ≠ 0x0F then
      return .error .malformedRequest
    else do
      let (start, view) ← getU16 view
      let (qty, view) ← getU16 view
      if qty < 0x0001 ∨ qty > maxCoils then
        return .error (.modbus .illegalDataValue)
      else do
        let (byte_count, view) ← getU8 view
        if byteCount qty.toNat ≠ byte_count.toNat then
          return .error (.modbus .illegalDataValue)
        else if byte_count.toNat ≠ view.length then
          return .error .malformedRequest
        else
          return .ok ⟨start, unpackBits qty.toNat view []⟩

/-! ### Write multiple registers -/

/-- `WriteMultipleRegistersRequestImpl::is_valid`, WriteMultipleRegistersRequestImpl.cpp:36-40. -/
def writeRegsValid (r : WriteRegsReq) : Bool :=
  decide (r.values.length > 0) && decide (r.values.length ≤ maxWriteRegs.toNat)

/-- `get_message_length` / `build_message`, WriteMultipleRegistersRequestImpl.cpp:42-59. -/
def writeRegsMsg (r : WriteRegsReq) : Msg where
  length := 6 + 2 * r.values.length
  build w :=
    writeRegs r.values
      ((((w.writeU8 0x10).writeU16 r.start).writeU16 (UInt16.ofNat r.values.length)).writeU8
        (UInt8.ofNat (2 * r.values.length)))

/-- `WriteMultipleRegistersRequestImpl::parse`, WriteMultipleRegistersRequestImpl.cpp:66-118. -/
def parseWriteRegsReq (data : List UInt8) : CM (Expected WriteRegsReq) :=
  if data.length < 6 then
    .ret (.error .malformedRequest)
  else do
    let (c, view) ← getU8 data
    if c ≠ 0x10 then
      return .error .malformedRequest
    else do
      let (start, view) ← getU16 view
      let (qty, view) ← getU16 view
      if qty < 0x0001 ∨ qty > maxWriteRegs then
        return .error (.modbus .illegalDataValue)
      else do
        let (byte_count, view) ← getU8 view
        if 2 * qty.toNat ≠ byte_count.toNat then
          return .error (.modbus .illegalDataValue)
        else if byte_count.toNat ≠ view.length then
          return .error .malformedRequest
        else
          return .ok ⟨start, readRegs view⟩

/-! ### Write multiple responses -/

/-- WriteMultipleCoilsResponseImpl.cpp:40-50 (fc 0x0F), WriteMultipleRegistersResponseImpl.cpp:40-50 (fc 0x10). -/
def writeMultiRespMsg (fc : UInt8) (r : WriteMultiResp) : Msg where
  length := 5
  build w := ((w.writeU8 fc).writeU16 r.start).writeU16 r.qty

/-- `parse`: WriteMultipleCoilsResponseImpl.cpp:52-81, WriteMultipleRegistersResponseImpl.cpp:52-81 (`req` is unused). -/
def parseWriteMultiResp (fc : UInt8) (data : List UInt8) : CM (Expected WriteMultiResp) := do
  let r ← parseFunctionCode fc data
  match r with
  | .error e => return .error e
  | .ok view =>
    if view.length ≠ 4 then
      return .error .malformedResponse
    else do
      let (start, view) ← getU16 view
      let (qty, _) ← getU16 view
      return .ok ⟨start, qty⟩

/-! ### The eight message types together (template instantiations / overload sets) -/

/-- `TRequestImpl::is_valid` (see the per-type definitions); single writes: WriteSingleCoilRequestImpl.cpp:36-39,
WriteSingleRegisterRequestImpl.cpp:35-38. -/
def isValid : (k : Kind) → Req k → Bool
  | .readCoils, r => readReqValid maxBits r
  | .readDiscreteInputs, r => readReqValid maxBits r
  | .readHoldingRegisters, r => readReqValid maxReadRegs r
  | .readInputRegisters, r => readReqValid maxReadRegs r
  | .writeSingleCoil, _ => true
  | .writeSingleRegister, _ => true
  | .writeMultipleCoils, r => writeCoilsValid r
  | .writeMultipleRegisters, r => writeRegsValid r

/-- `TRequestImpl` as `IMessage` (see the per-type definitions). -/
def reqMsg : (k : Kind) → Req k → Msg
  | .readCoils, r => readReqMsg 0x01 r
  | .readDiscreteInputs, r => readReqMsg 0x02 r
  | .readHoldingRegisters, r => readReqMsg 0x03 r
  | .readInputRegisters, r => readReqMsg 0x04 r
  | .writeSingleCoil, r => singleCoilMsg r
  | .writeSingleRegister, r => singleRegMsg r
  | .writeMultipleCoils, r => writeCoilsMsg r
  | .writeMultipleRegisters, r => writeRegsMsg r

/-- `TRequestImpl::parse` (see the per-type definitions). -/
def parseReq : (k : Kind) → List UInt8 → CM (Expected (Req k))
  | .readCoils, d => parseReadReq 0x01 maxBitsImpl d
  | .readDiscreteInputs, d => parseReadReq 0x02 maxBitsImpl d
  | .readHoldingRegisters, d => parseReadReq 0x03 maxReadRegsImpl d
  | .readInputRegisters, d => parseReadReq 0x04 maxReadRegsImpl d
  | .writeSingleCoil, d => parseSingleCoilReq d
  | .writeSingleRegister, d => parseSingleRegReq d
  | .writeMultipleCoils, d => parseWriteCoilsReq d
  | .writeMultipleRegisters, d => parseWriteRegsReq d

/-- `TResponseImpl` as `IMessage` (see the per-type definitions). -/
def respMsg : (k : Kind) → Resp k → Msg
  | .readCoils, r => bitsRespMsg 0x01 r
  | .readDiscreteInputs, r => bitsRespMsg 0x02 r
  | .readHoldingRegisters, r => regsRespMsg 0x03 r
  | .readInputRegisters, r => regsRespMsg 0x04 r
  | .writeSingleCoil, r => singleCoilMsg r
  | .writeSingleRegister, r => singleRegMsg r
  | .writeMultipleCoils, r => writeMultiRespMsg 0x0F r
  | .writeMultipleRegisters, r => writeMultiRespMsg 0x10 r

/-- `TResponseImpl::parse(request, data)` (see the per-type definitions). -/
def parseResp : (k : Kind) → Req k → List UInt8 → CM (Expected (Resp k))
  | .readCoils, q, d => parseBitsResp 0x01 q d
  | .readDiscreteInputs, q, d => parseBitsResp 0x02 q d
  | .readHoldingRegisters, q, d => parseRegsResp 0x03 q d
  | .readInputRegisters, q, d => parseRegsResp 0x04 q d
  | .writeSingleCoil, q, d => parseSingleCoilResp q d
  | .writeSingleRegister, q, d => parseSingleRegResp q d
  | .writeMultipleCoils, _, d => parseWriteMultiResp 0x0F d
  | .writeMultipleRegisters, _, d => parseWriteMultiResp 0x10 d

end Modbus
