import Verif.Lemmas.Codec

/-!
Properties C01-C13: PDU encoding and decoding.

`WSeq` is a writable view on a buffer: `w.done` is what is already written in front of the write position, `w.rest` the
memory behind it.  A message "writes `pdu`" when building it appends exactly `pdu` to `w.done`.
-/

namespace Modbus.Props

/-- Building `m` into any buffer with enough room appends exactly `pdu`, and `pdu` has the announced length. -/
def Emits (m : Msg) (pdu : List UInt8) : Prop :=
  m.length = pdu.length ∧
  ∀ w : WSeq, pdu.length ≤ w.rest.length → m.build w = ⟨w.done ++ pdu, w.rest.drop pdu.length⟩

theorem emits_of_writes {m : Msg} {pdu : List UInt8} (h : m.Writes pdu) : Emits m pdu :=
  ⟨h.length_eq, fun w hw => h.build_eq w hw⟩

/-- A message emits at most one PDU. -/
theorem emits_unique {m : Msg} {p1 p2 : List UInt8} (h1 : Emits m p1) (h2 : Emits m p2) : p1 = p2 := by
  have hl : p1.length = p2.length := h1.1.symm.trans h2.1
  have e1 := h1.2 ⟨[], List.replicate p1.length 0⟩ (by simp)
  have e2 := h2.2 ⟨[], List.replicate p1.length 0⟩ (by simp [hl])
  rw [e1] at e2
  simpa using (congrArg WSeq.done e2)

/-! ### C04 -/

/-- C04. A request is reported valid exactly when its quantity is within the Modbus limits. -/
theorem C04_valid_iff_in_range (k : Kind) (r : Req k) : isValid k r = true ↔ Spec.InRange k r := by
  have h1 : maxBits.toNat = 2000 := rfl
  have h2 : maxReadRegs.toNat = 125 := rfl
  have h3 : maxCoils.toNat = 1968 := rfl
  have h4 : maxWriteRegs.toNat = 123 := rfl
  have h0 : (0 : UInt16).toNat = 0 := rfl
  cases k <;> simp only [isValid, readReqValid, writeCoilsValid, writeRegsValid, Spec.InRange, Spec.qty, Spec.maxQty,
    Bool.and_eq_true, decide_eq_true_eq, gt_iff_lt, UInt16.lt_iff_toNat_lt, UInt16.le_iff_toNat_le, h0, h1, h2, h3, h4,
    Nat.le_refl, and_self] <;> omega

example : isValid .readCoils ⟨7, 2000⟩ = true ∧ isValid .readCoils ⟨7, 2001⟩ = false ∧
    isValid .writeMultipleRegisters ⟨0, List.replicate 123 5⟩ = true ∧
    isValid .writeMultipleRegisters ⟨0, List.replicate 65537 5⟩ = false := by
  refine ⟨rfl, rfl, by simp [isValid, writeRegsValid, maxWriteRegs], ?_⟩
  simp only [isValid, writeRegsValid, maxWriteRegs, List.length_replicate]; decide

/-! ### C05 -/

/-- C05. The PDU of every valid request is what the protocol prescribes, at most 253 bytes long, and its announced
length is the number of bytes written. -/
theorem C05_request_conformant (k : Kind) (r : Req k) (hv : isValid k r = true) :
    ∃ pdu, Emits (reqMsg k r) pdu ∧ Spec.RequestPdu k r pdu ∧ pdu.length ≤ 253 := by
  have hr := (C04_valid_iff_in_range k r).1 hv
  cases k
  case readCoils => exact ⟨_, emits_of_writes (readReqMsg_writes 1 r), rfl, by simp [be_length]⟩
  case readDiscreteInputs => exact ⟨_, emits_of_writes (readReqMsg_writes 2 r), rfl, by simp [be_length]⟩
  case readHoldingRegisters => exact ⟨_, emits_of_writes (readReqMsg_writes 3 r), rfl, by simp [be_length]⟩
  case readInputRegisters => exact ⟨_, emits_of_writes (readReqMsg_writes 4 r), rfl, by simp [be_length]⟩
  case writeSingleCoil => exact ⟨_, emits_of_writes (singleCoilMsg_writes r), rfl, by simp [be_length]⟩
  case writeSingleRegister => exact ⟨_, emits_of_writes (singleRegMsg_writes r), rfl, by simp [be_length]⟩
  case writeMultipleCoils =>
    simp only [Spec.InRange, Spec.qty, Spec.maxQty] at hr
    refine ⟨_, emits_of_writes (writeCoilsMsg_writes r (by omega)), ⟨_, packs_packAux _, rfl⟩, ?_⟩
    simp only [List.length_cons, List.length_append, be_length, packAux_length, Spec.bytesFor]
    omega
  case writeMultipleRegisters =>
    simp only [Spec.InRange, Spec.qty, Spec.maxQty] at hr
    refine ⟨_, emits_of_writes (writeRegsMsg_writes r (by omega)), rfl, ?_⟩
    simp only [List.length_cons, List.length_append, be_length, regBytes_length]
    omega

example : isValid .writeMultipleCoils ⟨0x1234, [true, false, true, true, false, false, false, false, true]⟩ = true ∧
    ((reqMsg .writeMultipleCoils ⟨0x1234, [true, false, true, true, false, false, false, false, true]⟩).build
      ⟨[], List.replicate 260 0xAA⟩).done = [0x0F, 0x12, 0x34, 0x00, 0x09, 0x02, 0x0D, 0x01] := by decide

/-! ### C02 -/

/-- C02. The server accepts a PDU as a request of a type iff the PDU is conformant, and decodes it to what it denotes. -/
theorem C02_accepts_iff_denotes (k : Kind) (d : List UInt8) (r : Req k) :
    parseReq k d = .ret (.ok r) ↔ Spec.Denotes k d r := by
  have h1 : maxBitsImpl.toNat = 2000 := rfl
  have h2 : maxReadRegsImpl.toNat = 125 := rfl
  cases k
  case readCoils => simp only [parseReq, parseReadReq_ok, h1]; rfl
  case readDiscreteInputs => simp only [parseReq, parseReadReq_ok, h1]; rfl
  case readHoldingRegisters => simp only [parseReq, parseReadReq_ok, h2]; rfl
  case readInputRegisters => simp only [parseReq, parseReadReq_ok, h2]; rfl
  case writeSingleCoil =>
    simp only [parseReq, parseSingleCoilReq_ok, Spec.Denotes, Spec.InRange, Spec.qty, Spec.maxQty, Spec.RequestPdu,
      Nat.le_refl, and_self, true_and]
  case writeSingleRegister =>
    simp only [parseReq, parseSingleRegReq_ok, Spec.Denotes, Spec.InRange, Spec.qty, Spec.maxQty, Spec.RequestPdu,
      Nat.le_refl, and_self, true_and]
  case writeMultipleCoils => exact parseWriteCoilsReq_ok d r
  case writeMultipleRegisters => exact parseWriteRegsReq_ok d r

example : parseReq .writeMultipleCoils [0x0F, 0x12, 0x34, 0x00, 0x03, 0x01, 0xFD] =
    .ret (.ok ⟨0x1234, [true, false, true]⟩) := by decide

/-! ### C01 -/

/-- What is prescribed for sending is understood as such by a receiver. -/
theorem denotes_of_requestPdu {k : Kind} {r : Req k} {d : List UInt8} (hr : Spec.InRange k r) (h : Spec.RequestPdu k r d) :
    Spec.Denotes k d r := by
  cases k <;> try exact ⟨hr, h⟩
  obtain ⟨body, hb, hd⟩ := h
  exact ⟨hr, body, packs_firstBits hb, hd⟩

/-- C01. The PDU of a valid request is decoded by the server into exactly that request. -/
theorem C01_request_round_trip (k : Kind) (r : Req k) (hv : isValid k r = true) :
    ∃ pdu, Emits (reqMsg k r) pdu ∧ parseReq k pdu = .ret (.ok r) := by
  obtain ⟨pdu, he, hp, -⟩ := C05_request_conformant k r hv
  exact ⟨pdu, he, (C02_accepts_iff_denotes k pdu r).2 (denotes_of_requestPdu ((C04_valid_iff_in_range k r).1 hv) hp)⟩

example : isValid .writeMultipleRegisters ⟨65535, [1, 2, 65535]⟩ = true := rfl

/-- C01, companion: no two different valid requests of the same type have the same PDU. -/
theorem C01_request_injective (k : Kind) (r1 r2 : Req k) (h1 : isValid k r1 = true) (h2 : isValid k r2 = true)
    (pdu : List UInt8) (e1 : Emits (reqMsg k r1) pdu) (e2 : Emits (reqMsg k r2) pdu) : r1 = r2 := by
  obtain ⟨p1, f1, g1⟩ := C01_request_round_trip k r1 h1
  obtain ⟨p2, f2, g2⟩ := C01_request_round_trip k r2 h2
  cases emits_unique e1 f1
  cases emits_unique e2 f2
  rw [g1] at g2
  injection g2 with g2; injection g2

/-! ### C03 -/

/-- C03. Rejections: IllegalDataValue exactly for out-of-range fields, malformed-request otherwise, nothing else. -/
theorem C03_rejections_classified (k : Kind) (d : List UInt8) :
    (parseReq k d = .ret (.error (.modbus .illegalDataValue)) ↔ Spec.OutOfRange k d) ∧
    (parseReq k d = .ret (.error .malformedRequest) ↔ (¬ Spec.OutOfRange k d ∧ ∀ r, ¬ Spec.Denotes k d r)) ∧
    (∀ e, parseReq k d = .ret (.error e) → e = .modbus .illegalDataValue ∨ e = .malformedRequest) := by
  have h1 : maxBitsImpl.toNat = 2000 := rfl
  have h2 : maxReadRegsImpl.toNat = 125 := rfl
  have hill : parseReq k d = .ret (.error (.modbus .illegalDataValue)) ↔ Spec.OutOfRange k d := by
    cases k
    case readCoils => simp only [parseReq, parseReadReq_illegal, h1, true_and]; rfl
    case readDiscreteInputs => simp only [parseReq, parseReadReq_illegal, h1, true_and]; rfl
    case readHoldingRegisters => simp only [parseReq, parseReadReq_illegal, h2, true_and]; rfl
    case readInputRegisters => simp only [parseReq, parseReadReq_illegal, h2, true_and]; rfl
    case writeSingleCoil => simp only [parseReq, parseSingleCoilReq_illegal, true_and]; rfl
    case writeSingleRegister =>
      simp only [parseReq, Spec.OutOfRange, iff_false]
      rcases parseSingleRegReq_total d with ⟨r, h⟩ | h <;> rw [h] <;> simp
    case writeMultipleCoils => simp only [parseReq, parseWriteCoilsReq_illegal, true_and]; rfl
    case writeMultipleRegisters => simp only [parseReq, parseWriteRegsReq_illegal, true_and]; rfl
  have htot : (∃ r, parseReq k d = .ret (.ok r)) ∨ parseReq k d = .ret (.error .malformedRequest) ∨
      parseReq k d = .ret (.error (.modbus .illegalDataValue)) := by
    cases k
    case writeSingleRegister => rcases parseSingleRegReq_total d with h | h <;> simp [parseReq, h]
    case writeSingleCoil => exact parseSingleCoilReq_total d
    case writeMultipleCoils => exact parseWriteCoilsReq_total d
    case writeMultipleRegisters => exact parseWriteRegsReq_total d
    all_goals exact parseReadReq_total _ _ d
  refine ⟨hill, ?_, ?_⟩
  · simp only [← hill, ← C02_accepts_iff_denotes]
    rcases htot with ⟨r, h⟩ | h | h <;> simp [h]
  · intro e he
    rcases htot with ⟨r, h⟩ | h | h <;> rw [he] at h <;> simp at h <;> simp [h]

example : Spec.OutOfRange .readCoils [1, 0, 0, 0x07, 0xD1] ∧
    parseReq .readCoils [1, 0, 0, 0x07, 0xD1] = .ret (.error (.modbus .illegalDataValue)) ∧
    parseReq .readCoils [1, 0, 0, 0x07] = .ret (.error .malformedRequest) :=
  ⟨⟨0, 2001, by decide, by decide⟩, by decide, by decide⟩

/-! ### Responses -/

/-- Every response whose payload fits a PDU is encoded as the protocol prescribes. -/
theorem response_conformant (k : Kind) (r : Resp k) :
    ∃ pdu, Emits (respMsg k r) pdu ∧ Spec.ResponsePdu k r pdu := by
  cases k
  case readCoils => exact ⟨_, emits_of_writes (bitsRespMsg_writes 1 r), _, packs_packAux _, rfl⟩
  case readDiscreteInputs => exact ⟨_, emits_of_writes (bitsRespMsg_writes 2 r), _, packs_packAux _, rfl⟩
  case readHoldingRegisters => exact ⟨_, emits_of_writes (regsRespMsg_writes 3 r), rfl⟩
  case readInputRegisters => exact ⟨_, emits_of_writes (regsRespMsg_writes 4 r), rfl⟩
  case writeSingleCoil => exact ⟨_, emits_of_writes (singleCoilMsg_writes r), rfl⟩
  case writeSingleRegister => exact ⟨_, emits_of_writes (singleRegMsg_writes r), rfl⟩
  case writeMultipleCoils => exact ⟨_, emits_of_writes (writeMultiRespMsg_writes 15 r), rfl⟩
  case writeMultipleRegisters => exact ⟨_, emits_of_writes (writeMultiRespMsg_writes 16 r), rfl⟩

/-! ### C06 -/

/-- Payload limits of a PDU (253 bytes) for the answers of read requests: what is requested fits. -/
theorem labelBits_values (a : UInt16) (bits : List Bool) : (Spec.labelBits a bits).map (·.value) = bits := by
  apply List.ext_getElem <;> simp [Spec.labelBits]

theorem labelRegs_values (a : UInt16) (regs : List UInt16) : (Spec.labelRegs a regs).map (·.value) = regs := by
  apply List.ext_getElem <;> simp [Spec.labelRegs]

/-- C06. If a session answers a valid request with as many values as requested (labelled with the requested addresses;
no condition for writes), the client decodes the server's encoding to the same response. -/
theorem C06_response_round_trip (k : Kind) (q : Req k) (r : Resp k) (hv : Spec.InRange k q) (ha : Spec.Answers k q r) :
    ∃ pdu, Emits (respMsg k r) pdu ∧ pdu.length ≤ 253 ∧ parseResp k q pdu = .ret (.ok r) := by
  obtain ⟨pdu, he, hp⟩ := response_conformant k r
  refine ⟨pdu, he, ?_⟩
  have bits : ∀ (q : ReadReq) (r : List BitVal) (body : List UInt8), 1 ≤ q.qty.toNat → q.qty.toNat ≤ 2000 →
      (∃ bits : List Bool, bits.length = q.qty.toNat ∧ r = Spec.labelBits q.start bits) →
      Spec.Packs (r.map (·.value)) body → body.length ≤ 250 ∧
      respBody .readCoils q (UInt8.ofNat (Spec.bytesFor r.length) :: body) = .ret (.ok r) := by
    rintro q r body h1 h2 ⟨bits, hl, rfl⟩ hb
    rw [labelBits_values] at hb
    have hbl := hb.length_eq
    have hll : (Spec.labelBits q.start bits).length = q.qty.toNat := by simp [Spec.labelBits, hl]
    have hbf : Spec.bytesFor q.qty.toNat ≤ 250 := by simp only [Spec.bytesFor]; omega
    rw [hl] at hbl
    refine ⟨by omega, respBody_bits.2 ⟨_, _, bits, rfl, ?_, ?_, rfl⟩⟩
    · rw [hll, ofNat8_toNat (by omega)]
    · have := packs_firstBits hb
      rwa [hl] at this
  have regs : ∀ (q : ReadReq) (r : List RegVal), 1 ≤ q.qty.toNat → q.qty.toNat ≤ 125 →
      (∃ regs : List UInt16, regs.length = q.qty.toNat ∧ r = Spec.labelRegs q.start regs) →
      r.length ≤ 125 ∧
      respBody .readHoldingRegisters q (UInt8.ofNat (2 * r.length) :: Spec.regBytes (r.map (·.value))) = .ret (.ok r) := by
    rintro q r h1 h2 ⟨regs, hl, rfl⟩
    have hll : (Spec.labelRegs q.start regs).length = q.qty.toNat := by simp [Spec.labelRegs, hl]
    refine ⟨by omega, respBody_regs.2 ⟨_, regs, by rw [labelRegs_values], ?_, hl, rfl⟩⟩
    rw [hll, ofNat8_toNat (by omega)]; omega
  cases k
  case readCoils =>
    obtain ⟨body, hb, rfl⟩ := hp
    obtain ⟨h1, h2⟩ := bits q r body hv.1 hv.2 ha hb
    exact ⟨by simp; omega, (parseResp_ok .readCoils _ _ _).2 ⟨_, rfl, h2⟩⟩
  case readDiscreteInputs =>
    obtain ⟨body, hb, rfl⟩ := hp
    obtain ⟨h1, h2⟩ := bits q r body hv.1 hv.2 ha hb
    exact ⟨by simp; omega, (parseResp_ok .readDiscreteInputs _ _ _).2 ⟨_, rfl, h2⟩⟩
  case readHoldingRegisters =>
    cases hp
    obtain ⟨h1, h2⟩ := regs q r hv.1 hv.2 ha
    exact ⟨by simp [regBytes_length]; omega, (parseResp_ok .readHoldingRegisters _ _ _).2 ⟨_, rfl, h2⟩⟩
  case readInputRegisters =>
    cases hp
    obtain ⟨h1, h2⟩ := regs q r hv.1 hv.2 ha
    exact ⟨by simp [regBytes_length]; omega, (parseResp_ok .readInputRegisters _ _ _).2 ⟨_, rfl, h2⟩⟩
  case writeSingleCoil =>
    cases hp
    refine ⟨by simp [be_length], (parseResp_ok .writeSingleCoil _ _ _).2 ⟨_, rfl, ?_⟩⟩
    rcases r with ⟨a, v⟩
    cases v <;> simp [be_coilWord, be_eq, respBody, joinOn, joinOff, coilOn, coilOff]
  case writeSingleRegister =>
    cases hp
    refine ⟨by simp [be_length], (parseResp_ok .writeSingleRegister _ _ _).2 ⟨_, rfl, ?_⟩⟩
    simp [be_eq, respBody]
  case writeMultipleCoils =>
    cases hp
    refine ⟨by simp [be_length], (parseResp_ok .writeMultipleCoils _ _ _).2 ⟨_, rfl, ?_⟩⟩
    simp [be_eq, respBody]
  case writeMultipleRegisters =>
    cases hp
    refine ⟨by simp [be_length], (parseResp_ok .writeMultipleRegisters _ _ _).2 ⟨_, rfl, ?_⟩⟩
    simp [be_eq, respBody]

example : Spec.InRange .readCoils ⟨0xFFFF, 3⟩ ∧
    Spec.Answers .readCoils ⟨0xFFFF, 3⟩ [⟨0xFFFF, true⟩, ⟨0, false⟩, ⟨1, true⟩] :=
  ⟨⟨by decide, by decide⟩, [true, false, true], by decide, by decide⟩

/-! ### C07 -/

/-- C07. Success for a bit read iff expected function code, byte count `⌈qty/8⌉` and exactly that many bytes; the
reported values are the first `qty` bits, LSB first, labelled with consecutive addresses. -/
theorem C07_bit_response_iff (start qty : UInt16) (d : List UInt8) (vs : List BitVal) :
    (parseResp .readCoils ⟨start, qty⟩ d = .ret (.ok vs) ↔
      ∃ bc body bits, d = 1 :: bc :: body ∧ bc.toNat = Spec.bytesFor qty.toNat ∧
        Spec.FirstBits qty.toNat body bits ∧ vs = Spec.labelBits start bits) ∧
    (parseResp .readDiscreteInputs ⟨start, qty⟩ d = .ret (.ok vs) ↔
      ∃ bc body bits, d = 2 :: bc :: body ∧ bc.toNat = Spec.bytesFor qty.toNat ∧
        Spec.FirstBits qty.toNat body bits ∧ vs = Spec.labelBits start bits) := by
  constructor
  · rw [parseResp_ok]
    constructor
    · rintro ⟨view, rfl, h⟩
      obtain ⟨bc, body, bits, rfl, h'⟩ := respBody_bits.1 h
      exact ⟨bc, body, bits, rfl, h'⟩
    · rintro ⟨bc, body, bits, rfl, h⟩
      exact ⟨_, rfl, respBody_bits.2 ⟨bc, body, bits, rfl, h⟩⟩
  · rw [parseResp_ok]
    constructor
    · rintro ⟨view, rfl, h⟩
      obtain ⟨bc, body, bits, rfl, h'⟩ := respBody_bits.1 h
      exact ⟨bc, body, bits, rfl, h'⟩
    · rintro ⟨bc, body, bits, rfl, h⟩
      exact ⟨_, rfl, respBody_bits.2 ⟨bc, body, bits, rfl, h⟩⟩

example : parseResp .readCoils ⟨10, 9⟩ [1, 2, 0x05, 0x01] = .ret (.ok (Spec.labelBits 10
    [true, false, true, false, false, false, false, false, true])) ∧
    parseResp .readCoils ⟨10, 9⟩ [1, 1, 0x05] = .ret (.error .malformedResponse) := by decide

/-! ### C08 -/

/-- C08, full statement (for one of the two register reads). -/
def C08_Statement (k : Kind) (parse : ReadReq → List UInt8 → CM (Expected (List RegVal))) : Prop :=
  ∀ (start qty : UInt16) (d : List UInt8) (vs : List RegVal),
    parse ⟨start, qty⟩ d = .ret (.ok vs) ↔
      ∃ bc regs, d = Spec.fc k :: bc :: Spec.regBytes regs ∧ bc.toNat = 2 * qty.toNat ∧
        regs.length = qty.toNat ∧ vs = Spec.labelRegs start regs

/-- C08 is violated: the byte count is only required to be even, so a response whose byte count contradicts its length
is accepted (one register requested, byte count 0, two bytes of payload). -/
theorem C08_violated :
    ¬ C08_Statement .readHoldingRegisters (parseResp .readHoldingRegisters) ∧
    ¬ C08_Statement .readInputRegisters (parseResp .readInputRegisters) := by
  constructor
  · intro h
    obtain ⟨bc, regs, h1, h2, -⟩ := (h 0 1 [3, 0, 0, 42] [⟨0, 42⟩]).1 (by decide)
    injection h1 with _ h1; injection h1 with h1; subst h1
    simp at h2
  · intro h
    obtain ⟨bc, regs, h1, h2, -⟩ := (h 0 1 [4, 0, 0, 42] [⟨0, 42⟩]).1 (by decide)
    injection h1 with _ h1; injection h1 with h1; subst h1
    simp at h2

/-- C08, proved part: success iff expected function code, *even* byte count, and exactly `2 * qty` bytes of payload; the
values are the big-endian words labelled with consecutive addresses.  Missing from C08: the byte count need not be
`2 * qty` (see `C08_violated`). -/
theorem C08_register_response_iff_partial (start qty : UInt16) (d : List UInt8) (vs : List RegVal) :
    (parseResp .readHoldingRegisters ⟨start, qty⟩ d = .ret (.ok vs) ↔
      ∃ bc regs, d = 3 :: bc :: Spec.regBytes regs ∧ bc.toNat % 2 = 0 ∧
        regs.length = qty.toNat ∧ vs = Spec.labelRegs start regs) ∧
    (parseResp .readInputRegisters ⟨start, qty⟩ d = .ret (.ok vs) ↔
      ∃ bc regs, d = 4 :: bc :: Spec.regBytes regs ∧ bc.toNat % 2 = 0 ∧
        regs.length = qty.toNat ∧ vs = Spec.labelRegs start regs) := by
  constructor
  · rw [parseResp_ok]
    constructor
    · rintro ⟨view, rfl, h⟩
      obtain ⟨bc, regs, rfl, h'⟩ := respBody_regs.1 h
      exact ⟨bc, regs, rfl, h'⟩
    · rintro ⟨bc, regs, rfl, h⟩
      exact ⟨_, rfl, respBody_regs.2 ⟨bc, regs, rfl, h⟩⟩
  · rw [parseResp_ok]
    constructor
    · rintro ⟨view, rfl, h⟩
      obtain ⟨bc, regs, rfl, h'⟩ := respBody_regs.1 h
      exact ⟨bc, regs, rfl, h'⟩
    · rintro ⟨bc, regs, rfl, h⟩
      exact ⟨_, rfl, respBody_regs.2 ⟨bc, regs, rfl, h⟩⟩

example : parseResp .readHoldingRegisters ⟨10, 2⟩ [3, 4, 0x12, 0x34, 0xAB, 0xCD] =
    .ret (.ok [⟨10, 0x1234⟩, ⟨11, 0xABCD⟩]) := by decide

/-! ### C09 -/

/-- C09. A response is reported as a Modbus exception iff it is exactly the function code with the top bit set followed
by an exception code; the type is the one assigned by the specification. -/
theorem C09_exception_iff (k : Kind) (q : Req k) (d : List UInt8) (t : ExceptionType) :
    parseResp k q d = .ret (.error (.modbus t)) ↔
      ∃ code, d = [Spec.fc k ||| 0x80, code] ∧ t = Spec.exceptionOfCode code := by
  constructor
  · intro h
    cases d with
    | nil => rw [parseResp_nil] at h; cases h
    | cons c d =>
      by_cases h1 : c = Spec.fc k
      · subst h1
        rw [parseResp_match] at h
        rcases respBody_total k q d with ⟨r, h2⟩ | h2 <;> rw [h] at h2 <;> cases h2
      · by_cases h2 : c = Spec.fc k ||| 0x80
        · subst h2
          by_cases h3 : d.length = 1
          · match d, h3 with
            | [x], _ =>
              rw [parseResp_exc] at h
              injection h with h; injection h with h; injection h with h
              exact ⟨x, rfl, h.symm⟩
          · rw [parseResp_exc_bad _ _ _ h3] at h; cases h
        · rw [parseResp_other _ _ _ _ h1 h2] at h; cases h
  · rintro ⟨code, rfl, rfl⟩
    exact parseResp_exc k q code

example : parseResp .writeMultipleRegisters ⟨1, [2]⟩ [0x90, 0x02] = .ret (.error (.modbus .illegalDataAddress)) ∧
    parseResp .readCoils ⟨0, 1⟩ [0x81, 0x63] = .ret (.error (.modbus .unknown)) := by decide

/-! ### C10 -/

/-- C10, full statement for one exception type. -/
def C10_Statement (t : ExceptionType) : Prop :=
  ∀ (k : Kind) (q : Req k), ∃ pdu, Emits (exceptionMsg (Spec.fc k) t) pdu ∧ parseResp k q pdu = .ret (.error (.modbus t))

/-- C10 is violated: a MemoryParityError leaves the server as code 0x07, which the client reads as Unknown. -/
theorem C10_violated : ¬ ∀ t, C10_Statement t := by
  intro h
  obtain ⟨pdu, h1, h2⟩ := h .memoryParityError .readCoils ⟨0, 1⟩
  cases emits_unique h1 (emits_of_writes (exceptionMsg_writes _ _))
  revert h2
  decide

/-- C10, proved part: every exception type except MemoryParityError survives the wire (for all requests).
Missing: MemoryParityError, see `C10_violated`. -/
theorem C10_exception_survives_partial (t : ExceptionType) (ht : t ≠ .memoryParityError) : C10_Statement t := by
  intro k q
  refine ⟨_, emits_of_writes (exceptionMsg_writes _ _), (C09_exception_iff k q _ t).2 ⟨_, rfl, ?_⟩⟩
  cases t <;> first | rfl | exact absurd rfl ht

example : ExceptionType.serverDeviceBusy ≠ .memoryParityError := by decide

/-- What the client sees instead of a MemoryParityError. -/
theorem C10_memory_parity_becomes_unknown (k : Kind) (q : Req k) :
    ∃ pdu, Emits (exceptionMsg (Spec.fc k) .memoryParityError) pdu ∧
      parseResp k q pdu = .ret (.error (.modbus .unknown)) :=
  ⟨_, emits_of_writes (exceptionMsg_writes _ _), (C09_exception_iff k q _ _).2 ⟨_, rfl, rfl⟩⟩

/-! ### C11 -/

/-- C11. Decoding any bytes as any request, or as the response to any request, never runs into undefined behaviour
(reading past the received bytes into an uninitialised variable); it yields a value or a classified error. -/
theorem C11_decode_total (k : Kind) (d : List UInt8) :
    (∃ x, parseReq k d = .ret x) ∧ ∀ q : Req k, ∃ x, parseResp k q d = .ret x := by
  constructor
  · rcases hp : parseReq k d with _ | x
    · exfalso
      have : (∃ r, parseReq k d = .ret (.ok r)) ∨ parseReq k d = .ret (.error .malformedRequest) ∨
          parseReq k d = .ret (.error (.modbus .illegalDataValue)) := by
        cases k
        case writeSingleRegister => rcases parseSingleRegReq_total d with h | h <;> simp [parseReq, h]
        case writeSingleCoil => exact parseSingleCoilReq_total d
        case writeMultipleCoils => exact parseWriteCoilsReq_total d
        case writeMultipleRegisters => exact parseWriteRegsReq_total d
        all_goals exact parseReadReq_total _ _ d
      rcases this with ⟨r, h⟩ | h | h <;> rw [hp] at h <;> cases h
    · exact ⟨x, rfl⟩
  · intro q
    cases d with
    | nil => exact ⟨_, parseResp_nil k q⟩
    | cons c d =>
      by_cases h1 : c = Spec.fc k
      · subst h1
        rw [parseResp_match]
        rcases respBody_total k q d with ⟨r, h2⟩ | h2
        · exact ⟨_, h2⟩
        · exact ⟨_, h2⟩
      · by_cases h2 : c = Spec.fc k ||| 0x80
        · subst h2
          by_cases h3 : d.length = 1
          · match d, h3 with
            | [x], _ => exact ⟨_, parseResp_exc k q x⟩
          · exact ⟨_, parseResp_exc_bad _ _ _ h3⟩
        · exact ⟨_, parseResp_other _ _ _ _ h1 h2⟩

example : parseReq .writeMultipleCoils [0x0F, 0, 0, 0, 8] = .ret (.error .malformedRequest) ∧
    getU16 [0x0F] = .ub := by decide

/-! ### C12 -/

/-- C12, full statement. -/
def C12_Statement (k : Kind) : Prop :=
  ∀ (q : Req k) (d : List UInt8) (r : Resp k), parseResp k q d = .ret (.ok r) → Spec.Echoes k q r

/-- C12 is violated for all four write types: a response for another address / value / quantity is a success. -/
theorem C12_violated :
    ¬ C12_Statement .writeSingleCoil ∧ ¬ C12_Statement .writeSingleRegister ∧
    ¬ C12_Statement .writeMultipleCoils ∧ ¬ C12_Statement .writeMultipleRegisters := by
  refine ⟨fun h => ?_, fun h => ?_, fun h => ?_, fun h => ?_⟩
  · have := h ⟨7, true⟩ [5, 0, 9, 0, 0] ⟨9, false⟩ (by decide)
    revert this; simp [Spec.Echoes]
  · have := h ⟨7, 1⟩ [6, 0, 9, 0, 0] ⟨9, 0⟩ (by decide)
    revert this; simp [Spec.Echoes]
  · have := h ⟨7, [true]⟩ [15, 0, 9, 0, 0] ⟨9, 0⟩ (by decide)
    revert this; simp [Spec.Echoes]
  · have := h ⟨7, [1]⟩ [16, 0, 9, 0, 0] ⟨9, 0⟩ (by decide)
    revert this; simp [Spec.Echoes]

/-- C12, proved part: for writes the reported response is exactly what the received bytes say (so a caller that compares
it with its request detects a wrong echo, and an echoing server yields an echoing result).
Missing: the library itself does not compare (see `C12_violated`). -/
theorem C12_write_response_faithful_partial (k : Kind)
    (hk : k = .writeSingleCoil ∨ k = .writeSingleRegister ∨ k = .writeMultipleCoils ∨ k = .writeMultipleRegisters)
    (q : Req k) (d : List UInt8) (r : Resp k) :
    parseResp k q d = .ret (.ok r) ↔ Spec.ResponsePdu k r d := by
  constructor
  · intro h0
    obtain ⟨view, rfl, h⟩ := (parseResp_ok _ _ _ _).1 h0
    clear h0
    rcases hk with rfl | rfl | rfl | rfl <;> simp only [respBody] at h <;> split at h <;> try cases h
    · rename_i a b c d
      split at h
      · rename_i h1
        obtain ⟨rfl, rfl⟩ := join_eq_on h1
        injection h with h; injection h with h; subst h
        simp [Spec.ResponsePdu, be_eq, be_coilWord, Spec.fc]
      · split at h
        · rename_i h1
          obtain ⟨rfl, rfl⟩ := join_eq_off h1
          injection h with h; injection h with h; subst h
          simp [Spec.ResponsePdu, be_eq, be_coilWord, Spec.fc]
        · cases h
    all_goals simp [Spec.ResponsePdu, be_eq, Spec.fc]
  · intro h
    rw [parseResp_ok]
    rcases hk with rfl | rfl | rfl | rfl <;> cases h <;> refine ⟨_, rfl, ?_⟩
    · rcases r with ⟨a, v⟩
      cases v <;> simp [be_coilWord, be_eq, respBody, joinOn, joinOff, coilOn, coilOff]
    all_goals simp [be_eq, respBody]

example : parseResp .writeMultipleCoils ⟨7, [true, false]⟩ [15, 0, 7, 0, 2] = .ret (.ok ⟨7, 2⟩) ∧
    Spec.Echoes .writeMultipleCoils ⟨7, [true, false]⟩ ⟨7, 2⟩ := by
  constructor
  · decide
  · simp [Spec.Echoes]

/-! ### C13 -/

/-- C13. The result for any received bytes is exactly one of: a value (first byte the function code), a Modbus exception
(first byte the function code with the top bit set), or malformed-response. -/
theorem C13_response_trichotomy (k : Kind) (q : Req k) (d : List UInt8) :
    ((∃ r, parseResp k q d = .ret (.ok r)) ∧ d.head? = some (Spec.fc k)) ∨
    ((∃ t, parseResp k q d = .ret (.error (.modbus t))) ∧ d.head? = some (Spec.fc k ||| 0x80)) ∨
    parseResp k q d = .ret (.error .malformedResponse) := by
  cases d with
  | nil => exact Or.inr (Or.inr (parseResp_nil k q))
  | cons c d =>
    by_cases h1 : c = Spec.fc k
    · subst h1
      rcases respBody_total k q d with ⟨r, h2⟩ | h2
      · exact Or.inl ⟨⟨r, by rw [parseResp_match, h2]⟩, rfl⟩
      · exact Or.inr (Or.inr (by rw [parseResp_match, h2]))
    · by_cases h2 : c = Spec.fc k ||| 0x80
      · subst h2
        by_cases h3 : d.length = 1
        · match d, h3 with
          | [x], _ => exact Or.inr (Or.inl ⟨⟨_, parseResp_exc k q x⟩, rfl⟩)
        · exact Or.inr (Or.inr (parseResp_exc_bad _ _ _ h3))
      · exact Or.inr (Or.inr (parseResp_other _ _ _ _ h1 h2))

/-- C13, in particular: a response for another function code is malformed, whatever follows. -/
theorem C13_foreign_function_code (k k' : Kind) (hk : k' ≠ k) (q : Req k) (d : List UInt8) :
    parseResp k q (Spec.fc k' :: d) = .ret (.error .malformedResponse) ∧
    parseResp k q ((Spec.fc k' ||| 0x80) :: d) = .ret (.error .malformedResponse) := by
  constructor
  · apply parseResp_other
    · cases k <;> cases k' <;> first | exact absurd rfl hk | decide
    · cases k <;> cases k' <;> first | exact absurd rfl hk | decide
  · apply parseResp_other
    · cases k <;> cases k' <;> first | exact absurd rfl hk | decide
    · cases k <;> cases k' <;> first | exact absurd rfl hk | decide

example : parseResp .readCoils ⟨0, 1⟩ [2, 1, 1] = .ret (.error .malformedResponse) := by decide

end Modbus.Props
