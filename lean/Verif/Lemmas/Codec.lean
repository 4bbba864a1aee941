import Verif.Lemmas.Bits

namespace Modbus

theorem list5 {d : List UInt8} (h : d.length = 5) : ∃ a b c e f, d = [a, b, c, e, f] := by
  match d, h with
  | [a, b, c, e, f], _ => exact ⟨a, b, c, e, f, rfl⟩

theorem list4 {d : List UInt8} (h : d.length = 4) : ∃ a b c e, d = [a, b, c, e] := by
  match d, h with
  | [a, b, c, e], _ => exact ⟨a, b, c, e, rfl⟩

theorem list6 {d : List UInt8} (h : 6 ≤ d.length) : ∃ a b c e f g r, d = a :: b :: c :: e :: f :: g :: r := by
  match d, h with
  | a :: b :: c :: e :: f :: g :: r, _ => exact ⟨a, b, c, e, f, g, r, rfl⟩

theorem WSeq.put_writeU8 (w : WSeq) (bs : List UInt8) (b : UInt8) (h : bs.length + 1 ≤ w.rest.length) :
    (w.put bs).writeU8 b = w.put (bs ++ [b]) := by
  rw [WSeq.writeU8_eq _ _ (by rw [WSeq.put_rest_length]; omega), WSeq.put_put]

theorem WSeq.put_writeU16 (w : WSeq) (bs : List UInt8) (v : UInt16) (h : bs.length + 2 ≤ w.rest.length) :
    (w.put bs).writeU16 v = w.put (bs ++ [hiByte v, loByte v]) := by
  rw [WSeq.writeU16_eq _ _ (by rw [WSeq.put_rest_length]; omega), WSeq.put_put]

/-! ### Messages write what they announce -/

theorem writes3 (m : Msg) (c : UInt8) (x y : UInt16) (hl : m.length = 5)
    (hb : ∀ w, m.build w = ((w.writeU8 c).writeU16 x).writeU16 y) :
    m.Writes (c :: (Spec.be x.toNat ++ Spec.be y.toNat)) := by
  refine ⟨by simp [hl, be_length], fun w hw => ?_⟩
  simp only [List.length_cons, List.length_append, be_length] at hw
  rw [hb, WSeq.writeU8_eq w, WSeq.put_writeU16 w, WSeq.put_writeU16 w]
  · simp [WSeq.put_put, be_eq]
  all_goals (try simp only [WSeq.put_rest_length, List.length_append, List.length_cons, List.length_nil, List.length_map])
  all_goals omega

theorem exceptionMsg_writes (fc : UInt8) (t : ExceptionType) :
    (exceptionMsg fc t).Writes [fc ||| 0x80, t.toByte] := by
  refine ⟨rfl, fun w hw => ?_⟩
  simp only [List.length_cons, List.length_nil] at hw
  simp only [exceptionMsg]
  rw [WSeq.writeU8_eq w, WSeq.put_writeU8 w]
  · simp [WSeq.put_put]
  all_goals (try simp only [WSeq.put_rest_length, List.length_append, List.length_cons, List.length_nil, List.length_map])
  all_goals omega

theorem coilWord_eq (b : Bool) : (if b = true then coilOn else coilOff).toNat = Spec.coilWord b := by
  cases b <;> rfl

theorem readReqMsg_writes (fc : UInt8) (r : ReadReq) :
    (readReqMsg fc r).Writes (fc :: (Spec.be r.start.toNat ++ Spec.be r.qty.toNat)) :=
  writes3 _ _ _ _ rfl fun _ => rfl

theorem singleCoilMsg_writes (r : BitVal) :
    (singleCoilMsg r).Writes (5 :: (Spec.be r.addr.toNat ++ Spec.be (Spec.coilWord r.value))) := by
  rw [← coilWord_eq]
  exact writes3 _ _ _ _ rfl fun _ => rfl

theorem singleRegMsg_writes (r : RegVal) :
    (singleRegMsg r).Writes (6 :: (Spec.be r.addr.toNat ++ Spec.be r.value.toNat)) :=
  writes3 _ _ _ _ rfl fun _ => rfl

theorem writeMultiRespMsg_writes (fc : UInt8) (r : WriteMultiResp) :
    (writeMultiRespMsg fc r).Writes (fc :: (Spec.be r.start.toNat ++ Spec.be r.qty.toNat)) :=
  writes3 _ _ _ _ rfl fun _ => rfl

theorem ofNat16_toNat {n : Nat} (h : n < 65536) : (UInt16.ofNat n).toNat = n := by
  rw [UInt16.toNat_ofNat', Nat.mod_eq_of_lt (by omega)]

theorem ofNat8_toNat {n : Nat} (h : n < 256) : (UInt8.ofNat n).toNat = n := by
  rw [UInt8.toNat_ofNat', Nat.mod_eq_of_lt (by omega)]

theorem writeCoilsMsg_writes (r : WriteCoilsReq) (h : r.values.length < 65536) :
    (writeCoilsMsg r).Writes (15 :: (Spec.be r.start.toNat ++ Spec.be r.values.length ++
      UInt8.ofNat (Spec.bytesFor r.values.length) :: packAux r.values)) := by
  refine ⟨by simp [writeCoilsMsg, be_length, packAux_length, byteCount_eq]; omega, fun w hw => ?_⟩
  simp only [List.length_cons, List.length_append, be_length, packAux_length] at hw
  simp only [writeCoilsMsg, byteCount_eq]
  rw [WSeq.writeU8_eq w, WSeq.put_writeU16 w, WSeq.put_writeU16 w, WSeq.put_writeU8 w, coilBytesLoop_eq]
  · simp [WSeq.put_put, be_eq, be_ofNat_lt h]
  all_goals (try simp)
  all_goals omega

theorem writeRegsMsg_writes (r : WriteRegsReq) (h : r.values.length < 65536) :
    (writeRegsMsg r).Writes (16 :: (Spec.be r.start.toNat ++ Spec.be r.values.length ++
      UInt8.ofNat (2 * r.values.length) :: Spec.regBytes r.values)) := by
  refine ⟨by simp [writeRegsMsg, be_length, regBytes_length]; omega, fun w hw => ?_⟩
  simp only [List.length_cons, List.length_append, be_length, regBytes_length] at hw
  simp only [writeRegsMsg]
  rw [WSeq.writeU8_eq w, WSeq.put_writeU16 w, WSeq.put_writeU16 w, WSeq.put_writeU8 w, writeRegs_eq]
  · simp [WSeq.put_put, be_eq, be_ofNat_lt h]
  all_goals (try simp only [WSeq.put_rest_length, List.length_append, List.length_cons, List.length_nil, List.length_map])
  all_goals omega

theorem bitsRespMsg_writes (fc : UInt8) (r : List BitVal) :
    (bitsRespMsg fc r).Writes (fc :: UInt8.ofNat (Spec.bytesFor r.length) :: packAux (r.map (·.value))) := by
  refine ⟨by simp [bitsRespMsg, packAux_length, byteCount_eq]; omega, fun w hw => ?_⟩
  simp only [List.length_cons, packAux_length, List.length_map] at hw
  simp only [bitsRespMsg, byteCount_eq, Nat.add_sub_cancel_left]
  rw [WSeq.writeU8_eq _ _ (by omega : 1 ≤ w.rest.length), WSeq.writeU8_eq (w.put [fc]) _ (by simp; omega)]
  have := packLoop_eq (r.map (·.value)) [] ((w.put [fc]).put [UInt8.ofNat (Spec.bytesFor r.length)]) (by simp)
    (by simp [packAux_length]; omega)
  simp only [bitsToNat, List.length_nil, List.nil_append] at this
  rw [show (0x00 : UInt8) = UInt8.ofNat 0 from rfl, this]
  simp [WSeq.put_put]

theorem regsRespMsg_writes (fc : UInt8) (r : List RegVal) :
    (regsRespMsg fc r).Writes (fc :: UInt8.ofNat (2 * r.length) :: Spec.regBytes (r.map (·.value))) := by
  refine ⟨by simp [regsRespMsg, regBytes_length]; omega, fun w hw => ?_⟩
  simp only [List.length_cons, regBytes_length, List.length_map] at hw
  simp only [regsRespMsg, Nat.add_sub_cancel_left]
  rw [WSeq.writeU8_eq w, WSeq.put_writeU8 w, writeRegs_eq]
  · simp [WSeq.put_put, Nat.mul_comm]
  all_goals (try simp only [WSeq.put_rest_length, List.length_append, List.length_cons, List.length_nil, List.length_map])
  all_goals omega

/-! ### Requests: shape of the parsers on inputs of the right length -/

theorem parseReadReq_short (fc : UInt8) (mx : UInt16) (d : List UInt8) (h : d.length ≠ 5) :
    parseReadReq fc mx d = .ret (.error .malformedRequest) := by simp [parseReadReq, h]

theorem parseReadReq_five (fc : UInt8) (mx : UInt16) (c a b e f : UInt8) :
    parseReadReq fc mx [c, a, b, e, f] =
      if c ≠ fc then .ret (.error .malformedRequest)
      else if joinU16 e f < 1 ∨ joinU16 e f > mx then .ret (.error (.modbus .illegalDataValue))
      else .ret (.ok ⟨joinU16 a b, joinU16 e f⟩) := by
  simp [parseReadReq]

theorem be2 (a b e f : UInt8) :
    Spec.be (joinU16 a b).toNat ++ Spec.be (joinU16 e f).toNat = [a, b, e, f] := by
  simp [be_eq]

theorem lt_one16 (q : UInt16) : q < 1 ↔ q = 0 := by
  constructor
  · intro h
    apply UInt16.toNat_inj.1
    have : q.toNat < 1 := h
    simpa using (by omega : q.toNat = 0)
  · rintro rfl; decide

theorem eq_zero16 (q : UInt16) : q = 0 ↔ q.toNat = 0 := by
  constructor
  · rintro rfl; rfl
  · intro h; apply UInt16.toNat_inj.1; simpa using h

theorem lt16 (q m : UInt16) : q < m ↔ q.toNat < m.toNat := Iff.rfl

theorem one16 : UInt16.toNat 1 = 1 := rfl

theorem parseReadReq_ok (fc : UInt8) (mx : UInt16) (d : List UInt8) (r : ReadReq) :
    parseReadReq fc mx d = .ret (.ok r) ↔
      (1 ≤ r.qty.toNat ∧ r.qty.toNat ≤ mx.toNat) ∧ d = fc :: (Spec.be r.start.toNat ++ Spec.be r.qty.toNat) := by
  by_cases h : d.length = 5
  · obtain ⟨c, a, b, e, f, rfl⟩ := list5 h
    rw [parseReadReq_five]
    constructor
    · intro hp
      split at hp
      · cases hp
      · split at hp
        · cases hp
        · rename_i h1 h2
          injection hp with hp; injection hp with hp; subst hp
          simp only [gt_iff_lt, lt16, one16] at h2
          simp only [Decidable.not_not] at h1
          refine ⟨by simp only; omega, ?_⟩
          simp only [be2, h1]
    · rintro ⟨⟨h1, h2⟩, h3⟩
      rcases r with ⟨s, q⟩
      simp only [be_eq, List.cons_append, List.nil_append, List.cons.injEq, and_true] at h3
      obtain ⟨rfl, rfl, rfl, rfl, rfl⟩ := h3
      simp only [joinU16_hi_lo, gt_iff_lt, lt16, one16] at *
      rw [if_neg (by simp), if_neg (by omega)]
  · rw [parseReadReq_short _ _ _ h]
    constructor
    · intro hp; cases hp
    · rintro ⟨-, rfl⟩; simp [be_length] at h

theorem parseReadReq_illegal (fc : UInt8) (mx : UInt16) (d : List UInt8) (t : ExceptionType) :
    parseReadReq fc mx d = .ret (.error (.modbus t)) ↔
      t = .illegalDataValue ∧ ∃ a q : UInt16, d = fc :: (Spec.be a.toNat ++ Spec.be q.toNat) ∧ (q = 0 ∨ mx.toNat < q.toNat) := by
  by_cases h : d.length = 5
  · obtain ⟨c, a, b, e, f, rfl⟩ := list5 h
    rw [parseReadReq_five]
    constructor
    · intro hp
      split at hp
      · cases hp
      · split at hp
        · rename_i h1 h2
          injection hp with hp; injection hp with hp; injection hp with hp; subst hp
          simp only [Decidable.not_not] at h1
          simp only [gt_iff_lt, lt16, one16] at h2
          exact ⟨rfl, joinU16 a b, joinU16 e f, by simp only [be2, h1], by simp only [eq_zero16]; omega⟩
        · cases hp
    · rintro ⟨rfl, s, q, h3, h4⟩
      simp only [be_eq, List.cons_append, List.nil_append, List.cons.injEq, and_true] at h3
      obtain ⟨rfl, rfl, rfl, rfl, rfl⟩ := h3
      simp only [joinU16_hi_lo, gt_iff_lt, lt16, one16]
      rw [if_neg (by simp), if_pos (by simp only [eq_zero16] at h4; omega)]
  · rw [parseReadReq_short _ _ _ h]
    constructor
    · intro hp; cases hp
    · rintro ⟨-, a, q, rfl, -⟩; simp [be_length] at h

theorem parseReadReq_total (fc : UInt8) (mx : UInt16) (d : List UInt8) :
    (∃ r, parseReadReq fc mx d = .ret (.ok r)) ∨ parseReadReq fc mx d = .ret (.error .malformedRequest) ∨
      parseReadReq fc mx d = .ret (.error (.modbus .illegalDataValue)) := by
  by_cases h : d.length = 5
  · obtain ⟨c, a, b, e, f, rfl⟩ := list5 h
    rw [parseReadReq_five]
    split
    · simp
    · split <;> simp
  · rw [parseReadReq_short _ _ _ h]; simp

/-! single coil -/

theorem parseSingleCoilReq_short (d : List UInt8) (h : d.length ≠ 5) :
    parseSingleCoilReq d = .ret (.error .malformedRequest) := by simp [parseSingleCoilReq, h]

theorem parseSingleCoilReq_five (c a b e f : UInt8) :
    parseSingleCoilReq [c, a, b, e, f] =
      if c ≠ 5 then .ret (.error .malformedRequest)
      else if joinU16 e f = coilOn then .ret (.ok ⟨joinU16 a b, true⟩)
      else if joinU16 e f = coilOff then .ret (.ok ⟨joinU16 a b, false⟩)
      else .ret (.error (.modbus .illegalDataValue)) := by
  simp [parseSingleCoilReq]

theorem be_coilWord (b : Bool) : Spec.be (Spec.coilWord b) = if b then [0xFF, 0x00] else [0, 0] := by
  cases b <;> rfl

theorem joinOn : joinU16 0xFF 0 = coilOn := rfl
theorem joinOff : joinU16 0 0 = coilOff := rfl

theorem join_eq_on {e f : UInt8} (h : joinU16 e f = coilOn) : e = 0xFF ∧ f = 0 := by
  have h1 : hiByte (joinU16 e f) = hiByte coilOn := by rw [h]
  have h2 : loByte (joinU16 e f) = loByte coilOn := by rw [h]
  exact ⟨(hiByte_join e f).symm.trans h1, (loByte_join e f).symm.trans h2⟩

theorem join_eq_off {e f : UInt8} (h : joinU16 e f = coilOff) : e = 0 ∧ f = 0 := by
  have h1 : hiByte (joinU16 e f) = hiByte coilOff := by rw [h]
  have h2 : loByte (joinU16 e f) = loByte coilOff := by rw [h]
  exact ⟨(hiByte_join e f).symm.trans h1, (loByte_join e f).symm.trans h2⟩

theorem parseSingleCoilReq_ok (d : List UInt8) (r : BitVal) :
    parseSingleCoilReq d = .ret (.ok r) ↔ d = 5 :: (Spec.be r.addr.toNat ++ Spec.be (Spec.coilWord r.value)) := by
  by_cases h : d.length = 5
  · obtain ⟨c, a, b, e, f, rfl⟩ := list5 h
    rw [parseSingleCoilReq_five]
    constructor
    · intro hp
      split at hp
      · cases hp
      · rename_i h1
        simp only [Decidable.not_not] at h1
        split at hp
        · rename_i h2
          injection hp with hp; injection hp with hp; subst hp
          obtain ⟨rfl, rfl⟩ := join_eq_on h2
          simp [be_coilWord, be_eq, h1]
        · split at hp
          · rename_i h2
            injection hp with hp; injection hp with hp; subst hp
            obtain ⟨rfl, rfl⟩ := join_eq_off h2
            simp [be_coilWord, be_eq, h1]
          · cases hp
    · intro h3
      rcases r with ⟨ad, v⟩
      cases v
      · simp only [be_coilWord, be_eq, List.cons_append, List.nil_append, List.cons.injEq, and_true, Bool.false_eq_true,
          if_false] at h3
        obtain ⟨rfl, rfl, rfl, rfl, rfl⟩ := h3
        simp only [joinOff, joinU16_hi_lo]
        simp [coilOn, coilOff]
      · simp only [be_coilWord, be_eq, List.cons_append, List.nil_append, List.cons.injEq, and_true, if_true] at h3
        obtain ⟨rfl, rfl, rfl, rfl, rfl⟩ := h3
        simp [joinOn]
  · rw [parseSingleCoilReq_short _ h]
    constructor
    · intro hp; cases hp
    · rintro rfl; simp [be_length] at h

theorem parseSingleCoilReq_illegal (d : List UInt8) (t : ExceptionType) :
    parseSingleCoilReq d = .ret (.error (.modbus t)) ↔
      t = .illegalDataValue ∧ ∃ a v : UInt16, d = 5 :: (Spec.be a.toNat ++ Spec.be v.toNat) ∧ v ≠ 0xFF00 ∧ v ≠ 0 := by
  by_cases h : d.length = 5
  · obtain ⟨c, a, b, e, f, rfl⟩ := list5 h
    rw [parseSingleCoilReq_five]
    constructor
    · intro hp
      split at hp
      · cases hp
      · rename_i h1
        simp only [Decidable.not_not] at h1
        split at hp
        · cases hp
        · split at hp
          · cases hp
          · rename_i h2 h3
            injection hp with hp; injection hp with hp; injection hp with hp; subst hp
            exact ⟨rfl, joinU16 a b, joinU16 e f, by simp only [be2, h1], h2, h3⟩
    · rintro ⟨rfl, a, v, h3, h4, h5⟩
      simp only [be_eq, List.cons_append, List.nil_append, List.cons.injEq, and_true] at h3
      obtain ⟨rfl, rfl, rfl, rfl, rfl⟩ := h3
      simp only [joinU16_hi_lo]
      rw [if_neg (by simp), if_neg (by exact h4), if_neg (by exact h5)]
  · rw [parseSingleCoilReq_short _ h]
    constructor
    · intro hp; cases hp
    · rintro ⟨-, a, q, rfl, -⟩; simp [be_length] at h

theorem parseSingleCoilReq_total (d : List UInt8) :
    (∃ r, parseSingleCoilReq d = .ret (.ok r)) ∨ parseSingleCoilReq d = .ret (.error .malformedRequest) ∨
      parseSingleCoilReq d = .ret (.error (.modbus .illegalDataValue)) := by
  by_cases h : d.length = 5
  · obtain ⟨c, a, b, e, f, rfl⟩ := list5 h
    rw [parseSingleCoilReq_five]
    split
    · simp
    · split
      · simp
      · split <;> simp
  · rw [parseSingleCoilReq_short _ h]; simp

/-! single register -/

theorem parseSingleRegReq_short (d : List UInt8) (h : d.length ≠ 5) :
    parseSingleRegReq d = .ret (.error .malformedRequest) := by simp [parseSingleRegReq, h]

theorem parseSingleRegReq_five (c a b e f : UInt8) :
    parseSingleRegReq [c, a, b, e, f] =
      if c ≠ 6 then .ret (.error .malformedRequest) else .ret (.ok ⟨joinU16 a b, joinU16 e f⟩) := by
  simp [parseSingleRegReq]

theorem parseSingleRegReq_ok (d : List UInt8) (r : RegVal) :
    parseSingleRegReq d = .ret (.ok r) ↔ d = 6 :: (Spec.be r.addr.toNat ++ Spec.be r.value.toNat) := by
  by_cases h : d.length = 5
  · obtain ⟨c, a, b, e, f, rfl⟩ := list5 h
    rw [parseSingleRegReq_five]
    constructor
    · intro hp
      split at hp
      · cases hp
      · rename_i h1
        simp only [Decidable.not_not] at h1
        injection hp with hp; injection hp with hp; subst hp
        simp only [be2, h1]
    · intro h3
      rcases r with ⟨s, q⟩
      simp only [be_eq, List.cons_append, List.nil_append, List.cons.injEq, and_true] at h3
      obtain ⟨rfl, rfl, rfl, rfl, rfl⟩ := h3
      simp
  · rw [parseSingleRegReq_short _ h]
    constructor
    · intro hp; cases hp
    · rintro rfl; simp [be_length] at h

theorem parseSingleRegReq_total (d : List UInt8) :
    (∃ r, parseSingleRegReq d = .ret (.ok r)) ∨ parseSingleRegReq d = .ret (.error .malformedRequest) := by
  by_cases h : d.length = 5
  · obtain ⟨c, a, b, e, f, rfl⟩ := list5 h
    rw [parseSingleRegReq_five]
    split <;> simp
  · rw [parseSingleRegReq_short _ h]; simp

/-! multiple writes -/

theorem parseWriteCoilsReq_short (d : List UInt8) (h : d.length < 6) :
    parseWriteCoilsReq d = .ret (.error .malformedRequest) := by simp [parseWriteCoilsReq, h]

theorem parseWriteCoilsReq_six (c a b e f g : UInt8) (r : List UInt8) :
    parseWriteCoilsReq (c :: a :: b :: e :: f :: g :: r) =
      if c ≠ 15 then .ret (.error .malformedRequest)
      else if joinU16 e f < 1 ∨ joinU16 e f > maxCoils then .ret (.error (.modbus .illegalDataValue))
      else if byteCount (joinU16 e f).toNat ≠ g.toNat then .ret (.error (.modbus .illegalDataValue))
      else if g.toNat ≠ r.length then .ret (.error .malformedRequest)
      else .ret (.ok ⟨joinU16 a b, unpackBits (joinU16 e f).toNat r []⟩) := by
  simp [parseWriteCoilsReq, -List.length_cons, show ¬ (c :: a :: b :: e :: f :: g :: r).length < 6 by simp]

theorem parseWriteRegsReq_short (d : List UInt8) (h : d.length < 6) :
    parseWriteRegsReq d = .ret (.error .malformedRequest) := by simp [parseWriteRegsReq, h]

theorem parseWriteRegsReq_six (c a b e f g : UInt8) (r : List UInt8) :
    parseWriteRegsReq (c :: a :: b :: e :: f :: g :: r) =
      if c ≠ 16 then .ret (.error .malformedRequest)
      else if joinU16 e f < 1 ∨ joinU16 e f > maxWriteRegs then .ret (.error (.modbus .illegalDataValue))
      else if 2 * (joinU16 e f).toNat ≠ g.toNat then .ret (.error (.modbus .illegalDataValue))
      else if g.toNat ≠ r.length then .ret (.error .malformedRequest)
      else .ret (.ok ⟨joinU16 a b, readRegs r⟩) := by
  simp [parseWriteRegsReq, -List.length_cons, show ¬ (c :: a :: b :: e :: f :: g :: r).length < 6 by simp]

theorem bytesFor_mono {a b : Nat} (h : a ≤ b) : Spec.bytesFor a ≤ Spec.bytesFor b := by
  simp only [Spec.bytesFor]; omega

theorem parseWriteCoilsReq_ok (d : List UInt8) (r : WriteCoilsReq) :
    parseWriteCoilsReq d = .ret (.ok r) ↔
      (1 ≤ r.values.length ∧ r.values.length ≤ 1968) ∧ ∃ body, Spec.FirstBits r.values.length body r.values ∧
      d = 15 :: (Spec.be r.start.toNat ++ Spec.be r.values.length ++ UInt8.ofNat (Spec.bytesFor r.values.length) :: body) := by
  by_cases h : d.length < 6
  · rw [parseWriteCoilsReq_short _ h]
    constructor
    · intro hp; cases hp
    · rintro ⟨-, body, -, rfl⟩; simp [be_length] at h; omega
  · obtain ⟨c, a, b, e, f, g, t, rfl⟩ := list6 (d := d) (by omega)
    rw [parseWriteCoilsReq_six]
    constructor
    · intro hp
      split at hp
      · cases hp
      · split at hp
        · cases hp
        · split at hp
          · cases hp
          · split at hp
            · cases hp
            · rename_i h1 h2 h3 h4
              injection hp with hp; injection hp with hp; subst hp
              simp only [Decidable.not_not] at h1 h3 h4
              simp only [gt_iff_lt, lt16, one16, maxCoils] at h2
              rw [byteCount_eq] at h3
              have hmx : (1968 : UInt16).toNat = 1968 := rfl
              have hlen : ((allBits t).take (joinU16 e f).toNat).length = (joinU16 e f).toNat := by
                have := bytesFor_le (joinU16 e f).toNat
                rw [List.length_take, allBits_length]; omega
              have hub : unpackBits (joinU16 e f).toNat t [] = (allBits t).take (joinU16 e f).toNat := by
                rw [unpackBits_eq _ _ _ (by simp)]; simp
              simp only [hub, hlen]
              refine ⟨by omega, t, (firstBits_iff _ _ _).2 ⟨by omega, rfl⟩, ?_⟩
              rw [be2, h3, UInt8.ofNat_toNat, h1]; rfl
    · rintro ⟨⟨h1, h2⟩, body, hb, h3⟩
      rcases r with ⟨s, vs⟩
      simp only at *
      have hlt : vs.length < 65536 := by omega
      simp only [be_eq, be_ofNat_lt hlt, List.cons_append, List.nil_append, List.cons.injEq] at h3
      obtain ⟨rfl, rfl, rfl, rfl, rfl, rfl, rfl⟩ := h3
      obtain ⟨hb1, hb2⟩ := (firstBits_iff _ _ _).1 hb
      simp only [joinU16_hi_lo, gt_iff_lt, lt16, one16, maxCoils, ofNat16_toNat hlt]
      have hmx : (1968 : UInt16).toNat = 1968 := rfl
      have hbf : Spec.bytesFor vs.length < 256 := by simp only [Spec.bytesFor]; omega
      rw [if_neg (by simp), if_neg (by omega), ofNat8_toNat hbf, if_neg (by simp [byteCount_eq]), if_neg (by simp [hb1]),
        unpackBits_eq _ _ _ (by simp)]
      simp [← hb2]

theorem parseWriteCoilsReq_illegal (d : List UInt8) (t : ExceptionType) :
    parseWriteCoilsReq d = .ret (.error (.modbus t)) ↔
      t = .illegalDataValue ∧ ∃ (a q : UInt16) (bc : UInt8) (rest : List UInt8),
        d = 15 :: (Spec.be a.toNat ++ Spec.be q.toNat ++ bc :: rest) ∧
        ((q = 0 ∨ 1968 < q.toNat) ∨ bc.toNat ≠ Spec.bytesFor q.toNat) := by
  by_cases h : d.length < 6
  · rw [parseWriteCoilsReq_short _ h]
    constructor
    · intro hp; cases hp
    · rintro ⟨-, _, _, _, _, rfl, -⟩; simp [be_length] at h; omega
  · obtain ⟨c, a, b, e, f, g, r, rfl⟩ := list6 (d := d) (by omega)
    rw [parseWriteCoilsReq_six]
    have hmx : maxCoils.toNat = 1968 := rfl
    constructor
    · intro hp
      split at hp
      · cases hp
      · rename_i h1
        simp only [Decidable.not_not] at h1
        split at hp
        · rename_i h2
          injection hp with hp; injection hp with hp; injection hp with hp; subst hp
          simp only [gt_iff_lt, lt16, one16, hmx] at h2
          exact ⟨rfl, joinU16 a b, joinU16 e f, g, r, by rw [be2, h1]; rfl, Or.inl (by simp only [eq_zero16]; omega)⟩
        · split at hp
          · rename_i h2 h3
            injection hp with hp; injection hp with hp; injection hp with hp; subst hp
            exact ⟨rfl, joinU16 a b, joinU16 e f, g, r, by rw [be2, h1]; rfl, Or.inr (by rw [← byteCount_eq]; omega)⟩
          · split at hp <;> cases hp
    · rintro ⟨rfl, s, q, bc, rest, h3, h4⟩
      simp only [be_eq, List.cons_append, List.nil_append, List.cons.injEq] at h3
      obtain ⟨rfl, rfl, rfl, rfl, rfl, rfl, rfl⟩ := h3
      simp only [joinU16_hi_lo, gt_iff_lt, lt16, one16, hmx, byteCount_eq]
      rw [if_neg (by simp)]
      split
      · rfl
      · rename_i h5
        rcases h4 with h4 | h4
        · simp only [eq_zero16] at h4; omega
        · rw [if_pos (by omega)]

theorem parseWriteCoilsReq_total (d : List UInt8) :
    (∃ r, parseWriteCoilsReq d = .ret (.ok r)) ∨ parseWriteCoilsReq d = .ret (.error .malformedRequest) ∨
      parseWriteCoilsReq d = .ret (.error (.modbus .illegalDataValue)) := by
  by_cases h : d.length < 6
  · rw [parseWriteCoilsReq_short _ h]; simp
  · obtain ⟨c, a, b, e, f, g, r, rfl⟩ := list6 (d := d) (by omega)
    rw [parseWriteCoilsReq_six]
    split
    · simp
    · split
      · simp
      · split
        · simp
        · split <;> simp

theorem parseWriteRegsReq_ok (d : List UInt8) (r : WriteRegsReq) :
    parseWriteRegsReq d = .ret (.ok r) ↔
      (1 ≤ r.values.length ∧ r.values.length ≤ 123) ∧
      d = 16 :: (Spec.be r.start.toNat ++ Spec.be r.values.length ++ UInt8.ofNat (2 * r.values.length) :: Spec.regBytes r.values) := by
  have hmx : maxWriteRegs.toNat = 123 := rfl
  by_cases h : d.length < 6
  · rw [parseWriteRegsReq_short _ h]
    constructor
    · intro hp; cases hp
    · rintro ⟨-, rfl⟩; simp [be_length] at h; omega
  · obtain ⟨c, a, b, e, f, g, t, rfl⟩ := list6 (d := d) (by omega)
    rw [parseWriteRegsReq_six]
    constructor
    · intro hp
      split at hp
      · cases hp
      · split at hp
        · cases hp
        · split at hp
          · cases hp
          · split at hp
            · cases hp
            · rename_i h1 h2 h3 h4
              injection hp with hp; injection hp with hp; subst hp
              simp only [Decidable.not_not] at h1 h3 h4
              simp only [gt_iff_lt, lt16, one16, hmx] at h2
              obtain ⟨h5, h6⟩ := regBytes_readRegs t (joinU16 e f).toNat (by omega)
              simp only [h5, h6]
              refine ⟨by omega, ?_⟩
              rw [be2, h3, UInt8.ofNat_toNat, h1]; rfl
    · rintro ⟨⟨h1, h2⟩, h3⟩
      rcases r with ⟨s, vs⟩
      simp only at *
      have hlt : vs.length < 65536 := by omega
      simp only [be_eq, be_ofNat_lt hlt, List.cons_append, List.nil_append, List.cons.injEq] at h3
      obtain ⟨rfl, rfl, rfl, rfl, rfl, rfl, rfl⟩ := h3
      simp only [joinU16_hi_lo, gt_iff_lt, lt16, one16, hmx, ofNat16_toNat hlt]
      rw [if_neg (by simp), if_neg (by omega), ofNat8_toNat (by omega), if_neg (by omega),
        if_neg (by rw [regBytes_length]; omega), readRegs_regBytes]

theorem parseWriteRegsReq_illegal (d : List UInt8) (t : ExceptionType) :
    parseWriteRegsReq d = .ret (.error (.modbus t)) ↔
      t = .illegalDataValue ∧ ∃ (a q : UInt16) (bc : UInt8) (rest : List UInt8),
        d = 16 :: (Spec.be a.toNat ++ Spec.be q.toNat ++ bc :: rest) ∧
        ((q = 0 ∨ 123 < q.toNat) ∨ bc.toNat ≠ 2 * q.toNat) := by
  by_cases h : d.length < 6
  · rw [parseWriteRegsReq_short _ h]
    constructor
    · intro hp; cases hp
    · rintro ⟨-, _, _, _, _, rfl, -⟩; simp [be_length] at h; omega
  · obtain ⟨c, a, b, e, f, g, r, rfl⟩ := list6 (d := d) (by omega)
    rw [parseWriteRegsReq_six]
    have hmx : maxWriteRegs.toNat = 123 := rfl
    constructor
    · intro hp
      split at hp
      · cases hp
      · rename_i h1
        simp only [Decidable.not_not] at h1
        split at hp
        · rename_i h2
          injection hp with hp; injection hp with hp; injection hp with hp; subst hp
          simp only [gt_iff_lt, lt16, one16, hmx] at h2
          exact ⟨rfl, joinU16 a b, joinU16 e f, g, r, by rw [be2, h1]; rfl, Or.inl (by simp only [eq_zero16]; omega)⟩
        · split at hp
          · rename_i h2 h3
            injection hp with hp; injection hp with hp; injection hp with hp; subst hp
            exact ⟨rfl, joinU16 a b, joinU16 e f, g, r, by rw [be2, h1]; rfl, Or.inr (by omega)⟩
          · split at hp <;> cases hp
    · rintro ⟨rfl, s, q, bc, rest, h3, h4⟩
      simp only [be_eq, List.cons_append, List.nil_append, List.cons.injEq] at h3
      obtain ⟨rfl, rfl, rfl, rfl, rfl, rfl, rfl⟩ := h3
      simp only [joinU16_hi_lo, gt_iff_lt, lt16, one16, hmx]
      rw [if_neg (by simp)]
      split
      · rfl
      · rename_i h5
        rcases h4 with h4 | h4
        · simp only [eq_zero16] at h4; omega
        · rw [if_pos (by omega)]

theorem parseWriteRegsReq_total (d : List UInt8) :
    (∃ r, parseWriteRegsReq d = .ret (.ok r)) ∨ parseWriteRegsReq d = .ret (.error .malformedRequest) ∨
      parseWriteRegsReq d = .ret (.error (.modbus .illegalDataValue)) := by
  by_cases h : d.length < 6
  · rw [parseWriteRegsReq_short _ h]; simp
  · obtain ⟨c, a, b, e, f, g, r, rfl⟩ := list6 (d := d) (by omega)
    rw [parseWriteRegsReq_six]
    split
    · simp
    · split
      · simp
      · split
        · simp
        · split <;> simp

/-! ### Responses -/

theorem parseFunctionCode_nil (fc : UInt8) : parseFunctionCode fc [] = .ret (.error .malformedResponse) := rfl

theorem parseFunctionCode_cons (fc c : UInt8) (d : List UInt8) :
    parseFunctionCode fc (c :: d) =
      if c &&& 0x7F ≠ fc then .ret (.error .malformedResponse)
      else if c &&& 0x80 ≠ 0 then
        (match d with
         | [code] => .ret (.error (.modbus (parseExceptionType code)))
         | _ => .ret (.error .malformedResponse))
      else .ret (.ok d) := by
  simp only [parseFunctionCode]
  rw [if_neg (by simp)]
  simp only [getU8_cons, CM.ret_bind, CM.pure_eq]
  split
  · rfl
  · split
    · split
      · rename_i h1
        match d, h1 with
        | [], _ => rfl
        | _ :: _ :: _, _ => rfl
        | [x], h1 => simp at h1
      · rename_i h1
        match d, h1 with
        | [], h1 => simp at h1
        | _ :: _ :: _, h1 => simp at h1
        | [x], _ => rfl
    · rfl

theorem forall_byte {P : UInt8 → Prop} (h : ∀ c : Fin 256, P (UInt8.ofNat c.val)) (c : UInt8) : P c := by
  have := h ⟨c.toNat, c.toNat_lt⟩
  simpa only [UInt8.ofNat_toNat] using this

/-- A byte with the low seven bits of `fc` is either `fc` or `fc | 0x80`, for `fc < 0x80`. -/
theorem fc_cases (fc c : UInt8) (hfc : fc.toNat < 128) :
    (c &&& 0x7F = fc ∧ c &&& 0x80 = 0 ↔ c = fc) ∧ (c &&& 0x7F = fc ∧ c &&& 0x80 ≠ 0 ↔ c = fc ||| 0x80) := by
  have h1 : (c &&& 0x7F).toNat = c.toNat % 128 :=
    forall_byte (P := fun c => (c &&& 0x7F).toNat = c.toNat % 128) (by decide +kernel) c
  have h2 : c &&& 0x80 = 0 ↔ c.toNat < 128 :=
    forall_byte (P := fun c => c &&& 0x80 = 0 ↔ c.toNat < 128) (by decide +kernel) c
  have h3 : fc.toNat < 128 → (fc ||| 0x80).toNat = fc.toNat + 128 :=
    forall_byte (P := fun c => c.toNat < 128 → (c ||| 0x80).toNat = c.toNat + 128) (by decide +kernel) fc
  have h3 := h3 hfc
  have hc := c.toNat_lt
  simp only [ne_eq, h2, ← UInt8.toNat_inj, h1, h3]
  omega

end Modbus

namespace Modbus

theorem parseFunctionCode_match (fc : UInt8) (hfc : fc.toNat < 128) (d : List UInt8) :
    parseFunctionCode fc (fc :: d) = .ret (.ok d) := by
  have h := (fc_cases fc fc hfc).1.2 rfl
  rw [parseFunctionCode_cons, if_neg (by simp [h.1]), if_neg (by simp [h.2])]

theorem parseFunctionCode_exc (fc : UInt8) (hfc : fc.toNat < 128) (d : List UInt8) :
    parseFunctionCode fc ((fc ||| 0x80) :: d) =
      match d with
       | [code] => .ret (.error (.modbus (parseExceptionType code)))
       | _ => .ret (.error .malformedResponse) := by
  have h := (fc_cases fc (fc ||| 0x80) hfc).2.2 rfl
  rw [parseFunctionCode_cons, if_neg (by simp [h.1]), if_pos (by simp only [ne_eq]; exact h.2)]

theorem parseFunctionCode_other (fc c : UInt8) (hfc : fc.toNat < 128) (h1 : c ≠ fc) (h2 : c ≠ fc ||| 0x80) (d : List UInt8) :
    parseFunctionCode fc (c :: d) = .ret (.error .malformedResponse) := by
  obtain ⟨ha, hb⟩ := fc_cases fc c hfc
  rw [parseFunctionCode_cons, if_pos]
  intro h
  by_cases h8 : c &&& 0x80 = 0
  · exact h1 (ha.1 ⟨h, h8⟩)
  · exact h2 (hb.1 ⟨h, h8⟩)

theorem parseExceptionType_eq (c : UInt8) : parseExceptionType c = Spec.exceptionOfCode c :=
  forall_byte (P := fun c => parseExceptionType c = Spec.exceptionOfCode c) (by decide +kernel) c

/-- What is left to do after the function code has been checked, per message type. -/
def respBody : (k : Kind) → Req k → List UInt8 → CM (Expected (Resp k))
  | .readCoils, q, view | .readDiscreteInputs, q, view =>
      match view with
      | [] => .ret (.error .malformedResponse)
      | n :: body =>
        if body.length ≠ n.toNat then .ret (.error .malformedResponse)
        else if n.toNat ≠ Spec.bytesFor q.qty.toNat then .ret (.error .malformedResponse)
        else .ret (.ok (Spec.labelBits q.start ((allBits body).take q.qty.toNat)))
  | .readHoldingRegisters, q, view | .readInputRegisters, q, view =>
      match view with
      | [] => .ret (.error .malformedResponse)
      | n :: body =>
        if n.toNat % 2 ≠ 0 then .ret (.error .malformedResponse)
        else if body.length ≠ 2 * q.qty.toNat then .ret (.error .malformedResponse)
        else .ret (.ok (Spec.labelRegs q.start (readRegs body)))
  | .writeSingleCoil, _, view =>
      match view with
      | [a, b, c, d] =>
        if joinU16 c d = coilOn then .ret (.ok ⟨joinU16 a b, true⟩)
        else if joinU16 c d = coilOff then .ret (.ok ⟨joinU16 a b, false⟩)
        else .ret (.error .malformedResponse)
      | _ => .ret (.error .malformedResponse)
  | .writeSingleRegister, _, view =>
      match view with
      | [a, b, c, d] => .ret (.ok ⟨joinU16 a b, joinU16 c d⟩)
      | _ => .ret (.error .malformedResponse)
  | .writeMultipleCoils, _, view | .writeMultipleRegisters, _, view =>
      match view with
      | [a, b, c, d] => .ret (.ok ⟨joinU16 a b, joinU16 c d⟩)
      | _ => .ret (.error .malformedResponse)

theorem parseResp_eq (k : Kind) (q : Req k) (d : List UInt8) :
    parseResp k q d = (parseFunctionCode (Spec.fc k) d >>= fun r =>
      match r with
      | .error e => .ret (.error e)
      | .ok view => respBody k q view) := by
  rcases h : parseFunctionCode (Spec.fc k) d with _ | r
  · cases k <;> simp only [Spec.fc] at h <;>
      simp [parseResp, parseBitsResp, parseRegsResp, parseSingleCoilResp, parseSingleRegResp, parseWriteMultiResp, h]
  · rcases r with e | view
    · cases k <;> simp only [Spec.fc] at h <;>
      simp [parseResp, parseBitsResp, parseRegsResp, parseSingleCoilResp, parseSingleRegResp, parseWriteMultiResp, h]
    · have hbits : ∀ q : ReadReq, ∀ body, unpackBitVals q.qty.toNat body q.start [] =
          Spec.labelBits q.start ((allBits body).take q.qty.toNat) := by
        intro q body; rw [unpackBitVals_eq _ _ _ _ (by simp)]; simp
      cases k <;> simp only [Spec.fc] at h <;> simp only [parseResp, parseBitsResp, parseRegsResp, parseSingleCoilResp,
        parseSingleRegResp, parseWriteMultiResp, h, CM.ret_bind, CM.pure_eq, respBody, hbits, byteCount_eq, readRegVals_eq]
      case readCoils | readDiscreteInputs | readHoldingRegisters | readInputRegisters =>
        cases view with
        | nil => simp
        | cons n body => simp
      all_goals
        match view with
        | [] | [_] | [_, _] | [_, _, _] | [_, _, _, _] => simp
        | _ :: _ :: _ :: _ :: _ :: _ => simp

theorem fc_lt (k : Kind) : (Spec.fc k).toNat < 128 := by cases k <;> decide

theorem parseResp_nil (k : Kind) (q : Req k) : parseResp k q [] = .ret (.error .malformedResponse) := by
  rw [parseResp_eq]; rfl

theorem parseResp_match (k : Kind) (q : Req k) (d : List UInt8) :
    parseResp k q (Spec.fc k :: d) = respBody k q d := by
  rw [parseResp_eq, parseFunctionCode_match _ (fc_lt k)]; rfl

theorem parseResp_exc (k : Kind) (q : Req k) (code : UInt8) :
    parseResp k q [Spec.fc k ||| 0x80, code] = .ret (.error (.modbus (Spec.exceptionOfCode code))) := by
  rw [parseResp_eq, parseFunctionCode_exc _ (fc_lt k), ← parseExceptionType_eq]; rfl

theorem parseResp_exc_bad (k : Kind) (q : Req k) (d : List UInt8) (h : d.length ≠ 1) :
    parseResp k q ((Spec.fc k ||| 0x80) :: d) = .ret (.error .malformedResponse) := by
  rw [parseResp_eq, parseFunctionCode_exc _ (fc_lt k)]
  match d, h with
  | [], _ => rfl
  | _ :: _ :: _, _ => rfl

theorem parseResp_other (k : Kind) (q : Req k) (c : UInt8) (d : List UInt8) (h1 : c ≠ Spec.fc k) (h2 : c ≠ Spec.fc k ||| 0x80) :
    parseResp k q (c :: d) = .ret (.error .malformedResponse) := by
  rw [parseResp_eq, parseFunctionCode_other _ _ (fc_lt k) h1 h2]; rfl

theorem fc_ne_exc (k : Kind) : Spec.fc k ≠ Spec.fc k ||| 0x80 := by cases k <;> decide

theorem respBody_total (k : Kind) (q : Req k) (d : List UInt8) :
    (∃ r, respBody k q d = .ret (.ok r)) ∨ respBody k q d = .ret (.error .malformedResponse) := by
  cases k <;> simp only [respBody] <;> repeat' split
  all_goals simp


/-- Success requires the request's function code. -/
theorem parseResp_ok (k : Kind) (q : Req k) (d : List UInt8) (r : Resp k) :
    parseResp k q d = .ret (.ok r) ↔ ∃ view, d = Spec.fc k :: view ∧ respBody k q view = .ret (.ok r) := by
  cases d with
  | nil => rw [parseResp_nil]; simp
  | cons c d =>
    by_cases h1 : c = Spec.fc k
    · subst h1
      rw [parseResp_match]
      simp
    · constructor
      · intro h
        by_cases h2 : c = Spec.fc k ||| 0x80
        · subst h2
          by_cases h3 : d.length = 1
          · match d, h3 with
            | [x], _ => rw [parseResp_exc] at h; cases h
          · rw [parseResp_exc_bad _ _ _ h3] at h; cases h
        · rw [parseResp_other _ _ _ _ h1 h2] at h; cases h
      · rintro ⟨view, h, -⟩
        injection h with h; exact absurd h h1

theorem respBody_bits {q : ReadReq} {d : List UInt8} {vs : List BitVal} :
    respBody .readCoils q d = .ret (.ok vs) ↔ ∃ bc body bits, d = bc :: body ∧ bc.toNat = Spec.bytesFor q.qty.toNat ∧
      Spec.FirstBits q.qty.toNat body bits ∧ vs = Spec.labelBits q.start bits := by
  cases d with
  | nil => simp [respBody]
  | cons n body =>
    simp only [respBody]
    constructor
    · intro h
      split at h
      · cases h
      · split at h
        · cases h
        · injection h with h; injection h with h
          exact ⟨n, body, _, rfl, by omega, (firstBits_iff _ _ _).2 ⟨by omega, rfl⟩, h.symm⟩
    · rintro ⟨bc, body', bits, h, h2, h3, rfl⟩
      injection h with ha hb; subst ha hb
      obtain ⟨h4, h5⟩ := (firstBits_iff _ _ _).1 h3
      rw [if_neg (by omega), if_neg (by omega), h5]

theorem respBody_regs {q : ReadReq} {d : List UInt8} {vs : List RegVal} :
    respBody .readHoldingRegisters q d = .ret (.ok vs) ↔ ∃ bc regs, d = bc :: Spec.regBytes regs ∧ bc.toNat % 2 = 0 ∧
      regs.length = q.qty.toNat ∧ vs = Spec.labelRegs q.start regs := by
  cases d with
  | nil => simp [respBody]
  | cons n body =>
    simp only [respBody]
    constructor
    · intro h
      split at h
      · cases h
      · split at h
        · cases h
        · injection h with h; injection h with h
          obtain ⟨h1, h2⟩ := regBytes_readRegs body q.qty.toNat (by omega)
          exact ⟨n, readRegs body, by rw [h1], by omega, h2, h.symm⟩
    · rintro ⟨bc, regs, h, h2, h3, rfl⟩
      injection h with ha hb; subst ha hb
      rw [if_neg (by omega), if_neg (by rw [regBytes_length]; omega), readRegs_regBytes]

end Modbus
