import Verif.Model.Messages
import Verif.Spec.Pdu

namespace Modbus

theorem hiByte_toNat (v : UInt16) : (hiByte v).toNat = v.toNat / 256 := by
  have := v.toNat_lt
  simp [hiByte, UInt16.toNat_shiftRight, Nat.shiftRight_eq_div_pow]
  omega

theorem loByte_toNat (v : UInt16) : (loByte v).toNat = v.toNat % 256 := by
  simp [loByte]

theorem be_eq (v : UInt16) : Spec.be v.toNat = [hiByte v, loByte v] := by
  have := v.toNat_lt
  simp only [Spec.be, List.cons.injEq, and_true]
  constructor
  · apply UInt8.toNat_inj.1; rw [hiByte_toNat]; simp; omega
  · apply UInt8.toNat_inj.1; rw [loByte_toNat]; simp

theorem be_length (n : Nat) : (Spec.be n).length = 2 := rfl

theorem joinU16_toNat (hi lo : UInt8) : (joinU16 hi lo).toNat = hi.toNat * 256 + lo.toNat := by
  have h1 := hi.toNat_lt
  have h2 := lo.toNat_lt
  have h : joinU16 hi lo = UInt16.ofNat (hi.toNat * 256 + lo.toNat) := by
    apply UInt16.toNat_inj.1
    rw [joinU16, UInt16.toNat_or, UInt16.toNat_shiftLeft]
    simp only [UInt8.toNat_toUInt16, UInt16.reduceToNat, Nat.reduceMod, UInt16.toNat_ofNat']
    rw [Nat.shiftLeft_eq, Nat.mod_eq_of_lt (by omega), Nat.mod_eq_of_lt (by omega)]
    have := Nat.two_pow_add_eq_or_of_lt (i := 8) (b := lo.toNat) (by omega) hi.toNat
    rw [show hi.toNat * 2^8 = 2^8 * hi.toNat by omega, ← this]
  rw [h, UInt16.toNat_ofNat', Nat.mod_eq_of_lt (by omega)]

@[simp] theorem joinU16_hi_lo (v : UInt16) : joinU16 (hiByte v) (loByte v) = v := by
  apply UInt16.toNat_inj.1
  rw [joinU16_toNat, hiByte_toNat, loByte_toNat]; omega

@[simp] theorem hiByte_join (hi lo : UInt8) : hiByte (joinU16 hi lo) = hi := by
  have h2 := lo.toNat_lt
  apply UInt8.toNat_inj.1
  rw [hiByte_toNat, joinU16_toNat]; omega

@[simp] theorem loByte_join (hi lo : UInt8) : loByte (joinU16 hi lo) = lo := by
  have h2 := lo.toNat_lt
  apply UInt8.toNat_inj.1
  rw [loByte_toNat, joinU16_toNat]; omega

theorem be_ofNat_lt {n : Nat} (h : n < 65536) : Spec.be n = [hiByte (UInt16.ofNat n), loByte (UInt16.ofNat n)] := by
  rw [← be_eq, UInt16.toNat_ofNat', Nat.mod_eq_of_lt (by omega)]

/-! ### WSeq -/

/-- Result of writing `bs` in full. -/
def WSeq.put (w : WSeq) (bs : List UInt8) : WSeq := ⟨w.done ++ bs, w.rest.drop bs.length⟩

@[simp] theorem WSeq.put_nil (w : WSeq) : w.put [] = w := by simp [WSeq.put]

theorem WSeq.put_put (w : WSeq) (a b : List UInt8) : (w.put a).put b = w.put (a ++ b) := by
  simp [WSeq.put, List.drop_drop]

@[simp] theorem WSeq.put_rest_length (w : WSeq) (bs : List UInt8) :
    (w.put bs).rest.length = w.rest.length - bs.length := by simp [WSeq.put]

theorem WSeq.writeU8_eq (w : WSeq) (b : UInt8) (h : 1 ≤ w.rest.length) : w.writeU8 b = w.put [b] := by
  rcases w with ⟨d, r⟩
  cases r with
  | nil => simp at h
  | cons x r => simp [WSeq.writeU8, WSeq.put]

theorem WSeq.writeU16_eq (w : WSeq) (v : UInt16) (h : 2 ≤ w.rest.length) :
    w.writeU16 v = w.put [hiByte v, loByte v] := by
  rcases w with ⟨d, r⟩
  match r, h with
  | _ :: _ :: r, _ => simp [WSeq.writeU16, WSeq.put]

/-- `m` writes exactly `bs` (of its announced length) whenever there is room. -/
structure Msg.Writes (m : Msg) (bs : List UInt8) : Prop where
  length_eq : m.length = bs.length
  build_eq : ∀ w : WSeq, bs.length ≤ w.rest.length → m.build w = w.put bs

/-! ### reading -/

@[simp] theorem getU8_cons (b : UInt8) (r : List UInt8) : getU8 (b :: r) = .ret (b, r) := rfl
@[simp] theorem getU8_nil : getU8 [] = .ub := rfl
@[simp] theorem getU16_cons (a b : UInt8) (r : List UInt8) : getU16 (a :: b :: r) = .ret (joinU16 a b, r) := rfl

theorem writeRegs_eq (vs : List UInt16) (w : WSeq) (h : 2 * vs.length ≤ w.rest.length) :
    writeRegs vs w = w.put (Spec.regBytes vs) := by
  induction vs generalizing w with
  | nil => simp [writeRegs, Spec.regBytes]
  | cons v vs ih =>
    simp only [List.length_cons] at h
    rw [writeRegs, WSeq.writeU16_eq _ _ (by omega), ih _ (by simp; omega), WSeq.put_put]
    simp [Spec.regBytes, be_eq]

theorem regBytes_length (vs : List UInt16) : (Spec.regBytes vs).length = 2 * vs.length := by
  induction vs with
  | nil => rfl
  | cons v vs ih => simp only [Spec.regBytes, List.flatMap_cons, List.length_append, be_length, List.length_cons] at *; omega

theorem readRegs_regBytes (vs : List UInt16) : readRegs (Spec.regBytes vs) = vs := by
  induction vs with
  | nil => rfl
  | cons v vs ih =>
    have : Spec.regBytes (v :: vs) = hiByte v :: loByte v :: Spec.regBytes vs := by
      simp [Spec.regBytes, be_eq]
    rw [this, readRegs, ih, joinU16_hi_lo]

theorem regBytes_readRegs (d : List UInt8) (n : Nat) (h : d.length = 2 * n) :
    Spec.regBytes (readRegs d) = d ∧ (readRegs d).length = n := by
  induction n generalizing d with
  | zero => 
    have : d = [] := List.eq_nil_of_length_eq_zero (by omega)
    subst this; exact ⟨rfl, rfl⟩
  | succ n ih =>
    match d, h with
    | a :: b :: d, h =>
      have ⟨h1, h2⟩ := ih d (by simp only [List.length_cons] at h; omega)
      constructor
      · have : Spec.regBytes (readRegs (a :: b :: d)) = hiByte (joinU16 a b) :: loByte (joinU16 a b) :: Spec.regBytes (readRegs d) := by
          simp [readRegs, Spec.regBytes, be_eq]
        rw [this, h1]; simp
      · simp [readRegs, h2]

theorem nthAddr_zero (a : UInt16) : Spec.nthAddr a 0 = a := by simp [Spec.nthAddr]

theorem nthAddr_succ (a : UInt16) (i : Nat) : Spec.nthAddr a (i + 1) = Spec.nthAddr (a + 1) i := by
  apply UInt16.toNat_inj.1
  simp [Spec.nthAddr, UInt16.toNat_add]; omega

theorem nthAddr_succ' (a : UInt16) (i : Nat) : Spec.nthAddr a (i + 1) = Spec.nthAddr a i + 1 := by
  apply UInt16.toNat_inj.1
  simp [Spec.nthAddr, UInt16.toNat_add]; omega

theorem readRegVals_eq (d : List UInt8) (a : UInt16) : readRegVals d a = Spec.labelRegs a (readRegs d) := by
  induction d, a using readRegVals.induct with
  | case1 a hi lo v ih =>
    rw [readRegVals, readRegs, ih]
    simp only [Spec.labelRegs, List.mapIdx_cons, nthAddr_zero, List.cons.injEq, true_and]
    congr 1; funext i r; rw [nthAddr_succ]
  | case2 d a h => 
    match d, h with
    | [], _ => simp [readRegVals, readRegs, Spec.labelRegs]
    | [x], _ => simp [readRegVals, readRegs, Spec.labelRegs]
    | x :: y :: d, h => exact absurd rfl (h x y d)

end Modbus
