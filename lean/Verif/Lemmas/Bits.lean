import Verif.Lemmas.Bytes

namespace Modbus

theorem byteCount_eq (n : Nat) : byteCount n = Spec.bytesFor n := by
  unfold byteCount Spec.bytesFor; split <;> omega

/-- Little-endian value of a list of bits. -/
def bitsToNat : List Bool → Nat
  | [] => 0
  | b :: bs => b.toNat + 2 * bitsToNat bs

theorem bitsToNat_lt (bs : List Bool) : bitsToNat bs < 2 ^ bs.length := by
  induction bs with
  | nil => simp [bitsToNat]
  | cons b bs ih =>
    simp only [bitsToNat, List.length_cons, Nat.pow_succ]
    have := Bool.toNat_le b; omega

theorem bitsToNat_append_one (bs : List Bool) (b : Bool) :
    bitsToNat (bs ++ [b]) = bitsToNat bs + b.toNat * 2 ^ bs.length := by
  induction bs with
  | nil => simp [bitsToNat]
  | cons c bs ih =>
    simp only [List.cons_append, bitsToNat, ih, List.length_cons, Nat.pow_succ]
    rw [Nat.mul_add]
    have : 2 * (b.toNat * 2 ^ bs.length) = b.toNat * (2 ^ bs.length * 2) := by
      rw [Nat.mul_comm, Nat.mul_assoc]
    omega

theorem testBit_bitsToNat (bs : List Bool) (i : Nat) : (bitsToNat bs).testBit i = bs[i]?.getD false := by
  induction bs generalizing i with
  | nil => simp [bitsToNat]
  | cons b bs ih =>
    cases i with
    | zero => cases b <;> simp [bitsToNat, Nat.testBit_zero] <;> omega
    | succ i =>
      rw [Nat.testBit_succ, show bitsToNat (b :: bs) / 2 = bitsToNat bs from ?_, ih]
      · simp
      · simp only [bitsToNat]; cases b <;> simp <;> omega

/-- Packing of a list of bits into bytes (helper for the proofs). -/
def packAux (bs : List Bool) : List UInt8 :=
  match bs with
  | [] => []
  | b :: bs => UInt8.ofNat (bitsToNat ((b :: bs).take 8)) :: packAux ((b :: bs).drop 8)
termination_by bs.length
decreasing_by simp; omega

theorem packAux_nil : packAux [] = [] := by rw [packAux]

theorem packAux_of_ne_nil (bs : List Bool) (h : bs ≠ []) :
    packAux bs = UInt8.ofNat (bitsToNat (bs.take 8)) :: packAux (bs.drop 8) := by
  cases bs with
  | nil => exact absurd rfl h
  | cons b bs => rw [packAux]

theorem packAux_length (bs : List Bool) : (packAux bs).length = Spec.bytesFor bs.length := by
  induction bs using packAux.induct with
  | case1 => simp [packAux_nil, Spec.bytesFor]
  | case2 b bs ih =>
    rw [packAux_of_ne_nil _ (by simp), List.length_cons, ih]
    simp only [Spec.bytesFor, List.length_drop, List.length_cons]; omega

theorem bit?_packAux (bs : List Bool) (i : Nat) (h : i < 8 * (packAux bs).length) :
    Spec.bit? (packAux bs) i = some (bs[i]?.getD false) := by
  induction bs using packAux.induct generalizing i with
  | case1 => simp [packAux_nil] at h
  | case2 b bs ih =>
    rw [packAux_of_ne_nil _ (by simp)] at h ⊢
    simp only [List.length_cons] at h
    by_cases hi : i < 8
    · have h0 : i / 8 = 0 := by omega
      have h1 : i % 8 = i := by omega
      have hlt := bitsToNat_lt ((b :: bs).take 8)
      have : ((b :: bs).take 8).length ≤ 8 := by simp [List.length_take]; omega
      have h3 : bitsToNat ((b :: bs).take 8) < 256 :=
        lt_of_lt_of_le hlt (Nat.pow_le_pow_right (by omega) this)
      simp only [Spec.bit?, h0, h1, List.getElem?_cons_zero, Option.map_some, UInt8.toNat_ofNat', Option.some.injEq]
      rw [Nat.mod_eq_of_lt h3, testBit_bitsToNat, List.getElem?_take_of_lt hi]
    · have h0 : i / 8 = (i - 8) / 8 + 1 := by omega
      have h1 : i % 8 = (i - 8) % 8 := by omega
      have := ih (i - 8) (by omega)
      simp only [Spec.bit?] at this ⊢
      rw [h0, h1, List.getElem?_cons_succ, this, List.getElem?_drop, show 8 + (i - 8) = i by omega]
where lt_of_lt_of_le {a b c : Nat} (h : a < b) (h' : b ≤ c) : a < c := by omega

theorem packs_packAux (bs : List Bool) : Spec.Packs bs (packAux bs) :=
  ⟨packAux_length bs, bit?_packAux bs⟩

theorem or_shift_eq (ps : List Bool) (v : Bool) (h : ps.length < 8) :
    UInt8.ofNat (bitsToNat ps) ||| UInt8.ofNat (v.toNat <<< ps.length) = UInt8.ofNat (bitsToNat (ps ++ [v])) := by
  have h1 := bitsToNat_lt ps
  have h2 := bitsToNat_lt (ps ++ [v])
  have h8 : 2 ^ ps.length ≤ 2 ^ 7 := Nat.pow_le_pow_right (by omega) (by omega)
  rw [List.length_append, List.length_singleton] at h2
  have h9 : 2 ^ (ps.length + 1) ≤ 2 ^ 8 := Nat.pow_le_pow_right (by omega) (by omega)
  apply UInt8.toNat_inj.1
  rw [UInt8.toNat_or, UInt8.toNat_ofNat', UInt8.toNat_ofNat', UInt8.toNat_ofNat',
    Nat.mod_eq_of_lt (a := bitsToNat ps) (by omega), Nat.mod_eq_of_lt (a := bitsToNat (ps ++ [v])) (by omega),
    bitsToNat_append_one]
  rw [Nat.shiftLeft_eq]
  have h3 : v.toNat * 2 ^ ps.length < 256 := by
    have := Bool.toNat_le v
    calc v.toNat * 2 ^ ps.length ≤ 1 * 2 ^ ps.length := Nat.mul_le_mul_right _ this
      _ < 256 := by omega
  rw [Nat.mod_eq_of_lt (by omega)]
  have := Nat.two_pow_add_eq_or_of_lt h1 v.toNat
  rw [Nat.mul_comm (2 ^ ps.length)] at this
  rw [Nat.or_comm, ← this, Nat.add_comm]

theorem packLoop_eq (vs ps : List Bool) (w : WSeq) (hp : ps.length < 8)
    (hw : (packAux (ps ++ vs)).length ≤ w.rest.length) :
    packLoop vs (UInt8.ofNat (bitsToNat ps)) ps.length w = w.put (packAux (ps ++ vs)) := by
  induction vs generalizing ps w with
  | nil =>
    rw [packLoop, List.append_nil] at *
    by_cases h : ps.length = 0
    · have : ps = [] := List.eq_nil_of_length_eq_zero h
      subst this; simp [packAux_nil]
    · have hne : ps ≠ [] := by intro h'; simp [h'] at h
      rw [if_pos h]
      rw [packAux_of_ne_nil _ hne, List.take_of_length_le (by omega), List.drop_of_length_le (by omega),
        packAux_nil] at hw ⊢
      rw [WSeq.writeU8_eq _ _ (by simpa using hw)]
  | cons v vs ih =>
    rw [packLoop]
    have hcur : (if v = true then UInt8.ofNat (bitsToNat ps) ||| UInt8.ofNat (1 <<< ps.length)
        else UInt8.ofNat (bitsToNat ps)) = UInt8.ofNat (bitsToNat (ps ++ [v])) := by
      rw [← or_shift_eq ps v hp]
      cases v <;> simp
    simp only [hcur]
    by_cases h : ps.length + 1 = 8
    · rw [if_pos h]
      have hl : (ps ++ [v]).length = 8 := by simp [h]
      have hne : ps ++ v :: vs ≠ [] := by simp
      have htake : (ps ++ v :: vs).take 8 = ps ++ [v] := by
        rw [show ps ++ v :: vs = (ps ++ [v]) ++ vs by simp, List.take_left' hl]
      have hdrop : (ps ++ v :: vs).drop 8 = vs := by
        rw [show ps ++ v :: vs = (ps ++ [v]) ++ vs by simp, List.drop_left' hl]
      rw [packAux_of_ne_nil _ hne, htake, hdrop] at hw ⊢
      simp only [List.length_cons] at hw
      rw [WSeq.writeU8_eq _ _ (by omega)]
      have := ih [] (w.put [UInt8.ofNat (bitsToNat (ps ++ [v]))]) (by simp) (by simpa using by omega)
      simp only [bitsToNat, List.length_nil, List.nil_append] at this
      rw [show (0x00 : UInt8) = UInt8.ofNat 0 from rfl, this, WSeq.put_put]
      rfl
    · rw [if_neg h]
      have := ih (ps ++ [v]) w (by simp; omega) (by simpa using hw)
      simpa using this

theorem coilByteLoop_eq (values : List Bool) (n j c : Nat) (ps : List Bool) (hj : ps.length = j) (hn : n + j = 8) :
    coilByteLoop values n j c (UInt8.ofNat (bitsToNat ps)) =
      (UInt8.ofNat (bitsToNat (ps ++ (values.drop c).take n)), min (c + n) (max c values.length)) := by
  induction n generalizing j c ps with
  | zero => simp [coilByteLoop]; omega
  | succ n ih =>
    rw [coilByteLoop]
    split
    · rename_i h
      rw [← hj, or_shift_eq ps values[c] (by omega), hj]
      rw [ih (j + 1) (c + 1) (ps ++ [values[c]]) (by simp [hj]) (by omega)]
      rw [List.drop_eq_getElem_cons h, List.take_succ_cons]
      simp only [List.append_assoc, List.singleton_append, Prod.mk.injEq, true_and]
      omega
    · rename_i h
      rw [List.drop_of_length_le (by omega)]
      simp; omega

theorem coilBytesLoop_eq (values : List Bool) (n c : Nat) (w : WSeq)
    (hn : n = Spec.bytesFor (values.length - c)) (hw : n ≤ w.rest.length) (hc : c ≤ values.length) :
    coilBytesLoop values n c w = w.put (packAux (values.drop c)) := by
  induction n generalizing c w with
  | zero =>
    have : c = values.length := by simp only [Spec.bytesFor] at hn; omega
    subst this; simp [coilBytesLoop, packAux_nil]
  | succ n ih =>
    rw [coilBytesLoop]
    have := coilByteLoop_eq values 8 0 c [] rfl rfl
    simp only [bitsToNat, List.nil_append] at this
    rw [show (0x00 : UInt8) = UInt8.ofNat 0 from rfl, this]
    simp only [Spec.bytesFor] at hn
    have hlt : c < values.length := by omega
    have hne : values.drop c ≠ [] := by simp; omega
    by_cases h8 : c + 8 ≤ values.length
    · have hm : min (c + 8) (max c values.length) = c + 8 := by omega
      simp only [hm]
      rw [WSeq.writeU8_eq _ _ (by omega), ih (c + 8) _ (by simp only [Spec.bytesFor]; omega) (by simp; omega) h8,
        WSeq.put_put, packAux_of_ne_nil _ hne, List.drop_drop]
      rfl
    · have hm : min (c + 8) (max c values.length) = values.length := by omega
      simp only [hm]
      rw [WSeq.writeU8_eq _ _ (by omega), ih values.length _ (by simp only [Spec.bytesFor]; omega) (by simp; omega) (by omega),
        WSeq.put_put, packAux_of_ne_nil _ hne, List.drop_drop, List.drop_of_length_le (i := values.length) (by omega),
        List.drop_of_length_le (i := c + 8) (by omega)]
      rfl

/-! ### unpacking -/

theorem bitOf_eq (b : UInt8) (i : Nat) : bitOf b i = b.toNat.testBit i := by
  simp [bitOf, Nat.testBit, Nat.and_comm]

/-- All bits of a byte string, LSB first. -/
def allBits (bytes : List UInt8) : List Bool := bytes.flatMap fun b => (List.range 8).map (bitOf b)

theorem allBits_cons (b : UInt8) (r : List UInt8) : allBits (b :: r) = (List.range 8).map (bitOf b) ++ allBits r := rfl

theorem allBits_length (bytes : List UInt8) : (allBits bytes).length = 8 * bytes.length := by
  induction bytes with
  | nil => rfl
  | cons b r ih => rw [allBits_cons, List.length_append, ih]; simp; omega

theorem allBits_get (bytes : List UInt8) (i : Nat) : (allBits bytes)[i]? = Spec.bit? bytes i := by
  induction bytes generalizing i with
  | nil => simp [allBits, Spec.bit?]
  | cons b r ih =>
    rw [allBits_cons]
    by_cases h : i < 8
    · rw [List.getElem?_append_left (by simp; omega)]
      have h0 : i / 8 = 0 := by omega
      have h1 : i % 8 = i := by omega
      simp [Spec.bit?, h0, h1, bitOf_eq, h]
    · rw [List.getElem?_append_right (by simp; omega)]
      have h0 : i / 8 = (i - 8) / 8 + 1 := by omega
      have h1 : i % 8 = (i - 8) % 8 := by omega
      simp only [List.length_map, List.length_range]
      rw [ih]
      simp only [Spec.bit?]
      rw [h0, h1, List.getElem?_cons_succ]

theorem extractBits_eq (b : UInt8) (n i : Nat) (acc : List Bool) :
    extractBits b n i acc = acc ++ (List.range' i n).map (bitOf b) := by
  induction n generalizing i acc with
  | zero => simp [extractBits]
  | succ n ih => rw [extractBits, ih]; simp [List.range'_succ]

theorem extractBits_take (b : UInt8) (n : Nat) (hn : n ≤ 8) (acc : List Bool) :
    extractBits b n 0 acc = acc ++ ((List.range 8).map (bitOf b)).take n := by
  rw [extractBits_eq, ← List.map_take, List.take_range, Nat.min_eq_left hn, List.range_eq_range']

theorem subSizeT_of_le {a b : Nat} (h : b ≤ a) : subSizeT a b = a - b := if_pos h

theorem unpackBits_eq (qty : Nat) (view : List UInt8) (acc : List Bool) (h : acc.length ≤ qty) :
    unpackBits qty view acc = acc ++ (allBits view).take (qty - acc.length) := by
  induction view generalizing acc with
  | nil => simp [unpackBits, allBits]
  | cons b r ih =>
    rw [unpackBits]
    simp only [subSizeT_of_le h]
    have hn : (if qty - acc.length > 8 then 8 else qty - acc.length) = min 8 (qty - acc.length) := by
      split <;> omega
    rw [hn, extractBits_take _ _ (by omega), ih]
    · rw [allBits_cons, List.take_append, List.append_assoc]
      simp only [List.length_append, List.length_take, List.length_map, List.length_range]
      congr 2
      · by_cases h8 : 8 ≤ qty - acc.length
        · rw [Nat.min_eq_left h8, List.take_of_length_le (by simp), List.take_of_length_le (by simpa using h8)]
        · rw [Nat.min_eq_right (by omega)]
      · congr 1; omega
    · simp; omega

theorem extractBitVals_eq (b : UInt8) (n i : Nat) (a : UInt16) (acc : List BitVal) :
    extractBitVals b n i a acc =
      (Spec.nthAddr a n, acc ++ Spec.labelBits a ((List.range' i n).map (bitOf b))) := by
  induction n generalizing i a acc with
  | zero => simp [extractBitVals, Spec.labelBits, nthAddr_zero]
  | succ n ih =>
    rw [extractBitVals, ih, nthAddr_succ]
    simp only [List.range'_succ, List.map_cons, Spec.labelBits, List.mapIdx_cons, nthAddr_zero,
      List.append_assoc, List.singleton_append, Prod.mk.injEq, true_and]
    congr 3
    funext i r; rw [nthAddr_succ]

theorem labelBits_append (a : UInt16) (xs ys : List Bool) :
    Spec.labelBits a (xs ++ ys) = Spec.labelBits a xs ++ Spec.labelBits (Spec.nthAddr a xs.length) ys := by
  induction xs generalizing a with
  | nil => simp [Spec.labelBits, nthAddr_zero]
  | cons x xs ih =>
    have := ih (a + 1)
    simp only [Spec.labelBits] at this ⊢
    simp only [List.cons_append, List.mapIdx_cons, nthAddr_zero, List.length_cons, nthAddr_succ, List.cons.injEq,
      true_and]
    exact this

theorem labelBits_length (a : UInt16) (xs : List Bool) : (Spec.labelBits a xs).length = xs.length := by
  simp [Spec.labelBits]

theorem unpackBitVals_eq (qty : Nat) (view : List UInt8) (a : UInt16) (acc : List BitVal) (h : acc.length ≤ qty) :
    unpackBitVals qty view a acc = acc ++ Spec.labelBits a ((allBits view).take (qty - acc.length)) := by
  induction view generalizing acc a with
  | nil => simp [unpackBitVals, allBits, Spec.labelBits]
  | cons b r ih =>
    rw [unpackBitVals]
    simp only [subSizeT_of_le h]
    have hn : (if qty - acc.length > 8 then 8 else qty - acc.length) = min 8 (qty - acc.length) := by
      split <;> omega
    rw [hn, extractBitVals_eq]
    simp only
    have ht : (List.range' 0 (min 8 (qty - acc.length))).map (bitOf b) =
        ((List.range 8).map (bitOf b)).take (qty - acc.length) := by
      rw [← List.map_take, List.take_range, List.range_eq_range', Nat.min_comm]
    have hl : (((List.range 8).map (bitOf b)).take (qty - acc.length)).length = min 8 (qty - acc.length) := by
      simp; omega
    rw [ht, ih]
    · rw [allBits_cons, List.take_append, labelBits_append, List.append_assoc, hl]
      congr 3
      simp only [List.length_append, labelBits_length, List.length_take, List.length_map, List.length_range]
      congr 1; omega
    · simp only [List.length_append, labelBits_length, hl]; omega

theorem bytesFor_le (n : Nat) : n ≤ 8 * Spec.bytesFor n := by simp only [Spec.bytesFor]; omega

theorem firstBits_iff (n : Nat) (bytes : List UInt8) (bits : List Bool) :
    Spec.FirstBits n bytes bits ↔ bytes.length = Spec.bytesFor n ∧ bits = (allBits bytes).take n := by
  constructor
  · rintro ⟨h1, h2, h3⟩
    refine ⟨h2, ?_⟩
    apply List.ext_getElem?
    intro i
    by_cases hi : i < n
    · rw [← h3 i hi, List.getElem?_take_of_lt hi, allBits_get]
    · rw [List.getElem?_eq_none (by omega), List.getElem?_eq_none (by simp; omega)]
  · rintro ⟨h2, rfl⟩
    have := bytesFor_le n
    refine ⟨by simp [allBits_length, h2]; omega, h2, fun i hi => ?_⟩
    rw [List.getElem?_take_of_lt hi, allBits_get]

theorem packs_firstBits {bits : List Bool} {bytes : List UInt8} (h : Spec.Packs bits bytes) :
    Spec.FirstBits bits.length bytes bits := by
  refine ⟨rfl, h.length_eq, fun i hi => ?_⟩
  have := bytesFor_le bits.length
  rw [h.bit_eq i (by rw [h.length_eq]; omega)]
  rw [List.getElem?_eq_getElem hi]; rfl

theorem packs_unique {bits : List Bool} {b1 b2 : List UInt8} (h1 : Spec.Packs bits b1) (h2 : Spec.Packs bits b2) :
    b1 = b2 := by
  have hl : b1.length = b2.length := h1.length_eq.trans h2.length_eq.symm
  apply List.ext_getElem hl
  intro n hn1 hn2
  apply UInt8.toNat_inj.1
  apply Nat.eq_of_testBit_eq
  intro i
  by_cases hi : i < 8
  · have e1 := h1.bit_eq (8 * n + i) (by omega)
    have e2 := h2.bit_eq (8 * n + i) (by omega)
    rw [← e2] at e1
    simp only [Spec.bit?, show (8 * n + i) / 8 = n by omega, show (8 * n + i) % 8 = i by omega,
      List.getElem?_eq_getElem hn1, List.getElem?_eq_getElem hn2, Option.map_some, Option.some.injEq] at e1
    exact e1
  · rw [Nat.testBit_lt_two_pow, Nat.testBit_lt_two_pow]
    · calc _ < 2 ^ 8 := (b2[n]).toNat_lt
        _ ≤ 2 ^ i := Nat.pow_le_pow_right (by omega) (by omega)
    · calc _ < 2 ^ 8 := (b1[n]).toNat_lt
        _ ≤ 2 ^ i := Nat.pow_le_pow_right (by omega) (by omega)

end Modbus
