import Verif.Model.Format
import Verif.Model.Messages
import Mathlib.Data.List.Induction

/-! C75, C76: text forms of identifiers and exception types. -/

namespace Modbus.Props

open Modbus

/-- The upper-case hexadecimal digits. -/
def hexDigit (d : Fin 16) : Char :=
  ['0', '1', '2', '3', '4', '5', '6', '7', '8', '9', 'A', 'B', 'C', 'D', 'E', 'F'].get d

/-- The last `w` hexadecimal digits of `n`. -/
def hexDigits : Nat → Nat → List Char
  | 0, _ => []
  | w + 1, n => hexDigits w (n / 16) ++ [hexDigit ⟨n % 16, Nat.mod_lt _ (by decide)⟩]

namespace FormatAux

theorem digit_hex (d : Nat) (h : d < 16) : OStream.digit true d = hexDigit ⟨d, h⟩ := by
  have : ∀ d : Fin 16, OStream.digit true d.1 = hexDigit d := by decide
  exact this ⟨d, h⟩

theorem digits_length_pos (n : Nat) : 1 ≤ (OStream.digits 16 true n).length := by
  unfold OStream.digits; split <;> simp

theorem digits_length (w n : Nat) (h : n < 16 ^ (w + 1)) : (OStream.digits 16 true n).length ≤ w + 1 := by
  induction w generalizing n with
  | zero =>
    unfold OStream.digits
    rw [dif_neg (by omega)]; simp
  | succ w ih =>
    unfold OStream.digits
    split
    · have := ih (n / 16) (by rw [Nat.div_lt_iff_lt_mul (by decide)]; rw [Nat.pow_succ] at h; exact h)
      simp; omega
    · simp

theorem padded (w n : Nat) (h : n < 16 ^ (w + 1)) :
    List.replicate (w + 1 - (OStream.digits 16 true n).length) '0' ++ OStream.digits 16 true n = hexDigits (w + 1) n := by
  induction w generalizing n with
  | zero =>
    have hn : n < 16 := by simpa using h
    unfold OStream.digits
    rw [dif_neg (by omega), digit_hex n hn]
    simp [hexDigits, Nat.mod_eq_of_lt hn]
  | succ w ih =>
    have hq : n / 16 < 16 ^ (w + 1) := by rw [Nat.div_lt_iff_lt_mul (by decide)]; rw [Nat.pow_succ] at h; exact h
    have hr := Nat.mod_lt n (by decide : 0 < 16)
    show _ = hexDigits (w + 1) (n / 16) ++ [_]
    rw [← ih (n / 16) hq]
    by_cases hn : 16 ≤ n
    · have : OStream.digits 16 true n = OStream.digits 16 true (n / 16) ++ [hexDigit ⟨n % 16, hr⟩] := by
        rw [OStream.digits, dif_pos ⟨by decide, hn⟩, digit_hex _ hr]
      rw [this, List.length_append, List.length_singleton, ← List.append_assoc]
      have hl := digits_length w (n / 16) hq
      rw [show w + 1 + 1 - ((OStream.digits 16 true (n / 16)).length + 1) = w + 1 - (OStream.digits 16 true (n / 16)).length by omega]
    · have h0 : n / 16 = 0 := Nat.div_eq_of_lt (by omega)
      have h1 : n % 16 = n := Nat.mod_eq_of_lt (by omega)
      have h2 : OStream.digits 16 true n = [hexDigit ⟨n % 16, hr⟩] := by
        rw [OStream.digits, dif_neg (by omega), digit_hex n (by omega)]; simp [h1]
      have h3 : OStream.digits 16 true 0 = ['0'] := by decide +kernel
      rw [h0, h2, h3]
      simp only [List.length_singleton, Nat.add_sub_cancel]
      rw [List.replicate_succ']

theorem hexDigit_inj : ∀ a b : Fin 16, hexDigit a = hexDigit b → a = b := by decide

theorem hexDigits_inj (w m n : Nat) (hm : m < 16 ^ w) (hn : n < 16 ^ w) (h : hexDigits w m = hexDigits w n) : m = n := by
  induction w generalizing m n with
  | zero => simp at hm hn; omega
  | succ w ih =>
    obtain ⟨h1, h2⟩ := List.append_inj' h rfl
    have h3 := ih (m / 16) (n / 16) (by rw [Nat.div_lt_iff_lt_mul (by decide)]; rw [Nat.pow_succ] at hm; exact hm)
      (by rw [Nat.div_lt_iff_lt_mul (by decide)]; rw [Nat.pow_succ] at hn; exact hn) h1
    have h4 := hexDigit_inj _ _ (List.head_eq_of_cons_eq h2)
    have h5 : m % 16 = n % 16 := congrArg Fin.val h4
    omega

theorem hexDigits_length (w n : Nat) : (hexDigits w n).length = w := by
  induction w generalizing n with
  | zero => rfl
  | succ w ih => simp [hexDigits, ih]

theorem putId_eq (w n : Nat) (h : n < 16 ^ (w + 1)) (s : OStream) (ha : s.adjust ≠ .left) (hs : s.showbase = false) (hw : s.width ≤ 2) :
    putId (w + 1) s n = { s with out := s.out ++ (['0', 'x'] ++ hexDigits (w + 1) n), width := 0, fill := '0', radix := .hex, uppercase := true } := by
  rw [← padded w n h]
  obtain ⟨out, width, fill, adjust, radix, upper, showbase⟩ := s
  simp only at ha hs hw
  subst hs
  have hz : width - 2 = 0 := by omega
  cases adjust with
  | left => exact absurd rfl ha
  | none => simp [putId, OStream.putStr, OStream.put, OStream.putNat, hz]
  | right => simp [putId, OStream.putStr, OStream.put, OStream.putNat, hz]
  | internal => simp [putId, OStream.putStr, OStream.put, OStream.putNat, hz]

end FormatAux

/-- C75, full statement: whatever the state of the stream, an identifier is written as `0x` and its two (four) upper-case digits, and
distinct identifiers are written differently. -/
def C75_Statement : Prop := ∀ s : OStream,
  (∀ u : UInt8, (putUnit s u).out = s.out ++ (['0', 'x'] ++ hexDigits 2 u.toNat)) ∧
  (∀ t : UInt16, (putTid s t).out = s.out ++ (['0', 'x'] ++ hexDigits 4 t.toNat)) ∧
  (∀ u u' : UInt8, (putUnit s u).out = (putUnit s u').out → u = u') ∧
  (∀ t t' : UInt16, (putTid s t).out = (putTid s t').out → t = t')

/-- A stream set to left adjustment. -/
def leftStream : OStream := { OStream.fresh with adjust := .left }

/-- C75 fails: the operators do not set the adjustment.  On a stream set to `std::left` unit 0x0A and unit 0xA0 are both written `0xA0`. -/
theorem C75_violated : ¬ C75_Statement := by
  intro h
  have := (h leftStream).2.2.1 0x0A 0xA0 (by decide +kernel)
  exact absurd this (by decide)

/-- Transaction identifiers likewise. -/
theorem C75_tid_ambiguous : (putTid leftStream 0x0012).out = (putTid leftStream 0x1200).out ∧ (0x0012 : UInt16) ≠ 0x1200 := by decide +kernel

/-- With `std::showbase` the prefix is written twice (and the digits are not filled up). -/
theorem C75_showbase : (putUnit { OStream.fresh with showbase := true } 0x0A).out = "0x0XA".toList := by decide +kernel

/-- C75 (partial: the stream does not adjust left, does not show the base and has no pending width above two — as is the case for every
new stream). -/
theorem C75_identifier_text_partial (s : OStream) (ha : s.adjust ≠ .left) (hs : s.showbase = false) (hw : s.width ≤ 2) :
    (∀ u : UInt8, (putUnit s u).out = s.out ++ (['0', 'x'] ++ hexDigits 2 u.toNat)) ∧
    (∀ t : UInt16, (putTid s t).out = s.out ++ (['0', 'x'] ++ hexDigits 4 t.toNat)) ∧
    (∀ u u' : UInt8, (putUnit s u).out = (putUnit s u').out → u = u') ∧
    (∀ t t' : UInt16, (putTid s t).out = (putTid s t').out → t = t') := by
  have hu : ∀ u : UInt8, u.toNat < 16 ^ (1 + 1) := fun u => by have := u.toNat_lt; omega
  have ht : ∀ t : UInt16, t.toNat < 16 ^ (3 + 1) := fun t => by have := t.toNat_lt; omega
  have h1 : ∀ u : UInt8, (putUnit s u).out = s.out ++ (['0', 'x'] ++ hexDigits 2 u.toNat) := fun u => by
    show (putId (1 + 1) s u.toNat).out = _
    rw [FormatAux.putId_eq 1 _ (hu u) s ha hs hw]
  have h2 : ∀ t : UInt16, (putTid s t).out = s.out ++ (['0', 'x'] ++ hexDigits 4 t.toNat) := fun t => by
    show (putId (3 + 1) s t.toNat).out = _
    rw [FormatAux.putId_eq 3 _ (ht t) s ha hs hw]
  refine ⟨h1, h2, fun u u' h => ?_, fun t t' h => ?_⟩
  · rw [h1, h1] at h
    have := List.append_cancel_left (List.append_cancel_left h)
    exact UInt8.toNat_inj.1 (FormatAux.hexDigits_inj 2 _ _ (hu u) (hu u') this)
  · rw [h2, h2] at h
    have := List.append_cancel_left (List.append_cancel_left h)
    exact UInt16.toNat_inj.1 (FormatAux.hexDigits_inj 4 _ _ (ht t) (ht t') this)

/-- The operators leave the stream changed: an integer written afterwards comes out in upper-case hexadecimal. -/
theorem C75_leaves_format : ((putUnit OStream.fresh 1).putNat 255).out = "0x01FF".toList := by decide +kernel

/-- Under the same conditions unit and transaction identifiers can be written one after the other, in any order. -/
theorem C75_identifiers_in_a_row_partial (s : OStream) (ha : s.adjust ≠ .left) (hs : s.showbase = false) (hw : s.width ≤ 2)
    (us : List (UInt8 ⊕ UInt16)) :
    (us.foldl (fun s x => match x with | .inl u => putUnit s u | .inr t => putTid s t) s).out =
      s.out ++ us.flatMap fun x => match x with
        | .inl u => ['0', 'x'] ++ hexDigits 2 u.toNat
        | .inr t => ['0', 'x'] ++ hexDigits 4 t.toNat := by
  induction us generalizing s with
  | nil => simp
  | cons x us ih =>
    rcases x with u | t
    · have hu : u.toNat < 16 ^ (1 + 1) := by have := u.toNat_lt; omega
      have h1 : putUnit s u = _ := FormatAux.putId_eq 1 _ hu s ha hs hw
      simp only [List.foldl_cons]
      rw [ih]
      · rw [h1]; simp
      · rw [h1]; exact ha
      · rw [h1]; exact hs
      · rw [h1]; exact Nat.zero_le _
    · have hu : t.toNat < 16 ^ (3 + 1) := by have := t.toNat_lt; omega
      have h1 : putTid s t = _ := FormatAux.putId_eq 3 _ hu s ha hs hw
      simp only [List.foldl_cons]
      rw [ih]
      · rw [h1]; simp
      · rw [h1]; exact ha
      · rw [h1]; exact hs
      · rw [h1]; exact Nat.zero_le _

example : (putUnit OStream.fresh 0x0A).out = "0x0A".toList ∧ (putTid OStream.fresh 0xBEEF).out = "0xBEEF".toList := by decide +kernel

example : (putUnit { OStream.fresh with out := ['>'], adjust := .internal, fill := '*', radix := .oct } 0xC).out =
    ['>'] ++ (['0', 'x'] ++ hexDigits 2 12) :=
  (C75_identifier_text_partial _ (by decide) (by decide) (by decide)).1 0xC

/-! ### C76 -/

/-- C76: the message of a Modbus exception identifies its type. -/
theorem C76_message_identifies (e e' : ExceptionType) (h : exceptionMessage e = exceptionMessage e') : e = e' := by
  cases e <;> cases e' <;> first | rfl | exact absurd h (by decide +kernel)

/-- C76: and it is never empty. -/
theorem C76_message_nonempty (e : ExceptionType) : exceptionMessage e ≠ [] := by
  cases e <;> decide +kernel

example : exceptionMessage .gatewayPathUnavailable = "Gateway path unavailable".toList := by decide +kernel

/-- The names of the exception codes in the Modbus specification ("MODBUS Application Protocol", section 7). -/
def exceptionNames : List (UInt8 × String) :=
  [(1, "Illegal function"), (2, "Illegal data address"), (3, "Illegal data value"), (4, "Server device failure"), (5, "Acknowledge"),
   (6, "Server device busy"), (8, "Memory parity error"), (10, "Gateway path unavailable"), (11, "Gateway target device failed to respond")]

/-- C76: the message of an exception received with a code of the specification is the name of that code; with any other code it is "Unknown". -/
theorem C76_message_names_code (code : UInt8) :
    exceptionMessage (parseExceptionType code) = ((exceptionNames.lookup code).getD "Unknown").toList := by
  have : ∀ i : Fin 256, exceptionMessage (parseExceptionType (UInt8.ofNat i)) = ((exceptionNames.lookup (UInt8.ofNat i)).getD "Unknown").toList := by
    decide +kernel
  have h := this ⟨code.toNat, code.toNat_lt⟩
  simpa using h

example : exceptionMessage (parseExceptionType 6) = "Server device busy".toList ∧ exceptionMessage (parseExceptionType 9) = "Unknown".toList := by
  decide +kernel

end Modbus.Props
