import Verif.Lemmas.Codec
import Verif.Spec.Db
import Mathlib.Data.List.Forall2

namespace Modbus

namespace Table

variable {T : Type}

/-- Keys strictly increase (the representation invariant of `std::map`). -/
def Sorted (t : Table T) : Prop := t.Pairwise fun x y => x.1 < y.1

theorem sorted_cons {x : UInt16 × T} {t : Table T} : Sorted (x :: t) ↔ (∀ y ∈ t, x.1 < y.1) ∧ Sorted t := List.pairwise_cons

theorem sorted_iff_keys {t : Table T} : Sorted t ↔ (t.map (·.1)).Pairwise (· < ·) := by
  rw [List.pairwise_map]; rfl

theorem lookup_cons (k a : UInt16) (v : T) (r : Table T) : ((k, v) :: r).lookup a = if a = k then some v else r.lookup a := by
  rw [List.lookup_cons]
  by_cases h : a = k
  · subst h; simp
  · rw [if_neg h]
    split
    · rename_i h2; exact absurd (by simpa using h2) h
    · rfl

theorem lookup_none_of_keys {t : Table T} {a : UInt16} (h : ∀ y ∈ t, y.1 ≠ a) : t.lookup a = none := by
  induction t with
  | nil => rfl
  | cons x t ih =>
    rw [lookup_cons, if_neg (fun e => h x (by simp) e.symm)]
    exact ih fun y hy => h y (by simp [hy])

theorem keys_of_lookup {t : Table T} {a : UInt16} {v : T} (h : t.lookup a = some v) : ∃ y ∈ t, y.1 = a := by
  by_contra hn
  rw [lookup_none_of_keys (fun y hy e => hn ⟨y, hy, e⟩)] at h
  cases h

theorem u16_lt_irrefl (a : UInt16) : ¬ a < a := by rw [lt16]; omega
theorem u16_ne_of_lt {a b : UInt16} (h : a < b) : b ≠ a := by rintro rfl; exact u16_lt_irrefl _ h

theorem find_spec (t : Table T) (a : UInt16) :
    (t.find a = [] ∧ t.lookup a = none) ∨ (∃ v r, t.find a = (a, v) :: r ∧ t.lookup a = some v) := by
  induction t with
  | nil => exact Or.inl ⟨rfl, rfl⟩
  | cons x t ih =>
    rcases x with ⟨k, w⟩
    rw [lookup_cons]
    by_cases h : k = a
    · subst h
      exact Or.inr ⟨w, t, by simp [find], by simp⟩
    · simp only [find, if_neg h, if_neg (fun e : a = k => h e.symm)]
      exact ih

theorem find_sorted {t : Table T} (h : Sorted t) (a : UInt16) : Sorted (t.find a) := by
  induction t with
  | nil => exact h
  | cons x t ih =>
    rcases x with ⟨k, w⟩
    simp only [find]
    split
    · exact h
    · exact ih (sorted_cons.1 h).2

theorem getValue_eq (t : Table T) (a : UInt16) : t.getValue a = t.lookup a := by
  rcases find_spec t a with ⟨h1, h2⟩ | ⟨v, r, h1, h2⟩ <;> simp [getValue, h1, h2]

theorem insert_spec {t : Table T} (hs : Sorted t) (a : UInt16) (v : T) :
    Sorted (t.insert a v).1 ∧ (t.insert a v).2 = (t.lookup a).isNone ∧
    (∀ x, (t.insert a v).1.lookup x = if t.lookup a = none ∧ x = a then some v else t.lookup x) ∧
    (∀ y ∈ (t.insert a v).1, y.1 = a ∨ y ∈ t) := by
  induction t with
  | nil =>
    refine ⟨by simp [insert, Sorted], by simp [insert], ?_, by simp [insert]⟩
    intro x
    simp only [insert, lookup_cons, List.lookup_nil, true_and]
  | cons y t ih =>
    rcases y with ⟨k, w⟩
    have ⟨h1, h2⟩ := sorted_cons.1 hs
    obtain ⟨i1, i2, i3, i4⟩ := ih h2
    simp only [insert]
    by_cases hlt : a < k
    · rw [if_pos hlt]
      have hnone : ((k, w) :: t).lookup a = none := by
        apply lookup_none_of_keys
        intro y hy
        rcases List.mem_cons.1 hy with rfl | hy
        · exact u16_ne_of_lt hlt
        · have := h1 y hy
          exact u16_ne_of_lt (by rw [lt16] at *; simp only at this; omega)
      refine ⟨?_, by rw [hnone]; rfl, ?_, fun y hy => by
        rcases List.mem_cons.1 hy with rfl | hy
        · exact Or.inl rfl
        · exact Or.inr hy⟩
      · rw [sorted_cons]
        refine ⟨?_, hs⟩
        intro y hy
        rcases List.mem_cons.1 hy with rfl | hy
        · exact hlt
        · have := h1 y hy
          rw [lt16] at *; simp only at this; simp only; omega
      · intro x
        rw [hnone, lookup_cons]
        simp
    · rw [if_neg hlt]
      by_cases heq : k = a
      · subst heq
        rw [if_pos rfl]
        refine ⟨hs, by rw [lookup_cons]; simp, ?_, fun y hy => Or.inr hy⟩
        intro x
        rw [lookup_cons k k, if_pos rfl]
        simp
      · rw [if_neg heq]
        have hne : ¬ a = k := fun e => heq e.symm
        simp only
        rw [lookup_cons, if_neg hne]
        refine ⟨?_, i2, ?_, ?_⟩
        · rw [sorted_cons]
          refine ⟨?_, i1⟩
          intro y hy
          rcases i4 y hy with hya | hy
          · rw [hya]; simp only
            have : k.toNat ≠ a.toNat := fun e => heq (UInt16.toNat_inj.1 e)
            rw [lt16] at *; omega
          · exact h1 y hy
        · intro x
          rw [lookup_cons, i3, lookup_cons]
          by_cases hxk : x = k
          · subst hxk; simp [heq]
          · simp only [if_neg hxk]
        · intro y hy
          rcases List.mem_cons.1 hy with rfl | hy
          · right; simp
          · rcases i4 y hy with h | h
            · exact Or.inl h
            · exact Or.inr (by simp [h])

theorem assign_keys (t : Table T) (a : UInt16) (v : T) : (t.assign a v).map (·.1) = t.map (·.1) := by
  induction t with
  | nil => rfl
  | cons x t ih =>
    simp only [assign]
    split
    · rfl
    · simp [ih]

theorem assign_lookup (t : Table T) (a : UInt16) (v : T) (h : t.lookup a ≠ none) (x : UInt16) :
    (t.assign a v).lookup x = if x = a then some v else t.lookup x := by
  induction t with
  | nil => exact absurd rfl h
  | cons y t ih =>
    rcases y with ⟨k, w⟩
    rw [lookup_cons] at h
    simp only [assign]
    by_cases hk : k = a
    · subst hk
      rw [if_pos rfl, lookup_cons, lookup_cons]
      split <;> rfl
    · rw [if_neg hk, lookup_cons, lookup_cons]
      rw [if_neg (fun e => hk e.symm)] at h
      rw [ih h]
      by_cases hxk : x = k
      · subst hxk; simp [hk]
      · simp [hxk]

theorem setValue_spec (t : Table T) (a : UInt16) (v : T) :
    (t.setValue a v).1.map (·.1) = t.map (·.1) ∧ (t.setValue a v).2 = (t.lookup a).isSome ∧
    ∀ x, (t.setValue a v).1.lookup x = if (t.lookup a).isSome = true ∧ x = a then some v else t.lookup x := by
  rcases find_spec t a with ⟨h1, h2⟩ | ⟨w, r, h1, h2⟩
  · simp [setValue, h1, h2]
  · simp only [setValue, h1, h2, Option.isSome_some, true_and]
    exact ⟨assign_keys _ _ _, fun x => assign_lookup _ _ _ (by rw [h2]; simp) x⟩

/-- The first `n` elements have the keys `a`, `a+1`, ... -/
def Consec (a : Nat) (n : Nat) (it : Table T) : Prop :=
  match n with
  | 0 => True
  | n + 1 =>
    match it with
    | [] => False
    | (k, _) :: r => k.toNat = a ∧ Consec (a + 1) n r

theorem sizeT_of_lt {i : Nat} (h : i < 2 ^ 64) : sizeT (i : Int) = i := by
  simp only [sizeT]; omega

theorem rangeLoop_iff (start : UInt16) (count : Nat) (it : Table T) : ∀ (cur : UInt16), start.toNat ≤ cur.toNat →
    (rangeLoop start count cur it = true ↔ cur.toNat - start.toNat + 1 ≤ count ∧
      Consec (cur.toNat + 1) (count - (cur.toNat - start.toNat + 1)) it) := by
  induction it with
  | nil =>
    intro cur h
    have hc := cur.toNat_lt
    have e : ((cur.toNat : Int) - start.toNat + 1) = ((cur.toNat - start.toNat + 1 : Nat) : Int) := by omega
    simp only [rangeLoop, e]
    rw [sizeT_of_lt (by omega)]
    simp only [beq_iff_eq]
    constructor
    · rintro rfl
      exact ⟨Nat.le_refl _, by rw [Nat.sub_self]; trivial⟩
    · rintro ⟨h1, h2⟩
      rcases Nat.lt_or_ge (cur.toNat - start.toNat + 1) count with h3 | h3
      · rw [show count - (cur.toNat - start.toNat + 1) = (count - (cur.toNat - start.toNat + 1) - 1) + 1 by omega] at h2
        exact h2.elim
      · omega
  | cons x it ih =>
    rcases x with ⟨k, w⟩
    intro cur h
    have hc := cur.toNat_lt
    have hk := k.toNat_lt
    have e : ((cur.toNat : Int) - start.toNat + 1) = ((cur.toNat - start.toNat + 1 : Nat) : Int) := by omega
    simp only [rangeLoop, e]
    rw [sizeT_of_lt (by omega)]
    by_cases h3 : cur.toNat - start.toNat + 1 < count
    · rw [if_pos h3, show count - (cur.toNat - start.toNat + 1) = (count - (cur.toNat - start.toNat + 1) - 1) + 1 by omega]
      simp only [Consec]
      by_cases h4 : k.toNat = cur.toNat + 1
      · rw [if_neg (by omega), ih k (by omega), h4]
        rw [show count - (cur.toNat + 1 - start.toNat + 1) = count - (cur.toNat - start.toNat + 1) - 1 by omega]
        constructor
        · rintro ⟨_, h6⟩; exact ⟨by omega, rfl, h6⟩
        · rintro ⟨_, _, h6⟩; exact ⟨by omega, h6⟩
      · rw [if_pos (by omega)]
        simp only [Bool.false_eq_true, false_iff]
        rintro ⟨_, h5, _⟩
        exact h4 h5
    · rw [if_neg h3]
      simp only [beq_iff_eq]
      constructor
      · rintro rfl; exact ⟨Nat.le_refl _, by rw [Nat.sub_self]; trivial⟩
      · rintro ⟨h1, _⟩; omega

theorem isValidRange_iff (t : Table T) (start : UInt16) (count : Nat) :
    t.isValidRange start count = true ↔ 1 ≤ count ∧ Consec start.toNat count (t.find start) := by
  rcases find_spec t start with ⟨h1, h2⟩ | ⟨w, r, h1, h2⟩
  · simp only [isValidRange, h1, Bool.false_eq_true, false_iff]
    rintro ⟨h3, h4⟩
    cases count with
    | zero => omega
    | succ n => exact h4.elim
  · simp only [isValidRange, h1]
    rw [rangeLoop_iff start count r start (Nat.le_refl _)]
    simp only [Nat.sub_self, Nat.zero_add]
    constructor
    · rintro ⟨h3, h4⟩
      refine ⟨h3, ?_⟩
      rw [show count = (count - 1) + 1 by omega]
      exact ⟨rfl, h4⟩
    · rintro ⟨h3, h4⟩
      rw [show count = (count - 1) + 1 by omega] at h4
      exact ⟨h3, h4.2⟩

theorem consec_lookup {n : Nat} : ∀ {a : Nat} {it : Table T}, Sorted it → Consec a n it → ∀ i, i < n →
    a + i ≤ 65535 ∧ ∃ v, (it[i]?).map (·.2) = some v ∧ it.lookup (UInt16.ofNat (a + i)) = some v := by
  induction n with
  | zero => intro a it _ _ i h; omega
  | succ n ih =>
    intro a it hs hc i hi
    match it, hc with
    | (k, v) :: r, hc =>
      obtain ⟨hk, hc⟩ := hc
      have ⟨h1, h2⟩ := sorted_cons.1 hs
      cases i with
      | zero =>
        have := k.toNat_lt
        refine ⟨by omega, v, rfl, ?_⟩
        rw [lookup_cons, if_pos]
        apply UInt16.toNat_inj.1
        rw [ofNat16_toNat (by omega)]; omega
      | succ i =>
        obtain ⟨g1, w, g2, g3⟩ := ih h2 hc i (by omega)
        refine ⟨by omega, w, by simpa using g2, ?_⟩
        rw [lookup_cons, if_neg, show a + (i + 1) = a + 1 + i by omega, g3]
        intro e
        have := congrArg UInt16.toNat e
        rw [ofNat16_toNat (by omega)] at this
        omega

theorem consec_of_exists {n : Nat} : ∀ {k : UInt16} {v : T} {r : Table T}, Sorted ((k, v) :: r) →
    (∀ i, i < n → k.toNat + i ≤ 65535 ∧ (((k, v) :: r).lookup (UInt16.ofNat (k.toNat + i))).isSome = true) →
    Consec k.toNat n ((k, v) :: r) := by
  induction n with
  | zero => intros; trivial
  | succ n ih =>
    intro k v r hs he
    refine ⟨rfl, ?_⟩
    cases n with
    | zero => trivial
    | succ n =>
      obtain ⟨h1, h2⟩ := sorted_cons.1 hs
      obtain ⟨e1, e2⟩ := he 1 (by omega)
      have hne : ∀ i, 1 ≤ i → k.toNat + i ≤ 65535 → UInt16.ofNat (k.toNat + i) ≠ k := by
        intro i hi hle e
        have := congrArg UInt16.toNat e
        rw [ofNat16_toNat (by omega)] at this
        omega
      rw [lookup_cons, if_neg (hne 1 (by omega) e1)] at e2
      cases hl : r.lookup (UInt16.ofNat (k.toNat + 1)) with
      | none => rw [hl] at e2; cases e2
      | some w =>
        obtain ⟨y, hy, hyk⟩ := keys_of_lookup hl
        match r, hy, h1, h2, hs, he with
        | (k2, v2) :: r2, hy, h1, h2, hs, he =>
          have hk2 : k2.toNat = k.toNat + 1 := by
            have g1 : k < k2 := h1 (k2, v2) (by simp)
            rcases List.mem_cons.1 hy with rfl | hy2
            · simp only at hyk
              rw [hyk, ofNat16_toNat (by omega)]
            · have g2 : k2 < y.1 := (sorted_cons.1 h2).1 y hy2
              rw [lt16, hyk, ofNat16_toNat (by omega)] at g2
              rw [lt16] at g1
              omega
          have := ih (k := k2) (v := v2) (r := r2) h2 (by
            intro i hi
            obtain ⟨f1, f2⟩ := he (i + 1) (by omega)
            rw [lookup_cons, if_neg (hne (i + 1) (by omega) f1)] at f2
            rw [hk2, show k.toNat + 1 + i = k.toNat + (i + 1) by omega]
            exact ⟨f1, f2⟩)
          rw [hk2] at this
          exact this

/-- Elements from the iterator on are the elements with key at least that of the iterator. -/
theorem find_lookup {t : Table T} (hs : Sorted t) {a : UInt16} (h : t.lookup a ≠ none) (x : UInt16) (hx : a.toNat ≤ x.toNat) :
    (t.find a).lookup x = t.lookup x := by
  induction t with
  | nil => rfl
  | cons y t ih =>
    rcases y with ⟨k, w⟩
    obtain ⟨h1, h2⟩ := sorted_cons.1 hs
    simp only [find]
    by_cases hk : k = a
    · rw [if_pos hk]
    · rw [if_neg hk]
      rw [lookup_cons, if_neg (fun e => hk e.symm)] at h
      rw [ih h2 h, lookup_cons, if_neg]
      rintro rfl
      cases hl : t.lookup a with
      | none => exact h hl
      | some v =>
        obtain ⟨y, hy, hyk⟩ := keys_of_lookup hl
        have := h1 y hy
        rw [lt16, hyk] at this
        simp only at this
        omega

theorem isValidRange_spec {t : Table T} (hs : Sorted t) (a : UInt16) (n : Nat) :
    t.isValidRange a n = true ↔ Spec.RangeExists (fun x => t.lookup x) a n := by
  rw [isValidRange_iff]
  simp only [Spec.RangeExists, Spec.Exists]
  apply and_congr_right
  intro hn
  have ha := a.toNat_lt
  have hfl : t.lookup a ≠ none → ∀ i, a.toNat + i ≤ 65535 → (t.find a).lookup (UInt16.ofNat (a.toNat + i)) = t.lookup (UInt16.ofNat (a.toNat + i)) :=
    fun h i hi => find_lookup hs h _ (by rw [ofNat16_toNat (by omega)]; omega)
  constructor
  · intro hc i hi
    have hne : t.lookup a ≠ none := by
      rcases find_spec t a with ⟨h1, -⟩ | ⟨w, r, -, h2⟩
      · rw [h1, show n = (n - 1) + 1 by omega] at hc; exact hc.elim
      · rw [h2]; simp
    obtain ⟨h1, v, -, h2⟩ := consec_lookup (find_sorted hs a) hc i hi
    refine ⟨h1, ?_⟩
    rw [← hfl hne i h1, h2]; rfl
  · intro he
    rcases find_spec t a with ⟨-, h2⟩ | ⟨w, r, h1, h2⟩
    · have := (he 0 (by omega)).2
      rw [show UInt16.ofNat (a.toNat + 0) = a by simp, h2] at this
      cases this
    · rw [h1]
      have hs' := find_sorted hs a
      rw [h1] at hs'
      apply consec_of_exists hs'
      intro i hi
      obtain ⟨g1, g2⟩ := he i hi
      refine ⟨g1, ?_⟩
      rw [← h1, hfl (by rw [h2]; simp) i g1]
      exact g2

theorem readLoop_consec {n : Nat} : ∀ {a : Nat} {it : Table T}, Consec a n it → ∃ vs, readLoop it n = .ret vs ∧ vs.length = n ∧
    ∀ i, i < n → vs[i]? = (it[i]?).map (·.2) := by
  induction n with
  | zero => intro a it _; exact ⟨[], by simp [readLoop], rfl, by simp⟩
  | succ n ih =>
    intro a it hc
    match it, hc with
    | (k, v) :: r, hc =>
      obtain ⟨vs, h1, h2, h3⟩ := ih hc.2
      refine ⟨v :: vs, by simp [readLoop, h1], by simp [h2], ?_⟩
      intro i hi
      cases i with
      | zero => rfl
      | succ i => simpa using h3 i (by omega)

theorem mapM_option_eq_some {α β : Type} {f : α → Option β} : ∀ {l : List α} {vs : List β}, vs.length = l.length →
    (∀ i, (h : i < l.length) → f l[i] = vs[i]?) → l.mapM f = some vs := by
  intro l
  induction l with
  | nil => intro vs h _; simp at h; subst h; rfl
  | cons x l ih =>
    intro vs hl h
    match vs, hl with
    | v :: vs, hl =>
      have h0 := h 0 (by simp)
      simp at h0
      have := ih (vs := vs) (by simpa using hl) (fun i hi => by
        have := h (i + 1) (by simp; omega)
        simp only [List.getElem_cons_succ, List.getElem?_cons_succ] at this
        exact this)
      simp [List.mapM_cons, h0, this]

theorem getValues_spec {t : Table T} (hs : Sorted t) (a : UInt16) (n : Nat) :
    (¬ Spec.RangeExists (fun x => t.lookup x) a n ∧ t.getValues a n = .ret none) ∨
    (Spec.RangeExists (fun x => t.lookup x) a n ∧ ∃ vs, t.getValues a n = .ret (some vs) ∧ vs.length = n ∧
      Spec.values (fun x => t.lookup x) a n = some vs ∧ ∀ i, i < n → vs[i]? = t.lookup (UInt16.ofNat (a.toNat + i))) := by
  by_cases hr : Spec.RangeExists (fun x => t.lookup x) a n
  · right
    refine ⟨hr, ?_⟩
    have hv := (isValidRange_spec hs a n).2 hr
    obtain ⟨hn, hc⟩ := (isValidRange_iff t a n).1 hv
    obtain ⟨vs, h1, h2, h3⟩ := readLoop_consec hc
    have h4 : ∀ i, i < n → vs[i]? = t.lookup (UInt16.ofNat (a.toNat + i)) := by
      intro i hi
      obtain ⟨g1, v, g2, g3⟩ := consec_lookup (find_sorted hs a) hc i hi
      rw [h3 i hi, g2, ← g3, find_lookup hs]
      · have := (hr.2 0 (by omega)).2
        simp only [Spec.Exists, Nat.add_zero, UInt16.ofNat_toNat] at this
        intro hn
        rw [hn] at this; cases this
      · rw [ofNat16_toNat (by omega)]; omega
    refine ⟨vs, by simp [getValues, hv, h1], h2, ?_, h4⟩
    apply mapM_option_eq_some (by simp [h2])
    intro i hi
    simp only [List.getElem_range]
    exact (h4 i (by simpa using hi)).symm
  · left
    refine ⟨hr, ?_⟩
    have : t.isValidRange a n = false := by
      cases h : t.isValidRange a n with
      | false => rfl
      | true => exact absurd ((isValidRange_spec hs a n).1 h) hr
    simp [getValues, this]

theorem writeLoop_consec (vs : List T) : ∀ {a : UInt16} {it : Table T}, Sorted it → Consec a.toNat vs.length it →
    ∃ it', writeLoop it vs = .ret it' ∧ it'.map (·.1) = it.map (·.1) ∧ ∀ x, a.toNat ≤ x.toNat → it'.lookup x = Spec.putAll (fun x => it.lookup x) a vs x := by
  induction vs with
  | nil => intro a it _ _; exact ⟨it, by simp [writeLoop], rfl, fun x _ => by simp [Spec.putAll]⟩
  | cons v vs ih =>
    intro a it hs hc
    match it, hc with
    | (k, w) :: r, hc =>
      obtain ⟨hk, hc⟩ := hc
      have hka : k = a := UInt16.toNat_inj.1 hk
      subst hka
      obtain ⟨h1, h2⟩ := sorted_cons.1 hs
      cases vs with
      | nil =>
        refine ⟨(k, v) :: r, by simp [writeLoop], rfl, ?_⟩
        intro x hx
        simp only [Spec.putAll]
        rw [lookup_cons, lookup_cons, if_pos hx]
        by_cases hxk : x = k
        · subst hxk; simp
        · rw [if_neg hxk, if_neg hxk]
          have : x.toNat - k.toNat ≠ 0 := fun e => hxk (UInt16.toNat_inj.1 (by omega))
          rw [List.getElem?_eq_none (by simp; omega)]
      | cons v2 vs =>
        have hlt : k.toNat + 1 < 65536 := by
          have := (consec_lookup h2 hc 0 (by simp)).1
          omega
        have hk1 : (k + 1).toNat = k.toNat + 1 := by
          rw [UInt16.toNat_add]; simp; omega
        obtain ⟨it', g1, g2, g3⟩ := ih (a := k + 1) (it := r) h2 (by rw [hk1]; exact hc)
        refine ⟨(k, v) :: it', by simp only [writeLoop] at g1 ⊢; rw [g1]; rfl, by simp [g2], ?_⟩
        intro x hx
        rw [lookup_cons]
        simp only [Spec.putAll, lookup_cons, if_pos hx]
        by_cases hxk : x = k
        · subst hxk; simp
        · rw [if_neg hxk, if_neg hxk]
          have hxn : x.toNat ≠ k.toNat := fun e => hxk (UInt16.toNat_inj.1 e)
          rw [g3 x (by omega)]
          simp only [Spec.putAll, hk1]
          rw [if_pos (by omega), show x.toNat - k.toNat = (x.toNat - (k.toNat + 1)) + 1 by omega, List.getElem?_cons_succ]

theorem updateFrom_spec {t : Table T} (hs : Sorted t) {a : UInt16} {f : Table T → CM (Table T)} {g : UInt16 → Option T}
    (hne : t.lookup a ≠ none)
    (hf : ∃ it', f (t.find a) = .ret it' ∧ it'.map (·.1) = (t.find a).map (·.1) ∧ ∀ x, a.toNat ≤ x.toNat → it'.lookup x = g x) :
    ∃ t', t.updateFrom a f = .ret t' ∧ t'.map (·.1) = t.map (·.1) ∧
      ∀ x, t'.lookup x = if a.toNat ≤ x.toNat then g x else t.lookup x := by
  induction t with
  | nil => exact absurd rfl hne
  | cons y t ih =>
    rcases y with ⟨k, w⟩
    obtain ⟨h1, h2⟩ := sorted_cons.1 hs
    simp only [find] at hf
    simp only [updateFrom]
    by_cases hk : k = a
    · rw [if_pos hk] at hf ⊢
      obtain ⟨it', g1, g2, g3⟩ := hf
      refine ⟨it', g1, g2, ?_⟩
      intro x
      by_cases hx : a.toNat ≤ x.toNat
      · rw [if_pos hx]; exact g3 x hx
      · rw [if_neg hx]
        have hk' : ∀ y ∈ ((k, w) :: t), y.1 ≠ x := by
          intro y hy
          rcases List.mem_cons.1 hy with rfl | hy
          · rintro rfl; exact hx (by simp only [hk, Nat.le_refl])
          · have := h1 y hy
            rw [lt16] at this
            simp only [hk] at this
            rintro rfl; omega
        rw [lookup_none_of_keys hk']
        apply lookup_none_of_keys
        intro y hy e
        have : y.1 ∈ it'.map (·.1) := List.mem_map.2 ⟨y, hy, rfl⟩
        rw [g2] at this
        obtain ⟨z, hz, hzy⟩ := List.mem_map.1 this
        exact hk' z hz (by rw [hzy, e])
    · rw [if_neg hk] at hf ⊢
      rw [lookup_cons, if_neg (fun e => hk e.symm)] at hne
      obtain ⟨t', g1, g2, g3⟩ := ih h2 hne hf
      refine ⟨(k, w) :: t', by rw [g1]; rfl, by simp [g2], ?_⟩
      intro x
      rw [lookup_cons, lookup_cons, g3 x]
      by_cases hxk : x = k
      · subst hxk
        rw [if_pos rfl, if_pos rfl, if_neg]
        cases hl : t.lookup a with
        | none => exact absurd hl hne
        | some v =>
          obtain ⟨y, hy, hyk⟩ := keys_of_lookup hl
          have := h1 y hy
          rw [lt16, hyk] at this
          simp only at this
          omega
      · rw [if_neg hxk, if_neg hxk]

theorem setValues_spec {t : Table T} (hs : Sorted t) (a : UInt16) (vs : List T) :
    (¬ Spec.RangeExists (fun x => t.lookup x) a vs.length ∧ t.setValues a vs = .ret (t, false)) ∨
    (Spec.RangeExists (fun x => t.lookup x) a vs.length ∧ ∃ t', t.setValues a vs = .ret (t', true) ∧ t'.map (·.1) = t.map (·.1) ∧
      ∀ x, t'.lookup x = Spec.putAll (fun x => t.lookup x) a vs x) := by
  by_cases hr : Spec.RangeExists (fun x => t.lookup x) a vs.length
  · right
    refine ⟨hr, ?_⟩
    have hv := (isValidRange_spec hs a vs.length).2 hr
    obtain ⟨hn, hc⟩ := (isValidRange_iff t a vs.length).1 hv
    have hne : t.lookup a ≠ none := by
      have := (hr.2 0 (by omega)).2
      simp only [Spec.Exists, Nat.add_zero, UInt16.ofNat_toNat] at this
      intro hn
      rw [hn] at this; cases this
    obtain ⟨t', h1, h2, h3⟩ := updateFrom_spec (f := fun it => writeLoop it vs) (g := Spec.putAll (fun x => (t.find a).lookup x) a vs) hs hne (writeLoop_consec vs (find_sorted hs a) hc)
    refine ⟨t', by simp [setValues, hv, h1], h2, ?_⟩
    intro x
    rw [h3 x]
    simp only [Spec.putAll]
    by_cases hx : a.toNat ≤ x.toNat
    · simp only [if_pos hx, find_lookup hs hne x hx]
    · simp only [if_neg hx]
  · left
    refine ⟨hr, ?_⟩
    have : t.isValidRange a vs.length = false := by
      cases h : t.isValidRange a vs.length with
      | false => rfl
      | true => exact absurd ((isValidRange_spec hs a vs.length).1 h) hr
    simp [setValues, this]

theorem sorted_congr {t t' : Table T} (hs : Sorted t) (h : t'.map (·.1) = t.map (·.1)) : Sorted t' := by
  rw [sorted_iff_keys] at *; rw [h]; exact hs

end Table

namespace Db

/-- Representation invariant. -/
structure WF (db : Db) : Prop where
  coils : db.coils.Sorted
  discretes : db.discretes.Sorted
  holdings : db.holdings.Sorted
  inputs : db.inputs.Sorted

/-- What a database contains: the four maps. -/
def view (db : Db) : Spec.Tables :=
  ⟨fun a => db.coils.lookup a, fun a => db.discretes.lookup a, fun a => db.holdings.lookup a, fun a => db.inputs.lookup a⟩

theorem WF.empty : WF Db.empty := ⟨List.Pairwise.nil, List.Pairwise.nil, List.Pairwise.nil, List.Pairwise.nil⟩

theorem labelBitsFrom_eq (start : UInt16) (vs : List Bool) : ∀ i, labelBitsFrom start i vs = vs.mapIdx fun j b => ⟨Spec.nthAddr start (i + j), b⟩ := by
  induction vs with
  | nil => intro i; rfl
  | cons v vs ih =>
    intro i
    rw [labelBitsFrom, ih, List.mapIdx_cons]
    simp only [Spec.nthAddr, Nat.add_zero, List.cons.injEq, true_and]
    congr 1; funext j b; rw [show i + 1 + j = i + (j + 1) by omega]

theorem labelRegsFrom_eq (start : UInt16) (vs : List UInt16) : ∀ i, labelRegsFrom start i vs = vs.mapIdx fun j b => ⟨Spec.nthAddr start (i + j), b⟩ := by
  induction vs with
  | nil => intro i; rfl
  | cons v vs ih =>
    intro i
    rw [labelRegsFrom, ih, List.mapIdx_cons]
    simp only [Spec.nthAddr, Nat.add_zero, List.cons.injEq, true_and]
    congr 1; funext j b; rw [show i + 1 + j = i + (j + 1) by omega]

theorem readBits_spec {t : Table Bool} (hs : t.Sorted) (r : ReadReq) :
    readBits t r = .ret (Spec.read (fun x => t.lookup x) r.start r.qty.toNat (Spec.labelBits r.start)) := by
  rcases Table.getValues_spec hs r.start r.qty.toNat with ⟨h1, h2⟩ | ⟨h1, vs, h2, -, h3, -⟩
  · simp [readBits, h2, Spec.read, h1, Spec.illegalAddress]
  · simp [readBits, h2, Spec.read, h1, h3, labelBitsFrom_eq, Spec.labelBits]

theorem readRegs_spec {t : Table UInt16} (hs : t.Sorted) (r : ReadReq) :
    readRegs t r = .ret (Spec.read (fun x => t.lookup x) r.start r.qty.toNat (Spec.labelRegs r.start)) := by
  rcases Table.getValues_spec hs r.start r.qty.toNat with ⟨h1, h2⟩ | ⟨h1, vs, h2, -, h3, -⟩
  · simp [readRegs, h2, Spec.read, h1, Spec.illegalAddress]
  · simp [readRegs, h2, Spec.read, h1, h3, labelRegsFrom_eq, Spec.labelRegs]

theorem onRequest_spec {db : Db} (h : db.WF) (k : Kind) (r : Req k) :
    ∃ db', db.onRequest k r = .ret (db', (Spec.serve db.view k r).2) ∧ db'.view = (Spec.serve db.view k r).1 ∧ db'.WF := by
  cases k
  case readCoils => exact ⟨db, by simp only [onRequest, readBits_spec h.coils, CM.ret_bind]; rfl, rfl, h⟩
  case readDiscreteInputs => exact ⟨db, by simp only [onRequest, readBits_spec h.discretes, CM.ret_bind]; rfl, rfl, h⟩
  case readHoldingRegisters => exact ⟨db, by simp only [onRequest, readRegs_spec h.holdings, CM.ret_bind]; rfl, rfl, h⟩
  case readInputRegisters => exact ⟨db, by simp only [onRequest, readRegs_spec h.inputs, CM.ret_bind]; rfl, rfl, h⟩
  case writeSingleCoil =>
    obtain ⟨h1, h2, h3⟩ := Table.setValue_spec db.coils r.addr r.value
    simp only [onRequest]
    generalize db.coils.setValue r.addr r.value = x at h1 h2 h3
    rcases x with ⟨t, b⟩
    simp only at h1 h2 h3
    by_cases hx : Spec.Exists db.view.coils r.addr
    · rw [show b = true from h2.trans hx, show Spec.serve db.view .writeSingleCoil r = ({ db.view with coils := Spec.put db.view.coils r.addr r.value }, .ok r) from if_pos hx]
      refine ⟨{ db with coils := t }, rfl, ?_, ⟨Table.sorted_congr h.coils h1, h.2, h.3, h.4⟩⟩
      simp only [view, Spec.Tables.mk.injEq, and_true]
      funext x
      rw [h3 x]
      simp only [show (db.coils.lookup r.addr).isSome = true from hx, true_and, Spec.put]
    · rw [show b = false from h2.trans (Bool.eq_false_iff.2 hx), show Spec.serve db.view .writeSingleCoil r = (db.view, Spec.illegalAddress) from if_neg hx]
      exact ⟨db, rfl, rfl, h⟩
  case writeSingleRegister =>
    obtain ⟨h1, h2, h3⟩ := Table.setValue_spec db.holdings r.addr r.value
    simp only [onRequest]
    generalize db.holdings.setValue r.addr r.value = x at h1 h2 h3
    rcases x with ⟨t, b⟩
    simp only at h1 h2 h3
    by_cases hx : Spec.Exists db.view.holdings r.addr
    · rw [show b = true from h2.trans hx, show Spec.serve db.view .writeSingleRegister r = ({ db.view with holdings := Spec.put db.view.holdings r.addr r.value }, .ok r) from if_pos hx]
      refine ⟨{ db with holdings := t }, rfl, ?_, ⟨h.1, h.2, Table.sorted_congr h.holdings h1, h.4⟩⟩
      simp only [view, Spec.Tables.mk.injEq, and_true, true_and]
      funext x
      rw [h3 x]
      simp only [show (db.holdings.lookup r.addr).isSome = true from hx, true_and, Spec.put]
    · rw [show b = false from h2.trans (Bool.eq_false_iff.2 hx), show Spec.serve db.view .writeSingleRegister r = (db.view, Spec.illegalAddress) from if_neg hx]
      exact ⟨db, rfl, rfl, h⟩
  case writeMultipleCoils =>
    rcases Table.setValues_spec h.coils r.start r.values with ⟨h1, h2⟩ | ⟨h1, t, h2, h3, h4⟩
    · rw [show Spec.serve db.view .writeMultipleCoils r = (db.view, Spec.illegalAddress) from if_neg h1]
      exact ⟨db, by simp [onRequest, h2, Spec.illegalAddress], rfl, h⟩
    · rw [show Spec.serve db.view .writeMultipleCoils r = ({ db.view with coils := Spec.putAll db.view.coils r.start r.values }, .ok ⟨r.start, UInt16.ofNat r.values.length⟩) from if_pos h1]
      refine ⟨{ db with coils := t }, by simp [onRequest, h2], ?_, ⟨Table.sorted_congr h.coils h3, h.2, h.3, h.4⟩⟩
      simp only [view, Spec.Tables.mk.injEq, and_true]
      funext x; exact h4 x
  case writeMultipleRegisters =>
    rcases Table.setValues_spec h.holdings r.start r.values with ⟨h1, h2⟩ | ⟨h1, t, h2, h3, h4⟩
    · rw [show Spec.serve db.view .writeMultipleRegisters r = (db.view, Spec.illegalAddress) from if_neg h1]
      exact ⟨db, by simp [onRequest, h2, Spec.illegalAddress], rfl, h⟩
    · rw [show Spec.serve db.view .writeMultipleRegisters r = ({ db.view with holdings := Spec.putAll db.view.holdings r.start r.values }, .ok ⟨r.start, UInt16.ofNat r.values.length⟩) from if_pos h1]
      refine ⟨{ db with holdings := t }, by simp [onRequest, h2], ?_, ⟨h.1, h.2, Table.sorted_congr h.holdings h3, h.4⟩⟩
      simp only [view, Spec.Tables.mk.injEq, and_true, true_and]
      funext x; exact h4 x

theorem add_spec {T : Type} {t : Table T} (hs : t.Sorted) (a : UInt16) (v : T) :
    (t.addValue a v).1.Sorted ∧ ((fun x => (t.addValue a v).1.lookup x), DbRes.done (t.addValue a v).2) = Spec.add (fun x => t.lookup x) a v := by
  obtain ⟨h1, h2, h3, -⟩ := Table.insert_spec hs a v
  refine ⟨h1, ?_⟩
  simp only [Table.addValue]
  by_cases hx : Spec.Exists (fun x => t.lookup x) a
  · rw [show Spec.add (fun x => t.lookup x) a v = (fun x => t.lookup x, .done false) from if_pos hx]
    simp only [Prod.mk.injEq, DbRes.done.injEq]
    simp only [Spec.Exists] at hx
    have hl : t.lookup a ≠ none := by intro e; rw [e] at hx; cases hx
    refine ⟨?_, by rw [h2]; cases hl2 : t.lookup a <;> simp_all⟩
    funext x
    rw [h3 x, if_neg (fun e => hl e.1)]
  · rw [show Spec.add (fun x => t.lookup x) a v = (Spec.put (fun x => t.lookup x) a v, .done true) from if_neg hx]
    simp only [Prod.mk.injEq, DbRes.done.injEq]
    have hl : t.lookup a = none := Option.not_isSome_iff_eq_none.1 hx
    refine ⟨?_, by rw [h2, hl]; rfl⟩
    funext x
    rw [h3 x]
    simp only [hl, true_and, Spec.put]

theorem set_spec {T : Type} {t : Table T} (hs : t.Sorted) (a : UInt16) (v : T) :
    (t.setValue a v).1.Sorted ∧ ((fun x => (t.setValue a v).1.lookup x), DbRes.done (t.setValue a v).2) = Spec.set (fun x => t.lookup x) a v := by
  obtain ⟨h1, h2, h3⟩ := Table.setValue_spec t a v
  refine ⟨Table.sorted_congr hs h1, ?_⟩
  by_cases hx : Spec.Exists (fun x => t.lookup x) a
  · rw [show Spec.set (fun x => t.lookup x) a v = (Spec.put (fun x => t.lookup x) a v, .done true) from if_pos hx]
    simp only [Prod.mk.injEq, DbRes.done.injEq]
    refine ⟨?_, h2.trans hx⟩
    funext x
    rw [h3 x]
    simp only [show (t.lookup a).isSome = true from hx, true_and, Spec.put]
  · rw [show Spec.set (fun x => t.lookup x) a v = (fun x => t.lookup x, .done false) from if_neg hx]
    simp only [Prod.mk.injEq, DbRes.done.injEq]
    refine ⟨?_, h2.trans (Bool.eq_false_iff.2 hx)⟩
    funext x
    rw [h3 x, if_neg (fun e => hx e.1)]

theorem apply_spec {db : Db} (h : db.WF) (op : DbOp) :
    ∃ db', db.apply op = .ret (db', (Spec.dbStep db.view op).2) ∧ db'.view = (Spec.dbStep db.view op).1 ∧ db'.WF := by
  cases op with
  | addCoil a v =>
    obtain ⟨h1, h2⟩ := add_spec h.coils a v
    refine ⟨{ db with coils := (db.coils.addValue a v).1 }, ?_, ?_, ⟨h1, h.2, h.3, h.4⟩⟩ <;> simp only [apply, Spec.dbStep, view] <;> rw [← h2]
  | addDiscrete a v =>
    obtain ⟨h1, h2⟩ := add_spec h.discretes a v
    refine ⟨{ db with discretes := (db.discretes.addValue a v).1 }, ?_, ?_, ⟨h.1, h1, h.3, h.4⟩⟩ <;> simp only [apply, Spec.dbStep, view] <;> rw [← h2]
  | addHolding a v =>
    obtain ⟨h1, h2⟩ := add_spec h.holdings a v
    refine ⟨{ db with holdings := (db.holdings.addValue a v).1 }, ?_, ?_, ⟨h.1, h.2, h1, h.4⟩⟩ <;> simp only [apply, Spec.dbStep, view] <;> rw [← h2]
  | addInput a v =>
    obtain ⟨h1, h2⟩ := add_spec h.inputs a v
    refine ⟨{ db with inputs := (db.inputs.addValue a v).1 }, ?_, ?_, ⟨h.1, h.2, h.3, h1⟩⟩ <;> simp only [apply, Spec.dbStep, view] <;> rw [← h2]
  | getCoil a => exact ⟨db, by simp [apply, Spec.dbStep, Table.getValue_eq, view], rfl, h⟩
  | getDiscrete a => exact ⟨db, by simp [apply, Spec.dbStep, Table.getValue_eq, view], rfl, h⟩
  | getHolding a => exact ⟨db, by simp [apply, Spec.dbStep, Table.getValue_eq, view], rfl, h⟩
  | getInput a => exact ⟨db, by simp [apply, Spec.dbStep, Table.getValue_eq, view], rfl, h⟩
  | setCoil a v =>
    obtain ⟨h1, h2⟩ := set_spec h.coils a v
    refine ⟨{ db with coils := (db.coils.setValue a v).1 }, ?_, ?_, ⟨h1, h.2, h.3, h.4⟩⟩ <;> simp only [apply, Spec.dbStep, view] <;> rw [← h2]
  | setDiscrete a v =>
    obtain ⟨h1, h2⟩ := set_spec h.discretes a v
    refine ⟨{ db with discretes := (db.discretes.setValue a v).1 }, ?_, ?_, ⟨h.1, h1, h.3, h.4⟩⟩ <;> simp only [apply, Spec.dbStep, view] <;> rw [← h2]
  | setHolding a v =>
    obtain ⟨h1, h2⟩ := set_spec h.holdings a v
    refine ⟨{ db with holdings := (db.holdings.setValue a v).1 }, ?_, ?_, ⟨h.1, h.2, h1, h.4⟩⟩ <;> simp only [apply, Spec.dbStep, view] <;> rw [← h2]
  | setInput a v =>
    obtain ⟨h1, h2⟩ := set_spec h.inputs a v
    refine ⟨{ db with inputs := (db.inputs.setValue a v).1 }, ?_, ?_, ⟨h.1, h.2, h.3, h1⟩⟩ <;> simp only [apply, Spec.dbStep, view] <;> rw [← h2]
  | request k r =>
    obtain ⟨db', h1, h2, h3⟩ := onRequest_spec h k r
    refine ⟨db', by simp [apply, h1, Spec.dbStep], by simp [Spec.dbStep, h2], h3⟩

end Db

end Modbus
