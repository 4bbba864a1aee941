import Verif.Model.ExampleServer
import Verif.Spec.ExampleServer
import Verif.Props.DbThreads

/-!
Lemmas about the example server program.
-/

namespace Modbus.ExampleServer

open Modbus Spec

theorem odd_eq (i : UInt16) : (i % 2 != 0) = decide (i.toNat % 2 = 1) := by
  have h : (i % 2).toNat = i.toNat % 2 := by rw [UInt16.toNat_mod]; rfl
  by_cases hm : i.toNat % 2 = 1
  · have : i % 2 ≠ 0 := by intro h0; rw [h0] at h; simp at h; omega
    simp [hm, this]
  · have : i % 2 = 0 := UInt16.toNat_inj.1 (by rw [h]; simp; omega)
    simp [hm, this]

theorem points_succ {T : Type} (f : UInt16 → T) (i : UInt16) :
    put (fun a => if a.toNat < i.toNat then some (f a) else none) i (f i) = fun a => if a.toNat < i.toNat + 1 then some (f a) else none := by
  funext x
  simp only [put]
  by_cases hx : x = i
  · subst hx; simp
  · have : x.toNat ≠ i.toNat := fun h => hx (UInt16.toNat_inj.1 h)
    rw [if_neg hx]
    by_cases h : x.toNat < i.toNat
    · rw [if_pos h, if_pos (by omega)]
    · rw [if_neg h, if_neg (by omega)]

theorem add_new {T : Type} (f : UInt16 → T) (i : UInt16) :
    add (fun a => if a.toNat < i.toNat then some (f a) else none) i (f i) =
      (fun a => if a.toNat < i.toNat + 1 then some (f a) else none, .done true) := by
  simp only [add]
  rw [if_neg (by simp [Spec.Exists]), points_succ]

theorem lap_spec (i : UInt16) (ops : List DbOp) :
    dbRun (examplePoints i.toNat) (lap i ++ ops) =
      ((dbRun (examplePoints (i.toNat + 1)) ops).1,
        [.done true, .done true, .done true, .done true] ++ (dbRun (examplePoints (i.toNat + 1)) ops).2) := by
  simp only [lap, List.cons_append, List.nil_append, dbRun, dbStep, examplePoints, odd_eq]
  simp only [add_new (fun a : UInt16 => decide (a.toNat % 2 = 1)) i, add_new (fun a : UInt16 => a) i]

theorem fillFrom_spec (n : Nat) : ∀ i : UInt16, i.toNat + n = 100 →
    dbRun (examplePoints i.toNat) (fillFrom i) = (examplePoints 100, List.replicate (4 * n) (.done true)) := by
  induction n with
  | zero =>
    intro i hi
    rw [fillFrom, if_neg (by rw [UInt16.lt_iff_toNat_lt]; simp; omega)]
    simp [dbRun, show i.toNat = 100 by omega]
  | succ n ih =>
    intro i hi
    have h1 : (i + 1).toNat = i.toNat + 1 := by rw [UInt16.toNat_add, show (1 : UInt16).toNat = 1 from rfl]; omega
    rw [fillFrom, if_pos (by rw [UInt16.lt_iff_toNat_lt]; simp; omega), lap_spec, ← h1, ih (i + 1) (by omega)]
    simp [Nat.mul_succ, List.replicate_succ]

/-- The tables `d`, where coil 0 is `v`, and the tables `e` the requests alone would have led to. -/
structure Holds (d : Tables) (v : Bool) (e : Tables) : Prop where
  coil : d.coils 0 = some v
  others : ∀ a, a ≠ 0 → d.coils a = e.coils a
  holdings : d.holdings = e.holdings
  coilsExist : ∀ a, Spec.Exists e.coils a ↔ a.toNat < 100
  holdingsExist : ∀ a, Spec.Exists e.holdings a ↔ a.toNat < 100
  discretes : d.discretes = (examplePoints 100).discretes
  inputs : d.inputs = (examplePoints 100).inputs
  discretes' : e.discretes = (examplePoints 100).discretes
  inputs' : e.inputs = (examplePoints 100).inputs

theorem Holds.init : Holds (examplePoints 100) false (examplePoints 100) where
  coil := by decide
  others _ _ := rfl
  holdings := rfl
  coilsExist a := by simp only [Spec.Exists, examplePoints]; split <;> simp [*]
  holdingsExist a := by simp only [Spec.Exists, examplePoints]; split <;> simp [*]
  discretes := rfl
  inputs := rfl
  discretes' := rfl
  inputs' := rfl

variable {d e : Tables} {v : Bool}

theorem Holds.exists_iff (h : Holds d v e) (a : UInt16) : Spec.Exists d.coils a ↔ Spec.Exists e.coils a := by
  by_cases ha : a = 0
  · subst ha
    rw [h.coilsExist]
    simp [Spec.Exists, h.coil]
  · simp only [Spec.Exists, h.others a ha]

theorem Holds.range_iff (h : Holds d v e) (a : UInt16) (n : Nat) : RangeExists d.coils a n ↔ RangeExists e.coils a n := by
  simp only [RangeExists, h.exists_iff]

theorem range_le {T : Type} {m : Map T} (hm : ∀ a, Spec.Exists m a ↔ a.toNat < 100) (a : UInt16) (n : Nat) :
    RangeExists m a n ↔ 1 ≤ n ∧ a.toNat + n ≤ 100 := by
  simp only [RangeExists, hm]
  constructor
  · rintro ⟨h1, h2⟩
    have := h2 (n - 1) (by omega)
    rw [ofNat16_toNat (by omega)] at this
    exact ⟨h1, by omega⟩
  · rintro ⟨h1, h2⟩
    refine ⟨h1, fun i hi => ⟨by omega, ?_⟩⟩
    rw [ofNat16_toNat (by omega)]
    omega

theorem exists_put {T : Type} {m : Map T} {a x : UInt16} {w : T} (h : Spec.Exists m a) : Spec.Exists (put m a w) x ↔ Spec.Exists m x := by
  by_cases hx : x = a
  · subst hx; simp [Spec.Exists, put] at h ⊢; exact h
  · simp [Spec.Exists, put, hx]

theorem exists_putAll {T : Type} {m : Map T} {a x : UInt16} {ws : List T} (h : RangeExists m a ws.length) :
    Spec.Exists (putAll m a ws) x ↔ Spec.Exists m x := by
  simp only [Spec.Exists, putAll]
  split
  · rename_i hle
    split
    · rename_i w hw
      have hlt := (List.getElem?_eq_some_iff.1 hw).1
      have := (h.2 (x.toNat - a.toNat) hlt).2
      rw [show a.toNat + (x.toNat - a.toNat) = x.toNat by omega, UInt16.ofNat_toNat] at this
      simp [Spec.Exists] at this
      simp [this]
    · rfl
  · rfl

theorem read_congr {T α : Type} {m m' : Map T} {a : UInt16} {n : Nat} (label : List T → α) (hr : RangeExists m a n ↔ RangeExists m' a n)
    (hv : ∀ i, i < n → a.toNat + i ≤ 65535 → m (UInt16.ofNat (a.toNat + i)) = m' (UInt16.ofNat (a.toNat + i))) :
    Spec.read m a n label = Spec.read m' a n label := by
  simp only [Spec.read]
  by_cases h : RangeExists m a n
  · rw [if_pos h, if_pos (hr.1 h)]
    have : values m a n = values m' a n := by
      simp only [values]
      have key : ∀ l : List Nat, (∀ i ∈ l, i < n) → l.mapM (fun i => m (UInt16.ofNat (a.toNat + i))) = l.mapM (fun i => m' (UInt16.ofNat (a.toNat + i))) := by
        intro l
        induction l with
        | nil => intro _; rfl
        | cons i l ih =>
          intro hl
          rw [List.mapM_cons, List.mapM_cons, ih fun j hj => hl j (List.mem_cons_of_mem _ hj),
            hv i (hl i List.mem_cons_self) (h.2 i (hl i List.mem_cons_self)).1]
      exact key _ fun i hi => List.mem_range.1 hi
    rw [this]
  · rw [if_neg h, if_neg fun h' => h (hr.2 h')]

/-- One request. -/
theorem Holds.serve (h : Holds d v e) (k : Kind) (r : Req k) :
    Holds (serve d k r).1 (match writesCoil0 k r with | some w => w | none => v) (serve e k r).1 ∧
      (¬ReadsCoil0 k r → (serve d k r).2 = (serve e k r).2) := by
  cases k
  case readCoils =>
    refine ⟨h, fun hn => ?_⟩
    simp only [Spec.serve]
    refine read_congr _ (h.range_iff _ _) fun i hi hle => h.others _ fun h0 => hn ?_
    have h1 := congrArg UInt16.toNat h0
    rw [ofNat16_toNat (by omega)] at h1
    simp only [ReadsCoil0]
    exact UInt16.toNat_inj.1 (by simp at h1 ⊢; omega)
  case readDiscreteInputs => exact ⟨h, fun _ => by simp only [Spec.serve, h.discretes, h.discretes']⟩
  case readHoldingRegisters => exact ⟨h, fun _ => by simp only [Spec.serve, h.holdings]⟩
  case readInputRegisters => exact ⟨h, fun _ => by simp only [Spec.serve, h.inputs, h.inputs']⟩
  case writeSingleCoil =>
    simp only [Spec.serve, h.exists_iff]
    by_cases hx : Spec.Exists e.coils r.addr
    · simp only [if_pos hx]
      refine ⟨⟨?_, ?_, h.holdings, ?_, h.holdingsExist, h.discretes, h.inputs, h.discretes', h.inputs'⟩, by simp⟩
      · simp only [put, writesCoil0]
        by_cases ha : r.addr = 0
        · rw [if_pos ha, if_pos ha.symm]
        · rw [if_neg ha, if_neg (Ne.symm ha)]; exact h.coil
      · intro a ha
        simp only [put]
        split
        · rfl
        · exact h.others a ha
      · intro a
        rw [exists_put hx]
        exact h.coilsExist a
    · simp only [if_neg hx]
      have ha : r.addr ≠ 0 := by intro ha; rw [h.coilsExist, ha] at hx; simp at hx
      refine ⟨?_, by simp⟩
      simpa only [writesCoil0, if_neg ha] using h
  case writeSingleRegister =>
    simp only [Spec.serve, h.holdings]
    by_cases hx : Spec.Exists e.holdings r.addr
    · simp only [if_pos hx]
      refine ⟨⟨h.coil, h.others, rfl, h.coilsExist, ?_, h.discretes, h.inputs, h.discretes', h.inputs'⟩, by simp⟩
      intro a
      rw [exists_put hx]
      exact h.holdingsExist a
    · simp only [if_neg hx]
      exact ⟨h, by simp⟩
  case writeMultipleCoils =>
    simp only [Spec.serve, h.range_iff]
    by_cases hx : RangeExists e.coils r.start r.values.length
    · simp only [if_pos hx]
      refine ⟨⟨?_, ?_, h.holdings, ?_, h.holdingsExist, h.discretes, h.inputs, h.discretes', h.inputs'⟩, by simp⟩
      · simp only [putAll, writesCoil0]
        have hb := (range_le h.coilsExist _ _).1 hx
        by_cases ha : r.start = 0
        · rw [if_pos (by rw [ha]; simp), if_pos ⟨ha, by omega⟩, ha]
          cases hv : r.values with
          | nil => rw [hv] at hb; simp at hb
          | cons w ws => rfl
        · have : r.start.toNat ≠ 0 := fun h0 => ha (UInt16.toNat_inj.1 h0)
          rw [if_neg (by simp; omega), if_neg fun h => ha h.1]
          exact h.coil
      · intro a ha
        simp only [putAll]
        split
        · split
          · rfl
          · exact h.others a ha
        · exact h.others a ha
      · intro a
        rw [exists_putAll hx]
        exact h.coilsExist a
    · simp only [if_neg hx]
      refine ⟨?_, by simp⟩
      have hb : ¬_ := fun hb => hx ((range_le h.coilsExist _ _).2 hb)
      simp only [writesCoil0]
      by_cases ha : r.start = 0 ∧ r.values.length ≤ 100
      · rw [if_pos ha]
        cases hv : r.values with
        | nil => exact h
        | cons w ws =>
          rw [hv, ha.1] at hb
          rw [hv] at ha
          exact absurd ⟨by simp, by have := ha.2; simp at this ⊢; omega⟩ hb
      · rw [if_neg ha]; exact h
  case writeMultipleRegisters =>
    simp only [Spec.serve, h.holdings]
    by_cases hx : RangeExists e.holdings r.start r.values.length
    · simp only [if_pos hx]
      refine ⟨⟨h.coil, h.others, rfl, h.coilsExist, ?_, h.discretes, h.inputs, h.discretes', h.inputs'⟩, by simp⟩
      intro a
      rw [exists_putAll hx]
      exact h.holdingsExist a
    · simp only [if_neg hx]
      exact ⟨h, by simp⟩

/-- One press of `f`. -/
theorem Holds.flip (h : Holds d v e) (j : Bool) :
    Holds (runTx d (ExampleServer.flip j)).1 (!v) e ∧ (runTx d (ExampleServer.flip j)).2 = [.bit (some v), .done true] := by
  have hx : Spec.Exists d.coils 0 := by simp [Spec.Exists, h.coil]
  simp only [ExampleServer.flip, runTx, txStep, dbStep, h.coil, Spec.set, if_pos hx]
  refine ⟨⟨by simp [put], ?_, h.holdings, h.coilsExist, h.holdingsExist, h.discretes, h.inputs, h.discretes', h.inputs'⟩, trivial⟩
  intro a ha
  simp only [put, if_neg ha]
  exact h.others a ha

/-- The calls of the example: requests, and flips by the main thread (number 0). -/
def Usual (x : Nat × Call × List DbRes) : Prop :=
  (∃ k r, x.2.1 = .request k r) ∨ (x.1 = 0 ∧ ∃ j, x.2.1 = .transaction (ExampleServer.flip j))

theorem Holds.serial {tr : List (Nat × Call × List DbRes)} (hu : ∀ x ∈ tr, Usual x) : ∀ {d d' : Tables} {v : Bool} {e : Tables}, Holds d v e → Serial d tr d' →
    Holds d' (coil0 v tr) (requestsAlone e tr) ∧
    (∀ pre post i t x, tr = pre ++ (i, .transaction t, x) :: post → i = 0 ∧ x = [.bit (some (coil0 v pre)), .done true]) ∧
    (∀ pre post i k r x, tr = pre ++ (i, .request k r, x) :: post → ¬ReadsCoil0 k r → x = [.response k (Spec.serve (requestsAlone e pre) k r).2]) := by
  induction tr with
  | nil =>
    intro d d' v e h hs
    cases hs
    exact ⟨h, by intro pre post i t x hc; simp at hc, by intro pre post i k r x hc; simp at hc⟩
  | cons y tr ih =>
    intro d d' v e h hs
    cases hs with
    | @cons _ _ i c x _ hx hs =>
    have hu' := fun z hz => hu z (List.mem_cons_of_mem _ hz)
    rcases hu _ List.mem_cons_self with ⟨k, r, hk⟩ | ⟨h0, j, hj⟩
    · simp only at hk
      subst hk
      obtain ⟨g1, g2⟩ := h.serve k r
      have hs' : Serial (Spec.serve d k r).1 tr d' := hs
      obtain ⟨i1, i2, i3⟩ := ih hu' g1 hs'
      have hcv : ∀ l, coil0 v ((i, .request k r, x) :: l) = coil0 (match writesCoil0 k r with | some w => w | none => v) l := by
        intro l; simp only [coil0]; cases writesCoil0 k r <;> rfl
      refine ⟨by rw [hcv]; exact i1, ?_, ?_⟩
      · intro pre post i' t x' hc
        cases pre with
        | nil => simp at hc
        | cons z pre =>
          rw [List.cons_append, List.cons.injEq] at hc
          obtain ⟨rfl, hc⟩ := hc
          rw [hcv]
          exact i2 pre post i' t x' hc
      · intro pre post i' k' r' x' hc hn
        cases pre with
        | nil =>
          simp only [List.nil_append, List.cons.injEq, Prod.mk.injEq, Call.request.injEq] at hc
          obtain ⟨⟨rfl, ⟨rfl, hr⟩, rfl⟩, rfl⟩ := hc
          cases hr
          rw [← hx]
          simp only [exec, dbStep, requestsAlone]
          rw [g2 hn]
        | cons z pre =>
          rw [List.cons_append, List.cons.injEq] at hc
          obtain ⟨rfl, hc⟩ := hc
          exact i3 pre post i' k' r' x' hc hn
    · simp only at h0 hj
      subst h0 hj
      obtain ⟨g1, g2⟩ := h.flip j
      have hs' : Serial (runTx d (ExampleServer.flip j)).1 tr d' := hs
      obtain ⟨i1, i2, i3⟩ := ih hu' g1 hs'
      refine ⟨i1, ?_, ?_⟩
      · intro pre post i' t x' hc
        cases pre with
        | nil =>
          simp only [List.nil_append, List.cons.injEq, Prod.mk.injEq] at hc
          obtain ⟨⟨rfl, -, rfl⟩, -⟩ := hc
          exact ⟨rfl, by rw [← hx]; exact g2⟩
        | cons z pre =>
          rw [List.cons_append, List.cons.injEq] at hc
          obtain ⟨rfl, hc⟩ := hc
          exact i2 pre post i' t x' hc
      · intro pre post i' k' r' x' hc hn
        cases pre with
        | nil => simp at hc
        | cons z pre =>
          rw [List.cons_append, List.cons.injEq] at hc
          obtain ⟨rfl, hc⟩ := hc
          exact i3 pre post i' k' r' x' hc hn

/-- Calls are recorded under the numbers of the threads. -/
theorem trace_threads (sched : List Nat) : ∀ {c c' : Threads}, (∀ x ∈ c.trace, x.1 < c.threads.length) → c.run sched = .ret c' →
    (∀ x ∈ c'.trace, x.1 < c'.threads.length) := by
  induction sched with
  | nil => intro c c' h hr; cases hr; exact h
  | cons i is ih =>
    intro c c' h hr
    simp only [Threads.run] at hr
    rcases h1 : c.step i with _ | c1
    · rw [h1] at hr; cases hr
    rw [h1, CM.ret_bind] at hr
    refine ih ?_ hr
    simp only [Threads.step] at h1
    split at h1
    · cases h1; exact h
    · cases h1; exact h
    · split at h1
      · split at h1
        · cases h1; exact h
        · cases h1; simpa using h
      · cases h1; simpa using h
    · cases h1
    · rename_i r x k hi
      cases h1
      intro y hy
      simp only [List.length_set]
      rcases List.mem_append.1 hy with hy | hy
      · exact h y hy
      · rw [List.mem_singleton.1 hy]
        exact (List.getElem?_eq_some_iff.1 hi).1
    · split at h1
      · cases h1
      · cases h1; simpa using h

theorem asks_does {p q : Prog} {cs : List (Call × List DbRes)} (h : Does p cs q) : Asks p → ∀ x ∈ cs, ∃ k r, x.1 = .request k r := by
  induction h with
  | nil p => intro _ x hx; simp at hx
  | cons h ih =>
    intro ha x hx
    obtain ⟨h1, h2⟩ := ha
    rcases List.mem_cons.1 hx with rfl | hx
    · exact h1
    · exact ih (h2 _) x hx

/-- What the main thread does. -/
theorem main_does {p q : Prog} {cs : List (Call × List DbRes)} (h : Does p cs q) : ∀ ks, p = mainLoop ks →
    (∀ x ∈ cs, ∃ j, x.1 = .transaction (ExampleServer.flip j)) ∧ ∃ rest, q = mainLoop rest ∧
      cs.length + flipsTyped (rest.map (·.1)) = flipsTyped (ks.map (·.1)) := by
  induction h with
  | nil p => intro ks hp; exact ⟨by simp, ks, hp, by simp⟩
  | @cons c k r cs q h ih =>
    intro ks
    induction ks with
    | nil => intro hp; simp [mainLoop] at hp
    | cons key ks ihk =>
      intro hp
      obtain ⟨ch, j⟩ := key
      simp only [mainLoop] at hp
      by_cases hf : ch = 'f'
      · rw [if_pos hf] at hp
        injection hp with h1 h2
        subst h2
        obtain ⟨a1, rest, a2, a3⟩ := ih ks rfl
        refine ⟨?_, rest, a2, ?_⟩
        · intro x hx
          rcases List.mem_cons.1 hx with rfl | hx
          · exact ⟨j, h1⟩
          · exact a1 x hx
        · subst hf
          simp [flipsTyped] at a3 ⊢
          omega
      · rw [if_neg hf] at hp
        by_cases hq : ch = 'q'
        · rw [if_pos hq] at hp; cases hp
        · rw [if_neg hq] at hp
          obtain ⟨a1, rest, a2, a3⟩ := ihk hp
          exact ⟨a1, rest, a2, by simp [flipsTyped, hf, hq]; exact a3⟩

theorem main_done : ∀ ks, mainLoop ks = .done → flipsTyped (ks.map (·.1)) = 0 := by
  intro ks
  induction ks with
  | nil => intro _; rfl
  | cons key ks ih =>
    obtain ⟨ch, j⟩ := key
    intro h
    simp only [mainLoop] at h
    by_cases hf : ch = 'f'
    · rw [if_pos hf] at h; cases h
    · rw [if_neg hf] at h
      by_cases hq : ch = 'q'
      · simp [flipsTyped, hq]
      · rw [if_neg hq] at h
        simp [flipsTyped, hf, hq]
        exact ih h

end Modbus.ExampleServer
