import Verif.Lemmas.Scheduled
import Verif.Model.ScheduledThrowing

/-! A scheduled request whose handler throws is one whose handler does not throw and some of whose timers never expire. -/

namespace Modbus.Poll

open Modbus.Spec

theorem runT_snoc (th : PThrows) (v : Poll) (ops : List Op) (op : Op) : v.runT th (ops ++ [op]) = (v.runT th ops).stepT th op := by simp [runT]

/-- The same step, or instead of a timer expiring nothing. -/
inductive OrNot : Op → Op → Prop where
  | same (op : Op) : OrNot op op
  | not (t : Nat) : OrNot (.expire t) (.tick 0)

/-- With the timers `a` instead of `armed`, of which those in `g` do not exist in `v`, and `tm` the one last started. -/
structure SimP (g : List Nat) (a : List (Nat × Nat)) (tm : Option Nat) (v : Poll) : Prop where
  armed : v.armed = a.filter fun x => x.1 ∉ g
  timer : tm = v.timer ∨ ∃ t ∈ g, tm = some t
  lt : ∀ x ∈ a, x.1 < v.nextTimer
  glt : ∀ t ∈ g, t < v.nextTimer
  tlt : ∀ t ∈ v.timer, t < v.nextTimer

theorem SimP.init (f : Nat) : SimP [] [] none (init f) := by constructor <;> simp [Poll.init]

theorem SimP.cancelTimer {g : List Nat} {a : List (Nat × Nat)} {tm : Option Nat} {v : Poll} (h : SimP g a tm v) :
    ∃ g' a', { v with armed := a, timer := tm }.cancelTimer = { v.cancelTimer with armed := a', timer := tm } ∧ SimP g' a' tm v.cancelTimer := by
  obtain ⟨h1, h2, h3, h4, h5⟩ := h
  have key : ∀ x : Poll, x.cancelTimer = { x with armed := x.armed.filter fun y => some y.1 ≠ x.timer } := by
    rintro ⟨_, _, tmr, _, _, _, _, _, _, _, _⟩
    cases tmr with
    | none => simp [Poll.cancelTimer]
    | some t => simp [Poll.cancelTimer]
  rw [key, key]
  refine ⟨v.timer.toList ++ g, a.filter fun y => some y.1 ≠ tm, rfl, ?_, ?_, ?_, ?_, h5⟩
  · simp only [h1, List.filter_filter]
    apply List.filter_congr
    intro x _
    rw [Bool.eq_iff_iff]
    simp only [Bool.and_eq_true, decide_eq_true_eq, List.mem_append, Option.mem_toList, not_or, Option.mem_def]
    constructor
    · rintro ⟨c1, c2⟩
      refine ⟨⟨fun e => c1 e.symm, c2⟩, ?_⟩
      rcases h2 with rfl | ⟨t, ht, rfl⟩
      · exact c1
      · rintro e; injection e with e; subst e; exact c2 ht
    · rintro ⟨⟨c1, c2⟩, -⟩
      exact ⟨fun e => c1 e.symm, c2⟩
  · rcases h2 with rfl | ⟨t, ht, rfl⟩
    · exact .inl rfl
    · exact .inr ⟨t, by simp [ht], rfl⟩
  · intro x hx; exact h3 x (List.mem_filter.1 hx).1
  · intro t ht
    rcases List.mem_append.1 ht with ht | ht
    · exact h5 t (by simpa using ht)
    · exact h4 t ht

theorem lookup_filter_ghost {l : List (Nat × Nat)} {g : List Nat} {t d : Nat} (h : (l.filter fun x => x.1 ∉ g).lookup t = some d) : t ∉ g ∧ l.lookup t = some d := by
  induction l with
  | nil => simp at h
  | cons x l ih =>
    obtain ⟨k, y⟩ := x
    simp only [List.filter_cons] at h
    by_cases hk : k ∈ g
    · simp only [hk, not_true, decide_false, Bool.false_eq_true, if_false] at h
      obtain ⟨h1, h2⟩ := ih h
      refine ⟨h1, ?_⟩
      have hb : (t == k) = false := by simp only [beq_eq_false_iff_ne]; rintro rfl; exact h1 hk
      simp only [List.lookup_cons, hb, h2]
    · simp only [hk, not_false_eq_true, decide_true, if_true, List.lookup_cons] at h ⊢
      by_cases hkt : t = k
      · subst hkt; simp only [beq_self_eq_true] at h ⊢; exact ⟨hk, h⟩
      · have hb : (t == k) = false := by simpa using hkt
        simp only [hb] at h ⊢
        exact ih h

/-- One step: the same step with the other timers, or none. -/
theorem SimP.step {g : List Nat} {a : List (Nat × Nat)} {tm : Option Nat} {v : Poll} (th : PThrows) (h : SimP g a tm v) (op : Op) :
    ∃ g' a' tm' op', OrNot op op' ∧ { v with armed := a, timer := tm }.step op' = { v.stepT th op with armed := a', timer := tm' } ∧ SimP g' a' tm' (v.stepT th op) := by
  obtain ⟨h1, h2, h3, h4, h5⟩ := h
  cases op with
  | start => exact ⟨g, a, tm, _, .same _, rfl, h1, h2, h3, h4, h5⟩
  | stop => exact ⟨g, a, tm, _, .same _, rfl, h1, h2, h3, h4, h5⟩
  | setFrequency f => exact ⟨g, a, tm, _, .same _, rfl, h1, h2, h3, h4, h5⟩
  | tick n => exact ⟨g, a, tm, _, .same _, rfl, h1, h2, h3, h4, h5⟩
  | runTimer t =>
    refine ⟨g, a, tm, _, .same _, ?_⟩
    simp only [Poll.step, stepT]
    split
    · exact ⟨rfl, h1, h2, h3, h4, h5⟩
    · exact ⟨rfl, h1, h2, h3, h4, h5⟩
  | expire t =>
    cases hl : v.armed.lookup t with
    | none =>
      refine ⟨g, a, tm, _, .not t, ?_⟩
      simp only [Poll.step, stepT, hl, Nat.add_zero]
      exact ⟨trivial, h1, h2, h3, h4, h5⟩
    | some d =>
      have hl' := hl
      rw [h1] at hl'
      obtain ⟨ht, hu⟩ := lookup_filter_ghost hl'
      by_cases hd : d ≤ v.now
      · have e : v.stepT th (.expire t) = { v with armed := v.armed.filter (fun x => x.1 ≠ t), fired := v.fired ++ [t] } := by simp only [stepT, Poll.step, hl, hd, if_true]
        rw [e]
        refine ⟨g, a.filter fun x => x.1 ≠ t, tm, _, .same (.expire t), ?_, ?_, h2, ?_, h4, h5⟩
        · simp only [Poll.step, hu, hd, if_true]
        · simp only [h1, List.filter_filter]
          apply List.filter_congr
          intro x _
          simp only [Bool.and_comm]
        · intro x hx; exact h3 x (List.mem_filter.1 hx).1
      · have e : v.stepT th (.expire t) = v := by simp only [stepT, Poll.step, hl, hd, if_false]
        rw [e]
        exact ⟨g, a, tm, _, .same (.expire t), by simp only [Poll.step, hu, hd, if_false], h1, h2, h3, h4, h5⟩
  | runTask =>
    simp only [stepT]
    cases hv : v.tasks with
    | nil => exact ⟨g, a, tm, _, .same .runTask, by simp only [Poll.step, hv], by simp only [Poll.step, hv]; exact ⟨h1, h2, h3, h4, h5⟩⟩
    | cons t ts =>
      cases t with
      | start =>
        refine ⟨g, a, tm, _, .same .runTask, ?_⟩
        simp only [Poll.step, hv, runTask]
        split
        · exact ⟨rfl, h1, h2, h3, h4, h5⟩
        · exact ⟨rfl, h1, h2, h3, h4, h5⟩
      | stop =>
        cases hr : v.running with
        | true =>
          obtain ⟨g', a', k1, k2⟩ := SimP.cancelTimer (g := g) (a := a) (tm := tm) (v := { ({ v with tasks := ts } : Poll).emit .stopped with running := false }) ⟨h1, h2, h3, h4, h5⟩
          refine ⟨g', a', tm, _, .same .runTask, ?_⟩
          simp only [Poll.step, hv, runTask, hr, if_true]
          exact ⟨k1, k2⟩
        | false =>
          refine ⟨g, a, tm, _, .same .runTask, ?_⟩
          simp only [Poll.step, hv, runTask, hr, Bool.false_eq_true, if_false]
          exact ⟨rfl, h1, h2, h3, h4, h5⟩
      | setFrequency f =>
        refine ⟨g, a, tm, _, .same .runTask, ?_⟩
        simp only [Poll.step, hv, runTask]
        exact ⟨rfl, h1, h2, h3, h4, h5⟩
  | respond id =>
    simp only [stepT]
    by_cases hid : id ∈ v.inFlight
    · simp only [if_pos hid]
      cases hr : v.running with
      | false =>
        refine ⟨g, a, tm, _, .same (.respond id), ?_⟩
        simp only [Poll.step, if_pos hid, onResponse, onResponseT, Poll.emit, hr, Bool.false_eq_true, if_false]
        exact ⟨trivial, h1, h2, h3, h4, h5⟩
      | true =>
        have lt' : ∀ x ∈ a ++ [(v.nextTimer, v.now + v.freq)], x.1 < v.nextTimer + 1 := by
          intro x hx
          rcases List.mem_append.1 hx with hx | hx
          · have := h3 x hx; omega
          · simp only [List.mem_singleton] at hx; subst hx; simp
        cases hth : th v.log id with
        | true =>
          refine ⟨v.nextTimer :: g, a ++ [(v.nextTimer, v.now + v.freq)], some v.nextTimer, _, .same (.respond id), ?_⟩
          simp only [Poll.step, if_pos hid, onResponse, onResponseT, Poll.emit, hr, hth, if_true]
          refine ⟨trivial, ?_, .inr ⟨_, by simp, rfl⟩, lt', ?_, ?_⟩
          · simp only [List.filter_append, h1]
            rw [show ([(v.nextTimer, v.now + v.freq)].filter fun x => x.1 ∉ v.nextTimer :: g) = [] by simp, List.append_nil]
            apply List.filter_congr
            intro x hx
            have := h3 x hx
            rw [Bool.eq_iff_iff]
            simp only [decide_eq_true_eq, List.mem_cons, not_or]
            exact ⟨fun c => ⟨by omega, c⟩, fun c => c.2⟩
          · intro t ht
            rcases List.mem_cons.1 ht with rfl | ht
            · simp
            · have := h4 t ht; simp only; omega
          · intro t ht; have := h5 t ht; simp only; omega
        | false =>
          refine ⟨g, a ++ [(v.nextTimer, v.now + v.freq)], some v.nextTimer, _, .same (.respond id), ?_⟩
          simp only [Poll.step, if_pos hid, onResponse, onResponseT, Poll.emit, hr, hth, if_true, Bool.false_eq_true, if_false]
          refine ⟨trivial, ?_, .inl rfl, lt', ?_, ?_⟩
          · have : v.nextTimer ∉ g := by intro hm; have := h4 _ hm; omega
            simp [List.filter_append, h1, this]
          · intro t ht; have := h4 t ht; simp only; omega
          · intro t ht
            simp only [Option.mem_def, Option.some.injEq] at ht
            subst ht; simp only; omega
    · simp only [if_neg hid]
      exact ⟨g, a, tm, _, .same (.respond id), by simp only [Poll.step, if_neg hid], h1, h2, h3, h4, h5⟩

/-- Executions. -/
theorem simP_run (f : Nat) (th : PThrows) (ops : List Op) :
    ∃ ops' g a tm, List.Forall₂ OrNot ops ops' ∧ (init f).run ops' = { (init f).runT th ops with armed := a, timer := tm } ∧ SimP g a tm ((init f).runT th ops) := by
  induction ops using List.reverseRecOn with
  | nil => exact ⟨[], [], [], none, .nil, rfl, .init f⟩
  | append_singleton ops op ih =>
    obtain ⟨ops', g, a, tm, h1, h2, h3⟩ := ih
    obtain ⟨g', a', tm', op', k1, k2, k3⟩ := h3.step th op
    exact ⟨ops' ++ [op'], g', a', tm', List.rel_append h1 (.cons k1 .nil), by rw [run_snoc, runT_snoc, h2, k2], by rw [runT_snoc]; exact k3⟩

end Modbus.Poll
