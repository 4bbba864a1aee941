import Verif.Spec.Scheduled
import Mathlib.Data.List.Nodup
import Mathlib.Data.List.Perm.Basic
import Mathlib.Data.List.Induction

/-! Helper lemmas about scheduled requests. -/

namespace Modbus.Poll

open Spec

@[simp] theorem pollsSent_append (a b : List PEv) : pollsSent (a ++ b) = pollsSent a ++ pollsSent b := by simp [pollsSent]
@[simp] theorem pollsHandled_append (a b : List PEv) : pollsHandled (a ++ b) = pollsHandled a ++ pollsHandled b := by simp [pollsHandled]
theorem pollTime_snoc (f : Nat) (a : List PEv) (e : PEv) : pollTime f (a ++ [e]) = (match e with
    | .frequency g => g
    | _ => pollTime f a) := by
  simp only [pollTime, List.foldl_append, List.foldl_cons, List.foldl_nil]
  cases e <;> rfl

/-- What always holds (initial polling time `f`), whether running or not. -/
structure Core (f : Nat) (v : Poll) : Prop where
  freq : v.freq = pollTime f v.log
  sentIds : pollsSent v.log = List.range v.nextId
  once : ∀ id, (id < v.nextId → (pollsHandled v.log).count id + v.inFlight.count id = 1) ∧
    (v.nextId ≤ id → (pollsHandled v.log).count id + v.inFlight.count id = 0)
  timers : (v.armed.map (·.1) ++ v.fired).Nodup ∧ ∀ t ∈ v.armed.map (·.1) ++ v.fired, t < v.nextTimer

/-- While running there is something to wait for. -/
def Busy (v : Poll) : Prop := v.running = true → v.inFlight ≠ [] ∨ v.armed ≠ [] ∨ v.fired ≠ []

theorem Core.init (f : Nat) : Core f (init f) := by
  refine ⟨rfl, rfl, ?_, ?_⟩ <;> simp [Poll.init, pollsHandled]

theorem count_filter_ne {l : List Nat} (id x : Nat) : (l.filter fun y => y ≠ x).count id = if id = x then 0 else l.count id := by
  split
  · subst_vars; simp [List.count_eq_zero]
  · rename_i h; rw [List.count_filter]; simpa using h

theorem Core.execute {f : Nat} {v : Poll} (h : Core f v) : Core f v.execute := by
  obtain ⟨h1, h2, h3, h5⟩ := h
  refine ⟨?_, ?_, ?_, h5⟩
  · simp only [Poll.execute, emit]; rw [pollTime_snoc, h1]
  · simp only [Poll.execute, emit, pollsSent_append, h2, List.range_succ]; rfl
  · intro id
    have := h3 id
    simp only [Poll.execute, emit, pollsHandled_append, List.count_append]
    have e : (pollsHandled [PEv.sent v.nextId v.now]).count id = 0 := by simp [pollsHandled]
    rw [e, List.count_singleton]
    by_cases hid : id = v.nextId
    · subst hid
      have h8 := this.2 (Nat.le_refl _)
      simp only [beq_self_eq_true, if_true]
      exact ⟨fun _ => by omega, fun h => by have h : v.nextId + 1 ≤ _ := h; omega⟩
    · have h6 : ¬ (v.nextId == id) = true := by simpa using Ne.symm hid
      rw [if_neg h6, Nat.add_zero, Nat.add_zero]
      exact ⟨fun h => this.1 (by have h : id < v.nextId + 1 := h; omega), fun h => this.2 (by have h : v.nextId + 1 ≤ _ := h; omega)⟩

theorem Core.emit {f : Nat} {v : Poll} (h : Core f v) (e : PEv) (h1 : ∀ id t, e ≠ .sent id t) (h2 : ∀ id t, e ≠ .handled id t)
    (h3 : ∀ g, e ≠ .frequency g) : Core f (v.emit e) := by
  obtain ⟨a1, a2, a3, a4⟩ := h
  refine ⟨?_, ?_, ?_, a4⟩
  · simp only [Poll.emit]; rw [pollTime_snoc, a1]
    cases e <;> first | rfl | exact absurd rfl (h3 _)
  · simp only [Poll.emit, pollsSent_append]
    rw [a2]
    cases e <;> first | exact absurd rfl (h1 _ _) | simp [pollsSent]
  · intro id
    have e0 : pollsHandled [e] = [] := by cases e <;> first | exact absurd rfl (h2 _ _) | rfl
    simp only [Poll.emit, pollsHandled_append, e0, List.append_nil]
    exact a3 id

theorem Core.cancelTimer {f : Nat} {v : Poll} (h : Core f v) : Core f v.cancelTimer := by
  unfold Poll.cancelTimer
  split
  · exact h
  · rename_i k _
    obtain ⟨a1, a2, a3, a4, a5⟩ := h
    have hsub : List.Sublist (((v.armed.filter fun x => x.1 ≠ k).map (·.1)) ++ v.fired) (v.armed.map (·.1) ++ v.fired) :=
      (List.filter_sublist.map _).append_right _
    exact ⟨a1, a2, a3, a4.sublist hsub, fun t ht => a5 t (hsub.subset ht)⟩

theorem Core.onResponse {f : Nat} {v : Poll} (h : Core f v) (id : Nat) (hid : id ∈ v.inFlight) : Core f (v.onResponse id) := by
  obtain ⟨a1, a2, a3, a4, a5⟩ := h
  have key : Core f ({ v with inFlight := v.inFlight.filter fun x => x ≠ id }.emit (.handled id v.now)) := by
    refine ⟨?_, ?_, ?_, a4, a5⟩
    · simp only [Poll.emit]; rw [pollTime_snoc, a1]
    · simp only [Poll.emit, pollsSent_append]; rw [a2]; simp [pollsSent]
    · intro i
      simp only [Poll.emit, pollsHandled_append, List.count_append]
      rw [count_filter_ne]
      have := a3 i
      have hc : 1 ≤ v.inFlight.count id := List.one_le_count_iff.2 hid
      by_cases hi : i = id
      · subst hi
        have e : (pollsHandled [PEv.handled i v.now]).count i = 1 := by simp [pollsHandled]
        rw [e, if_pos rfl]
        exact ⟨fun h => by have := this.1 h; omega, fun h => by have := this.2 h; omega⟩
      · have e : (pollsHandled [PEv.handled id v.now]).count i = 0 := by
          simp only [pollsHandled, List.filterMap_cons, List.filterMap_nil, List.count_eq_zero]
          simpa using hi
        rw [e, if_neg hi, Nat.add_zero]; exact this
  unfold Poll.onResponse
  dsimp only
  split
  · obtain ⟨b1, b2, b3, b4, b5⟩ := key
    refine ⟨b1, b2, b3, ?_, ?_⟩
    · simp only [List.map_append, List.map_cons, List.map_nil]
      have hp : (v.armed.map (·.1) ++ [v.nextTimer] ++ v.fired).Perm (v.nextTimer :: (v.armed.map (·.1) ++ v.fired)) := by
        rw [List.append_assoc]; exact List.perm_middle
      refine hp.nodup_iff.2 (List.nodup_cons.2 ⟨?_, a4⟩)
      intro hm
      exact absurd (a5 _ hm) (by omega)
    · intro t ht
      simp only [List.map_append, List.map_cons, List.map_nil] at ht
      rw [List.append_assoc, List.mem_append, List.cons_append, List.mem_cons] at ht
      show t < v.nextTimer + 1
      rcases ht with ht | ht | ht
      · have := a5 t (List.mem_append_left _ ht); omega
      · have : t = v.nextTimer := ht
        omega
      · have := a5 t (List.mem_append_right _ ht); omega
  · exact key

theorem Core.runTask {f : Nat} {v : Poll} (h : Core f v) (t : PTask) : Core f (v.runTask t) := by
  cases t with
  | start =>
    simp only [Poll.runTask]
    split
    · exact h
    · have h' := h.emit .started (by simp) (by simp) (by simp)
      exact Core.execute ⟨h'.1, h'.2, h'.3, h'.4⟩
  | stop =>
    have h' := h.emit .stopped (by simp) (by simp) (by simp)
    simp only [Poll.runTask]
    split
    · exact Core.cancelTimer ⟨h'.1, h'.2, h'.3, h'.4⟩
    · exact h'
  | setFrequency g =>
    obtain ⟨a1, a2, a3, a4⟩ := h
    refine ⟨?_, ?_, ?_, a4⟩
    · simp only [Poll.runTask, Poll.emit]; rw [pollTime_snoc]
    · simp only [Poll.runTask, Poll.emit, pollsSent_append]; rw [a2]; simp [pollsSent]
    · intro id
      have e0 : pollsHandled [PEv.frequency g] = [] := rfl
      simp only [Poll.runTask, Poll.emit, pollsHandled_append, e0, List.append_nil]
      exact a3 id

theorem lookup_mem {α : Type} (l : List (Nat × α)) (k : Nat) (x : α) (h : l.lookup k = some x) : (k, x) ∈ l := by
  induction l with
  | nil => cases h
  | cons y l ih =>
    obtain ⟨a, b⟩ := y
    rw [List.lookup_cons] at h
    split at h
    · rename_i he; injection h with h; subst h; simp at he; simp [he]
    · exact List.mem_cons_of_mem _ (ih h)

theorem lookup_of_mem {α : Type} {l : List (Nat × α)} (hn : (l.map (·.1)).Nodup) {k : Nat} {x : α} (h : (k, x) ∈ l) :
    l.lookup k = some x := by
  induction l with
  | nil => cases h
  | cons y l ih =>
    rw [List.map_cons, List.nodup_cons] at hn
    rcases List.mem_cons.1 h with h | h
    · subst h; simp
    · rw [List.lookup_cons]
      have : (k == y.1) = false := by
        rw [beq_eq_false_iff_ne]
        intro he
        exact hn.1 (he ▸ List.mem_map.2 ⟨_, h, rfl⟩)
      simp only [this]
      exact ih hn.2 h

theorem Core.step {f : Nat} {v : Poll} (h : Core f v) (op : Op) : Core f (v.step op) := by
  have hk := h
  obtain ⟨a1, a2, a3, a4, a5⟩ := h
  cases op with
  | start => exact ⟨a1, a2, a3, a4, a5⟩
  | stop => exact ⟨a1, a2, a3, a4, a5⟩
  | setFrequency g => exact ⟨a1, a2, a3, a4, a5⟩
  | runTask =>
    simp only [Poll.step]
    split
    · exact hk
    · rename_i t ts _
      exact Core.runTask (v := { v with tasks := ts }) ⟨a1, a2, a3, a4, a5⟩ _
  | respond id =>
    simp only [Poll.step]
    split
    · exact hk.onResponse id (by assumption)
    · exact hk
  | tick n => exact ⟨a1, a2, a3, a4, a5⟩
  | expire t =>
    simp only [Poll.step]
    split
    · exact hk
    · rename_i d hl
      have hm := lookup_mem _ _ _ hl
      split
      · refine ⟨a1, a2, a3, ?_, ?_⟩
        · simp only
          rw [← List.append_assoc]
          refine List.nodup_append.2 ⟨?_, List.nodup_singleton _, ?_⟩
          · exact a4.sublist ((List.filter_sublist.map _).append_right _)
          · intro x hx y hy hxy
            rw [List.mem_singleton] at hy
            subst hy hxy
            rcases List.mem_append.1 hx with hx | hx
            · simp at hx
            · exact (List.nodup_append.1 a4).2.2 x (List.mem_map.2 ⟨_, hm, rfl⟩) x hx rfl
        · intro x hx
          apply a5
          simp only [List.mem_append] at hx ⊢
          rcases hx with hx | hx | hx
          · exact Or.inl ((List.filter_sublist.map _).subset hx)
          · exact Or.inr hx
          · rw [List.mem_singleton] at hx; subst hx
            exact Or.inl (List.mem_map.2 ⟨_, hm, rfl⟩)
      · exact hk
  | runTimer t =>
    simp only [Poll.step]
    split
    · refine Core.execute ⟨a1, a2, a3, a4.sublist ((List.Sublist.refl _).append List.filter_sublist), ?_⟩
      intro x hx
      apply a5
      simp only [List.mem_append] at hx ⊢
      exact hx.imp_right fun h => (List.mem_filter.1 h).1
    · exact hk

theorem Busy.step {v : Poll} (h : Busy v) (op : Op) : Busy (v.step op) := by
  cases op with
  | start => exact h
  | stop => exact h
  | setFrequency g => exact h
  | runTask =>
    simp only [Poll.step]
    split
    · exact h
    · rename_i t ts _
      cases t with
      | start =>
        simp only [Poll.runTask]
        split
        · exact h
        · intro _; left; simp [Poll.execute]
      | stop =>
        simp only [Poll.runTask]
        split
        · intro hr
          unfold Poll.cancelTimer at hr
          split at hr <;> cases hr
        · exact h
      | setFrequency g => exact h
  | respond id =>
    simp only [Poll.step]
    split
    · unfold Poll.onResponse
      dsimp only
      split
      · intro _; right; left; simp
      · intro hr; rename_i hn; exact absurd hr hn
    · exact h
  | tick n => exact h
  | expire t =>
    simp only [Poll.step]
    split
    · exact h
    · split
      · intro _; right; right; simp
      · exact h
  | runTimer t =>
    simp only [Poll.step]
    split
    · intro _; left; simp [Poll.execute]
    · exact h

theorem run_snoc (v : Poll) (ops : List Op) (op : Op) : v.run (ops ++ [op]) = (v.run ops).step op := by simp [run]

theorem core_run (f : Nat) (ops : List Op) : Core f ((init f).run ops) ∧ Busy ((init f).run ops) := by
  induction ops using List.reverseRecOn with
  | nil => exact ⟨.init f, by intro h; cases h⟩
  | append_singleton ops op ih => rw [run_snoc]; exact ⟨ih.1.step op, ih.2.step op⟩

theorem pollOn_snoc (log : List PEv) (e : PEv) : pollOn (log ++ [e]) = match e with
    | .started => true
    | .stopped => false
    | _ => pollOn log := by
  simp only [pollOn, List.foldl_append, List.foldl_cons, List.foldl_nil]
  cases e <;> rfl

theorem cancelTimer_log (v : Poll) : v.cancelTimer.log = v.log := by unfold cancelTimer; split <;> rfl

theorem cancelTimer_running (v : Poll) : v.cancelTimer.running = v.running := by unfold cancelTimer; split <;> rfl

/-- The running flag says whether polling is on. -/
theorem running_step (v : Poll) (op : Op) (h : v.running = pollOn v.log) : (v.step op).running = pollOn (v.step op).log := by
  cases op with
  | start => exact h
  | stop => exact h
  | setFrequency g => exact h
  | runTask =>
    simp only [Poll.step]
    split
    · exact h
    · rename_i t ts _
      cases t with
      | start =>
        simp only [Poll.runTask]
        split
        · exact h
        · simp [Poll.execute, emit, pollOn, List.foldl_append]
      | stop =>
        simp only [Poll.runTask]
        split
        · rw [cancelTimer_log, cancelTimer_running]; simp [emit, pollOn, List.foldl_append]
        · rename_i hr; simp only [emit, pollOn_snoc]; simpa using hr
      | setFrequency g => simp only [Poll.runTask, emit, pollOn_snoc]; exact h
  | respond id =>
    simp only [Poll.step]
    split
    · unfold Poll.onResponse
      dsimp only
      split <;> simp only [emit, pollOn_snoc] <;> exact h
    · exact h
  | tick n => exact h
  | expire t =>
    simp only [Poll.step]
    split
    · exact h
    · split <;> exact h
  | runTimer t =>
    simp only [Poll.step]
    split
    · simp only [Poll.execute, emit, pollOn_snoc]; exact h
    · exact h

theorem running_run (f : Nat) (ops : List Op) : ((init f).run ops).running = pollOn ((init f).run ops).log := by
  induction ops using List.reverseRecOn with
  | nil => rfl
  | append_singleton ops op ih => rw [run_snoc]; exact running_step _ op ih

/-! ### Orderly histories -/

/-- Lower bounds for the time of the next request given by the responses of the current polling run. -/
def bounds (f : Nat) (log : List PEv) : Nat × List Nat :=
  log.foldl (fun s e => match e with
    | .started => (s.1, [])
    | .frequency g => (g, s.2)
    | .handled _ t => (s.1, s.2 ++ [t + s.1])
    | _ => s) (f, [])

theorem bounds_snoc (f : Nat) (log : List PEv) (e : PEv) : bounds f (log ++ [e]) = (match e with
    | .started => ((bounds f log).1, [])
    | .frequency g => (g, (bounds f log).2)
    | .handled _ t => ((bounds f log).1, (bounds f log).2 ++ [t + (bounds f log).1])
    | _ => bounds f log) := by
  simp only [bounds, List.foldl_append, List.foldl_cons, List.foldl_nil]

theorem bounds_freq (f : Nat) (log : List PEv) : (bounds f log).1 = pollTime f log := by
  induction log using List.reverseRecOn with
  | nil => rfl
  | append_singleton log e ih => rw [bounds_snoc, pollTime_snoc]; cases e <;> simp [ih]

theorem bounds_mem (f : Nat) (a b : List PEv) (id t : Nat) (hb : PEv.started ∉ b) :
    t + pollTime f a ∈ (bounds f (a ++ .handled id t :: b)).2 := by
  induction b using List.reverseRecOn with
  | nil => rw [bounds_snoc]; simp [bounds_freq]
  | append_singleton b e ih =>
    rw [← List.cons_append, ← List.append_assoc, bounds_snoc]
    have := ih (fun h => hb (List.mem_append_left _ h))
    cases e <;> first | exact this | exact List.mem_append_left _ this | skip
    exact absurd (by simp) hb

/-- Requests respect the polling time. -/
def Spaced (f : Nat) (log : List PEv) : Prop := ∀ a id t1 b id' t2 c, log = a ++ PEv.handled id t1 :: (b ++ PEv.sent id' t2 :: c) →
  PEv.started ∉ b → t1 + pollTime f a ≤ t2

theorem Spaced.snoc {f : Nat} {log : List PEv} (h : Spaced f log) (e : PEv)
    (he : ∀ id' t2, e = .sent id' t2 → ∀ x ∈ (bounds f log).2, x ≤ t2) : Spaced f (log ++ [e]) := by
  intro a id t1 b id' t2 c heq hb
  rcases List.eq_nil_or_concat c with rfl | ⟨c', x, rfl⟩
  · have heq' : log ++ [e] = (a ++ PEv.handled id t1 :: b) ++ [PEv.sent id' t2] := by rw [heq]; simp
    obtain ⟨h1, h2⟩ := List.append_inj' heq' rfl
    injection h2 with h2
    exact he id' t2 h2 _ (by rw [h1]; exact bounds_mem f a b id t1 hb)
  · have heq' : log ++ [e] = (a ++ PEv.handled id t1 :: (b ++ PEv.sent id' t2 :: c')) ++ [x] := by rw [heq]; simp
    obtain ⟨h1, -⟩ := List.append_inj' heq' rfl
    exact h a id t1 b id' t2 c' h1 hb

/-- What holds in orderly histories. -/
structure Tidy (f : Nat) (v : Poll) : Prop where
  one : v.inFlight.length + v.armed.length + v.fired.length ≤ 1
  handle : ∀ x ∈ v.armed, v.timer = some x.1 ∧ v.running = true
  deadline : ∀ b ∈ (bounds f v.log).2, (∀ x ∈ v.armed, b ≤ x.2) ∧ (v.fired ≠ [] → b ≤ v.now) ∧ (v.inFlight ≠ [] → b ≤ v.now)
  spaced : Spaced f v.log

theorem Tidy.init (f : Nat) : Tidy f (init f) := by
  refine ⟨by simp [Poll.init], by simp [Poll.init], by simp [Poll.init, bounds], ?_⟩
  intro a id t1 b id' t2 c h
  simp [Poll.init] at h

/-- `start` takes effect. -/
def Starts (v : Poll) (op : Op) : Prop := op = .runTask ∧ v.running = false ∧ ∃ ts, v.tasks = .start :: ts

theorem Tidy.step {f : Nat} {v : Poll} (hc : Core f v) (h : Tidy f v) (op : Op)
    (ho : Starts v op → v.inFlight = [] ∧ v.armed = [] ∧ v.fired = []) : Tidy f (v.step op) := by
  have hk := h
  obtain ⟨h1, h2, h3, h4⟩ := h
  cases op with
  | start => exact ⟨h1, h2, h3, h4⟩
  | stop => exact ⟨h1, h2, h3, h4⟩
  | setFrequency g => exact ⟨h1, h2, h3, h4⟩
  | runTask =>
    cases ht : v.tasks with
    | nil => simp only [Poll.step, ht]; exact hk
    | cons t ts =>
      simp only [Poll.step, ht]
      cases t with
      | start =>
        cases hr : v.running with
        | true =>
          simp only [Poll.runTask, if_true]
          refine ⟨h1, ?_, h3, h4⟩
          intro x hx
          exact ⟨(h2 x hx).1, rfl⟩
        | false =>
          obtain ⟨e1, e2, e3⟩ := ho ⟨rfl, hr, ts, ht⟩
          simp only [Poll.runTask, Bool.false_eq_true, if_false, Poll.execute, Poll.emit]
          refine ⟨by simp [e1, e2, e3], by simp [e2], ?_, ?_⟩
          · intro b hb
            rw [bounds_snoc, bounds_snoc] at hb
            simp at hb
          · refine Spaced.snoc (Spaced.snoc h4 _ (by simp)) _ ?_
            intro id' t2 _ x hx
            rw [bounds_snoc] at hx
            simp at hx
      | stop =>
        have hb : bounds f (v.log ++ [.stopped]) = bounds f v.log := bounds_snoc _ _ _
        have hsp : Spaced f (v.log ++ [.stopped]) := Spaced.snoc h4 _ (by simp)
        cases hr : v.running with
        | true =>
          have hc : v.armed = [] ∨ ∃ x, v.timer = some x.1 ∧ v.armed = [x] := by
            rcases ha : v.armed with _ | ⟨x, _ | ⟨y, l⟩⟩
            · exact Or.inl rfl
            · exact Or.inr ⟨x, (h2 x (by simp [ha])).1, rfl⟩
            · rw [ha] at h1; simp at h1; omega
          simp only [Poll.runTask, if_true, Poll.cancelTimer, Poll.emit]
          rcases hc with ha | ⟨x, hx, ha⟩
          · split
            · exact ⟨h1, by simp [ha], by simp only; rw [hb]; exact h3, hsp⟩
            · refine ⟨by simp only [ha]; rw [ha] at h1; exact h1, by simp [ha], ?_, hsp⟩
              simp only
              rw [hb]
              intro b hb'
              have := h3 b hb'
              exact ⟨by simp [ha], this.2⟩
          · simp only [hx, ha]
            rw [ha] at h1
            simp at h1
            refine ⟨by simp; omega, by simp, ?_, hsp⟩
            simp only
            rw [hb]
            intro b hb'
            have := h3 b hb'
            exact ⟨by simp, this.2⟩
        | false =>
          simp only [Poll.runTask, Bool.false_eq_true, if_false, Poll.emit]
          exact ⟨h1, fun x hx => by have := h2 x hx; rw [hr] at this; exact this, by simp only; rw [hb]; exact h3, hsp⟩
      | setFrequency g =>
        have hb : (bounds f (v.log ++ [.frequency g])).2 = (bounds f v.log).2 := by rw [bounds_snoc]
        simp only [Poll.runTask, Poll.emit]
        exact ⟨h1, h2, by simp only; rw [hb]; exact h3, Spaced.snoc h4 _ (by simp)⟩
  | respond id =>
    simp only [Poll.step]
    split
    · rename_i hid
      have hne : v.inFlight ≠ [] := by intro he; rw [he] at hid; cases hid
      have hl : 1 ≤ v.inFlight.length := List.length_pos_iff.2 hne
      have ha : v.armed = [] := by
        cases hh : v.armed with
        | nil => rfl
        | cons a l => rw [hh] at h1; simp at h1; omega
      have hf : v.fired = [] := by
        cases hh : v.fired with
        | nil => rfl
        | cons a l => rw [hh] at h1; simp at h1; omega
      have hin : (v.inFlight.filter fun x => decide (x ≠ id)) = [] := by
        match hh : v.inFlight, hid with
        | [x], hid => simp at hid; simp [hid]
        | x :: y :: l, _ => rw [hh] at h1; simp at h1; omega
      have hb : (bounds f (v.log ++ [.handled id v.now])).2 = (bounds f v.log).2 ++ [v.now + v.freq] := by
        rw [bounds_snoc]; simp only; rw [bounds_freq, hc.freq]
      have hsp : Spaced f (v.log ++ [.handled id v.now]) := Spaced.snoc h4 _ (by simp)
      unfold Poll.onResponse
      dsimp only
      rw [hin]
      split
      · rename_i hr
        refine ⟨by simp [Poll.emit, ha, hf], ?_, ?_, hsp⟩
        · intro x hx
          simp only [Poll.emit, ha, List.nil_append, List.mem_singleton] at hx
          subst hx
          exact ⟨rfl, hr⟩
        · intro b hb'
          simp only [Poll.emit] at hb'
          rw [hb] at hb'
          refine ⟨?_, by simp [Poll.emit, hf], by simp [Poll.emit]⟩
          intro x hx
          simp only [Poll.emit, ha, List.nil_append, List.mem_singleton] at hx
          subst hx
          simp only
          rcases List.mem_append.1 hb' with hb' | hb'
          · have := (h3 b hb').2.2 hne; omega
          · rw [List.mem_singleton] at hb'; omega
      · refine ⟨by simp [Poll.emit, ha, hf], by simp [Poll.emit, ha], ?_, hsp⟩
        intro b hb'
        exact ⟨by simp [Poll.emit, ha], by simp [Poll.emit, hf], by simp [Poll.emit]⟩
    · exact hk
  | tick n =>
    refine ⟨h1, h2, ?_, h4⟩
    intro b hb
    obtain ⟨g1, g2, g3⟩ := h3 b hb
    exact ⟨g1, fun h => by have := g2 h; simp only [Poll.step]; omega, fun h => by have := g3 h; simp only [Poll.step]; omega⟩
  | expire t =>
    simp only [Poll.step]
    split
    · exact hk
    · rename_i d hl
      have hm := lookup_mem _ _ _ hl
      split
      · rename_i hd
        have ha : v.armed = [(t, d)] := by
          match hh : v.armed, hm with
          | [x], hm => simp at hm; simp [hm]
          | x :: y :: l, _ => rw [hh] at h1; simp at h1; omega
        rw [ha] at h1
        simp only [List.length_cons, List.length_nil] at h1
        refine ⟨?_, ?_, ?_, h4⟩
        · simp [ha]; omega
        · simp [ha]
        · intro b hb
          obtain ⟨g1, g2, g3⟩ := h3 b hb
          refine ⟨by simp [ha], ?_, g3⟩
          intro _
          have := g1 (t, d) (by simp [ha])
          simp only at this ⊢
          omega
      · exact hk
  | runTimer t =>
    simp only [Poll.step]
    split
    · rename_i hid
      have hne : v.fired ≠ [] := by intro he; rw [he] at hid; cases hid
      have hl : 1 ≤ v.fired.length := List.length_pos_iff.2 hne
      have ha : v.armed = [] := by
        cases hh : v.armed with
        | nil => rfl
        | cons a l => rw [hh] at h1; simp at h1; omega
      have hi : v.inFlight = [] := by
        cases hh : v.inFlight with
        | nil => rfl
        | cons a l => rw [hh] at h1; simp at h1; omega
      have hf : (v.fired.filter fun x => decide (x ≠ t)) = [] := by
        match hh : v.fired, hid with
        | [x], hid => simp at hid; simp [hid]
        | x :: y :: l, _ => rw [hh] at h1; simp at h1; omega
      rw [hf]
      have hb : bounds f (v.log ++ [.sent v.nextId v.now]) = bounds f v.log := bounds_snoc _ _ _
      simp only [Poll.execute, Poll.emit]
      refine ⟨by simp [ha, hi], by simp [ha], ?_, ?_⟩
      · simp only
        rw [hb]
        intro b hb'
        refine ⟨by simp [ha], by simp, fun _ => (h3 b hb').2.1 hne⟩
      · refine Spaced.snoc h4 _ ?_
        intro id' t2 he x hx
        injection he with _ he
        subst he
        exact (h3 x hx).2.1 hne
    · exact hk

/-! ### How many loops there can be -/

/-- Requests in flight and timers pending. -/
def loops (v : Poll) : Nat := v.inFlight.length + v.armed.length + v.fired.length

theorem length_filter_ne_lt {l : List Nat} {x : Nat} (h : x ∈ l) : (l.filter fun y => decide (y ≠ x)).length + 1 ≤ l.length := by
  have : (l.filter fun y => decide (y ≠ x)).length < l.length := by
    rw [List.length_filter_lt_length_iff_exists]
    exact ⟨x, h, by simp⟩
  omega

theorem length_filter_fst_lt {l : List (Nat × Nat)} {x : Nat × Nat} (h : x ∈ l) :
    (l.filter fun y => decide (y.1 ≠ x.1)).length + 1 ≤ l.length := by
  have : (l.filter fun y => decide (y.1 ≠ x.1)).length < l.length := by
    rw [List.length_filter_lt_length_iff_exists]
    exact ⟨x, h, by simp⟩
  omega

theorem cancelTimer_loops (v : Poll) : v.cancelTimer.loops ≤ v.loops := by
  unfold cancelTimer
  split
  · exact Nat.le_refl _
  · simp only [loops]
    apply Nat.add_le_add_right
    apply Nat.add_le_add_left
    exact List.length_filter_le _ _

theorem onResponse_loops (v : Poll) (id : Nat) (h : id ∈ v.inFlight) : (v.onResponse id).loops ≤ v.loops ∧
    (v.onResponse id).log = v.log ++ [.handled id v.now] := by
  have := length_filter_ne_lt h
  unfold onResponse
  dsimp only
  split
  · refine ⟨?_, rfl⟩; simp only [loops, emit, List.length_append, List.length_singleton]; omega
  · refine ⟨?_, rfl⟩; simp only [loops, emit]; omega

theorem loops_step (v : Poll) (op : Op) (h : v.loops ≤ v.log.count .started) : (v.step op).loops ≤ (v.step op).log.count .started := by
  cases op with
  | start => exact h
  | stop => exact h
  | setFrequency g => exact h
  | runTask =>
    simp only [Poll.step]
    split
    · exact h
    · rename_i t ts _
      cases t with
      | start =>
        simp only [Poll.runTask]
        split
        · exact h
        · simp only [loops, execute, emit, List.length_append, List.length_singleton, List.count_append] at h ⊢
          have e1 : ([PEv.started] : List PEv).count .started = 1 := by decide
          rw [e1]; omega
      | stop =>
        have e1 : ([PEv.stopped] : List PEv).count .started = 0 := by decide
        simp only [Poll.runTask]
        split
        · refine Nat.le_trans (cancelTimer_loops _) ?_
          rw [cancelTimer_log]
          simp only [emit, List.count_append, e1]
          exact h
        · simp only [emit, List.count_append, e1]
          exact h
      | setFrequency g =>
        have e1 : ([PEv.frequency g] : List PEv).count .started = 0 := by simp
        simp only [Poll.runTask, emit, List.count_append, e1]
        exact h
  | respond id =>
    simp only [Poll.step]
    split
    · rename_i hid
      obtain ⟨h1, h2⟩ := onResponse_loops v id hid
      rw [h2, List.count_append]
      omega
    · exact h
  | tick n => exact h
  | expire t =>
    simp only [Poll.step]
    split
    · exact h
    · rename_i d hl
      have := length_filter_fst_lt (lookup_mem _ _ _ hl)
      split
      · simp only [loops, List.length_append, List.length_singleton] at h ⊢
        simp only at this
        omega
      · exact h
  | runTimer t =>
    simp only [Poll.step]
    split
    · rename_i hid
      have := length_filter_ne_lt hid
      simp only [loops, execute, emit, List.length_append, List.length_singleton, List.count_append] at h ⊢
      omega
    · exact h

/-! ### After a stop -/

/-- Requests sent, plus timers that could still send one. -/
def sendable (v : Poll) : Nat := (pollsSent v.log).length + v.armed.length + v.fired.length

theorem cancelTimer_sendable (v : Poll) : v.cancelTimer.sendable ≤ v.sendable := by
  unfold cancelTimer
  split
  · exact Nat.le_refl _
  · simp only [sendable]
    apply Nat.add_le_add_right
    apply Nat.add_le_add_left
    exact List.length_filter_le _ _

/-- While stopped and not started again, the number of requests sent plus pending timers does not grow. -/
theorem sendable_step (v : Poll) (op : Op) (hr : v.running = false) (hs : (v.step op).log.count .started = v.log.count .started) :
    (v.step op).running = false ∧ (v.step op).sendable ≤ v.sendable := by
  cases op with
  | start => exact ⟨hr, Nat.le_refl _⟩
  | stop => exact ⟨hr, Nat.le_refl _⟩
  | setFrequency g => exact ⟨hr, Nat.le_refl _⟩
  | runTask =>
    revert hs
    simp only [Poll.step]
    split
    · exact fun _ => ⟨hr, Nat.le_refl _⟩
    · rename_i t ts _
      cases t with
      | start =>
        simp only [Poll.runTask, hr, Bool.false_eq_true, if_false, execute, emit, List.count_append]
        intro hs
        have e1 : ([PEv.started] : List PEv).count .started = 1 := by decide
        omega
      | stop =>
        simp only [Poll.runTask, hr, Bool.false_eq_true, if_false]
        intro _
        refine ⟨rfl, ?_⟩
        simp only [sendable, emit, pollsSent_append]
        simp [pollsSent]
      | setFrequency g =>
        intro _
        refine ⟨hr, ?_⟩
        simp only [sendable, Poll.runTask, emit, pollsSent_append]
        simp [pollsSent]
  | respond id =>
    simp only [Poll.step]
    split
    · unfold onResponse
      dsimp only
      split
      · rename_i h'; simp only [emit, hr] at h'; cases h'
      · refine ⟨hr, ?_⟩
        simp only [sendable, emit, pollsSent_append]
        simp [pollsSent]
    · exact ⟨hr, Nat.le_refl _⟩
  | tick n => exact ⟨hr, Nat.le_refl _⟩
  | expire t =>
    simp only [Poll.step]
    split
    · exact ⟨hr, Nat.le_refl _⟩
    · rename_i d hl
      have := length_filter_fst_lt (lookup_mem _ _ _ hl)
      split
      · refine ⟨hr, ?_⟩
        simp only [sendable, List.length_append, List.length_singleton]
        simp only at this
        omega
      · exact ⟨hr, Nat.le_refl _⟩
  | runTimer t =>
    simp only [Poll.step]
    split
    · rename_i hid
      have := length_filter_ne_lt hid
      refine ⟨hr, ?_⟩
      simp only [sendable, execute, emit, pollsSent_append, List.length_append]
      have e1 : (pollsSent [PEv.sent v.nextId v.now]).length = 1 := rfl
      rw [e1]; omega
    · exact ⟨hr, Nat.le_refl _⟩

theorem log_step (v : Poll) (op : Op) : ∃ es, (v.step op).log = v.log ++ es := by
  have base : ∃ es, v.log = v.log ++ es := ⟨[], by simp⟩
  cases op with
  | start => exact base
  | stop => exact base
  | setFrequency g => exact base
  | runTask =>
    simp only [Poll.step]
    split
    · exact base
    · rename_i t ts _
      cases t with
      | start =>
        simp only [Poll.runTask]
        split
        · exact base
        · exact ⟨[.started, .sent v.nextId v.now], by simp [execute, emit]⟩
      | stop =>
        simp only [Poll.runTask]
        split
        · exact ⟨[.stopped], by rw [cancelTimer_log]; rfl⟩
        · exact ⟨[.stopped], rfl⟩
      | setFrequency g => exact ⟨[.frequency g], rfl⟩
  | respond id =>
    simp only [Poll.step]
    split
    · rename_i hid; exact ⟨_, (onResponse_loops v id hid).2⟩
    · exact base
  | tick n => exact base
  | expire t =>
    simp only [Poll.step]
    split
    · exact base
    · split
      · exact base
      · exact base
  | runTimer t =>
    simp only [Poll.step]
    split
    · exact ⟨[.sent v.nextId v.now], rfl⟩
    · exact base

theorem log_run (v : Poll) (ops : List Op) : ∃ es, (v.run ops).log = v.log ++ es := by
  induction ops generalizing v with
  | nil => exact ⟨[], by simp [run]⟩
  | cons op ops ih =>
    obtain ⟨e1, h1⟩ := log_step v op
    obtain ⟨e2, h2⟩ := ih (v.step op)
    exact ⟨e1 ++ e2, by simp only [run, List.foldl_cons] at h2 ⊢; rw [h2, h1]; simp⟩

theorem sendable_run (v : Poll) (ops : List Op) (hr : v.running = false) (hs : (v.run ops).log.count .started = v.log.count .started) :
    (v.run ops).running = false ∧ (v.run ops).sendable ≤ v.sendable := by
  induction ops generalizing v with
  | nil => exact ⟨hr, Nat.le_refl _⟩
  | cons op ops ih =>
    obtain ⟨e1, h1⟩ := log_step v op
    obtain ⟨e2, h2⟩ := log_run (v.step op) ops
    have h3 : (v.run (op :: ops)) = (v.step op).run ops := rfl
    rw [h3] at hs ⊢
    rw [h2, h1, List.count_append, List.count_append] at hs
    obtain ⟨h4, h5⟩ := sendable_step v op hr (by rw [h1, List.count_append]; omega)
    obtain ⟨h6, h7⟩ := ih (v.step op) h4 (by rw [h2, List.count_append]; omega)
    exact ⟨h6, Nat.le_trans h7 h5⟩

/-- `stop` takes effect. -/
def Stops (v : Poll) (op : Op) : Prop := op = .runTask ∧ ∃ ts, v.tasks = .stop :: ts

/-- The last of `started` and `stopped` in the log is `stopped`. -/
def StoppedLast (log : List PEv) : Prop := ∃ a b, log = a ++ PEv.stopped :: b ∧ PEv.started ∉ b

/-- No request is sent between a stop and the next start. -/
def Obeyed (log : List PEv) : Prop := ∀ a b id t c, log = a ++ PEv.stopped :: (b ++ PEv.sent id t :: c) → PEv.started ∈ b

theorem Obeyed.snoc {log : List PEv} (h : Obeyed log) (e : PEv) (he : (∃ id t, e = .sent id t) → ¬ StoppedLast log) : Obeyed (log ++ [e]) := by
  intro a b id t c heq
  rcases List.eq_nil_or_concat c with rfl | ⟨c', x, rfl⟩
  · have heq' : log ++ [e] = (a ++ PEv.stopped :: b) ++ [PEv.sent id t] := by rw [heq]; simp
    obtain ⟨h1, h2⟩ := List.append_inj' heq' rfl
    injection h2 with h2
    by_contra hb
    exact he ⟨id, t, h2⟩ ⟨a, b, h1, hb⟩
  · have heq' : log ++ [e] = (a ++ PEv.stopped :: (b ++ PEv.sent id t :: c')) ++ [x] := by rw [heq]; simp
    obtain ⟨h1, -⟩ := List.append_inj' heq' rfl
    exact h a b id t c' h1

theorem StoppedLast.of_snoc {log : List PEv} {e : PEv} (h : StoppedLast (log ++ [e])) : e = .stopped ∨ (e ≠ .started ∧ StoppedLast log) := by
  obtain ⟨a, b, heq, hb⟩ := h
  rcases List.eq_nil_or_concat b with rfl | ⟨b', x, rfl⟩
  · obtain ⟨-, h2⟩ := List.append_inj' heq rfl
    injection h2 with h2
    exact Or.inl h2
  · have heq' : log ++ [e] = (a ++ PEv.stopped :: b') ++ [x] := by rw [heq]; simp
    obtain ⟨h1, h2⟩ := List.append_inj' heq' rfl
    injection h2 with h2
    subst h2
    exact Or.inr ⟨fun h => hb (by simp [h]), a, b', h1, fun h => hb (by simp [h])⟩

/-- What holds when, moreover, no expired timer is queued when a stop takes effect. -/
structure Calm (v : Poll) : Prop where
  quiet : v.running = false → v.armed = [] ∧ v.fired = []
  stopped : StoppedLast v.log → v.running = false
  obeyed : Obeyed v.log

theorem Calm.init (f : Nat) : Calm (init f) := by
  refine ⟨fun _ => ⟨rfl, rfl⟩, ?_, ?_⟩
  · rintro ⟨a, b, h, _⟩; simp [Poll.init] at h
  · intro a b id t c h; simp [Poll.init] at h

theorem Calm.step {f : Nat} {v : Poll} (ht : Tidy f v) (h : Calm v) (op : Op) (ho : Stops v op → v.fired = []) : Calm (v.step op) := by
  have hk := h
  obtain ⟨h1, h2, h3⟩ := h
  cases op with
  | start => exact ⟨h1, h2, h3⟩
  | stop => exact ⟨h1, h2, h3⟩
  | setFrequency g => exact ⟨h1, h2, h3⟩
  | runTask =>
    cases htk : v.tasks with
    | nil => simp only [Poll.step, htk]; exact hk
    | cons t ts =>
      simp only [Poll.step, htk]
      cases t with
      | start =>
        cases hr : v.running with
        | true =>
          simp only [Poll.runTask, if_true]
          refine ⟨by simp, fun h => ?_, h3⟩
          have := h2 h; rw [hr] at this; cases this
        | false =>
          simp only [Poll.runTask, Bool.false_eq_true, if_false, execute, emit]
          have hn : ¬ StoppedLast (v.log ++ [.started]) := by
            intro h
            rcases h.of_snoc with h | h
            · cases h
            · exact h.1 rfl
          refine ⟨by simp, fun h => ?_, ?_⟩
          · rcases StoppedLast.of_snoc h with h | h
            · cases h
            · exact absurd h.2 hn
          · exact Obeyed.snoc (Obeyed.snoc h3 _ (by simp)) _ fun _ => hn
      | stop =>
        have hf := ho ⟨rfl, ts, htk⟩
        have ho' : Obeyed (v.log ++ [.stopped]) := Obeyed.snoc h3 _ (by simp)
        cases hr : v.running with
        | true =>
          simp only [Poll.runTask, if_true, cancelTimer, emit]
          split
          · rename_i hx
            refine ⟨fun _ => ⟨?_, hf⟩, fun _ => rfl, ho'⟩
            cases ha : v.armed with
            | nil => rfl
            | cons x l =>
              have := (ht.handle x (by simp [ha])).1
              rw [hx] at this; cases this
          · rename_i k hx
            refine ⟨fun _ => ⟨?_, hf⟩, fun _ => rfl, ho'⟩
            apply List.filter_eq_nil_iff.2
            intro x hxm
            have := (ht.handle x hxm).1
            rw [hx] at this
            injection this with this
            simp [this]
        | false =>
          simp only [Poll.runTask, Bool.false_eq_true, if_false, emit]
          exact ⟨fun _ => h1 hr, fun _ => rfl, ho'⟩
      | setFrequency g =>
        simp only [Poll.runTask, emit]
        refine ⟨h1, fun h => ?_, Obeyed.snoc h3 _ (by simp)⟩
        rcases h.of_snoc with h | h
        · cases h
        · exact h2 h.2
  | respond id =>
    simp only [Poll.step]
    split
    · unfold onResponse
      dsimp only
      have hs : StoppedLast (v.log ++ [.handled id v.now]) → v.running = false := by
        intro h
        rcases h.of_snoc with h | h
        · cases h
        · exact h2 h.2
      split
      · rename_i hr
        refine ⟨fun h => ?_, hs, Obeyed.snoc h3 _ (by simp)⟩
        simp only [emit] at hr h
        rw [hr] at h; cases h
      · exact ⟨h1, hs, Obeyed.snoc h3 _ (by simp)⟩
    · exact hk
  | tick n => exact ⟨h1, h2, h3⟩
  | expire t =>
    simp only [Poll.step]
    split
    · exact hk
    · rename_i d hl
      have hm := lookup_mem _ _ _ hl
      have hr := (ht.handle _ hm).2
      split
      · exact ⟨fun h => (by rw [hr] at h; cases h), h2, h3⟩
      · exact hk
  | runTimer t =>
    simp only [Poll.step]
    split
    · rename_i hid
      have hr : v.running = true := by
        cases hr : v.running with
        | true => rfl
        | false => rw [(h1 hr).2] at hid; cases hid
      have hn : ¬ StoppedLast v.log := fun h => by have := h2 h; rw [hr] at this; cases this
      simp only [execute, emit]
      refine ⟨fun h => (by rw [hr] at h; cases h), fun h => ?_, Obeyed.snoc h3 _ fun _ => hn⟩
      rcases StoppedLast.of_snoc h with h | h
      · cases h
      · exact absurd h.2 hn
    · exact hk

end Modbus.Poll
