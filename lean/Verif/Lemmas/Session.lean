import Verif.Spec.Session
import Verif.Lemmas.Scheduled

/-! Lemmas about client sessions: each scheduled request of a session is a run of the scheduled request model. -/

namespace Modbus

open Modbus.Spec

namespace Poll

/-- The same request with other queued tasks. -/
def withTasks (p : Poll) (ts : List PTask) : Poll := { p with tasks := ts }

theorem withTasks_runTask (p : Poll) (ts : List PTask) (t : PTask) : (p.withTasks ts).runTask t = (p.runTask t).withTasks ts := by
  obtain ⟨running, freq, timer, tasks, inFlight, armed, fired, now, nextTimer, nextId, log⟩ := p
  cases t <;> cases running <;> cases timer <;> rfl

theorem withTasks_onResponse (p : Poll) (ts : List PTask) (id : Nat) : (p.withTasks ts).onResponse id = (p.onResponse id).withTasks ts := by
  obtain ⟨running, freq, timer, tasks, inFlight, armed, fired, now, nextTimer, nextId, log⟩ := p
  cases running <;> rfl

theorem withTasks_respond (p : Poll) (ts : List PTask) (id : Nat) :
    (p.withTasks ts).step (.respond id) = (p.step (.respond id)).withTasks ts := by
  simp only [step]
  have : (p.withTasks ts).inFlight = p.inFlight := rfl
  rw [this]
  split
  · exact withTasks_onResponse p ts id
  · rfl

theorem withTasks_tick (p : Poll) (ts : List PTask) (n : Nat) : (p.withTasks ts).step (.tick n) = (p.step (.tick n)).withTasks ts := rfl

theorem withTasks_expire (p : Poll) (ts : List PTask) (t : Nat) :
    (p.withTasks ts).step (.expire t) = (p.step (.expire t)).withTasks ts := by
  simp only [step]
  have : (p.withTasks ts).armed = p.armed := rfl
  rw [this]
  cases p.armed.lookup t with
  | none => rfl
  | some d =>
    show (if d ≤ p.now then _ else _) = Poll.withTasks (if d ≤ p.now then _ else _) ts
    split <;> rfl

theorem withTasks_runTimer (p : Poll) (ts : List PTask) (t : Nat) :
    (p.withTasks ts).step (.runTimer t) = (p.step (.runTimer t)).withTasks ts := by
  simp only [step]
  have : (p.withTasks ts).fired = p.fired := rfl
  rw [this]
  split <;> rfl

theorem step_runTask_cons (p : Poll) (t : PTask) (ts : List PTask) :
    (p.withTasks (t :: ts)).step .runTask = (p.runTask t).withTasks ts := by
  show ((p.withTasks (t :: ts)).withTasks ts).runTask t = _
  exact withTasks_runTask p ts t

/-- The API call that posts task `t`. -/
def callOf : PTask → Op
  | .start => .start
  | .stop => .stop
  | .setFrequency f => .setFrequency f

theorem step_callOf (p : Poll) (ts : List PTask) (t : PTask) : (p.withTasks ts).step (callOf t) = p.withTasks (ts ++ [t]) := by
  cases t <;> rfl

theorem run_stops (p : Poll) (ts : List PTask) (n : Nat) :
    (p.withTasks ts).run (List.replicate n .stop) = p.withTasks (ts ++ List.replicate n .stop) := by
  induction n generalizing ts with
  | zero => simp [run]
  | succ n ih =>
    rw [List.replicate_succ]
    show ((p.withTasks ts).step .stop).run _ = _
    rw [show (p.withTasks ts).step .stop = p.withTasks (ts ++ [.stop]) from rfl, ih, List.append_assoc]
    rfl

theorem log_runTask (p : Poll) (t : PTask) : ∃ es, (p.runTask t).log = p.log ++ es := by
  obtain ⟨es, h⟩ := log_step (p.withTasks [t]) .runTask
  exact ⟨es, by rw [step_runTask_cons] at h; exact h⟩

end Poll

namespace Sess

/-- The queued tasks of scheduled request `i`. -/
def tasksOf (i : Nat) (ts : List SessTask) : List PTask :=
  ts.filterMap fun t => match t with
    | .poll j t => if j = i then some t else none
    | _ => none

@[simp] theorem tasksOf_append (i : Nat) (a b : List SessTask) : tasksOf i (a ++ b) = tasksOf i a ++ tasksOf i b := by simp [tasksOf]

@[simp] theorem effectsOf_append (i : Nat) (a b : List SessEv) : effectsOf i (a ++ b) = effectsOf i a ++ effectsOf i b := by
  simp [effectsOf]

/-- Scheduled request `i` as a state of the scheduled request model. -/
def view (i : Nat) (v : Sess) : Option Poll := v.polls[i]?.map fun p => p.withTasks (tasksOf i v.tasks)

/-- What a step of the session means for scheduled request `i`. -/
def opsFor (i : Nat) (v : Sess) : Op → List Poll.Op
  | .call j t => if j = i then [Poll.callOf t] else []
  | .runTask =>
    match v.tasks with
    | .poll j _ :: _ => if j = i then [.runTask] else []
    | .shutdown :: _ => List.replicate (v.registered.count i) .stop
    | _ => []
  | .respond j id => if j = i then [.respond id] else []
  | .tick n => [.tick n]
  | .expire j t => if j = i then [.expire t] else []
  | .runTimer j t => if j = i then [.runTimer t] else []
  | _ => []

/-- What a history of the session means for scheduled request `i`. -/
def trace (i : Nat) (v : Sess) : List Op → List Poll.Op
  | [] => []
  | op :: ops => opsFor i v op ++ trace i (v.step op) ops

theorem tasksOf_stops (i : Nat) (l : List Nat) : tasksOf i (l.map fun i => SessTask.poll i .stop) = List.replicate (l.count i) .stop := by
  induction l with
  | nil => rfl
  | cons x l ih =>
    simp only [tasksOf] at ih ⊢
    simp only [List.map_cons, List.filterMap_cons, List.count_cons]
    by_cases h : x = i
    · simp [h, ih, List.replicate_succ]
    · simp [h, ih]

theorem onPoll_polls_ne (v : Sess) {i j : Nat} (f : Poll → Poll) (h : j ≠ i) : (v.onPoll j f).polls[i]? = v.polls[i]? := by
  unfold onPoll
  split
  · rfl
  · simp only [emit]; rw [List.getElem?_set_ne h]

theorem onPoll_polls (v : Sess) (i : Nat) (f : Poll → Poll) : (v.onPoll i f).polls[i]? = v.polls[i]?.map f := by
  unfold onPoll
  split
  · next h => rw [h]; rfl
  · next p h =>
    simp only [emit]
    obtain ⟨hl, _⟩ := List.getElem?_eq_some_iff.1 h
    rw [List.getElem?_set_self hl, h]; rfl

theorem onPoll_tasks (v : Sess) (i : Nat) (f : Poll → Poll) : (v.onPoll i f).tasks = v.tasks := by
  unfold onPoll; split <;> rfl

theorem onPoll_length (v : Sess) (i : Nat) (f : Poll → Poll) : (v.onPoll i f).polls.length = v.polls.length := by
  unfold onPoll; split <;> simp [emit]

/-- A step of scheduled request `j` that leaves its queue alone. -/
theorem view_onPoll {i j : Nat} {v : Sess} {p : Poll} (op : Poll.Op)
    (hcomm : ∀ (q : Poll) ts, (q.withTasks ts).step op = (q.step op).withTasks ts) (h : view i v = some p) :
    view i (v.onPoll j fun q => q.step op) = some (p.run (if j = i then [op] else [])) := by
  unfold view at h ⊢
  rw [onPoll_tasks]
  by_cases hj : j = i
  · subst hj
    rw [onPoll_polls, if_pos rfl]
    cases hq : v.polls[j]? with
    | none => rw [hq] at h; cases h
    | some q =>
      rw [hq] at h
      simp only [Option.map_some, Option.some.injEq] at h ⊢
      rw [← h]; exact (hcomm q _).symm
  · rw [onPoll_polls_ne _ _ hj, if_neg hj, h]; rfl

theorem view_same {i : Nat} {v w : Sess} {p : Poll} (h : view i v = some p) (hp : w.polls[i]? = v.polls[i]?)
    (ht : tasksOf i w.tasks = tasksOf i v.tasks) : view i w = some (p.run []) := by
  unfold view at h ⊢
  rw [hp, ht, h]; rfl

theorem view_step {i : Nat} {v : Sess} {p : Poll} (op : Op) (h : view i v = some p) :
    view i (v.step op) = some (p.run (opsFor i v op)) := by
  have hlt : i < v.polls.length := by
    unfold view at h
    cases hq : v.polls[i]? with
    | none => rw [hq] at h; cases h
    | some q => exact (List.getElem?_eq_some_iff.1 hq).1
  cases op with
  | send => exact view_same h rfl (by simp [step, tasksOf])
  | schedule f =>
    have : v.polls.length ≠ i := by omega
    exact view_same h (List.getElem?_append_left hlt) (by simp [step, tasksOf, this])
  | register j =>
    simp only [step]
    split
    · exact view_same h rfl (by simp [tasksOf])
    · exact h
  | shutdown => exact view_same h rfl (by simp [step, tasksOf])
  | call j t =>
    simp only [step, opsFor]
    by_cases hj : j = i
    · subst hj
      rw [if_pos hlt, if_pos rfl]
      show (v.polls[j]?.map fun p => p.withTasks (tasksOf j (v.tasks ++ [.poll j t]))) = _
      unfold view at h
      cases hq : v.polls[j]? with
      | none => rw [hq] at h; cases h
      | some q =>
        rw [hq] at h
        simp only [Option.map_some, Option.some.injEq] at h ⊢
        rw [← h]
        show _ = (q.withTasks _).step _
        rw [Poll.step_callOf, tasksOf_append]
        simp [tasksOf]
    · rw [if_neg hj]
      split
      · exact view_same h rfl (by simp [tasksOf, hj])
      · exact h
  | runTask =>
    cases ht : v.tasks with
    | nil =>
      simp only [step, opsFor, ht]
      exact h
    | cons t ts =>
      unfold view at h
      rw [ht] at h
      cases t with
      | send id =>
        simp only [step, opsFor, ht]
        exact h
      | register j =>
        simp only [step, opsFor, ht]
        exact h
      | poll j t =>
        simp only [step, opsFor, ht, runTask]
        unfold view
        rw [onPoll_tasks]
        by_cases hj : j = i
        · subst hj
          rw [onPoll_polls, if_pos rfl]
          simp only
          cases hq : v.polls[j]? with
          | none => rw [hq] at h; cases h
          | some q =>
            rw [hq] at h
            simp only [Option.map_some, Option.some.injEq] at h ⊢
            rw [← h]
            have : tasksOf j (SessTask.poll j t :: ts) = t :: tasksOf j ts := by simp [tasksOf]
            rw [this]
            exact (Poll.step_runTask_cons q t _).symm
        · rw [onPoll_polls_ne _ _ hj, if_neg hj]
          simp only
          have : tasksOf i (SessTask.poll j t :: ts) = tasksOf i ts := by simp [tasksOf, hj]
          rw [this] at h
          exact h
      | shutdown =>
        simp only [step, opsFor, ht, runTask]
        show (v.polls[i]?.map fun p : Poll => p.withTasks (tasksOf i (ts ++ v.registered.map fun i => SessTask.poll i .stop))) = _
        rw [tasksOf_append, tasksOf_stops]
        cases hq : v.polls[i]? with
        | none => rw [hq] at h; cases h
        | some q =>
          rw [hq] at h
          simp only [Option.map_some, Option.some.injEq] at h ⊢
          rw [← h]
          have : tasksOf i (SessTask.shutdown :: ts) = tasksOf i ts := by simp [tasksOf]
          rw [this]
          exact (Poll.run_stops q _ _).symm
  | report id =>
    simp only [step]
    split <;> exact h
  | respond j id => exact view_onPoll _ (fun q ts => Poll.withTasks_respond q ts id) h
  | tick n =>
    show ((v.polls.map fun p => p.step (.tick n))[i]?.map fun p : Poll => p.withTasks (tasksOf i v.tasks)) = _
    unfold view at h
    rw [List.getElem?_map]
    cases hq : v.polls[i]? with
    | none => rw [hq] at h; cases h
    | some q =>
      rw [hq] at h
      simp only [Option.map_some, Option.some.injEq] at h ⊢
      rw [← h]; rfl
  | expire j t => exact view_onPoll _ (fun q ts => Poll.withTasks_expire q ts t) h
  | runTimer j t => exact view_onPoll _ (fun q ts => Poll.withTasks_runTimer q ts t) h

theorem view_run {i : Nat} {v : Sess} {p : Poll} (ops : List Op) (h : view i v = some p) :
    view i (v.run ops) = some (p.run (trace i v ops)) := by
  induction ops generalizing v p with
  | nil => exact h
  | cons op ops ih =>
    show view i ((v.step op).run ops) = some (p.run (opsFor i v op ++ trace i (v.step op) ops))
    rw [ih (view_step op h)]
    simp [Poll.run]

theorem run_append (v : Sess) (a b : List Op) : v.run (a ++ b) = (v.run a).run b := by simp [run]

/-- Bookkeeping: tasks name existing scheduled requests only; the session's log holds exactly the scheduled requests' effects;
time is common. -/
structure Good (v : Sess) : Prop where
  tasks : ∀ i t, SessTask.poll i t ∈ v.tasks → i < v.polls.length
  effects : ∀ i p, v.polls[i]? = some p → effectsOf i v.log = p.log
  fresh : ∀ i, v.polls.length ≤ i → effectsOf i v.log = []
  reg : ∀ i, i ∈ v.registered ∨ i ∈ v.halfway ∨ SessTask.register i ∈ v.tasks → i < v.polls.length

theorem effectsOf_map (i j : Nat) (es : List PEv) : effectsOf i (es.map (.poll j)) = if j = i then es else [] := by
  induction es with
  | nil => simp [effectsOf]
  | cons e es ih =>
    simp only [effectsOf] at ih ⊢
    by_cases h : j = i
    · simp only [h, if_true] at ih ⊢; simp [ih]
    · simp only [h, if_false] at ih ⊢; simp [h]

theorem Good.init : Good init := by
  refine ⟨?_, ?_, fun i _ => rfl, ?_⟩ <;> simp [Sess.init]

theorem Good.onPoll {v : Sess} (h : Good v) (j : Nat) (f : Poll → Poll) (hf : ∀ p, ∃ es, (f p).log = p.log ++ es) : Good (v.onPoll j f) := by
  cases hq : v.polls[j]? with
  | none =>
    have : v.onPoll j f = v := by unfold Sess.onPoll; rw [hq]
    rw [this]; exact h
  | some q =>
    obtain ⟨es, hes⟩ := hf q
    have hv : v.onPoll j f = { v with polls := v.polls.set j (f q), log := v.log ++ es.map (.poll j) } := by
      unfold Sess.onPoll; rw [hq]
      simp only [emit]
      rw [hes, List.drop_left]
    obtain ⟨hl, _⟩ := List.getElem?_eq_some_iff.1 hq
    rw [hv]
    refine ⟨?_, ?_, ?_, ?_⟩
    · simpa using h.tasks
    · intro i p hp
      simp only at hp ⊢
      rw [effectsOf_append, effectsOf_map]
      by_cases hj : j = i
      · subst hj
        rw [List.getElem?_set_self hl] at hp
        cases hp
        rw [if_pos rfl, h.effects _ _ hq, hes]
      · rw [List.getElem?_set_ne hj] at hp
        rw [if_neg hj, h.effects _ _ hp, List.append_nil]
    · intro i hi
      simp only [List.length_set] at hi ⊢
      rw [effectsOf_append, effectsOf_map, h.fresh i hi, if_neg (by omega)]; rfl
    · simpa using h.reg

theorem Good.of_eq {v w : Sess} (h : Good v) (hp : w.polls = v.polls) (hl : ∀ i, effectsOf i w.log = effectsOf i v.log)
    (ht : ∀ i t, SessTask.poll i t ∈ w.tasks → SessTask.poll i t ∈ v.tasks ∨ i < v.polls.length)
    (hr : ∀ i, i ∈ w.registered ∨ i ∈ w.halfway ∨ SessTask.register i ∈ w.tasks →
      i ∈ v.registered ∨ i ∈ v.halfway ∨ SessTask.register i ∈ v.tasks) : Good w := by
  refine ⟨?_, ?_, ?_, ?_⟩
  · intro i t hi; rw [hp]; exact (ht i t hi).elim (h.tasks i t) id
  · intro i p hi; rw [hp] at hi; rw [hl]; exact h.effects i p hi
  · intro i hi; rw [hp] at hi; rw [hl]; exact h.fresh i hi
  · intro i hi; rw [hp]; exact h.reg i (hr i hi)

theorem Good.step {v : Sess} (h : Good v) (op : Op) : Good (v.step op) := by
  cases op with
  | send => exact h.of_eq rfl (fun _ => rfl) (by simp +contextual [Sess.step]) (by simp [Sess.step])
  | schedule f =>
    refine ⟨?_, ?_, ?_, ?_⟩
    · intro i t hi
      simp only [Sess.step, List.mem_append, List.mem_singleton, SessTask.poll.injEq] at hi
      simp only [Sess.step, List.length_append, List.length_singleton]
      rcases hi with hi | hi
      · have := h.tasks i t hi; omega
      · omega
    · intro i p hp
      simp only [Sess.step] at hp ⊢
      rcases Nat.lt_or_ge i v.polls.length with hi | hi
      · rw [List.getElem?_append_left hi] at hp
        exact h.effects i p hp
      · rw [h.fresh i hi]
        rw [List.getElem?_append_right hi] at hp
        have h1 := List.mem_of_getElem? hp
        simp only [List.mem_singleton] at h1
        rw [h1]; rfl
    · intro i hi
      simp only [Sess.step, List.length_append, List.length_singleton] at hi ⊢
      exact h.fresh i (by omega)
    · intro i hi
      simp only [Sess.step, List.mem_append, List.mem_singleton, reduceCtorEq, or_false] at hi
      simp only [Sess.step, List.length_append, List.length_singleton]
      have := h.reg i
      rcases hi with hi | (hi | hi) | hi
      · have := this (.inl hi); omega
      · have := this (.inr (.inl hi)); omega
      · omega
      · have := this (.inr (.inr hi)); omega
  | register j =>
    simp only [Sess.step]
    split
    · next hj =>
      refine h.of_eq rfl (fun _ => rfl) (by simp +contextual) ?_
      intro i hi
      simp only [List.mem_filter, List.mem_append, List.mem_singleton, SessTask.register.injEq] at hi
      rcases hi with hi | hi | hi | hi
      · exact .inl hi
      · exact .inr (.inl hi.1)
      · exact .inr (.inr hi)
      · subst hi; exact .inr (.inl hj)
    · exact h
  | shutdown => exact h.of_eq rfl (fun _ => rfl) (by simp +contextual [Sess.step]) (by simp [Sess.step])
  | call j t =>
    simp only [Sess.step]
    split
    · next hj =>
      refine h.of_eq rfl (fun _ => rfl) ?_ (by simp)
      intro i t hi
      simp only [List.mem_append, List.mem_singleton, SessTask.poll.injEq] at hi
      rcases hi with hi | hi
      · exact .inl hi
      · right; rw [hi.1]; exact hj
    · exact h
  | runTask =>
    cases ht : v.tasks with
    | nil => simp only [Sess.step, ht]; exact h
    | cons t ts =>
      simp only [Sess.step, ht]
      have h0 : Good { v with tasks := ts } :=
        h.of_eq rfl (fun _ => rfl) (fun i t hi => .inl (by rw [ht]; exact List.mem_cons_of_mem _ hi))
          (fun i hi => hi.imp id (Or.imp id fun hi => by rw [ht]; exact List.mem_cons_of_mem _ hi))
      cases t with
      | send id => exact h0.of_eq rfl (fun i => by simp [Sess.runTask, emit, effectsOf]) (fun i t hi => .inl hi) (fun i hi => hi)
      | poll j t => exact h0.onPoll j _ fun p => Poll.log_runTask p t
      | register j =>
        refine ⟨h0.tasks, h0.effects, h0.fresh, ?_⟩
        intro i hi
        simp only [Sess.runTask, List.mem_append, List.mem_singleton] at hi
        rcases hi with (hi | hi) | hi
        · exact h.reg i (.inl hi)
        · subst hi; exact h.reg i (.inr (.inr (by rw [ht]; simp)))
        · exact h0.reg i (.inr hi)
      | shutdown =>
        refine h0.of_eq rfl (fun i => by simp [Sess.runTask, emit, effectsOf]) ?_ ?_
        · intro i t hi
          simp only [Sess.runTask, emit, List.mem_append, List.mem_map, SessTask.poll.injEq] at hi
          rcases hi with hi | ⟨j, hj, hi, _⟩
          · exact .inl hi
          · right; rw [← hi]; exact h.reg j (.inl hj)
        · intro i hi
          simp [Sess.runTask, emit] at hi
          exact .inr hi
  | report id =>
    simp only [Sess.step]
    split
    · exact h.of_eq rfl (fun i => by simp [emit, effectsOf]) (fun i t hi => .inl hi) (fun i hi => hi)
    · exact h
  | respond j id => exact h.onPoll j _ fun p => Poll.log_step p _
  | tick n =>
    refine ⟨?_, ?_, ?_, ?_⟩
    · simpa [Sess.step] using h.tasks
    · intro i p hp
      simp only [Sess.step, List.getElem?_map, Option.map_eq_some_iff] at hp ⊢
      obtain ⟨q, hq, rfl⟩ := hp
      exact h.effects i q hq
    · simpa [Sess.step] using h.fresh
    · simpa [Sess.step] using h.reg
  | expire j t => exact h.onPoll j _ fun p => Poll.log_step p _
  | runTimer j t => exact h.onPoll j _ fun p => Poll.log_step p _

theorem good_run (ops : List Op) : Good (Sess.init.run ops) := by
  induction ops using List.reverseRecOn with
  | nil => exact .init
  | append_singleton ops op ih => rw [run_append]; exact ih.step op

theorem view_schedule (v : Sess) (hg : Good v) (f i : Nat) (hi : i = v.polls.length) :
    view i (v.step (.schedule f)) = some ((Poll.init f).run [.tick v.now, .start]) := by
  show ((v.polls ++ [_])[i]?.map fun p => p.withTasks (tasksOf i (v.tasks ++ [.poll v.polls.length .start]))) = _
  have ht : tasksOf i v.tasks = [] := by
    simp only [tasksOf, List.filterMap_eq_nil_iff]
    intro t hm
    split
    · next j t =>
      split
      · next hj => have := hg.tasks j t hm; omega
      · rfl
    · rfl
  rw [tasksOf_append, ht, hi]
  simp [tasksOf, Poll.withTasks, Poll.run, Poll.step, Poll.init]

theorem polls_length_only_schedule {i : Nat} (v : Sess) (op : Op) (ho : ∀ f, op ≠ .schedule f) (h : i < (v.run [op]).polls.length) :
    i < v.polls.length := by
  have key : ∀ j f, i < (v.onPoll j f).polls.length → i < v.polls.length := by
    intro j f hh; rw [onPoll_length] at hh; exact hh
  cases op with
  | schedule f => exact absurd rfl (ho f)
  | runTask =>
    simp only [run, List.foldl, step] at h
    split at h
    · exact h
    · next t ts ht =>
      cases t with
      | poll j t => simp only [runTask, onPoll_length] at h; exact h
      | send id => exact h
      | register j => exact h
      | shutdown => exact h
  | send => exact h
  | register j => simp only [run, List.foldl, step] at h; split at h <;> exact h
  | shutdown => exact h
  | call j t => simp only [run, List.foldl, step] at h; split at h <;> exact h
  | report id => simp only [run, List.foldl, step] at h; split at h <;> exact h
  | respond j id => exact key _ _ h
  | tick n => simp only [run, List.foldl, step, List.length_map] at h; exact h
  | expire j t => exact key _ _ h
  | runTimer j t => exact key _ _ h

/-- Each scheduled request of a reachable session has a history in the scheduled request model. -/
theorem view_reach (ops : List Op) (i : Nat) (h : i < (Sess.init.run ops).polls.length) :
    ∃ f pops, view i (Sess.init.run ops) = some ((Poll.init f).run pops) := by
  induction ops using List.reverseRecOn with
  | nil => simp [Sess.init, run] at h
  | append_singleton ops op ih =>
    rw [run_append] at h ⊢
    obtain ⟨v, hv⟩ : ∃ v, v = Sess.init.run ops := ⟨_, rfl⟩
    have hg := good_run ops
    rw [← hv] at ih h ⊢ hg
    by_cases hi : i < v.polls.length
    · obtain ⟨f, pops, hp⟩ := ih hi
      refine ⟨f, pops ++ opsFor i v op, ?_⟩
      show view i (v.step op) = _
      rw [view_step op hp]
      simp [Poll.run]
    · cases op with
      | schedule f =>
        have hi2 : i = v.polls.length := by
          simp only [run, List.foldl, step, List.length_append, List.length_singleton] at h; omega
        exact ⟨f, _, view_schedule v hg f i hi2⟩
      | _ => exact absurd (polls_length_only_schedule _ _ (by simp) h) hi

/-! ### The strand is first in, first out -/

/-- Number of tasks a history runs. -/
def runs (ops : List Op) : Nat := ops.countP fun op => match op with
  | .runTask => true
  | _ => false

theorem log_onPoll (v : Sess) (j : Nat) (f : Poll → Poll) : ∃ es, (v.onPoll j f).log = v.log ++ es := by
  unfold onPoll
  split
  · exact ⟨[], by simp⟩
  · exact ⟨_, rfl⟩

theorem log_step (v : Sess) (op : Op) : ∃ es, (v.step op).log = v.log ++ es := by
  have hid : ∃ es, v.log = v.log ++ es := ⟨[], by simp⟩
  cases op with
  | send => exact hid
  | schedule f => exact hid
  | register j => simp only [step]; split <;> exact hid
  | shutdown => exact hid
  | call j t => simp only [step]; split <;> exact hid
  | runTask =>
    simp only [step]
    split
    · exact hid
    · next t ts ht =>
      cases t with
      | send id => exact ⟨_, rfl⟩
      | poll j t => exact log_onPoll _ _ _
      | register j => exact hid
      | shutdown => exact ⟨_, rfl⟩
  | report id =>
    simp only [step]; split
    · exact ⟨_, rfl⟩
    · exact hid
  | respond j id => exact log_onPoll _ _ _
  | tick n => exact hid
  | expire j t => exact log_onPoll _ _ _
  | runTimer j t => exact log_onPoll _ _ _

theorem log_run (v : Sess) (ops : List Op) : ∃ es, (v.run ops).log = v.log ++ es := by
  induction ops generalizing v with
  | nil => exact ⟨[], by simp [run]⟩
  | cons op ops ih =>
    obtain ⟨a, ha⟩ := log_step v op
    obtain ⟨b, hb⟩ := ih (v.step op)
    exact ⟨a ++ b, by show ((v.step op).run ops).log = _; rw [hb, ha, List.append_assoc]⟩

/-- Steps other than running a task only append to the queue. -/
theorem tasks_step (v : Sess) (op : Op) (h : op ≠ .runTask) : ∃ ts, (v.step op).tasks = v.tasks ++ ts := by
  have hid : ∃ ts, v.tasks = v.tasks ++ ts := ⟨[], by simp⟩
  cases op with
  | send => exact ⟨_, rfl⟩
  | schedule f => exact ⟨_, rfl⟩
  | register j =>
    simp only [step]; split
    · exact ⟨_, rfl⟩
    · exact hid
  | shutdown => exact ⟨_, rfl⟩
  | call j t =>
    simp only [step]; split
    · exact ⟨_, rfl⟩
    · exact hid
  | runTask => exact absurd rfl h
  | report id => simp only [step]; split <;> exact hid
  | respond j id => simp only [step]; rw [onPoll_tasks]; exact hid
  | tick n => exact hid
  | expire j t => simp only [step]; rw [onPoll_tasks]; exact hid
  | runTimer j t => simp only [step]; rw [onPoll_tasks]; exact hid

theorem tasks_runTask (v : Sess) (t : SessTask) : ∃ ts, (v.runTask t).tasks = v.tasks ++ ts := by
  cases t with
  | poll j t => simp only [runTask]; rw [onPoll_tasks]; exact ⟨[], by simp⟩
  | send id => exact ⟨[], by simp [runTask, emit]⟩
  | register j => exact ⟨[], by simp [runTask]⟩
  | shutdown => exact ⟨_, rfl⟩

theorem polls_length_step (v : Sess) (op : Op) : v.polls.length ≤ (v.step op).polls.length := by
  cases op with
  | schedule f => simp [step]
  | register j => simp only [step]; split <;> exact Nat.le_refl _
  | call j t => simp only [step]; split <;> exact Nat.le_refl _
  | runTask =>
    simp only [step]; split
    · exact Nat.le_refl _
    · next t ts ht =>
      cases t with
      | poll j t => simp only [runTask, onPoll_length]; exact Nat.le_refl _
      | send id => exact Nat.le_refl _
      | register j => exact Nat.le_refl _
      | shutdown => exact Nat.le_refl _
  | report id => simp only [step]; split <;> exact Nat.le_refl _
  | respond j id => simp only [step, onPoll_length]; exact Nat.le_refl _
  | tick n => simp [step]
  | expire j t => simp only [step, onPoll_length]; exact Nat.le_refl _
  | runTimer j t => simp only [step, onPoll_length]; exact Nat.le_refl _
  | send => exact Nat.le_refl _
  | shutdown => exact Nat.le_refl _

theorem runTask_stopped (v : Sess) (i : Nat) (h : i < v.polls.length) :
    ∃ es, (v.runTask (.poll i .stop)).log = v.log ++ es ∧ SessEv.poll i .stopped ∈ es := by
  obtain ⟨p, hp⟩ : ∃ p, v.polls[i]? = some p := ⟨_, List.getElem?_eq_getElem h⟩
  refine ⟨_, by simp only [runTask, onPoll, hp, emit]; rfl, ?_⟩
  have : (p.runTask .stop).log = p.log ++ [.stopped] := by
    simp only [Poll.runTask]
    split
    · rw [Poll.cancelTimer_log]; rfl
    · rfl
  rw [this, List.drop_left]
  simp

/-- A stop at position `n` of the queue takes effect before `n + 1` more tasks have run. -/
theorem stop_runs (v : Sess) (ops : List Op) (i : Nat) (pre post : List SessTask) (ht : v.tasks = pre ++ .poll i .stop :: post)
    (hi : i < v.polls.length) (hn : pre.length < runs ops) : ∃ es, (v.run ops).log = v.log ++ es ∧ SessEv.poll i .stopped ∈ es := by
  induction ops generalizing v pre post with
  | nil => simp [runs] at hn
  | cons op ops ih =>
    show ∃ es, ((v.step op).run ops).log = _ ∧ _
    by_cases ho : op = .runTask
    · subst ho
      cases pre with
      | nil =>
        obtain ⟨es, he, hm⟩ := runTask_stopped { v with tasks := post } i hi
        have hs : v.step .runTask = { v with tasks := post }.runTask (.poll i .stop) := by
          simp only [step]; rw [ht]; rfl
        obtain ⟨fs, hf⟩ := log_run (v.step .runTask) ops
        exact ⟨es ++ fs, by rw [hf, hs, he, List.append_assoc], List.mem_append_left _ hm⟩
      | cons t pre =>
        have hs : v.step .runTask = { v with tasks := pre ++ SessTask.poll i .stop :: post }.runTask t := by
          simp only [step]; rw [ht]; rfl
        obtain ⟨ts, hts⟩ := tasks_runTask { v with tasks := pre ++ SessTask.poll i .stop :: post } t
        have hn' : pre.length < runs ops := by
          simp only [runs, List.countP_cons, List.length_cons, if_true] at hn ⊢; omega
        obtain ⟨es, he, hm⟩ := ih (v.step .runTask) pre (post ++ ts) (by rw [hs, hts]; simp)
          (Nat.lt_of_lt_of_le hi (polls_length_step _ _)) hn'
        obtain ⟨fs, hf⟩ := log_step v .runTask
        exact ⟨fs ++ es, by rw [he, hf, List.append_assoc], List.mem_append_right _ hm⟩
    · obtain ⟨ts, hts⟩ := tasks_step v op ho
      have hn' : pre.length < runs ops := by
        simp only [runs, List.countP_cons] at hn ⊢
        cases op <;> simp_all
      obtain ⟨es, he, hm⟩ := ih (v.step op) pre (post ++ ts) (by rw [hts, ht]; simp)
        (Nat.lt_of_lt_of_le hi (polls_length_step _ _)) hn'
      obtain ⟨fs, hf⟩ := log_step v op
      exact ⟨fs ++ es, by rw [he, hf, List.append_assoc], List.mem_append_right _ hm⟩

/-! ### One-time requests -/

/-- 1 for the identities given out so far, 0 for the others. -/
def submitted (n id : Nat) : Nat := if id < n then 1 else 0

/-- Every one-time request is queued, sent, or reported, once. -/
structure Once (v : Sess) : Prop where
  queued : ∀ id, v.tasks.count (.send id) + timesSent id v.log = submitted v.nextId id
  flying : ∀ id, v.inFlight.count id + timesReported id v.log = timesSent id v.log

theorem Once.same {v w : Sess} (h : Once v) (h1 : ∀ id, w.tasks.count (.send id) = v.tasks.count (.send id)) (h2 : w.nextId = v.nextId)
    (h3 : w.inFlight = v.inFlight) (h4 : ∀ id, timesSent id w.log = timesSent id v.log)
    (h5 : ∀ id, timesReported id w.log = timesReported id v.log) : Once w := by
  refine ⟨fun id => ?_, fun id => ?_⟩
  · rw [h1, h2, h4]; exact h.queued id
  · rw [h3, h4, h5]; exact h.flying id

theorem Once.onPoll {v : Sess} (h : Once v) (j : Nat) (f : Poll → Poll) : Once (v.onPoll j f) := by
  unfold Sess.onPoll
  split
  · exact h
  · next p hp =>
    refine h.same (fun _ => rfl) rfl rfl (fun id => ?_) (fun id => ?_)
    · simp only [emit, timesSent, List.count_append]
      rw [List.count_eq_zero (a := SessEv.sent id) (l := List.map _ _).2 (by simp [-List.map_drop])]; rfl
    · simp only [emit, timesReported, List.count_append]
      rw [List.count_eq_zero (a := SessEv.reported id) (l := List.map _ _).2 (by simp [-List.map_drop])]; rfl

theorem count_send_cons (id : Nat) (t : SessTask) (ts : List SessTask) (h : ∀ id, t ≠ .send id) :
    (t :: ts).count (.send id) = ts.count (.send id) := by
  rw [List.count_cons]; simp [h id]

theorem Once.step {v : Sess} (h : Once v) (op : Op) : Once (v.step op) := by
  cases op with
  | send =>
    refine ⟨fun id => ?_, h.flying⟩
    have := h.queued id
    show (v.tasks ++ [SessTask.send v.nextId]).count (SessTask.send id) + timesSent id v.log = submitted (v.nextId + 1) id
    rw [List.count_append, List.count_singleton]
    unfold submitted at this ⊢
    by_cases he : id = v.nextId
    · subst he
      simp only [Nat.lt_irrefl, if_false] at this
      simp only [beq_self_eq_true, if_true, Nat.lt_succ_self]
      omega
    · have h1 : (SessTask.send v.nextId == SessTask.send id) = false := by
        rw [beq_eq_false_iff_ne]; intro hh; injection hh with hh; exact he hh.symm
      rw [h1]
      simp only [Bool.false_eq_true, if_false, Nat.add_zero]
      split at this <;> split <;> omega
  | schedule f => exact h.same (fun id => by simp [Sess.step]) rfl rfl (fun _ => rfl) (fun _ => rfl)
  | register j =>
    simp only [Sess.step]; split
    · exact h.same (fun id => by simp) rfl rfl (fun _ => rfl) (fun _ => rfl)
    · exact h
  | shutdown => exact h.same (fun id => by simp [Sess.step]) rfl rfl (fun _ => rfl) (fun _ => rfl)
  | call j t =>
    simp only [Sess.step]; split
    · exact h.same (fun id => by simp) rfl rfl (fun _ => rfl) (fun _ => rfl)
    · exact h
  | runTask =>
    cases ht : v.tasks with
    | nil => simp only [Sess.step, ht]; exact h
    | cons t ts =>
      simp only [Sess.step, ht]
      cases t with
      | send j =>
        refine ⟨fun id => ?_, fun id => ?_⟩
        · have := h.queued id
          rw [ht] at this
          show ts.count (.send id) + timesSent id (v.log ++ [.sent j]) = submitted v.nextId id
          rw [← this]
          simp only [timesSent, List.count_append, List.count_cons, List.count_nil]
          by_cases hj : j = id
          · subst hj; simp; omega
          · simp [hj]
        · have := h.flying id
          simp only [Sess.runTask, emit, timesSent, timesReported, List.count_append, List.count_cons, List.count_nil] at this ⊢
          by_cases hj : j = id
          · subst hj; simp; omega
          · simp [hj]; exact this
      | poll j t =>
        refine Once.onPoll (v := { v with tasks := ts }) (h.same (fun id => ?_) rfl rfl (fun _ => rfl) (fun _ => rfl)) _ _
        rw [ht, count_send_cons _ _ _ (by simp)]
      | register j =>
        refine h.same (fun id => ?_) rfl rfl (fun _ => rfl) (fun _ => rfl)
        rw [ht, count_send_cons _ _ _ (by simp)]; rfl
      | shutdown =>
        refine h.same (fun id => ?_) rfl rfl (fun _ => by simp [Sess.runTask, emit, timesSent])
          (fun _ => by simp [Sess.runTask, emit, timesReported])
        rw [ht, count_send_cons _ _ _ (by simp)]
        simp only [Sess.runTask, emit, List.count_append]
        rw [List.count_eq_zero (a := SessTask.send id) (l := v.registered.map _).2 (by simp)]; rfl
  | report j =>
    simp only [Sess.step]; split
    · next hj =>
      refine ⟨fun id => ?_, fun id => ?_⟩
      · have := h.queued id
        simp only [emit, timesSent, List.count_append] at this ⊢
        simpa using this
      · have h1 := h.flying id
        have h2 := h.queued id
        have h3 : v.inFlight.count id ≤ 1 := by unfold submitted at h2; split at h2 <;> omega
        simp only [emit, timesSent, timesReported, List.count_append, List.count_cons, List.count_nil] at h1 ⊢
        rw [Poll.count_filter_ne]
        by_cases he : id = j
        · subst he
          have : 0 < v.inFlight.count id := List.count_pos_iff.2 hj
          simp; omega
        · have : ¬ j = id := fun hh => he hh.symm
          simp [he, this]; exact h1
    · exact h
  | respond j id => exact h.onPoll _ _
  | tick n => exact h.same (fun _ => rfl) rfl rfl (fun _ => rfl) (fun _ => rfl)
  | expire j t => exact h.onPoll _ _
  | runTimer j t => exact h.onPoll _ _

theorem once_run (ops : List Op) : Once (Sess.init.run ops) := by
  induction ops using List.reverseRecOn with
  | nil => exact ⟨fun id => by simp [run, Sess.init, timesSent, submitted], fun id => by simp [run, Sess.init, timesSent, timesReported]⟩
  | append_singleton ops op ih => rw [run_append]; exact ih.step op

end Sess

end Modbus
