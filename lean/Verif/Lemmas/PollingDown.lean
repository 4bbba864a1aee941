import Verif.Lemmas.PollingFair

/-! Shutting down the channel: what becomes of scheduled requests. -/

namespace Modbus

open Spec

namespace Sess

/-- Scheduled request `i` is registered, or its registration is queued. -/
def Known (i : Nat) (v : Sess) : Prop := SessTask.register i ∈ v.tasks ∨ i ∈ v.registered

/-- Scheduled request `i` will be off when the queue is empty. -/
def Dying (i : Nat) (v : Sess) : Prop :=
  (∃ pre post, v.tasks = pre ++ .poll i .stop :: post ∧ SessTask.poll i .start ∉ post) ∨
  (∃ pre post, v.tasks = pre ++ .shutdown :: post ∧ SessTask.poll i .start ∉ post ∧ (i ∈ v.registered ∨ SessTask.register i ∈ pre)) ∨
  ((∀ q, v.polls[i]? = some q → q.running = false) ∧ SessTask.poll i .start ∉ v.tasks)

theorem onPoll_registered (v : Sess) (j : Nat) (f : Poll → Poll) : (v.onPoll j f).registered = v.registered ∧ (v.onPoll j f).halfway = v.halfway := by
  unfold onPoll; split <;> exact ⟨rfl, rfl⟩

theorem Known.step {i : Nat} {v : Sess} (h : Known i v) (op : Op) (hd : SessTask.shutdown ∉ v.tasks) (ho : op ≠ .send) : Known i (v.step op) := by
  by_cases hop : op = .runTask
  · subst hop
    simp only [Sess.step]
    split
    · exact h
    · rename_i t ts ht
      rw [ht] at hd
      have h1 : t = .register i ∨ SessTask.register i ∈ ts ∨ i ∈ v.registered := by
        rcases h with h | h
        · rw [ht] at h
          cases h with
          | head => exact .inl rfl
          | tail _ h => exact .inr (.inl h)
        · exact .inr (.inr h)
      cases t with
      | send id => exact h1.resolve_left (by simp)
      | poll j t =>
        simp only [Sess.runTask, Known, onPoll_tasks, onPoll_registered]
        exact h1.resolve_left (by simp)
      | register j =>
        rcases h1 with h1 | h1 | h1
        · injection h1 with h1; subst h1; exact .inr (List.mem_append_right _ (List.mem_singleton.2 rfl))
        · exact .inl h1
        · exact .inr (List.mem_append_left _ h1)
      | shutdown => exact absurd (.head _) hd
  · have ht := (v.step_tasks op hop).subset
    rcases h with h | h
    · exact .inl (ht h)
    · refine .inr ?_
      cases op with
      | runTask => exact absurd rfl hop
      | send => exact absurd rfl ho
      | register j => simp only [Sess.step]; split <;> exact h
      | call j t => simp only [Sess.step]; split <;> exact h
      | report id => simp only [Sess.step]; split <;> exact h
      | respond j id => simp only [Sess.step, onPoll_registered]; exact h
      | expire j t => simp only [Sess.step, onPoll_registered]; exact h
      | runTimer j t => simp only [Sess.step, onPoll_registered]; exact h
      | _ => exact h

/-- Every scheduled request is registered sooner or later. -/
def Counted (v : Sess) : Prop := ∀ i, i < v.polls.length → i ∈ v.halfway ∨ Known i v

theorem Counted.step {v : Sess} (h : Counted v) (op : Op) (hd : SessTask.shutdown ∉ v.tasks) (ho : op ≠ .send) : Counted (v.step op) := by
  intro i hi
  have hlen := v.step_length op
  by_cases hlt : i < v.polls.length
  · rcases h i hlt with h1 | h1
    · cases op with
      | send => exact absurd rfl ho
      | schedule f => exact .inl (List.mem_append_left _ h1)
      | register j =>
        simp only [Sess.step]
        split
        · by_cases he : i = j
          · subst he; exact .inr (.inl (by simp))
          · exact .inl (List.mem_filter.2 ⟨h1, by simpa using he⟩)
        · exact .inl h1
      | shutdown => exact .inl h1
      | call j t => simp only [Sess.step]; split <;> exact .inl h1
      | runTask =>
        simp only [Sess.step]
        split
        · exact .inl h1
        · rename_i t ts ht
          cases t with
          | poll j t => exact .inl (by simp only [Sess.runTask, onPoll_registered]; exact h1)
          | _ => exact .inl h1
      | report id => simp only [Sess.step]; split <;> exact .inl h1
      | respond j id => exact .inl (by simp only [Sess.step, onPoll_registered]; exact h1)
      | tick n => exact .inl h1
      | expire j t => exact .inl (by simp only [Sess.step, onPoll_registered]; exact h1)
      | runTimer j t => exact .inl (by simp only [Sess.step, onPoll_registered]; exact h1)
    · exact .inr (h1.step op hd ho)
  · cases op with
    | schedule f =>
      simp only at hlen
      rw [hlen] at hi
      obtain rfl : i = v.polls.length := by omega
      exact .inl (by simp [Sess.step])
    | _ =>
      simp only at hlen
      rw [hlen] at hi
      exact absurd hi hlt

theorem Counted.register {v : Sess} (h : Counted v) {i : Nat} (hi : i < v.polls.length) : Known i (v.step (.register i)) := by
  simp only [Sess.step]
  split
  · exact .inl (by simp)
  · rename_i hn
    exact (h i hi).resolve_left hn

theorem runTask_off (p : Poll) (t : PTask) (h : p.running = false) (ht : t ≠ .start) : (p.runTask t).running = false := by
  cases t with
  | start => exact absurd rfl ht
  | stop => simp [Poll.runTask, h, Poll.emit]
  | setFrequency f => exact h

theorem stop_off (p : Poll) : (p.runTask .stop).running = false := by
  simp only [Poll.runTask]
  split
  · simp only [Poll.cancelTimer, Poll.emit]; split <;> rfl
  · rename_i h; simpa [Poll.emit] using h

theorem Dying.shutdown {i : Nat} {v : Sess} (h : Known i v) : Dying i (v.step .shutdown) := by
  refine .inr (.inl ⟨v.tasks, [], rfl, by simp, ?_⟩)
  rcases h with h | h
  · exact .inr h
  · exact .inl h

theorem Dying.step {i : Nat} {v : Sess} (h : Dying i v) (hi : i < v.polls.length) (op : Op) (ho : op ≠ .call i .start) : Dying i (v.step op) := by
  -- what is appended to the queue by steps other than `runTask`
  have append : op ≠ .runTask → ∃ more, (v.step op).tasks = v.tasks ++ more ∧ SessTask.poll i .start ∉ more := by
    intro hop
    cases op with
    | runTask => exact absurd rfl hop
    | send => exact ⟨_, rfl, by simp⟩
    | schedule f => exact ⟨_, rfl, by simp; omega⟩
    | register j => simp only [Sess.step]; split <;> first | exact ⟨_, rfl, by simp⟩ | exact ⟨[], by simp, by simp⟩
    | shutdown => exact ⟨_, rfl, by simp⟩
    | call j t =>
      simp only [Sess.step]
      split
      · refine ⟨_, rfl, fun hm => ho ?_⟩
        simp only [List.mem_singleton, SessTask.poll.injEq] at hm
        obtain ⟨rfl, rfl⟩ := hm; rfl
      · exact ⟨[], by simp, by simp⟩
    | report id => simp only [Sess.step]; split <;> exact ⟨[], by simp [emit], by simp⟩
    | respond j id => exact ⟨[], by simp [Sess.step, onPoll_tasks], by simp⟩
    | tick n => exact ⟨[], by simp [Sess.step], by simp⟩
    | expire j t => exact ⟨[], by simp [Sess.step, onPoll_tasks], by simp⟩
    | runTimer j t => exact ⟨[], by simp [Sess.step, onPoll_tasks], by simp⟩
  have regs : op ≠ .runTask → (v.step op).registered = v.registered := by
    intro hop
    cases op with
    | runTask => exact absurd rfl hop
    | register j => simp only [Sess.step]; split <;> rfl
    | call j t => simp only [Sess.step]; split <;> rfl
    | report id => simp only [Sess.step]; split <;> rfl
    | respond j id => simp only [Sess.step, onPoll_registered]
    | expire j t => simp only [Sess.step, onPoll_registered]
    | runTimer j t => simp only [Sess.step, onPoll_registered]
    | _ => rfl
  have offs : op ≠ .runTask → (∀ q, v.polls[i]? = some q → q.running = false) → ∀ q, (v.step op).polls[i]? = some q → q.running = false := by
    intro hop hoff q hq
    have hq0 : v.polls[i]? = some v.polls[i] := List.getElem?_eq_getElem hi
    have hr := hoff _ hq0
    have poll : ∀ j f, (∀ p : Poll, p.running = false → (f p).running = false) → (v.onPoll j f).polls[i]? = some q → q.running = false := by
      intro j f hf hq
      rw [onPoll_getElem v j f hq0] at hq
      injection hq with hq; subst hq
      split
      · exact hf _ hr
      · exact hr
    cases op with
    | runTask => exact absurd rfl hop
    | schedule f =>
      simp only [Sess.step] at hq
      rw [List.getElem?_append_left hi] at hq
      exact hoff q hq
    | register j => simp only [Sess.step] at hq; split at hq <;> exact hoff q hq
    | call j t => simp only [Sess.step] at hq; split at hq <;> exact hoff q hq
    | report id => simp only [Sess.step] at hq; split at hq <;> exact hoff q hq
    | respond j id =>
      refine poll j _ (fun p hp => ?_) hq
      simp only [Poll.step]
      split
      · simp [Poll.onResponse, Poll.emit, hp]
      · exact hp
    | tick n =>
      simp only [Sess.step, List.getElem?_map, hq0, Option.map_some, Option.some.injEq] at hq
      subst hq; exact hr
    | expire j t =>
      refine poll j _ (fun p hp => ?_) hq
      simp only [Poll.step]
      split
      · exact hp
      · split <;> exact hp
    | runTimer j t =>
      refine poll j _ (fun p hp => ?_) hq
      simp only [Poll.step]
      split <;> exact hp
    | _ => exact hoff q hq
  by_cases hop : op = .runTask
  · subst hop
    cases hv : v.tasks with
    | nil =>
      have : v.step .runTask = v := by simp [Sess.step, hv]
      rw [this]; exact h
    | cons t ts =>
      have hs : v.step .runTask = { v with tasks := ts }.runTask t := by simp [Sess.step, hv]
      -- what a task appends to the queue
      have more : ∃ m, ({ v with tasks := ts }.runTask t).tasks = ts ++ m ∧ SessTask.poll i .start ∉ m := by
        cases t with
        | send id => exact ⟨[], by simp [Sess.runTask, emit], by simp⟩
        | poll j t => exact ⟨[], by simp [Sess.runTask, onPoll_tasks], by simp⟩
        | register j => exact ⟨[], by simp [Sess.runTask], by simp⟩
        | shutdown => exact ⟨_, rfl, by simp⟩
      obtain ⟨m, hm1, hm2⟩ := more
      rw [hs]
      rcases h with ⟨pre, post, h1, h2⟩ | ⟨pre, post, h1, h2, h3⟩ | ⟨h1, h2⟩
      · rw [hv] at h1
        cases pre with
        | nil =>
          injection h1 with h1 h4; subst h1; subst h4
          refine .inr (.inr ⟨fun q hq => ?_, by simp only [Sess.runTask, onPoll_tasks]; exact h2⟩)
          simp only [Sess.runTask] at hq
          rw [onPoll_getElem { v with tasks := ts } i _ (List.getElem?_eq_getElem hi)] at hq
          simp only [if_true, Option.some.injEq] at hq
          subst hq
          exact stop_off _
        | cons x pre =>
          injection h1 with _ h4
          exact .inl ⟨pre, post ++ m, by rw [hm1, h4]; simp, by simp [h2, hm2]⟩
      · rw [hv] at h1
        cases pre with
        | nil =>
          injection h1 with h1 h4; subst h1; subst h4
          have h3' := h3.resolve_right (by simp)
          obtain ⟨a, b, hab⟩ := List.append_of_mem h3'
          refine .inl ⟨ts ++ a.map fun i => .poll i .stop, b.map fun i => .poll i .stop, ?_, by simp⟩
          simp [Sess.runTask, emit, hab]
        | cons x pre =>
          injection h1 with h5 h4
          subst h5
          cases t with
          | shutdown =>
            rcases h3 with h3 | h3
            · obtain ⟨a, b, hab⟩ := List.append_of_mem h3
              refine .inl ⟨ts ++ a.map fun i => .poll i .stop, b.map fun i => .poll i .stop, ?_, by simp⟩
              simp [Sess.runTask, emit, hab]
            · simp only [List.mem_cons, reduceCtorEq, false_or] at h3
              exact .inr (.inl ⟨pre, post ++ m, by rw [hm1, h4]; simp, by simp [h2, hm2], .inr h3⟩)
          | register j =>
            refine .inr (.inl ⟨pre, post ++ m, by rw [hm1, h4]; simp, by simp [h2, hm2], ?_⟩)
            rcases h3 with h3 | h3
            · exact .inl (List.mem_append_left _ h3)
            · cases h3 with
              | head => exact .inl (List.mem_append_right _ (List.mem_singleton.2 rfl))
              | tail _ h3 => exact .inr h3
          | send id =>
            refine .inr (.inl ⟨pre, post ++ m, by rw [hm1, h4]; simp, by simp [h2, hm2], ?_⟩)
            exact h3.imp (fun h => h) fun h => by simpa using h
          | poll j t =>
            refine .inr (.inl ⟨pre, post ++ m, by rw [hm1, h4]; simp, by simp [h2, hm2], ?_⟩)
            rcases h3 with h3 | h3
            · exact .inl (by simp only [Sess.runTask, onPoll_registered]; exact h3)
            · exact .inr (by simpa using h3)
      · rw [hv] at h2
        have h2' : SessTask.poll i .start ∉ ts := fun hm => h2 (.tail _ hm)
        refine .inr (.inr ⟨fun q hq => ?_, by rw [hm1]; simp [h2', hm2]⟩)
        cases t with
        | poll j t =>
          simp only [Sess.runTask] at hq
          rw [onPoll_getElem { v with tasks := ts } j _ (List.getElem?_eq_getElem hi)] at hq
          injection hq with hq; subst hq
          have hr := h1 _ (List.getElem?_eq_getElem hi)
          split
          · rename_i he
            subst he
            exact runTask_off _ t hr fun he => h2 (by rw [he]; exact .head _)
          · exact hr
        | _ => exact h1 q hq
  · obtain ⟨m, hm1, hm2⟩ := append hop
    rcases h with ⟨pre, post, h1, h2⟩ | ⟨pre, post, h1, h2, h3⟩ | ⟨h1, h2⟩
    · exact .inl ⟨pre, post ++ m, by rw [hm1, h1]; simp, by simp [h2, hm2]⟩
    · exact .inr (.inl ⟨pre, post ++ m, by rw [hm1, h1]; simp, by simp [h2, hm2], by rw [regs hop]; exact h3⟩)
    · exact .inr (.inr ⟨offs hop h1, by rw [hm1]; simp [h2, hm2]⟩)

theorem Dying.run {i : Nat} (ops : List Op) : ∀ {v : Sess}, Dying i v → i < v.polls.length → Op.call i .start ∉ ops → Dying i (v.run ops) := by
  induction ops with
  | nil => intro v h _ _; exact h
  | cons op ops ih =>
    intro v h hi hn
    refine ih (h.step hi op fun he => hn (by rw [he]; exact .head _)) (Nat.lt_of_lt_of_le hi ?_) fun hm => hn (.tail _ hm)
    have := v.step_length op
    cases op <;> simp only at this <;> omega

theorem Dying.off {i : Nat} {v : Sess} (h : Dying i v) (ht : v.tasks = []) : ∀ q, v.polls[i]? = some q → q.running = false := by
  rcases h with ⟨pre, post, h1, -⟩ | ⟨pre, post, h1, -⟩ | ⟨h1, -⟩
  · rw [ht] at h1; simp at h1
  · rw [ht] at h1; simp at h1
  · exact h1

/-- Before any shutdown is called. -/
theorem up_step {v : Sess} (h : Counted v ∧ SessTask.shutdown ∉ v.tasks) (op : Op) (ho : op ≠ .send) (hs : op ≠ .shutdown) :
    Counted (v.step op) ∧ SessTask.shutdown ∉ (v.step op).tasks := by
  refine ⟨h.1.step op h.2 ho, ?_⟩
  cases op with
  | send => exact absurd rfl ho
  | shutdown => exact absurd rfl hs
  | schedule f => simpa [Sess.step] using h.2
  | register j => simp only [Sess.step]; split <;> simpa using h.2
  | call j t => simp only [Sess.step]; split <;> simpa using h.2
  | runTask =>
    simp only [Sess.step]
    split
    · exact h.2
    · rename_i t ts ht
      have h2 := h.2
      rw [ht] at h2
      have h2' : SessTask.shutdown ∉ ts := fun hm => h2 (.tail _ hm)
      cases t with
      | send id => exact h2'
      | poll j t => simp only [Sess.runTask, onPoll_tasks]; exact h2'
      | register j => exact h2'
      | shutdown => exact absurd (.head _) h2
  | report id => simp only [Sess.step]; split <;> exact h.2
  | respond j id => simp only [Sess.step, onPoll_tasks]; exact h.2
  | tick n => exact h.2
  | expire j t => simp only [Sess.step, onPoll_tasks]; exact h.2
  | runTimer j t => simp only [Sess.step, onPoll_tasks]; exact h.2

theorem up_run (ops : List Op) : ∀ {v : Sess}, Counted v ∧ SessTask.shutdown ∉ v.tasks → Op.send ∉ ops → Op.shutdown ∉ ops →
    (Counted (v.run ops) ∧ SessTask.shutdown ∉ (v.run ops).tasks) ∧ (∀ i, Known i v → Known i (v.run ops)) := by
  induction ops with
  | nil => intro v h _ _; exact ⟨h, fun _ h => h⟩
  | cons op ops ih =>
    intro v h h1 h2
    have ho : op ≠ .send := fun he => h1 (by rw [he]; exact .head _)
    have hs : op ≠ .shutdown := fun he => h2 (by rw [he]; exact .head _)
    obtain ⟨h3, h4⟩ := ih (up_step h op ho hs) (fun hm => h1 (.tail _ hm)) (fun hm => h2 (.tail _ hm))
    exact ⟨h3, fun i hk => h4 i (hk.step op h.2 ho)⟩

theorem run_length (ops : List Op) : ∀ v : Sess, v.polls.length ≤ (v.run ops).polls.length := by
  induction ops with
  | nil => intro v; exact Nat.le_refl _
  | cons op ops ih =>
    intro v
    refine Nat.le_trans ?_ (ih (v.step op))
    have := v.step_length op
    cases op <;> simp only at this <;> omega

/-- The registration is called among these steps. -/
theorem known_run {ops : List Op} {v : Sess} (h : Counted v ∧ SessTask.shutdown ∉ v.tasks) (h1 : Op.send ∉ ops) (h2 : Op.shutdown ∉ ops) {i : Nat}
    (hi : i < v.polls.length) (hr : Op.register i ∈ ops) : Known i (v.run ops) := by
  obtain ⟨a, b, rfl⟩ := List.append_of_mem hr
  simp only [List.mem_append, List.mem_cons, not_or] at h1 h2
  obtain ⟨h3, -⟩ := up_run a h h1.1 h2.1
  have hk : Known i ((v.run a).step (.register i)) := h3.1.register (Nat.lt_of_lt_of_le hi (run_length a v))
  have h4 := up_step h3 (.register i) (by simp) (by simp)
  have := (up_run b h4 h1.2.2 h2.2.2).2 i hk
  rw [run_append]; exact this

/-- The shutdown is called among these steps. -/
theorem dying_run {ops : List Op} {v : Sess} (h : Counted v ∧ SessTask.shutdown ∉ v.tasks) (h1 : Op.send ∉ ops) {i : Nat} (hk : Known i v)
    (hi : i < v.polls.length) (hn : Op.call i .start ∉ ops) (hs : Op.shutdown ∈ ops) : Dying i (v.run ops) := by
  obtain ⟨a, b, he, ha⟩ := List.eq_append_cons_of_mem hs
  subst he
  simp only [List.mem_append, List.mem_cons, not_or] at h1 hn
  have hk' := (up_run a h h1.1 ha).2 i hk
  rw [run_append]
  refine Dying.run b (Dying.shutdown hk') ?_ hn.2.2
  exact Nat.lt_of_lt_of_le hi (run_length a v)

end Sess


/-- What the channel's log grows by. -/
theorem Cli.step_log' {env : ClientEnv} {v v' : Cli} {op : Cli.Op} (h : v.step env op = .ret v') :
    (∃ es, v'.log = v.log ++ es ∧ ∀ e ∈ es, e ≠ .tcpShutdown ∧ ∀ s, e ≠ .sessionShutdown s) ∨
    v'.log = v.log ++ (v.sessions.map CEv.sessionShutdown ++ [.tcpShutdown]) := by
  by_cases ho : Pcl.ownChan op = true
  · rcases own_step h ho with hs | ⟨ts, -, -, hl, -⟩
    · obtain ⟨es, h1, h2⟩ := hs.log
      refine .inl ⟨es, h1, fun e he => ⟨?_, ?_⟩⟩
      · rintro rfl; exact h2 _ he
      · rintro s rfl; exact h2 _ he
    · exact .inr hl
  · refine .inl ?_
    cases op with
    | submit unit q tmo =>
      simp only [Cli.step] at h
      split at h
      · injection h with h; subst h; exact ⟨_, rfl, by simp⟩
      · split at h <;> injection h with h <;> subst h <;> exact ⟨_, rfl, by simp⟩
    | createSession =>
      simp only [Cli.step] at h
      split at h <;> injection h with h <;> subst h <;> exact ⟨_, rfl, by simp⟩
    | tick n => injection h with h; subst h; exact ⟨[], by simp, by simp⟩
    | _ => exact absurd rfl ho

/-- The user's calls. -/
theorem PInv.api {env : ClientEnv} {v w : Pcl} (h : PInv env [] v) {s : Nat} {o : Sess.Op} (hs : v.step env (.api s o) = .ret w) :
    w = v ∨ ∃ p new, v.sess[s]? = some p ∧ w.log = v.log ++ LEv.api s o :: new ∧ w.sess = v.sess.set s { p with sess := p.sess.step o } ∧
      ∀ e, LEv.ch e ∈ new → ∃ u unit q tmo, e = .call u unit q tmo := by
  by_cases hu : Pcl.userCall o = true ∧ s < v.sess.length
  · obtain ⟨p, hp⟩ : ∃ p, v.sess[s]? = some p := ⟨v.sess[s], List.getElem?_eq_getElem hu.2⟩
    have h1 : PInv env [] { v with log := v.log ++ [LEv.api s o] } := h.logged (h.blocks.plain rfl) rfl (fun s => ⟨rfl, rfl⟩) rfl
    have ho : Sess.ordinary o = true := by cases o <;> first | rfl | exact absurd hu.1 (by simp [Pcl.userCall])
    obtain ⟨w', new, a1, a2, a3, a4, a5, -, -, -, -, -, a11⟩ := h1.sessStep hp ho
    simp only [Pcl.step, hu, and_self, if_true, a1] at hs
    injection hs with hs; subst hs
    exact .inr ⟨p, new, hp, by rw [a3]; simp, a5, a11⟩
  · simp only [Pcl.step, hu, if_false] at hs
    injection hs with hs
    exact .inl hs.symm

theorem Spec.RegisteredIn.scheduled {s i : Nat} {l : List LEv} (h : RegisteredIn s i l) : i ∈ schedulings s l := by
  obtain ⟨a, b, q, tmo, f, rfl, h⟩ := h
  exact List.mem_filterMap.2 ⟨_, List.mem_append_left _ h, by simp⟩

/-- Before the channel is shut down, and afterwards. -/
structure Ending (v : Pcl) : Prop where
  up : ∀ (s : Nat) (p : PSess), v.sess[s]? = some p → LEv.api s .shutdown ∉ v.log → LEv.ch .tcpShutdown ∉ v.log →
    (p.sess.Counted ∧ SessTask.shutdown ∉ p.sess.tasks) ∧ ∀ i, RegisteredIn s i v.log → p.sess.Known i
  down : ∀ a b, v.log = a ++ LEv.ch .tcpShutdown :: b → LEv.ch .tcpShutdown ∉ a → ∀ (s i : Nat) (p : PSess), v.sess[s]? = some p →
    LEv.api s .shutdown ∉ a → RegisteredIn s i a → LEv.api s (.call i .start) ∉ b → p.sess.Dying i

theorem Ending.init (env : ClientEnv) : Ending (Pcl.init env) :=
  ⟨fun s p h => by simp [Pcl.init] at h, fun a b h => by simp [Pcl.init] at h⟩

theorem SessOk.registered {l : List LEv} {tm s : Nat} {p : PSess} (h : SessOk l tm s p) {i : Nat} (hi : i ∈ schedulings s l) : i < p.sess.polls.length := by
  rw [h.known, List.mem_range, h.reqs] at hi; exact hi

theorem Ending.step {env : ClientEnv} {v w : Pcl} (h : Ending v) (hi : PInv env [] v) (hn : Numbered v) {op : Pcl.Op} (hstep : v.step env op = .ret w)
    {new : List LEv} (hs : Stepped env v w op new) : Ending w := by
  obtain ⟨cop, hc, -, -⟩ := hs.chan
  have hlog := hs.follows.log
  have hchan : w.cli.log = v.cli.log ++ ofChannel new := by
    have h1 := hs.inv.chan
    rw [List.append_nil, hlog, ofChannel_append] at h1
    rw [h1, hi.chan, List.append_nil]
  have hno : LEv.ch .tcpShutdown ∉ new → ∀ s, LEv.ch (.sessionShutdown s) ∉ new := by
    intro h1 s h2
    rcases Cli.step_log' hc with ⟨es, h3, h4⟩ | h3
    · rw [hchan] at h3
      have h5 := List.append_cancel_left h3
      exact (h4 _ (by rw [← h5]; exact mem_ofChannel.2 h2)).2 s rfl
    · rw [hchan] at h3
      have h4 := List.append_cancel_left h3
      exact h1 (mem_ofChannel.1 (by rw [h4]; simp))
  have hall : LEv.ch .tcpShutdown ∈ new → LEv.ch .tcpShutdown ∉ v.log → ∀ s, s < v.sess.length → LEv.ch (.sessionShutdown s) ∈ new := by
    intro h1 h2 s hlt
    have hup : v.cli.isShutdown = false := by
      cases hd : v.cli.isShutdown with
      | false => rfl
      | true =>
        have := hi.reach.inv.1.downLog.2 hd
        rw [hi.chan, List.append_nil] at this
        exact absurd (mem_ofChannel.1 this) h2
    rcases Cli.step_log' hc with ⟨es, h3, h4⟩ | h3
    · rw [hchan] at h3
      have h5 := List.append_cancel_left h3
      exact absurd rfl (h4 _ (by rw [← h5]; exact mem_ofChannel.2 h1)).1
    · rw [hchan] at h3
      have h4 := List.append_cancel_left h3
      refine mem_ofChannel.1 ?_
      rw [h4, hn.all hup]
      simp [hlt]
  have hcalls : ∀ s o, LEv.api s o ∈ new → LEv.ch .tcpShutdown ∉ new := by
    intro s o h1 h2
    obtain ⟨rfl, hu⟩ := hs.calls s o h1
    rcases hi.api hstep with rfl | ⟨p, m, -, h3, -, h4⟩
    · rw [List.self_eq_append_right.1 hlog] at h1; cases h1
    · rw [hlog] at h3
      rw [List.append_cancel_left h3] at h2
      simp only [List.mem_cons, reduceCtorEq, false_or] at h2
      obtain ⟨_, _, _, _, he⟩ := h4 _ h2
      cases he
  constructor
  · intro s p' hp' h1 h2
    rw [hlog] at h1 h2
    simp only [List.mem_append, not_or] at h1 h2
    cases hp : v.sess[s]? with
    | none =>
      obtain ⟨e1, e2⟩ := hs.opened s p' hp hp'
      refine ⟨⟨fun i hlt => ?_, ?_⟩, fun i hr => ?_⟩
      · rw [e1] at hlt; simp [Sess.step, Sess.init] at hlt
      · rw [e1]; simp [Sess.step, Sess.init]
      · have := (hs.inv.sessions s p' hp').registered hr.scheduled
        rw [e1] at this; simp [Sess.step, Sess.init] at this
    | some p =>
      obtain ⟨up1, up2⟩ := h.up s p hp h1.1 h2.1
      obtain ⟨q, hq, hmv⟩ := hs.follows.sess s p hp
      rw [hp'] at hq; injection hq with hq; subst hq
      obtain ⟨sops, a1, a2, -⟩ := hmv.ops
      have b1 : Sess.Op.send ∉ sops := fun hm => a2 _ hm
      have b2 : Sess.Op.shutdown ∉ sops := fun hm => (a2 _ hm).elim h1.2 (hno h2.2 s)
      obtain ⟨c1, c2⟩ := Sess.up_run sops up1 b1 b2
      refine ⟨by rw [a1]; exact c1, fun i hr => ?_⟩
      obtain ⟨a, b, q, tmo, f, hab, hsch⟩ := hr
      rw [hlog] at hab
      rcases List.append_eq_append_iff.1 hab with ⟨m, h3, h4⟩ | ⟨m, h3, h4⟩
      · -- called in this step
        have hin : LEv.api s (.register i) ∈ new := by rw [h4]; simp
        obtain ⟨rfl, hu⟩ := hs.calls _ _ hin
        rcases hi.api hstep with rfl | ⟨p0, m', hp0, -, h5, -⟩
        · rw [List.self_eq_append_right.1 hlog] at hin; cases hin
        · rw [hp] at hp0; injection hp0 with hp0; subst hp0
          rw [h5, List.getElem?_set_self (List.getElem?_eq_some_iff.1 hp).1] at hp'
          injection hp' with hp'
          have hlt := (hs.inv.sessions s p' (by rw [h5, List.getElem?_set_self (List.getElem?_eq_some_iff.1 hp).1, hp'])).registered
            (RegisteredIn.scheduled ⟨a, b, q, tmo, f, by rw [hlog]; exact hab, hsch⟩)
          rw [← hp'] at hlt ⊢
          have hl := p.sess.step_length (.register i)
          simp only at hlt hl
          rw [hl] at hlt
          exact up1.1.register hlt
      · -- called before
        cases m with
        | nil =>
          simp only [List.nil_append] at h4
          simp only [List.append_nil] at h3
          have hin : LEv.api s (.register i) ∈ new := by rw [← h4]; simp
          obtain ⟨rfl, hu⟩ := hs.calls _ _ hin
          rcases hi.api hstep with rfl | ⟨p0, m', hp0, -, h5, -⟩
          · rw [List.self_eq_append_right.1 hlog] at hin; cases hin
          · rw [hp] at hp0; injection hp0 with hp0; subst hp0
            rw [h5, List.getElem?_set_self (List.getElem?_eq_some_iff.1 hp).1] at hp'
            injection hp' with hp'
            have hlt := (hi.sessions s p hp).registered (i := i) (List.mem_filterMap.2 ⟨_, by rw [h3]; exact hsch, by simp⟩)
            rw [← hp']
            exact up1.1.register hlt
        | cons x m =>
          injection h4 with h4 h5
          subst h4
          rw [a1]
          exact c2 i (up2 i ⟨a, m, q, tmo, f, h3, hsch⟩)
  · intro a b hab ha s i p' hp' hsd hreg hst
    rw [hlog] at hab
    have hcase : (∃ m, v.log = a ++ LEv.ch .tcpShutdown :: m ∧ b = m ++ new) ∨ (∃ m, a = v.log ++ m ∧ new = m ++ LEv.ch .tcpShutdown :: b) := by
      rcases List.append_eq_append_iff.1 hab with ⟨m, h3, h4⟩ | ⟨m, h3, h4⟩
      · exact .inr ⟨m, h3, h4⟩
      · cases m with
        | nil => exact .inr ⟨[], by simpa using h3.symm, by simpa using h4.symm⟩
        | cons x m =>
          injection h4 with h4 h5
          subst h4
          exact .inl ⟨m, h3, h5⟩
    cases hp : v.sess[s]? with
    | none =>
      exfalso
      rcases hcase with ⟨m, h3, h4⟩ | ⟨m, h3, h4⟩
      · have := hi.fresh s (List.getElem?_eq_none_iff.1 hp)
        have h5 := hreg.scheduled
        rw [h3, schedulings_append] at this
        rw [(List.append_eq_nil_iff.1 this.2).1] at h5
        cases h5
      · obtain ⟨e1, e2⟩ := hs.opened s p' hp hp'
        have hm : i ∈ schedulings s w.log := by
          rw [hlog, h4, ← List.append_assoc, ← h3, schedulings_append]
          exact List.mem_append_left _ hreg.scheduled
        have := (hs.inv.sessions s p' hp').registered hm
        rw [e1] at this; simp [Sess.step, Sess.init] at this
    | some p =>
      obtain ⟨q, hq, hmv⟩ := hs.follows.sess s p hp
      rw [hp'] at hq; injection hq with hq; subst hq
      obtain ⟨sops, a1, a2, a3, -⟩ := hmv.ops
      have hok := hi.sessions s p hp
      rcases hcase with ⟨m, h3, h4⟩ | ⟨m, h3, h4⟩
      · rw [h4] at hst
        simp only [List.mem_append, not_or] at hst
        rw [a1]
        refine (h.down a m h3 ha s i p hp hsd hreg hst.1).run sops (hok.registered ?_) fun hm => hst.2 (a2 _ hm)
        rw [h3, schedulings_append]
        exact List.mem_append_left _ hreg.scheduled
      · have htcp : LEv.ch .tcpShutdown ∈ new := by rw [h4]; simp
        rw [h3] at ha hsd
        simp only [List.mem_append, not_or] at ha hsd
        have hreg' : RegisteredIn s i v.log := by
          obtain ⟨x, y, q, tmo, f, h5, h6⟩ := hreg
          rw [h3] at h5
          rcases List.append_eq_append_iff.1 h5 with ⟨k, h7, h8⟩ | ⟨k, h7, h8⟩
          · exact absurd htcp (hcalls s (.register i) (by rw [h4, h8]; simp))
          · cases k with
            | nil => exact absurd htcp (hcalls s (.register i) (by rw [h4, ← List.nil_append m, ← h8]; simp))
            | cons z k =>
              injection h8 with h8 h9
              subst h8
              exact ⟨x, k, q, tmo, f, h7, h6⟩
        obtain ⟨up1, up2⟩ := h.up s p hp hsd.1 ha.1
        rw [a1]
        exact Sess.dying_run up1 (fun hm => a2 _ hm) (up2 i hreg') (hok.registered hreg'.scheduled) (fun hm => hcalls _ _ (a2 _ hm) htcp)
          (a3 (hall htcp ha.1 s (List.getElem?_eq_some_iff.1 hp).1))

end Modbus
