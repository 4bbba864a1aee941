import Verif.Props.PollingEnd

/-! Why scheduled requests are started, stopped and given another polling time. -/

namespace Modbus

open Spec

namespace Poll

theorem runTask_causes (q : Poll) (t : PTask) : ∃ es, (q.runTask t).log = q.log ++ es ∧ (PEv.stopped ∈ es → t = .stop) ∧
    (∀ g, PEv.frequency g ∈ es → t = .setFrequency g) ∧ es.count .started ≤ if t = .start then 1 else 0 := by
  cases t with
  | start =>
    by_cases hr : q.running
    · exact ⟨[], by simp [runTask, hr], by simp, by simp, by simp⟩
    · exact ⟨[.started, .sent q.nextId q.now], by simp [runTask, hr, execute, emit], by simp, by simp, by simp⟩
  | stop =>
    refine ⟨[.stopped], ?_, by simp, by simp, by simp⟩
    by_cases hr : q.running
    · simp only [runTask, hr, if_true, cancelTimer, emit]; split <;> rfl
    · simp [runTask, hr, emit]
  | setFrequency g => exact ⟨[.frequency g], rfl, by simp, by simp, by simp⟩

theorem step_causes (q : Poll) (op : Op) (ho : op ≠ .runTask) : ∃ es, (q.step op).log = q.log ++ es ∧ PEv.stopped ∉ es ∧
    (∀ g, PEv.frequency g ∉ es) ∧ PEv.started ∉ es := by
  cases op with
  | runTask => exact absurd rfl ho
  | respond id =>
    simp only [step]
    split
    · exact ⟨[.handled id q.now], by by_cases hr : q.running <;> simp [onResponse, emit, hr], by simp, by simp, by simp⟩
    · exact ⟨[], by simp, by simp, by simp, by simp⟩
  | expire t =>
    simp only [step]
    split
    · exact ⟨[], by simp, by simp, by simp, by simp⟩
    · split <;> exact ⟨[], by simp, by simp, by simp, by simp⟩
  | runTimer t =>
    simp only [step]
    split
    · exact ⟨[.sent q.nextId q.now], by simp [execute, emit], by simp, by simp, by simp⟩
    · exact ⟨[], by simp, by simp, by simp, by simp⟩
  | _ => exact ⟨[], by simp [step], by simp, by simp, by simp⟩

/-- A start that takes effect is the first one: nothing was handled before. -/
theorem handled_started (f : Nat) (ops : List Op) (x y : List PEv) (h : ((init f).run ops).log = x ++ y) (hx : PEv.started ∉ x) : pollsHandled x = [] := by
  induction ops using List.reverseRecOn generalizing y with
  | nil => obtain ⟨rfl, -⟩ := List.append_eq_nil_iff.1 (show x ++ y = [] from h.symm); rfl
  | append_singleton ops op ih =>
    rw [run_snoc'] at h
    obtain ⟨es, he, h1, -⟩ := ((init f).run ops).step_events op
    rw [he] at h
    rcases List.append_eq_append_iff.1 h with ⟨m, h2, h3⟩ | ⟨m, h2, h3⟩
    · -- the step takes part in `x`
      have h0 : PEv.started ∉ ((init f).run ops).log := fun hm => hx (by rw [h2]; exact List.mem_append_left _ hm)
      have h7 := nothing_sent f ops h0
      have hc := Props.C58_one_per_start_partial f _ ⟨ops, rfl⟩
      rw [List.count_eq_zero.2 h0] at hc
      rw [h2, pollsHandled_append]
      have hold : pollsHandled ((init f).run ops).log = [] := by
        rw [List.eq_nil_iff_forall_not_mem]
        intro id hm
        have := ((core_run f ops).1.once id).2 (by omega)
        have := List.one_le_count_iff.2 hm
        omega
      rw [hold, List.nil_append]
      -- no result is reported, for nothing was sent
      rw [List.eq_nil_iff_forall_not_mem]
      intro id hm
      have hin : ((init f).run ops).inFlight = [] := List.length_eq_zero_iff.1 (by omega)
      have hes : PEv.started ∈ es ∨ pollsHandled es = [] := by
        have hlog := he
        clear h h1 h2 h3
        generalize (init f).run ops = v at *
        cases op with
        | runTask =>
          simp only [step] at hlog
          split at hlog
          · exact .inr (by rw [show es = [] by simpa using hlog.symm]; rfl)
          · rename_i t ts ht
            cases t with
            | start =>
              by_cases hr : v.running
              · exact .inr (by rw [show es = [] by simpa [runTask, hr] using hlog.symm]; rfl)
              · exact .inl (by rw [show es = [.started, .sent v.nextId v.now] by simpa [runTask, hr, execute, emit] using hlog.symm]; simp)
            | stop =>
              refine .inr ?_
              have : es = [.stopped] := by
                by_cases hr : v.running
                · simp only [runTask, hr, if_true, cancelTimer, emit] at hlog
                  split at hlog <;> exact (List.append_cancel_left hlog).symm
                · simpa [runTask, hr, emit] using hlog.symm
              rw [this]; rfl
            | setFrequency g => exact .inr (by rw [show es = [.frequency g] from (List.append_cancel_left hlog).symm]; rfl)
        | respond id => exact .inr (by rw [show es = [] by simpa [step, hin] using hlog.symm]; rfl)
        | runTimer t =>
          refine .inr ?_
          simp only [step] at hlog
          split at hlog
          · rw [show es = [.sent v.nextId v.now] by simpa [execute, emit] using hlog.symm]; rfl
          · rw [show es = [] by simpa using hlog.symm]; rfl
        | expire t =>
          refine .inr ?_
          simp only [step] at hlog
          split at hlog
          · rw [show es = [] by simpa using hlog.symm]; rfl
          · split at hlog <;> (rw [show es = [] by simpa using hlog.symm]; rfl)
        | _ => exact .inr (by rw [show es = [] by simpa [step] using hlog.symm]; rfl)
      have hmem : id ∈ pollsHandled es := by rw [h3, pollsHandled_append]; exact List.mem_append_left _ hm
      rcases hes with hes | hes
      · -- the start comes first
        obtain ⟨-, h5⟩ := h1 hes
        cases m with
        | nil => cases hm
        | cons e m =>
          rw [h3] at h5
          simp only [List.cons_append, List.head?_cons, Option.some.injEq] at h5
          subst h5
          exact hx (by rw [h2]; simp)
      · rw [hes] at hmem; cases hmem
    · exact ih m h2

/-- The polling time is kept as long as the request is started once. -/
theorem once_spaced (f : Nat) (ops : List Op) (hone : ((init f).run ops).log.count .started ≤ 1) (a : List PEv) (id t1 : Nat) (b : List PEv) (id' t2 : Nat)
    (c : List PEv) (hl : ((init f).run ops).log = a ++ .handled id t1 :: (b ++ .sent id' t2 :: c)) : t1 + pollTime f a ≤ t2 := by
  refine Props.C59_polling_time_respected_partial f ops (fun pre o post hp hst => ?_) a id t1 b id' t2 c hl fun hb => ?_
  · obtain ⟨ho, hr, ts, ht⟩ := hst
    subst ho
    have hpre : ((init f).run (pre ++ [.runTask])).log <+: ((init f).run ops).log := by
      rw [hp, show (init f).run (pre ++ .runTask :: post) = ((init f).run (pre ++ [.runTask])).run post by simp [run]]
      exact run_log_mono _ _
    have h1 : ((init f).run (pre ++ [.runTask])).log = ((init f).run pre).log ++ [.started, .sent ((init f).run pre).nextId ((init f).run pre).now] := by
      rw [run_snoc']
      simp [step, ht, runTask, hr, execute, emit]
    have h2 := hpre.sublist.count_le PEv.started
    rw [h1, List.count_append] at h2
    have h3 : [PEv.started, PEv.sent ((init f).run pre).nextId ((init f).run pre).now].count .started = 1 := by simp
    have h6 := Props.C58_one_per_start_partial f _ ⟨pre, rfl⟩
    exact ⟨List.length_eq_zero_iff.1 (by omega), List.length_eq_zero_iff.1 (by omega), List.length_eq_zero_iff.1 (by omega)⟩
  · have hx : PEv.started ∉ a ++ [.handled id t1] := by
      intro hm
      rw [hl, show a ++ PEv.handled id t1 :: (b ++ .sent id' t2 :: c) = (a ++ [.handled id t1]) ++ (b ++ .sent id' t2 :: c) by simp, List.count_append, List.count_append (l₁ := b)] at hone
      have := List.count_pos_iff.2 hm
      have := List.count_pos_iff.2 hb
      omega
    have := handled_started f ops (a ++ [.handled id t1]) (b ++ .sent id' t2 :: c) (by rw [hl]; simp) hx
    rw [pollsHandled_append] at this
    have h8 := (List.append_eq_nil_iff.1 this).2
    cases h8

end Poll

namespace Sess

/-- Tasks and effects of a session have causes among the steps that satisfy `A`. -/
structure Caused (A : Op → Prop) (v : Sess) : Prop where
  shut : SessTask.shutdown ∈ v.tasks → A .shutdown
  down : SessEv.down ∈ v.log → A .shutdown
  stop : ∀ i, SessTask.poll i .stop ∈ v.tasks → A (.call i .stop) ∨ A .shutdown
  freq : ∀ i g, SessTask.poll i (.setFrequency g) ∈ v.tasks → A (.call i (.setFrequency g))
  stopped : ∀ i q, v.polls[i]? = some q → PEv.stopped ∈ q.log → A (.call i .stop) ∨ A .shutdown
  frequency : ∀ i q g, v.polls[i]? = some q → PEv.frequency g ∈ q.log → A (.call i (.setFrequency g))
  started : ∀ i q, v.polls[i]? = some q → ¬ A (.call i .start) → v.tasks.count (.poll i .start) + q.log.count .started ≤ 1

theorem Caused.init (A : Op → Prop) : Caused A Sess.init := by
  refine ⟨?_, ?_, ?_, ?_, ?_, ?_, ?_⟩ <;> simp [Sess.init]

theorem Caused.mono {A B : Op → Prop} (hab : ∀ op, A op → B op) {v : Sess} (h : Caused A v) : Caused B v :=
  ⟨fun hm => hab _ (h.shut hm), fun hm => hab _ (h.down hm), fun i hm => (h.stop i hm).imp (hab _) (hab _), fun i g hm => hab _ (h.freq i g hm),
    fun i q hq hm => (h.stopped i q hq hm).imp (hab _) (hab _), fun i q g hq hm => hab _ (h.frequency i q g hq hm),
    fun i q hq hn => h.started i q hq fun ha => hn (hab _ ha)⟩

/-- Request `j` does something else than starting, stopping and changing its polling time. -/
theorem Caused.calm {A : Op → Prop} {v : Sess} (h : Caused A v) (j : Nat) (f : Poll → Poll)
    (hf : ∀ q, ∃ es, (f q).log = q.log ++ es ∧ PEv.stopped ∉ es ∧ (∀ g, PEv.frequency g ∉ es) ∧ PEv.started ∉ es) : Caused A (v.onPoll j f) := by
  have hlog : ∀ (i : Nat) (q' : Poll), (v.onPoll j f).polls[i]? = some q' → ∃ (q : Poll) (es : List PEv), v.polls[i]? = some q ∧ q'.log = q.log ++ es ∧ PEv.stopped ∉ es ∧
      (∀ g, PEv.frequency g ∉ es) ∧ PEv.started ∉ es := by
    intro i q' hq
    by_cases hij : j = i
    · subst hij
      rw [onPoll_polls] at hq
      obtain ⟨q, h1, rfl⟩ := Option.map_eq_some_iff.1 hq
      obtain ⟨es, h2⟩ := hf q
      exact ⟨q, es, h1, h2⟩
    · rw [onPoll_polls_ne v f hij] at hq
      exact ⟨q', [], hq, by simp, by simp, by simp, by simp⟩
  obtain ⟨es0, hl, hes0⟩ := v.onPoll_log' j f
  refine ⟨by rw [onPoll_tasks]; exact h.shut, fun hm => ?_, by rw [onPoll_tasks]; exact h.stop, by rw [onPoll_tasks]; exact h.freq,
    fun i q' hq hm => ?_, fun i q' g hq hm => ?_, fun i q' hq hn => ?_⟩
  · rw [hl] at hm
    rcases List.mem_append.1 hm with hm | hm
    · exact h.down hm
    · obtain ⟨q, -, x, hx, -⟩ := hes0 _ hm; cases hx
  · obtain ⟨q, es, h1, h2, h3, -, -⟩ := hlog i q' hq
    rw [h2] at hm
    exact h.stopped i q h1 ((List.mem_append.1 hm).resolve_right h3)
  · obtain ⟨q, es, h1, h2, -, h3, -⟩ := hlog i q' hq
    rw [h2] at hm
    exact h.frequency i q g h1 ((List.mem_append.1 hm).resolve_right (h3 g))
  · obtain ⟨q, es, h1, h2, -, -, h3⟩ := hlog i q' hq
    rw [onPoll_tasks, h2, List.count_append, List.count_eq_zero.2 h3]
    exact h.started i q h1 hn

theorem Caused.step {A : Op → Prop} {v : Sess} (h : Caused A v) (hg : Good v) (op : Op) (ha : A op) : Caused A (v.step op) := by
  cases op with
  | send =>
    refine ⟨fun hm => h.shut (by simpa [Sess.step] using hm), h.down, fun i hm => h.stop i (by simpa [Sess.step] using hm),
      fun i g hm => h.freq i g (by simpa [Sess.step] using hm), h.stopped, h.frequency, fun i q hq hn => ?_⟩
    have := h.started i q hq hn
    simp only [Sess.step, List.count_append]
    simpa using this
  | schedule f =>
    have hp : ∀ (i : Nat) (q : Poll), (v.step (.schedule f)).polls[i]? = some q → v.polls[i]? = some q ∨ (i = v.polls.length ∧ q.log = []) := by
      intro i q hq
      simp only [Sess.step] at hq
      by_cases hi : i < v.polls.length
      · rw [List.getElem?_append_left hi] at hq; exact .inl hq
      · rw [List.getElem?_append_right (by omega)] at hq
        obtain ⟨hi0, hq⟩ := List.getElem?_eq_some_iff.1 hq
        have : i - v.polls.length = 0 := by simpa using hi0
        refine .inr ⟨by omega, ?_⟩
        simp only [this, List.getElem_cons_zero] at hq
        rw [← hq]; rfl
    refine ⟨fun hm => h.shut (by simpa [Sess.step] using hm), h.down, fun i hm => h.stop i (by simpa [Sess.step] using hm),
      fun i g hm => h.freq i g (by simpa [Sess.step] using hm), fun i q hq hm => ?_, fun i q g hq hm => ?_, fun i q hq hn => ?_⟩
    · rcases hp i q hq with h1 | ⟨-, h1⟩
      · exact h.stopped i q h1 hm
      · rw [h1] at hm; cases hm
    · rcases hp i q hq with h1 | ⟨-, h1⟩
      · exact h.frequency i q g h1 hm
      · rw [h1] at hm; cases hm
    · simp only [Sess.step, List.count_append]
      rcases hp i q hq with h1 | ⟨h0, h1⟩
      · have := h.started i q h1 hn
        have hne : v.polls.length ≠ i := by have := (List.getElem?_eq_some_iff.1 h1).1; omega
        have : [SessTask.poll v.polls.length .start].count (.poll i .start) = 0 := by simp [hne]
        omega
      · have : v.tasks.count (.poll i .start) = 0 := by
          rw [List.count_eq_zero]
          intro hm
          have := hg.tasks i .start hm
          omega
        rw [h1, this, h0]; simp
  | register j =>
    simp only [Sess.step]
    split
    · refine ⟨fun hm => h.shut (by simpa using hm), h.down, fun i hm => h.stop i (by simpa using hm), fun i g hm => h.freq i g (by simpa using hm), h.stopped,
        h.frequency, fun i q hq hn => ?_⟩
      have := h.started i q hq hn
      simp only [List.count_append]
      simpa using this
    · exact h
  | shutdown =>
    refine ⟨fun _ => ha, h.down, fun i _ => .inr ha, fun i g hm => h.freq i g (by simpa [Sess.step] using hm), h.stopped, h.frequency, fun i q hq hn => ?_⟩
    have := h.started i q hq hn
    simp only [Sess.step, List.count_append]
    simpa using this
  | call j t =>
    simp only [Sess.step]
    split
    · refine ⟨fun hm => h.shut (by simpa using hm), h.down, fun i hm => ?_, fun i g hm => ?_, h.stopped, h.frequency, fun i q hq hn => ?_⟩
      · rcases List.mem_append.1 hm with hm | hm
        · exact h.stop i hm
        · simp only [List.mem_singleton, SessTask.poll.injEq] at hm
          obtain ⟨rfl, rfl⟩ := hm; exact .inl ha
      · rcases List.mem_append.1 hm with hm | hm
        · exact h.freq i g hm
        · simp only [List.mem_singleton, SessTask.poll.injEq] at hm
          obtain ⟨rfl, rfl⟩ := hm; exact ha
      · have := h.started i q hq hn
        rw [List.count_append]
        have h0 : [SessTask.poll j t].count (.poll i .start) = 0 := by
          rw [List.count_eq_zero]
          intro hm
          simp only [List.mem_singleton, SessTask.poll.injEq] at hm
          obtain ⟨rfl, rfl⟩ := hm
          exact hn ha
        omega
    · exact h
  | runTask =>
    simp only [Sess.step]
    split
    · exact h
    · rename_i t ts ht
      have hsub : ∀ x, x ∈ ts → x ∈ v.tasks := fun x hx => by rw [ht]; exact List.mem_cons_of_mem _ hx
      have hpop : Caused A { v with tasks := ts } :=
        ⟨fun hm => h.shut (hsub _ hm), h.down, fun i hm => h.stop i (hsub _ hm), fun i g hm => h.freq i g (hsub _ hm), h.stopped, h.frequency,
          fun i q hq hn => by
            have := h.started i q hq hn
            rw [ht, List.count_cons] at this
            show ts.count _ + _ ≤ 1
            omega⟩
      cases t with
      | send id =>
        refine ⟨hpop.shut, fun hm => ?_, hpop.stop, hpop.freq, hpop.stopped, hpop.frequency, hpop.started⟩
        simp only [Sess.runTask, Sess.emit] at hm
        exact h.down (by simpa using hm)
      | register i => exact ⟨hpop.shut, hpop.down, hpop.stop, hpop.freq, hpop.stopped, hpop.frequency, hpop.started⟩
      | shutdown =>
        have hA : A .shutdown := h.shut (by rw [ht]; simp)
        refine ⟨fun _ => hA, fun _ => hA, fun i _ => .inr hA, fun i g hm => ?_, hpop.stopped, hpop.frequency, fun i q hq hn => ?_⟩
        · refine hpop.freq i g ?_
          simp only [Sess.runTask, Sess.emit] at hm
          simpa using hm
        · have := hpop.started i q hq hn
          simp only [Sess.runTask, Sess.emit, List.count_append] at this ⊢
          have h0 : (v.registered.map fun i => SessTask.poll i .stop).count (.poll i .start) = 0 := by rw [List.count_eq_zero]; simp
          omega
      | poll j t =>
        simp only [Sess.runTask]
        have hmem : SessTask.poll j t ∈ v.tasks := by rw [ht]; simp
        have hlog : ∀ (i : Nat) (q' : Poll), ({ v with tasks := ts }.onPoll j fun p => p.runTask t).polls[i]? = some q' → ∃ (q : Poll) (es : List PEv), v.polls[i]? = some q ∧ q'.log = q.log ++ es ∧
            (PEv.stopped ∈ es → j = i ∧ t = .stop) ∧ (∀ g, PEv.frequency g ∈ es → j = i ∧ t = .setFrequency g) ∧
            es.count .started ≤ if j = i ∧ t = .start then 1 else 0 := by
          intro i q' hq
          by_cases hij : j = i
          · subst hij
            rw [onPoll_polls] at hq
            obtain ⟨q, h1, rfl⟩ := Option.map_eq_some_iff.1 hq
            obtain ⟨es, h2, h3, h4, h5⟩ := q.runTask_causes t
            exact ⟨q, es, h1, h2, fun hm => ⟨rfl, h3 hm⟩, fun g hm => ⟨rfl, h4 g hm⟩, by simpa using h5⟩
          · rw [onPoll_polls_ne _ _ hij] at hq
            exact ⟨q', [], hq, by simp, by simp, by simp, by simp⟩
        obtain ⟨es0, hl, hes0⟩ := ({ v with tasks := ts } : Sess).onPoll_log' j fun p => p.runTask t
        refine ⟨by rw [onPoll_tasks]; exact hpop.shut, fun hm => ?_, by rw [onPoll_tasks]; exact hpop.stop, by rw [onPoll_tasks]; exact hpop.freq,
          fun i q' hq hm => ?_, fun i q' g hq hm => ?_, fun i q' hq hn => ?_⟩
        · rw [hl] at hm
          rcases List.mem_append.1 hm with hm | hm
          · exact h.down hm
          · obtain ⟨q, -, x, hx, -⟩ := hes0 _ hm; cases hx
        · obtain ⟨q, es, h1, h2, h3, -, -⟩ := hlog i q' hq
          rw [h2] at hm
          rcases List.mem_append.1 hm with hm | hm
          · exact h.stopped i q h1 hm
          · obtain ⟨rfl, rfl⟩ := h3 hm; exact h.stop j hmem
        · obtain ⟨q, es, h1, h2, -, h3, -⟩ := hlog i q' hq
          rw [h2] at hm
          rcases List.mem_append.1 hm with hm | hm
          · exact h.frequency i q g h1 hm
          · obtain ⟨rfl, rfl⟩ := h3 g hm; exact h.freq j g hmem
        · obtain ⟨q, es, h1, h2, -, -, h3⟩ := hlog i q' hq
          have h4 := h.started i q h1 hn
          rw [onPoll_tasks, h2, List.count_append]
          rw [ht, List.count_cons] at h4
          show ts.count _ + _ ≤ 1
          by_cases hc : j = i ∧ t = .start
          · obtain ⟨rfl, rfl⟩ := hc
            simp at h3 h4
            omega
          · rw [if_neg hc] at h3
            omega
  | report id =>
    simp only [Sess.step]
    split
    · exact ⟨h.shut, fun hm => h.down (by simpa [Sess.emit] using hm), h.stop, h.freq, h.stopped, h.frequency, h.started⟩
    · exact h
  | respond j id => exact h.calm j _ fun q => q.step_causes (.respond id) (by simp)
  | tick n =>
    have hp : ∀ (i : Nat) (q' : Poll), (v.step (.tick n)).polls[i]? = some q' → ∃ q : Poll, v.polls[i]? = some q ∧ q'.log = q.log := by
      intro i q' hq
      simp only [Sess.step, List.getElem?_map] at hq
      obtain ⟨q, h1, rfl⟩ := Option.map_eq_some_iff.1 hq
      exact ⟨q, h1, rfl⟩
    refine ⟨h.shut, h.down, h.stop, h.freq, fun i q' hq hm => ?_, fun i q' g hq hm => ?_, fun i q' hq hn => ?_⟩
    · obtain ⟨q, h1, h2⟩ := hp i q' hq; rw [h2] at hm; exact h.stopped i q h1 hm
    · obtain ⟨q, h1, h2⟩ := hp i q' hq; rw [h2] at hm; exact h.frequency i q g h1 hm
    · obtain ⟨q, h1, h2⟩ := hp i q' hq; rw [h2]; exact h.started i q h1 hn
  | expire j t => exact h.calm j _ fun q => q.step_causes (.expire t) (by simp)
  | runTimer j t => exact h.calm j _ fun q => q.step_causes (.runTimer t) (by simp)

theorem Caused.run {A : Op → Prop} (ops : List Op) (ha : ∀ op ∈ ops, A op) : Caused A (Sess.init.run ops) := by
  induction ops using List.reverseRecOn with
  | nil => exact .init A
  | append_singleton ops op ih =>
    rw [show Sess.init.run (ops ++ [op]) = (Sess.init.run ops).step op by simp [Sess.run]]
    exact (ih fun o ho => ha o (List.mem_append_left _ ho)).step (good_run ops) op (ha op (by simp))

end Sess

namespace Props

/-- Every session has made only steps that the log accounts for. -/
theorem LReach.justified {env : ClientEnv} {v : Pcl} (h : LReach env v) : ∀ s p, v.sess[s]? = some p →
    ∃ sops, p.sess = Sess.init.run sops ∧ ∀ op ∈ sops, Modbus.justified s v.log op := by
  refine LReach.always (P := fun v => ∀ s p, v.sess[s]? = some p → ∃ sops, p.sess = Sess.init.run sops ∧ ∀ op ∈ sops, Modbus.justified s v.log op)
    (fun s p hp => by simp [Pcl.init] at hp) (fun v w op hr hv hs => ?_) h
  obtain ⟨new, hst⟩ := hr.stepped hs
  intro s p' hp'
  rw [hst.follows.log]
  cases hp : v.sess[s]? with
  | none =>
    obtain ⟨h1, -⟩ := hst.opened s p' hp hp'
    exact ⟨[.tick w.cli.now], h1, fun op ho => by rw [List.mem_singleton.1 ho]; trivial⟩
  | some p =>
    obtain ⟨p'', h1, h2⟩ := hst.follows.sess s p hp
    rw [hp'] at h1; injection h1 with h1; subst h1
    obtain ⟨sops, h3, h4⟩ := hv s p hp
    obtain ⟨sops', h5, h6, -⟩ := h2.ops
    refine ⟨sops ++ sops', by rw [h5, h3, Sess.run_append], fun o ho => ?_⟩
    rcases List.mem_append.1 ho with ho | ho
    · exact (h4 o ho).left new
    · exact (h6 o ho).right v.log

theorem LReach.caused {env : ClientEnv} {v : Pcl} (h : LReach env v) {s : Nat} {p : PSess} (hp : v.sess[s]? = some p) :
    Sess.Caused (Modbus.justified s v.log) p.sess := by
  obtain ⟨sops, h1, h2⟩ := h.justified s p hp
  rw [h1]
  exact .run sops h2

/-- The channel shuts sessions down only when it is shut down itself. -/
theorem LReach.sessionShutdown {env : ClientEnv} {v : Pcl} (h : LReach env v) : ∀ s, LEv.ch (.sessionShutdown s) ∈ v.log → LEv.ch .tcpShutdown ∈ v.log := by
  refine LReach.always (P := fun v => ∀ s, LEv.ch (.sessionShutdown s) ∈ v.log → LEv.ch .tcpShutdown ∈ v.log)
    (fun s hm => by cases hm) (fun v w op hr hv hs => ?_) h
  obtain ⟨new, hst⟩ := hr.stepped hs
  obtain ⟨cop, hc, -, -⟩ := hst.chan
  have hlog := hst.follows.log
  have hchan : w.cli.log = v.cli.log ++ ofChannel new := by
    have h1 := hst.inv.chan
    rw [List.append_nil, hlog, ofChannel_append] at h1
    rw [h1, hr.inv.1.chan, List.append_nil]
  intro s hm
  rw [hlog] at hm ⊢
  rcases List.mem_append.1 hm with hm | hm
  · exact List.mem_append_left _ (hv s hm)
  · refine List.mem_append_right _ ?_
    rcases Cli.step_log' hc with ⟨es, h3, h4⟩ | h3
    · rw [hchan] at h3
      have h5 := List.append_cancel_left h3
      exact absurd rfl ((h4 _ (by rw [← h5]; exact mem_ofChannel.2 hm)).2 s)
    · rw [hchan] at h3
      have h4 := List.append_cancel_left h3
      exact mem_ofChannel.1 (by rw [h4]; simp)

/-- A scheduled request and its part of the log. -/
theorem LReach.pollLog {env : ClientEnv} {v : Pcl} (h : LReach env v) (s i : Nat) (hne : Spec.ofPoll s i v.log ≠ []) :
    ∃ p q, v.sess[s]? = some p ∧ p.sess.polls[i]? = some q ∧ Spec.ofPoll s i v.log = q.log := by
  by_cases hs : s < v.sess.length
  · have hp : v.sess[s]? = some v.sess[s] := List.getElem?_eq_getElem hs
    have hok := h.inv.1.sessions s _ hp
    by_cases hi : i < v.sess[s].sess.polls.length
    · refine ⟨_, _, hp, List.getElem?_eq_getElem hi, ?_⟩
      unfold Spec.ofPoll
      rw [hok.log]
      exact hok.lives.good.effects i _ (List.getElem?_eq_getElem hi)
    · refine absurd ?_ hne
      unfold Spec.ofPoll
      rw [hok.log]
      exact hok.lives.good.fresh i (by omega)
  · refine absurd ?_ hne
    unfold Spec.ofPoll
    rw [(h.inv.1.fresh s (by omega)).1]
    rfl

end Props

end Modbus
