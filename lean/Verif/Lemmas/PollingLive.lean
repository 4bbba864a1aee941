import Verif.Lemmas.PollingStep

/-! Polling goes on: what a scheduled request is waiting for does not get lost. -/

namespace Modbus

open Spec

/-- What later states of a scheduled request have to do with an earlier one. -/
structure Onward (q q' : Poll) : Prop where
  log : q.log <+: q'.log
  next : q.nextId ≤ q'.nextId
  go : q.running = true → PEv.stopped ∉ q'.log → q'.running = true ∧ (q'.nextId = q.nextId →
    (∀ t ∈ q.fired, t ∈ q'.fired) ∧ (∀ t ∈ q.armed.map (·.1), t ∈ q'.armed.map (·.1) ∨ t ∈ q'.fired) ∧
    (∀ id ∈ q.inFlight, id ∈ q'.inFlight ∨ q'.armed ≠ [] ∨ q'.fired ≠ []))

namespace Onward

theorem refl (q : Poll) : Onward q q :=
  ⟨List.prefix_rfl, Nat.le_refl _, fun h _ => ⟨h, fun _ => ⟨fun _ h => h, fun _ h => .inl h, fun _ h => .inl h⟩⟩⟩

theorem trans {a b c : Poll} (h : Onward a b) (h' : Onward b c) : Onward a c := by
  refine ⟨h.log.trans h'.log, Nat.le_trans h.next h'.next, fun hr hs => ?_⟩
  have hs' : PEv.stopped ∉ b.log := fun hm => hs (h'.log.subset hm)
  obtain ⟨r1, g1⟩ := h.go hr hs'
  obtain ⟨r2, g2⟩ := h'.go r1 hs
  refine ⟨r2, fun he => ?_⟩
  have h1 := h.next
  have h2 := h'.next
  obtain ⟨f1, a1, i1⟩ := g1 (by omega)
  obtain ⟨f2, a2, i2⟩ := g2 (by omega)
  have armed : b.armed ≠ [] ∨ b.fired ≠ [] → c.armed ≠ [] ∨ c.fired ≠ [] := by
    rintro (hb | hb)
    · obtain ⟨x, hx⟩ := List.exists_mem_of_ne_nil _ hb
      rcases a2 x.1 (List.mem_map_of_mem hx) with h | h
      · exact .inl fun he => by rw [he] at h; cases h
      · exact .inr (List.ne_nil_of_mem h)
    · obtain ⟨x, hx⟩ := List.exists_mem_of_ne_nil _ hb
      exact .inr (List.ne_nil_of_mem (f2 x hx))
  refine ⟨fun t ht => f2 t (f1 t ht), fun t ht => ?_, fun id hid => ?_⟩
  · rcases a1 t ht with h | h
    · exact a2 t h
    · exact .inr (f2 t h)
  · rcases i1 id hid with h | h
    · exact i2 id h
    · exact .inr (armed h)

theorem runTask (q : Poll) (t : PTask) : Onward q (q.runTask t) := by
  cases t with
  | start =>
    simp only [Poll.runTask]
    split
    · exact .refl q
    · rename_i hr
      refine ⟨?_, by simp [Poll.execute, Poll.emit], fun h => absurd h hr⟩
      simp only [Poll.execute, Poll.emit, List.append_assoc]
      exact List.prefix_append _ _
  | stop =>
    simp only [Poll.runTask]
    split
    · refine ⟨?_, ?_, fun _ hn => ?_⟩
      · simp only [Poll.cancelTimer, Poll.emit]
        split <;> exact List.prefix_append _ _
      · simp only [Poll.cancelTimer, Poll.emit]
        split <;> exact Nat.le_refl _
      · exfalso
        apply hn
        simp only [Poll.cancelTimer, Poll.emit]
        split <;> simp
    · exact ⟨List.prefix_append _ _, Nat.le_refl _, fun _ hn => absurd (by simp [Poll.emit]) hn⟩
  | setFrequency f =>
    exact ⟨List.prefix_append _ _, Nat.le_refl _, fun h _ => ⟨h, fun _ => ⟨fun _ h => h, fun _ h => .inl h, fun _ h => .inl h⟩⟩⟩

theorem respond (q : Poll) (id : Nat) : Onward q (q.step (.respond id)) := by
  simp only [Poll.step]
  split
  · refine ⟨?_, ?_, fun hr _ => ?_⟩
    · cases hr : q.running <;> simp only [Poll.onResponse, Poll.emit, hr, if_true, if_false, Bool.false_eq_true] <;> exact List.prefix_append _ _
    · cases hr : q.running <;> simp only [Poll.onResponse, Poll.emit, hr, if_true, if_false, Bool.false_eq_true] <;> exact Nat.le_refl _
    · simp only [Poll.onResponse, Poll.emit, hr, if_true, true_and]
      refine fun _ => ⟨fun _ h => h, fun t ht => .inl ?_, fun _ _ => .inr (.inl (by simp))⟩
      rw [List.map_append]; exact List.mem_append_left _ ht
  · exact .refl q

theorem tick (q : Poll) (n : Nat) : Onward q (q.step (.tick n)) :=
  ⟨List.prefix_rfl, Nat.le_refl _, fun h _ => ⟨h, fun _ => ⟨fun _ h => h, fun _ h => .inl h, fun _ h => .inl h⟩⟩⟩

theorem expire (q : Poll) (t : Nat) : Onward q (q.step (.expire t)) := by
  simp only [Poll.step]
  split
  · exact .refl q
  · split
    · refine ⟨List.prefix_rfl, Nat.le_refl _, fun h _ => ⟨h, fun _ => ⟨fun _ h => List.mem_append_left _ h, fun x hx => ?_, fun _ h => .inl h⟩⟩⟩
      by_cases he : x = t
      · exact .inr (List.mem_append_right _ (by simp [he]))
      · obtain ⟨y, hy, rfl⟩ := List.mem_map.1 hx
        exact .inl (List.mem_map.2 ⟨y, List.mem_filter.2 ⟨hy, by simpa using he⟩, rfl⟩)
    · exact .refl q

theorem runTimer (q : Poll) (t : Nat) : Onward q (q.step (.runTimer t)) := by
  simp only [Poll.step]
  split
  · refine ⟨List.prefix_append _ _, by simp [Poll.execute, Poll.emit], fun h _ => ⟨h, fun he => ?_⟩⟩
    simp [Poll.execute, Poll.emit] at he
  · exact .refl q

end Onward

namespace Sess

theorem onPoll_getElem (v : Sess) (j : Nat) (f : Poll → Poll) {i : Nat} {q : Poll} (h : v.polls[i]? = some q) :
    (v.onPoll j f).polls[i]? = some (if j = i then f q else q) := by
  unfold onPoll
  by_cases he : j = i
  · subst he
    have hl := (List.getElem?_eq_some_iff.1 h).1
    simp only [h, emit, if_true, List.getElem?_set_self hl]
  · simp only [if_neg he]
    split
    · exact h
    · simp only [emit, List.getElem?_set_ne he]; exact h

theorem onPoll_onward (v : Sess) (j : Nat) (f : Poll → Poll) (hf : ∀ q, Onward q (f q)) {i : Nat} {q : Poll} (h : v.polls[i]? = some q) :
    ∃ q', (v.onPoll j f).polls[i]? = some q' ∧ Onward q q' := by
  refine ⟨_, v.onPoll_getElem j f h, ?_⟩
  split
  · exact hf q
  · exact .refl q

theorem step_onward (v : Sess) (op : Op) {i : Nat} {q : Poll} (h : v.polls[i]? = some q) :
    ∃ q', (v.step op).polls[i]? = some q' ∧ Onward q q' := by
  cases op with
  | send => exact ⟨q, h, .refl q⟩
  | schedule f => exact ⟨q, by simp only [step]; rw [List.getElem?_append_left (List.getElem?_eq_some_iff.1 h).1]; exact h, .refl q⟩
  | register j => simp only [step]; split <;> exact ⟨q, h, .refl q⟩
  | shutdown => exact ⟨q, h, .refl q⟩
  | call j t => simp only [step]; split <;> exact ⟨q, h, .refl q⟩
  | runTask =>
    simp only [step]
    split
    · exact ⟨q, h, .refl q⟩
    · rename_i t ts _
      cases t with
      | send id => exact ⟨q, h, .refl q⟩
      | poll j t => exact onPoll_onward _ j _ (fun q => .runTask q t) h
      | register j => exact ⟨q, h, .refl q⟩
      | shutdown => exact ⟨q, h, .refl q⟩
  | report id => simp only [step]; split <;> exact ⟨q, h, .refl q⟩
  | respond j id => exact onPoll_onward _ j _ (fun q => .respond q id) h
  | tick n => exact ⟨q.step (.tick n), by simp [step, h], .tick q n⟩
  | expire j t => exact onPoll_onward _ j _ (fun q => .expire q t) h
  | runTimer j t => exact onPoll_onward _ j _ (fun q => .runTimer q t) h

theorem run_onward (ops : List Op) : ∀ (v : Sess) {i : Nat} {q : Poll}, v.polls[i]? = some q → ∃ q', (v.run ops).polls[i]? = some q' ∧ Onward q q' := by
  induction ops with
  | nil => intro v i q h; exact ⟨q, h, .refl q⟩
  | cons op ops ih =>
    intro v i q h
    obtain ⟨q1, h1, h2⟩ := v.step_onward op h
    obtain ⟨q2, h3, h4⟩ := ih _ h1
    exact ⟨q2, h3, h2.trans h4⟩

theorem step_tasks (v : Sess) (op : Op) (ho : op ≠ .runTask) : v.tasks <+: (v.step op).tasks := by
  cases op with
  | runTask => exact absurd rfl ho
  | send => exact List.prefix_append _ _
  | schedule f => exact List.prefix_append _ _
  | register j => simp only [step]; split <;> first | exact List.prefix_append _ _ | exact List.prefix_rfl
  | shutdown => exact List.prefix_append _ _
  | call j t => simp only [step]; split <;> first | exact List.prefix_append _ _ | exact List.prefix_rfl
  | report id => simp only [step]; split <;> exact List.prefix_rfl
  | respond j id => simp only [step, onPoll_tasks]; exact List.prefix_rfl
  | tick n => exact List.prefix_rfl
  | expire j t => simp only [step, onPoll_tasks]; exact List.prefix_rfl
  | runTimer j t => simp only [step, onPoll_tasks]; exact List.prefix_rfl

theorem runTask_tasks (v : Sess) (t : SessTask) : v.tasks <+: (v.runTask t).tasks := by
  cases t with
  | send id => exact List.prefix_rfl
  | poll j t => simp only [runTask, onPoll_tasks]; exact List.prefix_rfl
  | register j => exact List.prefix_rfl
  | shutdown => exact List.prefix_append _ _

/-- Scheduled request `i` has started, or its start is among the next tasks. -/
def StartAt (k : Nat) (v : Sess) (i : Nat) : Prop :=
  (∃ q, v.polls[i]? = some q ∧ PEv.started ∈ q.log) ∨ ∃ j, j ≤ k ∧ v.tasks[j]? = some (.poll i .start)

theorem pollOn_started (log : List PEv) (h : pollOn log = true) : PEv.started ∈ log := by
  induction log using List.reverseRecOn with
  | nil => cases h
  | append_singleton l e ih =>
    rw [Poll.pollOn_snoc] at h
    cases e with
    | started => simp
    | stopped => cases h
    | _ => exact List.mem_append_left _ (ih h)

theorem pollOn_of_started (log : List PEv) (h : PEv.started ∈ log) (hn : PEv.stopped ∉ log) : pollOn log = true := by
  induction log using List.reverseRecOn with
  | nil => cases h
  | append_singleton l e ih =>
    rw [Poll.pollOn_snoc]
    cases e with
    | started => rfl
    | stopped => simp at hn
    | _ =>
      simp only [List.mem_append, List.mem_singleton, reduceCtorEq, or_false] at h hn
      exact ih h hn

theorem Lives.running {v : Sess} (h : Lives v) {i : Nat} {q : Poll} (hp : v.polls[i]? = some q) : q.running = pollOn q.log := by
  obtain ⟨f, pops, hv⟩ := h.poll hp
  have := Poll.running_run f pops
  rw [← hv] at this
  exact this

theorem Lives.busy {v : Sess} (h : Lives v) {i : Nat} {q : Poll} (hp : v.polls[i]? = some q) (hr : q.running = true) :
    q.inFlight ≠ [] ∨ q.armed ≠ [] ∨ q.fired ≠ [] := by
  obtain ⟨f, pops, hv⟩ := h.poll hp
  have := (Poll.core_run f pops).2
  rw [← hv] at this
  exact this hr

theorem Lives.sentIds {v : Sess} (h : Lives v) {i : Nat} {q : Poll} (hp : v.polls[i]? = some q) : pollsSent q.log = List.range q.nextId := by
  obtain ⟨f, pops, hv⟩ := h.poll hp
  have := (Poll.core_run f pops).1.sentIds
  rw [← hv] at this
  exact this

theorem StartAt.runTask {v : Sess} (h : Lives v) {i k : Nat} (hs : StartAt k v i) :
    (∃ q, (v.step .runTask).polls[i]? = some q ∧ PEv.started ∈ q.log) ∨ ∃ j, j + 1 ≤ k ∧ (v.step .runTask).tasks[j]? = some (.poll i .start) := by
  rcases hs with ⟨q, h1, h2⟩ | ⟨j, h1, h2⟩
  · obtain ⟨q', h3, h4⟩ := v.step_onward .runTask h1
    exact .inl ⟨q', h3, h4.log.subset h2⟩
  · cases ht : v.tasks with
    | nil => rw [ht] at h2; simp at h2
    | cons t ts =>
      rw [ht] at h2
      cases j with
      | zero =>
        simp only [List.getElem?_cons_zero, Option.some.injEq] at h2
        subst h2
        have hi : i < v.polls.length := h.good.tasks i .start (by rw [ht]; exact .head _)
        have hq : v.polls[i]? = some v.polls[i] := List.getElem?_eq_getElem hi
        refine .inl ⟨v.polls[i].runTask .start, ?_, ?_⟩
        · simp only [step, ht, Sess.runTask]
          rw [onPoll_getElem { v with tasks := ts } i _ hq]; simp
        · simp only [Poll.runTask]
          split
          · rename_i hr
            rw [h.running hq] at hr
            exact pollOn_started _ hr
          · simp [Poll.execute, Poll.emit]
      | succ j =>
        simp only [List.getElem?_cons_succ] at h2
        refine .inr ⟨j, h1, ?_⟩
        simp only [step, ht]
        have := runTask_tasks { v with tasks := ts } t
        obtain ⟨x, hx⟩ := this
        rw [← hx]
        simp only
        rw [List.getElem?_append_left (List.getElem?_eq_some_iff.1 h2).1]; exact h2

theorem StartAt.step {v : Sess} (h : Lives v) {i k : Nat} (hs : StartAt k v i) (op : Op) : StartAt k (v.step op) i := by
  by_cases ho : op = .runTask
  · subst ho
    rcases hs.runTask h with h1 | ⟨j, h1, h2⟩
    · exact .inl h1
    · exact .inr ⟨j, by omega, h2⟩
  · rcases hs with ⟨q, h1, h2⟩ | ⟨j, h1, h2⟩
    · obtain ⟨q', h3, h4⟩ := v.step_onward op h1
      exact .inl ⟨q', h3, h4.log.subset h2⟩
    · obtain ⟨x, hx⟩ := v.step_tasks op ho
      refine .inr ⟨j, h1, ?_⟩
      rw [← hx, List.getElem?_append_left (List.getElem?_eq_some_iff.1 h2).1]; exact h2

theorem StartAt.run (ops : List Op) : ∀ {v : Sess}, Lives v → Op.send ∉ ops → ∀ {i k : Nat}, StartAt k v i → StartAt k (v.run ops) i := by
  induction ops with
  | nil => intro v _ _ i k hs; exact hs
  | cons op ops ih =>
    intro v h hn i k hs
    have ho : op ≠ .send := fun he => hn (by rw [he]; exact .head _)
    exact ih (h.step op ho) (fun hm => hn (.tail _ hm)) (hs.step h op)

theorem Lives.startAt {v : Sess} (h : Lives v) : ∀ i, i < v.polls.length → ∃ k, StartAt k v i := by
  obtain ⟨ops, rfl, hn⟩ := h
  induction ops using List.reverseRecOn with
  | nil => intro i hi; cases hi
  | append_singleton ops op ih =>
    intro i hi
    have hno : Op.send ∉ ops := fun hm => hn (List.mem_append_left _ hm)
    have hl : Lives (Sess.init.run ops) := ⟨ops, rfl, hno⟩
    rw [run_append] at hi ⊢
    have hlen := step_length (Sess.init.run ops) op
    by_cases hlt : i < (Sess.init.run ops).polls.length
    · obtain ⟨k, hk⟩ := ih hno i hlt
      exact ⟨k, hk.step hl op⟩
    · cases op with
      | schedule f =>
        refine ⟨(Sess.init.run ops).tasks.length, .inr ⟨_, Nat.le_refl _, ?_⟩⟩
        have hi' : i = (Sess.init.run ops).polls.length := by
          simp only at hlen
          have : (Sess.step (Sess.init.run ops) (.schedule f)).polls.length = _ := hlen
          have hi2 : i < (Sess.step (Sess.init.run ops) (.schedule f)).polls.length := hi
          omega
        show (Sess.step (Sess.init.run ops) (.schedule f)).tasks[_]? = _
        simp [Sess.step, hi']
      | _ =>
        simp only at hlen
        exfalso
        apply hlt
        rw [← hlen]; exact hi

end Sess

end Modbus
