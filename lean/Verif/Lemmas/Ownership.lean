import Verif.Lemmas.PollingDown
import Verif.Spec.Ownership
import Verif.Spec.Rest

/-! Lemmas on ownership. -/

open Modbus.Spec

namespace Modbus

namespace Sess

/-- The list of scheduled requests is empty, or will be when the queue has been run. -/
def Swept (v : Sess) : Prop :=
  (v.registered = [] ∧ ∀ i, SessTask.register i ∉ v.tasks) ∨
  ∃ pre post, v.tasks = pre ++ .shutdown :: post ∧ ∀ i, SessTask.register i ∉ post

theorem Swept.step {v : Sess} (h : Swept v) (op : Op) (ho : ∀ i, op ≠ .register i) : Swept (v.step op) := by
  have grow : ∀ {w : Sess} {more : List SessTask}, w.tasks = v.tasks ++ more → w.registered = v.registered → (∀ i, SessTask.register i ∉ more) → Swept w := by
    intro w more h1 h2 h3
    rcases h with ⟨h4, h5⟩ | ⟨pre, post, h4, h5⟩
    · refine .inl ⟨by rw [h2, h4], fun i hm => ?_⟩
      rw [h1] at hm
      exact (List.mem_append.1 hm).elim (h5 i) (h3 i)
    · refine .inr ⟨pre, post ++ more, by rw [h1, h4]; simp, fun i hm => ?_⟩
      exact (List.mem_append.1 hm).elim (h5 i) (h3 i)
  cases op with
  | send => exact grow rfl rfl (by simp)
  | schedule f => exact grow rfl rfl (by simp)
  | register j => exact absurd rfl (ho j)
  | shutdown => exact grow rfl rfl (by simp)
  | call j t =>
    simp only [Sess.step]
    split
    · exact grow rfl rfl (by simp)
    · exact h
  | runTask =>
    simp only [Sess.step]
    split
    · exact h
    · rename_i t ts ht
      rcases h with ⟨h4, h5⟩ | ⟨pre, post, h4, h5⟩
      · rw [ht] at h5
        cases t with
        | send id => exact .inl ⟨h4, fun i hm => h5 i (List.mem_cons_of_mem _ hm)⟩
        | poll j t => exact .inl ⟨by simp only [Sess.runTask, onPoll_registered]; exact h4, fun i hm => h5 i (List.mem_cons_of_mem _ (by simpa [Sess.runTask, onPoll_tasks] using hm))⟩
        | register j => exact absurd (List.mem_cons_self ..) (h5 j)
        | shutdown =>
          refine .inl ⟨rfl, fun i hm => h5 i (List.mem_cons_of_mem _ ?_)⟩
          simpa [Sess.runTask, emit] using hm
      · rw [ht] at h4
        cases pre with
        | nil =>
          simp only [List.nil_append, List.cons.injEq] at h4
          obtain ⟨rfl, rfl⟩ := h4
          refine .inl ⟨rfl, fun i hm => h5 i ?_⟩
          simpa [Sess.runTask, emit] using hm
        | cons x pre =>
          simp only [List.cons_append, List.cons.injEq] at h4
          obtain ⟨rfl, rfl⟩ := h4
          cases t with
          | send id => exact .inr ⟨pre, post, rfl, h5⟩
          | poll j t => exact .inr ⟨pre, post, by simp [Sess.runTask, onPoll_tasks], h5⟩
          | register j => exact .inr ⟨pre, post, rfl, h5⟩
          | shutdown =>
            refine .inr ⟨pre, post ++ v.registered.map fun i => SessTask.poll i .stop, by simp [Sess.runTask, emit], fun i hm => ?_⟩
            rcases List.mem_append.1 hm with hm | hm
            · exact h5 i hm
            · simp at hm
  | report id =>
    simp only [Sess.step]
    split <;> exact h
  | respond j id => exact grow (more := []) (by simp [Sess.step, onPoll_tasks]) (by simp [Sess.step, onPoll_registered]) (by simp)
  | tick n => exact grow (more := []) (by simp [Sess.step]) rfl (by simp)
  | expire j t => exact grow (more := []) (by simp [Sess.step, onPoll_tasks]) (by simp [Sess.step, onPoll_registered]) (by simp)
  | runTimer j t => exact grow (more := []) (by simp [Sess.step, onPoll_tasks]) (by simp [Sess.step, onPoll_registered]) (by simp)

theorem Swept.run (ops : List Op) : ∀ {v : Sess}, Swept v → (∀ i, Op.register i ∉ ops) → Swept (v.run ops) := by
  induction ops with
  | nil => intro v h _; exact h
  | cons op ops ih =>
    intro v h hn
    exact ih (v := v.step op) (h.step op fun i he => hn i (by rw [he]; simp)) fun i hm => hn i (List.mem_cons_of_mem _ hm)

theorem Swept.shutdown {v : Sess} (ops : List Op) (hs : Op.shutdown ∈ ops) (hn : ∀ i, Op.register i ∉ ops) : Swept (v.run ops) := by
  obtain ⟨a, b, he, -⟩ := List.eq_append_cons_of_mem hs
  subst he
  rw [run_append]
  exact Swept.run b (.inr ⟨_, [], rfl, by simp⟩) fun i hm => hn i (by simp [hm])

theorem Swept.rest {v : Sess} (h : Swept v) (ht : v.tasks = []) : v.registered = [] := by
  rcases h with ⟨h1, -⟩ | ⟨pre, post, h1, -⟩
  · exact h1
  · rw [ht] at h1; simp at h1

end Sess

/-- After the channel's shutdown, unless scheduled requests are registered afterwards. -/
def Sweeping (v : Pcl) : Prop := ∀ a b, v.log = a ++ LEv.ch .tcpShutdown :: b → LEv.ch .tcpShutdown ∉ a →
  ∀ (s : Nat) (p : PSess), v.sess[s]? = some p → (∀ i, LEv.api s (.register i) ∉ b) → p.sess.Swept

theorem Sweeping.init (env : ClientEnv) : Sweeping (Pcl.init env) := fun a b h => by simp [Pcl.init] at h

theorem Sweeping.step {env : ClientEnv} {v w : Pcl} (h : Sweeping v) (hi : PInv env [] v) (hn : Numbered v) {op : Pcl.Op} (hstep : v.step env op = .ret w)
    {new : List LEv} (hs : Stepped env v w op new) : Sweeping w := by
  obtain ⟨cop, hc, -, -⟩ := hs.chan
  have hlog := hs.follows.log
  have hchan : w.cli.log = v.cli.log ++ ofChannel new := by
    have h1 := hs.inv.chan
    rw [List.append_nil, hlog, ofChannel_append] at h1
    rw [h1, hi.chan, List.append_nil]
  have hall : LEv.ch .tcpShutdown ∈ new → LEv.ch .tcpShutdown ∉ v.log → ∀ s, s < v.sess.length → LEv.ch (.sessionShutdown s) ∈ new := by
    intro h1 h2 s hlt
    have hup : v.cli.isShutdown = false := by
      cases hd : v.cli.isShutdown with
      | false => rfl
      | true =>
        have := hi.reach.inv.1.downLog.2 hd
        rw [hi.chan, List.append_nil] at this
        exact absurd (mem_ofChannel.1 this) h2
    rcases Cli.step_log' hc with ⟨es, h3, h4⟩ | h3
    · rw [hchan] at h3
      have h5 := List.append_cancel_left h3
      exact absurd rfl (h4 _ (by rw [← h5]; exact mem_ofChannel.2 h1)).1
    · rw [hchan] at h3
      have h4 := List.append_cancel_left h3
      refine mem_ofChannel.1 ?_
      rw [h4, hn.all hup]
      simp [hlt]
  have hcalls : ∀ s o, LEv.api s o ∈ new → LEv.ch .tcpShutdown ∉ new := by
    intro s o h1 h2
    obtain ⟨rfl, hu⟩ := hs.calls s o h1
    rcases hi.api hstep with rfl | ⟨p, m, -, h3, -, h4⟩
    · rw [List.self_eq_append_right.1 hlog] at h1; cases h1
    · rw [hlog] at h3
      rw [List.append_cancel_left h3] at h2
      simp only [List.mem_cons, reduceCtorEq, false_or] at h2
      obtain ⟨_, _, _, _, he⟩ := h4 _ h2
      cases he
  intro a b hab ha s p' hp' hreg
  rw [hlog] at hab
  have hcase : (∃ m, v.log = a ++ LEv.ch .tcpShutdown :: m ∧ b = m ++ new) ∨ (∃ m, a = v.log ++ m ∧ new = m ++ LEv.ch .tcpShutdown :: b) := by
    rcases List.append_eq_append_iff.1 hab with ⟨m, h3, h4⟩ | ⟨m, h3, h4⟩
    · exact .inr ⟨m, h3, h4⟩
    · cases m with
      | nil => exact .inr ⟨[], by simpa using h3.symm, by simpa using h4.symm⟩
      | cons x m =>
        injection h4 with h4 h5
        subst h4
        exact .inl ⟨m, h3, h5⟩
  cases hp : v.sess[s]? with
  | none =>
    obtain ⟨e1, -⟩ := hs.opened s p' hp hp'
    rw [e1]
    exact .inl ⟨rfl, by simp [Sess.step, Sess.init]⟩
  | some p =>
    obtain ⟨q, hq, hmv⟩ := hs.follows.sess s p hp
    rw [hp'] at hq; injection hq with hq; subst hq
    obtain ⟨sops, a1, a2, a3, -⟩ := hmv.ops
    rw [a1]
    rcases hcase with ⟨m, h3, h4⟩ | ⟨m, h3, h4⟩
    · rw [h4] at hreg
      refine (h a m h3 ha s p hp fun i hm => hreg i (List.mem_append_left _ hm)).run sops fun i hm => hreg i (List.mem_append_right _ (a2 _ hm))
    · have htcp : LEv.ch .tcpShutdown ∈ new := by rw [h4]; simp
      rw [h3] at ha
      simp only [List.mem_append, not_or] at ha
      exact Sess.Swept.shutdown sops (a3 (hall htcp ha.1 s (List.getElem?_eq_some_iff.1 hp).1)) fun i hm => hcalls _ _ (a2 _ hm) htcp

/-- An object in use is not released. -/
theorem Spec.InUse.not_freed {v : Pcl} {user : Obj → Prop} {x : Obj} (h : InUse v user x) : ¬ Freed v user x := by
  induction h with
  | held h => rintro ⟨h1, -, -⟩; exact h1 h
  | via _ h ih => rintro ⟨-, -, h1⟩; exact ih (h1 _ h)

end Modbus
