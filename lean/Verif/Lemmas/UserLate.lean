import Verif.Lemmas.UserCode

/-! Requests made after the shutdown of a channel has taken effect. -/

namespace Modbus.Props

open Spec

theorem split_last {α : Type} {x : α} {l a b : List α} (h : l ++ [x] = a ++ x :: b) (hn : x ∉ l) : b = [] := by
  rcases List.eq_nil_or_concat b with rfl | ⟨b', y, rfl⟩
  · rfl
  · have h2 : l = a ++ x :: b' := by
      have := congrArg List.dropLast h
      rw [List.dropLast_concat, show a ++ x :: (b'.concat y) = (a ++ x :: b') ++ [y] by simp, List.dropLast_concat] at this
      exact this
    exact absurd (by rw [h2]; simp) hn

/-- A step of a channel that has been shut down. -/
theorem down_step {env : ClientEnv} {v w : Cli} {op : Cli.Op} (hd : v.isShutdown = true) (h : v.step env op = .ret w) :
    (∃ unit q tmo, w.log = v.log ++ [.call v.nextUid unit q tmo] ∧ w.tasks = v.tasks) ∨
    ∃ es, w.log = v.log ++ es ∧ (∀ u unit q tmo, CEv.call u unit q tmo ∉ es) ∧ (∀ u ∈ handledUids es, u ∈ Cli.taskUids v.tasks) ∧
      ∀ u ∈ Cli.taskUids w.tasks, u ∈ Cli.taskUids v.tasks := by
  have plain : ∀ (e : CEv), (∀ u unit q tmo, e ≠ .call u unit q tmo) → (∀ u x t, e ≠ .handler u x t) → w.log = v.log ++ [e] → w.tasks = v.tasks →
      ∃ es, w.log = v.log ++ es ∧ (∀ u unit q tmo, CEv.call u unit q tmo ∉ es) ∧ (∀ u ∈ handledUids es, u ∈ Cli.taskUids v.tasks) ∧
      ∀ u ∈ Cli.taskUids w.tasks, u ∈ Cli.taskUids v.tasks := by
    intro e h1 h2 h3 h4
    refine ⟨[e], h3, fun u unit q tmo hm => h1 u unit q tmo (List.mem_singleton.1 hm).symm, fun u hu => ?_, fun u hu => by rwa [h4] at hu⟩
    obtain ⟨x, t, hx⟩ := mem_handledUids.1 hu
    exact absurd (List.mem_singleton.1 hx).symm (h2 u x t)
  have same : w.log = v.log → (∀ u ∈ Cli.taskUids w.tasks, u ∈ Cli.taskUids v.tasks) →
      ∃ es, w.log = v.log ++ es ∧ (∀ u unit q tmo, CEv.call u unit q tmo ∉ es) ∧ (∀ u ∈ handledUids es, u ∈ Cli.taskUids v.tasks) ∧
      ∀ u ∈ Cli.taskUids w.tasks, u ∈ Cli.taskUids v.tasks := fun h1 h2 => ⟨[], by simp [h1], by simp, by simp [handledUids], h2⟩
  cases op with
  | submit unit q tmo =>
    simp only [Cli.step, Cli.emit, hd, if_true] at h
    injection h with h; subst h
    exact .inl ⟨unit, q, tmo, rfl, rfl⟩
  | shutdown =>
    injection h with h; subst h
    exact .inr (same rfl (by intro u hu; simpa [Cli.taskUids, CTask.uid?] using hu))
  | createSession =>
    simp only [Cli.step, hd, if_true] at h
    injection h with h; subst h
    exact .inr (plain _ (by simp) (by simp) rfl rfl)
  | receive data =>
    simp only [Cli.step, Cli.onReceive, Cli.emit, hd, if_true] at h
    injection h with h; subst h
    exact .inr (plain (.data data) (by simp) (by simp) rfl rfl)
  | error =>
    simp only [Cli.step, Cli.onError, Cli.emit, hd, if_true] at h
    injection h with h; subst h
    exact .inr (plain .connError (by simp) (by simp) rfl rfl)
  | tick n => injection h with h; subst h; exact .inr (same rfl fun u hu => hu)
  | expire t =>
    simp only [Cli.step] at h
    split at h
    · injection h with h; subst h; exact .inr (same rfl fun u hu => hu)
    · split at h <;> injection h with h <;> subst h <;> exact .inr (same rfl fun u hu => hu)
  | runTimer t =>
    simp only [Cli.step, Cli.onTimer, hd, if_true] at h
    split at h <;> injection h with h <;> subst h <;> exact .inr (same rfl fun u hu => hu)
  | runTask =>
    simp only [Cli.step] at h
    split at h
    · injection h with h; subst h; exact .inr (same rfl fun u hu => hu)
    · rename_i t ts ht
      injection h with h
      have hsub : ∀ u ∈ Cli.taskUids ts, u ∈ Cli.taskUids v.tasks := by
        intro u hu
        rw [ht, show t :: ts = [t] ++ ts from rfl, Cli.taskUids, List.filterMap_append]
        exact List.mem_append_right _ hu
      cases t with
      | request uid unit q tmo =>
        simp only [Cli.runTask, hd, if_true] at h
        subst h
        exact .inr (same rfl hsub)
      | malformed uid =>
        simp only [Cli.runTask, Cli.emit] at h
        subst h
        refine .inr ⟨[.handler uid (.error .malformedRequest) v.now], rfl, by simp, fun u hu => ?_, hsub⟩
        obtain ⟨x, t, hx⟩ := mem_handledUids.1 hu
        simp only [List.mem_singleton, CEv.handler.injEq] at hx
        obtain ⟨rfl, -⟩ := hx
        rw [ht]; simp [Cli.taskUids, CTask.uid?]
      | shutdown =>
        right
        have hw := Cli.own_step (env := env) (v := v) (v' := w) (op := .runTask) (by simp only [Cli.step, ht]; rw [h]) rfl
        obtain ⟨f, hf⟩ := Cli.cancelTimer_eq ({ v with
          tasks := ts
          isShutdown := true
          log := v.log ++ v.sessions.map CEv.sessionShutdown
          sessions := []
          pending := []
          current := none } : Cli)
        simp only [Cli.runTask] at h
        rw [hf] at h
        subst h
        refine ⟨v.sessions.map CEv.sessionShutdown ++ [.tcpShutdown], by simp [Cli.emit], by simp, fun u hu => ?_, hsub⟩
        obtain ⟨x, t, hx⟩ := mem_handledUids.1 hu
        simp at hx

theorem split_where {α : Type} {x : α} {l es a b : List α} (h : l ++ es = a ++ x :: b) :
    (∃ z, a = l ++ z ∧ es = z ++ x :: b) ∨ ∃ b', l = a ++ x :: b' := by
  rcases List.append_eq_append_iff.1 h with ⟨z, h1, h2⟩ | ⟨z, h1, h2⟩
  · exact .inl ⟨z, h1, h2⟩
  · cases z with
    | nil => exact .inl ⟨[], by simpa using h1.symm, by simpa using h2.symm⟩
    | cons z zs =>
      simp only [List.cons_append, List.cons.injEq] at h2
      obtain ⟨rfl, -⟩ := h2
      exact .inr ⟨zs, h1⟩

theorem split_append {α : Type} {x y : α} {l es a b : List α} (h : l ++ es = a ++ x :: b) (hy : y ∈ b) (hn : y ∉ es) : ∃ b', l = a ++ x :: b' ∧ y ∈ b' := by
  rcases List.append_eq_append_iff.1 h with ⟨z, h1, h2⟩ | ⟨z, h1, h2⟩
  · exact absurd (by rw [h2]; simp [hy]) hn
  · cases z with
    | nil => simp only [List.nil_append] at h2; exact absurd (by rw [← h2]; simp [hy]) hn
    | cons z zs =>
      simp only [List.cons_append, List.cons.injEq] at h2
      obtain ⟨rfl, rfl⟩ := h2
      rcases List.mem_append.1 hy with hy | hy
      · exact ⟨zs, h1, hy⟩
      · exact absurd hy hn

/-- A request made after the shutdown of a channel has taken effect is dropped: its handler is not called and will not be. -/
theorem late_calls {env : ClientEnv} {v : Cli} (h : CReach env v) (a b : List CEv) (he : v.log = a ++ .tcpShutdown :: b) (u : Nat) (unit : UInt8) (q : AnyReq)
    (tmo : Nat) (hc : CEv.call u unit q tmo ∈ b) : u ∉ handledUids v.log ∧ u ∉ Cli.taskUids v.tasks := by
  obtain ⟨ops, hr⟩ := h
  have key : ∀ (ops : List Cli.Op) (v w : Cli), CReach env v →
      (∀ a b, v.log = a ++ .tcpShutdown :: b → ∀ u unit q tmo, CEv.call u unit q tmo ∈ b → u ∉ handledUids v.log ∧ u ∉ Cli.taskUids v.tasks) →
      v.run env ops = .ret w → ∀ a b, w.log = a ++ .tcpShutdown :: b → ∀ u unit q tmo, CEv.call u unit q tmo ∈ b →
        u ∉ handledUids w.log ∧ u ∉ Cli.taskUids w.tasks := by
    intro ops
    induction ops with
    | nil => intro v w _ hp hr; injection hr with hr; subst hr; exact hp
    | cons op ops ih =>
      intro v w hv hp hr
      obtain ⟨x, hx, hr⟩ := CM.bind_eq_ret.1 hr
      refine ih x w (hv.step hx) ?_ hr
      intro a b he u unit q tmo hc
      by_cases hd : v.isShutdown = true
      · rcases down_step hd hx with ⟨unit', q', tmo', h1, h2⟩ | ⟨es, h1, h2, h3, h4⟩
        · by_cases hu : u = v.nextUid
          · obtain ⟨b1, -, -, b2⟩ := hv.inv.1.bound u (by omega)
            rw [h1, h2]
            refine ⟨fun hm => ?_, b2⟩
            obtain ⟨y, t, hm⟩ := mem_handledUids.1 hm
            exact b1 (mem_handledUids.2 ⟨y, t, by simpa using hm⟩)
          · rw [h1] at he
            obtain ⟨b', e1, e2⟩ := split_append he hc (by simp [hu])
            obtain ⟨p1, p2⟩ := hp a b' e1 u unit q tmo e2
            rw [h1, h2]
            refine ⟨fun hm => ?_, p2⟩
            obtain ⟨y, t, hm⟩ := mem_handledUids.1 hm
            exact p1 (mem_handledUids.2 ⟨y, t, by simpa using hm⟩)
        · rw [h1] at he
          obtain ⟨b', e1, e2⟩ := split_append he hc (h2 u unit q tmo)
          obtain ⟨p1, p2⟩ := hp a b' e1 u unit q tmo e2
          refine ⟨fun hm => ?_, fun hm => p2 (h4 u hm)⟩
          rw [h1] at hm
          obtain ⟨y, t, hm⟩ := mem_handledUids.1 hm
          rcases List.mem_append.1 hm with hm | hm
          · exact p1 (mem_handledUids.2 ⟨y, t, hm⟩)
          · exact p2 (h3 u (mem_handledUids.2 ⟨y, t, hm⟩))
      · have hnot : CEv.tcpShutdown ∉ v.log := fun hm => hd (hv.inv.1.downLog.1 hm)
        exfalso
        have hno : ∀ es, x.log = v.log ++ es → CEv.tcpShutdown ∉ es → False := by
          intro es h1 h2
          have : CEv.tcpShutdown ∈ x.log := by rw [he]; simp
          rw [h1] at this
          rcases List.mem_append.1 this with h | h
          · exact hnot h
          · exact h2 h
        by_cases ho : Pcl.ownChan op = true
        · rcases Cli.own_step hx ho with hs | ⟨ts, -, -, hl, -⟩
          · obtain ⟨es, h1, h2⟩ := hs.log
            exact hno es h1 fun hm => h2 _ hm
          · rw [hl, ← List.append_assoc] at he
            rw [split_last he (by simp [hnot])] at hc
            cases hc
        · cases op with
          | submit unit q tmo =>
            obtain ⟨ts, -, h1⟩ := Cli.step_submit env v unit q tmo
            rw [hx] at h1; injection h1 with h1; subst h1
            exact hno [.call v.nextUid unit q tmo] rfl (by simp)
          | createSession =>
            simp only [Cli.step, hd] at hx
            injection hx with hx; subst hx
            exact hno [.session (some v.nextSession)] rfl (by simp)
          | tick n => injection hx with hx; subst hx; exact hno [] (by simp) (by simp)
          | _ => exact ho rfl
  exact key ops _ v ⟨[], rfl⟩ (by intro a b he; simp [Cli.init] at he) hr a b he u unit q tmo hc

end Modbus.Props
