import Verif.Lemmas.Client

/-!
Lemmas about progress and timeouts of the client channel.
-/

namespace Modbus.Cli

open Spec

/-- The requests not completed, in the order in which they will be: outstanding, queued, posted. -/
def line (v : Cli) : List Nat := v.curUids ++ (v.pendUids ++ taskUids v.tasks)

/-- How one state can follow another, as far as progress is concerned: nobody is overtaken, the outstanding request stays
(with its timer) or leaves the line, timers are never armed again. -/
structure Shift (v v' : Cli) : Prop where
  uids : v.nextUid ≤ v'.nextUid
  moved : ∃ new : List Nat, (∀ x ∈ new, v.nextUid ≤ x) ∧ List.Sublist v'.line (v.line ++ new) ∧
    ∀ r, v.current = some r → (v'.current = some r ∧ v'.timer = v.timer) ∨ List.Sublist v'.line (v.line.tail ++ new)
  timers : v.nextTimer ≤ v'.nextTimer
  armed : ∀ t ∈ v'.armed.map (·.1), t ∈ v.armed.map (·.1) ∨ v.nextTimer ≤ t

theorem Shift.trans {v v' v'' : Cli} (h : Shift v v') (h' : Shift v' v'') : Shift v v'' := by
  obtain ⟨n, n1, n2, n3⟩ := h.moved
  obtain ⟨m, m1, m2, m3⟩ := h'.moved
  refine ⟨Nat.le_trans h.uids h'.uids, ⟨n ++ m, ?_, ?_, ?_⟩, Nat.le_trans h.timers h'.timers, ?_⟩
  · intro x hx
    rcases List.mem_append.1 hx with hx | hx
    · exact n1 x hx
    · exact Nat.le_trans h.uids (m1 x hx)
  · rw [← List.append_assoc]
    exact m2.trans (n2.append_right m)
  · intro r hr
    rcases n3 r hr with ⟨h1, h2⟩ | h1
    · rcases m3 r h1 with ⟨h3, h4⟩ | h3
      · exact Or.inl ⟨h3, by rw [h4, h2]⟩
      · right
        have : List.Sublist v'.line.tail (v.line.tail ++ n) := by
          have := n2.tail
          have e : (v.line ++ n).tail = v.line.tail ++ n := by
            have : v.line ≠ [] := by simp [line, curUids, hr]
            rw [List.tail_append_of_ne_nil this]
          rw [e] at this; exact this
        rw [← List.append_assoc]
        exact h3.trans (this.append_right m)
    · right
      rw [← List.append_assoc]
      exact m2.trans (h1.append_right m)
  · intro t ht
    rcases h'.armed t ht with h1 | h1
    · exact h.armed t h1
    · exact Or.inr (Nat.le_trans h.timers h1)

/-- Changes that do not matter. -/
theorem Shift.of_same {v v' : Cli} (h1 : v'.nextUid = v.nextUid) (h2 : v'.current = v.current) (h3 : v'.pending = v.pending)
    (h4 : v'.tasks = v.tasks) (h5 : v'.timer = v.timer) (h6 : v'.nextTimer = v.nextTimer)
    (h7 : ∀ t ∈ v'.armed.map (·.1), t ∈ v.armed.map (·.1)) : Shift v v' := by
  have hl : v'.line = v.line := by simp [line, curUids, pendUids, h2, h3, h4]
  exact ⟨Nat.le_of_eq h1.symm, ⟨[], by simp, by simp [hl], fun r hr => Or.inl ⟨by rw [h2, hr], h5⟩⟩, Nat.le_of_eq h6.symm, fun t ht => Or.inl (h7 t ht)⟩

theorem Shift.refl (v : Cli) : Shift v v := .of_same rfl rfl rfl rfl rfl rfl (fun _ h => h)

/-- Nothing outstanding: starting the next request does not change the line. -/
theorem checkPending_line (env : ClientEnv) (v : Cli) : (v.checkPending env).line = v.line := by
  unfold checkPending
  split
  · rfl
  · split
    · rename_i r rest hc hp
      simp [line, curUids, pendUids, hc, hp, Cli.emit]
    · rfl

theorem Shift.checkPending (env : ClientEnv) (v : Cli) : Shift v (v.checkPending env) := by
  unfold Cli.checkPending
  split
  · exact .refl v
  · split
    · rename_i r rest hc hp
      refine ⟨Nat.le_refl _, ⟨[], by simp, ?_, ?_⟩, Nat.le_succ _, ?_⟩
      · simp [line, curUids, pendUids, hc, hp, Cli.emit]
      · intro r hr; rw [hc] at hr; cases hr
      · intro t ht
        simp only [List.map_append, List.map_cons, List.map_nil, List.mem_append, List.mem_singleton, Cli.emit] at ht
        rcases ht with ht | ht
        · exact Or.inl ht
        · exact Or.inr (Nat.le_of_eq ht.symm)
    · exact .refl v

theorem Shift.finish (v : Cli) (r : PendingReq) (x : Expected (List UInt8)) (hc : v.current = some r) : Shift v (v.finish r x) := by
  obtain ⟨f, hf⟩ := cancelTimer_eq { v.emit (.handler r.uid x v.now) with current := none }
  rw [Cli.finish, hf]
  have hl : v.line = r.uid :: (v.pendUids ++ taskUids v.tasks) := by simp [line, curUids, hc]
  refine ⟨Nat.le_refl _, ⟨[], by simp, ?_, ?_⟩, Nat.le_refl _, ?_⟩
  · rw [List.append_nil, hl]; exact List.sublist_cons_self _ _
  · intro _ _; right
    rw [List.append_nil, hl]; exact List.Sublist.refl _
  · intro t ht
    obtain ⟨y, hy, rfl⟩ := List.mem_map.1 ht
    exact Or.inl (List.mem_map.2 ⟨y, (List.mem_filter.1 hy).1, rfl⟩)

theorem Shift.onMbap (env : ClientEnv) (v : Cli) (m : Mbap) : Shift v (v.onMbap env m) := by
  have h0 : Shift v (v.emit (.mbap m)) := .of_same rfl rfl rfl rfl rfl rfl (fun _ h => h)
  rcases onMbap_eq env v m with ⟨h, -⟩ | ⟨r, -, hc, -, -, h⟩
  · rw [h]; exact h0
  · rw [h]; exact (h0.trans (.finish _ r _ hc)).trans (.checkPending env _)

theorem Shift.onMbaps (env : ClientEnv) (ms : List Mbap) : ∀ v : Cli, Shift v (v.onMbaps env ms) := by
  induction ms with
  | nil => exact .refl
  | cons m ms ih => exact fun v => (Shift.onMbap env v m).trans (ih (v.onMbap env m))

theorem Shift.onTimer (env : ClientEnv) (v : Cli) : Shift v (v.onTimer env) := by
  unfold Cli.onTimer
  split
  · exact .refl v
  · split
    · exact .refl v
    · rename_i r hc
      rw [cancelCurrent_eq env v r _ hc]
      exact (Shift.finish v r _ hc).trans (.checkPending env _)

/-- What a call of `send_request` does. -/
theorem step_submit (env : ClientEnv) (v : Cli) (unit : UInt8) (q : AnyReq) (tmo : Nat) : ∃ new : List CTask,
    (new = [] ∨ new = [.request v.nextUid unit q tmo] ∨ new = [.malformed v.nextUid]) ∧
    v.step env (.submit unit q tmo) = .ret { v with log := v.log ++ [.call v.nextUid unit q tmo], nextUid := v.nextUid + 1, tasks := v.tasks ++ new } := by
  cases hs : v.isShutdown with
  | true => exact ⟨[], Or.inl rfl, by simp [Cli.step, Cli.emit, hs]⟩
  | false =>
    by_cases hq : isValid q.1 q.2 = true
    · exact ⟨_, Or.inr (Or.inl rfl), by simp [Cli.step, Cli.emit, hs, hq]⟩
    · exact ⟨_, Or.inr (Or.inr rfl), by simp [Cli.step, Cli.emit, hs, hq]⟩

theorem Shift.onError (env : ClientEnv) (v : Cli) : Shift v (v.onError env) := by
  have h0 : Shift v (v.emit .connError) := .of_same rfl rfl rfl rfl rfl rfl (fun _ h => h)
  rw [onError_eq]
  split
  · exact h0
  · have h1 : Shift v v.failed := by
      refine ⟨Nat.le_refl _, ⟨[], by simp, ?_, fun r hr => Or.inl ⟨hr, rfl⟩⟩, Nat.le_refl _, fun t ht => Or.inl ht⟩
      rw [List.append_nil]
      exact (List.Sublist.refl _).append (by simp [Cli.failed, Cli.cancelPending, Cli.emit, pendUids])
    split
    · exact h1
    · rename_i r hc
      exact (h1.trans (.finish _ r _ hc)).trans (.checkPending env _)

theorem Shift.step {env : ClientEnv} {v v' : Cli} {op : Op} (h : v.step env op = .ret v') (hs : v'.isShutdown = false) : Shift v v' := by
  cases op with
  | submit unit q tmo =>
    obtain ⟨new, hn, he⟩ := step_submit env v unit q tmo
    rw [he] at h
    injection h with h; subst h
    refine ⟨Nat.le_succ _, ⟨taskUids new, ?_, ?_, fun r hr => Or.inl ⟨hr, rfl⟩⟩, Nat.le_refl _, fun t ht => Or.inl ht⟩
    · rcases hn with rfl | rfl | rfl <;> simp [taskUids, CTask.uid?]
    · simp [line, curUids, pendUids, taskUids]
  | shutdown =>
    injection h with h; subst h
    refine ⟨Nat.le_refl _, ⟨[], by simp, ?_, fun r hr => Or.inl ⟨hr, rfl⟩⟩, Nat.le_refl _, fun t ht => Or.inl ht⟩
    simp [line, curUids, pendUids, taskUids, CTask.uid?]
  | createSession =>
    simp only [Cli.step] at h
    split at h <;> injection h with h <;> subst h <;> exact .of_same rfl rfl rfl rfl rfl rfl (fun _ h => h)
  | runTask =>
    simp only [Cli.step] at h
    split at h
    · injection h with h; subst h; exact .refl v
    · rename_i t ts ht
      injection h with h; subst h
      cases t with
      | request u unit q tmo =>
        simp only [Cli.runTask]
        split
        · rename_i hd
          simp only [Cli.runTask, hd, if_true] at hs
          cases hs
        · refine Shift.trans ?_ (.checkPending env _)
          refine ⟨Nat.le_refl _, ⟨[], by simp, ?_, fun r hr => Or.inl ⟨hr, rfl⟩⟩, Nat.le_refl _, fun t ht => Or.inl ht⟩
          simp [line, curUids, pendUids, ht, taskUids, CTask.uid?]
      | malformed u =>
        refine ⟨Nat.le_refl _, ⟨[], by simp, ?_, fun r hr => Or.inl ⟨hr, rfl⟩⟩, Nat.le_refl _, fun t ht => Or.inl ht⟩
        simp [line, curUids, pendUids, ht, taskUids, CTask.uid?, Cli.runTask, Cli.emit]
      | shutdown =>
        exfalso
        revert hs
        simp only [Cli.runTask]
        obtain ⟨f, hf⟩ := cancelTimer_eq { v with tasks := ts, isShutdown := true, log := v.log ++ v.sessions.map CEv.sessionShutdown, sessions := [], pending := [], current := none }
        rw [hf]
        simp [Cli.emit]
  | receive d =>
    simp only [Cli.step, Cli.onReceive] at h
    have h0 : Shift v (v.emit (.data d)) := .of_same rfl rfl rfl rfl rfl rfl (fun _ h => h)
    split at h
    · injection h with h; subst h; exact h0
    · rcases hp : (v.emit (.data d)).parser.parse d with _ | ⟨p, ms⟩
      · rw [hp] at h; cases h
      · rw [hp] at h
        injection h with h; subst h
        exact (h0.trans (v'' := { v.emit (.data d) with parser := p }) (.of_same rfl rfl rfl rfl rfl rfl (fun _ h => h))).trans (.onMbaps env ms _)
  | error => injection h with h; subst h; exact .onError env v
  | tick n => injection h with h; subst h; exact .of_same rfl rfl rfl rfl rfl rfl (fun _ h => h)
  | expire t =>
    simp only [Cli.step] at h
    split at h
    · injection h with h; subst h; exact .refl v
    · split at h
      · injection h with h; subst h
        refine .of_same rfl rfl rfl rfl rfl rfl ?_
        intro t ht
        obtain ⟨y, hy, rfl⟩ := List.mem_map.1 ht
        exact List.mem_map.2 ⟨y, (List.mem_filter.1 hy).1, rfl⟩
      · injection h with h; subst h; exact .refl v
  | runTimer t =>
    simp only [Cli.step] at h
    split at h
    · injection h with h; subst h
      exact Shift.trans (v' := { v with fired := v.fired.filter fun x => x ≠ t }) (.of_same rfl rfl rfl rfl rfl rfl (fun _ h => h)) (.onTimer env _)
    · injection h with h; subst h; exact .refl v

/-! ### Positions in the line -/

theorem idxOf_sublist {u : Nat} {l1 l2 : List Nat} (h : List.Sublist l1 l2) (hm : u ∈ l1) (hc : l2.count u ≤ 1) : l1.idxOf u ≤ l2.idxOf u := by
  induction h with
  | slnil => simp
  | @cons l1 l2 a h ih =>
    have hm2 := h.subset hm
    have hau : a ≠ u := by
      rintro rfl
      have := List.count_pos_iff.2 hm2
      simp at hc; omega
    rw [List.count_cons_of_ne hau] at hc
    rw [List.idxOf_cons_ne _ hau]
    exact Nat.le_succ_of_le (ih hm hc)
  | @cons_cons l1 l2 a h ih =>
    by_cases hau : a = u
    · subst hau; simp
    · rw [List.idxOf_cons_ne _ hau, List.idxOf_cons_ne _ hau]
      rw [List.count_cons_of_ne hau] at hc
      have := ih (by rcases List.mem_cons.1 hm with h | h
                     · exact absurd h.symm hau
                     · exact h) hc
      omega

theorem idxOf_append_new {u : Nat} {l l' new : List Nat} (h : List.Sublist l' (l ++ new)) (hm : u ∈ l') (hn : u ∉ new) (hc : l.count u ≤ 1) :
    l'.idxOf u ≤ l.idxOf u := by
  have h1 := idxOf_sublist h hm (by rw [List.count_append, List.count_eq_zero_of_not_mem hn]; omega)
  have hl : u ∈ l := by
    rcases List.mem_append.1 (h.subset hm) with h | h
    · exact h
    · exact absurd h hn
  rwa [List.idxOf_append_of_mem hl] at h1

theorem idxOf_tail_new {u : Nat} {l l' new : List Nat} (h : List.Sublist l' (l.tail ++ new)) (hm : u ∈ l') (hn : u ∉ new) (hc : l.count u ≤ 1) :
    l'.idxOf u < l.idxOf u := by
  cases l with
  | nil =>
    exfalso
    exact hn (by simpa using h.subset hm)
  | cons a l =>
    have hl : u ∈ l := by
      rcases List.mem_append.1 (h.subset hm) with h | h
      · exact h
      · exact absurd h hn
    have hau : a ≠ u := by
      rintro rfl
      have := List.count_pos_iff.2 hl
      simp at hc; omega
    rw [List.count_cons_of_ne hau] at hc
    rw [List.idxOf_cons_ne _ hau]
    exact Nat.lt_succ_of_le (idxOf_append_new h hm hn hc)

/-! ### Timeouts in the log -/

/-- The log grows, without timeouts. -/
def Quiet (v v' : Cli) : Prop := ∃ es, v'.log = v.log ++ es ∧ ∀ u now, CEv.handler u (.error .timeout) now ∉ es

theorem Quiet.trans {v v' v'' : Cli} (h : Quiet v v') (h' : Quiet v' v'') : Quiet v v'' := by
  obtain ⟨a, a1, a2⟩ := h
  obtain ⟨b, b1, b2⟩ := h'
  refine ⟨a ++ b, by rw [b1, a1, List.append_assoc], fun u now hm => ?_⟩
  rcases List.mem_append.1 hm with h | h
  · exact a2 u now h
  · exact b2 u now h

theorem Quiet.of_eq {v v' : Cli} (h : v'.log = v.log) : Quiet v v' := ⟨[], by simp [h], by simp⟩

theorem Quiet.one {v v' : Cli} {e : CEv} (h : v'.log = v.log ++ [e]) (he : ∀ u now, e ≠ .handler u (.error .timeout) now) : Quiet v v' :=
  ⟨[e], h, fun u now hm => he u now (List.mem_singleton.1 hm).symm⟩

theorem Quiet.checkPending (env : ClientEnv) (v : Cli) : Quiet v (v.checkPending env) := by
  unfold Cli.checkPending
  split
  · exact .of_eq rfl
  · split
    · exact .one rfl (by simp)
    · exact .of_eq rfl

theorem finish_log (v : Cli) (r : PendingReq) (x : Expected (List UInt8)) : (v.finish r x).log = v.log ++ [.handler r.uid x v.now] := by
  obtain ⟨f, hf⟩ := cancelTimer_eq { v.emit (.handler r.uid x v.now) with current := none }
  rw [Cli.finish, hf]; rfl

theorem Quiet.finish (v : Cli) (r : PendingReq) (x : Expected (List UInt8)) (hx : x ≠ .error .timeout) : Quiet v (v.finish r x) :=
  .one (finish_log v r x) (by intro u now h; injection h with _ h; exact hx h)

theorem Quiet.onMbap (env : ClientEnv) (v : Cli) (m : Mbap) : Quiet v (v.onMbap env m) := by
  have h0 : Quiet v (v.emit (.mbap m)) := .one rfl (by simp)
  rcases onMbap_eq env v m with ⟨h, -⟩ | ⟨r, -, hc, -, -, h⟩
  · rw [h]; exact h0
  · rw [h]; exact (h0.trans (.finish _ r _ (by simp))).trans (.checkPending env _)

theorem Quiet.onMbaps (env : ClientEnv) (ms : List Mbap) : ∀ v : Cli, Quiet v (v.onMbaps env ms) := by
  induction ms with
  | nil => exact fun v => .of_eq rfl
  | cons m ms ih => exact fun v => (Quiet.onMbap env v m).trans (ih (v.onMbap env m))

theorem Quiet.onError (env : ClientEnv) (v : Cli) : Quiet v (v.onError env) := by
  rw [onError_eq]
  split
  · exact .one rfl (by simp)
  · have h1 : Quiet v v.failed := by
      refine ⟨.connError :: v.pending.map fun r => .handler r.uid (.error .connection) v.now, ?_, ?_⟩
      · simp [Cli.failed, Cli.cancelPending, Cli.emit]
      · simp
    split
    · exact h1
    · exact (h1.trans (.finish _ _ _ (by simp))).trans (.checkPending env _)

/-- Only the run of a timer's callback reports timeouts. -/
theorem Quiet.step {env : ClientEnv} {v v' : Cli} {op : Op} (h : v.step env op = .ret v') (hop : ∀ t, op ≠ .runTimer t) : Quiet v v' := by
  cases op with
  | submit unit q tmo =>
    obtain ⟨new, hn, he⟩ := step_submit env v unit q tmo
    rw [he] at h
    injection h with h; subst h
    exact .one rfl (by simp)
  | shutdown => injection h with h; subst h; exact .of_eq rfl
  | createSession =>
    simp only [Cli.step] at h
    split at h <;> injection h with h <;> subst h <;> exact .one rfl (by simp)
  | runTask =>
    simp only [Cli.step] at h
    split at h
    · injection h with h; subst h; exact .of_eq rfl
    · rename_i t ts ht
      injection h with h; subst h
      cases t with
      | request u unit q tmo =>
        simp only [Cli.runTask]
        split
        · exact .of_eq rfl
        · exact Quiet.trans (.of_eq rfl) (.checkPending env _)
      | malformed u => exact .one rfl (by simp)
      | shutdown =>
        simp only [Cli.runTask]
        obtain ⟨f, hf⟩ := cancelTimer_eq { v with tasks := ts, isShutdown := true, log := v.log ++ v.sessions.map CEv.sessionShutdown, sessions := [], pending := [], current := none }
        rw [hf]
        refine ⟨v.sessions.map CEv.sessionShutdown ++ [.tcpShutdown], by simp [Cli.emit], by simp⟩
  | receive d =>
    simp only [Cli.step, Cli.onReceive] at h
    have h0 : Quiet v (v.emit (.data d)) := .one rfl (by simp)
    split at h
    · injection h with h; subst h; exact h0
    · rcases hp : (v.emit (.data d)).parser.parse d with _ | ⟨p, ms⟩
      · rw [hp] at h; cases h
      · rw [hp] at h
        injection h with h; subst h
        exact (h0.trans (v'' := { v.emit (.data d) with parser := p }) (.of_eq rfl)).trans (.onMbaps env ms _)
  | error => injection h with h; subst h; exact .onError env v
  | tick n => injection h with h; subst h; exact .of_eq rfl
  | expire t =>
    simp only [Cli.step] at h
    split at h
    · injection h with h; subst h; exact .of_eq rfl
    · split at h <;> injection h with h <;> subst h <;> exact .of_eq rfl
  | runTimer t => exact absurd rfl (hop t)

end Modbus.Cli
