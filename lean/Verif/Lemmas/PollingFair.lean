import Verif.Lemmas.PollingLive
import Mathlib.Data.Nat.Pairing

/-! Fair executions exist. -/

namespace Modbus

open Spec

namespace Cli

/-- Posted tasks and queued expiries stay as they are. -/
structure Still (v v' : Cli) : Prop where
  tasks : v'.tasks = v.tasks
  fired : v'.fired = v.fired

theorem Still.refl (v : Cli) : Still v v := ⟨rfl, rfl⟩

theorem Still.trans {a b c : Cli} (h : Still a b) (h' : Still b c) : Still a c := ⟨h'.tasks.trans h.tasks, h'.fired.trans h.fired⟩

theorem Still.checkPending (env : ClientEnv) (v : Cli) : Still v (v.checkPending env) := by
  unfold Cli.checkPending
  split
  · exact .refl v
  · split <;> exact ⟨rfl, rfl⟩

theorem Still.cancelTimer (v : Cli) : Still v v.cancelTimer := by
  unfold Cli.cancelTimer
  split <;> exact ⟨rfl, rfl⟩

theorem Still.cancelCurrent (env : ClientEnv) (v : Cli) : Still v (v.cancelCurrent env) := by
  unfold Cli.cancelCurrent
  split
  · exact .refl v
  · refine Still.trans ?_ (.checkPending env _)
    exact Still.trans (b := { v with current := none }) ⟨rfl, rfl⟩ (.cancelTimer _)

theorem Still.onTimer (env : ClientEnv) (v : Cli) : Still v (v.onTimer env) := by
  unfold Cli.onTimer
  split
  · exact .refl v
  · split
    · exact .refl v
    · exact Still.trans (b := v.emit _) ⟨rfl, rfl⟩ (.cancelCurrent env _)

theorem Still.onError (env : ClientEnv) (v : Cli) : Still v (v.onError env) := by
  unfold Cli.onError
  simp only
  split
  · exact ⟨rfl, rfl⟩
  · split
    · exact ⟨rfl, rfl⟩
    · refine Still.trans ?_ (.cancelCurrent env _)
      exact ⟨rfl, rfl⟩

theorem Still.onMbap (env : ClientEnv) (v : Cli) (m : Mbap) : Still v (v.onMbap env m) := by
  unfold Cli.onMbap
  simp only
  split
  · exact ⟨rfl, rfl⟩
  · split
    · split
      · refine Still.trans ?_ (.checkPending env _)
        exact Still.trans (b := v.emit (.mbap m)) ⟨rfl, rfl⟩ (Still.trans (.cancelTimer _) ⟨rfl, rfl⟩)
      · exact ⟨rfl, rfl⟩
    · exact ⟨rfl, rfl⟩

theorem Still.onMbaps (env : ClientEnv) (ms : List Mbap) : ∀ v : Cli, Still v (v.onMbaps env ms) := by
  induction ms with
  | nil => intro v; exact .refl v
  | cons m ms ih => intro v; exact (Still.onMbap env v m).trans (ih _)

/-- Unless `shutdown` is called, no step posts it. -/
theorem step_noShutdown {env : ClientEnv} {v v' : Cli} {op : Op} (h : v.step env op = .ret v') (ho : op ≠ .shutdown) (hn : CTask.shutdown ∉ v.tasks) :
    CTask.shutdown ∉ v'.tasks := by
  cases op with
  | shutdown => exact absurd rfl ho
  | submit unit q tmo =>
    simp only [Cli.step] at h
    split at h
    · injection h with h; subst h; exact hn
    · split at h <;> injection h with h <;> subst h <;> simpa [Cli.emit] using hn
  | createSession =>
    simp only [Cli.step] at h
    split at h <;> injection h with h <;> subst h <;> exact hn
  | runTask =>
    simp only [Cli.step] at h
    split at h
    · injection h with h; subst h; exact hn
    · rename_i t ts ht
      injection h with h; subst h
      rw [ht] at hn
      have hn' : CTask.shutdown ∉ ts := fun hm => hn (.tail _ hm)
      cases t with
      | request u unit q tmo =>
        simp only [Cli.runTask]
        split
        · exact hn'
        · rw [(Still.checkPending env _).tasks]; exact hn'
      | malformed u => exact hn'
      | shutdown => exact absurd (.head _) hn
  | receive d =>
    simp only [Cli.step, Cli.onReceive] at h
    split at h
    · injection h with h; subst h; exact hn
    · obtain ⟨⟨p, ms⟩, h1, h2⟩ : ∃ x, v.parser.parse d = .ret x ∧ (CM.ret ({ v.emit (.data d) with parser := x.1 }.onMbaps env x.2)) = .ret v' := by
        cases hx : (v.emit (.data d)).parser.parse d with
        | ub => rw [hx] at h; cases h
        | ret x => rw [hx] at h; exact ⟨x, hx, h⟩
      injection h2 with h2; subst h2
      rw [(Still.onMbaps env ms _).tasks]; exact hn
  | error => injection h with h; subst h; rw [(Still.onError env v).tasks]; exact hn
  | tick n => injection h with h; subst h; exact hn
  | expire t =>
    simp only [Cli.step] at h
    split at h
    · injection h with h; subst h; exact hn
    · split at h <;> injection h with h <;> subst h <;> exact hn
  | runTimer t =>
    simp only [Cli.step] at h
    split at h
    · injection h with h; subst h; rw [(Still.onTimer env _).tasks]; exact hn
    · injection h with h; subst h; exact hn

/-- What the log grows by while no shutdown is posted. -/
theorem step_log {env : ClientEnv} {v v' : Cli} {op : Op} (h : v.step env op = .ret v') (hn : CTask.shutdown ∉ v.tasks) :
    ∃ es, v'.log = v.log ++ es ∧ ∀ e ∈ es, e ≠ .tcpShutdown ∧ ∀ s, e ≠ .sessionShutdown s := by
  by_cases ho : Pcl.ownChan op = true
  · rcases own_step h ho with hs | ⟨ts, -, ht, -⟩
    · obtain ⟨es, h1, h2⟩ := hs.log
      refine ⟨es, h1, fun e he => ⟨?_, ?_⟩⟩
      · rintro rfl; exact h2 _ he
      · rintro s rfl; exact h2 _ he
    · rw [ht] at hn; exact absurd (.head _) hn
  · cases op with
    | submit unit q tmo =>
      simp only [Cli.step] at h
      split at h
      · injection h with h; subst h; exact ⟨_, rfl, by simp⟩
      · split at h <;> injection h with h <;> subst h <;> exact ⟨_, rfl, by simp⟩
    | createSession =>
      simp only [Cli.step] at h
      split at h <;> injection h with h <;> subst h <;> exact ⟨_, rfl, by simp⟩
    | tick n => injection h with h; subst h; exact ⟨[], by simp, by simp⟩
    | _ => exact absurd rfl ho

end Cli

namespace Sess

/-- No shutdown and no stop is or will be on its way. -/
structure Smooth (v : Sess) : Prop where
  down : SessTask.shutdown ∉ v.tasks
  stop : ∀ i, SessTask.poll i .stop ∉ v.tasks
  log : ∀ i, SessEv.poll i .stopped ∉ v.log

theorem onPoll_log' (v : Sess) (j : Nat) (f : Poll → Poll) : ∃ es, (v.onPoll j f).log = v.log ++ es ∧
    ∀ e ∈ es, ∃ q, v.polls[j]? = some q ∧ ∃ x, e = .poll j x ∧ x ∈ (f q).log.drop q.log.length := by
  unfold onPoll
  split
  · exact ⟨[], by simp, by simp⟩
  · rename_i q hq
    refine ⟨_, rfl, fun e he => ⟨q, hq, ?_⟩⟩
    obtain ⟨x, hx, rfl⟩ := List.mem_map.1 he
    exact ⟨x, rfl, hx⟩

theorem Smooth.onPoll {v : Sess} (h : Smooth v) (j : Nat) (f : Poll → Poll) (hf : ∀ q, ∃ es, (f q).log = q.log ++ es ∧ PEv.stopped ∉ es) :
    Smooth (v.onPoll j f) := by
  refine ⟨by rw [onPoll_tasks]; exact h.down, by rw [onPoll_tasks]; exact h.stop, fun i hm => ?_⟩
  obtain ⟨es, h1, h2⟩ := v.onPoll_log' j f
  rw [h1] at hm
  rcases List.mem_append.1 hm with hm | hm
  · exact h.log i hm
  · obtain ⟨q, -, x, hx, hd⟩ := h2 _ hm
    injection hx with _ hx; subst hx
    obtain ⟨es', h3, h4⟩ := hf q
    rw [h3, List.drop_left] at hd
    exact h4 hd

theorem Smooth.step {v : Sess} (h : Smooth v) (op : Op) (h1 : op ≠ .shutdown) (h2 : ∀ i, op ≠ .call i .stop) : Smooth (v.step op) := by
  cases op with
  | send => exact ⟨by simp only [Sess.step]; simpa using h.down, by simp only [Sess.step]; simpa using h.stop, h.log⟩
  | schedule f => exact ⟨by simp only [Sess.step]; simpa using h.down, by simp only [Sess.step]; simpa using h.stop, h.log⟩
  | register j =>
    simp only [Sess.step]
    split
    · exact ⟨by simpa using h.down, by simpa using h.stop, h.log⟩
    · exact h
  | shutdown => exact absurd rfl h1
  | call j t =>
    simp only [Sess.step]
    split
    · refine ⟨by simpa using h.down, fun i hm => ?_, h.log⟩
      rcases List.mem_append.1 hm with hm | hm
      · exact h.stop i hm
      · simp only [List.mem_singleton, SessTask.poll.injEq] at hm
        exact h2 j (by rw [hm.2])
    · exact h
  | runTask =>
    simp only [Sess.step]
    split
    · exact h
    · rename_i t ts ht
      have h' : Smooth { v with tasks := ts } :=
        ⟨fun hm => h.down (by rw [ht]; exact .tail _ hm), fun i hm => h.stop i (by rw [ht]; exact .tail _ hm), h.log⟩
      cases t with
      | send id => exact ⟨h'.down, h'.stop, fun i => by simpa [Sess.runTask, emit] using h.log i⟩
      | poll j t =>
        cases t with
        | stop => exact absurd (by rw [ht]; exact .head _) (h.stop j)
        | start =>
          refine h'.onPoll j _ fun q => ?_
          simp only [Poll.runTask]
          split
          · exact ⟨[], by simp, by simp⟩
          · exact ⟨[.started, .sent q.nextId q.now], by simp [Poll.execute, Poll.emit], by simp⟩
        | setFrequency f => exact h'.onPoll j _ fun q => ⟨[.frequency f], rfl, by simp⟩
      | register j => exact ⟨h'.down, h'.stop, h'.log⟩
      | shutdown => exact absurd (by rw [ht]; exact .head _) h.down
  | report id =>
    simp only [Sess.step]
    split
    · exact ⟨h.down, h.stop, fun i => by simpa [emit] using h.log i⟩
    · exact h
  | respond j id =>
    refine h.onPoll j _ fun q => ?_
    simp only [Poll.step]
    split
    · refine ⟨[.handled id q.now], ?_, by simp⟩
      cases hr : q.running <;> simp [Poll.onResponse, Poll.emit, hr]
    · exact ⟨[], by simp, by simp⟩
  | tick n => exact ⟨h.down, h.stop, h.log⟩
  | expire j t =>
    refine h.onPoll j _ fun q => ?_
    simp only [Poll.step]
    split
    · exact ⟨[], by simp, by simp⟩
    · split <;> exact ⟨[], by simp, by simp⟩
  | runTimer j t =>
    refine h.onPoll j _ fun q => ?_
    simp only [Poll.step]
    split
    · exact ⟨[.sent q.nextId q.now], rfl, by simp⟩
    · exact ⟨[], by simp, by simp⟩

theorem Smooth.run (ops : List Op) : ∀ {v : Sess}, Smooth v → (∀ op ∈ ops, op ≠ .shutdown ∧ ∀ i, op ≠ .call i .stop) → Smooth (v.run ops) := by
  induction ops with
  | nil => intro v h _; exact h
  | cons op ops ih =>
    intro v h hn
    exact ih (h.step op (hn op (.head _)).1 (hn op (.head _)).2) fun o ho => hn o (.tail _ ho)

end Sess

/-- The client goes on undisturbed: no shutdown, no stop has happened or is on its way. -/
structure Undisturbed (v : Pcl) : Prop where
  tasks : CTask.shutdown ∉ v.cli.tasks
  log : LEv.ch .tcpShutdown ∉ v.log
  sess : ∀ (s : Nat) (p : PSess), v.sess[s]? = some p → p.sess.Smooth

/-- The user does not shut down and does not stop. -/
def Pcl.Op.gentle : Pcl.Op → Bool
  | .chan .shutdown => false
  | .api _ .shutdown => false
  | .api _ (.call _ .stop) => false
  | _ => true

theorem Undisturbed.step {env : ClientEnv} {v w : Pcl} (h : Undisturbed v) (hi : PInv env [] v) {op : Pcl.Op} {new : List LEv} (hs : Stepped env v w op new)
    (hg : op.gentle = true) : Undisturbed w := by
  obtain ⟨cop, hc, -, hne⟩ := hs.chan
  obtain ⟨es, he, hes⟩ := Cli.step_log hc h.tasks
  have hnew : ofChannel new = es := by
    have h1 := hs.inv.chan
    rw [List.append_nil, hs.follows.log, ofChannel_append, he, hi.chan, List.append_nil] at h1
    exact (List.append_cancel_left h1).symm
  have hno : ∀ e, LEv.ch e ∈ new → e ≠ .tcpShutdown ∧ ∀ s, e ≠ .sessionShutdown s := by
    intro e hm
    exact hes e (by rw [← hnew]; exact mem_ofChannel.2 hm)
  refine ⟨Cli.step_noShutdown hc (fun hx => by rw [hne (by rw [hx]; rfl), hx] at hg; cases hg) h.tasks, ?_, fun s p hp => ?_⟩
  · rw [hs.follows.log]
    intro hm
    rcases List.mem_append.1 hm with hm | hm
    · exact h.log hm
    · exact (hno _ hm).1 rfl
  · cases hq : v.sess[s]? with
    | none =>
      rw [(hs.opened s p hq hp).1]
      exact ⟨by simp [Sess.step, Sess.init], by simp [Sess.step, Sess.init], by simp [Sess.step, Sess.init]⟩
    | some q =>
      obtain ⟨p', hp', hmv⟩ := hs.follows.sess s q hq
      rw [hp] at hp'; injection hp' with hp'; subst hp'
      obtain ⟨sops, h1, h2, -⟩ := hmv.ops
      rw [h1]
      refine (h.sess s q hq).run sops fun o ho => ⟨?_, ?_⟩
      · rintro rfl
        rcases h2 _ ho with h3 | h3
        · rw [(hs.calls _ _ h3).1] at hg; cases hg
        · exact (hno _ h3).2 s rfl
      · rintro i rfl
        rw [(hs.calls _ _ (h2 _ ho)).1] at hg; cases hg

/-! The scheduler: it lets so much time pass that all timers are due, then does one of the things it can do, in turns. -/

/-- The things it does. -/
def schedOp (c : Nat) : Pcl.Op :=
  match c.unpair.1 with
  | 0 => .chan .runTask
  | 1 => .chan (.expire c.unpair.2)
  | 2 => .chan (.runTimer c.unpair.2)
  | 3 => .sess c.unpair.2 .runTask
  | 4 => .sess c.unpair.2.unpair.1 (.expire c.unpair.2.unpair.2.unpair.1 c.unpair.2.unpair.2.unpair.2)
  | _ => .sess c.unpair.2.unpair.1 (.runTimer c.unpair.2.unpair.2.unpair.1 c.unpair.2.unpair.2.unpair.2)

/-- All deadlines added up. -/
def longTime (v : Pcl) : Nat :=
  (v.cli.armed.map (·.2)).sum + (v.sess.map fun p => (p.sess.polls.map fun q => (q.armed.map (·.2)).sum).sum).sum

def schedChoice (n : Nat) (v : Pcl) : Pcl.Op :=
  if n % 2 = 0 then .tick (longTime v) else schedOp (n / 2).unpair.1

theorem schedOp_gentle (c : Nat) : (schedOp c).gentle = true := by
  unfold schedOp
  split <;> rfl

theorem schedChoice_gentle (n : Nat) (v : Pcl) : (schedChoice n v).gentle = true := by
  unfold schedChoice
  split
  · rfl
  · exact schedOp_gentle _

/-- Everything gets its turn, again and again, after all timers have become due. -/
theorem sched_turn (c n : Nat) : ∃ m, n ≤ m ∧ (∀ v, schedChoice m v = .tick (longTime v)) ∧ ∀ v, schedChoice (m + 1) v = schedOp c := by
  refine ⟨2 * Nat.pair c n, ?_, fun v => ?_, fun v => ?_⟩
  · have := Nat.right_le_pair c n; omega
  · simp [schedChoice]
  · have h1 : (2 * Nat.pair c n + 1) % 2 = 1 := by omega
    have h2 : (2 * Nat.pair c n + 1) / 2 = Nat.pair c n := by omega
    simp [schedChoice, h1, h2]

theorem le_sum_of_mem {l : List Nat} {x : Nat} (h : x ∈ l) : x ≤ l.sum := by
  induction l with
  | nil => cases h
  | cons y ys ih =>
    rw [List.sum_cons]
    cases h with
    | head => omega
    | tail _ h => have := ih h; omega

theorem longTime_chan (v : Pcl) {t d : Nat} (h : (t, d) ∈ v.cli.armed) : d ≤ longTime v := by
  have := le_sum_of_mem (List.mem_map_of_mem (f := (·.2)) h)
  unfold longTime
  simp only at this
  omega

theorem longTime_poll (v : Pcl) {s i t d : Nat} {p : PSess} {q : Poll} (hp : v.sess[s]? = some p) (hq : p.sess.polls[i]? = some q)
    (h : (t, d) ∈ q.armed) : d ≤ longTime v := by
  have h1 := le_sum_of_mem (List.mem_map_of_mem (f := (·.2)) h)
  have h2 := le_sum_of_mem (List.mem_map_of_mem (f := fun q : Poll => (q.armed.map (·.2)).sum) (List.mem_of_getElem? hq))
  have h3 := le_sum_of_mem (List.mem_map_of_mem (f := fun p : PSess => (p.sess.polls.map fun q => (q.armed.map (·.2)).sum).sum) (List.mem_of_getElem? hp))
  unfold longTime
  simp only at h1 h2 h3
  omega

theorem not_mem_filter_fst (l : List (Nat × Nat)) (t : Nat) : t ∉ (l.filter fun x => x.1 ≠ t).map (·.1) := by
  intro h
  obtain ⟨x, hx, rfl⟩ := List.mem_map.1 h
  simp at hx

theorem lookup_none_iff (l : List (Nat × Nat)) (t : Nat) (h : l.lookup t = none) : t ∉ l.map (·.1) := by
  intro hm
  induction l with
  | nil => cases hm
  | cons x xs ih =>
    obtain ⟨a, b⟩ := x
    simp only [List.lookup] at h
    by_cases he : t = a
    · subst he; simp at h
    · have : (t == a) = false := by simpa using he
      rw [this] at h
      simp only [List.map_cons, List.mem_cons] at hm
      exact ih h (hm.resolve_left he)

end Modbus
