import Verif.Lemmas.ClientTime
import Verif.Lemmas.Session
import Verif.Model.Polling

/-! What single steps of the channel and of a session do, as far as the other needs to know. -/

namespace Modbus

open Spec

/-- Effects of a step of the channel at time `now` that is not an API call and not the shutdown. -/
def CEv.inside (now : Nat) : CEv → Prop
  | .call .. => False
  | .session _ => False
  | .sessionShutdown _ => False
  | .tcpShutdown => False
  | .sent _ _ t => t = now
  | .handler _ _ t => t = now
  | _ => True

namespace Cli

/-- The log grows by effects of the present moment; sessions stay. -/
structure Steady (v v' : Cli) : Prop where
  log : ∃ es, v'.log = v.log ++ es ∧ ∀ e ∈ es, e.inside v.now
  now : v'.now = v.now
  sessions : v'.sessions = v.sessions
  nextSession : v'.nextSession = v.nextSession
  nextUid : v'.nextUid = v.nextUid
  isShutdown : v'.isShutdown = v.isShutdown

theorem Steady.trans {v v' v'' : Cli} (h : Steady v v') (h' : Steady v' v'') : Steady v v'' := by
  obtain ⟨a, a1, a2⟩ := h.log
  obtain ⟨b, b1, b2⟩ := h'.log
  refine ⟨⟨a ++ b, by rw [b1, a1, List.append_assoc], fun e he => ?_⟩, by rw [h'.now, h.now], by rw [h'.sessions, h.sessions],
    by rw [h'.nextSession, h.nextSession], by rw [h'.nextUid, h.nextUid], by rw [h'.isShutdown, h.isShutdown]⟩
  rcases List.mem_append.1 he with h1 | h1
  · exact a2 e h1
  · rw [← h.now]; exact b2 e h1

theorem Steady.same {v v' : Cli} (h : v'.log = v.log) (h1 : v'.now = v.now) (h2 : v'.sessions = v.sessions)
    (h3 : v'.nextSession = v.nextSession) (h4 : v'.nextUid = v.nextUid) (h5 : v'.isShutdown = v.isShutdown) : Steady v v' :=
  ⟨⟨[], by simp [h], by simp⟩, h1, h2, h3, h4, h5⟩

theorem Steady.one {v v' : Cli} (e : CEv) (h : v'.log = v.log ++ [e]) (he : e.inside v.now) (h1 : v'.now = v.now)
    (h2 : v'.sessions = v.sessions) (h3 : v'.nextSession = v.nextSession) (h4 : v'.nextUid = v.nextUid)
    (h5 : v'.isShutdown = v.isShutdown) : Steady v v' :=
  ⟨⟨[e], h, fun x hx => by rw [List.mem_singleton.1 hx]; exact he⟩, h1, h2, h3, h4, h5⟩

theorem Steady.checkPending (env : ClientEnv) (v : Cli) : Steady v (v.checkPending env) := by
  unfold Cli.checkPending
  split
  · exact .same rfl rfl rfl rfl rfl rfl
  · split
    · exact .one _ rfl rfl rfl rfl rfl rfl rfl
    · exact .same rfl rfl rfl rfl rfl rfl

theorem Steady.finish (v : Cli) (r : PendingReq) (x : Expected (List UInt8)) : Steady v (v.finish r x) := by
  obtain ⟨f, hf⟩ := cancelTimer_eq { v.emit (.handler r.uid x v.now) with current := none }
  rw [Cli.finish, hf]
  exact .one _ rfl rfl rfl rfl rfl rfl rfl

theorem Steady.onMbap (env : ClientEnv) (v : Cli) (m : Mbap) : Steady v (v.onMbap env m) := by
  have h0 : Steady v (v.emit (.mbap m)) := .one _ rfl trivial rfl rfl rfl rfl rfl
  rcases onMbap_eq env v m with ⟨h, -⟩ | ⟨r, -, hc, -, -, h⟩
  · rw [h]; exact h0
  · rw [h]; exact (h0.trans (.finish _ r _)).trans (.checkPending env _)

theorem Steady.onMbaps (env : ClientEnv) (ms : List Mbap) : ∀ v : Cli, Steady v (v.onMbaps env ms) := by
  induction ms with
  | nil => exact fun v => .same rfl rfl rfl rfl rfl rfl
  | cons m ms ih => exact fun v => (Steady.onMbap env v m).trans (ih (v.onMbap env m))

theorem Steady.onError (env : ClientEnv) (v : Cli) : Steady v (v.onError env) := by
  rw [onError_eq]
  split
  · exact .one _ rfl trivial rfl rfl rfl rfl rfl
  · have h1 : Steady v v.failed := by
      refine ⟨⟨.connError :: v.pending.map fun r => .handler r.uid (.error .connection) v.now, ?_, ?_⟩, rfl, rfl, rfl, rfl, rfl⟩
      · simp [Cli.failed, Cli.cancelPending, Cli.emit]
      · intro e he
        rcases List.mem_cons.1 he with rfl | he
        · trivial
        · obtain ⟨r, -, rfl⟩ := List.mem_map.1 he; rfl
    split
    · exact h1
    · exact (h1.trans (.finish _ _ _)).trans (.checkPending env _)

theorem Steady.onTimer (env : ClientEnv) (v : Cli) : Steady v (v.onTimer env) := by
  unfold Cli.onTimer
  split
  · exact .same rfl rfl rfl rfl rfl rfl
  · split
    · exact .same rfl rfl rfl rfl rfl rfl
    · rename_i r hc
      refine Steady.trans (v' := v.emit (.handler r.uid (.error .timeout) v.now)) (.one _ rfl rfl rfl rfl rfl rfl rfl) ?_
      unfold Cli.cancelCurrent
      split
      · exact .same rfl rfl rfl rfl rfl rfl
      · obtain ⟨f, hf⟩ := cancelTimer_eq { v.emit (.handler r.uid (.error .timeout) v.now) with current := none }
        rw [hf]
        exact Steady.trans (v' := { v.emit (.handler r.uid (.error .timeout) v.now) with current := none, armed := v.armed.filter f })
          (.same rfl rfl rfl rfl rfl rfl) (.checkPending env _)

/-- A step of the channel that is not an API call. -/
theorem own_step {env : ClientEnv} {v v' : Cli} {op : Op} (h : v.step env op = .ret v') (hop : Pcl.ownChan op = true) :
    Steady v v' ∨ (∃ ts, op = .runTask ∧ v.tasks = .shutdown :: ts ∧ v'.log = v.log ++ (v.sessions.map CEv.sessionShutdown ++ [.tcpShutdown]) ∧
      v'.now = v.now ∧ v'.sessions = [] ∧ v'.nextSession = v.nextSession ∧ v'.nextUid = v.nextUid ∧ v'.isShutdown = true) := by
  cases op with
  | submit unit q tmo => cases hop
  | createSession => cases hop
  | tick n => cases hop
  | shutdown => injection h with h; subst h; exact .inl (.same rfl rfl rfl rfl rfl rfl)
  | runTask =>
    simp only [Cli.step] at h
    split at h
    · injection h with h; subst h; exact .inl (.same rfl rfl rfl rfl rfl rfl)
    · rename_i t ts ht
      injection h with h; subst h
      cases t with
      | request u unit q tmo =>
        left
        simp only [Cli.runTask]
        split
        · exact .same rfl rfl rfl rfl rfl rfl
        · refine Steady.trans ?_ (.checkPending env _)
          exact .same rfl rfl rfl rfl rfl rfl
      | malformed u => exact .inl (.one _ rfl rfl rfl rfl rfl rfl rfl)
      | shutdown =>
        right
        simp only [Cli.runTask]
        obtain ⟨f, hf⟩ := cancelTimer_eq { v with tasks := ts, isShutdown := true, log := v.log ++ v.sessions.map CEv.sessionShutdown, sessions := [], pending := [], current := none }
        rw [hf]
        exact ⟨ts, trivial, ht, by simp [Cli.emit], rfl, rfl, rfl, rfl, rfl⟩
  | receive d =>
    left
    simp only [Cli.step, Cli.onReceive] at h
    have h0 : Steady v (v.emit (.data d)) := .one _ rfl trivial rfl rfl rfl rfl rfl
    split at h
    · injection h with h; subst h; exact h0
    · rcases hp : (v.emit (.data d)).parser.parse d with _ | ⟨p, ms⟩
      · rw [hp] at h; cases h
      · rw [hp] at h
        injection h with h; subst h
        exact (h0.trans (v'' := { v.emit (.data d) with parser := p }) (.same rfl rfl rfl rfl rfl rfl)).trans (.onMbaps env ms _)
  | error => injection h with h; subst h; exact .inl (.onError env v)
  | expire t =>
    left
    simp only [Cli.step] at h
    split at h
    · injection h with h; subst h; exact .same rfl rfl rfl rfl rfl rfl
    · split at h <;> injection h with h <;> subst h <;> exact .same rfl rfl rfl rfl rfl rfl
  | runTimer t =>
    left
    simp only [Cli.step] at h
    split at h
    · injection h with h; subst h
      refine Steady.trans ?_ (.onTimer env _)
      exact .same rfl rfl rfl rfl rfl rfl
    · injection h with h; subst h; exact .same rfl rfl rfl rfl rfl rfl

end Cli

/-! ### Sessions -/

/-- Effects of a session that the channel has nothing to do with. -/
def SessEv.calm : SessEv → Bool
  | .poll _ (.sent _ _) => false
  | .poll _ (.handled _ _) => false
  | .sent _ => false
  | .reported _ => false
  | _ => true

namespace Sess

/-- Steps that a polling client's sessions make apart from responses. -/
def plainOp : Op → Bool
  | .send => false
  | .report _ => false
  | .respond _ _ => false
  | _ => true

/-- There are no tasks of one-time requests (they go to the channel directly). -/
def NoSend (v : Sess) : Prop := ∀ id, SessTask.send id ∉ v.tasks

theorem onPoll_log {v : Sess} {i : Nat} {p : Poll} (h : v.polls[i]? = some p) (f : Poll → Poll) :
    (v.onPoll i f).log = v.log ++ ((f p).log.drop p.log.length).map (.poll i) := by
  unfold onPoll; rw [h]; rfl

theorem runTask_new (p : Poll) (t : PTask) : ∃ es, ((p.runTask t).log = p.log ++ es ∨ (p.runTask t).log = p.log ++ (es ++ [.sent p.nextId p.now])) ∧
    ∀ e ∈ es, e = PEv.started ∨ e = .stopped ∨ ∃ f, e = .frequency f := by
  cases t with
  | start =>
    simp only [Poll.runTask]
    split
    · exact ⟨[], .inl (by simp), by simp⟩
    · exact ⟨[.started], .inr (by simp [Poll.execute, Poll.emit]), by simp⟩
  | stop =>
    simp only [Poll.runTask]
    split
    · refine ⟨[.stopped], .inl ?_, by simp⟩
      rw [Poll.cancelTimer_log]; rfl
    · exact ⟨[.stopped], .inl rfl, by simp⟩
  | setFrequency f => exact ⟨[.frequency f], .inl rfl, by simp⟩

theorem calm_map {i : Nat} {es : List PEv} (h : ∀ e ∈ es, e = PEv.started ∨ e = .stopped ∨ ∃ f, e = .frequency f) :
    ∀ e ∈ es.map (SessEv.poll i), e.calm = true := by
  intro e he
  obtain ⟨x, hx, rfl⟩ := List.mem_map.1 he
  rcases h x hx with rfl | rfl | ⟨f, rfl⟩ <;> rfl

/-- What a step that is not a response adds to the log: nothing of interest, or as the last thing a request of one of the scheduled
requests. -/
theorem step_new (v : Sess) (hn : NoSend v) (op : Op) (ho : plainOp op = true) :
    (∃ es, (v.step op).log = v.log ++ es ∧ ∀ e ∈ es, e.calm = true) ∨
    (∃ es i p, v.polls[i]? = some p ∧ (v.step op).log = v.log ++ (es ++ [.poll i (.sent p.nextId p.now)]) ∧ ∀ e ∈ es, e.calm = true) := by
  have same : ∀ w : Sess, w.log = v.log → (∃ es, w.log = v.log ++ es ∧ ∀ e ∈ es, e.calm = true) ∨
    (∃ es i p, v.polls[i]? = some p ∧ w.log = v.log ++ (es ++ [.poll i (.sent p.nextId p.now)]) ∧ ∀ e ∈ es, e.calm = true) :=
    fun w hw => .inl ⟨[], by simp [hw], by simp⟩
  cases op with
  | send => cases ho
  | report id => cases ho
  | respond i id => cases ho
  | schedule f => exact same _ rfl
  | register i =>
    simp only [step]; split <;> exact same _ rfl
  | shutdown => exact same _ rfl
  | call i t =>
    simp only [step]; split <;> exact same _ rfl
  | tick n => exact same _ rfl
  | expire i t =>
    simp only [step]
    rcases hp : v.polls[i]? with _ | p
    · exact same _ (by unfold onPoll; rw [hp])
    · refine same _ ?_
      rw [onPoll_log hp]
      have : (p.step (.expire t)).log = p.log := by
        simp only [Poll.step]
        split
        · rfl
        · split <;> rfl
      rw [this]; simp
  | runTimer i t =>
    simp only [step]
    rcases hp : v.polls[i]? with _ | p
    · exact same _ (by unfold onPoll; rw [hp])
    · rw [onPoll_log hp]
      simp only [Poll.step]
      split
      · refine .inr ⟨[], i, p, hp, ?_, by simp⟩
        simp [Poll.execute, Poll.emit]
      · exact .inl ⟨[], by simp, by simp⟩
  | runTask =>
    simp only [step]
    split
    · exact same _ rfl
    · rename_i t ts ht
      cases t with
      | send id => exact absurd (by rw [ht]; exact .head _) (hn id)
      | register i => exact same _ rfl
      | shutdown => exact .inl ⟨[.down], rfl, by simp [SessEv.calm]⟩
      | poll i t =>
        simp only [runTask]
        rcases hp : v.polls[i]? with _ | p
        · exact same _ (by unfold onPoll; simp only [hp])
        · rw [onPoll_log (v := { v with tasks := ts }) hp]
          obtain ⟨es, h1, h2⟩ := runTask_new p t
          rcases h1 with h1 | h1
          · exact .inl ⟨es.map (.poll i), by rw [h1]; simp, calm_map h2⟩
          · exact .inr ⟨es.map (.poll i), i, p, hp, by rw [h1]; simp, calm_map h2⟩

theorem respond_new {v : Sess} {i id : Nat} {p : Poll} (hp : v.polls[i]? = some p) (hid : id ∈ p.inFlight) :
    (v.step (.respond i id)).log = v.log ++ [.poll i (.handled id p.now)] := by
  simp only [step]
  rw [onPoll_log hp]
  simp only [Poll.step, if_pos hid, (Poll.onResponse_loops p id hid).2]
  simp

theorem NoSend.step {v : Sess} (h : NoSend v) (op : Op) (ho : op ≠ .send) : NoSend (v.step op) := by
  intro id hm
  by_cases hr : op = .runTask
  · subst hr
    simp only [Sess.step] at hm
    split at hm
    · exact h id hm
    · rename_i t ts ht
      have h1 : SessTask.send id ∉ ts := fun hh => h id (by rw [ht]; exact .tail _ hh)
      cases t with
      | send j => exact h1 hm
      | register j => exact h1 hm
      | poll j t => simp only [Sess.runTask, onPoll_tasks] at hm; exact h1 hm
      | shutdown =>
        simp only [Sess.runTask, Sess.emit, List.mem_append, List.mem_map] at hm
        rcases hm with hm | ⟨x, -, hx⟩
        · exact h1 hm
        · cases hx
  · cases op with
    | send => exact ho rfl
    | runTask => exact hr rfl
    | schedule f =>
      simp only [Sess.step, List.mem_append, List.mem_singleton] at hm
      rcases hm with hm | hm
      · exact h id hm
      · cases hm
    | register j =>
      simp only [Sess.step] at hm
      split at hm
      · simp only [List.mem_append, List.mem_singleton] at hm
        rcases hm with hm | hm
        · exact h id hm
        · cases hm
      · exact h id hm
    | shutdown =>
      simp only [Sess.step, List.mem_append, List.mem_singleton] at hm
      rcases hm with hm | hm
      · exact h id hm
      · cases hm
    | call j t =>
      simp only [Sess.step] at hm
      split at hm
      · simp only [List.mem_append, List.mem_singleton] at hm
        rcases hm with hm | hm
        · exact h id hm
        · cases hm
      · exact h id hm
    | report j =>
      simp only [Sess.step] at hm
      split at hm <;> exact h id hm
    | respond j k => simp only [Sess.step, onPoll_tasks] at hm; exact h id hm
    | tick n => exact h id hm
    | expire j t => simp only [Sess.step, onPoll_tasks] at hm; exact h id hm
    | runTimer j t => simp only [Sess.step, onPoll_tasks] at hm; exact h id hm

/-! ### Time -/

/-- The scheduled requests' clocks show the session's time. -/
def Timed (v : Sess) : Prop := ∀ p ∈ v.polls, p.now = v.now

theorem poll_runTask_now (p : Poll) (t : PTask) : (p.runTask t).now = p.now := by
  cases t with
  | start => simp only [Poll.runTask]; split <;> rfl
  | stop =>
    simp only [Poll.runTask]
    split
    · unfold Poll.cancelTimer; split <;> rfl
    · rfl
  | setFrequency f => rfl

theorem poll_step_now (p : Poll) (op : Poll.Op) (h : ∀ n, op ≠ .tick n) : (p.step op).now = p.now := by
  cases op with
  | tick n => exact absurd rfl (h n)
  | start => rfl
  | stop => rfl
  | setFrequency f => rfl
  | runTask =>
    simp only [Poll.step]
    split
    · rfl
    · exact poll_runTask_now _ _
  | respond id =>
    simp only [Poll.step]
    split
    · simp only [Poll.onResponse]; split <;> rfl
    · rfl
  | expire t =>
    simp only [Poll.step]
    split
    · rfl
    · split <;> rfl
  | runTimer t => simp only [Poll.step]; split <;> rfl

theorem onPoll_now (v : Sess) (i : Nat) (f : Poll → Poll) : (v.onPoll i f).now = v.now := by
  unfold onPoll; split <;> rfl

theorem Timed.onPoll {v : Sess} (h : Timed v) (i : Nat) (f : Poll → Poll) (hf : ∀ p, (f p).now = p.now) : Timed (v.onPoll i f) := by
  unfold Sess.onPoll
  split
  · exact h
  · rename_i p hp
    intro q hq
    rcases List.mem_or_eq_of_mem_set hq with hq | rfl
    · exact h q hq
    · rw [hf]; exact h p (List.mem_of_getElem? hp)

theorem Timed.step {v : Sess} (h : Timed v) (op : Op) : Timed (v.step op) := by
  cases op with
  | send => exact h
  | schedule f =>
    intro p hp
    simp only [Sess.step, List.mem_append, List.mem_singleton] at hp
    rcases hp with hp | rfl
    · exact h p hp
    · rfl
  | register i => simp only [Sess.step]; split <;> exact h
  | shutdown => exact h
  | call i t => simp only [Sess.step]; split <;> exact h
  | report id => simp only [Sess.step]; split <;> exact h
  | respond i id => exact h.onPoll _ _ fun p => poll_step_now p _ (by simp)
  | tick n =>
    intro p hp
    simp only [Sess.step, List.mem_map] at hp
    obtain ⟨q, hq, rfl⟩ := hp
    show q.now + n = v.now + n
    rw [h q hq]
  | expire i t => exact h.onPoll _ _ fun p => poll_step_now p _ (by simp)
  | runTimer i t => exact h.onPoll _ _ fun p => poll_step_now p _ (by simp)
  | runTask =>
    simp only [Sess.step]
    split
    · exact h
    · rename_i t ts ht
      cases t with
      | send id => exact h
      | register i => exact h
      | shutdown => exact h
      | poll i t => exact Timed.onPoll (v := { v with tasks := ts }) h _ _ fun p => poll_runTask_now p t

/-- Only the passing of time changes the time. -/
theorem step_now (v : Sess) (op : Op) : (v.step op).now = match op with
    | .tick n => v.now + n
    | _ => v.now := by
  cases op with
  | runTask =>
    simp only [Sess.step]
    split
    · rfl
    · rename_i t ts ht
      cases t with
      | poll i t => exact onPoll_now _ _ _
      | _ => rfl
  | register i => simp only [Sess.step]; split <;> rfl
  | call i t => simp only [Sess.step]; split <;> rfl
  | report id => simp only [Sess.step]; split <;> rfl
  | respond i id => exact onPoll_now _ _ _
  | expire i t => exact onPoll_now _ _ _
  | runTimer i t => exact onPoll_now _ _ _
  | _ => rfl

/-- Only `schedule` makes scheduled requests. -/
theorem step_length (v : Sess) (op : Op) : (v.step op).polls.length = match op with
    | .schedule _ => v.polls.length + 1
    | _ => v.polls.length := by
  cases op with
  | runTask =>
    simp only [Sess.step]
    split
    · rfl
    · rename_i t ts ht
      cases t with
      | poll i t => exact onPoll_length _ _ _
      | _ => rfl
  | register i => simp only [Sess.step]; split <;> rfl
  | call i t => simp only [Sess.step]; split <;> rfl
  | report id => simp only [Sess.step]; split <;> rfl
  | respond i id => exact onPoll_length _ _ _
  | expire i t => exact onPoll_length _ _ _
  | runTimer i t => exact onPoll_length _ _ _
  | tick n => simp [Sess.step]
  | schedule f => simp [Sess.step]
  | _ => rfl

/-! ### Histories of a session without one-time requests -/

/-- A state of a session that gives its one-time requests to the channel directly. -/
def Lives (v : Sess) : Prop := ∃ ops, v = Sess.init.run ops ∧ Op.send ∉ ops

theorem Lives.step {v : Sess} (h : Lives v) (op : Op) (ho : op ≠ .send) : Lives (v.step op) := by
  obtain ⟨ops, rfl, hn⟩ := h
  refine ⟨ops ++ [op], by simp [run], fun hm => ?_⟩
  rcases List.mem_append.1 hm with hm | hm
  · exact hn hm
  · exact ho (List.mem_singleton.1 hm).symm

theorem Lives.noSend {v : Sess} (h : Lives v) : NoSend v := by
  obtain ⟨ops, rfl, hn⟩ := h
  induction ops using List.reverseRecOn with
  | nil => intro id hm; cases hm
  | append_singleton ops op ih =>
    rw [run_append]
    refine NoSend.step (ih fun hm => hn (List.mem_append_left _ hm)) op fun he => hn ?_
    rw [he]; simp

theorem Lives.timed {v : Sess} (h : Lives v) : Timed v := by
  obtain ⟨ops, rfl, -⟩ := h
  induction ops using List.reverseRecOn with
  | nil => intro id hm; cases hm
  | append_singleton ops op ih => rw [run_append]; exact ih.step op

theorem Lives.good {v : Sess} (h : Lives v) : Good v := by
  obtain ⟨ops, rfl, -⟩ := h
  exact good_run ops

/-- A scheduled request of such a session, on its own. -/
theorem Lives.poll {v : Sess} (h : Lives v) {i : Nat} {p : Poll} (hp : v.polls[i]? = some p) :
    ∃ f pops, p.withTasks (tasksOf i v.tasks) = (Poll.init f).run pops := by
  obtain ⟨ops, rfl, -⟩ := h
  obtain ⟨f, pops, hv⟩ := view_reach ops i (List.getElem?_eq_some_iff.1 hp).1
  refine ⟨f, pops, ?_⟩
  simp only [view, hp, Option.map_some, Option.some.injEq] at hv
  exact hv

/-- What a scheduled request has in flight, in terms of what happened. -/
theorem Lives.inFlight {v : Sess} (h : Lives v) {i : Nat} {p : Poll} (hp : v.polls[i]? = some p) (id : Nat) :
    id ∈ p.inFlight ↔ id ∈ pollsSent (effectsOf i v.log) ∧ id ∉ pollsHandled (effectsOf i v.log) := by
  obtain ⟨f, pops, hv⟩ := h.poll hp
  have hc := (Poll.core_run f pops).1
  rw [← hv] at hc
  rw [h.good.effects i p hp]
  have h1 : pollsSent p.log = List.range p.nextId := hc.sentIds
  have h2 : (id < p.nextId → (pollsHandled p.log).count id + p.inFlight.count id = 1) ∧
    (p.nextId ≤ id → (pollsHandled p.log).count id + p.inFlight.count id = 0) := hc.once id
  rw [h1, List.mem_range, ← List.count_pos_iff, ← List.count_eq_zero]
  constructor
  · intro h3
    rcases Nat.lt_or_ge id p.nextId with h4 | h4
    · have := h2.1 h4; exact ⟨h4, by omega⟩
    · have := h2.2 h4; omega
  · rintro ⟨h3, h4⟩
    have := h2.1 h3; omega

/-- The next request's number is new. -/
theorem Lives.nextId {v : Sess} (h : Lives v) {i : Nat} {p : Poll} (hp : v.polls[i]? = some p) :
    p.nextId ∉ pollsSent (effectsOf i v.log) := by
  obtain ⟨f, pops, hv⟩ := h.poll hp
  have hc := (Poll.core_run f pops).1
  rw [← hv] at hc
  rw [h.good.effects i p hp, show pollsSent p.log = List.range p.nextId from hc.sentIds, List.mem_range]
  exact Nat.lt_irrefl _

end Sess

end Modbus
