import Verif.Props.Session

/-! C61, C72: calls on scheduled requests and sessions take effect when their turn comes. -/

namespace Modbus.Props

open Modbus.Spec

/-! ### Scheduled requests -/

/-- The number of tasks a history runs. -/
def pollRuns (ops : List Poll.Op) : Nat := ops.countP fun op => match op with
  | .runTask => true
  | _ => false

theorem Poll_tasks_step (v : Poll) (op : Poll.Op) (h : ∀ _ : op = .runTask, False) : ∃ ts, (v.step op).tasks = v.tasks ++ ts := by
  cases op with
  | start => exact ⟨_, rfl⟩
  | stop => exact ⟨_, rfl⟩
  | setFrequency f => exact ⟨_, rfl⟩
  | runTask => exact (h rfl).elim
  | respond id =>
    simp only [Poll.step]; split
    · simp only [Poll.onResponse]; split <;> exact ⟨[], by simp [Poll.emit]⟩
    · exact ⟨[], by simp⟩
  | tick n => exact ⟨[], by simp [Poll.step]⟩
  | expire t =>
    simp only [Poll.step]; split
    · exact ⟨[], by simp⟩
    · split <;> exact ⟨[], by simp⟩
  | runTimer t => simp only [Poll.step]; split <;> exact ⟨[], by simp [Poll.execute, Poll.emit]⟩

theorem Poll_tasks_runTask (v : Poll) (t : PTask) : (v.runTask t).tasks = v.tasks := by
  obtain ⟨running, freq, timer, tasks, inFlight, armed, fired, now, nextTimer, nextId, log⟩ := v
  cases t <;> cases running <;> cases timer <;> rfl

/-- Tasks run in order. -/
theorem Poll_turn (post : List Poll.Op) : ∀ (v : Poll) (pre : List PTask) (t : PTask) (ts : List PTask), v.tasks = pre ++ t :: ts → pre.length < pollRuns post →
    ∃ p1 p2 ts', post = p1 ++ .runTask :: p2 ∧ (v.run p1).tasks = t :: ts' := by
  induction post with
  | nil => intro v pre t ts _ hn; simp [pollRuns] at hn
  | cons op post ih =>
    intro v pre t ts ht hn
    by_cases ho : op = .runTask
    · subst ho
      cases pre with
      | nil => exact ⟨[], post, ts, rfl, ht⟩
      | cons x pre =>
        have hs : (v.step .runTask).tasks = pre ++ t :: ts := by
          simp only [Poll.step, ht, List.cons_append, Poll_tasks_runTask]
        obtain ⟨p1, p2, ts', h1, h2⟩ := ih (v.step .runTask) pre t ts hs (by simp only [pollRuns, List.countP_cons, List.length_cons, if_true] at hn ⊢; omega)
        exact ⟨.runTask :: p1, p2, ts', by rw [h1]; rfl, h2⟩
    · obtain ⟨ts1, h⟩ := Poll_tasks_step v op ho
      obtain ⟨p1, p2, ts', h1, h2⟩ := ih (v.step op) pre t (ts ++ ts1) (by rw [h, ht]; simp) (by
        simp only [pollRuns, List.countP_cons] at hn ⊢
        cases op <;> simp_all)
      exact ⟨op :: p1, p2, ts', by rw [h1]; rfl, h2⟩

/-- C61: every call of `start`, `stop` and `set_frequency` takes effect when the tasks posted before it have run: a start sends a request if polling is off then,
a stop turns polling off, and `set_frequency` sets the polling time. -/
theorem C61_calls_are_heard (f : Nat) (before after : List Poll.Op) (op : Poll.Op) (hn : ((Poll.init f).run before).tasks.length < pollRuns after) :
    (op = .start → ∃ p1 p2, after = p1 ++ .runTask :: p2 ∧ ∃ w, w = (Poll.init f).run (before ++ .start :: p1) ∧
      (pollOn w.log = false → ∃ id, id ∉ pollsSent w.log ∧ ((Poll.init f).run (before ++ .start :: p1 ++ [.runTask])).log = w.log ++ [.started, .sent id w.now])) ∧
    (op = .stop → ∃ p1 p2, after = p1 ++ .runTask :: p2 ∧
      ((Poll.init f).run (before ++ .stop :: p1 ++ [.runTask])).log = ((Poll.init f).run (before ++ .stop :: p1)).log ++ [.stopped]) ∧
    (∀ g, op = .setFrequency g → ∃ p1 p2, after = p1 ++ .runTask :: p2 ∧
      ((Poll.init f).run (before ++ .setFrequency g :: p1 ++ [.runTask])).log = ((Poll.init f).run (before ++ .setFrequency g :: p1)).log ++ [.frequency g]) := by
  have split : ∀ (o : Poll.Op) (p1 : List Poll.Op), (Poll.init f).run (before ++ o :: p1) = (((Poll.init f).run before).step o).run p1 := by
    intro o p1; simp [Poll.run]
  have split' : ∀ (o : Poll.Op) (p1 : List Poll.Op), (Poll.init f).run (before ++ o :: p1 ++ [.runTask]) = ((Poll.init f).run (before ++ o :: p1)).step .runTask := by
    intro o p1; simp [Poll.run]
  refine ⟨?_, ?_, ?_⟩
  · rintro rfl
    obtain ⟨p1, p2, ts', h1, h2⟩ := Poll_turn after (((Poll.init f).run before).step .start) _ .start [] rfl hn
    refine ⟨p1, p2, h1, _, rfl, fun hoff => ?_⟩
    rw [← split] at h2
    have := (C61_calls_take_effect f _ ⟨_, rfl⟩ .start ts' h2).2
    simp only [hoff, Bool.false_eq_true, if_false] at this
    obtain ⟨id, a1, a2, -⟩ := this
    exact ⟨id, a2, by rw [split']; exact a1⟩
  · rintro rfl
    obtain ⟨p1, p2, ts', h1, h2⟩ := Poll_turn after (((Poll.init f).run before).step .stop) _ .stop [] rfl hn
    rw [← split] at h2
    exact ⟨p1, p2, h1, by rw [split']; exact (C61_calls_take_effect f _ ⟨_, rfl⟩ .stop ts' h2).2⟩
  · rintro g rfl
    obtain ⟨p1, p2, ts', h1, h2⟩ := Poll_turn after (((Poll.init f).run before).step (.setFrequency g)) _ (.setFrequency g) [] rfl hn
    rw [← split] at h2
    exact ⟨p1, p2, h1, by rw [split']; exact (C61_calls_take_effect f _ ⟨_, rfl⟩ (.setFrequency g) ts' h2).2⟩

/-- Two calls are queued when `stop` is called; in the end it has taken effect, and the first start as well. -/
example : ((Poll.init 10).run [.start, .setFrequency 7]).tasks.length < pollRuns [.runTask, .tick 1, .runTask, .respond 0, .runTask] ∧
    ((Poll.init 10).run ([.start, .setFrequency 7] ++ .stop :: [.runTask, .tick 1, .runTask, .respond 0] ++ [.runTask])).log =
      [.started, .sent 0 0, .frequency 7, .handled 0 1, .stopped] := by decide +kernel

/-! ### Sessions -/

/-- Tasks run in order. -/
theorem Sess_turn (post : List Sess.Op) : ∀ (v : Sess) (pre : List SessTask) (t : SessTask) (ts : List SessTask), v.tasks = pre ++ t :: ts → pre.length < Sess.runs post →
    ∃ p1 p2 ts', post = p1 ++ .runTask :: p2 ∧ (v.run p1).tasks = t :: ts' ∧ Sess.runs p1 = pre.length := by
  induction post with
  | nil => intro v pre t ts _ hn; simp [Sess.runs] at hn
  | cons op post ih =>
    intro v pre t ts ht hn
    by_cases ho : op = .runTask
    · subst ho
      cases pre with
      | nil => exact ⟨[], post, ts, rfl, ht, rfl⟩
      | cons x pre =>
        have hs : v.step .runTask = { v with tasks := pre ++ t :: ts }.runTask x := by simp only [Sess.step]; rw [ht]; rfl
        obtain ⟨ts1, hts⟩ := Sess.tasks_runTask { v with tasks := pre ++ t :: ts } x
        obtain ⟨p1, p2, ts', h1, h2, h3⟩ := ih (v.step .runTask) pre t (ts ++ ts1) (by rw [hs, hts]; simp)
          (by simp only [Sess.runs, List.countP_cons, List.length_cons, if_true] at hn ⊢; omega)
        exact ⟨.runTask :: p1, p2, ts', by rw [h1]; rfl, h2, by simp only [Sess.runs, List.countP_cons, List.length_cons, if_true] at h3 ⊢; omega⟩
    · obtain ⟨ts1, h⟩ := Sess.tasks_step v op ho
      have hc : ∀ l, Sess.runs (op :: l) = Sess.runs l := by
        intro l
        simp only [Sess.runs, List.countP_cons]
        cases op <;> simp_all
      obtain ⟨p1, p2, ts', h1, h2, h3⟩ := ih (v.step op) pre t (ts ++ ts1) (by rw [h, ht]; simp) (by rw [hc] at hn; exact hn)
      exact ⟨op :: p1, p2, ts', by rw [h1]; rfl, h2, by rw [hc]; exact h3⟩

theorem Sess_split (before p1 : List Sess.Op) (o : Sess.Op) : Sess.init.run (before ++ o :: p1) = ((Sess.init.run before).step o).run p1 := by
  simp [Sess.run]

theorem Sess_split' (l : List Sess.Op) (o : Sess.Op) : Sess.init.run (l ++ [o]) = (Sess.init.run l).step o := by simp [Sess.run]

/-- What a call on scheduled request `i` leads to, from `old` to `new`: a start sends a request if polling is off, a stop turns polling off,
`set_frequency` sets the polling time. -/
def Heard (i : Nat) (old new : List SessEv) : PTask → Prop
  | .start => pollOn (effectsOf i old) = false → ∃ id now, id ∉ pollsSent (effectsOf i old) ∧ new = old ++ [.poll i .started, .poll i (.sent id now)]
  | .stop => new = old ++ [.poll i .stopped]
  | .setFrequency g => new = old ++ [.poll i (.frequency g)]

/-- What a task of scheduled request `i` does, when the strand comes to it. -/
theorem Sess_poll_task (ops : List Sess.Op) (i : Nat) (t : PTask) (ts : List SessTask) (h : (Sess.init.run ops).tasks = .poll i t :: ts) :
    Heard i (Sess.init.run ops).log (Sess.init.run (ops ++ [.runTask])).log t := by
  have hg := Sess.good_run ops
  have hi := hg.tasks i t (by rw [h]; simp)
  obtain ⟨f, pops, hv⟩ := Sess.view_reach ops i hi
  obtain ⟨v, hvv⟩ : ∃ v, v = Sess.init.run ops := ⟨_, rfl⟩
  rw [Sess_split']
  rw [← hvv] at h hg hi hv ⊢
  obtain ⟨p, hp⟩ : ∃ p, v.polls[i]? = some p := ⟨_, List.getElem?_eq_getElem hi⟩
  have hs : v.step .runTask = { v with tasks := ts }.onPoll i fun p => p.runTask t := by simp only [Sess.step]; rw [h]; rfl
  have hlog : (v.step .runTask).log = v.log ++ ((p.runTask t).log.drop p.log.length).map (.poll i) := by
    rw [hs]; simp only [Sess.onPoll, hp, Sess.emit]
  rw [hlog]
  have heff := hg.effects i p hp
  have hrun : p.running = pollOn p.log := by
    unfold Sess.view at hv
    rw [hp] at hv
    have := Poll.running_run f pops
    rw [← Option.some.inj hv] at this
    exact this
  have hids : pollsSent p.log = List.range p.nextId := by
    unfold Sess.view at hv
    rw [hp] at hv
    have := (Poll.core_run f pops).1.sentIds
    rw [← Option.some.inj hv] at this
    exact this
  cases t with
  | start =>
    intro hoff
    rw [heff, ← hrun] at hoff
    refine ⟨p.nextId, p.now, by rw [heff, hids]; simp, ?_⟩
    simp [Poll.runTask, hoff, Poll.execute, Poll.emit]
  | stop =>
    simp only [Heard, Poll.runTask]
    split
    · rw [Poll.cancelTimer_log]; simp [Poll.emit]
    · simp [Poll.emit]
  | setFrequency g => simp [Heard, Poll.runTask, Poll.emit]

/-- The number of requests scheduled in a history. -/
def scheduledIn (ops : List Sess.Op) : Nat := ops.countP fun o => match o with
  | .schedule _ => true
  | _ => false

theorem Sess_polls_length (l : List Sess.Op) : (Sess.init.run l).polls.length = scheduledIn l := by
  unfold scheduledIn
  induction l using List.reverseRecOn with
  | nil => rfl
  | append_singleton l o ih =>
    rw [Sess_split', List.countP_append, ← ih]
    cases o with
    | schedule f => simp [Sess.step]
    | register j => simp only [Sess.step]; split <;> simp
    | call j t => simp only [Sess.step]; split <;> simp
    | runTask =>
      simp only [Sess.step]; split
      · simp
      · next t ts ht => cases t <;> simp [Sess.runTask, Sess.onPoll_length, Sess.emit]
    | report id => simp only [Sess.step]; split <;> simp [Sess.emit]
    | respond j id => simp [Sess.step, Sess.onPoll_length]
    | tick n => simp [Sess.step]
    | expire j t => simp [Sess.step, Sess.onPoll_length]
    | runTimer j t => simp [Sess.step, Sess.onPoll_length]
    | send => simp [Sess.step]
    | shutdown => simp [Sess.step]

/-- C72 (what holds of sessions): every call of `start`, `stop` and `set_frequency` on a scheduled request of a session takes effect when the
tasks queued before it have run. -/
theorem C72_calls_are_heard_partial (before after : List Sess.Op) (i : Nat) (t : PTask) (hi : i < scheduledIn before)
    (hn : (Sess.init.run before).tasks.length < Sess.runs after) :
    ∃ p1 p2, after = p1 ++ .runTask :: p2 ∧ Heard i (Sess.init.run (before ++ .call i t :: p1)).log (Sess.init.run (before ++ .call i t :: p1 ++ [.runTask])).log t := by
  rw [← Sess_polls_length] at hi
  have hp : ((Sess.init.run before).step (.call i t)).tasks = (Sess.init.run before).tasks ++ .poll i t :: [] := by simp only [Sess.step, if_pos hi]
  obtain ⟨p1, p2, ts', h1, h2, -⟩ := Sess_turn after _ _ _ [] hp hn
  rw [← Sess_split] at h2
  exact ⟨p1, p2, h1, Sess_poll_task _ i t ts' h2⟩

/-- A scheduled request that has done nothing yet. -/
structure Untouched (p : Poll) : Prop where
  off : p.running = false
  flying : p.inFlight = []
  armed : p.armed = []
  fired : p.fired = []
  log : p.log = []
  first : p.nextId = 0

theorem Untouched.keeps {p : Poll} (h : Untouched p) (op : Poll.Op) (ho : (∃ id, op = .respond id) ∨ (∃ n, op = .tick n) ∨ (∃ t, op = .expire t) ∨ ∃ t, op = .runTimer t) :
    Untouched (p.step op) := by
  obtain ⟨h1, h2, h3, h4, h5, h6⟩ := h
  rcases ho with ⟨id, rfl⟩ | ⟨n, rfl⟩ | ⟨t, rfl⟩ | ⟨t, rfl⟩
  · simp only [Poll.step, h2, List.not_mem_nil, if_false]; exact ⟨h1, h2, h3, h4, h5, h6⟩
  · exact ⟨h1, h2, h3, h4, h5, h6⟩
  · simp only [Poll.step, h3, List.lookup_nil]; exact ⟨h1, h2, h3, h4, h5, h6⟩
  · simp only [Poll.step, h4, List.not_mem_nil, if_false]; exact ⟨h1, h2, h3, h4, h5, h6⟩

theorem Sess_onPoll_untouched {v : Sess} {i j : Nat} {f : Poll → Poll} (h : ∃ p, v.polls[i]? = some p ∧ Untouched p) (hf : j = i → ∀ p, Untouched p → Untouched (f p)) :
    ∃ p, (v.onPoll j f).polls[i]? = some p ∧ Untouched p := by
  obtain ⟨p, h1, h2⟩ := h
  by_cases hj : j = i
  · subst hj
    exact ⟨f p, by rw [Sess.onPoll_polls, h1]; rfl, hf rfl p h2⟩
  · exact ⟨p, by rw [Sess.onPoll_polls_ne v f hj]; exact h1, h2⟩

/-- It stays so until the strand comes to its start. -/
theorem Sess_turn_fresh (i : Nat) (post : List Sess.Op) : ∀ (v : Sess) (pre : List SessTask) (ts : List SessTask), v.tasks = pre ++ .poll i .start :: ts →
    Sess.tasksOf i pre = [] → (∃ p, v.polls[i]? = some p ∧ Untouched p) → pre.length < Sess.runs post →
    ∃ p1 p2 ts', post = p1 ++ .runTask :: p2 ∧ (v.run p1).tasks = .poll i .start :: ts' ∧ ∃ p, (v.run p1).polls[i]? = some p ∧ Untouched p := by
  induction post with
  | nil => intro v pre ts _ _ _ hn; simp [Sess.runs] at hn
  | cons op post ih =>
    intro v pre ts ht hpre hu hn
    by_cases ho : op = .runTask
    · subst ho
      cases pre with
      | nil => exact ⟨[], post, ts, rfl, ht, hu⟩
      | cons x pre =>
        have hs : v.step .runTask = { v with tasks := pre ++ SessTask.poll i .start :: ts }.runTask x := by simp only [Sess.step]; rw [ht]; rfl
        obtain ⟨ts1, hts⟩ := Sess.tasks_runTask { v with tasks := pre ++ SessTask.poll i .start :: ts } x
        have hpre' : Sess.tasksOf i pre = [] ∧ ∀ t, x ≠ .poll i t := by
          cases x with
          | poll j t =>
            by_cases hj : j = i
            · subst hj; simp [Sess.tasksOf] at hpre
            · refine ⟨by simpa [Sess.tasksOf, hj] using hpre, fun t' h => hj (by injection h)⟩
          | send id => exact ⟨by simpa [Sess.tasksOf] using hpre, by simp⟩
          | register j => exact ⟨by simpa [Sess.tasksOf] using hpre, by simp⟩
          | shutdown => exact ⟨by simpa [Sess.tasksOf] using hpre, by simp⟩
        have hu' : ∃ p, (v.step .runTask).polls[i]? = some p ∧ Untouched p := by
          rw [hs]
          cases x with
          | poll j t =>
            have hj : j ≠ i := fun h => hpre'.2 t (by rw [h])
            exact Sess_onPoll_untouched (v := { v with tasks := pre ++ SessTask.poll i .start :: ts }) hu (fun h => absurd h hj)
          | send id => exact hu
          | register j => exact hu
          | shutdown => exact hu
        obtain ⟨p1, p2, ts', h1, h2, h3⟩ := ih (v.step .runTask) pre (ts ++ ts1) (by rw [hs, hts]; simp) hpre'.1 hu'
          (by simp only [Sess.runs, List.countP_cons, List.length_cons, if_true] at hn ⊢; omega)
        exact ⟨.runTask :: p1, p2, ts', by rw [h1]; rfl, h2, h3⟩
    · obtain ⟨ts1, h⟩ := Sess.tasks_step v op ho
      have hc : ∀ l, Sess.runs (op :: l) = Sess.runs l := by
        intro l
        simp only [Sess.runs, List.countP_cons]
        cases op <;> simp_all
      have hu' : ∃ p, (v.step op).polls[i]? = some p ∧ Untouched p := by
        cases op with
        | runTask => exact absurd rfl ho
        | schedule f =>
          obtain ⟨p, a1, a2⟩ := hu
          refine ⟨p, ?_, a2⟩
          simp only [Sess.step]
          rw [List.getElem?_append_left (List.getElem?_eq_some_iff.1 a1).1]; exact a1
        | register j => simp only [Sess.step]; split <;> exact hu
        | call j t => simp only [Sess.step]; split <;> exact hu
        | report id => simp only [Sess.step]; split <;> exact hu
        | respond j id => exact Sess_onPoll_untouched hu fun _ p hp => hp.keeps _ (.inl ⟨_, rfl⟩)
        | expire j t => exact Sess_onPoll_untouched hu fun _ p hp => hp.keeps _ (.inr (.inr (.inl ⟨_, rfl⟩)))
        | runTimer j t => exact Sess_onPoll_untouched hu fun _ p hp => hp.keeps _ (.inr (.inr (.inr ⟨_, rfl⟩)))
        | tick n =>
          obtain ⟨p, a1, a2⟩ := hu
          exact ⟨p.step (.tick n), by simp [Sess.step, a1], a2.keeps _ (.inr (.inl ⟨_, rfl⟩))⟩
        | send => exact hu
        | shutdown => exact hu
      obtain ⟨p1, p2, ts', h1, h2, h3⟩ := ih (v.step op) pre (ts ++ ts1) (by rw [h, ht]; simp) hpre hu' (by rw [hc] at hn; exact hn)
      exact ⟨op :: p1, p2, ts', by rw [h1]; rfl, h2, h3⟩

/-- C72 (what holds of sessions): a scheduled request does nothing until the tasks queued before it have run; then its first request is sent. -/
theorem C72_scheduled_is_sent_partial (before after : List Sess.Op) (f i : Nat) (hi : i = scheduledIn before) (hn : (Sess.init.run before).tasks.length < Sess.runs after) :
    ∃ p1 p2 now, after = p1 ++ .runTask :: p2 ∧ effectsOf i (Sess.init.run (before ++ .schedule f :: p1)).log = [] ∧
      (Sess.init.run (before ++ .schedule f :: p1 ++ [.runTask])).log =
        (Sess.init.run (before ++ .schedule f :: p1)).log ++ [.poll i .started, .poll i (.sent 0 now)] := by
  rw [← Sess_polls_length] at hi
  have hg := Sess.good_run before
  obtain ⟨v, hv⟩ : ∃ v, v = Sess.init.run before := ⟨_, rfl⟩
  rw [← hv] at hg hi hn
  have hp : (v.step (.schedule f)).tasks = v.tasks ++ .poll i .start :: [] := by rw [hi]; rfl
  have hpre : Sess.tasksOf i v.tasks = [] := by
    simp only [Sess.tasksOf, List.filterMap_eq_nil_iff]
    intro t hm
    cases t with
    | poll j t =>
      have := hg.tasks j t hm
      simp only
      rw [if_neg (by omega)]
    | _ => rfl
  have hu : ∃ p, (v.step (.schedule f)).polls[i]? = some p ∧ Untouched p :=
    ⟨{ Poll.init f with now := v.now }, by rw [hi]; simp [Sess.step], ⟨rfl, rfl, rfl, rfl, rfl, rfl⟩⟩
  obtain ⟨p1, p2, ts', h1, h2, p, h3, h4⟩ := Sess_turn_fresh i after _ _ [] hp hpre hu hn
  rw [hv, ← Sess_split] at h2 h3
  have hg' := Sess.good_run (before ++ .schedule f :: p1)
  refine ⟨p1, p2, p.now, h1, ?_, ?_⟩
  · rw [hg'.effects i p h3]; exact h4.log
  · rw [Sess_split']
    obtain ⟨w, hw⟩ : ∃ w, w = Sess.init.run (before ++ .schedule f :: p1) := ⟨_, rfl⟩
    rw [← hw] at h2 h3 ⊢
    have hs : w.step .runTask = { w with tasks := ts' }.onPoll i fun p => p.runTask .start := by simp only [Sess.step]; rw [h2]; rfl
    rw [hs]; simp [Sess.onPoll, h3, Sess.emit, Poll.runTask, h4.off, Poll.execute, Poll.emit, h4.log, h4.first]

/-- C72 (what holds of sessions): a one-time request is given to the connection when the tasks queued before it have run, shut down or not; its result
is reported when the channel reports it. -/
theorem C72_one_time_served_partial (before after : List Sess.Op) (hn : (Sess.init.run before).tasks.length < Sess.runs after) :
    ∃ id p1 p2, SessEv.sent id ∉ (Sess.init.run (before ++ .send :: p1)).log ∧ after = p1 ++ .runTask :: p2 ∧
      (Sess.init.run (before ++ .send :: p1 ++ [.runTask])).log = (Sess.init.run (before ++ .send :: p1)).log ++ [.sent id] := by
  have hp : ((Sess.init.run before).step .send).tasks = (Sess.init.run before).tasks ++ .send (Sess.init.run before).nextId :: [] := rfl
  obtain ⟨p1, p2, ts', h1, h2, -⟩ := Sess_turn after _ _ _ [] hp hn
  rw [← Sess_split] at h2
  refine ⟨(Sess.init.run before).nextId, p1, p2, ?_, h1, ?_⟩
  · have := (Sess.once_run (before ++ .send :: p1)).queued (Sess.init.run before).nextId
    rw [h2] at this
    simp only [List.count_cons_self, timesSent, Sess.submitted] at this
    rw [← List.count_eq_zero]
    split at this <;> omega
  · rw [Sess_split']
    obtain ⟨w, hw⟩ : ∃ w, w = Sess.init.run (before ++ .send :: p1) := ⟨_, rfl⟩
    rw [← hw] at h2 ⊢
    simp only [Sess.step, h2, Sess.runTask, Sess.emit]

theorem C72_one_time_reported_partial (ops : List Sess.Op) (id : Nat) (h1 : SessEv.sent id ∈ (Sess.init.run ops).log) (h2 : SessEv.reported id ∉ (Sess.init.run ops).log) :
    (Sess.init.run (ops ++ [.report id])).log = (Sess.init.run ops).log ++ [.reported id] := by
  have := (Sess.once_run ops).flying id
  have h3 : timesReported id (Sess.init.run ops).log = 0 := List.count_eq_zero.2 h2
  have h4 : 1 ≤ timesSent id (Sess.init.run ops).log := List.one_le_count_iff.2 h1
  have hm : id ∈ (Sess.init.run ops).inFlight := List.one_le_count_iff.1 (by omega)
  rw [Sess_split']
  simp only [Sess.step, if_pos hm, Sess.emit]

/-- C72 (what holds of sessions): when the channel reports the result of a poll, the handler of the scheduled request is called. -/
theorem C72_poll_reported_partial (ops : List Sess.Op) (i id : Nat) (h1 : id ∈ pollsSent (effectsOf i (Sess.init.run ops).log))
    (h2 : id ∉ pollsHandled (effectsOf i (Sess.init.run ops).log)) :
    ∃ now, (Sess.init.run (ops ++ [.respond i id])).log = (Sess.init.run ops).log ++ [.poll i (.handled id now)] := by
  have hg := Sess.good_run ops
  have hi : i < (Sess.init.run ops).polls.length := by
    by_contra hc
    rw [hg.fresh i (by omega)] at h1
    simp [pollsSent] at h1
  obtain ⟨f, pops, hv⟩ := Sess.view_reach ops i hi
  rw [Sess_split']
  obtain ⟨v, hvv⟩ : ∃ v, v = Sess.init.run ops := ⟨_, rfl⟩
  rw [← hvv] at hg hi hv h1 h2 ⊢
  obtain ⟨p, hp⟩ : ∃ p, v.polls[i]? = some p := ⟨_, List.getElem?_eq_getElem hi⟩
  rw [hg.effects i p hp] at h1 h2
  have hin : id ∈ p.inFlight := by
    unfold Sess.view at hv
    rw [hp] at hv
    have hv := Option.some.inj hv
    have hc := (Poll.core_run f pops).1
    rw [← hv] at hc
    have e1 : pollsSent p.log = List.range p.nextId := hc.sentIds
    rw [e1, List.mem_range] at h1
    have := (hc.once id).1 h1
    have e2 : (pollsHandled p.log).count id + p.inFlight.count id = 1 := this
    rw [List.count_eq_zero.2 h2] at e2
    exact List.one_le_count_iff.1 (by omega)
  refine ⟨p.now, ?_⟩
  simp only [Sess.step, Sess.onPoll, hp, Sess.emit, Poll.step, if_pos hin, Poll.onResponse]
  split <;> simp [Poll.emit]

/-! ### Shutdown -/

theorem Sess_tasks_length (post : List Sess.Op) : ∀ v : Sess, v.tasks.length ≤ (v.run post).tasks.length + Sess.runs post := by
  induction post with
  | nil => intro v; simp [Sess.run]
  | cons op post ih =>
    intro v
    have h := ih (v.step op)
    show _ ≤ ((v.step op).run post).tasks.length + _
    by_cases ho : op = .runTask
    · subst ho
      have h1 : v.tasks.length ≤ (v.step .runTask).tasks.length + 1 := by
        cases ht : v.tasks with
        | nil => simp
        | cons x ts =>
          have hs : v.step .runTask = { v with tasks := ts }.runTask x := by simp only [Sess.step]; rw [ht]
          obtain ⟨ts1, hts⟩ := Sess.tasks_runTask { v with tasks := ts } x
          rw [hs, hts]; simp
      simp only [Sess.runs, List.countP_cons, if_true] at h ⊢
      omega
    · obtain ⟨ts, hts⟩ := Sess.tasks_step v op ho
      have h1 : v.tasks.length ≤ (v.step op).tasks.length := by rw [hts]; simp
      simp only [Sess.runs, List.countP_cons] at h ⊢
      omega

/-- The registration of `i` is done or queued. -/
def Sess.Knows (v : Sess) (i : Nat) : Prop := i ∈ v.registered ∨ SessTask.register i ∈ v.tasks

/-- Before any shutdown: what is known of the scheduled requests. -/
structure Unshut (ops : List Sess.Op) : Prop where
  calm : SessTask.shutdown ∉ (Sess.init.run ops).tasks
  all : ∀ i, i < scheduledIn ops → i ∈ (Sess.init.run ops).halfway ∨ Sess.Knows (Sess.init.run ops) i
  known : ∀ i x y, ops = x ++ .register i :: y → i < scheduledIn x → Sess.Knows (Sess.init.run ops) i

theorem Sess_onPoll_rest (v : Sess) (j : Nat) (f : Poll → Poll) : (v.onPoll j f).halfway = v.halfway ∧ (v.onPoll j f).registered = v.registered := by
  unfold Sess.onPoll; split <;> exact ⟨rfl, rfl⟩

theorem Sess_step_calm {v : Sess} (h : SessTask.shutdown ∉ v.tasks) (o : Sess.Op) (ho : o ≠ .shutdown) :
    SessTask.shutdown ∉ (v.step o).tasks ∧ (∀ i, Sess.Knows v i → Sess.Knows (v.step o) i) ∧ (∀ i, i ∈ v.halfway → i ∈ (v.step o).halfway ∨ (o = .register i ∧ Sess.Knows (v.step o) i)) := by
  have same : ∀ w : Sess, w.halfway = v.halfway → w.registered = v.registered → w.tasks = v.tasks →
      SessTask.shutdown ∉ w.tasks ∧ (∀ i, Sess.Knows v i → Sess.Knows w i) ∧ (∀ i, i ∈ v.halfway → i ∈ w.halfway ∨ (o = .register i ∧ Sess.Knows w i)) := by
    intro w h1 h2 h3
    unfold Sess.Knows
    rw [h1, h2, h3]
    exact ⟨h, fun i hi => hi, fun i hi => .inl hi⟩
  have more : ∀ (w : Sess) (x : List SessTask), w.halfway = v.halfway → w.registered = v.registered → w.tasks = v.tasks ++ x → SessTask.shutdown ∉ x →
      SessTask.shutdown ∉ w.tasks ∧ (∀ i, Sess.Knows v i → Sess.Knows w i) ∧ (∀ i, i ∈ v.halfway → i ∈ w.halfway ∨ (o = .register i ∧ Sess.Knows w i)) := by
    intro w x h1 h2 h3 h4
    unfold Sess.Knows
    rw [h1, h2, h3]
    exact ⟨by simp [h, h4], fun i hi => hi.imp id (List.mem_append_left _), fun i hi => .inl hi⟩
  cases o with
  | shutdown => exact absurd rfl ho
  | send => exact more _ [.send v.nextId] rfl rfl rfl (by simp)
  | schedule f =>
    refine ⟨by simpa [Sess.step] using h, fun i hi => hi.imp id (List.mem_append_left _), fun i hi => .inl (List.mem_append_left _ hi)⟩
  | register j =>
    simp only [Sess.step]
    split
    · refine ⟨by simpa using h, fun i hi => hi.imp id (List.mem_append_left _), fun i hi => ?_⟩
      by_cases hij : i = j
      · subst hij; exact .inr ⟨rfl, .inr (by simp)⟩
      · exact .inl (by simp [hi, hij])
    · exact same _ rfl rfl rfl
  | call j t =>
    simp only [Sess.step]
    split
    · exact more _ [.poll j t] rfl rfl rfl (by simp)
    · exact same _ rfl rfl rfl
  | runTask =>
    simp only [Sess.step]
    split
    · exact same _ rfl rfl rfl
    · rename_i t ts ht
      have h1 : SessTask.shutdown ∉ ts := fun hm => h (by rw [ht]; exact List.mem_cons_of_mem _ hm)
      have k1 : ∀ (w : Sess) i, w.registered = v.registered → w.tasks = ts → (∀ k, t ≠ .register k) → Sess.Knows v i → Sess.Knows w i := by
        intro w i a1 a2 a3 hk
        unfold Sess.Knows at hk ⊢
        rw [a1, a2]
        rw [ht] at hk
        refine hk.imp id fun hm => ?_
        rcases List.mem_cons.1 hm with e | hm
        · exact absurd e.symm (a3 i)
        · exact hm
      cases t with
      | shutdown => exact absurd (by rw [ht]; simp) h
      | send id => exact ⟨h1, fun i hi => k1 _ i rfl rfl (by simp) hi, fun i hi => .inl hi⟩
      | poll j t =>
        simp only [Sess.runTask]
        refine ⟨by rw [Sess.onPoll_tasks]; exact h1, fun i hi => k1 _ i (Sess_onPoll_rest _ _ _).2 (Sess.onPoll_tasks _ _ _) (by simp) hi, fun i hi => .inl ?_⟩
        rw [(Sess_onPoll_rest _ _ _).1]; exact hi
      | register j =>
        refine ⟨h1, fun i hi => ?_, fun i hi => .inl hi⟩
        unfold Sess.Knows at hi ⊢
        simp only [Sess.runTask]
        rcases hi with hi | hi
        · exact .inl (List.mem_append_left _ hi)
        · rw [ht] at hi
          rcases List.mem_cons.1 hi with e | hm
          · injection e with e; subst e; exact .inl (by simp)
          · exact .inr hm
  | report id =>
    simp only [Sess.step]
    split <;> exact same _ rfl rfl rfl
  | respond j id => exact same _ (Sess_onPoll_rest _ _ _).1 (Sess_onPoll_rest _ _ _).2 (Sess.onPoll_tasks _ _ _)
  | tick n => exact same _ rfl rfl rfl
  | expire j t => exact same _ (Sess_onPoll_rest _ _ _).1 (Sess_onPoll_rest _ _ _).2 (Sess.onPoll_tasks _ _ _)
  | runTimer j t => exact same _ (Sess_onPoll_rest _ _ _).1 (Sess_onPoll_rest _ _ _).2 (Sess.onPoll_tasks _ _ _)

theorem Unshut.run (ops : List Sess.Op) (h : Sess.Op.shutdown ∉ ops) : Unshut ops := by
  induction ops using List.reverseRecOn with
  | nil => exact ⟨by simp [Sess.run, Sess.init], by simp [scheduledIn], by simp⟩
  | append_singleton l o ih =>
    have ih := ih (fun hm => h (List.mem_append_left _ hm))
    have ho : o ≠ .shutdown := fun e => h (by rw [e]; simp)
    obtain ⟨h1, h2, h3⟩ := Sess_step_calm ih.calm o ho
    have hrun : Sess.init.run (l ++ [o]) = (Sess.init.run l).step o := Sess_split' l o
    rw [← hrun] at h1 h2 h3
    refine ⟨h1, fun i hi => ?_, fun i x y e hx => ?_⟩
    · by_cases hl : i < scheduledIn l
      · rcases ih.all i hl with a | a
        · rcases h3 i a with b | ⟨-, b⟩
          · exact .inl b
          · exact .inr b
        · exact .inr (h2 i a)
      · cases o with
        | schedule f =>
          have : i = (Sess.init.run l).polls.length := by
            rw [Sess_polls_length]
            unfold scheduledIn at hi hl ⊢
            rw [List.countP_append] at hi
            simp at hi; omega
          left; rw [hrun, this]; simp [Sess.step]
        | _ => exact absurd hi (by unfold scheduledIn at hl ⊢; rw [List.countP_append]; simpa using hl)
    · rcases List.eq_nil_or_concat y with hy | ⟨y', z, hy⟩
      · subst hy
        obtain ⟨e1, e2⟩ := List.append_inj' e rfl
        have e2 : o = .register i := by simpa using e2
        subst e1 e2
        rcases ih.all i hx with a | a
        · rcases h3 i a with b | ⟨-, b⟩
          · have : i ∉ (Sess.init.run (l ++ [.register i])).halfway := by
              rw [hrun]; simp [Sess.step, a]
            exact absurd b this
          · exact b
        · exact h2 i a
      · subst hy
        have e' : l ++ [o] = (x ++ .register i :: y') ++ [z] := by simpa using e
        obtain ⟨e1, -⟩ := List.append_inj' e' rfl
        exact h2 i (ih.known i x y' e1 hx)

theorem Sess_shut_turn (i : Nat) (post : List Sess.Op) : ∀ (v : Sess) (pre ts : List SessTask), v.tasks = pre ++ .shutdown :: ts → SessTask.shutdown ∉ pre →
    (i ∈ v.registered ∨ SessTask.register i ∈ pre) → pre.length < Sess.runs post →
    ∃ p1 p2 ts', post = p1 ++ .runTask :: p2 ∧ (v.run p1).tasks = .shutdown :: ts' ∧ i ∈ (v.run p1).registered := by
  induction post with
  | nil => intro v pre ts _ _ _ hn; simp [Sess.runs] at hn
  | cons op post ih =>
    intro v pre ts ht hpre hi hn
    by_cases ho : op = .runTask
    · subst ho
      cases pre with
      | nil => exact ⟨[], post, ts, rfl, ht, hi.resolve_right (by simp)⟩
      | cons x pre =>
        have hs : v.step .runTask = { v with tasks := pre ++ SessTask.shutdown :: ts }.runTask x := by simp only [Sess.step]; rw [ht]; rfl
        obtain ⟨ts1, hts⟩ := Sess.tasks_runTask { v with tasks := pre ++ SessTask.shutdown :: ts } x
        have hi' : i ∈ (v.step .runTask).registered ∨ SessTask.register i ∈ pre := by
          rw [hs]
          cases x with
          | shutdown => exact absurd (by simp) hpre
          | send k => exact hi.imp id fun h => by simpa using h
          | poll j t => simp only [Sess.runTask]; rw [(Sess_onPoll_rest _ _ _).2]; exact hi.imp id fun h => by simpa using h
          | register j =>
            simp only [Sess.runTask]
            rcases hi with hi | hi
            · exact .inl (List.mem_append_left _ hi)
            · rcases List.mem_cons.1 hi with e | hm
              · injection e with e; subst e; exact .inl (by simp)
              · exact .inr hm
        obtain ⟨p1, p2, ts', h1, h2, h3⟩ := ih (v.step .runTask) pre (ts ++ ts1) (by rw [hs, hts]; simp) (fun hm => hpre (List.mem_cons_of_mem _ hm)) hi'
          (by simp only [Sess.runs, List.countP_cons, List.length_cons, if_true] at hn ⊢; omega)
        exact ⟨.runTask :: p1, p2, ts', by rw [h1]; rfl, h2, h3⟩
    · obtain ⟨ts1, h⟩ := Sess.tasks_step v op ho
      have hc : ∀ l, Sess.runs (op :: l) = Sess.runs l := by
        intro l
        simp only [Sess.runs, List.countP_cons]
        cases op <;> simp_all
      have hr : (v.step op).registered = v.registered := by
        cases op with
        | runTask => exact absurd rfl ho
        | register j => simp only [Sess.step]; split <;> rfl
        | call j t => simp only [Sess.step]; split <;> rfl
        | report id => simp only [Sess.step]; split <;> rfl
        | respond j id => exact (Sess_onPoll_rest _ _ _).2
        | expire j t => exact (Sess_onPoll_rest _ _ _).2
        | runTimer j t => exact (Sess_onPoll_rest _ _ _).2
        | _ => rfl
      obtain ⟨p1, p2, ts', h1, h2, h3⟩ := ih (v.step op) pre (ts ++ ts1) (by rw [h, ht]; simp) hpre (by rw [hr]; exact hi) (by rw [hc] at hn; exact hn)
      exact ⟨op :: p1, p2, ts', by rw [h1]; rfl, h2, h3⟩

/-- C72 (what holds of scheduled requests): when `shutdown` is called for the first time, every request whose `schedule_request` has returned (the call of `register`
follows that of `schedule`) has been stopped when the strand has nothing left to run. -/
theorem C72_shutdown_stops_partial (before after x y : List Sess.Op) (i : Nat) (hs : Sess.Op.shutdown ∉ before) (hb : before = x ++ .register i :: y) (hi : i < scheduledIn x)
    (ht : (Sess.init.run (before ++ .shutdown :: after)).tasks = []) :
    ∃ new, (Sess.init.run (before ++ .shutdown :: after)).log = (Sess.init.run before).log ++ new ∧ SessEv.down ∈ new ∧ SessEv.poll i .stopped ∈ new := by
  have hu := Unshut.run before hs
  have hk := hu.known i x y hb hi
  obtain ⟨v, hv⟩ : ∃ v, v = Sess.init.run before := ⟨_, rfl⟩
  have hlt : i < v.polls.length := by
    rw [hv, Sess_polls_length, hb]
    unfold scheduledIn at hi ⊢
    rw [List.countP_append]; omega
  have hcalm := hu.calm
  rw [← hv] at hk hcalm
  have hsp : Sess.init.run (before ++ .shutdown :: after) = (v.step .shutdown).run after := by rw [hv, Sess_split]
  rw [hsp] at ht ⊢
  rw [← hv]
  have hp : (v.step .shutdown).tasks = v.tasks ++ .shutdown :: [] := rfl
  have hn : v.tasks.length < Sess.runs after := by
    have := Sess_tasks_length after (v.step .shutdown)
    rw [ht, hp] at this
    simp at this; omega
  obtain ⟨p1, p2, ts', h1, h2, h3⟩ := Sess_shut_turn i after (v.step .shutdown) v.tasks [] hp hcalm hk hn
  obtain ⟨w, hw⟩ : ∃ w, w = (v.step .shutdown).run p1 := ⟨_, rfl⟩
  rw [← hw] at h2 h3
  have hst : w.step .runTask = { w with tasks := ts' }.runTask .shutdown := by simp only [Sess.step]; rw [h2]
  have hrun : (v.step .shutdown).run after = (w.step .runTask).run p2 := by rw [h1, Sess.run_append, ← hw]; rfl
  obtain ⟨a, b, hab⟩ := List.append_of_mem h3
  have htasks : (w.step .runTask).tasks = (ts' ++ a.map fun i => SessTask.poll i .stop) ++ .poll i .stop :: (b.map fun i => SessTask.poll i .stop) := by
    rw [hst]
    show ts' ++ w.registered.map _ = _
    rw [hab]; simp
  have hlen : i < (w.step .runTask).polls.length := by
    have mono : ∀ (l : List Sess.Op) (u : Sess), u.polls.length ≤ (u.run l).polls.length := by
      intro l
      induction l with
      | nil => intro u; exact Nat.le_refl _
      | cons o l ih => intro u; exact Nat.le_trans (Sess.polls_length_step u o) (ih _)
    have h4 := mono (p1 ++ [.runTask]) (v.step .shutdown)
    rw [Sess.run_append, ← hw] at h4
    exact Nat.lt_of_lt_of_le hlt h4
  have hn2 : (ts' ++ a.map fun i => SessTask.poll i .stop).length < Sess.runs p2 := by
    have := Sess_tasks_length p2 (w.step .runTask)
    rw [← hrun, ht, htasks] at this
    simp only [List.length_append, List.length_cons, List.length_nil] at this ⊢
    omega
  obtain ⟨es, e1, e2⟩ := Sess.stop_runs (w.step .runTask) p2 i _ _ htasks hlen hn2
  obtain ⟨fs, f1⟩ := Sess.log_run (v.step .shutdown) p1
  rw [← hw] at f1
  have hl : (w.step .runTask).log = w.log ++ [.down] := by rw [hst]; rfl
  refine ⟨fs ++ [.down] ++ es, ?_, by simp, List.mem_append_right _ e2⟩
  rw [hrun, e1, hl, f1]
  show v.log ++ fs ++ [.down] ++ es = _
  simp

/-- A session with two scheduled requests; the second is scheduled while the session is shut down and its registration comes too late. -/
def shutDemo : List Sess.Op := [.schedule 10, .runTask, .register 0, .send, .schedule 20]

example : Sess.Op.shutdown ∉ shutDemo ∧ shutDemo = [.schedule 10, .runTask] ++ .register 0 :: [.send, .schedule 20] ∧ 0 < scheduledIn [.schedule 10, .runTask] ∧
    (Sess.init.run (shutDemo ++ .shutdown :: [.register 1, .runTask, .runTask, .respond 0 0, .runTask, .runTask, .runTask, .runTask])).tasks = [] ∧
    (Sess.init.run (shutDemo ++ .shutdown :: [.register 1, .runTask, .runTask, .respond 0 0, .runTask, .runTask, .runTask, .runTask])).log =
      [.poll 0 .started, .poll 0 (.sent 0 0), .sent 0, .poll 0 (.handled 0 0), .poll 1 .started, .poll 1 (.sent 0 0), .down, .poll 0 .stopped] := by
  refine ⟨by simp [shutDemo], rfl, ?_, ?_, ?_⟩ <;> decide +kernel

/-- The other theorems, on the same history: the second request is sent, the one-time request is sent, a call of stop is heard, results are reported. -/
example : 1 = scheduledIn [.schedule 10, .runTask, .register 0, .send] ∧
    (Sess.init.run [.schedule 10, .runTask, .register 0, .send]).tasks.length < Sess.runs [.tick 3, .runTask, .runTask, .call 0 .stop, .runTask, .runTask] ∧
    (Sess.init.run ([.schedule 10, .runTask, .register 0, .send] ++ .schedule 20 :: [.tick 3, .runTask, .runTask, .call 0 .stop] ++ [.runTask])).log =
      [.poll 0 .started, .poll 0 (.sent 0 0), .sent 0, .poll 1 .started, .poll 1 (.sent 0 3)] := by decide +kernel

example : 0 < scheduledIn shutDemo ∧ (Sess.init.run shutDemo).tasks.length < Sess.runs (List.replicate 5 Sess.Op.runTask) ∧
    (Sess.init.run (shutDemo ++ .call 0 .stop :: List.replicate 4 Sess.Op.runTask)).log =
      [.poll 0 .started, .poll 0 (.sent 0 0), .sent 0, .poll 1 .started, .poll 1 (.sent 0 0), .poll 0 .stopped] ∧
    SessEv.sent 0 ∈ (Sess.init.run (shutDemo ++ [.runTask, .runTask])).log ∧ 0 ∈ pollsSent (effectsOf 0 (Sess.init.run shutDemo).log) := by decide +kernel

end Modbus.Props
