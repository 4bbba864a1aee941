import Verif.Lemmas.Scheduled

/-! C58 – C61: scheduled (polled) requests. -/

namespace Modbus.Props

open Modbus.Spec Modbus.Poll

/-- `v` is reachable from a new scheduled request with polling time `f`. -/
def PReach (f : Nat) (v : Poll) : Prop := ∃ ops, v = (Poll.init f).run ops

/-- Every time a `start` takes effect, what earlier runs left behind is over: no request is in flight and no timer is pending. -/
def OrderlyStarts (f : Nat) (ops : List Poll.Op) : Prop := ∀ pre op post, ops = pre ++ op :: post →
  Starts ((Poll.init f).run pre) op →
  ((Poll.init f).run pre).inFlight = [] ∧ ((Poll.init f).run pre).armed = [] ∧ ((Poll.init f).run pre).fired = []

/-- Every time a `stop` takes effect, no expired timer is waiting to run. -/
def OrderlyStops (f : Nat) (ops : List Poll.Op) : Prop := ∀ pre op post, ops = pre ++ op :: post →
  Stops ((Poll.init f).run pre) op → ((Poll.init f).run pre).fired = []

theorem tidy_run (f : Nat) (ops : List Poll.Op) (h : OrderlyStarts f ops) : Tidy f ((Poll.init f).run ops) := by
  induction ops using List.reverseRecOn with
  | nil => exact .init f
  | append_singleton ops op ih =>
    rw [run_snoc]
    refine (ih fun pre o post he hs => h pre o (post ++ [op]) (by rw [he]; simp) hs).step (core_run f ops).1 op ?_
    exact h ops op [] rfl

theorem calm_run (f : Nat) (ops : List Poll.Op) (h : OrderlyStarts f ops) (h' : OrderlyStops f ops) : Calm ((Poll.init f).run ops) := by
  induction ops using List.reverseRecOn with
  | nil => exact .init f
  | append_singleton ops op ih =>
    rw [run_snoc]
    have h1 : OrderlyStarts f ops := fun pre o post he hs => h pre o (post ++ [op]) (by rw [he]; simp) hs
    have h2 : OrderlyStops f ops := fun pre o post he hs => h' pre o (post ++ [op]) (by rw [he]; simp) hs
    exact (ih h1 h2).step (tidy_run f ops h1) op (h' ops op [] rfl)

/-- A run with one restart after everything has settled. -/
def politeOps : List Poll.Op :=
  [.start, .runTask, .tick 3, .respond 0, .tick 10, .expire 0, .runTimer 0, .respond 1, .stop, .runTask, .setFrequency 4, .runTask,
   .start, .runTask, .respond 2, .tick 4, .expire 2, .runTimer 2]

/-- Checks the two conditions of orderliness at each step. -/
def orderlyCheck (v : Poll) : List Poll.Op → Bool
  | [] => true
  | op :: ops =>
    (match op, v.tasks with
     | .runTask, .start :: _ => v.running || (v.inFlight.isEmpty && v.armed.isEmpty && v.fired.isEmpty)
     | .runTask, .stop :: _ => v.fired.isEmpty
     | _, _ => true) && orderlyCheck (v.step op) ops

theorem orderlyCheck_spec (v : Poll) (ops : List Poll.Op) (h : orderlyCheck v ops = true) : ∀ pre op post, ops = pre ++ op :: post →
    (Starts (v.run pre) op → (v.run pre).inFlight = [] ∧ (v.run pre).armed = [] ∧ (v.run pre).fired = []) ∧
    (Stops (v.run pre) op → (v.run pre).fired = []) := by
  induction ops generalizing v with
  | nil => intro pre op post he; simp at he
  | cons o ops ih =>
    intro pre op post he
    simp only [orderlyCheck, Bool.and_eq_true] at h
    cases pre with
    | nil =>
      simp only [List.nil_append, List.cons.injEq] at he
      obtain ⟨rfl, rfl⟩ := he
      refine ⟨?_, ?_⟩
      · rintro ⟨rfl, hr, ts, ht⟩
        have hr : v.running = false := hr
        have ht : v.tasks = _ := ht
        have := h.1
        simp only [ht, hr, Bool.false_or, Bool.and_eq_true, List.isEmpty_iff] at this
        exact ⟨this.1.1, this.1.2, this.2⟩
      · rintro ⟨rfl, ts, ht⟩
        have ht : v.tasks = _ := ht
        have := h.1
        simp only [ht, List.isEmpty_iff] at this
        exact this
    | cons p pre =>
      simp only [List.cons_append, List.cons.injEq] at he
      obtain ⟨rfl, rfl⟩ := he
      exact ih (v.step o) h.2 pre op post rfl

theorem polite_starts : OrderlyStarts 10 politeOps := fun pre op post he =>
  (orderlyCheck_spec (Poll.init 10) politeOps (by decide +kernel) pre op post he).1

theorem polite_stops : OrderlyStops 10 politeOps := fun pre op post he =>
  (orderlyCheck_spec (Poll.init 10) politeOps (by decide +kernel) pre op post he).2

/-! ### C58 -/

/-- C58, full statement: never more than one request in flight, never more than one poll timer. -/
def C58_Statement : Prop := ∀ f v, PReach f v → v.inFlight.length ≤ 1 ∧ v.armed.length + v.fired.length ≤ 1

/-- C58 fails: stop and start while a request is outstanding give a second loop. -/
theorem C58_violated : ¬ C58_Statement := by
  intro h
  have := (h 10 _ ⟨[.start, .runTask, .stop, .runTask, .start, .runTask], rfl⟩).1
  revert this
  decide +kernel

/-- The second loop is permanent: both requests are answered, and from then on there are two timers, hence two requests per period. -/
theorem C58_two_loops_persist : ∃ v, PReach 10 v ∧ v.armed.length = 2 ∧ v.running = true ∧
    v.log = [.started, .sent 0 0, .stopped, .started, .sent 1 0, .handled 0 0, .handled 1 0,
      .sent 2 10, .sent 3 10, .handled 2 10, .handled 3 10] :=
  ⟨_, ⟨[.start, .runTask, .stop, .runTask, .start, .runTask, .respond 0, .respond 1, .tick 10, .expire 0, .expire 1, .runTimer 0,
    .runTimer 1, .respond 2, .respond 3], rfl⟩, by decide +kernel⟩

/-- C58 (partial: if the request is only started again after everything earlier has settled): at most one request in flight or
timer pending, altogether. -/
theorem C58_single_request_partial (f : Nat) (ops : List Poll.Op) (h : OrderlyStarts f ops) :
    ((Poll.init f).run ops).inFlight.length + ((Poll.init f).run ops).armed.length + ((Poll.init f).run ops).fired.length ≤ 1 :=
  (tidy_run f ops h).one

/-- What holds without conditions: at most one request in flight or timer pending for each start that took effect. -/
theorem C58_one_per_start_partial (f : Nat) (v : Poll) (h : PReach f v) :
    v.inFlight.length + v.armed.length + v.fired.length ≤ v.log.count .started := by
  obtain ⟨ops, rfl⟩ := h
  induction ops using List.reverseRecOn with
  | nil => exact Nat.le_refl _
  | append_singleton ops op ih => rw [run_snoc]; exact loops_step _ op ih

example : OrderlyStarts 10 politeOps ∧ ((Poll.init 10).run politeOps).inFlight = [3] ∧
    ((Poll.init 10).run politeOps).log.count .started = 2 := ⟨polite_starts, by decide +kernel⟩

/-! ### C59 -/

/-- C59, full statement: after a response at time `t1`, the next request of the same run is sent at `t1` plus the polling time
configured then, or later. -/
def C59_Statement : Prop := ∀ f v, PReach f v → ∀ a id t1 b id' t2 c,
  v.log = a ++ PEv.handled id t1 :: (b ++ PEv.sent id' t2 :: c) → PEv.started ∉ b → t1 + pollTime f a ≤ t2

/-- C59 fails: with two loops, one loop's request follows the other loop's response at once. -/
theorem C59_violated : ¬ C59_Statement := by
  intro h
  have := h 10 _ ⟨[.start, .runTask, .stop, .runTask, .start, .runTask, .respond 0, .tick 9, .respond 1, .tick 1, .expire 0, .runTimer 0],
    rfl⟩ [.started, .sent 0 0, .stopped, .started, .sent 1 0, .handled 0 0] 1 9 [] 2 10 [] (by decide +kernel) (by decide)
  revert this
  decide +kernel

/-- C59 (partial: orderly starts). -/
theorem C59_polling_time_respected_partial (f : Nat) (ops : List Poll.Op) (h : OrderlyStarts f ops) (a : List PEv) (id t1 : Nat)
    (b : List PEv) (id' t2 : Nat) (c : List PEv)
    (hl : ((Poll.init f).run ops).log = a ++ PEv.handled id t1 :: (b ++ PEv.sent id' t2 :: c)) (hb : PEv.started ∉ b) :
    t1 + pollTime f a ≤ t2 :=
  (tidy_run f ops h).spaced a id t1 b id' t2 c hl hb

example : 3 + pollTime 10 [.started, .sent 0 0] ≤ 13 :=
  C59_polling_time_respected_partial 10 politeOps polite_starts [.started, .sent 0 0] 0 3 [] 1 13
    [.handled 1 13, .stopped, .frequency 4, .started, .sent 2 13, .handled 2 13, .sent 3 17] (by decide +kernel) (by decide)

example : ((Poll.init 10).run politeOps).log = [.started, .sent 0 0, .handled 0 3, .sent 1 13, .handled 1 13, .stopped, .frequency 4,
    .started, .sent 2 13, .handled 2 13, .sent 3 17] := by decide +kernel

/-! ### C60 -/

/-- C60, full statement: a request sent after a stop took effect is preceded by a start that took effect in between. -/
def C60_Statement : Prop := ∀ f v, PReach f v → ∀ a b id t c, v.log = a ++ PEv.stopped :: (b ++ PEv.sent id t :: c) → PEv.started ∈ b

/-- C60 fails: a timer that has expired before the stop still sends its request, since `execute` does not look at the running flag. -/
theorem C60_violated : ¬ C60_Statement := by
  intro h
  have := h 10 _ ⟨[.start, .runTask, .respond 0, .tick 10, .expire 0, .stop, .runTask, .runTimer 0], rfl⟩
    [.started, .sent 0 0, .handled 0 0] [] 1 10 [] (by decide +kernel)
  cases this

/-- C60 (partial: orderly starts, and no expired timer queued when a stop takes effect). -/
theorem C60_stop_stops_partial (f : Nat) (ops : List Poll.Op) (h : OrderlyStarts f ops) (h' : OrderlyStops f ops) (a b : List PEv)
    (id t : Nat) (c : List PEv) (hl : ((Poll.init f).run ops).log = a ++ PEv.stopped :: (b ++ PEv.sent id t :: c)) :
    PEv.started ∈ b :=
  (calm_run f ops h h').obeyed a b id t c hl

/-- What holds without conditions: after a stop, the number of further requests before the next start is at most the number of poll
timers left (armed ones that the stop could not cancel, or already expired ones) — in particular polling does not go on for ever. -/
theorem C60_after_stop_bounded_partial (f : Nat) (v : Poll) (h : PReach f v) (hr : pollOn v.log = false) (ops : List Poll.Op)
    (new : List PEv) (hl : (v.run ops).log = v.log ++ new) (hs : PEv.started ∉ new) :
    (pollsSent new).length ≤ v.armed.length + v.fired.length ∧ (v.run ops).armed.length + (v.run ops).fired.length ≤ v.armed.length + v.fired.length := by
  replace hr : v.running = false := by obtain ⟨ops, rfl⟩ := h; exact (running_run f ops).trans hr
  have hc : (v.run ops).log.count .started = v.log.count .started := by
    rw [hl, List.count_append, List.count_eq_zero.2 hs, Nat.add_zero]
  obtain ⟨h1, h2⟩ := sendable_run v ops hr hc
  simp only [sendable, hl, pollsSent_append, List.length_append] at h2
  omega

example : PEv.started ∈ [PEv.frequency 4, .started] :=
  C60_stop_stops_partial 10 politeOps polite_starts polite_stops
    [.started, .sent 0 0, .handled 0 3, .sent 1 13, .handled 1 13] [.frequency 4, .started] 2 13 [.handled 2 13, .sent 3 17]
    (by decide +kernel)

example : (pollsSent [PEv.sent 1 10]).length ≤ 1 :=
  (C60_after_stop_bounded_partial 10 ((Poll.init 10).run [.start, .runTask, .respond 0, .tick 10, .expire 0, .stop, .runTask])
    ⟨_, rfl⟩ (by decide +kernel)
    [.runTimer 0] [.sent 1 10] (by decide +kernel) (by decide)).1

/-! ### C61 -/

/-- C61: the handler is called exactly once for each request whose result is in, never for others: a request that was sent either was
handled once or is still in flight, and a request that was never sent is not handled. -/
theorem C61_handled_once (f : Nat) (v : Poll) (h : PReach f v) (id : Nat) :
    (id ∈ pollsSent v.log → (id ∈ v.inFlight → (pollsHandled v.log).count id = 0) ∧ (id ∉ v.inFlight → (pollsHandled v.log).count id = 1)) ∧
    (id ∉ pollsSent v.log → id ∉ pollsHandled v.log ∧ id ∉ v.inFlight) := by
  obtain ⟨ops, rfl⟩ := h
  obtain ⟨h1, h2⟩ := (core_run f ops).1.once id
  rw [(core_run f ops).1.sentIds, List.mem_range]
  refine ⟨fun hlt => ⟨fun hi => ?_, fun hi => ?_⟩, fun hlt => ?_⟩
  · have := h1 hlt
    have := List.one_le_count_iff.2 hi
    omega
  · have := h1 hlt
    rw [List.count_eq_zero.2 hi] at this
    omega
  · have := h2 (by omega)
    exact ⟨List.count_eq_zero.1 (by omega), List.count_eq_zero.1 (by omega)⟩

/-- C61: when the result of a request comes in, the handler is called at once, and if polling is on, a new timer is set to expire
one (currently configured) polling time later. -/
theorem C61_polling_continues (f : Nat) (v : Poll) (h : PReach f v) (id : Nat) (hid : id ∈ v.inFlight) :
    (v.step (.respond id)).log = v.log ++ [.handled id v.now] ∧
    (pollOn v.log = true → ∃ t, (v.step (.respond id)).armed = v.armed ++ [(t, v.now + pollTime f v.log)] ∧
      t ∉ v.armed.map (·.1) ∧ t ∉ v.fired) := by
  obtain ⟨ops, hv⟩ := h
  have hc : Core f v := by rw [hv]; exact (core_run f ops).1
  simp only [Poll.step, if_pos hid]
  have hon : v.running = pollOn v.log := by rw [hv]; exact running_run f ops
  rw [← hon]
  refine ⟨(onResponse_loops v id hid).2, fun hr => ⟨v.nextTimer, ?_, ?_, ?_⟩⟩
  · unfold onResponse
    simp only [emit, hr, if_true]
    rw [hc.freq]
  · intro hm
    exact Nat.lt_irrefl _ (hc.timers.2 _ (List.mem_append_left _ hm))
  · intro hm
    exact Nat.lt_irrefl _ (hc.timers.2 _ (List.mem_append_right _ hm))

/-- C61: an armed timer whose deadline has come can expire, and once it has expired its callback sends the next request. -/
theorem C61_timer_polls (f : Nat) (v : Poll) (h : PReach f v) (t d : Nat) (hm : (t, d) ∈ v.armed) (hd : d ≤ v.now) :
    ∃ id, ((v.step (.expire t)).step (.runTimer t)).log = v.log ++ [.sent id v.now] ∧ id ∉ pollsSent v.log ∧
      id ∈ ((v.step (.expire t)).step (.runTimer t)).inFlight := by
  obtain ⟨ops, hv⟩ := h
  have hc : Core f v := by rw [hv]; exact (core_run f ops).1
  have hl : v.armed.lookup t = some d := by
    have hn : (v.armed.map (·.1)).Nodup := (List.nodup_append.1 hc.timers.1).1
    exact lookup_of_mem hn hm
  refine ⟨v.nextId, ?_, ?_, ?_⟩
  · simp [Poll.step, hl, hd, execute, emit]
  · rw [hc.sentIds]; simp
  · simp [Poll.step, hl, hd, execute, emit]

/-- C61: while polling is on, there is always something that makes it go on: a request in flight or a timer. -/
theorem C61_always_pending (f : Nat) (v : Poll) (h : PReach f v) (hr : pollOn v.log = true) :
    v.inFlight ≠ [] ∨ v.armed ≠ [] ∨ v.fired ≠ [] := by
  obtain ⟨ops, rfl⟩ := h
  exact (core_run f ops).2 ((running_run f ops).trans hr)

/-- C61: a posted start, when its turn comes, sends a request at once if polling is off, and has no effect if it is on; a posted stop
turns polling off; a posted change of the polling time takes effect. -/
theorem C61_calls_take_effect (f : Nat) (v : Poll) (h : PReach f v) (task : PTask) (ts : List PTask) (ht : v.tasks = task :: ts) :
    (v.step .runTask).tasks = ts ∧
    match task with
    | .start => if pollOn v.log then (v.step .runTask).log = v.log ∧ (v.step .runTask).inFlight = v.inFlight
        else ∃ id, (v.step .runTask).log = v.log ++ [.started, .sent id v.now] ∧ id ∉ pollsSent v.log ∧ id ∈ (v.step .runTask).inFlight
    | .stop => (v.step .runTask).log = v.log ++ [.stopped]
    | .setFrequency g => (v.step .runTask).log = v.log ++ [.frequency g] := by
  obtain ⟨ops, hv⟩ := h
  have hc : Core f v := by rw [hv]; exact (core_run f ops).1
  have hon : v.running = pollOn v.log := by rw [hv]; exact running_run f ops
  rw [← hon]
  simp only [Poll.step, ht]
  cases task with
  | start =>
    simp only [Poll.runTask]
    cases hr : v.running
    · refine ⟨rfl, v.nextId, ?_, ?_, ?_⟩
      · simp [execute, emit]
      · rw [hc.sentIds]; simp
      · simp [execute, emit]
    · exact ⟨rfl, rfl, rfl⟩
  | stop =>
    simp only [Poll.runTask]
    split
    · refine ⟨?_, by rw [cancelTimer_log]; rfl⟩
      unfold cancelTimer; split <;> rfl
    · exact ⟨rfl, rfl⟩
  | setFrequency g => exact ⟨rfl, rfl⟩

example : let v := (Poll.init 10).run [.start, .runTask, .setFrequency 7, .stop, .start]
    PReach 10 v ∧ v.tasks = [.setFrequency 7, .stop, .start] ∧ pollOn v.log = true := ⟨⟨_, rfl⟩, by decide +kernel, by decide +kernel⟩

example : let v := (Poll.init 10).run [.start, .runTask, .setFrequency 7, .runTask, .tick 2]
    PReach 10 v ∧ pollOn v.log = true ∧ 0 ∈ v.inFlight ∧ (v.step (.respond 0)).armed = [(0, 9)] :=
  ⟨⟨_, rfl⟩, by decide +kernel, by decide +kernel, by decide +kernel⟩

example : let v := (Poll.init 10).run [.start, .runTask, .setFrequency 7, .runTask, .tick 2, .respond 0, .tick 7]
    PReach 10 v ∧ (0, 9) ∈ v.armed ∧ 9 ≤ v.now := ⟨⟨_, rfl⟩, by decide +kernel, by decide +kernel⟩

end Modbus.Props
