import Verif.Lemmas.ScheduledThrowing
import Verif.Props.Scheduled

/-!
C135: a scheduled request whose handler throws.

The timer for the next poll is started after the handler has been called, so a handler that throws once ends polling, although `is_running` goes on saying that it is on and `start`
does nothing; `stop` and `start` are needed.  (`Expected::get` of a result that is no response throws, so every handler that does not look at `is_valid` does this at the first timeout.)
-/

namespace Modbus.Props

open Modbus.Spec Modbus.Poll

/-- `v` is reachable from a new scheduled request with polling time `f` whose handler throws as `th` says. -/
def PTReach (f : Nat) (th : PThrows) (v : Poll) : Prop := ∃ ops, v = (Poll.init f).runT th ops

/-- C135, full statement: whatever its handler throws, a request that is on is waiting for a result or for the time of its next poll. -/
def C135_Statement : Prop := ∀ f th v, PTReach f th v → pollOn v.log = true → v.inFlight ≠ [] ∨ v.armed ≠ [] ∨ v.fired ≠ []

/-- Throws at the first result only. -/
def onceThrows : PThrows := fun _ id => id == 0

/-- C135 does not hold: the handler throws at the first result, and nothing is waited for any more. -/
theorem C135_violated : ¬ C135_Statement := by
  intro h
  have := h 10 onceThrows _ ⟨[.start, .runTask, .respond 0], rfl⟩ (by decide +kernel)
  revert this
  decide +kernel

theorem onResponseT_log (th : PThrows) (v : Poll) (id : Nat) : (v.onResponseT th id).log = v.log ++ [.handled id v.now] := by
  cases hr : v.running <;> cases ht : th v.log id <;> simp [onResponseT, Poll.emit, hr, ht]

/-- C135, the full extent: such a request is not polled again, whatever happens, as long as no `stop` takes effect; `start` does nothing, however often it is called. -/
theorem C135_dead (th : PThrows) (ops : List Poll.Op) : ∀ v : Poll, v.running = true → v.inFlight = [] → v.armed = [] → v.fired = [] →
    PEv.stopped ∉ (v.runT th ops).log.drop v.log.length →
    (v.runT th ops).running = true ∧ pollsSent (v.runT th ops).log = pollsSent v.log ∧ pollsHandled (v.runT th ops).log = pollsHandled v.log := by
  have grow : ∀ (op : Poll.Op) (v : Poll), ∃ es, (v.stepT th op).log = v.log ++ es := by
    intro op v
    cases op with
    | respond id =>
      simp only [stepT]
      split
      · exact ⟨_, onResponseT_log th v id⟩
      · exact ⟨[], by simp⟩
    | _ => exact log_step v _
  have grows : ∀ (ops : List Poll.Op) (v : Poll), ∃ es, (v.runT th ops).log = v.log ++ es := by
    intro ops
    induction ops with
    | nil => intro v; exact ⟨[], by simp [runT]⟩
    | cons op ops ih =>
      intro v
      obtain ⟨a, ha⟩ := grow op v
      obtain ⟨b, hb⟩ := ih (v.stepT th op)
      exact ⟨a ++ b, by show ((v.stepT th op).runT th ops).log = _; rw [hb, ha, List.append_assoc]⟩
  induction ops with
  | nil => intro v hr _ _ _ _; exact ⟨hr, rfl, rfl⟩
  | cons op ops ih =>
    intro v hr hi ha hf hs
    have e : v.runT th (op :: ops) = (v.stepT th op).runT th ops := rfl
    rw [e] at hs ⊢
    obtain ⟨es, he⟩ := grow op v
    obtain ⟨fs, hfs⟩ := grows ops (v.stepT th op)
    have hs1 : PEv.stopped ∉ es := by
      rw [hfs, he, List.append_assoc, List.drop_left] at hs
      exact fun h => hs (List.mem_append_left _ h)
    have hs2 : PEv.stopped ∉ ((v.stepT th op).runT th ops).log.drop (v.stepT th op).log.length := by
      rw [hfs, he, List.append_assoc, List.drop_left] at hs
      rw [hfs, List.drop_left]
      exact fun h => hs (List.mem_append_right _ h)
    have key : (v.stepT th op).running = true ∧ (v.stepT th op).inFlight = [] ∧ (v.stepT th op).armed = [] ∧ (v.stepT th op).fired = [] ∧
        pollsSent (v.stepT th op).log = pollsSent v.log ∧ pollsHandled (v.stepT th op).log = pollsHandled v.log := by
      cases op with
      | start => exact ⟨hr, hi, ha, hf, rfl, rfl⟩
      | stop => exact ⟨hr, hi, ha, hf, rfl, rfl⟩
      | setFrequency g => exact ⟨hr, hi, ha, hf, rfl, rfl⟩
      | tick n => exact ⟨hr, hi, ha, hf, rfl, rfl⟩
      | respond id => simp only [stepT, hi, List.not_mem_nil, if_false]; exact ⟨hr, trivial, ha, hf, trivial, trivial⟩
      | expire t => simp only [stepT, Poll.step, ha, List.lookup_nil]; exact ⟨hr, hi, trivial, hf, trivial, trivial⟩
      | runTimer t => simp only [stepT, Poll.step, hf, List.not_mem_nil, if_false]; exact ⟨hr, hi, ha, trivial, trivial, trivial⟩
      | runTask =>
        simp only [stepT, Poll.step] at he ⊢
        cases ht : v.tasks with
        | nil => exact ⟨hr, hi, ha, hf, rfl, rfl⟩
        | cons t ts =>
          rw [ht] at he
          cases t with
          | start => simp only [Poll.runTask, hr, if_true]; exact ⟨trivial, hi, ha, hf, trivial, trivial⟩
          | setFrequency g => exact ⟨hr, hi, ha, hf, by simp [Poll.runTask, Poll.emit, pollsSent], by simp [Poll.runTask, Poll.emit, pollsHandled]⟩
          | stop =>
            exfalso
            simp only [Poll.runTask, hr, if_true, cancelTimer_log, Poll.emit] at he
            have := List.append_cancel_left he
            exact hs1 (by rw [← this]; simp)
    obtain ⟨k1, k2, k3, k4, k5, k6⟩ := key
    obtain ⟨j1, j2, j3⟩ := ih _ k1 k2 k3 k4 hs2
    exact ⟨j1, j2.trans k5, j3.trans k6⟩

/-- C135, the way back: after `stop` and `start` such a request is polled at once. -/
theorem C135_restarted (f : Nat) (th : PThrows) (v : Poll) (h : PTReach f th v) (hr : v.running = true) (ht : v.tasks = []) (hi : v.inFlight = []) (ha : v.armed = [])
    (hf : v.fired = []) : ∃ id, (v.runT th [.stop, .runTask, .start, .runTask]).log = v.log ++ [.stopped, .started, .sent id v.now] ∧ id ∉ pollsSent v.log ∧
      (v.runT th [.stop, .runTask, .start, .runTask]).inFlight = [id] := by
  obtain ⟨ops, rfl⟩ := h
  obtain ⟨ops', g, a, tm, -, h2, -⟩ := simP_run f th ops
  have hc := (core_run f ops').1.sentIds
  rw [h2] at hc
  generalize (Poll.init f).runT th ops = v at *
  refine ⟨v.nextId, ?_, ?_, ?_⟩
  · cases htm : v.timer <;> simp [runT, stepT, Poll.step, Poll.runTask, Poll.execute, Poll.emit, cancelTimer, hr, ht, ha, htm]
  · simp only at hc
    rw [hc]; simp
  · cases htm : v.timer <;> simp [runT, stepT, Poll.step, Poll.runTask, Poll.execute, Poll.emit, cancelTimer, hr, ht, ha, hi, htm]

/-- C135, what an exception amounts to: what happens is what happens if the handler does not throw and some of the timers never expire. -/
theorem C135_as_if_partial (f : Nat) (th : PThrows) (ops : List Poll.Op) : ∃ ops', List.Forall₂ OrNot ops ops' ∧
    ((Poll.init f).run ops').log = ((Poll.init f).runT th ops).log ∧ ((Poll.init f).run ops').running = ((Poll.init f).runT th ops).running ∧
    ((Poll.init f).run ops').inFlight = ((Poll.init f).runT th ops).inFlight ∧ ((Poll.init f).runT th ops).armed.Sublist ((Poll.init f).run ops').armed := by
  obtain ⟨ops', g, a, tm, h1, h2, h3⟩ := simP_run f th ops
  refine ⟨ops', h1, by rw [h2], by rw [h2], by rw [h2], ?_⟩
  rw [h2, h3.armed]
  exact List.filter_sublist

/-- C135, only that: if the request is on and nothing is waited for, a call of the handler for one of its results threw.  In particular, if it never throws, polling goes on. -/
theorem C135_only_by_exception (f : Nat) (th : PThrows) (v : Poll) (h : PTReach f th v) (hr : pollOn v.log = true) (hi : v.inFlight = []) (ha : v.armed = []) (hf : v.fired = []) :
    ∃ pre id t post, v.log = pre ++ PEv.handled id t :: post ∧ th pre id = true := by
  obtain ⟨ops, rfl⟩ := h
  by_contra hn
  have hno : ∀ pre id t post, ((Poll.init f).runT th ops).log = pre ++ PEv.handled id t :: post → th pre id = false := by
    intro pre id t post h1
    by_contra hc
    exact hn ⟨pre, id, t, post, h1, by simpa using hc⟩
  clear hn
  have grow : ∀ (op : Poll.Op) (v : Poll), ∃ es, (v.stepT th op).log = v.log ++ es := by
    intro op v
    cases op with
    | respond id =>
      simp only [stepT]
      split
      · exact ⟨_, onResponseT_log th v id⟩
      · exact ⟨[], by simp⟩
    | _ => exact log_step v _
  have same : ∀ ops : List Poll.Op, (∀ pre id t post, ((Poll.init f).runT th ops).log = pre ++ PEv.handled id t :: post → th pre id = false) →
      (Poll.init f).runT th ops = (Poll.init f).run ops := by
    intro ops
    induction ops using List.reverseRecOn with
    | nil => intro _; rfl
    | append_singleton ops op ih =>
      intro hq
      rw [runT_snoc] at hq ⊢
      rw [run_snoc]
      obtain ⟨es, he⟩ := grow op ((Poll.init f).runT th ops)
      have hi := ih (fun pre id t post h1 => hq pre id t (post ++ es) (by rw [he, h1]; simp))
      rw [← hi]
      cases op with
      | respond id =>
        simp only [stepT] at he hq ⊢
        simp only [Poll.step]
        split
        · rename_i hid
          simp only [if_pos hid] at hq he
          have := hq _ id _ [] (onResponseT_log th ((Poll.init f).runT th ops) id)
          cases hrun : ((Poll.init f).runT th ops).running <;> simp [onResponseT, onResponse, Poll.emit, this, hrun]
        · rfl
      | _ => rfl
  rw [same ops hno] at hr hi ha hf
  rcases C61_always_pending f _ ⟨ops, rfl⟩ hr with h | h | h
  · exact h hi
  · exact h ha
  · exact h hf

/-- C135, results: whatever the handler throws, it is called exactly once per completed poll and never for anything else (C61). -/
theorem C135_handled_once (f : Nat) (th : PThrows) (v : Poll) (h : PTReach f th v) (id : Nat) :
    (id ∈ pollsSent v.log → (id ∈ v.inFlight → (pollsHandled v.log).count id = 0) ∧ (id ∉ v.inFlight → (pollsHandled v.log).count id = 1)) ∧
    (id ∉ pollsSent v.log → id ∉ pollsHandled v.log ∧ id ∉ v.inFlight) := by
  obtain ⟨ops, rfl⟩ := h
  obtain ⟨ops', g, a, tm, -, h2, -⟩ := simP_run f th ops
  have := C61_handled_once f _ ⟨ops', rfl⟩ id
  rw [h2] at this
  exact this

/-- C135, at most one poll for each start that took effect (C58). -/
theorem C135_one_per_start (f : Nat) (th : PThrows) (v : Poll) (h : PTReach f th v) :
    v.inFlight.length + v.armed.length + v.fired.length ≤ v.log.count .started := by
  obtain ⟨ops, rfl⟩ := h
  obtain ⟨ops', g, a, tm, -, h2, h3⟩ := simP_run f th ops
  have := C58_one_per_start_partial f _ ⟨ops', rfl⟩
  rw [h2] at this
  simp only at this
  have := (List.filter_sublist (l := a) (p := fun x => x.1 ∉ g)).length_le
  rw [← h3.armed] at this
  omega

/-- Every time a `start` takes effect, what earlier runs left behind is over. -/
def OrderlyStartsT (f : Nat) (th : PThrows) (ops : List Poll.Op) : Prop := ∀ pre op post, ops = pre ++ op :: post →
  Starts ((Poll.init f).runT th pre) op →
  ((Poll.init f).runT th pre).inFlight = [] ∧ ((Poll.init f).runT th pre).armed = [] ∧ ((Poll.init f).runT th pre).fired = []

/-- Every time a `stop` takes effect, no expired timer is waiting to run. -/
def OrderlyStopsT (f : Nat) (th : PThrows) (ops : List Poll.Op) : Prop := ∀ pre op post, ops = pre ++ op :: post →
  Stops ((Poll.init f).runT th pre) op → ((Poll.init f).runT th pre).fired = []

theorem orderly_simP (f : Nat) (th : PThrows) (ops : List Poll.Op) (h : OrderlyStartsT f th ops) :
    ∃ ops' g a tm, OrderlyStarts f ops' ∧ (OrderlyStopsT f th ops → OrderlyStops f ops') ∧
      (Poll.init f).run ops' = { (Poll.init f).runT th ops with armed := a, timer := tm } ∧ SimP g a tm ((Poll.init f).runT th ops) := by
  induction ops using List.reverseRecOn with
  | nil =>
    exact ⟨[], [], [], none, by intro pre op post he; simp at he, by intro _ pre op post he; simp at he, rfl, .init f⟩
  | append_singleton ops op ih =>
    obtain ⟨ops', g, a, tm, h1, h1', h2, h3⟩ := ih fun pre o post he hs => h pre o (post ++ [op]) (by rw [he]; simp) hs
    obtain ⟨g', a', tm', op', k1, k2, k3⟩ := h3.step th op
    have ht := tidy_run f ops' h1
    have hop : ∀ u : Poll, Starts u op' → op = op' := by
      intro u hu
      cases k1 with
      | same => rfl
      | not t => cases hu.1
    have hop' : ∀ u : Poll, Stops u op' → op = op' := by
      intro u hu
      cases k1 with
      | same => rfl
      | not t => cases hu.1
    refine ⟨ops' ++ [op'], g', a', tm', ?_, ?_, by rw [run_snoc, runT_snoc, h2, k2], by rw [runT_snoc]; exact k3⟩
    · intro pre o post he hs
      rcases List.eq_nil_or_concat post with rfl | ⟨post', x, rfl⟩
      · obtain ⟨rfl, e⟩ := List.append_inj' he rfl
        simp only [List.cons.injEq, and_true] at e
        subst e
        have := hop _ hs
        subst this
        rw [h2] at hs ht ⊢
        have hv := h ops op [] rfl ⟨hs.1, hs.2.1, hs.2.2⟩
        refine ⟨hv.1, ?_, hv.2.2⟩
        rw [List.eq_nil_iff_forall_not_mem]
        intro x hx
        have := (ht.handle x hx).2
        rw [hs.2.1] at this
        cases this
      · rw [List.concat_eq_append, ← List.cons_append, ← List.append_assoc] at he
        obtain ⟨e, -⟩ := List.append_inj' he rfl
        exact h1 pre o post' e hs
    · intro hst pre o post he hs
      rcases List.eq_nil_or_concat post with rfl | ⟨post', x, rfl⟩
      · obtain ⟨rfl, e⟩ := List.append_inj' he rfl
        simp only [List.cons.injEq, and_true] at e
        subst e
        have := hop' _ hs
        subst this
        rw [h2] at hs ⊢
        exact hst ops op [] rfl ⟨hs.1, hs.2⟩
      · rw [List.concat_eq_append, ← List.cons_append, ← List.append_assoc] at he
        obtain ⟨e, -⟩ := List.append_inj' he rfl
        exact h1' (fun pre o post he hs => hst pre o (post ++ [op]) (by rw [he]; simp) hs) pre o post' e hs

/-- C135, polling time (C58, C59; if the request is only started again after everything earlier has settled): whatever the handler throws, there is at most one poll, and the
polling time passes between a result and the next poll. -/
theorem C135_polling_time_partial (f : Nat) (th : PThrows) (ops : List Poll.Op) (h : OrderlyStartsT f th ops) :
    ((Poll.init f).runT th ops).inFlight.length + ((Poll.init f).runT th ops).armed.length + ((Poll.init f).runT th ops).fired.length ≤ 1 ∧
    ∀ (a : List PEv) (id t1 : Nat) (b : List PEv) (id' t2 : Nat) (c : List PEv),
      ((Poll.init f).runT th ops).log = a ++ PEv.handled id t1 :: (b ++ PEv.sent id' t2 :: c) → PEv.started ∉ b → t1 + pollTime f a ≤ t2 := by
  obtain ⟨ops', g, a, tm, h1, -, h2, h3⟩ := orderly_simP f th ops h
  have hone := C58_single_request_partial f ops' h1
  rw [h2] at hone
  simp only at hone
  constructor
  · have := (List.filter_sublist (l := a) (p := fun x => x.1 ∉ g)).length_le
    rw [← h3.armed] at this
    omega
  · intro a id t1 b id' t2 c hl hb
    exact C59_polling_time_respected_partial f ops' h1 a id t1 b id' t2 c (by rw [h2]; exact hl) hb

/-- C135, stop (C60; in orderly histories): whatever the handler throws, after a stop nothing is sent until the next start. -/
theorem C135_stop_stops_partial (f : Nat) (th : PThrows) (ops : List Poll.Op) (h : OrderlyStartsT f th ops) (h' : OrderlyStopsT f th ops) (a b : List PEv)
    (id t : Nat) (c : List PEv) (hl : ((Poll.init f).runT th ops).log = a ++ PEv.stopped :: (b ++ PEv.sent id t :: c)) : PEv.started ∈ b := by
  obtain ⟨ops', g, ar, tm, h1, h1', h2, -⟩ := orderly_simP f th ops h
  exact C60_stop_stops_partial f ops' h1 (h1' h') a b id t c (by rw [h2]; exact hl)

/-- The handler throws at the first result; `start` does nothing; after `stop` and `start` polling goes on. -/
def tiresomeOps : List Poll.Op :=
  [.start, .runTask, .tick 3, .respond 0, .start, .runTask, .tick 100, .stop, .runTask, .start, .runTask, .respond 1, .tick 10, .expire 1, .runTimer 1]

example : ((Poll.init 10).runT onceThrows tiresomeOps).log =
    [.started, .sent 0 0, .handled 0 3, .stopped, .started, .sent 1 103, .handled 1 103, .sent 2 113] := by decide +kernel

/-- Checks the two conditions of orderliness at each step. -/
def orderlyCheckT (th : PThrows) (v : Poll) : List Poll.Op → Bool
  | [] => true
  | op :: ops =>
    (match op, v.tasks with
     | .runTask, .start :: _ => v.running || (v.inFlight.isEmpty && v.armed.isEmpty && v.fired.isEmpty)
     | .runTask, .stop :: _ => v.fired.isEmpty
     | _, _ => true) && orderlyCheckT th (v.stepT th op) ops

theorem orderlyCheckT_spec (th : PThrows) (v : Poll) (ops : List Poll.Op) (h : orderlyCheckT th v ops = true) : ∀ pre op post, ops = pre ++ op :: post →
    (Starts (v.runT th pre) op → (v.runT th pre).inFlight = [] ∧ (v.runT th pre).armed = [] ∧ (v.runT th pre).fired = []) ∧
    (Stops (v.runT th pre) op → (v.runT th pre).fired = []) := by
  induction ops generalizing v with
  | nil => intro pre op post he; simp at he
  | cons o ops ih =>
    intro pre op post he
    simp only [orderlyCheckT, Bool.and_eq_true] at h
    cases pre with
    | nil =>
      simp only [List.nil_append, List.cons.injEq] at he
      obtain ⟨rfl, rfl⟩ := he
      refine ⟨?_, ?_⟩
      · rintro ⟨rfl, hr, ts, ht⟩
        have hr : v.running = false := hr
        have ht : v.tasks = _ := ht
        have := h.1
        simp only [ht, hr, Bool.false_or, Bool.and_eq_true, List.isEmpty_iff] at this
        exact ⟨this.1.1, this.1.2, this.2⟩
      · rintro ⟨rfl, ts, ht⟩
        have ht : v.tasks = _ := ht
        have := h.1
        simp only [ht, List.isEmpty_iff] at this
        exact this
    | cons p pre =>
      simp only [List.cons_append, List.cons.injEq] at he
      obtain ⟨rfl, rfl⟩ := he
      exact ih (v.stepT th o) h.2 pre op post rfl

example : OrderlyStartsT 10 onceThrows tiresomeOps ∧ OrderlyStopsT 10 onceThrows tiresomeOps :=
  ⟨fun pre op post he => (orderlyCheckT_spec onceThrows (Poll.init 10) tiresomeOps (by decide +kernel) pre op post he).1,
   fun pre op post he => (orderlyCheckT_spec onceThrows (Poll.init 10) tiresomeOps (by decide +kernel) pre op post he).2⟩

/-- The state after the exception meets the conditions of `C135_dead` and `C135_restarted`. -/
example : let v := (Poll.init 10).runT onceThrows [.start, .runTask, .respond 0]
    v.running = true ∧ v.tasks = [] ∧ v.inFlight = [] ∧ v.armed = [] ∧ v.fired = [] ∧
    PEv.stopped ∉ (v.runT onceThrows [.start, .runTask, .tick 100, .expire 0, .runTimer 0]).log.drop v.log.length := by decide +kernel

end Modbus.Props
