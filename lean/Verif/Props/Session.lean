import Verif.Lemmas.Session
import Verif.Props.Scheduled

/-! C72: shutting down a client session. -/

namespace Modbus.Props

open Modbus.Spec Modbus.Sess

/-- C72, full statement: let `shutdown` take effect (the strand runs its task).  In what happens afterwards (`new`), no one-time
request submitted before is sent or reported, and no scheduled request created before sends anything. -/
def C72_Statement : Prop := ∀ (before after : List Sess.Op) (ts : List SessTask) (new : List SessEv),
  (Sess.init.run before).tasks = .shutdown :: ts →
  (Sess.init.run (before ++ .runTask :: after)).log = (Sess.init.run (before ++ [.runTask])).log ++ new →
  (∀ id, id < (Sess.init.run before).nextId → SessEv.sent id ∉ new ∧ SessEv.reported id ∉ new) ∧
  (∀ i, i < (Sess.init.run before).polls.length → pollsSent (effectsOf i new) = [])

/-- C72 fails: shutdown leaves one-time requests alone; a request in flight is reported as if nothing had happened. -/
theorem C72_violated : ¬ C72_Statement := by
  intro h
  have := (h [.send, .runTask, .shutdown] [.report 0] [] [.reported 0] (by decide +kernel) (by decide +kernel)).1 0 (by decide +kernel)
  exact this.2 (by decide)

/-- Also a request that is still queued behind others is sent after the shutdown, and reported. -/
theorem C72_sent_after_shutdown : ∃ ops v, v = Sess.init.run ops ∧ v.log = [.down, .sent 0, .reported 0] ∧
    -- the request was submitted before the shutdown task was run
    ops = [.shutdown, .send] ++ [.runTask, .runTask, .report 0] :=
  ⟨_, _, rfl, by decide +kernel, rfl⟩

/-- What a polling loop does in one round. -/
def loopOps (k : Nat) : List Sess.Op := [.respond 0 k, .tick 10, .expire 0 k, .runTimer 0 k]

/-- `n` rounds, the next request being number `k`. -/
def loops (k : Nat) : Nat → List Sess.Op
  | 0 => []
  | n + 1 => loopOps k ++ loops (k + 1) n

/-- A scheduled request in its polling loop, its `k`-th request in flight. -/
def Looping (k : Nat) (v : Sess) : Prop := ∃ p, v.polls[0]? = some p ∧ p.running = true ∧ p.inFlight = [k] ∧ p.armed = [] ∧ p.fired = [] ∧
  p.nextTimer = k ∧ p.nextId = k + 1 ∧ p.freq = 10

theorem looping_round (k : Nat) (v : Sess) (h : Looping k v) : Looping (k + 1) (v.run (loopOps k)) ∧
    ∃ t t', (v.run (loopOps k)).log = v.log ++ [.poll 0 (.handled k t), .poll 0 (.sent (k + 1) t')] := by
  obtain ⟨p, hp, h1, h2, h3, h4, h5, h6, h7⟩ := h
  obtain ⟨running, freq, timer, tasks, inFlight, armed, fired, now, nextTimer, nextId, log⟩ := p
  simp only at h1 h2 h3 h4 h5 h6 h7
  subst h1 h2 h3 h4 h5 h6 h7
  obtain ⟨polls, registered, halfway, vtasks, vin, vnext, vnow, vlog⟩ := v
  cases polls with
  | nil => cases hp
  | cons q polls =>
    simp only [List.getElem?_cons_zero, Option.some.injEq] at hp
    subst hp
    simp [Looping, loopOps, Sess.run, Sess.step, Sess.onPoll, Poll.step, Poll.onResponse, Poll.emit, Sess.emit, Poll.execute, List.lookup]

/-- C72 fails for scheduled requests too, and for good: `schedule_request` posts the start before the registration, so a shutdown
from another thread that gets in between does not know the request.  Nothing is left to do for the strand, and the request keeps
polling for ever: for every `n` there is a way for it to be sent `n` more times. -/
theorem C72_unstopped_request : ∃ ops, (Sess.init.run ops).tasks = [] ∧ SessEv.down ∈ (Sess.init.run ops).log ∧
    ∀ n, ∃ more new, (Sess.init.run (ops ++ more)).log = (Sess.init.run ops).log ++ new ∧ (pollsSent (effectsOf 0 new)).length = n ∧
      Sess.Op.call 0 .start ∉ more := by
  refine ⟨[.schedule 10, .shutdown, .register 0, .runTask, .runTask, .runTask], by decide +kernel, by decide +kernel, fun n => ?_⟩
  have key : ∀ n k v, Looping k v → ∃ new, (v.run (loops k n)).log = v.log ++ new ∧ (pollsSent (effectsOf 0 new)).length = n := by
    intro n
    induction n with
    | zero => exact fun k v _ => ⟨[], by simp [loops, Sess.run], rfl⟩
    | succ n ih =>
      intro k v h
      obtain ⟨h1, t, t', h2⟩ := looping_round k v h
      obtain ⟨new, h3, h4⟩ := ih (k + 1) _ h1
      refine ⟨[.poll 0 (.handled k t), .poll 0 (.sent (k + 1) t')] ++ new, ?_, ?_⟩
      · show (v.run (loopOps k ++ loops (k + 1) n)).log = _
        rw [Sess.run_append, h3, h2, List.append_assoc]
      · rw [effectsOf_append]
        have : effectsOf 0 [.poll 0 (.handled k t), .poll 0 (.sent (k + 1) t')] = [.handled k t, .sent (k + 1) t'] := rfl
        rw [this, Poll.pollsSent_append, List.length_append, h4]
        simp [pollsSent]; omega
  have hno : ∀ n k, Sess.Op.call 0 .start ∉ loops k n := by
    intro n
    induction n with
    | zero => exact fun k => by simp [loops]
    | succ n ih => exact fun k => by simp [loops, loopOps, ih]
  obtain ⟨new, h1, h2⟩ := key n 0 (Sess.init.run [.schedule 10, .shutdown, .register 0, .runTask, .runTask, .runTask])
    ⟨_, rfl, by decide +kernel, by decide +kernel, by decide +kernel, by decide +kernel, by decide +kernel, by decide +kernel,
      by decide +kernel⟩
  exact ⟨loops 0 n, new, by rw [Sess.run_append]; exact h1, h2, hno n 0⟩

/-- C72 (partial: scheduled requests that are registered when the shutdown takes effect).  Once the tasks that are queued then have
run, each of them has been stopped. -/
theorem C72_registered_stopped_partial (before after : List Sess.Op) (ts : List SessTask) (i : Nat)
    (ht : (Sess.init.run before).tasks = .shutdown :: ts) (hi : i ∈ (Sess.init.run before).registered)
    (hn : ts.length + (Sess.init.run before).registered.length ≤ runs after) :
    ∃ new, (Sess.init.run (before ++ .runTask :: after)).log = (Sess.init.run (before ++ [.runTask])).log ++ new ∧
      SessEv.poll i .stopped ∈ new := by
  obtain ⟨v, hv⟩ : ∃ v, v = Sess.init.run before := ⟨_, rfl⟩
  have hg := good_run before
  rw [← hv] at ht hi hn hg
  have hs : v.step .runTask = { v with tasks := ts }.runTask .shutdown := by simp only [Sess.step]; rw [ht]
  have h1 : Sess.init.run (before ++ [.runTask]) = v.step .runTask := by rw [Sess.run_append, ← hv]; rfl
  have h2 : Sess.init.run (before ++ .runTask :: after) = (v.step .runTask).run after := by rw [Sess.run_append, ← hv]; rfl
  obtain ⟨a, b, hab⟩ := List.append_of_mem hi
  rw [h1, h2]
  refine stop_runs (v.step .runTask) after i (ts ++ a.map fun i => .poll i .stop) (b.map fun i => .poll i .stop) ?_ ?_ ?_
  · rw [hs]
    show ts ++ v.registered.map _ = _
    rw [hab]; simp
  · exact Nat.lt_of_lt_of_le (hg.reg i (.inl hi)) (polls_length_step _ _)
  · rw [hab] at hn
    simp only [List.length_append, List.length_map, List.length_cons] at hn ⊢
    omega

/-- Every time a start (stop) of scheduled request `i` takes effect, what earlier runs left behind is over: no request in flight and no
timer pending (no expired timer waiting to run). -/
def OrderlySess (i : Nat) (ops : List Sess.Op) : Prop := ∀ pre post p, ops = pre ++ .runTask :: post →
  (Sess.init.run pre).polls[i]? = some p →
  (∀ ts, (Sess.init.run pre).tasks = .poll i .start :: ts → p.running = false → p.inFlight = [] ∧ p.armed = [] ∧ p.fired = []) ∧
  (∀ ts, (Sess.init.run pre).tasks = .poll i .stop :: ts → p.fired = [])

theorem orderly_snoc {f : Nat} {pops : List Poll.Op} {op : Poll.Op} (h : OrderlyStarts f pops) (h' : OrderlyStops f pops)
    (h1 : Poll.Starts ((Poll.init f).run pops) op → ((Poll.init f).run pops).inFlight = [] ∧ ((Poll.init f).run pops).armed = [] ∧
      ((Poll.init f).run pops).fired = [])
    (h2 : Poll.Stops ((Poll.init f).run pops) op → ((Poll.init f).run pops).fired = []) :
    OrderlyStarts f (pops ++ [op]) ∧ OrderlyStops f (pops ++ [op]) := by
  have split : ∀ {pre o post}, pops ++ [op] = pre ++ o :: post → (pre = pops ∧ o = op) ∨ ∃ post', pops = pre ++ o :: post' := by
    intro pre o post he
    rcases List.eq_nil_or_concat post with hp | ⟨post', x, hp⟩
    · subst hp
      have := List.append_inj' he rfl
      exact .inl ⟨this.1.symm, by simpa using this.2.symm⟩
    · subst hp
      have he' : pops ++ [op] = (pre ++ o :: post') ++ [x] := by simpa using he
      exact .inr ⟨post', (List.append_inj' he' rfl).1⟩
  constructor
  · intro pre o post he hs
    rcases split he with ⟨rfl, rfl⟩ | ⟨post', hp⟩
    · exact h1 hs
    · exact h pre o post' hp hs
  · intro pre o post he hs
    rcases split he with ⟨rfl, rfl⟩ | ⟨post', hp⟩
    · exact h2 hs
    · exact h' pre o post' hp hs

theorem orderly_other {f : Nat} {pops : List Poll.Op} (l : List Poll.Op) (h : OrderlyStarts f pops) (h' : OrderlyStops f pops)
    (hl : Poll.Op.runTask ∉ l) : OrderlyStarts f (pops ++ l) ∧ OrderlyStops f (pops ++ l) := by
  induction l using List.reverseRecOn with
  | nil => rw [List.append_nil]; exact ⟨h, h'⟩
  | append_singleton l op ih =>
    have hl' : Poll.Op.runTask ∉ l ∧ op ≠ .runTask := by
      simp only [List.mem_append, List.mem_singleton] at hl
      exact ⟨fun hh => hl (.inl hh), fun hh => hl (.inr hh.symm)⟩
    obtain ⟨h1, h2⟩ := ih hl'.1
    rw [← List.append_assoc]
    exact orderly_snoc h1 h2 (fun hs => absurd hs.1 hl'.2) (fun hs => absurd hs.1 hl'.2)

theorem orderly_view (ops : List Sess.Op) (i : Nat) (ho : OrderlySess i ops) (h : i < (Sess.init.run ops).polls.length) :
    ∃ f pops, view i (Sess.init.run ops) = some ((Poll.init f).run pops) ∧ OrderlyStarts f pops ∧ OrderlyStops f pops := by
  induction ops using List.reverseRecOn with
  | nil => simp [Sess.init, Sess.run] at h
  | append_singleton ops op ih =>
    have ho' : OrderlySess i ops := fun pre post p he hp => ho pre (post ++ [op]) p (by rw [he]; simp) hp
    by_cases hi : i < (Sess.init.run ops).polls.length
    · obtain ⟨f, pops, hv, h1, h2⟩ := ih ho' hi
      refine ⟨f, pops ++ opsFor i (Sess.init.run ops) op, ?_, ?_⟩
      · rw [Sess.run_append]
        show view i ((Sess.init.run ops).step op) = _
        rw [view_step op hv]
        simp [Poll.run]
      · by_cases hr : Poll.Op.runTask ∈ opsFor i (Sess.init.run ops) op
        · have hop : op = .runTask ∧ ∃ t ts, (Sess.init.run ops).tasks = .poll i t :: ts := by
            cases op with
            | call j t => simp only [opsFor] at hr; split at hr <;> cases t <;> simp [Poll.callOf] at hr
            | runTask =>
              refine ⟨rfl, ?_⟩
              simp only [opsFor] at hr
              split at hr
              · next j t ts ht =>
                split at hr
                · next hj => subst hj; exact ⟨t, ts, ht⟩
                · cases hr
              · simp at hr
              · cases hr
            | respond j id => simp only [opsFor] at hr; split at hr <;> simp at hr
            | tick n => simp [opsFor] at hr
            | expire j t => simp only [opsFor] at hr; split at hr <;> simp at hr
            | runTimer j t => simp only [opsFor] at hr; split at hr <;> simp at hr
            | send => cases hr
            | schedule f => cases hr
            | register j => cases hr
            | shutdown => cases hr
            | report id => cases hr
          obtain ⟨rfl, t, ts, ht⟩ := hop
          have : opsFor i (Sess.init.run ops) .runTask = [.runTask] := by simp [opsFor, ht]
          rw [this]
          have hp : ∃ q, (Sess.init.run ops).polls[i]? = some q := ⟨_, List.getElem?_eq_getElem hi⟩
          obtain ⟨q, hq⟩ := hp
          have hvq : (Poll.init f).run pops = q.withTasks (tasksOf i (Sess.init.run ops).tasks) := by
            have := hv
            unfold view at this
            rw [hq] at this
            exact (Option.some.inj this).symm
          have htasks : ((Poll.init f).run pops).tasks = t :: tasksOf i ts := by
            rw [hvq]; show tasksOf i _ = _; rw [ht]; simp [tasksOf]
          obtain ⟨o1, o2⟩ := ho ops [] q rfl hq
          refine orderly_snoc h1 h2 ?_ ?_
          · rintro ⟨-, hr, ts', he⟩
            rw [htasks] at he
            injection he with he _
            subst he
            have := o1 ts ht (by rw [hvq] at hr; exact hr)
            rw [hvq]; exact this
          · rintro ⟨-, ts', he⟩
            rw [htasks] at he
            injection he with he _
            subst he
            rw [hvq]; exact o2 ts ht
        · exact orderly_other _ h1 h2 hr
    · cases op with
      | schedule f =>
        have hlen : i = (Sess.init.run ops).polls.length := by
          rw [Sess.run_append] at h
          simp only [Sess.run, List.foldl, Sess.step, List.length_append, List.length_singleton] at h hi ⊢; omega
        refine ⟨f, [] ++ [.tick (Sess.init.run ops).now, .start], ?_, ?_⟩
        · rw [Sess.run_append]
          exact view_schedule _ (good_run ops) f i hlen
        · exact orderly_other (pops := []) _ (by intro pre op post he; simp at he) (by intro pre op post he; simp at he) (by simp)
      | _ => rw [Sess.run_append] at h; exact absurd (polls_length_only_schedule _ _ (by simp) h) hi

/-- C72 (partial: if, whenever a start or stop takes effect, what earlier runs left behind is over).  After a scheduled request of the
session was stopped — as shutdown does — it sends nothing until it is started again. -/
theorem C72_stopped_request_is_silent_partial (ops : List Sess.Op) (i : Nat) (ho : OrderlySess i ops) (a b : List PEv) (id t : Nat) (c : List PEv)
    (hl : effectsOf i (Sess.init.run ops).log = a ++ .stopped :: (b ++ .sent id t :: c)) : PEv.started ∈ b := by
  have hi : i < (Sess.init.run ops).polls.length := by
    rcases Nat.lt_or_ge i (Sess.init.run ops).polls.length with h | h
    · exact h
    · rw [(good_run ops).fresh i h] at hl
      simp at hl
  obtain ⟨f, pops, hv, h1, h2⟩ := orderly_view ops i ho hi
  refine C60_stop_stops_partial f pops h1 h2 a b id t c ?_
  rw [← hl, (good_run ops).effects i _ (List.getElem?_eq_getElem hi)]
  have := hv
  unfold view at this
  rw [List.getElem?_eq_getElem hi] at this
  rw [← Option.some.inj this]; rfl

/-- What a session adds to its scheduled requests: nothing but the stops.  The effects of each are those of some history of a scheduled
request alone, so C58–C61 hold for it. -/
theorem C72_scheduled_as_alone_partial (ops : List Sess.Op) (i : Nat) (hi : i < (Sess.init.run ops).polls.length) :
    ∃ f v, PReach f v ∧ effectsOf i (Sess.init.run ops).log = v.log := by
  obtain ⟨f, pops, hv⟩ := view_reach ops i hi
  refine ⟨f, _, ⟨pops, rfl⟩, ?_⟩
  rw [(good_run ops).effects i _ (List.getElem?_eq_getElem hi)]
  have := hv
  unfold view at this
  rw [List.getElem?_eq_getElem hi] at this
  rw [← Option.some.inj this]; rfl

/-- One-time requests: shut down or not, each is sent at most once and reported at most once, after it was sent, and none is
reported or sent that was not submitted. -/
theorem C72_one_time_once_partial (ops : List Sess.Op) (id : Nat) :
    timesSent id (Sess.init.run ops).log ≤ 1 ∧ timesReported id (Sess.init.run ops).log ≤ timesSent id (Sess.init.run ops).log ∧
    ((Sess.init.run ops).nextId ≤ id → timesSent id (Sess.init.run ops).log = 0) := by
  have h := once_run ops
  have h1 := h.queued id
  have h2 := h.flying id
  unfold submitted at h1
  refine ⟨by split at h1 <;> omega, by omega, fun hh => ?_⟩
  rw [if_neg (by omega)] at h1
  omega

/-- A session with two scheduled requests, one of them answered, shut down. -/
def sessDemo : List Sess.Op :=
  [.schedule 10, .register 0, .schedule 20, .register 1, .send, .runTask, .runTask, .runTask, .runTask, .runTask, .respond 0 0, .tick 3, .shutdown]

example : ∃ new, (Sess.init.run (sessDemo ++ .runTask :: [.runTask, .respond 1 0, .runTask])).log =
    (Sess.init.run (sessDemo ++ [.runTask])).log ++ new ∧ SessEv.poll 1 .stopped ∈ new :=
  C72_registered_stopped_partial sessDemo [.runTask, .respond 1 0, .runTask] [] 1 (by decide +kernel) (by decide +kernel) (by decide +kernel)

/-- Checks orderliness at each step. -/
def orderlySessCheck (i : Nat) (v : Sess) : List Sess.Op → Bool
  | [] => true
  | op :: ops =>
    (match op, v.tasks, v.polls[i]? with
     | .runTask, .poll j .start :: _, some p => j ≠ i || p.running || (p.inFlight.isEmpty && p.armed.isEmpty && p.fired.isEmpty)
     | .runTask, .poll j .stop :: _, some p => j ≠ i || p.fired.isEmpty
     | _, _, _ => true) && orderlySessCheck i (v.step op) ops

theorem orderlySessCheck_spec (i : Nat) (v : Sess) (ops : List Sess.Op) (h : orderlySessCheck i v ops = true) :
    ∀ pre post p, ops = pre ++ .runTask :: post → (v.run pre).polls[i]? = some p →
    (∀ ts, (v.run pre).tasks = .poll i .start :: ts → p.running = false → p.inFlight = [] ∧ p.armed = [] ∧ p.fired = []) ∧
    (∀ ts, (v.run pre).tasks = .poll i .stop :: ts → p.fired = []) := by
  induction ops generalizing v with
  | nil => intro pre post p he; simp at he
  | cons o ops ih =>
    intro pre post p he hp
    simp only [orderlySessCheck, Bool.and_eq_true] at h
    cases pre with
    | nil =>
      injection he with h1 h2
      subst h1
      have hp' : v.polls[i]? = some p := hp
      have h0 := h.1
      constructor
      · intro ts ht hr
        have ht' : v.tasks = _ := ht
        rw [ht', hp'] at h0
        simpa [hr, and_assoc] using h0
      · intro ts ht
        have ht' : v.tasks = _ := ht
        rw [ht', hp'] at h0
        simpa using h0
    | cons x pre =>
      injection he with h1 h2
      subst h1
      exact ih _ h.2 pre post p h2 hp

/-- The demo goes on: the shutdown takes effect, the strand empties, and later the user starts request 0 again. -/
def sessDemo2 : List Sess.Op := sessDemo ++ [.runTask, .runTask, .runTask, .respond 1 0, .tick 30, .call 0 .start, .runTask]

example : PEv.started ∈ [PEv.started] :=
  C72_stopped_request_is_silent_partial sessDemo2 0 (orderlySessCheck_spec 0 Sess.init sessDemo2 (by decide +kernel))
    [.started, .sent 0 0, .handled 0 0] [.started] 1 33 [] (by decide +kernel)

example : ∃ f v, PReach f v ∧ effectsOf 1 (Sess.init.run sessDemo2).log = v.log :=
  C72_scheduled_as_alone_partial sessDemo2 1 (by decide +kernel)

example : timesSent 0 (Sess.init.run sessDemo2).log = 1 := by decide +kernel

end Modbus.Props
