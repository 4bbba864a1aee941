import Verif.Lemmas.UserLate

/-! Properties C126 and C127: timers of the user's, and what runs after shutdown. -/

namespace Modbus.Props

open Spec

/-- A state the client and the user's code can get into. -/
def UReach (env : ClientEnv) (prog : UserCode) (v : Upr) : Prop := ∃ ops, (Upr.init env).run env prog ops = .ret v

theorem Upr.run_append {env : ClientEnv} {prog : UserCode} (ops ops' : List Upr.Op) : ∀ v : Upr,
    v.run env prog (ops ++ ops') = v.run env prog ops >>= fun w => w.run env prog ops' := by
  induction ops with
  | nil => intro v; rfl
  | cons op ops ih =>
    intro v
    simp only [List.cons_append, Upr.run]
    cases v.step env prog op with
    | ub => rfl
    | ret w => exact ih w

theorem UReach.step {env : ClientEnv} {prog : UserCode} {v w : Upr} {op : Upr.Op} (h : UReach env prog v) (hs : v.step env prog op = .ret w) :
    UReach env prog w := by
  obtain ⟨ops, h⟩ := h
  refine ⟨ops ++ [op], ?_⟩
  rw [Upr.run_append, h]
  simp [Upr.run, hs]

/-- What holds at the start and is kept by every step holds always. -/
theorem UReach.always {env : ClientEnv} {prog : UserCode} {P : Upr → Prop} (h0 : P (Upr.init env))
    (hs : ∀ v w op new, UReach env prog v → P v → Upr.Move env prog v op w new → P w) {v : Upr} (h : UReach env prog v) : P v := by
  obtain ⟨ops, h⟩ := h
  have key : ∀ (ops : List Upr.Op) (v w : Upr), UReach env prog v → P v → v.run env prog ops = .ret w → P w := by
    intro ops
    induction ops with
    | nil => intro v w _ hp hr; injection hr with hr; subst hr; exact hp
    | cons op ops ih =>
      intro v w hv hp hr
      obtain ⟨u, hu, hr⟩ := CM.bind_eq_ret.1 hr
      obtain ⟨new, hm⟩ := Upr.step_move hu
      exact ih u w (hv.step hu) (hs v u op new hv hp hm) hr
  exact key ops _ v ⟨[], rfl⟩ h0 h

theorem UReach.inv {env : ClientEnv} {prog : UserCode} {v : Upr} (h : UReach env prog v) : Upr.Inv env v :=
  h.always (P := Upr.Inv env) (.init env) fun _ _ _ _ _ hp hm => hp.step hm

/-! ### C126 -/

/-- C126: timers have their own identity; the action of a timer is called at most once, not before the time the timer was started for, and with the function it
was started with. -/
theorem C126_once_and_on_time (env : ClientEnv) (prog : UserCode) (v : Upr) (h : UReach env prog v) : (timersStarted v.log).Nodup ∧ (actionsRun v.log).Nodup ∧
    ∀ a b k f t, v.log = a ++ .action k f t :: b → ∃ d t0, UEv.started k d f t0 ∈ a ∧ d ≤ t := by
  have hi := h.inv
  refine ⟨by rw [hi.timers.started]; exact List.nodup_range, List.nodup_iff_count_le_one.2 fun k => ?_, fun a b k f t he => hi.just a _ b he⟩
  have := hi.timers.once k
  omega

/-- C126: a timer that is cancelled before its time is never called. -/
theorem C126_cancelled (env : ClientEnv) (prog : UserCode) (v : Upr) (h : UReach env prog v) (k d f t0 t : Nat) (hs : UEv.started k d f t0 ∈ v.log)
    (hc : UEv.cancelled k t ∈ v.log) (ht : t < d) : k ∉ actionsRun v.log := by
  intro hm
  obtain ⟨g, t1, ha⟩ := mem_actionsRun.1 hm
  obtain ⟨-, d', t0', h1, -, h2⟩ := h.inv.timers.acted k g t1 ha
  obtain ⟨rfl, -⟩ := startedUnique h.inv.timers.started hs h1
  have := h2 t hc
  omega

theorem urun_log {env : ClientEnv} {prog : UserCode} (ops : List Upr.Op) : ∀ {v w : Upr}, v.run env prog ops = .ret w → v.log <+: w.log := by
  induction ops with
  | nil => intro v w h; injection h with h; subst h; exact List.prefix_rfl
  | cons op ops ih =>
    intro v w h
    obtain ⟨x, hx, h⟩ := CM.bind_eq_ret.1 h
    obtain ⟨new, hm⟩ := Upr.step_move hx
    exact List.IsPrefix.trans (by rw [hm.log]; exact List.prefix_append _ _) (ih h)

/-- C126: a timer started with a duration is called when the duration has passed or later, one started with a time at that time or later, with the action it
was started with.  The timer started is the one whose number is the number of timers started before. -/
theorem C126_delay (env : ClientEnv) (prog : UserCode) (v w x : Upr) (h : UReach env prog v) (c : UCall) (due f : Nat)
    (hc : (∃ d, c = .start d f ∧ due = v.cli.now + d) ∨ c = .startAt due f) (hs : v.step env prog (.call c) = .ret w) (ops : List Upr.Op)
    (hr : w.run env prog ops = .ret x) (g t : Nat) (ha : UEv.action (timersStarted v.log).length g t ∈ x.log) : g = f ∧ due ≤ t := by
  have hk : (timersStarted v.log).length = v.nextK := by rw [h.inv.timers.started, List.length_range]
  have hw : w.log = v.log ++ [.started v.nextK due f v.cli.now] := by
    rcases hc with ⟨d, rfl, rfl⟩ | rfl <;> (injection hs with hs; subst hs; rfl)
  have hx : UReach env prog x := by
    obtain ⟨pre, hp⟩ := h.step hs
    exact ⟨pre ++ ops, by rw [Upr.run_append, hp]; exact hr⟩
  have hst : UEv.started v.nextK due f v.cli.now ∈ x.log := (urun_log ops hr).subset (by rw [hw]; simp)
  rw [hk] at ha
  obtain ⟨a, b, he⟩ := List.append_of_mem ha
  obtain ⟨d', t0, h1, h2⟩ := (C126_once_and_on_time env prog x hx).2.2 a b _ g t he
  obtain ⟨rfl, rfl, -⟩ := startedUnique hx.inv.timers.started hst (by rw [he]; exact List.mem_append_left _ h1)
  exact ⟨rfl, h2⟩

/-- An infinite execution. -/
structure UExecution (env : ClientEnv) (prog : UserCode) (ops : Nat → Upr.Op) (σ : Nat → Upr) : Prop where
  start : σ 0 = Upr.init env
  next : ∀ n, (σ n).step env prog (ops n) = .ret (σ (n + 1))

/-- Fairness of the executor: the user's functions go on, posted tasks get run, timers do not stay armed for ever, queued expiries get run. -/
structure UFair (ops : Nat → Upr.Op) (σ : Nat → Upr) : Prop where
  user : ∀ n, (σ n).idle = false → ∃ m, n ≤ m ∧ ops m = .user
  tasks : ∀ n, (σ n).cli.tasks ≠ [] → ∃ m, n ≤ m ∧ ops m = .chan .runTask ∧ (σ m).idle = true
  chanTimers : ∀ n t, t ∈ (σ n).cli.armed.map (·.1) → ∃ m, n ≤ m ∧ t ∉ (σ m).cli.armed.map (·.1)
  chanCallbacks : ∀ n t, t ∈ (σ n).cli.fired → ∃ m, n ≤ m ∧ t ∉ (σ m).cli.fired
  timers : ∀ n k, k ∈ (σ n).armed.map (·.1) → ∃ m, n ≤ m ∧ k ∉ (σ m).armed.map (·.1)
  callbacks : ∀ n k, k ∈ (σ n).fired.map (·.1) → ∃ m, n ≤ m ∧ k ∉ (σ m).fired.map (·.1)

namespace UExecution

variable {env : ClientEnv} {prog : UserCode} {ops : Nat → Upr.Op} {σ : Nat → Upr}

theorem reach (h : UExecution env prog ops σ) (n : Nat) : UReach env prog (σ n) := by
  induction n with
  | zero => rw [h.start]; exact ⟨[], rfl⟩
  | succ n ih => exact ih.step (h.next n)

theorem move (h : UExecution env prog ops σ) (n : Nat) : ∃ new, Upr.Move env prog (σ n) (ops n) (σ (n + 1)) new := Upr.step_move (h.next n)

theorem log_mono (h : UExecution env prog ops σ) {n m : Nat} (hm : n ≤ m) : (σ n).log <+: (σ m).log := by
  induction hm with
  | refl => exact List.prefix_rfl
  | step _ ih =>
    obtain ⟨new, hm⟩ := h.move _
    exact ih.trans (by rw [hm.log]; exact List.prefix_append _ _)

end UExecution

/-- An armed timer that is not cancelled has expired when it is no longer armed. -/
theorem armed_next {env : ClientEnv} {prog : UserCode} {v w : Upr} {op : Upr.Op} {new : List UEv} (hm : Upr.Move env prog v op w new) {k : Nat}
    (hk : k ∈ v.armed.map (·.1)) (hc : ∀ t, UEv.cancelled k t ∉ w.log) : k ∈ w.armed.map (·.1) ∨ k ∈ w.fired.map (·.1) := by
  cases hm with
  | cancel hb hj =>
    rename_i td j
    left
    obtain ⟨x, hx, rfl⟩ := List.mem_map.1 hk
    refine List.mem_map.2 ⟨x, List.mem_filter.2 ⟨hx, ?_⟩, rfl⟩
    simp only [decide_eq_true_eq]
    rintro rfl
    exact hc v.cli.now (by simp)
  | expire ho hl ht =>
    rename_i j time f
    by_cases hj : k = j
    · subst hj; right; simp
    · left
      obtain ⟨x, hx, rfl⟩ := List.mem_map.1 hk
      exact List.mem_map.2 ⟨x, List.mem_filter.2 ⟨hx, by simpa using hj⟩, rfl⟩
  | start hb hj => left; rw [List.map_append]; exact List.mem_append_left _ hk
  | _ => exact .inl hk

/-- A queued expiry stays until it is run. -/
theorem fired_next {env : ClientEnv} {prog : UserCode} {v w : Upr} {op : Upr.Op} {new : List UEv} (hm : Upr.Move env prog v op w new) {k : Nat}
    (hk : k ∈ v.fired.map (·.1)) : k ∈ w.fired.map (·.1) ∨ ∃ f, w.log = v.log ++ [.action k f v.cli.now] ∧ w.todo = prog f w.log ∧ (k, f) ∈ v.fired := by
  cases hm with
  | action ho hi hl =>
    rename_i j f
    by_cases hj : k = j
    · subst hj; exact .inr ⟨f, rfl, rfl, Upr.lookup_mem2 hl⟩
    · left
      obtain ⟨x, hx, rfl⟩ := List.mem_map.1 hk
      exact List.mem_map.2 ⟨x, List.mem_filter.2 ⟨hx, by simpa using hj⟩, rfl⟩
  | expire ho hl ht => left; rw [List.map_append]; exact List.mem_append_left _ hk
  | _ => exact .inl hk

/-- An expired timer's action is called. -/
theorem fired_runs {env : ClientEnv} {prog : UserCode} {ops : Nat → Upr.Op} {σ : Nat → Upr} (hx : UExecution env prog ops σ) (hf : UFair ops σ) {n k : Nat}
    (hk : k ∈ (σ n).fired.map (·.1)) : ∃ m f, n ≤ m ∧ (σ (m + 1)).log = (σ m).log ++ [.action k f (σ m).cli.now] ∧ (σ (m + 1)).todo = prog f (σ (m + 1)).log ∧
      (k, f) ∈ (σ m).fired := by
  obtain ⟨m, hm, hno⟩ := hf.callbacks n k hk
  by_contra hcon
  have : ∀ j, n ≤ j → k ∈ (σ j).fired.map (·.1) := by
    intro j hj
    induction hj with
    | refl => exact hk
    | @step j hj ih =>
      obtain ⟨new, hmv⟩ := hx.move j
      rcases fired_next hmv ih with h | ⟨f, h1, h2, h3⟩
      · exact h
      · exact absurd ⟨j, f, hj, h1, h2, h3⟩ hcon
  exact hno (this m hm)

/-- A timer that is not cancelled is called. -/
theorem armed_runs {env : ClientEnv} {prog : UserCode} {ops : Nat → Upr.Op} {σ : Nat → Upr} (hx : UExecution env prog ops σ) (hf : UFair ops σ) {n k : Nat}
    (hk : k ∈ (σ n).armed.map (·.1) ∨ k ∈ (σ n).fired.map (·.1)) (hc : ∀ m t, UEv.cancelled k t ∉ (σ m).log) :
    ∃ m f, n ≤ m ∧ (σ (m + 1)).log = (σ m).log ++ [.action k f (σ m).cli.now] ∧ (σ (m + 1)).todo = prog f (σ (m + 1)).log ∧ (k, f) ∈ (σ m).fired := by
  rcases hk with hk | hk
  · obtain ⟨m, hm, hno⟩ := hf.timers n k hk
    by_contra hcon
    have : ∀ j, n ≤ j → k ∈ (σ j).armed.map (·.1) := by
      intro j hj
      induction hj with
      | refl => exact hk
      | @step j hj ih =>
        have hj' : n ≤ j := hj
        obtain ⟨new, hmv⟩ := hx.move j
        rcases armed_next hmv ih (hc (j + 1)) with h | h
        · exact h
        · obtain ⟨m, f, h1, h2, h3, h4⟩ := fired_runs hx hf h
          exact absurd ⟨m, f, by omega, h2, h3, h4⟩ hcon
    exact hno (this m hm)
  · exact fired_runs hx hf hk

/-- C126: in every fair execution the action of a timer that is never cancelled is called, even if the channel is shut down. -/
theorem C126_called (env : ClientEnv) (prog : UserCode) (ops : Nat → Upr.Op) (σ : Nat → Upr) (hx : UExecution env prog ops σ) (hf : UFair ops σ) (n k d f t0 : Nat)
    (hs : UEv.started k d f t0 ∈ (σ n).log) (hc : ∀ m t, UEv.cancelled k t ∉ (σ m).log) : ∃ m t, UEv.action k f t ∈ (σ m).log := by
  have hi := (hx.reach n).inv.timers
  have hlt : k < (σ n).nextK := by
    have : k ∈ timersStarted (σ n).log := mem_timersStarted.2 ⟨_, _, _, hs⟩
    rw [hi.started] at this
    exact List.mem_range.1 this
  have hcov := hi.covered k hlt (hc n)
  by_cases ha : k ∈ actionsRun (σ n).log
  · obtain ⟨g, t, ha⟩ := mem_actionsRun.1 ha
    obtain ⟨-, d', t1, h1, -⟩ := hi.acted k g t ha
    obtain ⟨-, rfl, -⟩ := startedUnique hi.started hs h1
    exact ⟨n, t, ha⟩
  · rw [List.count_eq_zero.2 ha] at hcov
    have hk : k ∈ (σ n).armed.map (·.1) ∨ k ∈ (σ n).fired.map (·.1) := by
      by_contra hcon
      rw [not_or] at hcon
      rw [List.count_eq_zero.2 hcon.1, List.count_eq_zero.2 hcon.2] at hcov
      omega
    obtain ⟨m, g, h0, h1, -, h3⟩ := armed_runs hx hf hk hc
    obtain ⟨d', t', h4, -⟩ := (hx.reach m).inv.timers.fired k g h3
    obtain ⟨-, rfl, -⟩ := startedUnique (hx.reach m).inv.timers.started ((hx.log_mono h0).subset hs) h4
    exact ⟨m + 1, (σ m).cli.now, by rw [h1]; simp⟩

/-! ### C127 -/

/-- C127, in full: once the shutdown of a channel has taken effect no function of the user's is called any more. -/
def C127_Statement : Prop := ∀ (env : ClientEnv) (prog : UserCode) (v : Upr), UReach env prog v → ∀ a b, v.log = a ++ .ch .tcpShutdown :: b →
  actionsRun b = [] ∧ repliesRun b = []

/-- The state after a history. -/
def udemo (prog : UserCode) (ops : List Upr.Op) : CM Upr := (Upr.init demoEnv).run demoEnv prog ops

def udemoLog (v : CM Upr) : Option (List UEv) :=
  match v with
  | .ret v => some v.log
  | .ub => none

theorem udemo_reach {prog : UserCode} {ops : List Upr.Op} {l : List UEv} (h : udemoLog (udemo prog ops) = some l) : ∃ v, UReach demoEnv prog v ∧ v.log = l := by
  cases hv : udemo prog ops with
  | ub => rw [hv] at h; cases h
  | ret v => rw [hv] at h; injection h with h; exact ⟨v, ⟨ops, hv⟩, h⟩

/-- C127 does not hold: a timer that was started before is called after the channel has been shut down. -/
theorem C127_violated : ¬ C127_Statement := by
  intro h
  obtain ⟨v, hv, hl⟩ := udemo_reach (prog := fun _ _ => []) (ops := [.call (.start 5 0), .call .shutdown, .chan .runTask, .tick 5, .expire 0, .runTimer 0])
    (l := [.started 0 5 0 0] ++ .ch .tcpShutdown :: [.action 0 0 5]) (by decide +kernel)
  exact absurd (h demoEnv _ v hv _ _ hl).1 (by decide)

/-- Before the shutdown took effect the strand had finished the handlers of everything reported so far. -/
theorem shutdown_idle {env : ClientEnv} {prog : UserCode} {v : Upr} (h : UReach env prog v) : ∀ a b, v.log = a ++ .ch .tcpShutdown :: b →
    repliesRun a = handledUids (chanOf a) := by
  refine h.always (P := fun v => ∀ a b, v.log = a ++ .ch .tcpShutdown :: b → repliesRun a = handledUids (chanOf a)) (by intro a b he; simp [Upr.init] at he) ?_
  intro v w op new hv hp hm a b he
  rw [hm.log] at he
  rcases split_where he with ⟨z, h1, h2⟩ | ⟨b', h1⟩
  · have hin : UEv.ch .tcpShutdown ∈ new := by rw [h2]; simp
    cases hm with
    | ask => simp at hin
    | start => simp at hin
    | cancel => simp at hin
    | reply => simp at hin
    | action => simp at hin
    | chan ho hi hst hl hnow hnu hh hcall =>
      rename_i cop c es
      have hin' : CEv.tcpShutdown ∈ es := by simpa using hin
      have hsd : es = v.cli.sessions.map CEv.sessionShutdown ++ [.tcpShutdown] ∧ v.idle = true := by
        have ho' : Pcl.ownChan cop = true := by
          rcases hi with ⟨-, hi⟩ | ⟨t, rfl⟩
          · cases cop <;> first | rfl | cases hi
          · rfl
        rcases Cli.own_step hst ho' with hs | ⟨ts, h3, -, h4, -⟩
        · obtain ⟨es', h3, h4⟩ := hs.log
          obtain rfl := List.append_cancel_left (hl.symm.trans h3)
          exact absurd (h4 _ hin') (by simp [CEv.inside])
        · refine ⟨List.append_cancel_left (hl.symm.trans h4), ?_⟩
          rcases hi with ⟨hi, -⟩ | ⟨t, rfl⟩
          · exact hi
          · cases h3
      obtain ⟨rfl, hid⟩ := hsd
      have hnd : v.due = [] := by
        simp only [Upr.idle, Bool.and_eq_true, List.isEmpty_iff] at hid
        exact hid.1
      have hz : ∃ l : List Nat, z = (l.map CEv.sessionShutdown).map UEv.ch := by
        rw [List.map_append] at h2
        rcases List.append_eq_append_iff.1 h2.symm with ⟨y, e1, e2⟩ | ⟨y, e1, e2⟩
        · have hpre : z <+: (v.cli.sessions.map CEv.sessionShutdown).map UEv.ch := ⟨y, e1.symm⟩
          rw [List.map_map] at hpre
          exact ⟨v.cli.sessions.take z.length, by rw [List.prefix_iff_eq_take.1 hpre, List.map_map, List.map_take]; simp⟩
        · cases y with
          | nil => exact ⟨v.cli.sessions, by rw [e1]; simp⟩
          | cons y ys =>
            have := congrArg List.length e2
            simp at this
      obtain ⟨l, rfl⟩ := hz
      have hrep := hv.inv.replies
      rw [hnd, List.map_nil, List.append_nil] at hrep
      rw [h1, repliesRun_append, repliesRun_map, chanOf_append, chanOf_map, List.append_nil, hrep]
      have : ∀ l : List Nat, handledUids (l.map CEv.sessionShutdown) = [] := by
        intro l
        rw [List.eq_nil_iff_forall_not_mem]
        intro u hu
        obtain ⟨x, t, hx⟩ := mem_handledUids.1 hu
        simp at hx
      simp only [handledUids, List.filterMap_append] at this ⊢
      rw [this l, List.append_nil]
    | _ => cases hin
  · exact hp a b' h1

/-- C127, what holds of it: after shutdown nothing is sent; the only response handlers called are those of invalid requests that were made before the shutdown;
requests made afterwards are dropped.  Missing: the calls of those handlers, and of the actions of timers, see `C127_violated`. -/
theorem C127_requests_partial (env : ClientEnv) (prog : UserCode) (v : Upr) (h : UReach env prog v) (a b : List UEv)
    (he : v.log = a ++ .ch .tcpShutdown :: b) : (∀ u bytes t, UEv.ch (.sent u bytes t) ∉ b) ∧
    (∀ u f t, UEv.reply u f t ∈ b → ∃ unit q tmo, UEv.ch (.call u unit q tmo) ∈ a ∧ ¬ Allowed q) ∧
    ∀ u unit q tmo, UEv.ch (.call u unit q tmo) ∈ b → u ∉ repliesRun v.log := by
  have hi := h.inv
  have hch : v.cli.log = chanOf a ++ .tcpShutdown :: chanOf b := by
    rw [hi.chan, he, chanOf_append]; rfl
  refine ⟨fun u bytes t hm => (C56_shutdown_final env v.cli hi.reach _ _ hch _ (mem_chanOf.2 hm)).1 u bytes t rfl, fun u f t hm => ?_, fun u unit q tmo hm hr => ?_⟩
  · have hrep := hi.replies
    have hsplit : v.log = a ++ [.ch .tcpShutdown] ++ b := by rw [he]; simp
    have h0 : repliesRun [UEv.ch .tcpShutdown] = [] := rfl
    rw [hsplit, repliesRun_append, repliesRun_append, h0, List.append_nil, shutdown_idle h a b he, chanOf_append, chanOf_append] at hrep
    have hrep : repliesRun b ++ v.due.map (·.1) = handledUids (chanOf b) := by
      simp only [handledUids, List.filterMap_append, List.append_assoc] at hrep
      have := List.append_cancel_left hrep
      exact this
    have hu : u ∈ handledUids (chanOf b) := by rw [← hrep]; exact List.mem_append_left _ (mem_repliesRun.2 ⟨f, t, hm⟩)
    obtain ⟨x, t', hx⟩ := mem_handledUids.1 hu
    obtain ⟨-, unit, q, tmo, c1, c2⟩ := (C56_shutdown_final env v.cli hi.reach _ _ hch _ hx).2.2 u x t' rfl
    refine ⟨unit, q, tmo, ?_, c2⟩
    rw [hch] at c1
    rcases List.mem_append.1 c1 with c | c
    · exact mem_chanOf.1 c
    · have c : CEv.call u unit q tmo ∈ chanOf b := by simpa using c
      refine absurd ?_ (late_calls hi.reach _ _ hch u unit q tmo c).1
      rw [hch]
      exact mem_handledUids.2 ⟨x, t', by simp [hx]⟩
  · refine (late_calls hi.reach _ _ hch u unit q tmo (mem_chanOf.2 hm)).1 ?_
    rw [hi.chan, ← hi.replies]
    exact List.mem_append_left _ hr

/-- C127, what holds of it: when every timer has been called, or cancelled in time, no action is called after shutdown.  Missing: other timers, see
`C127_violated`. -/
theorem C127_timers_partial (env : ClientEnv) (prog : UserCode) (v : Upr) (h : UReach env prog v) (a b : List UEv) (he : v.log = a ++ .ch .tcpShutdown :: b)
    (hd : ∀ k d f t0, UEv.started k d f t0 ∈ v.log → k ∈ actionsRun a ∨ ∃ t, UEv.cancelled k t ∈ v.log ∧ t < d) : actionsRun b = [] := by
  rw [List.eq_nil_iff_forall_not_mem]
  intro k hk
  obtain ⟨f, t, hm⟩ := mem_actionsRun.1 hk
  have hml : UEv.action k f t ∈ v.log := by rw [he]; simp [hm]
  obtain ⟨-, hn, -⟩ := C126_once_and_on_time env prog v h
  obtain ⟨-, d, t0, hs, -⟩ := h.inv.timers.acted k f t hml
  rcases hd k d f t0 hs with h1 | ⟨t1, h1, h2⟩
  · rw [he, actionsRun_append, List.nodup_append] at hn
    refine hn.2.2 k h1 k ?_ rfl
    obtain ⟨f, t, hm⟩ := mem_actionsRun.1 hk
    exact mem_actionsRun.2 ⟨f, t, List.mem_cons_of_mem _ hm⟩
  · exact C126_cancelled env prog v h k d f t0 t1 hs h1 h2 (mem_actionsRun.2 ⟨f, t, hml⟩)

/-- A history: three timers are started, one of them by a response handler; one is cancelled in time, one too late; an invalid request made before shutdown has
its handler called after it, and that handler makes a request, which is dropped. -/
def userOps : List Upr.Op :=
  [.call (.start 5 0), .call (.startAt 4 1), .call (.start 3 0), .tick 2, .call (.cancel 2), .call (.send 1 reqA 1 3), .chan .runTask, .tick 2, .expire 1, .call (.cancel 1),
   .chan (.expire 0), .chan (.runTimer 0), .user, .user, .tick 1, .expire 0, .runTimer 1, .runTimer 0, .call .shutdown, .call (.send 1 reqBad 1 3), .chan .runTask, .chan .runTask,
   .user, .user, .user, .tick 8, .expire 3, .runTimer 3]

def userProg : UserCode := fun f l => match f with
  | 3 => if l.length < 15 then [.start 6 1] else [.send 1 reqA 1 3, .cancel 7]
  | _ => []

theorem user_demo : ∃ v, UReach demoEnv userProg v ∧ v.log =
    [.started 0 5 0 0, .started 1 4 1 0, .started 2 3 0 0, .cancelled 2 2, .asked 0 3, .ch (.call 0 1 reqA 1),
     .ch (.sent 0 [0, 0, 0, 0, 0, 6, 1, 3, 0, 0, 0, 1] 2), .cancelled 1 4, .ch (.handler 0 (.error .timeout) 4), .reply 0 3 4, .started 3 10 1 4,
     .action 1 1 5, .action 0 0 5, .asked 1 3, .ch (.call 1 1 reqBad 1)] ++ .ch .tcpShutdown ::
    [.ch (.handler 1 (.error .malformedRequest) 5), .reply 1 3 5, .asked 2 3, .ch (.call 2 1 reqA 1), .action 3 1 13] := udemo_reach (ops := userOps) (by decide +kernel)

/-- The hypotheses of `C126_delay` for the second timer of this history: it is cancelled too late, and called at 5. -/
example : ((udemoLog (udemo userProg (userOps.take 1))).map timersStarted, (udemoLog (udemo userProg (userOps.take 1 ++ .call (.startAt 4 1) :: userOps.drop 2))).map
    fun l => (decide (UEv.action 1 1 5 ∈ l), decide (UEv.cancelled 1 4 ∈ l))) = (some [0], some (true, true)) := by decide +kernel

/-- Without the last timer no action is called after shutdown. -/
example : ∃ v, UReach demoEnv userProg v ∧ ∃ a b, v.log = a ++ .ch .tcpShutdown :: b ∧ b ≠ [] ∧
    ∀ k d f t0, UEv.started k d f t0 ∈ v.log → k ∈ actionsRun a ∨ ∃ t, UEv.cancelled k t ∈ v.log ∧ t < d := by
  obtain ⟨v, hv, hl⟩ := udemo_reach (prog := userProg) (ops := [.call (.start 5 0), .call (.start 3 1), .tick 3, .expire 1, .runTimer 1, .call (.cancel 0),
      .call .shutdown, .chan .runTask, .call (.send 1 reqA 1 3)])
    (l := [.started 0 5 0 0, .started 1 3 1 0, .action 1 1 3, .cancelled 0 3] ++ .ch .tcpShutdown :: [.asked 0 3, .ch (.call 0 1 reqA 1)]) (by decide +kernel)
  refine ⟨v, hv, _, _, hl, by simp, ?_⟩
  rw [hl]
  intro k d f t0 hm
  simp only [List.cons_append, List.nil_append, List.mem_cons, UEv.started.injEq, reduceCtorEq, List.not_mem_nil, or_false, false_or] at hm
  rcases hm with ⟨rfl, rfl, rfl, rfl⟩ | ⟨rfl, rfl, rfl, rfl⟩
  · exact .inr ⟨3, by simp, by omega⟩
  · exact .inl (by decide)

end Modbus.Props
