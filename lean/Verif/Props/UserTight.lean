import Verif.Props.UserFair

/-! What the theorems on timers, handlers and shutdown (C126, C127, C129, C56) left open: that shutdown does take effect once it has been called, that a timer
can be called as soon as its time has come, and that the user's functions run to their end. -/

namespace Modbus

namespace Cli

theorem checkPending_tasks (env : ClientEnv) (v : Cli) : (v.checkPending env).tasks = v.tasks := by
  unfold checkPending
  split
  · rfl
  · split <;> rfl

theorem cancelTimer_tasks (v : Cli) : v.cancelTimer.tasks = v.tasks := by unfold cancelTimer; split <;> rfl

theorem cancelCurrent_tasks (env : ClientEnv) (v : Cli) : (v.cancelCurrent env).tasks = v.tasks := by
  unfold cancelCurrent
  split
  · rfl
  · rw [checkPending_tasks, cancelTimer_tasks]

theorem onMbap_tasks (env : ClientEnv) (v : Cli) (m : Mbap) : (v.onMbap env m).tasks = v.tasks := by
  simp only [onMbap]
  split
  · rfl
  · split
    · split
      · rw [checkPending_tasks]; simp only [emit]; rw [cancelTimer_tasks]
      · rfl
    · rfl

theorem onMbaps_tasks (env : ClientEnv) (ms : List Mbap) : ∀ v : Cli, (v.onMbaps env ms).tasks = v.tasks := by
  induction ms with
  | nil => intro v; rfl
  | cons m ms ih => intro v; exact (ih (v.onMbap env m)).trans (onMbap_tasks env v m)

theorem onError_tasks (env : ClientEnv) (v : Cli) : (v.onError env).tasks = v.tasks := by
  simp only [onError]
  split
  · rfl
  · split
    · rfl
    · rw [cancelCurrent_tasks]; rfl

theorem onTimer_tasks (env : ClientEnv) (v : Cli) : (v.onTimer env).tasks = v.tasks := by
  unfold onTimer
  split
  · rfl
  · split
    · rfl
    · rw [cancelCurrent_tasks]; rfl

theorem runTask_tasks (env : ClientEnv) (v : Cli) (t : CTask) : (v.runTask env t).tasks = v.tasks := by
  cases t with
  | request uid unit req tmo =>
    simp only [runTask]
    split
    · rfl
    · rw [checkPending_tasks]
  | malformed uid => rfl
  | shutdown => simp only [runTask, emit]; rw [cancelTimer_tasks]

/-- The strand takes posted tasks from the front, everything else leaves them or adds at the end. -/
theorem tasks_step {env : ClientEnv} {v w : Cli} {op : Op} (h : v.step env op = .ret w) :
    (op = .runTask → w.tasks = v.tasks.tail) ∧ (op ≠ .runTask → v.tasks <+: w.tasks) := by
  cases op with
  | submit unit req tmo =>
    refine ⟨nofun, fun _ => ?_⟩
    simp only [step] at h
    split at h
    · injection h with h; subst h; exact List.prefix_rfl
    · split at h <;> (injection h with h; subst h; exact List.prefix_append _ _)
  | shutdown => injection h with h; subst h; exact ⟨nofun, fun _ => List.prefix_append _ _⟩
  | createSession =>
    refine ⟨nofun, fun _ => ?_⟩
    simp only [step] at h
    split at h <;> (injection h with h; subst h; exact List.prefix_rfl)
  | runTask =>
    refine ⟨fun _ => ?_, fun hn => absurd rfl hn⟩
    simp only [step] at h
    split at h
    · rename_i ht; injection h with h; subst h; rw [ht]; rfl
    · rename_i t ts ht; injection h with h; subst h; rw [runTask_tasks, ht]; rfl
  | receive data =>
    refine ⟨nofun, fun _ => ?_⟩
    simp only [step, onReceive] at h
    split at h
    · injection h with h; subst h; exact List.prefix_rfl
    · obtain ⟨⟨p, ms⟩, -, h⟩ := CM.bind_eq_ret.1 h
      injection h with h; subst h
      rw [onMbaps_tasks]; exact List.prefix_rfl
  | error => injection h with h; subst h; exact ⟨nofun, fun _ => by rw [onError_tasks]; exact List.prefix_rfl⟩
  | tick n => injection h with h; subst h; exact ⟨nofun, fun _ => List.prefix_rfl⟩
  | expire t =>
    refine ⟨nofun, fun _ => ?_⟩
    simp only [step] at h
    split at h
    · injection h with h; subst h; exact List.prefix_rfl
    · split at h <;> (injection h with h; subst h; exact List.prefix_rfl)
  | runTimer t =>
    refine ⟨nofun, fun _ => ?_⟩
    simp only [step] at h
    split at h
    · injection h with h; subst h; rw [onTimer_tasks]; exact List.prefix_rfl
    · injection h with h; subst h; exact List.prefix_rfl

end Cli

namespace Props

open Spec

theorem shutdown_runs {env : ClientEnv} {ops : Nat → Cli.Op} {σ : Nat → Cli} (hx : Execution env ops σ) (hf : Fair ops σ) (i : Nat) :
    ∀ n, (σ n).tasks[i]? = some CTask.shutdown → ∃ m, n ≤ m ∧ CEv.tcpShutdown ∈ (σ m).log := by
  induction i with
  | zero =>
    intro n h
    obtain ⟨m, hm, hop, hpre⟩ := next_task hx hf (n := n) (by rintro h'; rw [h'] at h; cases h)
    obtain ⟨z, hz⟩ := hpre
    have hs := hx.next m
    cases ht : (σ n).tasks with
    | nil => rw [ht] at h; cases h
    | cons t ts =>
      rw [ht] at h hz
      injection h with h; subst h
      rw [hop] at hs
      simp only [Cli.step, ← hz, List.cons_append] at hs
      injection hs with hs
      exact ⟨m + 1, by omega, by rw [← hs]; simp [Cli.runTask, Cli.emit]⟩
  | succ i ih =>
    intro n h
    obtain ⟨m, hm, hop, hpre⟩ := next_task hx hf (n := n) (by rintro h'; rw [h'] at h; cases h)
    obtain ⟨z, hz⟩ := hpre
    have ht := (Cli.tasks_step (hx.next m)).1 hop
    obtain ⟨k, hk, h'⟩ := ih (m + 1) (by
      rw [ht, ← hz, List.getElem?_tail, List.getElem?_append_left (by by_contra hc; rw [List.getElem?_eq_none (by omega)] at h; cases h)]
      exact h)
    exact ⟨k, by omega, h'⟩
where
  next_task {env : ClientEnv} {ops : Nat → Cli.Op} {σ : Nat → Cli} (hx : Execution env ops σ) (hf : Fair ops σ) {n : Nat} (h : (σ n).tasks ≠ []) :
      ∃ m, n ≤ m ∧ ops m = .runTask ∧ (σ n).tasks <+: (σ m).tasks := by
    obtain ⟨m, ⟨hm, hop⟩, hmin⟩ := exists_least (hf.tasks n h)
    refine ⟨m, hm, hop, ?_⟩
    have key : ∀ j, n ≤ j → j ≤ m → (σ n).tasks <+: (σ j).tasks := by
      intro j hj
      induction hj with
      | refl => intro _; exact List.prefix_rfl
      | @step j hj ih =>
        have hj' : n ≤ j := hj
        intro hle
        exact (ih (by omega)).trans ((Cli.tasks_step (hx.next j)).2 fun ho => hmin j (by omega) ⟨hj', ho⟩)
    exact key m hm (Nat.le_refl _)

/-- C56: in every fair execution, shutting the channel down takes effect: the connection is shut down. -/
theorem C56_takes_effect (env : ClientEnv) (ops : Nat → Cli.Op) (σ : Nat → Cli) (hx : Execution env ops σ) (hf : Fair ops σ) (n : Nat)
    (hs : ops n = .shutdown) : ∃ m, n < m ∧ CEv.tcpShutdown ∈ (σ m).log := by
  have h := hx.next n
  rw [hs] at h
  injection h with h
  obtain ⟨m, h1, h2⟩ := shutdown_runs hx hf (σ n).tasks.length (n + 1) (by rw [← h]; simp)
  exact ⟨m, h1, h2⟩

theorem tcp_in_log {env : ClientEnv} {prog : UserCode} {ops : Nat → Upr.Op} {σ : Nat → Upr} (hx : UExecution env prog ops σ) {m : Nat}
    (h : CEv.tcpShutdown ∈ (σ m).cli.log) : UEv.ch .tcpShutdown ∈ (σ m).log := by
  rw [(hx.reach m).inv.chan] at h
  exact mem_chanOf.1 h

/-- The user's functions begin: `f` is called. -/
def _root_.Modbus.UEv.begins (f : Nat) : UEv → Prop
  | .action _ g _ => g = f
  | .reply _ g _ => g = f
  | _ => False

/-- When a function begins, it has everything still to do. -/
theorem begin_todo {env : ClientEnv} {prog : UserCode} {v w : Upr} {op : Upr.Op} {e : UEv} {f : Nat} (hs : v.step env prog op = .ret w)
    (hl : w.log = v.log ++ [e]) (he : e.begins f) : v.todo = [] ∧ w.todo = prog f w.log := by
  obtain ⟨new, hm⟩ := Upr.step_move hs
  have hn : new = [e] := List.append_cancel_left (hm.log.symm.trans hl)
  cases hm with
  | same => cases hn
  | ask => cases hn
  | start => injection hn with hn; subst hn; cases he
  | cancel => injection hn with hn; subst hn; cases he
  | skip => cases hn
  | shutdown => cases hn
  | reply ho ht hd => injection hn with hn; subst hn; cases he; exact ⟨ht, rfl⟩
  | @chan cop c es _ _ _ _ _ _ _ _ =>
    cases es with
    | nil => cases hn
    | cons x xs => injection hn with hn; subst hn; cases he
  | expire => cases hn
  | action ho hi =>
    injection hn with hn; subst hn; cases he
    simp only [Upr.idle, Bool.and_eq_true, List.isEmpty_iff] at hi
    exact ⟨hi.2, rfl⟩
  | tick => cases hn

/-- C127: in every fair execution a shutdown takes effect, called from another thread or by a function of the user's. -/
theorem C127_takes_effect (env : ClientEnv) (prog : UserCode) (ops : Nat → Upr.Op) (σ : Nat → Upr) (hx : UExecution env prog ops σ) (hf : UFair ops σ) (n : Nat)
    (hs : ops n = .call .shutdown ∨ ∃ e f, e.begins f ∧ (σ (n + 1)).log = (σ n).log ++ [e] ∧ UCall.shutdown ∈ prog f (σ (n + 1)).log) :
    ∃ m, n < m ∧ UEv.ch .tcpShutdown ∈ (σ m).log := by
  have fin : ∀ j, n ≤ j → Upr.chanOp (σ j) (ops j) = .shutdown → ∃ m, n < m ∧ UEv.ch .tcpShutdown ∈ (σ m).log := by
    intro j hj hop
    obtain ⟨m, h1, h2⟩ := C56_takes_effect env _ _ hx.channel hf.channel j hop
    exact ⟨m, by omega, tcp_in_log hx h2⟩
  rcases hs with hs | ⟨e, f, he, hl, hm⟩
  · exact fin n (Nat.le_refl _) (by rw [hs]; rfl)
  · obtain ⟨-, ht⟩ := begin_todo (hx.next n) hl he
    obtain ⟨pre, cs, hp⟩ := List.append_of_mem hm
    obtain ⟨j, h1, h2, h3⟩ := todo_done hx hf .shutdown cs pre (n + 1) (ht.trans hp)
    exact fin j (by omega) (by rw [h2]; simp only [Upr.chanOp, h3])

/-! ### Timers can be called in time -/

/-- One more call of the running function. -/
theorem drain_step {env : ClientEnv} {prog : UserCode} {v w : Upr} (hs : v.step env prog .user = .ret w) (hb : v.idle = false) :
    w.fired = v.fired ∧ w.cli.now = v.cli.now ∧
      ((∃ c, v.todo = c :: w.todo ∧ w.due = v.due) ∨ (v.todo = [] ∧ ∃ d, v.due = d :: w.due)) := by
  have hcall : ∀ {c td}, v.todo = c :: td → ∀ {w}, Upr.call env { v with todo := td } c = .ret w →
      w.fired = v.fired ∧ w.cli.now = v.cli.now ∧ w.todo = td ∧ w.due = v.due := by
    intro c td _ w h
    cases c with
    | send unit req tmo f =>
      obtain ⟨new, -, he⟩ := Cli.step_submit env v.cli unit req tmo
      simp only [Upr.call, he, CM.ret_bind, CM.pure_eq] at h
      injection h with h; subst h; exact ⟨rfl, rfl, rfl, rfl⟩
    | start d f => injection h with h; subst h; exact ⟨rfl, rfl, rfl, rfl⟩
    | startAt t f => injection h with h; subst h; exact ⟨rfl, rfl, rfl, rfl⟩
    | cancel k => simp only [Upr.call] at h; split at h <;> (injection h with h; subst h; exact ⟨rfl, rfl, rfl, rfl⟩)
    | shutdown => injection h with h; subst h; exact ⟨rfl, rfl, rfl, rfl⟩
  cases ht : v.todo with
  | cons c cs =>
    simp only [Upr.step, ht] at hs
    obtain ⟨h1, h2, h3, h4⟩ := hcall ht hs
    exact ⟨h1, h2, .inl ⟨c, by rw [h3], h4⟩⟩
  | nil =>
    cases hd : v.due with
    | nil => simp [Upr.idle, ht, hd] at hb
    | cons d ds =>
      simp only [Upr.step, ht, hd] at hs
      injection hs with hs; subst hs
      exact ⟨rfl, rfl, .inr ⟨rfl, d, rfl⟩⟩

/-- Whatever the user's functions do, they come to an end if nothing else happens. -/
theorem drain {env : ClientEnv} {prog : UserCode} : ∀ (D T : Nat) (v : Upr), UReach env prog v → v.due.length = D → v.todo.length = T →
    ∃ n w, v.run env prog (List.replicate n .user) = .ret w ∧ UReach env prog w ∧ w.idle = true ∧ w.fired = v.fired ∧ w.cli.now = v.cli.now := by
  intro D
  induction D with
  | zero =>
    intro T
    induction T with
    | zero =>
      intro v hv hd ht
      exact ⟨0, v, rfl, hv, by simp [Upr.idle, List.length_eq_zero_iff.1 hd, List.length_eq_zero_iff.1 ht], rfl, rfl⟩
    | succ T ih =>
      intro v hv hd ht
      obtain ⟨x, hx⟩ := hv.total .user
      have hb : v.idle = false := by cases h : v.todo with
        | nil => rw [h] at ht; cases ht
        | cons => simp [Upr.idle, h]
      obtain ⟨h1, h2, ⟨c, h3, h4⟩ | ⟨h3, -⟩⟩ := drain_step hx hb
      · obtain ⟨n, w, a, b, c', d, e⟩ := ih x (hv.step hx) (by rw [h4, hd]) (by rw [h3] at ht; simpa using ht)
        exact ⟨n + 1, w, by rw [List.replicate_succ]; simp only [Upr.run, hx, CM.ret_bind, a], b, c', d.trans h1, e.trans h2⟩
      · rw [h3] at ht; cases ht
  | succ D ihD =>
    intro T
    induction T with
    | zero =>
      intro v hv hd ht
      obtain ⟨x, hx⟩ := hv.total .user
      have hb : v.idle = false := by cases h : v.due with
        | nil => rw [h] at hd; cases hd
        | cons => simp [Upr.idle, h]
      obtain ⟨h1, h2, ⟨c, h3, h4⟩ | ⟨-, d, h3⟩⟩ := drain_step hx hb
      · rw [h3] at ht; cases ht
      · obtain ⟨n, w, a, b, c', d, e⟩ := ihD _ x (hv.step hx) (by rw [h3] at hd; simpa using hd) rfl
        exact ⟨n + 1, w, by rw [List.replicate_succ]; simp only [Upr.run, hx, CM.ret_bind, a], b, c', d.trans h1, e.trans h2⟩
    | succ T ih =>
      intro v hv hd ht
      obtain ⟨x, hx⟩ := hv.total .user
      have hb : v.idle = false := by cases h : v.due with
        | nil => rw [h] at hd; cases hd
        | cons => simp [Upr.idle, h]
      obtain ⟨h1, h2, ⟨c, h3, h4⟩ | ⟨h3, -⟩⟩ := drain_step hx hb
      · obtain ⟨n, w, a, b, c', d, e⟩ := ih x (hv.step hx) (by rw [h4, hd]) (by rw [h3] at ht; simpa using ht)
        exact ⟨n + 1, w, by rw [List.replicate_succ]; simp only [Upr.run, hx, CM.ret_bind, a], b, c', d.trans h1, e.trans h2⟩
      · rw [h3] at ht; cases ht

/-- The executor's part in calling a timer: expiry, the user's functions going on, and the call.  No time passes, nobody calls anything, the channel does
nothing. -/
def prompt : Upr.Op → Bool
  | .expire _ => true
  | .user => true
  | .runTimer _ => true
  | _ => false

/-- C126: a timer whose time has come, and which has been neither called nor cancelled, can be called at once, whatever the user's functions are doing. -/
theorem C126_prompt (env : ClientEnv) (prog : UserCode) (v : Upr) (h : UReach env prog v) (k d f t0 : Nat) (hs : UEv.started k d f t0 ∈ v.log)
    (hn : k ∉ actionsRun v.log) (hc : ∀ t, UEv.cancelled k t ∉ v.log) (hd : d ≤ v.cli.now) :
    ∃ ops w, (∀ op ∈ ops, prompt op = true) ∧ v.run env prog ops = .ret w ∧ UEv.action k f v.cli.now ∈ w.log := by
  have hi := h.inv.timers
  have hlt : k < v.nextK := by
    have : k ∈ timersStarted v.log := mem_timersStarted.2 ⟨_, _, _, hs⟩
    rw [hi.started] at this
    exact List.mem_range.1 this
  -- after the expiry its call is queued
  have key : ∃ x, v.step env prog (.expire k) = .ret x ∧ (k, f) ∈ x.fired ∧ x.cli.now = v.cli.now := by
    have hcov := hi.covered k hlt hc
    rw [List.count_eq_zero.2 hn] at hcov
    by_cases ha : k ∈ v.armed.map (·.1)
    · cases hl : v.armed.lookup k with
      | none =>
        obtain ⟨y, hy, rfl⟩ := List.mem_map.1 ha
        have := List.lookup_eq_none_iff.1 hl y hy
        simp at this
      | some y =>
        obtain ⟨time, g⟩ := y
        obtain ⟨⟨t1, h1⟩, -⟩ := hi.armed k time g (Upr.lookup_mem3 hl)
        obtain ⟨rfl, rfl, -⟩ := startedUnique hi.started hs h1
        exact ⟨{ v with armed := v.armed.filter (fun x => x.1 ≠ k), fired := v.fired ++ [(k, f)] }, by simp only [Upr.step, hl, if_pos hd], by simp, rfl⟩
    · have hfi : k ∈ v.fired.map (·.1) := by
        rw [List.count_eq_zero.2 ha] at hcov
        exact List.count_pos_iff.1 (by omega)
      obtain ⟨⟨k', g⟩, hy, rfl⟩ := List.mem_map.1 hfi
      obtain ⟨d', t1, h1, -⟩ := hi.fired k' g hy
      obtain ⟨-, rfl, -⟩ := startedUnique hi.started hs h1
      cases hl : v.armed.lookup k' with
      | none => exact ⟨v, by simp only [Upr.step, hl], hy, rfl⟩
      | some y => exact absurd (List.mem_map.2 ⟨_, Upr.lookup_mem3 hl, rfl⟩) ha
  obtain ⟨x, hx, hxf, hxn⟩ := key
  have hrx := h.step hx
  obtain ⟨n, w, hw, hrw, hid, hwf, hwn⟩ := drain _ _ x hrx rfl rfl
  rw [← hwf] at hxf
  have hl : w.fired.lookup k = some f := by
    cases hl : w.fired.lookup k with
    | none =>
      have := List.lookup_eq_none_iff.1 hl _ hxf
      simp at this
    | some g =>
      obtain ⟨_, _, h1, -⟩ := hrw.inv.timers.fired k g (Upr.lookup_mem2 hl)
      obtain ⟨_, _, h2, -⟩ := hrw.inv.timers.fired k f hxf
      rw [(startedUnique hrw.inv.timers.started h1 h2).2.1]
  refine ⟨.expire k :: (List.replicate n .user ++ [.runTimer k]),
    { w with fired := w.fired.filter (fun x => x.1 ≠ k)
             log := w.log ++ [.action k f w.cli.now]
             todo := prog f (w.log ++ [.action k f w.cli.now]) }, ?_, ?_, ?_⟩
  · intro op ho
    simp only [List.mem_cons, List.mem_append, List.mem_replicate, List.not_mem_nil, or_false] at ho
    rcases ho with rfl | ⟨-, rfl⟩ | rfl <;> rfl
  · simp only [Upr.run, hx, CM.ret_bind]
    rw [Upr.run_append, hw]
    simp only [CM.ret_bind, Upr.run, Upr.step, hid, hl, if_true]
  · simp only [hwn, hxn]; simp

/-- C126: the time meant here is the time the timer was started for: the present and the duration given, or the time given. -/
theorem C126_in_time (env : ClientEnv) (prog : UserCode) (v w x : Upr) (h : UReach env prog v) (c : UCall) (due f : Nat)
    (hc : (∃ d, c = .start d f ∧ due = v.cli.now + d) ∨ c = .startAt due f) (hs : v.step env prog (.call c) = .ret w) (ops : List Upr.Op)
    (hr : w.run env prog ops = .ret x) (hn : (timersStarted v.log).length ∉ actionsRun x.log) (hk : ∀ t, UEv.cancelled (timersStarted v.log).length t ∉ x.log)
    (hd : due ≤ x.cli.now) :
    ∃ ops' y, (∀ op ∈ ops', prompt op = true) ∧ x.run env prog ops' = .ret y ∧ UEv.action (timersStarted v.log).length f x.cli.now ∈ y.log := by
  have hkn : (timersStarted v.log).length = v.nextK := by rw [h.inv.timers.started, List.length_range]
  have hw : w.log = v.log ++ [.started v.nextK due f v.cli.now] := by
    rcases hc with ⟨d, rfl, rfl⟩ | rfl <;> (injection hs with hs; subst hs; rfl)
  have hx : UReach env prog x := by
    obtain ⟨pre, hp⟩ := h.step hs
    exact ⟨pre ++ ops, by rw [Upr.run_append, hp]; exact hr⟩
  have hst : UEv.started (timersStarted v.log).length due f v.cli.now ∈ x.log := (urun_log ops hr).subset (by rw [hw, hkn]; simp)
  exact C126_prompt env prog x hx _ due f _ hst hn hk hd

/-! ### The user's functions run to their end -/

/-- The events a call leaves. -/
def Leaves : UCall → List UEv → Prop
  | .send unit req tmo f, es => ∃ u, es = [.asked u f, .ch (.call u unit req tmo)]
  | .start d f, es => ∃ k t, es = [.started k (t + d) f t]
  | .startAt d f, es => ∃ k t, es = [.started k d f t]
  | .cancel k, es => es = [] ∨ ∃ t, es = [.cancelled k t]
  | .shutdown, es => es = []

/-- What the function begun at log `l` has done so far, and is still going to do. -/
def Underway (prog : UserCode) (f : Nat) (l : List UEv) (x : Upr) : Prop :=
  ∃ made ess rest, prog f l = made ++ x.todo ∧ List.Forall₂ Leaves made ess ∧ x.log = l ++ ess.flatten ++ rest.map .ch ∧ (rest ≠ [] → x.todo = [])

theorem Underway.call {env : ClientEnv} {prog : UserCode} {f : Nat} {l : List UEv} {x y : Upr} (h : Underway prog f l x) {c : UCall} {cs : List UCall}
    (ht : x.todo = c :: cs) (hs : Upr.call env { x with todo := cs } c = .ret y) : Underway prog f l y := by
  obtain ⟨made, ess, rest, h1, h2, h3, h4⟩ := h
  have hr : rest = [] := by
    by_contra hr
    have := h4 hr
    rw [ht] at this; cases this
  subst hr
  have key : ∃ es, Leaves c es ∧ y.log = x.log ++ es ∧ y.todo = cs := by
    cases c with
    | send unit req tmo g =>
      obtain ⟨new, -, he⟩ := Cli.step_submit env x.cli unit req tmo
      simp only [Upr.call, he, CM.ret_bind, CM.pure_eq] at hs
      injection hs with hs; subst hs
      exact ⟨[.asked x.cli.nextUid g, .ch (.call x.cli.nextUid unit req tmo)], ⟨_, rfl⟩, by simp, rfl⟩
    | start d g => injection hs with hs; subst hs; exact ⟨_, ⟨_, _, rfl⟩, rfl, rfl⟩
    | startAt d g => injection hs with hs; subst hs; exact ⟨_, ⟨_, _, rfl⟩, rfl, rfl⟩
    | cancel k =>
      simp only [Upr.call] at hs
      split at hs
      · injection hs with hs; subst hs; exact ⟨_, .inr ⟨_, rfl⟩, rfl, rfl⟩
      · injection hs with hs; subst hs; exact ⟨[], .inl rfl, by simp, rfl⟩
    | shutdown => injection hs with hs; subst hs; exact ⟨[], rfl, by simp, rfl⟩
  obtain ⟨es, k1, k2, k3⟩ := key
  refine ⟨made ++ [c], ess ++ [es], [], by rw [h1, ht, k3]; simp, ?_, by rw [k2, h3]; simp, fun hn => absurd rfl hn⟩
  exact List.rel_append h2 (.cons k1 .nil)

/-- While no other function begins and no other thread calls anything. -/
theorem Underway.step {env : ClientEnv} {prog : UserCode} {f : Nat} {l : List UEv} {x y : Upr} {op : Upr.Op} (h : Underway prog f l x)
    (hs : x.step env prog op = .ret y) (ho : ∀ c, op ≠ .call c) (hb : ∀ e g, e.begins g → y.log ≠ x.log ++ [e]) : Underway prog f l y := by
  have todoOnly : ∀ {y : Upr}, y.todo = x.todo → y.log = x.log → Underway prog f l y := by
    intro y a b
    obtain ⟨made, ess, rest, h1, h2, h3, h4⟩ := h
    exact ⟨made, ess, rest, by rw [a]; exact h1, h2, by rw [b]; exact h3, by rw [a]; exact h4⟩
  obtain ⟨new, hm⟩ := Upr.step_move hs
  by_cases hu : op = .user
  · subst hu
    cases ht : x.todo with
    | cons c cs =>
      simp only [Upr.step, ht] at hs
      exact h.call ht hs
    | nil =>
      cases hd : x.due with
      | nil => simp only [Upr.step, ht, hd] at hs; injection hs with hs; subst hs; exact h
      | cons d ds =>
        obtain ⟨u, g⟩ := d
        simp only [Upr.step, ht, hd] at hs
        injection hs with hs; subst hs
        exact absurd rfl (hb (.reply u g x.cli.now) g rfl)
  · have hcb : ∀ {c td}, ¬ x.CalledBy op c td := by
      rintro c td (⟨h', -⟩ | ⟨h', -⟩)
      · exact ho c h'
      · exact hu h'
    cases hm with
    | same => exact h
    | ask hc => exact absurd hc hcb
    | start hc => exact absurd hc hcb
    | cancel hc => exact absurd hc hcb
    | skip hc => exact absurd hc hcb
    | shutdown hc => exact absurd hc hcb
    | reply h' => exact absurd h' hu
    | @chan cop c es hop hi hst hlog =>
      rcases hi with ⟨hi, -⟩ | ⟨t, rfl⟩
      · have ht : x.todo = [] := by simp only [Upr.idle, Bool.and_eq_true, List.isEmpty_iff] at hi; exact hi.2
        obtain ⟨made, ess, rest, h1, h2, h3, -⟩ := h
        exact ⟨made, ess, rest ++ es, h1, h2, by simp only [h3, List.map_append, List.append_assoc], fun _ => ht⟩
      · have he : es = [] := by
          simp only [Cli.step] at hst
          have : c.log = x.cli.log := by
            split at hst
            · injection hst with hst; subst hst; rfl
            · split at hst <;> (injection hst with hst; subst hst; rfl)
          rw [this] at hlog
          simpa using hlog
        subst he
        exact todoOnly rfl (by simp)
    | expire => exact todoOnly rfl rfl
    | action hop hid hl => exact absurd rfl (hb (.action _ _ x.cli.now) _ rfl)
    | tick => exact todoOnly rfl rfl

/-- No function begins during a history. -/
def NoBegin (env : ClientEnv) (prog : UserCode) : Upr → List Upr.Op → Prop
  | _, [] => True
  | v, op :: ops => ∀ w, v.step env prog op = .ret w → (∀ e g, e.begins g → w.log ≠ v.log ++ [e]) ∧ NoBegin env prog w ops

/-- C129: a function of the user's (response handler or action of a timer) that has begun makes all its calls, in order and with what it gave, before the next
one begins.  (Calls by other threads in the meantime are left out: they would mix with the function's own in the log.) -/
theorem C129_runs_through (env : ClientEnv) (prog : UserCode) (v w x y : Upr) (op op' : Upr.Op) (e e' : UEv) (f f' : Nat) (ops : List Upr.Op)
    (hv : v.step env prog op = .ret w) (hw : w.log = v.log ++ [e]) (he : e.begins f) (hr : w.run env prog ops = .ret x) (hc : ∀ o ∈ ops, ∀ c, o ≠ .call c)
    (hb : NoBegin env prog w ops) (hy : x.step env prog op' = .ret y) (hy' : y.log = x.log ++ [e']) (he' : e'.begins f') :
    ∃ (ess : List (List UEv)) (rest : List CEv), List.Forall₂ Leaves (prog f w.log) ess ∧ x.log = w.log ++ ess.flatten ++ rest.map .ch := by
  have key : ∀ (ops : List Upr.Op) (z : Upr), Underway prog f w.log z → z.run env prog ops = .ret x → (∀ o ∈ ops, ∀ c, o ≠ .call c) → NoBegin env prog z ops →
      Underway prog f w.log x := by
    intro ops
    induction ops with
    | nil => intro z hz h _ _; injection h with h; subst h; exact hz
    | cons o os ih =>
      intro z hz h hc hb
      obtain ⟨z', h1, h2⟩ := CM.bind_eq_ret.1 h
      obtain ⟨b1, b2⟩ := hb z' h1
      exact ih z' (hz.step h1 (hc o (by simp)) b1) h2 (fun o' ho => hc o' (by simp [ho])) b2
  obtain ⟨made, ess, rest, h1, h2, h3, -⟩ := key ops w ⟨[], [], [], by simp [(begin_todo hv hw he).2], .nil, by simp, fun hn => absurd rfl hn⟩ hr hc hb
  rw [(begin_todo hy hy' he').1, List.append_nil] at h1
  exact ⟨ess, rest, by rw [h1]; exact h2, h3⟩

/-! ### The hypotheses are met -/

/-- `C127_takes_effect`, and with it `C56_takes_effect`: a fair execution in which another thread shuts the channel down while a request is waiting. -/
example : ∃ m, 1 < m ∧ UEv.ch .tcpShutdown ∈ (usched demoEnv userProg [.call (.send 1 reqA 5 3), .call .shutdown] m).v.log :=
  C127_takes_effect demoEnv userProg _ _ (usched_execution demoEnv userProg _) (usched_fair demoEnv userProg _) 1 (.inl rfl)

example : ∃ m, 1 < m ∧ CEv.tcpShutdown ∈ (usched demoEnv userProg [.call (.send 1 reqA 5 3), .call .shutdown] m).v.cli.log :=
  C56_takes_effect demoEnv _ _ (usched_execution demoEnv userProg _).channel (usched_fair demoEnv userProg _).channel 1 rfl

/-- A function that starts a timer, cancels another, sends a request and shuts the channel down. -/
def busyProg : UserCode := fun f _ => match f with
  | 0 => [.start 3 1, .cancel 1, .send 1 reqA 5 2, .shutdown]
  | _ => []

/-- `C127_takes_effect`: the shutdown is called by a timer's action. -/
example : ∃ m, 2 < m ∧ UEv.ch .tcpShutdown ∈ (usched demoEnv busyProg [.call (.start 0 0), .expire 0, .runTimer 0] m).v.log :=
  C127_takes_effect demoEnv busyProg _ _ (usched_execution demoEnv busyProg _) (usched_fair demoEnv busyProg _) 2
    (.inr ⟨.action 0 0 0, 0, rfl, by decide +kernel, by decide +kernel⟩)

/-- `C126_prompt`: timer 2 is due at 2 while function 0 has three calls to go; the others are not. -/
def busyOps : List Upr.Op := [.call (.start 0 0), .call (.start 9 1), .call (.start 2 2), .expire 0, .runTimer 0, .user, .tick 2]

example : ∃ v, UReach demoEnv busyProg v ∧ v.log = [.started 0 0 0 0, .started 1 9 1 0, .started 2 2 2 0, .action 0 0 0, .started 3 3 1 0] ∧ v.cli.now = 2 ∧
    v.idle = false := by
  have h : ((match udemo busyProg busyOps with | .ret v => some (v.log, v.cli.now, v.idle) | .ub => none)) =
      some ([.started 0 0 0 0, .started 1 9 1 0, .started 2 2 2 0, .action 0 0 0, .started 3 3 1 0], 2, false) := by decide +kernel
  cases hv : udemo busyProg busyOps with
  | ub => rw [hv] at h; cases h
  | ret v =>
    rw [hv] at h
    simp only [Option.some.injEq, Prod.mk.injEq] at h
    exact ⟨v, ⟨busyOps, hv⟩, h.1, h.2.1, h.2.2⟩

/-- `C126_in_time`: started for 5 at time 3, called at 5. -/
example : udemoLog (udemo busyProg [.tick 3, .call (.startAt 5 1), .tick 2]) = some [.started 0 5 1 3] ∧
    udemoLog (udemo busyProg [.tick 3, .call (.startAt 5 1), .tick 2, .expire 0, .runTimer 0]) = some [.started 0 5 1 3, .action 0 1 5] := by decide +kernel

/-- `C129_runs_through`: what function 0 does between its beginning and that of the action of timer 2. -/
example : udemoLog (udemo busyProg (busyOps ++ [.expire 2, .user, .user, .user, .runTimer 2])) =
    some ([.started 0 0 0 0, .started 1 9 1 0, .started 2 2 2 0, .action 0 0 0] ++
      [[.started 3 3 1 0], [.cancelled 1 2], [.asked 0 2, .ch (.call 0 1 reqA 5)], []].flatten ++ [.action 2 2 2]) ∧
    List.Forall₂ Leaves (busyProg 0 []) [[.started 3 3 1 0], [.cancelled 1 2], [.asked 0 2, .ch (.call 0 1 reqA 5)], []] :=
  ⟨by decide +kernel, .cons ⟨3, 0, rfl⟩ (.cons (.inr ⟨2, rfl⟩) (.cons ⟨0, rfl⟩ (.cons rfl .nil)))⟩

end Props

end Modbus
