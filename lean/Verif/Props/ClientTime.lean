import Verif.Lemmas.ClientTime
import Verif.Props.Client

/-!
Properties C48, C51, C52 and C57 of the client channel: completion, timeouts, typed results.
-/

namespace Modbus.Props

open Spec
open Cli (Op)

theorem CReach.down {env : ClientEnv} {v : Cli} (h : CReach env v) (hs : CEv.tcpShutdown ∉ v.log) : v.isShutdown = false := by
  cases hd : v.isShutdown with
  | false => rfl
  | true => exact absurd (h.inv.1.downLog.2 hd) hs

theorem crun_append {env : ClientEnv} (ops1 : List Op) : ∀ (ops2 : List Op) (v v1 : Cli), v.run env ops1 = .ret v1 →
    v.run env (ops1 ++ ops2) = v1.run env ops2 := by
  induction ops1 with
  | nil => intro ops2 v v1 h; injection h with h; subst h; rfl
  | cons op ops1 ih =>
    intro ops2 v v1 h
    simp only [Cli.run, List.cons_append] at h ⊢
    rcases hs : v.step env op with _ | v2
    · rw [hs] at h; cases h
    · rw [hs] at h
      exact ih ops2 v2 v1 h

theorem CReach.run {env : ClientEnv} {v v' : Cli} (h : CReach env v) {ops : List Op} (hr : v.run env ops = .ret v') : CReach env v' := by
  obtain ⟨ops0, h0⟩ := h
  exact ⟨ops0 ++ ops, by rw [crun_append ops0 ops _ v h0, hr]⟩

theorem CReach.step {env : ClientEnv} {v v' : Cli} (h : CReach env v) {op : Op} (hr : v.step env op = .ret v') : CReach env v' :=
  h.run (ops := [op]) (by simp [Cli.run, hr])

theorem CReach.total {env : ClientEnv} {v : Cli} (h : CReach env v) (op : Op) : ∃ v', v.step env op = .ret v' := by
  obtain ⟨v', h1, -⟩ := h.inv.1.step h.inv.2 op
  exact ⟨v', h1⟩

/-! ### C48 -/

/-- Request `u` has been submitted and is being worked on: posted to the channel's strand, queued in the channel, or
outstanding with its timer running (or expired with the expiry about to be processed). -/
def InProgress (v : Cli) (u : Nat) : Prop :=
  u ∈ Cli.taskUids v.tasks ∨ (∃ r ∈ v.pending, r.uid = u) ∨
  ∃ r bytes t0 timer, v.current = some r ∧ r.uid = u ∧ CEv.sent u bytes t0 ∈ v.log ∧ v.timer = some timer ∧
    ((timer, t0 + r.timeout) ∈ v.armed ∨ timer ∈ v.fired ∧ t0 + r.timeout ≤ v.now)

/-- C48 in full. -/
def C48_Statement : Prop := ∀ (env : ClientEnv) (v : Cli), CReach env v → ∀ u unit q tmo, CEv.call u unit q tmo ∈ v.log →
  ((handledUids v.log).count u = 1 ∧ ¬ InProgress v u) ∨ ((handledUids v.log).count u = 0 ∧ InProgress v u)

/-- A request outstanding when the channel is shut down, and one submitted afterwards, never get their handlers called,
whatever happens later. -/
theorem C48_dropped_forever : ∃ v, CReach demoEnv v ∧ CEv.call 0 1 reqA 10 ∈ v.log ∧ CEv.call 1 1 reqA 10 ∈ v.log ∧
    ∀ ops v', v.run demoEnv ops = .ret v' → 0 ∉ handledUids v'.log ∧ 1 ∉ handledUids v'.log := by
  obtain ⟨v, hv, hl⟩ := reach_of_log (env := demoEnv) (ops := [.submit 1 reqA 10, .runTask, .shutdown, .runTask, .submit 1 reqA 10])
    (l := [.call 0 1 reqA 10, .sent 0 [0, 0, 0, 0, 0, 6, 1, 3, 0, 0, 0, 1] 0, .tcpShutdown, .call 1 1 reqA 10]) (by decide +kernel)
  refine ⟨v, hv, by simp [hl], by simp [hl], ?_⟩
  intro ops v' hr
  have hv' := hv.run hr
  -- the log only grows
  have hgrow : ∀ (ops : List Op) (w w' : Cli), w.run demoEnv ops = .ret w' → CReach demoEnv w → CEv.tcpShutdown ∈ w.log → ∃ es, w'.log = w.log ++ es := by
    intro ops
    induction ops with
    | nil => intro w w' h _ _; injection h with h; subst h; exact ⟨[], by simp⟩
    | cons op ops ih =>
      intro w w' h hw ht
      obtain ⟨w1, h1⟩ := hw.total op
      simp only [Cli.run, h1, CM.ret_bind] at h
      have hq : ∃ es, w1.log = w.log ++ es := by
        by_cases hop : ∃ t, op = .runTimer t
        · obtain ⟨t, rfl⟩ := hop
          have hd : w.isShutdown = true := hw.inv.1.downLog.1 ht
          simp only [Cli.step, Cli.onTimer, hd, if_true] at h1
          split at h1 <;> injection h1 with h1 <;> subst h1 <;> exact ⟨[], by simp⟩
        · obtain ⟨es, h2, -⟩ := Cli.Quiet.step h1 (fun t ht => hop ⟨t, ht⟩)
          exact ⟨es, h2⟩
      obtain ⟨es, he⟩ := hq
      obtain ⟨es', he'⟩ := ih w1 w' h (hw.step h1) (by rw [he]; exact List.mem_append_left _ ht)
      exact ⟨es ++ es', by rw [he', he, List.append_assoc]⟩
  obtain ⟨es, he⟩ := hgrow ops v v' hr hv (by simp [hl])
  have key : ∀ u, CEv.call u 1 reqA 10 ∈ v.log → u ∉ handledUids v'.log := by
    intro u hu hm
    obtain ⟨x, t, hx⟩ := mem_handledUids.1 hm
    have hu' : CEv.call u 1 reqA 10 ∈ v'.log := by rw [he]; exact List.mem_append_left _ hu
    have hsplit : v'.log = [.call 0 1 reqA 10, .sent 0 [0, 0, 0, 0, 0, 6, 1, 3, 0, 0, 0, 1] 0] ++ CEv.tcpShutdown :: (CEv.call 1 1 reqA 10 :: es) := by
      rw [he, hl]; simp
    have hin : CEv.handler u x t ∈ (CEv.call 1 1 reqA 10 :: es) := by
      rw [hsplit] at hx; simpa using hx
    obtain ⟨-, unit, q, tmo, c1, c2⟩ := (C56_shutdown_final demoEnv v' hv' _ _ hsplit _ hin).2.2 u x t rfl
    obtain ⟨-, rfl, -⟩ := hv'.inv.1.callUnique c1 hu'
    exact c2 (by decide)
  exact ⟨key 0 (by simp [hl]), key 1 (by simp [hl])⟩

/-- The library violates C48. -/
theorem C48_violated : ¬ C48_Statement := by
  intro h
  obtain ⟨v, hv, hl⟩ := reach_of_log (env := demoEnv) (ops := [.submit 1 reqA 10, .runTask, .shutdown, .runTask])
    (l := [.call 0 1 reqA 10, .sent 0 [0, 0, 0, 0, 0, 6, 1, 3, 0, 0, 0, 1] 0, .tcpShutdown]) (by decide +kernel)
  have hd : v.isShutdown = true := hv.inv.1.downLog.1 (by simp [hl])
  obtain ⟨d1, d2, -⟩ := hv.inv.1.down hd
  rcases h demoEnv v hv 0 1 reqA 10 (by simp [hl]) with ⟨h1, -⟩ | ⟨-, h1⟩
  · rw [hl] at h1; revert h1; decide +kernel
  · rcases h1 with h1 | ⟨r, hr, -⟩ | ⟨r, b, t0, t, hc, -⟩
    · -- the task queue is empty
      obtain ⟨ops, hops⟩ := hv
      have hone := (CReach.inv ⟨ops, hops⟩).1.tasksKnown
      have hun := (CReach.inv ⟨ops, hops⟩).1
      -- request 0 is on the wire, so it is not posted any more
      have hsent : 0 ∈ sentUids v.log := by rw [hl]; decide +kernel
      rcases Cli.mem_taskUids h1 with h2 | h2
      · have := (List.pairwise_append.1 hun.order).2.2 0 hsent 0 (List.mem_append_right _ h2)
        omega
      · obtain ⟨unit, q, tmo, c1, c2⟩ := hone.2 0 h2
        obtain ⟨-, rfl, -⟩ := hun.callUnique c1 (show CEv.call 0 1 reqA 10 ∈ v.log by simp [hl])
        exact c2 (by decide)
    · rw [d2] at hr; cases hr
    · rw [d1] at hc; cases hc

/-- C48, proved part: as long as shutdown has not taken effect, every submitted request is in progress with its handler not
called, or its handler has been called exactly once.  (C52 adds that no request stays in progress for ever.)
Missing: requests in progress when shutdown takes effect, or submitted later, are dropped silently; see `C48_violated` and
`C48_dropped_forever`. -/
theorem C48_exactly_once_partial (env : ClientEnv) (v : Cli) (h : CReach env v) (hs : CEv.tcpShutdown ∉ v.log) (u : Nat) (unit : UInt8)
    (q : AnyReq) (tmo : Nat) (hc : CEv.call u unit q tmo ∈ v.log) :
    ((handledUids v.log).count u = 1 ∧ ¬ InProgress v u) ∨ ((handledUids v.log).count u = 0 ∧ InProgress v u) := by
  have hinv := h.inv.1
  have h1 := hinv.once u
  have h2 := hinv.covered (h.down hs) u (hinv.callBound hc)
  have hiff : InProgress v u ↔ 0 < v.curUids.count u + v.pendUids.count u + (Cli.taskUids v.tasks).count u := by
    constructor
    · rintro (hm | ⟨r, hr, rfl⟩ | ⟨r, b, t0, t, hcur, rfl, -⟩)
      · have := List.count_pos_iff.2 hm; omega
      · have : 0 < v.pendUids.count r.uid := List.count_pos_iff.2 (List.mem_map.2 ⟨r, hr, rfl⟩)
        omega
      · have : v.curUids.count r.uid = 1 := by simp [Cli.curUids, hcur]
        omega
    · intro hpos
      by_cases a : u ∈ Cli.taskUids v.tasks
      · exact Or.inl a
      · by_cases b : u ∈ v.pendUids
        · obtain ⟨r, hr, e⟩ := List.mem_map.1 b
          exact Or.inr (Or.inl ⟨r, hr, e⟩)
        · rw [List.count_eq_zero_of_not_mem a, List.count_eq_zero_of_not_mem b] at hpos
          have hm : u ∈ v.curUids := List.count_pos_iff.1 (by omega)
          simp only [Cli.curUids, List.mem_map, Option.mem_toList] at hm
          obtain ⟨r, hr, rfl⟩ := hm
          obtain ⟨bytes, t0, c1, t, c2, c3⟩ := hinv.curSent r hr
          exact Or.inr (Or.inr ⟨r, bytes, t0, t, hr, rfl, c1, c2, c3⟩)
  by_cases hp : InProgress v u
  · right; have := hiff.1 hp; exact ⟨by omega, hp⟩
  · left
    have : ¬ 0 < v.curUids.count u + v.pendUids.count u + (Cli.taskUids v.tasks).count u := fun hh => hp (hiff.2 hh)
    exact ⟨by omega, hp⟩

/-- Just before the error of the demonstration, request 3 is outstanding and request 4 queued; 0, 1, 2 are completed. -/
example : ∃ v, CReach demoEnv v ∧ CEv.tcpShutdown ∉ v.log ∧ CEv.call 3 3 reqA 7 ∈ v.log ∧ handledUids v.log = [1, 0, 2] := by
  obtain ⟨v, hv, hl⟩ := reach_of_log (env := demoEnv) (ops := clientOps.take 15) (l := clientDemo.take 14) (by decide +kernel)
  exact ⟨v, hv, by rw [hl]; decide +kernel, by rw [hl]; decide +kernel, by rw [hl]; decide +kernel⟩

/-! ### C51 -/

/-- The time of request `u` was up at time `now`: at least its timeout had passed since it was put on the wire. -/
def TimeUp (log : List CEv) (u now : Nat) : Prop :=
  ∃ unit q tmo bytes t, CEv.call u unit q tmo ∈ log ∧ CEv.sent u bytes t ∈ log ∧ t + tmo ≤ now

/-- C51 in full. -/
def C51_Statement : Prop := ∀ (env : ClientEnv) (v : Cli), CReach env v → ∀ u now, CEv.handler u (.error .timeout) now ∈ v.log → TimeUp v.log u now

/-- The library violates C51: the timer of request 0 expires, but before its callback runs the response arrives and
request 1 is sent; then the callback runs and reports a timeout of request 1, at the very moment it was sent. -/
theorem C51_violated : ¬ C51_Statement := by
  intro h
  obtain ⟨v, hv, hl⟩ := reach_of_log (env := demoEnv)
    (ops := [.submit 1 reqA 10, .submit 1 reqA 10, .runTask, .runTask, .tick 10, .expire 0, .receive [0, 0, 0, 0, 0, 5, 1, 3, 2, 0, 42], .runTimer 0])
    (l := [.call 0 1 reqA 10, .call 1 1 reqA 10, .sent 0 [0, 0, 0, 0, 0, 6, 1, 3, 0, 0, 0, 1] 0, .data [0, 0, 0, 0, 0, 5, 1, 3, 2, 0, 42],
      .mbap ⟨1, 0, [3, 2, 0, 42]⟩, .handler 0 (.ok [3, 2, 0, 42]) 10, .sent 1 [0, 1, 0, 0, 0, 6, 1, 3, 0, 0, 0, 1] 10,
      .handler 1 (.error .timeout) 10]) (by decide +kernel)
  obtain ⟨unit, q, tmo, bytes, t, h1, h2, h3⟩ := h demoEnv v hv 1 10 (by simp [hl])
  rw [hl] at h1 h2
  simp at h1 h2
  omega

/-- Histories in which no timer's callback runs after its request was completed in another way (that is, in which no timer
expires in the short time between the completion of its request and the execution of the already queued callback). -/
inductive NoLateTimer (env : ClientEnv) : Cli → Prop where
  | init : NoLateTimer env (Cli.init env)
  | step {v v' : Cli} {op : Op} : NoLateTimer env v → v.step env op = .ret v' →
      (∀ t, op = .runTimer t → v.current = none ∨ v.timer = some t) → NoLateTimer env v'

theorem NoLateTimer.reach {env : ClientEnv} {v : Cli} (h : NoLateTimer env v) : CReach env v := by
  induction h with
  | init => exact ⟨[], rfl⟩
  | step _ h1 _ ih => exact ih.step h1

theorem TimeUp.mono {l l' : List CEv} {u now : Nat} (h : TimeUp l u now) : TimeUp (l ++ l') u now := by
  obtain ⟨a, b, c, d, e, h1, h2, h3⟩ := h
  exact ⟨a, b, c, d, e, List.mem_append_left _ h1, List.mem_append_left _ h2, h3⟩

/-- C51, proved part: in histories without late timers, a handler is called with a timeout only if its own request's time
is up.  Missing: histories with late timers, see `C51_violated`. -/
theorem C51_own_timeout_partial (env : ClientEnv) (v : Cli) (h : NoLateTimer env v) (u now : Nat)
    (hm : CEv.handler u (.error .timeout) now ∈ v.log) : TimeUp v.log u now := by
  induction h with
  | init => cases hm
  | @step v v' op hv hs hop ih =>
    by_cases ht : ∃ t, op = .runTimer t
    · obtain ⟨t, rfl⟩ := ht
      have hinv := hv.reach.inv.1
      simp only [Cli.step] at hs
      split at hs
      · rename_i hf
        injection hs with hs; subst hs
        rw [Cli.onTimer_unqueue] at hm ⊢
        simp only at hm ⊢
        rcases hc : v.current with _ | r
        · have : (v.onTimer env).log = v.log := by unfold Cli.onTimer; split <;> simp [hc]
          rw [this] at hm ⊢; exact ih hm
        · obtain ⟨c1, c2, c3, c4, c5, c6, c7⟩ := hinv.current hc
          have e1 : v.onTimer env = (v.finish r (.error .timeout)).checkPending env := by
            simp only [Cli.onTimer, c1, hc, Bool.false_eq_true, if_false]
            exact Cli.cancelCurrent_eq env v r _ hc
          obtain ⟨es, e2, e3⟩ := Cli.Quiet.checkPending env (v.finish r (.error .timeout))
          rw [e1, e2, Cli.finish_log] at hm ⊢
          rcases List.mem_append.1 hm with hm | hm
          · rcases List.mem_append.1 hm with hm | hm
            · exact (ih hm).mono.mono
            · simp only [List.mem_singleton, CEv.handler.injEq] at hm
              obtain ⟨rfl, -, rfl⟩ := hm
              obtain ⟨bytes, t0, d1, t', d2, d3⟩ := hinv.curSent r hc
              have htt : t' = t := by
                rcases hop t rfl with h0 | h0
                · rw [hc] at h0; cases h0
                · rw [d2] at h0; injection h0
              subst htt
              have hup : t0 + r.timeout ≤ v.now := by
                rcases d3 with d3 | ⟨-, d3⟩
                · exfalso
                  have := (List.nodup_append.1 hinv.timerIds.1).2.2 t' (List.mem_map.2 ⟨_, d3, rfl⟩) t' hf
                  exact this rfl
                · exact d3
              exact TimeUp.mono (TimeUp.mono ⟨r.unit, r.req, r.timeout, bytes, t0, c5, d1, hup⟩)
          · exact absurd hm (e3 u now)
      · injection hs with hs; subst hs; exact ih hm
    · obtain ⟨es, e1, e2⟩ := Cli.Quiet.step hs (fun t hh => ht ⟨t, hh⟩)
      rw [e1] at hm ⊢
      rcases List.mem_append.1 hm with hm | hm
      · exact (ih hm).mono
      · exact absurd hm (e2 u now)

/-- C51, unconditionally: a timeout is only ever reported for a request that is on the wire and not completed, at a time at
which some request's time is up. -/
theorem C51_some_timeout (env : ClientEnv) (v : Cli) (h : CReach env v) (past future : List CEv) (u now : Nat)
    (he : v.log = past ++ .handler u (.error .timeout) now :: future) :
    u ∈ sentUids past ∧ u ∉ handledUids past ∧ ∃ u', TimeUp past u' now := by
  obtain ⟨-, h1, h2, u', b', t', unit', q', tmo', h3, h4, h5⟩ := h.inv.1.just.at he
  exact ⟨h1, h2, u', unit', q', tmo', b', t', h4, h3, h5⟩

/-- The demonstration run up to the timeout of request 2 has no late timer. -/
example : ∃ v, NoLateTimer demoEnv v ∧ CEv.handler 0 (.error .timeout) 10 ∈ v.log := by
  have h1 : NoLateTimer demoEnv _ := .step .init (op := .submit 1 reqA 10) rfl (by simp)
  have h2 : NoLateTimer demoEnv _ := .step h1 (op := .runTask) rfl (by simp)
  have h3 : NoLateTimer demoEnv _ := .step h2 (op := .tick 10) rfl (by simp)
  have h4 : NoLateTimer demoEnv _ := .step h3 (op := .expire 0) rfl (by simp)
  have h5 : NoLateTimer demoEnv _ := .step h4 (op := .runTimer 0) rfl (fun t ht => Or.inr (by injection ht with ht; subst ht; decide +kernel))
  exact ⟨_, h5, by decide +kernel⟩

/-! ### C52 -/

/-- C52. Before shutdown: whenever a request is outstanding (on the wire, handler not called) its timer runs or its expiry is
about to be processed, and whenever none is outstanding none is queued in the channel. -/
theorem C52_never_stuck (env : ClientEnv) (v : Cli) (h : CReach env v) (hs : CEv.tcpShutdown ∉ v.log) :
    (∀ u ∈ sentUids v.log, u ∉ handledUids v.log → ∃ unit q tmo bytes t0 timer, CEv.call u unit q tmo ∈ v.log ∧ CEv.sent u bytes t0 ∈ v.log ∧
      v.timer = some timer ∧ ((timer, t0 + tmo) ∈ v.armed ∨ timer ∈ v.fired ∧ t0 + tmo ≤ v.now)) ∧
    ((∀ u ∈ sentUids v.log, u ∈ handledUids v.log) → v.pending = []) := by
  have hinv := h.inv.1
  constructor
  · intro u hu hn
    obtain ⟨o, o1, o2⟩ := hinv.outstanding
    have := o1 u hu hn
    rw [o2 (h.down hs)] at this
    rcases hc : v.current with _ | r
    · rw [hc] at this; cases this
    · rw [hc] at this
      simp only [Option.map_some, Option.some.injEq] at this
      subst this
      obtain ⟨c1, c2, c3, c4, c5, c6, c7⟩ := hinv.current hc
      obtain ⟨bytes, t0, d1, t, d2, d3⟩ := hinv.curSent r hc
      exact ⟨_, _, _, bytes, t0, t, c5, d1, d2, d3⟩
  · intro hall
    rcases hc : v.current with _ | r
    · exact h.inv.2 hc
    · obtain ⟨c1, c2, c3, c4, -⟩ := hinv.current hc
      exact absurd (hall _ c3) c4

/-- An infinite execution from the start. -/
structure Execution (env : ClientEnv) (ops : Nat → Op) (σ : Nat → Cli) : Prop where
  start : σ 0 = Cli.init env
  next : ∀ n, (σ n).step env (ops n) = .ret (σ (n + 1))

/-- Fairness of the executor: posted tasks get run, timers do not stay armed for ever, queued expiries get run. -/
structure Fair (ops : Nat → Op) (σ : Nat → Cli) : Prop where
  tasks : ∀ n, (σ n).tasks ≠ [] → ∃ m, n ≤ m ∧ ops m = .runTask
  timers : ∀ n t, t ∈ (σ n).armed.map (·.1) → ∃ m, n ≤ m ∧ t ∉ (σ m).armed.map (·.1)
  callbacks : ∀ n t, t ∈ (σ n).fired → ∃ m, n ≤ m ∧ t ∉ (σ m).fired

theorem Execution.reach {env : ClientEnv} {ops : Nat → Op} {σ : Nat → Cli} (h : Execution env ops σ) (n : Nat) : CReach env (σ n) := by
  induction n with
  | zero => rw [h.start]; exact ⟨[], rfl⟩
  | succ n ih => exact ih.step (h.next n)

theorem exists_min (f : Nat → Nat) (n0 : Nat) : ∃ N, n0 ≤ N ∧ ∀ m, n0 ≤ m → f N ≤ f m := by
  have : ∀ k N, n0 ≤ N → f N ≤ k → ∃ N, n0 ≤ N ∧ ∀ m, n0 ≤ m → f N ≤ f m := by
    intro k
    induction k with
    | zero => intro N hN hk; exact ⟨N, hN, fun m _ => by omega⟩
    | succ k ih =>
      intro N hN hk
      by_cases hex : ∃ m, n0 ≤ m ∧ f m ≤ k
      · obtain ⟨m, hm, hle⟩ := hex; exact ih m hm hle
      · refine ⟨N, hN, fun m hm => ?_⟩
        by_contra hlt
        exact hex ⟨m, hm, by omega⟩
  exact this (f n0) n0 (Nat.le_refl _) (Nat.le_refl _)

/-- C52. In every fair execution without shutdown, the handler of every submitted request is eventually called: whatever
else happens (other submissions, arbitrary data from the network or none at all, errors, the passing of time). -/
theorem C52_every_request_completes (env : ClientEnv) (ops : Nat → Op) (σ : Nat → Cli) (hx : Execution env ops σ) (hf : Fair ops σ)
    (hs : ∀ n, CEv.tcpShutdown ∉ (σ n).log) (n : Nat) (u : Nat) (unit : UInt8) (q : AnyReq) (tmo : Nat)
    (hc : CEv.call u unit q tmo ∈ (σ n).log) : ∃ m, u ∈ handledUids (σ m).log := by
  by_contra hno
  have hno : ∀ m, u ∉ handledUids (σ m).log := fun m hm => hno ⟨m, hm⟩
  have hinv := fun m => (hx.reach m).inv.1
  have hset := fun m => (hx.reach m).inv.2
  have hd := fun m => (hx.reach m).down (hs m)
  have hsh := fun m => Cli.Shift.step (hx.next m) (hd (m + 1))
  -- `u` stays known
  have hu : ∀ m, n ≤ m → u < (σ m).nextUid := by
    intro m hm
    obtain ⟨k, rfl⟩ := Nat.exists_eq_add_of_le hm
    induction k with
    | zero => exact (hinv n).callBound hc
    | succ k ih => exact Nat.lt_of_lt_of_le (ih (by omega)) (hsh (n + k)).uids
  -- so it stays in the line
  have hmem : ∀ m, n ≤ m → u ∈ (σ m).line := by
    intro m hm
    have h1 := (hinv m).covered (hd m) u (hu m hm)
    rw [List.count_eq_zero_of_not_mem (hno m)] at h1
    rw [← List.count_pos_iff, Cli.line, List.count_append, List.count_append]
    omega
  have hcount : ∀ m, (σ m).line.count u ≤ 1 := by
    intro m
    have h1 := (hinv m).once u
    rw [Cli.line, List.count_append, List.count_append]
    omega
  have hmono : ∀ m, n ≤ m → (σ (m + 1)).line.idxOf u ≤ (σ m).line.idxOf u := by
    intro m hm
    obtain ⟨new, h1, h2, -⟩ := (hsh m).moved
    exact Cli.idxOf_append_new h2 (hmem _ (by omega)) (fun h => by have := h1 u h; have := hu m hm; omega) (hcount m)
  obtain ⟨N, hN, hmin⟩ := exists_min (fun m => (σ m).line.idxOf u) n
  have hconst : ∀ m, N ≤ m → (σ m).line.idxOf u = (σ N).line.idxOf u := by
    intro m hm
    refine Nat.le_antisymm ?_ (hmin m (by omega))
    obtain ⟨k, rfl⟩ := Nat.exists_eq_add_of_le hm
    induction k with
    | zero => exact Nat.le_refl _
    | succ k ih => exact Nat.le_trans (hmono (N + k) (by omega)) (ih (by omega))
  have hnostrict : ∀ m, N ≤ m → ∀ new, (∀ x ∈ new, (σ m).nextUid ≤ x) → ¬ List.Sublist (σ (m + 1)).line ((σ m).line.tail ++ new) := by
    intro m hm new hnew hsub
    have := Cli.idxOf_tail_new hsub (hmem _ (by omega)) (fun h => by have := hnew u h; have := hu m (by omega); omega) (hcount m)
    rw [hconst m hm, hconst (m + 1) (by omega)] at this
    omega
  -- nothing can be outstanding any more
  have hnone : ∀ m, N ≤ m → (σ m).current = none := by
    intro m hm
    rcases hcur : (σ m).current with _ | r
    · rfl
    · exfalso
      obtain ⟨bytes, t0, d1, t, d2, d3⟩ := (hinv m).curSent r hcur
      have hkeep : ∀ k, m ≤ k → (σ k).current = some r ∧ (σ k).timer = some t := by
        intro k hk
        obtain ⟨j, rfl⟩ := Nat.exists_eq_add_of_le hk
        induction j with
        | zero => exact ⟨hcur, d2⟩
        | succ j ih =>
          obtain ⟨i1, i2⟩ := ih (by omega)
          obtain ⟨new, h1, h2, h3⟩ := (hsh (m + j)).moved
          rcases h3 r i1 with ⟨h4, h5⟩ | h4
          · exact ⟨h4, by rw [show m + (j + 1) = m + j + 1 from rfl, h5, i2]⟩
          · exact absurd h4 (hnostrict (m + j) (by omega) new h1)
      have hwhere : ∀ k, m ≤ k → t ∈ (σ k).armed.map (·.1) ∨ t ∈ (σ k).fired := by
        intro k hk
        obtain ⟨i1, i2⟩ := hkeep k hk
        obtain ⟨b', t', e1, t1, e2, e3⟩ := (hinv k).curSent r i1
        rw [i2] at e2; injection e2 with e2; subst e2
        rcases e3 with e3 | ⟨e3, -⟩
        · exact Or.inl (List.mem_map.2 ⟨_, e3, rfl⟩)
        · exact Or.inr e3
      have hlt : ∀ k, m ≤ k → t < (σ k).nextTimer := by
        intro k hk
        exact (hinv k).timerIds.2 t (List.mem_append.2 (hwhere k hk))
      obtain ⟨k, hk, hka⟩ : ∃ k, m ≤ k ∧ t ∉ (σ k).armed.map (·.1) := by
        by_cases ha : t ∈ (σ m).armed.map (·.1)
        · exact hf.timers m t ha
        · exact ⟨m, Nat.le_refl _, ha⟩
      have hstay : ∀ j, t ∉ (σ (k + j)).armed.map (·.1) := by
        intro j
        induction j with
        | zero => exact hka
        | succ j ih =>
          intro hm'
          rcases (hsh (k + j)).armed t hm' with h1 | h1
          · exact ih h1
          · have := hlt (k + j) (by omega); omega
      have hfired : t ∈ (σ k).fired := (hwhere k hk).resolve_left hka
      obtain ⟨k', hk', hnf⟩ := hf.callbacks k t hfired
      obtain ⟨j, rfl⟩ := Nat.exists_eq_add_of_le hk'
      rcases hwhere (k + j) (by omega) with h1 | h1
      · exact hstay j h1
      · exact hnf h1
  -- so `u` is posted, and the next task changes something
  have htask : ∀ m, N ≤ m → u ∈ Cli.taskUids (σ m).tasks := by
    intro m hm
    have h1 := hmem m (by omega)
    have h2 := hnone m hm
    simpa [Cli.line, Cli.curUids, Cli.pendUids, h2, hset m h2] using h1
  obtain ⟨m, hm, hop⟩ := hf.tasks N (by intro h0; have := htask N (Nat.le_refl _); rw [h0] at this; cases this)
  have hstep := hx.next m
  rw [hop] at hstep
  simp only [Cli.step] at hstep
  have hcm := hnone m hm
  have hpm := hset m hcm
  split at hstep
  · rename_i h0
    have := htask m hm; rw [h0] at this; cases this
  · rename_i t ts ht
    injection hstep with hstep
    cases t with
    | request u' unit' q' tmo' =>
      have := hnone (m + 1) (by omega)
      rw [← hstep] at this
      simp [Cli.runTask, hd m, Cli.checkPending, hcm, hpm, Cli.emit] at this
    | malformed u' =>
      refine hnostrict m hm [] (by simp) ?_
      rw [← hstep]
      simp [Cli.line, Cli.curUids, Cli.pendUids, hcm, hpm, ht, Cli.runTask, Cli.emit, Cli.taskUids, CTask.uid?]
    | shutdown =>
      have := hd (m + 1)
      rw [← hstep] at this
      simp only [Cli.runTask] at this
      obtain ⟨f, hf'⟩ := Cli.cancelTimer_eq { (σ m) with tasks := ts, isShutdown := true, log := (σ m).log ++ (σ m).sessions.map CEv.sessionShutdown, sessions := [], pending := [], current := none }
      rw [hf'] at this
      simp [Cli.emit] at this

/-- The scheduler's own moves: no API calls, no data, no errors. -/
def Op.internal : Op → Bool
  | .runTask => true
  | .tick _ => true
  | .expire _ => true
  | .runTimer _ => true
  | _ => false

/-- C52, continued: from every reachable state in which shutdown has not been requested, letting posted tasks and timers run
(and time pass), with the network completely silent, completes every submitted request.  (So fair executions exist.) -/
theorem C52_completes_in_silence (env : ClientEnv) (v : Cli) (h : CReach env v) (hs : CEv.tcpShutdown ∉ v.log) (ht : CTask.shutdown ∉ v.tasks) :
    ∃ ops v', (∀ op ∈ ops, Op.internal op = true) ∧ v.run env ops = .ret v' ∧
      ∀ u unit q tmo, CEv.call u unit q tmo ∈ v.log → u ∈ handledUids v'.log := by
  have key : ∀ n (v : Cli), CReach env v → CEv.tcpShutdown ∉ v.log → CTask.shutdown ∉ v.tasks → v.line.length + v.tasks.length = n →
      ∃ ops v', (∀ op ∈ ops, Op.internal op = true) ∧ v.run env ops = .ret v' ∧ ∀ u, u < v.nextUid → u ∈ handledUids v'.log := by
    intro n
    induction n using Nat.strongRecOn with
    | ind n ih =>
      intro v h hs ht hn
      have hinv := h.inv.1
      have hd := h.down hs
      -- continue after some internal moves
      have cont : ∀ ops v1, (∀ op ∈ ops, Op.internal op = true) → v.run env ops = .ret v1 → v1.isShutdown = false →
          CTask.shutdown ∉ v1.tasks → v1.line.length + v1.tasks.length < n → v1.nextUid = v.nextUid →
          ∃ ops v', (∀ op ∈ ops, Op.internal op = true) ∧ v.run env ops = .ret v' ∧ ∀ u, u < v.nextUid → u ∈ handledUids v'.log := by
        intro ops v1 h1 h2 h3 h4 h5 h6
        have hr1 := h.run h2
        have hs1 : CEv.tcpShutdown ∉ v1.log := by rw [hr1.inv.1.downLog, h3]; simp
        obtain ⟨ops', v', a, b, c⟩ := ih _ h5 v1 hr1 hs1 h4 rfl
        refine ⟨ops ++ ops', v', ?_, by rw [crun_append ops ops' v v1 h2, b], by rw [← h6]; exact c⟩
        intro op hop
        rcases List.mem_append.1 hop with hop | hop
        · exact h1 op hop
        · exact a op hop
      rcases htk : v.tasks with _ | ⟨t, ts⟩
      · rcases hc : v.current with _ | r
        · -- everything is done
          refine ⟨[], v, by simp, rfl, ?_⟩
          intro u hu
          have h1 := hinv.covered hd u hu
          have h2 := h.inv.2 hc
          simp only [Cli.curUids, Cli.pendUids, hc, h2, htk, Cli.taskUids, Option.toList_none, List.map_nil, List.filterMap_nil,
            List.count_nil, Nat.add_zero] at h1
          exact List.count_pos_iff.1 h1
        · -- let the timer of the outstanding request expire
          obtain ⟨bytes, t0, d1, t, d2, d3⟩ := hinv.curSent r hc
          have finish : ∀ w : Cli, t ∈ w.fired → w.isShutdown = false → w.current = some r → w.pending = v.pending → w.tasks = [] →
              w.nextUid = v.nextUid → ∃ v1, w.step env (.runTimer t) = .ret v1 ∧ v1.isShutdown = false ∧ v1.tasks = [] ∧
                v1.line.length + 1 = v.line.length ∧ v1.nextUid = v.nextUid := by
            intro w w1 w2 w3 w4 w5 w6
            refine ⟨({ w with fired := w.fired.filter fun x => x ≠ t } : Cli).onTimer env, by simp only [Cli.step, w1, if_true], ?_⟩
            rw [Cli.onTimer_unqueue]
            have e1 : w.onTimer env = (w.finish r (.error .timeout)).checkPending env := by
              simp only [Cli.onTimer, w2, w3, Bool.false_eq_true, if_false]
              exact Cli.cancelCurrent_eq env w r _ w3
            have e2 : (w.onTimer env).line = (w.finish r (.error .timeout)).line := by rw [e1, Cli.checkPending_line]
            have e3 : (w.finish r (.error .timeout)).line = w.line.tail ∧ (w.finish r (.error .timeout)).tasks = [] ∧ (w.finish r (.error .timeout)).nextUid = v.nextUid := by
              obtain ⟨f, hf⟩ := Cli.cancelTimer_eq { w.emit (.handler r.uid (.error .timeout) w.now) with current := none }
              rw [Cli.finish, hf]
              exact ⟨by simp [Cli.line, Cli.curUids, Cli.pendUids, w3, Cli.emit], w5, w6⟩
            have e4 : (w.onTimer env).tasks = (w.finish r (.error .timeout)).tasks ∧ (w.onTimer env).nextUid = (w.finish r (.error .timeout)).nextUid := by
              rw [e1]; unfold Cli.checkPending
              split
              · exact ⟨rfl, rfl⟩
              · split <;> exact ⟨rfl, rfl⟩
            refine ⟨?_, ?_, ?_, ?_⟩
            · show (w.onTimer env).isShutdown = false
              rw [e1, Cli.checkPending_isShutdown, Cli.finish_isShutdown, w2]
            · show (w.onTimer env).tasks = []
              rw [e4.1, e3.2.1]
            · show (w.onTimer env).line.length + 1 = v.line.length
              rw [e2, e3.1]
              simp [Cli.line, Cli.curUids, Cli.pendUids, w3, w4, w5, hc, htk]
            · show (w.onTimer env).nextUid = v.nextUid
              rw [e4.2, e3.2.2]
          have hlen : ∀ v1 : Cli, v1.tasks = [] → v1.line.length + 1 = v.line.length → v1.line.length + v1.tasks.length < n := by
            intro v1 h1 h2
            rw [h1, List.length_nil]; rw [htk, List.length_nil] at hn; omega
          rcases d3 with d3 | ⟨d3, -⟩
          · have hl : ∃ d, v.armed.lookup t = some d := by
              rcases hlk : v.armed.lookup t with _ | d
              · exfalso
                have := List.lookup_eq_none_iff.1 hlk _ d3
                simp at this
              · exact ⟨d, rfl⟩
            obtain ⟨d, hd'⟩ := hl
            obtain ⟨v1, g1, g2, g3, g4, g5⟩ := finish { v with now := v.now + d, armed := v.armed.filter (fun x => x.1 ≠ t), fired := v.fired ++ [t] }
              (by simp) hd hc rfl htk rfl
            refine cont [.tick d, .expire t, .runTimer t] v1 (by simp [Op.internal]) ?_ g2 (by rw [g3]; simp) (hlen v1 g3 g4) g5
            simp only [Cli.run, Cli.step, CM.ret_bind, hd', Nat.le_add_left, if_true]
            simp only [Cli.step] at g1
            rw [g1]; rfl
          · obtain ⟨v1, g1, g2, g3, g4, g5⟩ := finish v d3 hd hc rfl htk rfl
            exact cont [.runTimer t] v1 (by simp [Op.internal]) (by simp [Cli.run, g1]) g2 (by rw [g3]; simp) (hlen v1 g3 g4) g5
      · -- run the first posted task
        rw [htk] at ht hn
        refine cont [.runTask] (({ v with tasks := ts } : Cli).runTask env t) (by simp [Op.internal]) (by simp [Cli.run, Cli.step, htk]) ?_ ?_ ?_ ?_
        all_goals cases t with
          | shutdown => exact absurd (List.mem_cons_self) ht
          | request u unit q tmo =>
            simp only [Cli.runTask, hd, Bool.false_eq_true, if_false]
            first
            | (rw [Cli.checkPending_isShutdown])
            | (have : ∀ w : Cli, (w.checkPending env).tasks = w.tasks ∧ (w.checkPending env).nextUid = w.nextUid := by
                 intro w; unfold Cli.checkPending
                 split
                 · exact ⟨rfl, rfl⟩
                 · split <;> exact ⟨rfl, rfl⟩
               first
               | (rw [(this _).2])
               | (rw [(this _).1]; exact fun h => ht (List.mem_cons_of_mem _ h))
               | (rw [Cli.checkPending_line, (this _).1]
                  simp [Cli.line, Cli.curUids, Cli.pendUids, htk, Cli.taskUids, CTask.uid?] at hn ⊢
                  omega))
          | malformed u =>
            first
            | exact hd
            | rfl
            | exact fun h => ht (List.mem_cons_of_mem _ h)
            | (simp [Cli.line, Cli.curUids, Cli.pendUids, htk, Cli.taskUids, CTask.uid?, Cli.runTask, Cli.emit] at hn ⊢
               omega)
  obtain ⟨ops, v', a, b, c⟩ := key _ v h hs ht rfl
  exact ⟨ops, v', a, b, fun u unit q tmo hc => c u (h.inv.1.callBound hc)⟩

/-! A fair execution with a request: it is sent, times out, and then nothing happens any more. -/

def fairOps : Nat → Op
  | 0 => .submit 1 reqA 10
  | 1 => .runTask
  | 2 => .tick 10
  | 3 => .expire 0
  | 4 => .runTimer 0
  | _ => .runTask

def fairState : Nat → Cli
  | 0 => Cli.init demoEnv
  | n + 1 => match (fairState n).step demoEnv (fairOps n) with
    | .ret v => v
    | .ub => fairState n

theorem fair_execution : Execution demoEnv fairOps fairState := by
  have key : ∀ n, CReach demoEnv (fairState n) ∧ (fairState n).step demoEnv (fairOps n) = .ret (fairState (n + 1)) := by
    intro n
    induction n with
    | zero => exact ⟨⟨[], rfl⟩, rfl⟩
    | succ n ih =>
      have hr := ih.1.step ih.2
      obtain ⟨v', hv⟩ := hr.total (fairOps (n + 1))
      exact ⟨hr, by rw [hv]; simp only [fairState] at hv ⊢; rw [hv]⟩
  exact ⟨rfl, fun n => (key n).2⟩

theorem fair_idle (k : Nat) : (fairState (5 + k)).tasks = [] ∧ (fairState (5 + k)).armed = [] ∧ (fairState (5 + k)).fired = [] ∧
    (fairState (5 + k)).log = (fairState 5).log := by
  induction k with
  | zero => exact ⟨by decide +kernel, by decide +kernel, by decide +kernel, rfl⟩
  | succ k ih =>
    have h := fair_execution.next (5 + k)
    have ho : fairOps (5 + k) = .runTask := by rw [Nat.add_comm]; rfl
    rw [ho] at h
    simp only [Cli.step, ih.1] at h
    injection h with h
    rw [show 5 + (k + 1) = 5 + k + 1 from rfl, ← h]
    exact ih

example : Execution demoEnv fairOps fairState ∧ Fair fairOps fairState ∧ (∀ n, CEv.tcpShutdown ∉ (fairState n).log) ∧
    CEv.call 0 1 reqA 10 ∈ (fairState 1).log := by
  refine ⟨fair_execution, ⟨?_, ?_, ?_⟩, ?_, by decide +kernel⟩
  · exact fun n _ => ⟨5 + n, by omega, by rw [Nat.add_comm]; rfl⟩
  · exact fun n t _ => ⟨5 + n, by omega, by rw [(fair_idle n).2.1]; simp⟩
  · exact fun n t _ => ⟨5 + n, by omega, by rw [(fair_idle n).2.2.1]; simp⟩
  · intro n
    match n with
    | 0 => decide +kernel
    | 1 => decide +kernel
    | 2 => decide +kernel
    | 3 => decide +kernel
    | 4 => decide +kernel
    | n + 5 => rw [Nat.add_comm, (fair_idle n).2.2.2]; decide +kernel

/-! ### C57 -/

/-- What a handler must be given for request `q` of kind `k` when a PDU was received: `Decoded k q pdu y`. -/
structure Decoded (k : Kind) (q : Req k) (pdu : List UInt8) (y : Expected (Resp k)) : Prop where
  /-- a conformant positive answer to this request is understood -/
  understood : ∀ r, InRange k q → Answers k q r → ResponsePdu k r pdu → y = .ok r
  /-- a value is only produced from a PDU with the request's function code, and answers this very request -/
  sound : ∀ r, y = .ok r → Answers k q r ∧ pdu.head? = some (fc k)
  /-- exceptions are exactly the exception PDUs for the request's function code -/
  exception : ∀ t, y = .error (.modbus t) ↔ ∃ code, pdu = [fc k ||| 0x80, code] ∧ t = exceptionOfCode code
  /-- anything else is reported as malformed -/
  otherwise : (∃ r, y = .ok r) ∨ (∃ t, y = .error (.modbus t)) ∨ y = .error .malformedResponse

theorem packs_first {bits : List Bool} {body : List UInt8} (h : Packs bits body) : FirstBits bits.length body bits := by
  refine ⟨rfl, h.length_eq, fun i hi => ?_⟩
  have := h.bit_eq i (by rw [h.length_eq, bytesFor]; omega)
  rw [this, List.getElem?_eq_getElem hi]; rfl

theorem decoded (k : Kind) (q : Req k) (d : List UInt8) : ∃ y, parseResp k q d = .ret y ∧ Decoded k q d y := by
  obtain ⟨y, hy⟩ := (C11_decode_total k d).2 q
  refine ⟨y, hy, ?_, ?_, ?_, ?_⟩
  · intro r hq ha hr
    have : parseResp k q d = .ret (.ok r) → y = .ok r := fun h => by rw [hy] at h; injection h
    apply this
    cases k
    case readCoils =>
      obtain ⟨body, h1, h2⟩ := hr
      obtain ⟨bits, h3, h4⟩ := ha
      subst h4
      rw [labelBits_values] at h1
      have hlen : (labelBits q.start bits).length = q.qty.toNat := by simp [labelBits, h3]
      rw [hlen] at h2
      refine ((C07_bit_response_iff q.start q.qty d _).1).2 ⟨_, body, bits, h2, ?_, ?_, rfl⟩
      · have := hq.2
        simp only [qty, maxQty] at this
        simp only [bytesFor, UInt8.toNat_ofNat']; omega
      · rw [← h3]; exact packs_first h1
    case readDiscreteInputs =>
      obtain ⟨body, h1, h2⟩ := hr
      obtain ⟨bits, h3, h4⟩ := ha
      subst h4
      rw [labelBits_values] at h1
      have hlen : (labelBits q.start bits).length = q.qty.toNat := by simp [labelBits, h3]
      rw [hlen] at h2
      refine ((C07_bit_response_iff q.start q.qty d _).2).2 ⟨_, body, bits, h2, ?_, ?_, rfl⟩
      · have := hq.2
        simp only [qty, maxQty] at this
        simp only [bytesFor, UInt8.toNat_ofNat']; omega
      · rw [← h3]; exact packs_first h1
    case readHoldingRegisters =>
      obtain ⟨regs, h3, h4⟩ := ha
      subst h4
      have hlen : (labelRegs q.start regs).length = regs.length := by simp [labelRegs]
      simp only [ResponsePdu, labelRegs_values, hlen] at hr
      refine ((C08_register_response_iff_partial q.start q.qty d _).1).2 ⟨UInt8.ofNat (2 * regs.length), regs, hr, ?_, h3, rfl⟩
      have := hq.2
      simp only [qty, maxQty] at this
      simp only [UInt8.toNat_ofNat']; omega
    case readInputRegisters =>
      obtain ⟨regs, h3, h4⟩ := ha
      subst h4
      have hlen : (labelRegs q.start regs).length = regs.length := by simp [labelRegs]
      simp only [ResponsePdu, labelRegs_values, hlen] at hr
      refine ((C08_register_response_iff_partial q.start q.qty d _).2).2 ⟨UInt8.ofNat (2 * regs.length), regs, hr, ?_, h3, rfl⟩
      have := hq.2
      simp only [qty, maxQty] at this
      simp only [UInt8.toNat_ofNat']; omega
    all_goals exact (C12_write_response_faithful_partial _ (by simp) q d r).2 hr
  · intro r hr
    subst hr
    constructor
    · cases k
      case readCoils =>
        obtain ⟨bc, body, bits, -, -, h3, h4⟩ := ((C07_bit_response_iff q.start q.qty d _).1).1 hy
        exact ⟨bits, h3.bits_length, h4⟩
      case readDiscreteInputs =>
        obtain ⟨bc, body, bits, -, -, h3, h4⟩ := ((C07_bit_response_iff q.start q.qty d _).2).1 hy
        exact ⟨bits, h3.bits_length, h4⟩
      case readHoldingRegisters =>
        obtain ⟨bc, regs, -, -, h3, h4⟩ := ((C08_register_response_iff_partial q.start q.qty d _).1).1 hy
        exact ⟨regs, h3, h4⟩
      case readInputRegisters =>
        obtain ⟨bc, regs, -, -, h3, h4⟩ := ((C08_register_response_iff_partial q.start q.qty d _).2).1 hy
        exact ⟨regs, h3, h4⟩
      all_goals trivial
    · rcases C13_response_trichotomy k q d with ⟨-, h⟩ | ⟨⟨t, h⟩, -⟩ | h
      · exact h
      · rw [hy] at h; cases h
      · rw [hy] at h; cases h
  · intro t
    rw [← C09_exception_iff k q d t, hy]
    constructor
    · rintro rfl; rfl
    · intro h; injection h
  · rcases C13_response_trichotomy k q d with ⟨⟨r, h⟩, -⟩ | ⟨⟨t, h⟩, -⟩ | h <;> rw [hy] at h <;> injection h with h
    · exact Or.inl ⟨r, h⟩
    · exact Or.inr (Or.inl ⟨t, h⟩)
    · exact Or.inr (Or.inr h)

/-- C57. Whenever the channel calls a handler with `x`, the session gives the user's handler `typedResult` for the request it
was submitted with, and that is: the channel's error unchanged, or the decoding for exactly that request of the PDU. -/
theorem C57_typed_results (env : ClientEnv) (v : Cli) (h : CReach env v) (u : Nat) (x : Expected (List UInt8)) (now : Nat)
    (hm : CEv.handler u x now ∈ v.log) :
    ∃ unit q tmo, CEv.call u unit q tmo ∈ v.log ∧ ∃ y, typedResult q.1 q.2 x = .ret y ∧
      ((∃ e, x = .error e ∧ y = .error e) ∨ ∃ pdu, x = .ok pdu ∧ Decoded q.1 q.2 pdu y) := by
  have hcall : ∃ unit q tmo, CEv.call u unit q tmo ∈ v.log := by
    have hlt : u < v.nextUid := by
      by_contra hge
      exact (h.inv.1.bound u (by omega)).1 (mem_handledUids.2 ⟨_, _, hm⟩)
    have : u ∈ (submissions v.log).map (·.1) := by rw [h.inv.1.calls]; exact List.mem_range.2 hlt
    obtain ⟨⟨u', unit, q, tmo⟩, h1, h2⟩ := List.mem_map.1 this
    simp only at h2; subst h2
    exact ⟨unit, q, tmo, mem_submissions.1 h1⟩
  obtain ⟨unit, q, tmo, hc⟩ := hcall
  refine ⟨unit, q, tmo, hc, ?_⟩
  rcases x with e | pdu
  · exact ⟨.error e, rfl, Or.inl ⟨e, rfl, rfl⟩⟩
  · obtain ⟨y, h1, h2⟩ := decoded q.1 q.2 pdu
    exact ⟨y, h1, Or.inr ⟨pdu, rfl, h2⟩⟩

example : CEv.handler 0 (.ok [3, 2, 0, 42]) 0 ∈ clientDemo ∧ typedResult reqA.1 reqA.2 (.ok [3, 2, 0, 42]) = .ret (.ok [⟨0, 42⟩]) ∧
    Answers reqA.1 reqA.2 [⟨0, 42⟩] ∧ ResponsePdu reqA.1 [⟨0, 42⟩] [3, 2, 0, 42] :=
  ⟨by decide +kernel, by decide +kernel, ⟨[42], rfl, rfl⟩, rfl⟩

end Modbus.Props
