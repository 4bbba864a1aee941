import Verif.Props.Polling
import Verif.Lemmas.PollingFair
import Mathlib.Data.List.Perm.Subperm

/-! Property C112: polling goes on for ever. -/

namespace Modbus.Props

open Spec

/-- The state of scheduled request `i` of session `s`. -/
def pollOf (v : Pcl) (s i : Nat) : Option Poll := v.sess[s]?.bind fun p => p.sess.polls[i]?

/-- An infinite execution of the client: any interleaving of API calls, tasks, timers, events of the connection and the passing of
time. -/
structure LExecution (env : ClientEnv) (ops : Nat → Pcl.Op) (σ : Nat → Pcl) : Prop where
  start : σ 0 = Pcl.init env
  next : ∀ n, (σ n).step env (ops n) = .ret (σ (n + 1))

/-- Fairness of the executor: posted tasks get run, timers do not stay armed for ever, queued expiries get run. -/
structure LFair (ops : Nat → Pcl.Op) (σ : Nat → Pcl) : Prop where
  chanTasks : ∀ n, (σ n).cli.tasks ≠ [] → ∃ m, n ≤ m ∧ ops m = .chan .runTask
  chanTimers : ∀ n t, t ∈ (σ n).cli.armed.map (·.1) → ∃ m, n ≤ m ∧ t ∉ (σ m).cli.armed.map (·.1)
  chanCallbacks : ∀ n t, t ∈ (σ n).cli.fired → ∃ m, n ≤ m ∧ t ∉ (σ m).cli.fired
  sessTasks : ∀ n s p, (σ n).sess[s]? = some p → p.sess.tasks ≠ [] → ∃ m, n ≤ m ∧ ops m = .sess s .runTask
  pollTimers : ∀ n s i q t, pollOf (σ n) s i = some q → t ∈ q.armed.map (·.1) →
    ∃ m, n ≤ m ∧ ∀ q', pollOf (σ m) s i = some q' → t ∉ q'.armed.map (·.1)
  pollCallbacks : ∀ n s i q t, pollOf (σ n) s i = some q → t ∈ q.fired → ∃ m, n ≤ m ∧ ∀ q', pollOf (σ m) s i = some q' → t ∉ q'.fired

namespace LExecution

variable {env : ClientEnv} {ops : Nat → Pcl.Op} {σ : Nat → Pcl}

theorem reach (h : LExecution env ops σ) (n : Nat) : LReach env (σ n) := by
  induction n with
  | zero => rw [h.start]; exact ⟨[], rfl⟩
  | succ n ih => exact ih.step (h.next n)

theorem follows (h : LExecution env ops σ) {n m : Nat} (hm : n ≤ m) : ∃ new, Follows (σ n) (σ m) new := by
  induction hm with
  | refl => exact ⟨[], .log_only (by simp) rfl rfl (by simp) (by simp)⟩
  | step hm ih =>
    obtain ⟨a, ha⟩ := ih
    obtain ⟨b, hb⟩ := (h.reach _).stepped (h.next _)
    exact ⟨a ++ b, ha.trans hb.follows⟩

theorem log_mono (h : LExecution env ops σ) {n m : Nat} (hm : n ≤ m) : (σ n).log <+: (σ m).log := by
  obtain ⟨new, hf⟩ := h.follows hm
  rw [hf.log]; exact List.prefix_append _ _

/-- The channel, on its own, goes through an execution. -/
theorem channel (h : LExecution env ops σ) : ∃ cops, Execution env cops (fun n => (σ n).cli) ∧ ∀ n c, ops n = .chan c → Pcl.ownChan c = true → cops n = c := by
  have hc : ∀ n, ∃ cop, (σ n).cli.step env cop = .ret (σ (n + 1)).cli ∧ ∀ c, ops n = .chan c → Pcl.ownChan c = true → cop = c := by
    intro n
    obtain ⟨new, hs⟩ := (h.reach n).stepped (h.next n)
    obtain ⟨cop, h1, h2, -⟩ := hs.chan
    exact ⟨cop, h1, h2⟩
  refine ⟨fun n => Classical.choose (hc n), ⟨by rw [h.start]; rfl, fun n => (Classical.choose_spec (hc n)).1⟩, fun n => (Classical.choose_spec (hc n)).2⟩

theorem later (h : LExecution env ops σ) {n m : Nat} (hm : n ≤ m) {s i : Nat} {q : Poll} (hq : pollOf (σ n) s i = some q) :
    ∃ q', pollOf (σ m) s i = some q' ∧ Onward q q' := by
  obtain ⟨new, hf⟩ := h.follows hm
  simp only [pollOf, Option.bind_eq_some_iff] at hq
  obtain ⟨p, hp, hq⟩ := hq
  obtain ⟨p', hp', hmv⟩ := hf.sess s p hp
  obtain ⟨sops, hs, -⟩ := hmv.ops
  obtain ⟨q', h1, h2⟩ := Sess.run_onward sops p.sess hq
  exact ⟨q', by simp only [pollOf, Option.bind_eq_some_iff]; exact ⟨p', hp', by rw [hs]; exact h1⟩, h2⟩

end LExecution

theorem LReach.poll {env : ClientEnv} {v : Pcl} (h : LReach env v) {s i : Nat} {q : Poll} (hq : pollOf v s i = some q) : ∃ p, v.sess[s]? = some p ∧
    p.sess.polls[i]? = some q ∧ p.sess.Lives ∧ ofPoll s i v.log = q.log := by
  simp only [pollOf, Option.bind_eq_some_iff] at hq
  obtain ⟨p, hp, hq⟩ := hq
  have hok := h.inv.1.sessions s p hp
  refine ⟨p, hp, hq, hok.lives, ?_⟩
  unfold ofPoll
  rw [hok.log, hok.lives.good.effects i q hq]

/-- A scheduled request exists from the call of `schedule_request` on. -/
theorem LReach.scheduled {env : ClientEnv} {v : Pcl} (h : LReach env v) {s i : Nat} {r : AnyReq} {tmo f : Nat} (hs : LEv.scheduled s i r tmo f ∈ v.log) :
    ∃ q, pollOf v s i = some q := by
  have hm : i ∈ schedulings s v.log := by
    simp only [schedulings, List.mem_filterMap]
    exact ⟨_, hs, by simp⟩
  have hi := h.inv.1
  by_cases hl : s < v.sess.length
  · have hp : v.sess[s]? = some v.sess[s] := List.getElem?_eq_getElem hl
    have hok := hi.sessions s _ hp
    rw [hok.known, List.mem_range, hok.reqs] at hm
    exact ⟨_, by simp only [pollOf, Option.bind_eq_some_iff]; exact ⟨_, hp, List.getElem?_eq_getElem hm⟩⟩
  · rw [(hi.fresh s (by omega)).2] at hm; cases hm

/-- A scheduled request starts. -/
theorem eventually_started {env : ClientEnv} {ops : Nat → Pcl.Op} {σ : Nat → Pcl} (hx : LExecution env ops σ) (hf : LFair ops σ) {s i : Nat} :
    ∀ k n p, (σ n).sess[s]? = some p → Sess.StartAt k p.sess i → ∃ m q, n ≤ m ∧ pollOf (σ m) s i = some q ∧ PEv.started ∈ q.log := by
  intro k
  induction k with
  | zero =>
    intro n p hp hs
    by_cases ht : p.sess.tasks = []
    · rcases hs with ⟨q, h1, h2⟩ | ⟨j, -, h2⟩
      · exact ⟨n, q, Nat.le_refl _, by simp only [pollOf, Option.bind_eq_some_iff]; exact ⟨p, hp, h1⟩, h2⟩
      · rw [ht] at h2; simp at h2
    · obtain ⟨m, hm, ho⟩ := hf.sessTasks n s p hp ht
      obtain ⟨new, hfo⟩ := hx.follows hm
      obtain ⟨p1, hp1, hmv⟩ := hfo.sess s p hp
      obtain ⟨sops, hs1, hj, -⟩ := hmv.ops
      have hs2 : Sess.StartAt 0 p1.sess i := by
        rw [hs1]
        exact hs.run sops ((hx.reach n).inv.1.sessions s p hp).lives fun hmem => hj _ hmem
      obtain ⟨new', hst⟩ := (hx.reach m).stepped (hx.next m)
      have hp2 := hst.sess s .runTask p1 ho rfl hp1
      rcases hs2.runTask ((hx.reach m).inv.1.sessions s p1 hp1).lives with ⟨q, h1, h2⟩ | ⟨j, h1, -⟩
      · exact ⟨m + 1, q, by omega, by simp only [pollOf, Option.bind_eq_some_iff]; exact ⟨_, hp2, h1⟩, h2⟩
      · omega
  | succ k ih =>
    intro n p hp hs
    by_cases ht : p.sess.tasks = []
    · rcases hs with ⟨q, h1, h2⟩ | ⟨j, -, h2⟩
      · exact ⟨n, q, Nat.le_refl _, by simp only [pollOf, Option.bind_eq_some_iff]; exact ⟨p, hp, h1⟩, h2⟩
      · rw [ht] at h2; simp at h2
    · obtain ⟨m, hm, ho⟩ := hf.sessTasks n s p hp ht
      obtain ⟨new, hfo⟩ := hx.follows hm
      obtain ⟨p1, hp1, hmv⟩ := hfo.sess s p hp
      obtain ⟨sops, hs1, hj, -⟩ := hmv.ops
      have hs2 : Sess.StartAt (k + 1) p1.sess i := by
        rw [hs1]
        exact hs.run sops ((hx.reach n).inv.1.sessions s p hp).lives fun hmem => hj _ hmem
      obtain ⟨new', hst⟩ := (hx.reach m).stepped (hx.next m)
      have hp2 := hst.sess s .runTask p1 ho rfl hp1
      have hs3 : Sess.StartAt k (p1.sess.step .runTask) i := by
        rcases hs2.runTask ((hx.reach m).inv.1.sessions s p1 hp1).lives with h | ⟨j, h1, h2⟩
        · exact .inl h
        · exact .inr ⟨j, by omega, h2⟩
      obtain ⟨m', q, h1, h2, h3⟩ := ih (m + 1) _ hp2 hs3
      exact ⟨m', q, by omega, h2, h3⟩

/-- The result of every poll is eventually reported. -/
theorem eventually_handled {env : ClientEnv} {ops : Nat → Pcl.Op} {σ : Nat → Pcl} (hx : LExecution env ops σ) (hf : LFair ops σ)
    (hs : ∀ n, LEv.ch .tcpShutdown ∉ (σ n).log) {n s i id : Nat} (hm : id ∈ pollsSent (ofPoll s i (σ n).log)) :
    ∃ m, n ≤ m ∧ id ∈ pollsHandled (ofPoll s i (σ m).log) := by
  obtain ⟨t, ht⟩ := mem_pollsSent.1 hm
  unfold ofPoll at ht
  rw [mem_effectsOf, mem_ofSession] at ht
  obtain ⟨a, b, hab⟩ := List.append_of_mem ht
  obtain ⟨uid, unit, q, tmo, f, b', hb, ho, -, -⟩ := (hx.reach n).inv.1.blocks.sending hab
  obtain ⟨cops, hxc, hco⟩ := hx.channel
  have hlog : ∀ n, (σ n).cli.log = ofChannel (σ n).log := fun n => (hx.reach n).chan.2
  have hcall : CEv.call uid unit q tmo ∈ (σ n).cli.log := by
    rw [hlog, mem_ofChannel, hab, hb]; simp
  obtain ⟨m, hm⟩ := C52_every_request_completes env cops (fun n => (σ n).cli) hxc
    ⟨fun n h => by
        obtain ⟨m, h1, h2⟩ := hf.chanTasks n h
        exact ⟨m, h1, hco m _ h2 rfl⟩,
      hf.chanTimers, hf.chanCallbacks⟩
    (fun n hm => hs n (by rw [hlog, mem_ofChannel] at hm; exact hm)) n uid unit q tmo hcall
  obtain ⟨x, t', hh⟩ := mem_handledUids.1 hm
  rw [hlog, mem_ofChannel] at hh
  have hh' : LEv.ch (.handler uid x t') ∈ (σ (max n m)).log := (hx.log_mono (Nat.le_max_right n m)).subset hh
  obtain ⟨new, hfo⟩ := hx.follows (Nat.le_max_left n m)
  have ho' : (uid, s, i, id) ∈ (σ (max n m)).owner := hfo.owner.subset ho
  obtain ⟨a', b'', hl'⟩ := List.append_of_mem hh'
  obtain ⟨c, hc⟩ := (hx.reach _).inv.1.blocks.handling ho' hl'
  refine ⟨max n m, Nat.le_max_left n m, mem_pollsHandled.2 ⟨t', ?_⟩⟩
  unfold ofPoll
  rw [mem_effectsOf, mem_ofSession, hl', hc]; simp

/-- A scheduled request that is on and never stopped sends again. -/
theorem eventually_sends {env : ClientEnv} {ops : Nat → Pcl.Op} {σ : Nat → Pcl} (hx : LExecution env ops σ) (hf : LFair ops σ)
    (hs : ∀ n, LEv.ch .tcpShutdown ∉ (σ n).log) {s i : Nat} (hns : ∀ n, PEv.stopped ∉ ofPoll s i (σ n).log) {n : Nat} {q : Poll}
    (hq : pollOf (σ n) s i = some q) (hst : PEv.started ∈ q.log) : ∃ m q', n ≤ m ∧ pollOf (σ m) s i = some q' ∧ q.nextId < q'.nextId := by
  by_contra hcon
  have stuck : ∀ m, n ≤ m → ∃ q', pollOf (σ m) s i = some q' ∧ Onward q q' ∧ q'.nextId = q.nextId ∧ PEv.stopped ∉ q'.log := by
    intro m hm
    obtain ⟨q', h1, h2⟩ := hx.later hm hq
    refine ⟨q', h1, h2, ?_, ?_⟩
    · have := h2.next
      by_contra hne
      exact hcon ⟨m, q', hm, h1, by omega⟩
    · obtain ⟨p, -, -, -, hl⟩ := (hx.reach m).poll h1
      rw [← hl]; exact hns m
  obtain ⟨p, hp, hpq, hlv, hlog⟩ := (hx.reach n).poll hq
  have hrun : q.running = true := by
    rw [hlv.running hpq]
    exact Sess.pollOn_of_started _ hst (by rw [← hlog]; exact hns n)
  -- a queued expiry
  have cf : ∀ m q', n ≤ m → pollOf (σ m) s i = some q' → q'.fired ≠ [] → False := by
    intro m q' hm h1 h2
    obtain ⟨t, ht⟩ := List.exists_mem_of_ne_nil _ h2
    obtain ⟨m', hm', hno⟩ := hf.pollCallbacks m s i q' t h1 ht
    obtain ⟨q1, k1, -, k3, -⟩ := stuck m hm
    rw [h1] at k1; injection k1 with k1; subst k1
    obtain ⟨q2, l1, -, l3, l4⟩ := stuck m' (by omega)
    obtain ⟨q3, r1, r2⟩ := hx.later hm' h1
    rw [l1] at r1; injection r1 with r1; subst r1
    have hr1 : q'.running = true := by
      obtain ⟨q4, u1, u2, -, u4⟩ := stuck m hm
      rw [h1] at u1; injection u1 with u1; subst u1
      exact (u2.go hrun u4).1
    exact hno q2 l1 (((r2.go hr1 l4).2 (by omega)).1 t ht)
  -- a timer
  have ca : ∀ m q', n ≤ m → pollOf (σ m) s i = some q' → q'.armed ≠ [] → False := by
    intro m q' hm h1 h2
    obtain ⟨x, hx'⟩ := List.exists_mem_of_ne_nil _ h2
    have ht : x.1 ∈ q'.armed.map (·.1) := List.mem_map_of_mem hx'
    obtain ⟨m', hm', hno⟩ := hf.pollTimers m s i q' x.1 h1 ht
    obtain ⟨q1, k1, k2, k3, k4⟩ := stuck m hm
    rw [h1] at k1; injection k1 with k1; subst k1
    obtain ⟨q2, l1, -, l3, l4⟩ := stuck m' (by omega)
    obtain ⟨q3, r1, r2⟩ := hx.later hm' h1
    rw [l1] at r1; injection r1 with r1; subst r1
    rcases ((r2.go (k2.go hrun k4).1 l4).2 (by omega)).2.1 x.1 ht with h | h
    · exact hno q2 l1 h
    · exact cf m' q2 (by omega) l1 (List.ne_nil_of_mem h)
  rcases hlv.busy hpq hrun with h | h | h
  · obtain ⟨id, hid⟩ := List.exists_mem_of_ne_nil _ h
    have hsent : id ∈ pollsSent (ofPoll s i (σ n).log) := by
      rw [hlog, ← hlv.good.effects i q hpq]
      exact ((hlv.inFlight hpq id).1 hid).1
    obtain ⟨m, hm, hh⟩ := eventually_handled hx hf hs hsent
    obtain ⟨q2, l1, l2, l3, l4⟩ := stuck m hm
    obtain ⟨p2, -, hpq2, hlv2, hlog2⟩ := (hx.reach m).poll l1
    rcases ((l2.go hrun l4).2 l3).2.2 id hid with h | h | h
    · rw [hlv2.inFlight hpq2, hlv2.good.effects i q2 hpq2, ← hlog2] at h
      exact h.2 hh
    · exact ca m q2 hm l1 h
    · exact cf m q2 hm l1 h
  · exact ca n q (Nat.le_refl _) hq h
  · exact cf n q (Nat.le_refl _) hq h

/-- C112. In every fair execution in which the channel is not shut down, a request that was scheduled and is never stopped is polled for
ever: any number of polls are sent, and any number of results are given to its handler.  This holds whatever else happens: other
sessions and scheduled requests competing for the connection, one-time requests, timeouts, errors, arbitrary data received. -/
theorem C112_polls_for_ever (env : ClientEnv) (ops : Nat → Pcl.Op) (σ : Nat → Pcl) (hx : LExecution env ops σ) (hf : LFair ops σ)
    (hs : ∀ n, LEv.ch .tcpShutdown ∉ (σ n).log) (s i : Nat) (hns : ∀ n, PEv.stopped ∉ ofPoll s i (σ n).log) (n : Nat) (r : AnyReq)
    (tmo f : Nat) (hsch : LEv.scheduled s i r tmo f ∈ (σ n).log) (k : Nat) :
    ∃ m, k ≤ (pollsSent (ofPoll s i (σ m).log)).length ∧ k ≤ (pollsHandled (ofPoll s i (σ m).log)).length := by
  obtain ⟨q0, hq0⟩ := (hx.reach n).scheduled hsch
  obtain ⟨p0, hp0, hpq0, hlv0, -⟩ := (hx.reach n).poll hq0
  obtain ⟨j, hj⟩ := hlv0.startAt i (List.getElem?_eq_some_iff.1 hpq0).1
  obtain ⟨n1, q1, hn1, hq1, hst1⟩ := eventually_started hx hf j n p0 hp0 hj
  -- any number of polls are sent
  have many : ∀ k, ∃ m q, n1 ≤ m ∧ pollOf (σ m) s i = some q ∧ PEv.started ∈ q.log ∧ k ≤ q.nextId := by
    intro k
    induction k with
    | zero => exact ⟨n1, q1, Nat.le_refl _, hq1, hst1, Nat.zero_le _⟩
    | succ k ih =>
      obtain ⟨m, q, h1, h2, h3, h4⟩ := ih
      obtain ⟨m', q', h5, h6, h7⟩ := eventually_sends hx hf hs hns h2 h3
      obtain ⟨q2, h8, h9⟩ := hx.later h5 h2
      rw [h6] at h8; injection h8 with h8; subst h8
      exact ⟨m', q', by omega, h6, h9.log.subset h3, by omega⟩
  obtain ⟨m, q, h1, h2, h3, h4⟩ := many k
  obtain ⟨p, hp, hpq, hlv, hlog⟩ := (hx.reach m).poll h2
  have hsent : pollsSent (ofPoll s i (σ m).log) = List.range q.nextId := by rw [hlog]; exact hlv.sentIds hpq
  have mono : ∀ {m m' : Nat}, m ≤ m' → ∀ {id : Nat}, id ∈ pollsHandled (ofPoll s i (σ m).log) → id ∈ pollsHandled (ofPoll s i (σ m').log) := by
    intro m m' hm id hid
    obtain ⟨t, ht⟩ := mem_pollsHandled.1 hid
    refine mem_pollsHandled.2 ⟨t, ?_⟩
    unfold ofPoll at ht ⊢
    rw [mem_effectsOf, mem_ofSession] at ht ⊢
    exact (hx.log_mono hm).subset ht
  -- and all of them are handled
  have all : ∀ j, j ≤ q.nextId → ∃ m', m ≤ m' ∧ ∀ id, id < j → id ∈ pollsHandled (ofPoll s i (σ m').log) := by
    intro j
    induction j with
    | zero => intro _; exact ⟨m, Nat.le_refl _, fun id h => absurd h (Nat.not_lt_zero _)⟩
    | succ j ih =>
      intro hj
      obtain ⟨m1, hm1, hall⟩ := ih (by omega)
      obtain ⟨m2, hm2, hh⟩ := eventually_handled hx hf hs (n := m) (s := s) (i := i) (id := j) (by rw [hsent, List.mem_range]; omega)
      refine ⟨max m1 m2, by omega, fun id hid => ?_⟩
      rcases Nat.lt_succ_iff_lt_or_eq.1 hid with h | rfl
      · exact mono (Nat.le_max_left _ _) (hall id h)
      · exact mono (Nat.le_max_right _ _) hh
  obtain ⟨m', hm', hall⟩ := all k h4
  refine ⟨m', ?_, ?_⟩
  · obtain ⟨q', h5, h6⟩ := hx.later hm' h2
    obtain ⟨p', hp', hpq', hlv', hlog'⟩ := (hx.reach m').poll h5
    rw [hlog', hlv'.sentIds hpq', List.length_range]
    have := h6.next
    omega
  · have hsub : List.range k ⊆ pollsHandled (ofPoll s i (σ m').log) := fun id hid => hall id (List.mem_range.1 hid)
    have := List.subperm_of_subset (List.nodup_range (n := k)) hsub
    simpa using this.length_le

/-! Fair executions exist: every history in which nothing was shut down or stopped can be continued to one. -/

/-- The history `pre`, then the scheduler. -/
def schedState (env : ClientEnv) (v : Pcl) : Nat → Pcl
  | 0 => v
  | n + 1 => match (schedState env v n).step env (schedChoice n (schedState env v n)) with
    | .ret w => w
    | .ub => schedState env v n

def fullOps (env : ClientEnv) (pre : List Pcl.Op) (v : Pcl) (n : Nat) : Pcl.Op :=
  match pre[n]? with
  | some op => op
  | none => schedChoice (n - pre.length) (schedState env v (n - pre.length))

def fullState (env : ClientEnv) (pre : List Pcl.Op) : Nat → Pcl
  | 0 => Pcl.init env
  | n + 1 => match (fullState env pre n).step env (fullOps env pre (pdemoState env pre) n) with
    | .ret w => w
    | .ub => fullState env pre n

theorem full_execution (env : ClientEnv) (pre : List Pcl.Op) : LExecution env (fullOps env pre (pdemoState env pre)) (fullState env pre) := by
  have one : ∀ n, LReach env (fullState env pre n) →
      (fullState env pre n).step env (fullOps env pre (pdemoState env pre) n) = .ret (fullState env pre (n + 1)) := by
    intro n hr
    obtain ⟨w, new, hw, -⟩ := hr.inv.1.step hr.inv.2 (fullOps env pre (pdemoState env pre) n)
    rw [hw]
    simp only [fullState, hw]
  have reach : ∀ n, LReach env (fullState env pre n) := by
    intro n
    induction n with
    | zero => exact ⟨[], rfl⟩
    | succ n ih => exact ih.step (one n ih)
  exact ⟨rfl, fun n => one n (reach n)⟩

theorem full_pre (env : ClientEnv) (pre : List Pcl.Op) : ∀ n, n ≤ pre.length → (Pcl.init env).run env (pre.take n) = .ret (fullState env pre n) := by
  intro n
  induction n with
  | zero => intro _; rfl
  | succ n ih =>
    intro hn
    have hlt : n < pre.length := by omega
    rw [List.take_add_one, List.getElem?_eq_getElem hlt, Option.toList_some, pcl_run_append _ _ _ _ (ih (by omega))]
    have h := (full_execution env pre).next n
    have ho : fullOps env pre (pdemoState env pre) n = pre[n] := by simp only [fullOps, List.getElem?_eq_getElem hlt]
    rw [ho] at h
    simp only [Pcl.run, h, CM.ret_bind]

theorem full_at (env : ClientEnv) (pre : List Pcl.Op) : fullState env pre pre.length = pdemoState env pre := by
  have := full_pre env pre pre.length (Nat.le_refl _)
  rw [List.take_length] at this
  simp only [pdemoState, this]

theorem full_sched (env : ClientEnv) (pre : List Pcl.Op) (k : Nat) : fullState env pre (pre.length + k) = schedState env (pdemoState env pre) k ∧
    fullOps env pre (pdemoState env pre) (pre.length + k) = schedChoice k (fullState env pre (pre.length + k)) := by
  have ho : ∀ k, fullOps env pre (pdemoState env pre) (pre.length + k) = schedChoice k (schedState env (pdemoState env pre) k) := by
    intro k
    simp only [fullOps]
    rw [List.getElem?_eq_none (by omega), Nat.add_sub_cancel_left]
  have hs : ∀ k, fullState env pre (pre.length + k) = schedState env (pdemoState env pre) k := by
    intro k
    induction k with
    | zero => exact full_at env pre
    | succ k ih =>
      rw [← Nat.add_assoc]
      simp only [fullState, schedState, ho, ih]
  exact ⟨hs k, by rw [ho k, hs k]⟩

/-- One turn: all timers are due, then operation number `c` is done. -/
theorem full_turn (env : ClientEnv) (pre : List Pcl.Op) (c n : Nat) : ∃ m, n ≤ m ∧
    fullOps env pre (pdemoState env pre) m = .tick (longTime (fullState env pre m)) ∧
    fullOps env pre (pdemoState env pre) (m + 1) = schedOp c := by
  obtain ⟨m, hm, h1, h2⟩ := sched_turn c n
  refine ⟨pre.length + m, by omega, ?_, ?_⟩
  · rw [(full_sched env pre m).2, h1]
  · rw [Nat.add_assoc, (full_sched env pre (m + 1)).2, h2]

theorem full_fair (env : ClientEnv) (pre : List Pcl.Op) : LFair (fullOps env pre (pdemoState env pre)) (fullState env pre) := by
  have hx := full_execution env pre
  refine ⟨fun n _ => ?_, fun n t _ => ?_, fun n t _ => ?_, fun n s p _ _ => ?_, fun n s i q t _ _ => ?_, fun n s i q t _ _ => ?_⟩
  · obtain ⟨m, hm, -, h2⟩ := full_turn env pre (Nat.pair 0 0) n
    exact ⟨m + 1, by omega, by rw [h2]; simp [schedOp]⟩
  · obtain ⟨m, hm, h1, h2⟩ := full_turn env pre (Nat.pair 1 t) n
    refine ⟨m + 2, by omega, ?_⟩
    have s1 := hx.next m
    rw [h1] at s1
    simp only [Pcl.step, Pcl.chanStep, Cli.step, CM.ret_bind, List.drop_length, Pcl.fromChan, CM.pure_eq] at s1
    injection s1 with s1
    obtain ⟨new, hst⟩ := (hx.reach (m + 1)).stepped (hx.next (m + 1))
    obtain ⟨cop, hc, ho, -⟩ := hst.chan
    have he := ho (.expire t) (by rw [h2]; simp [schedOp]) rfl
    subst he
    simp only [Cli.step] at hc
    split at hc
    · rename_i hl
      injection hc with hc
      rw [← hc]
      exact lookup_none_iff _ _ hl
    · rename_i d hl
      rw [if_pos] at hc
      · injection hc with hc
        rw [← hc]
        exact not_mem_filter_fst _ t
      · rw [← s1] at hl ⊢
        have := longTime_chan (fullState env pre m) (Poll.lookup_mem _ _ _ hl)
        simp only
        omega
  · obtain ⟨m, hm, h1, h2⟩ := full_turn env pre (Nat.pair 2 t) n
    refine ⟨m + 2, by omega, ?_⟩
    obtain ⟨new, hst⟩ := (hx.reach (m + 1)).stepped (hx.next (m + 1))
    obtain ⟨cop, hc, ho, -⟩ := hst.chan
    have he := ho (.runTimer t) (by rw [h2]; simp [schedOp]) rfl
    subst he
    simp only [Cli.step] at hc
    split at hc
    · injection hc with hc
      rw [← hc, (Cli.Still.onTimer env _).fired]
      simp
    · injection hc with hc
      rw [← hc]; assumption
  · obtain ⟨m, hm, -, h2⟩ := full_turn env pre (Nat.pair 3 s) n
    exact ⟨m + 1, by omega, by rw [h2]; simp [schedOp]⟩
  · obtain ⟨m, hm, h1, h2⟩ := full_turn env pre (Nat.pair 4 (Nat.pair s (Nat.pair i t))) n
    refine ⟨m + 2, by omega, fun q' hq' => ?_⟩
    have s1 := hx.next m
    rw [h1] at s1
    simp only [Pcl.step, Pcl.chanStep, Cli.step, CM.ret_bind, List.drop_length, Pcl.fromChan, CM.pure_eq] at s1
    injection s1 with s1
    obtain ⟨new, hst⟩ := (hx.reach (m + 1)).stepped (hx.next (m + 1))
    simp only [pollOf, Option.bind_eq_some_iff] at hq'
    obtain ⟨p', hp', hq'⟩ := hq'
    cases hp1 : (fullState env pre (m + 1)).sess[s]? with
    | none =>
      obtain ⟨h3, -⟩ := hst.opened s p' hp1 hp'
      rw [h3] at hq'; simp [Sess.step, Sess.init] at hq'
    | some p1 =>
      have hp2 := hst.sess s (.expire i t) p1 (by rw [h2]; simp [schedOp]) rfl hp1
      rw [show m + 1 + 1 = m + 2 from rfl, hp'] at hp2
      injection hp2 with hp2; subst hp2
      cases hq1 : p1.sess.polls[i]? with
      | none =>
        simp only [Sess.step, Sess.onPoll, hq1] at hq'
        cases hq'
      | some q1 =>
        simp only [Sess.step] at hq'
        rw [Sess.onPoll_getElem _ _ _ hq1] at hq'
        simp only [if_true, Option.some.injEq] at hq'
        subst hq'
        simp only [Poll.step]
        split
        · rename_i hl; exact lookup_none_iff _ _ hl
        · rename_i d hl
          rw [if_pos]
          · exact not_mem_filter_fst _ t
          · rw [← s1] at hp1
            simp only [List.getElem?_map, Option.map_eq_some_iff] at hp1
            obtain ⟨p0, hp0, rfl⟩ := hp1
            simp only [Sess.step, List.getElem?_map, Option.map_eq_some_iff] at hq1
            obtain ⟨q0, hq0, rfl⟩ := hq1
            have := longTime_poll (fullState env pre m) hp0 hq0 (Poll.lookup_mem _ _ _ hl)
            simp only [Poll.step]
            omega
  · obtain ⟨m, hm, h1, h2⟩ := full_turn env pre (Nat.pair 5 (Nat.pair s (Nat.pair i t))) n
    refine ⟨m + 2, by omega, fun q' hq' => ?_⟩
    obtain ⟨new, hst⟩ := (hx.reach (m + 1)).stepped (hx.next (m + 1))
    simp only [pollOf, Option.bind_eq_some_iff] at hq'
    obtain ⟨p', hp', hq'⟩ := hq'
    cases hp1 : (fullState env pre (m + 1)).sess[s]? with
    | none =>
      obtain ⟨h3, -⟩ := hst.opened s p' hp1 hp'
      rw [h3] at hq'; simp [Sess.step, Sess.init] at hq'
    | some p1 =>
      have hp2 := hst.sess s (.runTimer i t) p1 (by rw [h2]; simp [schedOp]) rfl hp1
      rw [show m + 1 + 1 = m + 2 from rfl, hp'] at hp2
      injection hp2 with hp2; subst hp2
      cases hq1 : p1.sess.polls[i]? with
      | none =>
        simp only [Sess.step, Sess.onPoll, hq1] at hq'
        cases hq'
      | some q1 =>
        simp only [Sess.step] at hq'
        rw [Sess.onPoll_getElem _ _ _ hq1] at hq'
        simp only [if_true, Option.some.injEq] at hq'
        subst hq'
        simp only [Poll.step]
        split
        · simp [Poll.execute, Poll.emit]
        · assumption

/-- Every history of the client in which nobody shuts down or stops anything can be continued to an infinite fair execution in which
nobody does. -/
theorem fair_execution_exists (env : ClientEnv) (pre : List Pcl.Op) (hg : ∀ op ∈ pre, op.gentle = true) : ∃ ops σ, LExecution env ops σ ∧
    LFair ops σ ∧ (Pcl.init env).run env pre = .ret (σ pre.length) ∧ (∀ n, LEv.ch .tcpShutdown ∉ (σ n).log) ∧
    (∀ s i n, PEv.stopped ∉ ofPoll s i (σ n).log) ∧ ∀ n, (ops n).gentle = true := by
  have hx := full_execution env pre
  have hgo : ∀ n, (fullOps env pre (pdemoState env pre) n).gentle = true := by
    intro n
    simp only [fullOps]
    split
    · rename_i op h; exact hg op (List.mem_of_getElem? h)
    · exact schedChoice_gentle _ _
  have hu : ∀ n, Undisturbed (fullState env pre n) := by
    intro n
    induction n with
    | zero => exact ⟨by simp [fullState, Pcl.init, Cli.init], by simp [fullState, Pcl.init], fun s p h => by simp [fullState, Pcl.init] at h⟩
    | succ n ih =>
      obtain ⟨new, hst⟩ := (hx.reach n).stepped (hx.next n)
      exact ih.step (hx.reach n).inv.1 hst (hgo n)
  refine ⟨_, _, hx, full_fair env pre, ?_, fun n => (hu n).log, fun s i n hm => ?_, hgo⟩
  · have := full_pre env pre pre.length (Nat.le_refl _)
    rw [List.take_length] at this
    exact this
  · unfold ofPoll at hm
    rw [mem_effectsOf] at hm
    cases hp : (fullState env pre n).sess[s]? with
    | none =>
      rw [((hx.reach n).inv.1.fresh s (List.getElem?_eq_none_iff.1 hp)).1] at hm; cases hm
    | some p =>
      rw [((hx.reach n).inv.1.sessions s p hp).log] at hm
      exact ((hu n).sess s p hp).log i hm

/-- In particular for the example: its three scheduled requests are polled for ever. -/
example : ∃ ops σ n, LExecution demoEnv ops σ ∧ LFair ops σ ∧ (∀ n, LEv.ch .tcpShutdown ∉ (σ n).log) ∧
    (∀ s i n, PEv.stopped ∉ ofPoll s i (σ n).log) ∧ LEv.scheduled 0 0 reqA 10 100 ∈ (σ n).log ∧ LEv.scheduled 1 0 reqA 20 50 ∈ (σ n).log ∧
    LEv.scheduled 1 1 reqBad 20 50 ∈ (σ n).log := by
  obtain ⟨ops, σ, h1, h2, h3, h4, h5, -⟩ := fair_execution_exists demoEnv pdemoOps (by decide +kernel)
  have h6 : pdemo = σ pdemoOps.length := by
    simp only [pdemo, pdemoState, h3]
  refine ⟨ops, σ, pdemoOps.length, h1, h2, h4, h5, ?_⟩
  rw [← h6]
  decide +kernel

end Modbus.Props
