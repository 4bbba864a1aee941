import Verif.Props.PollingLive
import Verif.Lemmas.PollingTime

/-!
Properties C113 (polls do not pile up), C114 (shutting the channel down ends polling) and C115 (the polling time is kept) of the client
with scheduled requests.
-/

namespace Modbus.Props

open Spec

/-- What holds at first and is kept by every step holds always. -/
theorem LReach.always {env : ClientEnv} {P : Pcl → Prop} (h0 : P (Pcl.init env))
    (hs : ∀ v w op, LReach env v → P v → v.step env op = .ret w → P w) {v : Pcl} (h : LReach env v) : P v := by
  obtain ⟨ops, h⟩ := h
  have key : ∀ (ops : List Pcl.Op) (u w : Pcl), LReach env u → P u → u.run env ops = .ret w → P w := by
    intro ops
    induction ops with
    | nil => intro u w _ hu hw; injection hw with hw; subst hw; exact hu
    | cons op ops ih =>
      intro u w hr hu hw
      simp only [Pcl.run] at hw
      cases h1 : u.step env op with
      | ub => rw [h1] at hw; cases hw
      | ret u1 =>
        rw [h1, CM.ret_bind] at hw
        exact ih u1 w (hr.step h1) (hs u u1 op hr hu h1) hw
  exact key ops _ v ⟨[], rfl⟩ h0 h

/-- A scheduled request on its own, as seen in the log. -/
theorem LReach.ofPoll {env : ClientEnv} {v : Pcl} (h : LReach env v) (s i : Nat) :
    Spec.ofPoll s i v.log = [] ∨ ∃ f pops, Spec.ofPoll s i v.log = ((Poll.init f).run pops).log := by
  by_cases hs : s < v.sess.length
  · have hp : v.sess[s]? = some v.sess[s] := List.getElem?_eq_getElem hs
    have hok := h.inv.1.sessions s _ hp
    unfold Spec.ofPoll
    rw [hok.log]
    by_cases hl : i < v.sess[s].sess.polls.length
    · have hq : v.sess[s].sess.polls[i]? = some v.sess[s].sess.polls[i] := List.getElem?_eq_getElem hl
      rw [hok.lives.good.effects i _ hq]
      obtain ⟨f, pops, hv⟩ := hok.lives.poll hq
      exact .inr ⟨f, pops, by rw [← hv]; rfl⟩
    · exact .inl (hok.lives.good.fresh i (by omega))
  · unfold Spec.ofPoll
    rw [(h.inv.1.fresh s (by omega)).1]
    exact .inl rfl

/-! ### C113 -/

/-- C113, full statement: a scheduled request never has more than one request with the channel. -/
def C113_Statement : Prop := ∀ (env : ClientEnv) (v : Pcl), LReach env v → ∀ s i,
  (pollsSent (ofPoll s i v.log)).length ≤ (pollsHandled (ofPoll s i v.log)).length + 1

/-- C113 fails: `stop` and `start` while a poll is outstanding give a second one. -/
theorem C113_violated : ¬ C113_Statement := by
  intro h
  have := h demoEnv _ (pdemo_reach demoEnv [.createSession 1, .schedule 0 reqA 10 100, .api 0 (.register 0), .sess 0 .runTask, .sess 0 .runTask,
    .api 0 (.call 0 .stop), .api 0 (.call 0 .start), .sess 0 .runTask, .sess 0 .runTask]) 0 0
  revert this
  decide +kernel

theorem outstanding (f : Nat) (pops : List Poll.Op) : (pollsSent ((Poll.init f).run pops).log).length ≤
    (pollsHandled ((Poll.init f).run pops).log).length + ((Poll.init f).run pops).inFlight.length := by
  have hc := (Poll.core_run f pops).1
  rw [← List.length_append]
  refine (List.subperm_of_subset (by rw [hc.sentIds]; exact List.nodup_range) fun id hm => ?_).length_le
  rw [hc.sentIds, List.mem_range] at hm
  have := (hc.once id).1 hm
  rw [List.mem_append]
  by_cases h1 : id ∈ pollsHandled ((Poll.init f).run pops).log
  · exact .inl h1
  · refine .inr (List.one_le_count_iff.1 ?_)
    rw [List.count_eq_zero.2 h1] at this
    omega

/-- C113 (partial: counted per start).  At any time, the number of polls of a scheduled request whose result has not been reported is at
most the number of starts that took effect: however slow the server is, polls do not pile up. -/
theorem C113_bounded_partial (env : ClientEnv) (v : Pcl) (h : LReach env v) (s i : Nat) :
    (pollsSent (ofPoll s i v.log)).length ≤ (pollsHandled (ofPoll s i v.log)).length + (ofPoll s i v.log).count .started := by
  rcases h.ofPoll s i with h1 | ⟨f, pops, h1⟩
  · rw [h1]; exact Nat.le_refl _
  · rw [h1]
    have h2 := outstanding f pops
    have h3 := C58_one_per_start_partial f _ ⟨pops, rfl⟩
    omega

/-- C113 (partial: requests that have not been stopped).  At most one poll is waiting for its result. -/
theorem C113_one_at_a_time_partial (env : ClientEnv) (v : Pcl) (h : LReach env v) (s i : Nat) (hn : PEv.stopped ∉ ofPoll s i v.log) :
    (pollsSent (ofPoll s i v.log)).length ≤ (pollsHandled (ofPoll s i v.log)).length + 1 := by
  rcases h.ofPoll s i with h1 | ⟨f, pops, h1⟩
  · rw [h1]; exact Nat.zero_le _
  · have h2 := C113_bounded_partial env v h s i
    refine Nat.le_trans h2 (Nat.add_le_add_left ?_ _)
    rw [h1] at hn ⊢
    by_contra hc
    -- a second start
    have hm : PEv.started ∈ ((Poll.init f).run pops).log := List.count_pos_iff.1 (by omega)
    obtain ⟨x, y, hxy, hx⟩ := List.eq_append_cons_of_mem hm
    have hy : PEv.started ∈ y := by
      refine List.count_pos_iff.1 ?_
      rw [hxy, List.count_append, List.count_eq_zero.2 hx, List.count_cons_self] at hc
      omega
    obtain ⟨z, z', rfl⟩ := List.append_of_mem hy
    exact Poll.started_once f pops hn x z z' hxy

/-- After 30 ms without an answer, the first poll is still the only one. -/
example : (let v := pdemoState demoEnv (pdemoOps.take 9 ++ [.tick 9])
    (pollsSent (ofPoll 0 0 v.log), pollsHandled (ofPoll 0 0 v.log), decide (PEv.stopped ∉ ofPoll 0 0 v.log))) = ([0], [], true) := by decide +kernel

example : (let v := pdemoState demoEnv [.createSession 1, .schedule 0 reqA 10 100, .api 0 (.register 0), .sess 0 .runTask, .sess 0 .runTask,
      .api 0 (.call 0 .stop), .api 0 (.call 0 .start), .sess 0 .runTask, .sess 0 .runTask]
    (pollsSent (ofPoll 0 0 v.log), pollsHandled (ofPoll 0 0 v.log), (ofPoll 0 0 v.log).count .started)) = ([0, 1], [], 2) := by decide +kernel

/-! ### C114 -/

theorem LReach.split {env : ClientEnv} {v : Pcl} (h : LReach env v) {a b : List LEv} {e : CEv} (he : v.log = a ++ .ch e :: b) :
    CReach env v.cli ∧ v.cli.log = ofChannel a ++ e :: ofChannel b := by
  refine ⟨h.chan.1, ?_⟩
  rw [h.chan.2, he, ofChannel_append]
  rfl

/-- C114: once the channel's shutdown has taken effect, no scheduled request sends anything any more, and handlers of scheduled requests are
called only with the malformed-request error of an invalid request. -/
theorem C114_nothing_sent (env : ClientEnv) (v : Pcl) (h : LReach env v) (a b : List LEv) (he : v.log = a ++ .ch .tcpShutdown :: b) :
    (∀ u bytes t, LEv.ch (.sent u bytes t) ∉ b) ∧
    ∀ b1 s i id t b2, b = b1 ++ .sess s (.poll i (.handled id t)) :: b2 →
      ∃ uid q tmo f, (a ++ .ch .tcpShutdown :: b1).getLast? = some (.ch (.handler uid (.error .malformedRequest) t)) ∧
        LEv.scheduled s i q tmo f ∈ v.log ∧ ¬ Allowed q := by
  obtain ⟨hr, hlog⟩ := h.split he
  refine ⟨fun u bytes t hm => ?_, fun b1 s i id t b2 hb => ?_⟩
  · exact (C56_shutdown_final env v.cli hr _ _ hlog _ (mem_ofChannel.2 hm)).1 u bytes t rfl
  · have hl : v.log = (a ++ .ch .tcpShutdown :: b1) ++ .sess s (.poll i (.handled id t)) :: b2 := by rw [he, hb]; simp
    obtain ⟨a', uid, x, h1, a1, t0, unit, q, tmo, c1, h2⟩ := C111_own_results_only env v h _ _ s i id t hl
    have hb1 : ∃ b0, b1 = b0 ++ [.ch (.handler uid x t)] := by
      rcases List.eq_nil_or_concat b1 with rfl | ⟨b0, y, rfl⟩
      · have : (a ++ [LEv.ch .tcpShutdown]).getLast? = (a' ++ [LEv.ch (.handler uid x t)]).getLast? := by rw [h1]
        simp at this
      · refine ⟨b0, ?_⟩
        have : (a ++ LEv.ch .tcpShutdown :: (b0 ++ [y])).getLast? = (a' ++ [LEv.ch (.handler uid x t)]).getLast? := by rw [← h1]; simp
        have e1 : a ++ LEv.ch .tcpShutdown :: (b0 ++ [y]) = (a ++ LEv.ch .tcpShutdown :: b0) ++ [y] := by simp
        rw [e1, List.getLast?_concat, List.getLast?_concat] at this
        injection this with this
        rw [List.concat_eq_append, this]
    obtain ⟨b0, rfl⟩ := hb1
    have hm : CEv.handler uid x t ∈ ofChannel b := by rw [mem_ofChannel, hb]; simp
    obtain ⟨-, -, h3⟩ := C56_shutdown_final env v.cli hr _ _ hlog _ hm
    obtain ⟨rfl, unit', q', tmo', h4, h5⟩ := h3 uid x t rfl
    -- the call is this poll's
    have hv : v.log = a1 ++ .sess s (.poll i (.sent id t0)) :: .ch (.call uid unit q tmo) :: (c1 ++ [.ch (.handler uid (.error .malformedRequest) t)] ++
        .sess s (.poll i (.handled id t)) :: b2) := by rw [hl, h1, h2]; simp
    obtain ⟨uid', unit'', q'', tmo'', f, c2, h6, -, h7⟩ := C111_poll_is_request env v h _ _ s i id t0 hv
    simp only [List.cons.injEq, LEv.ch.injEq, CEv.call.injEq] at h6
    obtain ⟨⟨rfl, rfl, rfl, rfl⟩, -⟩ := h6
    have h8 : CEv.call uid unit q tmo ∈ v.cli.log := by rw [h.chan.2, mem_ofChannel, hv]; simp
    obtain ⟨-, rfl, -⟩ := hr.inv.1.callUnique h8 h4
    refine ⟨uid, q, tmo, f, ?_, by rw [hv]; exact List.mem_append_left _ h7, h5⟩
    rw [h1]; simp

theorem LReach.ending {env : ClientEnv} {v : Pcl} (h : LReach env v) : Ending v := by
  refine LReach.always (Ending.init env) (fun v w op hr hv hs => ?_) h
  obtain ⟨new, hst⟩ := hr.stepped hs
  exact hv.step hr.inv.1 hr.inv.2 hs hst

/-- C114, full statement: when the channel's shutdown has taken effect and the executor has nothing left to run for the sessions, every
request that was scheduled before is off. -/
def C114_Statement : Prop := ∀ (env : ClientEnv) (v : Pcl), LReach env v → ∀ a b, v.log = a ++ .ch .tcpShutdown :: b →
  (∀ (s : Nat) (p : PSess), v.sess[s]? = some p → p.sess.tasks = []) → ∀ s i q tmo f, LEv.scheduled s i q tmo f ∈ a → LEv.api s (.call i .start) ∉ b →
  pollOn (ofPoll s i v.log) = false

/-- C114 fails: shutting a session down forgets its scheduled requests; one that is started again afterwards is not stopped by the
channel's shutdown. -/
theorem C114_violated : ¬ C114_Statement := by
  intro h
  let v := pdemoState demoEnv [.createSession 1, .schedule 0 reqA 10 100, .api 0 (.register 0), .sess 0 .runTask, .sess 0 .runTask, .chan .runTask,
    .api 0 .shutdown, .sess 0 .runTask, .sess 0 .runTask, .api 0 (.call 0 .start), .sess 0 .runTask, .chan .shutdown, .chan .runTask, .chan .runTask,
    .sess 0 .runTask]
  have hempty : ∀ (s : Nat) (p : PSess), v.sess[s]? = some p → p.sess.tasks = [] := by
    intro s p hp
    have h1 : v.sess.all (fun p => p.sess.tasks.isEmpty) = true := by decide +kernel
    rw [List.all_eq_true] at h1
    exact List.isEmpty_iff.1 (h1 p (List.mem_of_getElem? hp))
  have := h demoEnv v (pdemo_reach _ _) (v.log.take 16) (v.log.drop 17) (by decide +kernel) hempty 0 0 reqA 10 100 (by decide +kernel) (by decide +kernel)
  revert this
  decide +kernel

/-- Nor is one stopped whose `schedule_request` was interrupted between the post of its start and the post of its registration. -/
theorem C114_race : ∃ v, LReach demoEnv v ∧ LEv.ch .tcpShutdown ∈ v.log ∧ (∀ p ∈ v.sess, p.sess.tasks = []) ∧
    pollOn (ofPoll 0 0 v.log) = true := by
  let v := pdemoState demoEnv [.createSession 1, .schedule 0 reqA 10 100, .chan .shutdown, .chan .runTask, .api 0 (.register 0), .sess 0 .runTask,
    .sess 0 .runTask, .sess 0 .runTask]
  refine ⟨v, pdemo_reach _ _, by decide +kernel, fun p hp => ?_, by decide +kernel⟩
  have h1 : v.sess.all (fun p => p.sess.tasks.isEmpty) = true := by decide +kernel
  rw [List.all_eq_true] at h1
  exact List.isEmpty_iff.1 (h1 p hp)

/-- C114 (partial: requests whose registration was asked for before the shutdown took effect, on sessions that were not shut down before by
the user).  Unless it is started again, such a request is off when the executor has nothing left to run for its session. -/
theorem C114_polling_ends_partial (env : ClientEnv) (v : Pcl) (h : LReach env v) (a b : List LEv) (he : v.log = a ++ .ch .tcpShutdown :: b)
    (hfirst : LEv.ch .tcpShutdown ∉ a) (s i : Nat) (hreg : RegisteredIn s i a) (hsd : LEv.api s .shutdown ∉ a)
    (hst : LEv.api s (.call i .start) ∉ b) (p : PSess) (hp : v.sess[s]? = some p) (ht : p.sess.tasks = []) :
    pollOn (ofPoll s i v.log) = false := by
  have hdy := h.ending.down a b he hfirst s i p hp hsd hreg hst
  have hok := h.inv.1.sessions s p hp
  have hi : i < p.sess.polls.length := by
    refine hok.registered ?_
    rw [he, schedulings_append]
    exact List.mem_append_left _ hreg.scheduled
  have hq : p.sess.polls[i]? = some p.sess.polls[i] := List.getElem?_eq_getElem hi
  have hoff := hdy.off ht _ hq
  unfold Spec.ofPoll
  rw [hok.log, hok.lives.good.effects i _ hq]
  obtain ⟨f, pops, hv⟩ := hok.lives.poll hq
  have := Poll.running_run f pops
  rw [← hv] at this
  simp only [Poll.withTasks] at this
  rw [← this]; exact hoff

/-- Two requests polling; the channel is shut down while one poll is outstanding; both are off in the end. -/
def pendState : Pcl := pdemoState demoEnv (pdemoOps.take 13 ++ [.chan .shutdown, .chan .runTask, .chan .runTask] ++
  [.sess 0 .runTask, .sess 0 .runTask, .sess 0 .runTask, .sess 1 .runTask, .sess 1 .runTask, .sess 1 .runTask])

example : pollOn (ofPoll 1 0 pendState.log) = false := by
  refine C114_polling_ends_partial demoEnv pendState (pdemo_reach _ _) (pendState.log.take 20) (pendState.log.drop 21) (by decide +kernel) (by decide +kernel) 1 0
    ⟨pendState.log.take 7, (pendState.log.take 20).drop 8, reqA, 20, 50, by decide +kernel, by decide +kernel⟩ (by decide +kernel) (by decide +kernel)
    (pendState.sess[1]'(by decide +kernel)) (List.getElem?_eq_getElem _) (by decide +kernel)

/-- It was on before. -/
example : pollOn (ofPoll 1 0 (pendState.log.take 20)) = true ∧ pollOn (ofPoll 0 0 (pendState.log.take 20)) = true := by decide +kernel

/-- C114: a scheduled request that is started after the channel was shut down counts as running, but its poll is dropped without a word:
nothing is sent and its handler is never called. -/
theorem C114_silent_afterwards (env : ClientEnv) (v : Pcl) (h : LReach env v) (a b1 b2 : List LEv) (s i id t : Nat)
    (he : v.log = a ++ .ch .tcpShutdown :: (b1 ++ .sess s (.poll i (.sent id t)) :: b2)) (hq : ∀ q tmo f, LEv.scheduled s i q tmo f ∈ v.log → Allowed q) :
    id ∉ pollsHandled (ofPoll s i v.log) := by
  intro hm
  obtain ⟨t', ht'⟩ := mem_pollsHandled.1 hm
  rw [Spec.ofPoll, mem_effectsOf, mem_ofSession] at ht'
  have hsent : id ∈ pollsSent (ofPoll s i v.log) := mem_pollsSent.2 ⟨t, by rw [Spec.ofPoll, mem_effectsOf, mem_ofSession, he]; simp⟩
  obtain ⟨x, y, hxy⟩ := List.append_of_mem ht'
  -- the answer is reported after the poll
  obtain ⟨a', uid, r, h1, a1, t0, unit, q, tmo, c1, h2⟩ := C111_own_results_only env v h _ _ s i id t' hxy
  have hnd := (C111_identities env v h).2 s |>.2 i |>.1
  have hv : v.log = a1 ++ .sess s (.poll i (.sent id t0)) :: .ch (.call uid unit q tmo) :: (c1 ++ [.ch (.handler uid r t')] ++ .sess s (.poll i (.handled id t')) :: y) := by
    rw [hxy, h1, h2]; simp
  have ha1 : a1 = a ++ .ch .tcpShutdown :: b1 := by
    have h3 : v.log = (a ++ .ch .tcpShutdown :: b1) ++ .sess s (.poll i (.sent id t)) :: b2 := by rw [he]; simp
    have key : ∀ l x y : List LEv, ∀ u u' z z', l = x ++ .sess s (.poll i (.sent id u)) :: z → l = y ++ .sess s (.poll i (.sent id u')) :: z' →
        (pollsSent (ofPoll s i l)).Nodup → x = y := by
      intro l x y u u' z z' e1 e2 hn
      have hcount : ∀ x u z, l = x ++ .sess s (.poll i (.sent id u)) :: z → id ∉ pollsSent (ofPoll s i x) ∧ id ∉ pollsSent (ofPoll s i z) := by
        intro x u z e
        have e3 : pollsSent (ofPoll s i l) = pollsSent (ofPoll s i x) ++ id :: pollsSent (ofPoll s i z) := by
          rw [e, Spec.ofPoll, ofSession_append, effectsOf_append, Poll.pollsSent_append]
          simp only [Spec.ofPoll]
          congr 1
          have e4 : ofSession s (.sess s (.poll i (.sent id u)) :: z) = .poll i (.sent id u) :: ofSession s z := by simp [ofSession]
          rw [e4]
          simp [effectsOf, pollsSent]
        rw [e3] at hn
        refine ⟨fun hm => ?_, fun hm => ?_⟩
        · exact (List.nodup_append.1 hn).2.2 id hm id (.head _) rfl
        · exact (List.nodup_cons.1 (List.nodup_append.1 hn).2.1).1 hm
      rw [e1] at e2
      rcases List.append_eq_append_iff.1 e2 with ⟨m, h3, h4⟩ | ⟨m, h3, h4⟩
      · cases m with
        | nil => simpa using h3.symm
        | cons e m =>
          exfalso
          injection h4 with h4 h5
          exact (hcount x u z e1).2 (mem_pollsSent.2 ⟨u', by rw [Spec.ofPoll, mem_effectsOf, mem_ofSession, h5]; simp⟩)
      · cases m with
        | nil => simpa using h3
        | cons e m =>
          exfalso
          injection h4 with h4 h5
          exact (hcount y u' z' (e1.trans e2)).2 (mem_pollsSent.2 ⟨u, by rw [Spec.ofPoll, mem_effectsOf, mem_ofSession, h5]; simp⟩)
    exact key v.log _ _ _ _ _ _ hv h3 hnd
  rw [ha1] at hv
  have hv2 : v.log = a ++ .ch .tcpShutdown :: ((b1 ++ .sess s (.poll i (.sent id t0)) :: .ch (.call uid unit q tmo) :: (c1 ++ [.ch (.handler uid r t')])) ++
      .sess s (.poll i (.handled id t')) :: y) := by rw [hv]; simp
  obtain ⟨uid', q', tmo', f, -, h4, h5⟩ := (C114_nothing_sent env v h a _ hv2).2 _ s i id t' y rfl
  exact h5 (hq q' tmo' f h4)

/-- A request scheduled after the shutdown: it is running, its poll has gone to the channel, and that is all. -/
def psilentState : Pcl := pdemoState demoEnv [.createSession 1, .chan .shutdown, .chan .runTask, .schedule 0 reqA 10 100, .api 0 (.register 0), .sess 0 .runTask,
  .sess 0 .runTask, .sess 0 .runTask, .tick 1000]

example : pollOn (ofPoll 0 0 psilentState.log) = true ∧ psilentState.cli.tasks = [] ∧ psilentState.cli.armed = [] ∧
    (psilentState.sess.all fun p => p.sess.tasks.isEmpty && p.sess.polls.all fun q => q.armed.isEmpty && q.fired.isEmpty) = true := by decide +kernel

example : 0 ∉ pollsHandled (ofPoll 0 0 psilentState.log) := by
  refine C114_silent_afterwards demoEnv psilentState (pdemo_reach _ _) (psilentState.log.take 3) ((psilentState.log.take 8).drop 4) (psilentState.log.drop 9) 0 0 0 0
    (by decide +kernel) fun q tmo f hm => ?_
  have hall : psilentState.log.all (fun e => match e with
    | .scheduled _ _ q _ _ => decide (q = reqA)
    | _ => true) = true := by decide +kernel
  have := List.all_eq_true.1 hall _ hm
  simp only [decide_eq_true_eq] at this
  subst this
  decide +kernel

/-! ### C115 -/

theorem LReach.clocked {env : ClientEnv} {v : Pcl} (h : LReach env v) : Clocked v := by
  refine LReach.always (P := Clocked) (fun s i p hp => by simp [Pcl.init] at hp) (fun v w op hr hv hs => ?_) h
  obtain ⟨new, hst⟩ := hr.stepped hs
  exact hv.step hr.inv.1 hs hst

theorem LReach.clock {env : ClientEnv} {v : Pcl} (h : LReach env v) : Clock v := by
  refine LReach.always (P := Clock) ⟨fun e he => by simp [Pcl.init] at he, List.Pairwise.nil⟩ (fun v w op hr hv hs => ?_) h
  obtain ⟨new, hst⟩ := hr.stepped hs
  exact hv.step hr.inv.1 hs hst

/-- C115, full statement: between the result of a poll and the next poll of the same scheduled request at least the polling time passes
(unless it is started again in between). -/
def C115_Statement : Prop := ∀ (env : ClientEnv) (v : Pcl), LReach env v → ∀ s i id t1 id' t2 a b c q tmo f,
  v.log = a ++ .sess s (.poll i (.handled id t1)) :: (b ++ .sess s (.poll i (.sent id' t2)) :: c) → PEv.started ∉ ofPoll s i b →
  LEv.scheduled s i q tmo f ∈ v.log → t1 + pollTime f (ofPoll s i a) ≤ t2

/-- C115 fails: after `stop` and `start` with a poll outstanding there are two loops, and one loop's poll follows the other's result. -/
theorem C115_violated : ¬ C115_Statement := by
  intro h
  let v := pdemoState demoEnv [.createSession 1, .schedule 0 reqA 10 100, .api 0 (.register 0), .sess 0 .runTask, .sess 0 .runTask, .chan .runTask,
    .api 0 (.call 0 .stop), .api 0 (.call 0 .start), .sess 0 .runTask, .sess 0 .runTask, .chan .runTask, .tick 10, .chan (.expire 0), .chan (.runTimer 0),
    .tick 10, .chan (.expire 1), .chan (.runTimer 1), .tick 90, .sess 0 (.expire 0 0), .sess 0 (.runTimer 0 0)]
  have := h demoEnv v (pdemo_reach _ _) 0 0 1 20 2 110 (v.log.take 18) [] (v.log.drop 20) reqA 10 100 (by decide +kernel) (by decide +kernel) (by decide +kernel)
  revert this
  decide +kernel

/-- C115 (partial: requests that have not been stopped).  Between the result of a poll and the next poll at least the polling time passes
that is in effect at the result: the one the request was scheduled with, or the last one set. -/
theorem C115_polling_time_partial (env : ClientEnv) (v : Pcl) (h : LReach env v) (s i id t1 id' t2 : Nat) (a b c : List LEv) (q : AnyReq) (tmo f : Nat)
    (hl : v.log = a ++ .sess s (.poll i (.handled id t1)) :: (b ++ .sess s (.poll i (.sent id' t2)) :: c))
    (hn : PEv.stopped ∉ ofPoll s i (a ++ .sess s (.poll i (.handled id t1)) :: b)) (hf : LEv.scheduled s i q tmo f ∈ v.log) :
    t1 + pollTime f (ofPoll s i a) ≤ t2 := by
  have hi := h.inv.1
  have hs : s < v.sess.length := by
    by_contra hge
    have h1 := (hi.fresh s (by omega)).2
    have : i ∈ schedulings s v.log := List.mem_filterMap.2 ⟨_, hf, by simp⟩
    rw [h1] at this; cases this
  have hp : v.sess[s]? = some v.sess[s] := List.getElem?_eq_getElem hs
  have hok := hi.sessions s _ hp
  have hlt : i < v.sess[s].sess.polls.length := hok.registered (List.mem_filterMap.2 ⟨_, hf, by simp⟩)
  have hq : v.sess[s].sess.polls[i]? = some v.sess[s].sess.polls[i] := List.getElem?_eq_getElem hlt
  obtain ⟨q', tmo', f', h1, pops, h2⟩ := h.clocked s i _ hp hlt
  -- scheduled once
  have hff : f' = f := scheduled_unique (by rw [hok.known]; exact List.nodup_range) h1 hf
  subst hff
  have hlog : ofPoll s i v.log = ((Poll.init f').run pops).log := by
    unfold Spec.ofPoll
    rw [hok.log, hok.lives.good.effects i _ hq]
    simp only [Sess.view, hq, Option.map_some, Option.some.injEq] at h2
    rw [← h2]; rfl
  have hone : ∀ (e : PEv) (l : List LEv), ofPoll s i (.sess s (.poll i e) :: l) = e :: ofPoll s i l := by
    intro e l
    simp [Spec.ofPoll, ofSession, effectsOf]
  have happ : ∀ x y : List LEv, ofPoll s i (x ++ y) = ofPoll s i x ++ ofPoll s i y := by
    intro x y; simp [Spec.ofPoll, ofSession_append, effectsOf_append]
  rw [hl, happ, hone, happ, hone] at hlog
  rw [happ, hone] at hn
  exact Poll.unstopped_spaced f' pops _ id t1 _ id' t2 _ hlog.symm hn

/-- C115 on the wire (partial: requests that have not been stopped): from the moment the channel reports the result of a poll, at least the
polling time passes until the next poll of this request is given to the connection. -/
theorem C115_on_the_wire_partial (env : ClientEnv) (v : Pcl) (h : LReach env v) (s i id t1 id' t2 uid' tmo' : Nat) (unit' : UInt8) (q' : AnyReq)
    (a b c : List LEv) (q : AnyReq) (tmo f : Nat)
    (hl : v.log = a ++ .sess s (.poll i (.handled id t1)) :: (b ++ .sess s (.poll i (.sent id' t2)) :: .ch (.call uid' unit' q' tmo') :: c))
    (hn : PEv.stopped ∉ ofPoll s i (a ++ .sess s (.poll i (.handled id t1)) :: b)) (hf : LEv.scheduled s i q tmo f ∈ v.log)
    (bytes : List UInt8) (t3 : Nat) (hs : LEv.ch (.sent uid' bytes t3) ∈ v.log) : t1 + pollTime f (ofPoll s i a) ≤ t3 := by
  have h1 := C115_polling_time_partial env v h s i id t1 id' t2 a b _ q tmo f hl hn hf
  refine Nat.le_trans h1 ?_
  have hl' : v.log = (a ++ .sess s (.poll i (.handled id t1)) :: b ++ [.sess s (.poll i (.sent id' t2)), .ch (.call uid' unit' q' tmo')]) ++ c := by
    rw [hl]; simp
  -- the bytes come after the call
  have hc : LEv.ch (.sent uid' bytes t3) ∈ c := by
    rw [hl'] at hs
    rcases List.mem_append.1 hs with hs | hs
    · exfalso
      have hs' : LEv.ch (.sent uid' bytes t3) ∈ a ++ .sess s (.poll i (.handled id t1)) :: b := by simpa using hs
      obtain ⟨x, y, hxy⟩ := List.append_of_mem hs'
      have hv : v.log = x ++ .ch (.sent uid' bytes t3) :: (y ++ .sess s (.poll i (.sent id' t2)) :: .ch (.call uid' unit' q' tmo') :: c) := by
        rw [hl', hxy]; simp
      obtain ⟨hr, hlog⟩ := h.split hv
      obtain ⟨-, -, -, -, -, unit, q0, tm0, hcall, -⟩ := hr.inv.1.just.at hlog
      have hnd : ((submissions v.cli.log).map (·.1)).Nodup := by rw [hr.inv.1.calls]; exact List.nodup_range
      rw [hlog, submissions_append, List.map_append] at hnd
      refine (List.nodup_append.1 hnd).2.2 uid' ?_ uid' ?_ rfl
      · exact List.mem_map.2 ⟨_, mem_submissions.2 hcall, rfl⟩
      · refine List.mem_map.2 ⟨(uid', unit', q', tmo'), mem_submissions.2 ?_, rfl⟩
        refine List.mem_cons_of_mem _ (mem_ofChannel.2 ?_)
        simp
    · exact hs
  have hord := h.clock.order
  rw [hl'] at hord
  exact (List.pairwise_append.1 hord).2.2 (.sess s (.poll i (.sent id' t2))) (by simp) _ hc t2 t3 rfl rfl

/-- Three polls, 100 ms after the result of the one before; the third after the polling time was changed to 30 ms. -/
def pspaceOps : List Pcl.Op :=
  [.createSession 1, .schedule 0 reqA 10 100, .api 0 (.register 0), .sess 0 .runTask, .sess 0 .runTask, .chan .runTask, .tick 10, .chan (.expire 0), .chan (.runTimer 0),
   .tick 100, .sess 0 (.expire 0 0), .sess 0 (.runTimer 0 0), .tick 2, .chan .runTask, .api 0 (.call 0 (.setFrequency 30)), .sess 0 .runTask, .tick 10,
   .chan (.expire 1), .chan (.runTimer 1), .tick 30, .sess 0 (.expire 0 1), .sess 0 (.runTimer 0 1), .chan .runTask]

def pspaceState : Pcl := pdemoState demoEnv pspaceOps

example : ofPoll 0 0 pspaceState.log = [.started, .sent 0 0, .handled 0 10, .sent 1 110, .frequency 30, .handled 1 122, .sent 2 152] ∧
    (pspaceState.log.filterMap fun e => match e with
      | .ch (.sent u _ t) => some (u, t)
      | _ => none) = [(0, 0), (1, 112), (2, 152)] := by decide +kernel

example : 10 + 100 ≤ 112 :=
  C115_on_the_wire_partial demoEnv pspaceState (pdemo_reach _ _) 0 0 0 10 1 110 1 10 1 reqA (pspaceState.log.take 9) [] (pspaceState.log.drop 12) reqA 10 100
    (by decide +kernel) (by decide +kernel) (by decide +kernel) [0, 1, 0, 0, 0, 6, 1, 3, 0, 0, 0, 1] 112 (by decide +kernel)

end Modbus.Props
