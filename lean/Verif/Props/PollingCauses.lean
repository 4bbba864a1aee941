import Verif.Lemmas.PollingCauses
import Verif.Props.PollingTight

/-!
C111, C112, C113, C115 in terms of what the user calls: a scheduled request is stopped only by the user or by a shutdown, started only by
`schedule_request` or by the user, and its polling time changed only by the user.  So the polling time is kept, and polls do not pile up, unless
the user calls `start`; and polling goes on for ever unless the user calls `stop` or `shutdown`.
-/

namespace Modbus.Props

open Spec

/-- C111: what happens to a scheduled request has been asked for.  It is stopped only if the user called `stop` on it, or the session or the channel
was shut down; its session is shut down only if the user or the channel did; its polling time is changed only to what the user gave; and unless the
user called `start` on it, it is started once. -/
theorem C111_causes (env : ClientEnv) (v : Pcl) (h : LReach env v) (s i : Nat) :
    (PEv.stopped ∈ ofPoll s i v.log → LEv.api s (.call i .stop) ∈ v.log ∨ LEv.api s .shutdown ∈ v.log ∨ LEv.ch .tcpShutdown ∈ v.log) ∧
    (LEv.sess s .down ∈ v.log → LEv.api s .shutdown ∈ v.log ∨ LEv.ch .tcpShutdown ∈ v.log) ∧
    (∀ g, PEv.frequency g ∈ ofPoll s i v.log → LEv.api s (.call i (.setFrequency g)) ∈ v.log) ∧
    (LEv.api s (.call i .start) ∉ v.log → (ofPoll s i v.log).count .started ≤ 1) := by
  have down : Modbus.justified s v.log .shutdown → LEv.api s .shutdown ∈ v.log ∨ LEv.ch .tcpShutdown ∈ v.log :=
    fun hj => hj.imp (fun x => x) (h.sessionShutdown s)
  refine ⟨fun hm => ?_, fun hm => ?_, fun g hm => ?_, fun hn => ?_⟩
  · obtain ⟨p, q, h1, h2, h3⟩ := h.pollLog s i (List.ne_nil_of_mem hm)
    rw [h3] at hm
    exact ((h.caused h1).stopped i q h2 hm).imp (fun x => x) down
  · cases hp : v.sess[s]? with
    | none =>
      have := (h.inv.1.fresh s (List.getElem?_eq_none_iff.1 hp)).1
      have h1 : SessEv.down ∈ ofSession s v.log := mem_ofSession.2 hm
      rw [this] at h1; cases h1
    | some p =>
      have h1 : SessEv.down ∈ ofSession s v.log := mem_ofSession.2 hm
      rw [(h.inv.1.sessions s p hp).log] at h1
      exact down ((h.caused hp).down h1)
  · obtain ⟨p, q, h1, h2, h3⟩ := h.pollLog s i (List.ne_nil_of_mem hm)
    rw [h3] at hm
    exact (h.caused h1).frequency i q g h2 hm
  · by_cases he : ofPoll s i v.log = []
    · rw [he]; simp
    · obtain ⟨p, q, h1, h2, h3⟩ := h.pollLog s i he
      rw [h3]
      have := (h.caused h1).started i q h2 hn
      omega

/-- A request that is given another polling time and stopped; the other session is shut down. -/
def causeDemo : Pcl := pdemoState demoEnv (pdemoOps ++ [.api 0 (.call 0 (.setFrequency 7)), .sess 0 .runTask, .sess 0 .runTask, .api 0 (.call 0 .stop), .sess 0 .runTask,
  .api 1 .shutdown, .sess 1 .runTask, .sess 1 .runTask, .sess 1 .runTask, .sess 1 .runTask])

example := C111_causes demoEnv causeDemo (pdemo_reach _ _)

example : PEv.stopped ∈ ofPoll 0 0 causeDemo.log ∧ PEv.frequency 7 ∈ ofPoll 0 0 causeDemo.log ∧ LEv.sess 1 .down ∈ causeDemo.log ∧
    PEv.stopped ∈ ofPoll 1 0 causeDemo.log ∧ LEv.api 1 (.call 0 .stop) ∉ causeDemo.log ∧ (ofPoll 0 0 causeDemo.log).count .started = 1 := by decide +kernel

/-- C113 (partial: requests on which the user does not call `start`).  At most one poll is waiting for its result, whether the request is stopped or
not. -/
theorem C113_not_restarted_partial (env : ClientEnv) (v : Pcl) (h : LReach env v) (s i : Nat) (hn : LEv.api s (.call i .start) ∉ v.log) :
    (pollsSent (ofPoll s i v.log)).length ≤ (pollsHandled (ofPoll s i v.log)).length + 1 :=
  Nat.le_trans (C113_bounded_partial env v h s i) (Nat.add_le_add_left ((C111_causes env v h s i).2.2.2 hn) _)

/-- One poll is waiting, of a request that was stopped. -/
example := C113_not_restarted_partial demoEnv causeDemo (pdemo_reach _ _) 1 0 (by decide +kernel)

example : pollsSent (ofPoll 1 0 causeDemo.log) = [0] ∧ pollsHandled (ofPoll 1 0 causeDemo.log) = [] ∧ PEv.stopped ∈ ofPoll 1 0 causeDemo.log := by decide +kernel

theorem pollTime_unset (f : Nat) (l : List PEv) (h : ∀ g, PEv.frequency g ∉ l) : pollTime f l = f := by
  induction l with
  | nil => rfl
  | cons e l ih =>
    have hl := ih fun g hm => h g (List.mem_cons_of_mem _ hm)
    cases e with
    | frequency g => exact absurd (.head _) (h g)
    | _ => exact hl

/-- C115 (partial: requests on which the user does not call `start`).  Between the result of a poll and the next poll at least the polling time in
effect passes, whether the request is stopped or not; this is the time the request was scheduled with if the user has not called `set_frequency`. -/
theorem C115_not_restarted_partial (env : ClientEnv) (v : Pcl) (h : LReach env v) (s i id t1 id' t2 : Nat) (a b c : List LEv) (q : AnyReq) (tmo f : Nat)
    (hl : v.log = a ++ .sess s (.poll i (.handled id t1)) :: (b ++ .sess s (.poll i (.sent id' t2)) :: c))
    (hn : LEv.api s (.call i .start) ∉ v.log) (hf : LEv.scheduled s i q tmo f ∈ v.log) :
    t1 + pollTime f (ofPoll s i a) ≤ t2 ∧ ((∀ g, LEv.api s (.call i (.setFrequency g)) ∉ v.log) → t1 + f ≤ t2) := by
  have hone := (C111_causes env v h s i).2.2.2 hn
  have hset := (C111_causes env v h s i).2.2.1
  obtain ⟨p, hp, hlt⟩ := scheduled_session h (List.mem_filterMap.2 ⟨_, hf, by simp⟩ : i ∈ schedulings s v.log)
  have hok := h.inv.1.sessions s _ hp
  have hq : p.sess.polls[i]? = some p.sess.polls[i] := List.getElem?_eq_getElem hlt
  obtain ⟨q', tmo', f', h1, pops, h2⟩ := h.clocked s i _ hp hlt
  have hff : f' = f := scheduled_unique (by rw [hok.known]; exact List.nodup_range) h1 hf
  subst hff
  have hlog : ofPoll s i v.log = ((Poll.init f').run pops).log := by
    unfold Spec.ofPoll
    rw [hok.log, hok.lives.good.effects i _ hq]
    simp only [Sess.view, hq, Option.map_some, Option.some.injEq] at h2
    rw [← h2]; rfl
  have hcons : ∀ (e : PEv) (l : List LEv), ofPoll s i (.sess s (.poll i e) :: l) = e :: ofPoll s i l := by
    intro e l
    simp [Spec.ofPoll, ofSession, effectsOf]
  have happ : ∀ x y : List LEv, ofPoll s i (x ++ y) = ofPoll s i x ++ ofPoll s i y := by
    intro x y; simp [Spec.ofPoll, ofSession_append, effectsOf_append]
  rw [hlog] at hone
  have hsplit : ofPoll s i v.log = ofPoll s i a ++ .handled id t1 :: (ofPoll s i b ++ .sent id' t2 :: ofPoll s i c) := by
    rw [hl, happ, hcons, happ, hcons]
  have key := Poll.once_spaced f' pops hone (ofPoll s i a) id t1 (ofPoll s i b) id' t2 (ofPoll s i c) (by rw [← hlog, hsplit])
  refine ⟨key, fun hg => ?_⟩
  rwa [pollTime_unset f' _ fun g hm => hg g (hset g (by rw [hsplit]; exact List.mem_append_left _ hm))] at key

/-- The first request of session 0 is answered (its timeout), polls again, and is stopped. -/
def spacedDemo : Pcl := pdemoState demoEnv (pdemoOps ++ [.tick 100, .sess 0 (.expire 0 0), .sess 0 (.runTimer 0 0), .api 0 (.call 0 .stop), .sess 0 .runTask, .sess 0 .runTask])

example : ∃ a b c, spacedDemo.log = a ++ .sess 0 (.poll 0 (.handled 0 10)) :: (b ++ .sess 0 (.poll 0 (.sent 1 110)) :: c) ∧ PEv.stopped ∈ ofPoll 0 0 c ∧
    10 + 100 ≤ 110 := by
  have hl : spacedDemo.log = spacedDemo.log.take 16 ++ .sess 0 (.poll 0 (.handled 0 10)) ::
      ((spacedDemo.log.drop 17).take 7 ++ .sess 0 (.poll 0 (.sent 1 110)) :: spacedDemo.log.drop 25) := by decide +kernel
  exact ⟨_, _, _, hl, by decide +kernel, (C115_not_restarted_partial demoEnv spacedDemo (pdemo_reach _ _) 0 0 0 10 1 110 _ _ _ reqA 10 100 hl (by decide +kernel)
    (by decide +kernel)).2 (by
      intro g hm
      have : (spacedDemo.log.any fun e => match e with | .api 0 (.call 0 (.setFrequency _)) => true | _ => false) = true :=
        List.any_eq_true.2 ⟨_, hm, rfl⟩
      exact absurd this (by decide +kernel))⟩

/-! ### C112 -/

/-- C112 in terms of calls.  In every fair execution in which nobody calls the channel's `shutdown`, the session's `shutdown` or the request's `stop`, a
request that was scheduled is polled for ever: any number of polls are sent, and any number of results are given to its handler. -/
theorem C112_unless_told (env : ClientEnv) (ops : Nat → Pcl.Op) (σ : Nat → Pcl) (hx : LExecution env ops σ) (hf : LFair ops σ) (s i : Nat)
    (h1 : ∀ n, ops n ≠ .chan .shutdown) (h2 : ∀ n, ops n ≠ .api s .shutdown) (h3 : ∀ n, ops n ≠ .api s (.call i .stop))
    (n : Nat) (r : AnyReq) (tmo f : Nat) (hsch : LEv.scheduled s i r tmo f ∈ (σ n).log) (k : Nat) :
    ∃ m, k ≤ (pollsSent (ofPoll s i (σ m).log)).length ∧ k ≤ (pollsHandled (ofPoll s i (σ m).log)).length := by
  have hd : ∀ n, CTask.shutdown ∉ (σ n).cli.tasks ∧ LEv.ch .tcpShutdown ∉ (σ n).log := by
    intro n
    induction n with
    | zero => rw [hx.start]; exact ⟨by simp [Pcl.init, Cli.init], by simp [Pcl.init]⟩
    | succ n ih =>
      obtain ⟨new, hst⟩ := (hx.reach n).stepped (hx.next n)
      obtain ⟨cop, hc, -, hne⟩ := hst.chan
      obtain ⟨es, he, hes⟩ := Cli.step_log hc ih.1
      have hnew : ofChannel new = es := by
        have h1 := hst.inv.chan
        rw [List.append_nil, hst.follows.log, ofChannel_append, he, (hx.reach n).inv.1.chan, List.append_nil] at h1
        exact (List.append_cancel_left h1).symm
      refine ⟨Cli.step_noShutdown hc (fun hs => ?_) ih.1, fun hm => ?_⟩
      · subst hs; exact h1 n (hne rfl)
      · rw [hst.follows.log] at hm
        rcases List.mem_append.1 hm with hm | hm
        · exact ih.2 hm
        · exact (hes _ (by rw [← hnew]; exact mem_ofChannel.2 hm)).1 rfl
  have hapi : ∀ n o, LEv.api s o ∈ (σ n).log → ∃ m, ops m = .api s o := by
    intro n o
    induction n with
    | zero => rw [hx.start]; intro hm; simp [Pcl.init] at hm
    | succ n ih =>
      obtain ⟨new, hst⟩ := (hx.reach n).stepped (hx.next n)
      rw [hst.follows.log]
      intro hm
      rcases List.mem_append.1 hm with hm | hm
      · exact ih hm
      · exact ⟨n, (hst.calls _ _ hm).1⟩
  refine C112_polls_for_ever env ops σ hx hf (fun n => (hd n).2) s i (fun n hm => ?_) n r tmo f hsch k
  rcases (C111_causes env (σ n) (hx.reach n) s i).1 hm with hm | hm | hm
  · obtain ⟨m, hm⟩ := hapi n _ hm; exact h3 m hm
  · obtain ⟨m, hm⟩ := hapi n _ hm; exact h2 m hm
  · exact (hd n).2 hm

/-- The example's requests, in a fair execution without such calls. -/
example : ∃ (ops : Nat → Pcl.Op) (σ : Nat → Pcl), LExecution demoEnv ops σ ∧ ∀ k, ∃ m, k ≤ (pollsSent (ofPoll 1 0 (σ m).log)).length ∧
    k ≤ (pollsHandled (ofPoll 1 0 (σ m).log)).length := by
  obtain ⟨ops, σ, h1, h2, h3, h4, h5, h6⟩ := fair_execution_exists demoEnv pdemoOps (by decide +kernel)
  have h7 : pdemo = σ pdemoOps.length := by simp only [pdemo, pdemoState, h3]
  refine ⟨ops, σ, h1, C112_unless_told demoEnv ops σ h1 h2 1 0 (fun n hn => ?_) (fun n hn => ?_) (fun n hn => ?_) pdemoOps.length reqA 20 50 (by rw [← h7]; decide +kernel)⟩
  all_goals have := h6 n; rw [hn] at this; cases this

end Modbus.Props
