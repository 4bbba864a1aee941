import Verif.Props.PollingEnd
import Verif.Lemmas.Rest

/-! Property C116: after the channel's shutdown everything comes to rest. -/

namespace Modbus.Props

open Spec

theorem LReach.shut {env : ClientEnv} {v : Pcl} (h : LReach env v) (hd : LEv.ch .tcpShutdown ∈ v.log) : v.cli.isShutdown = true ∧ v.cli.sessions = [] := by
  have h1 : CEv.tcpShutdown ∈ v.cli.log := by rw [h.chan.2]; exact mem_ofChannel.2 hd
  have h2 := h.chan.1.inv.1.downLog.1 h1
  exact ⟨h2, (h.chan.1.inv.1.down h2).2.2⟩

/-- C116: once the channel's shutdown has taken effect, and as long as the user calls nothing more, the executor has something to do only a
bounded number of times, whatever the connection does and in whatever order tasks and timers are run. -/
theorem C116_bounded_work (env : ClientEnv) (v : Pcl) (h : LReach env v) (hd : LEv.ch .tcpShutdown ∈ v.log) :
    ∃ N, ∀ ops w, (∀ op ∈ ops, byUser op = false) → v.run env ops = .ret w → workSteps env v ops ≤ N := by
  obtain ⟨h1, h2⟩ := h.shut hd
  exact ⟨v.weight, fun ops w ho hr => Pcl.run_down ops h1 h2 ho hr⟩

/-- C116: in every fair execution in which the channel is shut down and the user then calls nothing more, a time comes from which on
nothing is left to do: no task is posted and no timer is running, so that the executor's threads can be joined. -/
theorem C116_comes_to_rest (env : ClientEnv) (ops : Nat → Pcl.Op) (σ : Nat → Pcl) (hx : LExecution env ops σ) (hf : LFair ops σ) (n : Nat)
    (hd : LEv.ch .tcpShutdown ∈ (σ n).log) (hu : ∀ m, n ≤ m → byUser (ops m) = false) : ∃ m, n ≤ m ∧ ∀ k, m ≤ k → AtRest (σ k) := by
  have hdown : ∀ m, n ≤ m → (σ m).cli.isShutdown = true ∧ (σ m).cli.sessions = [] := by
    intro m hm
    exact (hx.reach m).shut ((hx.log_mono hm).subset hd)
  have hstep : ∀ m, n ≤ m → if atWork (σ m) (ops m) then (σ (m + 1)).weight < (σ m).weight else (σ (m + 1)).work = (σ m).work ∧ (σ (m + 1)).weight = (σ m).weight := by
    intro m hm
    exact (Pcl.step_down (hdown m hm).1 (hdown m hm).2 (hu m hm) (hx.next m)).2.2
  -- the least weight is reached
  have hleast : ∀ w, ∀ m, n ≤ m → (σ m).weight ≤ w → ∃ m', n ≤ m' ∧ ∀ k, m' ≤ k → (σ k).work = (σ m').work ∧ (σ k).weight = (σ m').weight := by
    intro w
    induction w using Nat.strongRecOn with
    | ind w ih =>
      intro m hm hw
      by_cases hex : ∃ k, m ≤ k ∧ (σ k).weight < w
      · obtain ⟨k, hk, hlt⟩ := hex
        exact ih _ hlt k (by omega) (Nat.le_refl _)
      · refine ⟨m, hm, fun k hk => ?_⟩
        have hge : ∀ k, m ≤ k → w ≤ (σ k).weight := fun k hk => Nat.not_lt.1 fun hlt => hex ⟨k, hk, hlt⟩
        have : ∀ k, m ≤ k → (σ k).work = (σ m).work ∧ (σ k).weight = (σ m).weight := by
          intro k hk
          induction hk with
          | refl => exact ⟨rfl, rfl⟩
          | @step k hk ih' =>
            have hk' : m ≤ k := hk
            have h1 := hstep k (by omega)
            split at h1
            · exfalso
              have := hge (k + 1) (by omega)
              have := ih'.2
              omega
            · exact ⟨h1.1.trans ih'.1, h1.2.trans ih'.2⟩
        exact this k hk
  obtain ⟨m, hm, hstay⟩ := hleast _ n (Nat.le_refl _) (Nat.le_refl _)
  have hsame := fun k hk => (hstay k hk).1
  refine ⟨m, hm, fun k hk => ?_⟩
  have hcli : ∀ j, k ≤ j → (σ j).cli.tasks = (σ k).cli.tasks ∧ (σ j).cli.armed = (σ k).cli.armed ∧ (σ j).cli.fired = (σ k).cli.fired := by
    intro j hj
    have h1 : (σ j).work = (σ k).work := by rw [hsame j (by omega), hsame k hk]
    have h2 : (σ j).cli.work = (σ k).cli.work := congrArg Prod.fst h1
    simp only [Cli.work, Prod.mk.injEq] at h2
    exact h2
  have hsess : ∀ j, k ≤ j → ∀ (s : Nat) (p : PSess), (σ k).sess[s]? = some p → ∃ p' : PSess, (σ j).sess[s]? = some p' ∧ p'.sess.work = p.sess.work := by
    intro j hj s p hp
    have h1 : (σ j).work = (σ k).work := by rw [hsame j (by omega), hsame k hk]
    have h2 : (σ j).sess.map (fun p => p.sess.work) = (σ k).sess.map (fun p => p.sess.work) := congrArg Prod.snd h1
    have h3 : ((σ j).sess.map (fun p => p.sess.work))[s]? = some p.sess.work := by rw [h2]; simp [hp]
    rw [List.getElem?_map] at h3
    cases hp' : (σ j).sess[s]? with
    | none => rw [hp'] at h3; cases h3
    | some p' => rw [hp'] at h3; injection h3 with h3; exact ⟨p', rfl, h3⟩
  have hpoll : ∀ j, k ≤ j → ∀ s i q, pollOf (σ k) s i = some q → ∃ q', pollOf (σ j) s i = some q' ∧ q'.armed = q.armed ∧ q'.fired = q.fired := by
    intro j hj s i q hq
    unfold pollOf at hq ⊢
    cases hp : (σ k).sess[s]? with
    | none => rw [hp] at hq; cases hq
    | some p =>
      rw [hp] at hq
      simp only [Option.bind_some] at hq
      obtain ⟨p', hp', hw⟩ := hsess j hj s p hp
      rw [hp']
      simp only [Option.bind_some]
      have h3 : p'.sess.polls.map (fun q => (q.armed, q.fired)) = p.sess.polls.map (fun q => (q.armed, q.fired)) := congrArg Prod.snd hw
      have h4 : (p'.sess.polls.map (fun q => (q.armed, q.fired)))[i]? = some (q.armed, q.fired) := by rw [h3]; simp [hq]
      rw [List.getElem?_map] at h4
      cases hq' : p'.sess.polls[i]? with
      | none => rw [hq'] at h4; cases h4
      | some q' =>
        rw [hq'] at h4
        simp only [Option.map_some, Option.some.injEq, Prod.mk.injEq] at h4
        exact ⟨q', rfl, h4⟩
  have hidle : ∀ j, k ≤ j → atWork (σ j) (ops j) = false := by
    intro j hj
    cases hw : atWork (σ j) (ops j) with
    | false => rfl
    | true =>
      exfalso
      have h1 := hstep j (by omega)
      rw [hw, if_pos rfl] at h1
      have h2 := (hstay (j + 1) (by omega)).2
      have h3 := (hstay j (by omega)).2
      omega
  refine ⟨?_, ?_, ?_, fun p hp => ?_⟩
  · by_contra hne
    obtain ⟨j, hj, ho⟩ := hf.chanTasks k hne
    have h1 := hidle j hj
    rw [ho] at h1
    simp only [atWork, (hcli j hj).1] at h1
    exact hne (by simpa using h1)
  · cases ha : (σ k).cli.armed with
    | nil => rfl
    | cons x l =>
      obtain ⟨j, hj, ho⟩ := hf.chanTimers k x.1 (by rw [ha]; simp)
      rw [(hcli j hj).2.1, ha] at ho
      simp at ho
  · cases ha : (σ k).cli.fired with
    | nil => rfl
    | cons x l =>
      obtain ⟨j, hj, ho⟩ := hf.chanCallbacks k x (by rw [ha]; simp)
      rw [(hcli j hj).2.2, ha] at ho
      simp at ho
  · obtain ⟨s, hs, rfl⟩ := List.getElem_of_mem hp
    have hp' : (σ k).sess[s]? = some (σ k).sess[s] := List.getElem?_eq_getElem hs
    refine ⟨?_, fun q hq => ?_⟩
    · by_contra hne
      obtain ⟨j, hj, ho⟩ := hf.sessTasks k s _ hp' hne
      have h1 := hidle j hj
      rw [ho] at h1
      obtain ⟨p', h2, h3⟩ := hsess j hj s _ hp'
      simp only [atWork, h2] at h1
      simp only [Sess.work, Prod.mk.injEq] at h3
      rw [h3.1] at h1
      exact hne (by simpa using h1)
    · obtain ⟨i, hi, rfl⟩ := List.getElem_of_mem hq
      have hq' : pollOf (σ k) s i = some ((σ k).sess[s]).sess.polls[i] := by
        simp [pollOf, hp', List.getElem?_eq_getElem hi]
      constructor
      · cases ha : (((σ k).sess[s]).sess.polls[i]).armed with
        | nil => rfl
        | cons x l =>
          obtain ⟨j, hj, ho⟩ := hf.pollTimers k s i _ x.1 hq' (by rw [ha]; simp)
          obtain ⟨q', h1, h2, -⟩ := hpoll j hj s i _ hq'
          have := ho q' h1
          rw [h2, ha] at this
          simp at this
      · cases ha : (((σ k).sess[s]).sess.polls[i]).fired with
        | nil => rfl
        | cons x l =>
          obtain ⟨j, hj, ho⟩ := hf.pollCallbacks k s i _ x hq' (by rw [ha]; simp)
          obtain ⟨q', h1, -, h2⟩ := hpoll j hj s i _ hq'
          have := ho q' h1
          rw [h2, ha] at this
          simp at this

theorem sched_notUser (n : Nat) (v : Pcl) : byUser (schedChoice n v) = false := by
  unfold schedChoice
  split
  · rfl
  · unfold schedOp
    split <;> rfl

/-- Every history can be continued to a fair execution without further calls by the user. -/
theorem quiet_execution_exists (env : ClientEnv) (pre : List Pcl.Op) : ∃ ops σ, LExecution env ops σ ∧ LFair ops σ ∧
    (Pcl.init env).run env pre = .ret (σ pre.length) ∧ ∀ m, pre.length ≤ m → byUser (ops m) = false := by
  refine ⟨_, _, full_execution env pre, full_fair env pre, ?_, fun m hm => ?_⟩
  · have := full_pre env pre pre.length (Nat.le_refl _)
    rwa [List.take_length] at this
  · obtain ⟨k, rfl⟩ := Nat.exists_eq_add_of_le hm
    rw [(full_sched env pre k).2]
    exact sched_notUser _ _

/-- Three scheduled requests, one of them polling with two loops, one with an invalid request; the channel is shut down with polls outstanding,
timers running and tasks posted. -/
def restOps : List Pcl.Op := pdemoOps ++ [.api 0 (.call 0 .stop), .api 0 (.call 0 .start), .sess 0 .runTask, .sess 0 .runTask, .sess 0 .runTask, .chan .shutdown] ++
  List.replicate 4 (.chan .runTask)

example : LEv.ch .tcpShutdown ∈ (pdemoState demoEnv restOps).log ∧ 0 < (pdemoState demoEnv restOps).weight := by decide +kernel

example : ∃ ops σ n, LExecution demoEnv ops σ ∧ LFair ops σ ∧ LEv.ch .tcpShutdown ∈ (σ n).log ∧ ¬ AtRest (σ n) ∧ (∀ m, n ≤ m → byUser (ops m) = false) ∧
    ∃ m, n ≤ m ∧ ∀ k, m ≤ k → AtRest (σ k) := by
  obtain ⟨ops, σ, hx, hf, hr, hu⟩ := quiet_execution_exists demoEnv restOps
  have hs : σ restOps.length = pdemoState demoEnv restOps := by simp only [pdemoState, hr]
  have hd : LEv.ch .tcpShutdown ∈ (σ restOps.length).log := by rw [hs]; decide +kernel
  refine ⟨ops, σ, restOps.length, hx, hf, hd, fun hrest => ?_, hu, C116_comes_to_rest demoEnv ops σ hx hf _ hd hu⟩
  rw [hs] at hrest
  have h1 : (pdemoState demoEnv restOps).sess.all (fun p => p.sess.tasks.isEmpty) = true := by
    rw [List.all_eq_true]
    intro p hp
    exact List.isEmpty_iff.2 (hrest.2.2.2 p hp).1
  revert h1
  decide +kernel

end Modbus.Props
