import Verif.Props.Rest
import Verif.Lemmas.Ownership

/-! Property C117: what the client keeps allocated, and what it releases. -/

namespace Modbus.Props

open Spec

theorem LReach.sweeping {env : ClientEnv} {v : Pcl} (h : LReach env v) : Sweeping v := by
  refine LReach.always (P := Sweeping) (Sweeping.init env) (fun v w op hr hv hs => ?_) h
  obtain ⟨new, hst⟩ := hr.stepped hs
  exact hv.step hr.inv.1 hr.inv.2 hs hst

/-- Nobody holds anything. -/
def nobody : Obj → Prop := fun _ => False

/-- The manager's list of channels has the channel; nothing else is held from outside. -/
def onlyManager : Obj → Prop := fun x => x = .channel

/-- C117, full statement: when the channel has been shut down and nothing is left to do, everything that is no longer in use is released. -/
def C117_Statement : Prop := ∀ (env : ClientEnv) (v : Pcl), LReach env v → LEv.ch .tcpShutdown ∈ v.log → AtRest v →
  ∀ (user : Obj → Prop) (x : Obj), ¬ InUse v user x → Freed v user x

/-- A request scheduled after the channel was shut down: session and request hold each other. -/
def leakOps : List Pcl.Op := [.createSession 1, .chan .shutdown, .chan .runTask, .sess 0 .runTask, .schedule 0 reqA 10 100, .api 0 (.register 0),
  .sess 0 .runTask, .sess 0 .runTask]

/-- C117 fails: a request that is scheduled on a session after the channel was shut down is registered in the session, and nothing will ever
take it out of there; request, session and channel are never released. -/
theorem C117_violated : ¬ C117_Statement := by
  intro h
  let v := pdemoState demoEnv leakOps
  have hp : ∃ p, v.sess[0]? = some p ∧ p.sess.registered = [0] ∧ p.sess.polls.length = 1 := by
    have h1 : (v.sess[0]?.map fun p => (p.sess.registered, p.sess.polls.length)) = some ([0], 1) := by decide +kernel
    cases hc : v.sess[0]? with
    | none => rw [hc] at h1; cases h1
    | some p =>
      rw [hc] at h1
      simp only [Option.map_some, Option.some.injEq, Prod.mk.injEq] at h1
      exact ⟨p, rfl, h1⟩
  have hlen : v.sess.length = 1 := by decide +kernel
  obtain ⟨p, hp, hr, hl⟩ := hp
  have hrest : AtRest v := by
    refine ⟨by decide +kernel, by decide +kernel, by decide +kernel, fun q hq => ?_⟩
    obtain ⟨s, hs, rfl⟩ := List.getElem_of_mem hq
    have h2 : v.sess.all (fun p => p.sess.tasks.isEmpty && p.sess.polls.all fun q => q.armed.isEmpty && q.fired.isEmpty) = true := by decide +kernel
    have h3 := List.all_eq_true.1 h2 _ hq
    simp only [Bool.and_eq_true, List.isEmpty_iff, List.all_eq_true] at h3
    exact h3
  have hno : ∀ x, ¬ InUse v nobody x := by
    intro x hx
    induction hx with
    | held h => exact h
    | via _ _ ih => exact ih
  have hfree := h demoEnv v (pdemo_reach _ _) (by decide +kernel) hrest nobody (.request 0 0) (hno _)
  have key : ∀ x, Freed v nobody x → x ≠ .request 0 0 ∧ x ≠ .session 0 := by
    intro x hx
    induction hx with
    | @intro x _ _ _ ih =>
      refine ⟨?_, ?_⟩ <;> rintro rfl
      · exact (ih (.session 0) ⟨p, hp, .inr ⟨0, by rw [hr]; simp, rfl⟩⟩).2 rfl
      · exact (ih (.request 0 0) ⟨p, hp, by omega, rfl⟩).1 rfl
  exact (key _ hfree).1 rfl

/-- C117 (partial: no scheduled request is registered after the channel's shutdown has taken effect).  When nothing is left to do, everything
that is no longer in use is released: sessions, scheduled requests and the channel, although they hold each other before. -/
theorem C117_released_partial (env : ClientEnv) (v : Pcl) (h : LReach env v) (a b : List LEv) (hd : v.log = a ++ .ch .tcpShutdown :: b)
    (ha : LEv.ch .tcpShutdown ∉ a) (hn : ∀ s i, LEv.api s (.register i) ∉ b) (hrest : AtRest v) (user : Obj → Prop) (x : Obj) (hx : ¬ InUse v user x) :
    Freed v user x := by
  have hin : LEv.ch .tcpShutdown ∈ v.log := by rw [hd]; simp
  obtain ⟨hcur, hpend, hsess⟩ := h.chan.1.inv.1.down (h.shut hin).1
  have hreg : ∀ (s : Nat) (p : PSess), v.sess[s]? = some p → p.sess.registered = [] :=
    fun s p hp => (h.sweeping a b hd ha s p hp (hn s)).rest (hrest.2.2.2 p (List.mem_of_getElem? hp)).1
  have hpost : ∀ uid, ¬ v.handlerPosted uid := by
    rintro uid ⟨t, ht, -⟩
    rw [hrest.1] at ht; cases ht
  have hchan : ∀ y, ¬ v.holds .channel y := by
    rintro y (⟨s, hs, -⟩ | ⟨r, hr, -⟩)
    · rw [hsess] at hs; cases hs
    · rw [hpend, hcur] at hr
      rcases hr with hr | hr <;> cases hr
  have hrequest : ∀ s i, ¬ InUse v user (.request s i) → Freed v user (.request s i) := by
    intro s i hu
    refine ⟨fun hh => hu (.held hh), ?_, ?_⟩
    · rintro (⟨p, hp, hq⟩ | ⟨uid, hq, -⟩)
      · obtain ⟨ht, hpolls⟩ := hrest.2.2.2 p (List.mem_of_getElem? hp)
        rw [ht] at hq
        rcases hq with ⟨t, hq⟩ | hq | ⟨q, hq, hq'⟩
        · cases hq
        · cases hq
        · obtain ⟨h1, h2⟩ := hpolls q (List.mem_of_getElem? hq)
          exact hq'.elim (fun h => h h1) (fun h => h h2)
      · exact hpost _ hq
    · intro y hy
      cases y with
      | channel => exact absurd hy (hchan _)
      | session s' =>
        obtain ⟨p, hp, hy | ⟨j, hj, -⟩⟩ := hy
        · cases hy
        · rw [hreg s' p hp] at hj; cases hj
      | request s' j => obtain ⟨p, -, -, hy⟩ := hy; cases hy
  have hsession : ∀ s, ¬ InUse v user (.session s) → Freed v user (.session s) := by
    intro s hu
    refine ⟨fun hh => hu (.held hh), ?_, ?_⟩
    · rintro (⟨p, hp, hq⟩ | ⟨uid, hq, -⟩)
      · rw [(hrest.2.2.2 p (List.mem_of_getElem? hp)).1] at hq
        rcases hq with hq | ⟨i, hq⟩ <;> cases hq
      · exact hpost _ hq
    · intro y hy
      cases y with
      | channel => exact absurd hy (hchan _)
      | session s' =>
        obtain ⟨p, hp, hy | ⟨j, hj, -⟩⟩ := hy
        · cases hy
        · rw [hreg s' p hp] at hj; cases hj
      | request s' j => exact hrequest s' j fun h' => hu (.via h' hy)
  cases x with
  | request s i => exact hrequest s i hx
  | session s => exact hsession s hx
  | channel =>
    refine ⟨fun hh => hx (.held hh), ?_, ?_⟩
    · rintro (hq | hq | hq)
      · exact hq hrest.1
      · exact hq hrest.2.1
      · exact hq hrest.2.2.1
    · intro y hy
      cases y with
      | channel => exact absurd hy (hchan _)
      | session s' => exact hsession s' fun h' => hx (.via h' hy)
      | request s' j => obtain ⟨p, -, -, hy⟩ := hy; cases hy

/-- C117 in time (partial: no scheduled request is registered after the channel's shutdown has taken effect): in every fair execution in which the
channel is shut down and the user then calls nothing more, a time comes from which on everything that is no longer in use is released. -/
theorem C117_released_in_time_partial (env : ClientEnv) (ops : Nat → Pcl.Op) (σ : Nat → Pcl) (hx : LExecution env ops σ) (hf : LFair ops σ) (n : Nat)
    (a b : List LEv) (hd : (σ n).log = a ++ .ch .tcpShutdown :: b) (ha : LEv.ch .tcpShutdown ∉ a) (hn : ∀ s i, LEv.api s (.register i) ∉ b)
    (hu : ∀ m, n ≤ m → byUser (ops m) = false) :
    ∃ m, n ≤ m ∧ ∀ k, m ≤ k → ∀ (user : Obj → Prop) (x : Obj), ¬ InUse (σ k) user x → Freed (σ k) user x := by
  obtain ⟨m, hm, hrest⟩ := C116_comes_to_rest env ops σ hx hf n (by rw [hd]; simp) hu
  refine ⟨m, hm, fun k hk user x hxu => ?_⟩
  have hlog : ∀ k, n ≤ k → ∃ c, (σ k).log = a ++ .ch .tcpShutdown :: c ∧ ∀ s i, LEv.api s (.register i) ∉ c := by
    intro k hk
    induction hk with
    | refl => exact ⟨b, hd, hn⟩
    | @step k hk ih =>
      have hk' : n ≤ k := hk
      obtain ⟨c, h1, h2⟩ := ih
      obtain ⟨new, hst⟩ := (hx.reach k).stepped (hx.next k)
      refine ⟨c ++ new, by rw [hst.follows.log, h1]; simp, fun s i hm => ?_⟩
      rcases List.mem_append.1 hm with hm | hm
      · exact h2 s i hm
      · obtain ⟨he, -⟩ := hst.calls _ _ hm
        have := hu k hk'
        rw [he] at this
        cases this
  obtain ⟨c, h1, h2⟩ := hlog k (by omega)
  exact C117_released_partial env (σ k) (hx.reach k) a c h1 ha h2 (hrest k hk) user x hxu

/-- C117, the other way round: what polls stays.  As long as neither the channel nor the session is shut down, a scheduled request
whose `schedule_request` has returned is not released even if the user has dropped all handles; only the manager has the channel. -/
theorem C117_polling_kept (env : ClientEnv) (v : Pcl) (h : LReach env v) (s i : Nat) (hr : RegisteredIn s i v.log) (h1 : LEv.api s .shutdown ∉ v.log)
    (h2 : LEv.ch .tcpShutdown ∉ v.log) (user : Obj → Prop) (hm : user .channel) : ¬ Freed v user (.request s i) ∧ ¬ Freed v user (.session s) := by
  have hi := h.inv
  have hs : s < v.sess.length := by
    by_contra hge
    have h3 := (hi.1.fresh s (by omega)).2
    have := hr.scheduled
    rw [h3] at this; cases this
  have hp : v.sess[s]? = some v.sess[s] := List.getElem?_eq_getElem hs
  have hup : v.cli.isShutdown = false := h.chan.1.down (by rw [h.chan.2]; exact fun hm => h2 (mem_ofChannel.1 hm))
  have huse : InUse v user (.session s) := .via (.held hm) (.inl ⟨s, by rw [hi.2.all hup]; exact List.mem_range.2 hs, rfl⟩)
  refine ⟨?_, huse.not_freed⟩
  rcases (h.ending.up s _ hp h1 h2).2 i hr with hk | hk
  · rintro ⟨-, hq, -⟩
    exact hq (.inl ⟨_, hp, .inr (.inl hk)⟩)
  · exact (InUse.via huse ⟨_, hp, .inr ⟨i, hk, rfl⟩⟩).not_freed

/-- C117: a poll in flight keeps its scheduled request.  As long as the channel is not shut down, a scheduled request one of whose polls has been
given to the channel and not been answered is not released, even if its session has been shut down, it has been stopped and the user has dropped
all handles: the answer will find it. -/
theorem C117_in_flight_kept (env : ClientEnv) (v : Pcl) (h : LReach env v) (s i id t : Nat) (hs : LEv.sess s (.poll i (.sent id t)) ∈ v.log)
    (hh : ∀ t', LEv.sess s (.poll i (.handled id t')) ∉ v.log) (h2 : LEv.ch .tcpShutdown ∉ v.log) (user : Obj → Prop) (hm : user .channel) :
    ¬ Freed v user (.request s i) ∧ ¬ Freed v user (.session s) := by
  obtain ⟨a, b, hl⟩ := List.append_of_mem hs
  obtain ⟨uid, unit, q, tmo, f, b', h1, hown, -⟩ := h.inv.1.blocks.sending hl
  have hlog := h.chan.2
  have hup : v.cli.isShutdown = false := h.chan.1.down (by rw [hlog]; exact fun hm => h2 (mem_ofChannel.1 hm))
  have hinv := h.chan.1.inv.1
  have hcall : CEv.call uid unit q tmo ∈ v.cli.log := by rw [hlog]; exact mem_ofChannel.2 (by rw [hl, h1]; simp)
  have hnot : uid ∉ handledUids v.cli.log := by
    intro hc
    obtain ⟨e, he, hu⟩ := List.mem_filterMap.1 hc
    split at hu
    · rename_i u x t'
      injection hu with hu; subst hu
      rw [hlog] at he
      obtain ⟨a', b'', hr⟩ := List.append_of_mem (mem_ofChannel.1 he)
      obtain ⟨b3, hb3⟩ := h.inv.1.blocks.handling hown hr
      exact hh t' (by rw [hr, hb3]; simp)
    · cases hu
  have hcov := hinv.covered hup uid (hinv.callBound hcall)
  rw [List.count_eq_zero.2 hnot] at hcov
  have hlk := Poll.lookup_of_mem h.inv.1.blocks.owner_unique.1 hown
  have hr : v.handlerHolds uid (.request s i) := by simp [Pcl.handlerHolds, hlk]
  have hsn : v.handlerHolds uid (.session s) := by simp [Pcl.handlerHolds, hlk]
  by_cases hc : uid ∈ v.cli.curUids ++ v.cli.pendUids
  · have : ∃ r : PendingReq, (r ∈ v.cli.pending ∨ v.cli.current = some r) ∧ r.uid = uid := by
      rcases List.mem_append.1 hc with hc | hc
      · obtain ⟨r, hr1, hr2⟩ := List.mem_map.1 hc
        exact ⟨r, .inr (by simpa using hr1), hr2⟩
      · obtain ⟨r, hr1, hr2⟩ := List.mem_map.1 hc
        exact ⟨r, .inl hr1, hr2⟩
    obtain ⟨r, hr1, rfl⟩ := this
    exact ⟨(InUse.via (.held hm) (.inr ⟨r, hr1, hr⟩)).not_freed, (InUse.via (.held hm) (.inr ⟨r, hr1, hsn⟩)).not_freed⟩
  · simp only [List.mem_append, not_or] at hc
    rw [List.count_eq_zero.2 hc.1, List.count_eq_zero.2 hc.2] at hcov
    have ht : uid ∈ Cli.taskUids v.cli.tasks := List.count_pos_iff.1 (by omega)
    have hpost : v.handlerPosted uid := by
      obtain ⟨k, hk, hu⟩ := List.mem_filterMap.1 ht
      refine ⟨k, hk, ?_⟩
      cases k <;> simp_all [CTask.uid?]
    exact ⟨fun ⟨_, hq, _⟩ => hq (.inr ⟨uid, hpost, hr⟩), fun ⟨_, hq, _⟩ => hq (.inr ⟨uid, hpost, hsn⟩)⟩

/-- C117: sessions pile up.  A session, even if it has been shut down and all its handles are gone, is not released before the channel is
shut down. -/
theorem C117_sessions_kept (env : ClientEnv) (v : Pcl) (h : LReach env v) (s : Nat) (unit : UInt8) (ho : LEv.opened s unit ∈ v.log)
    (h2 : LEv.ch .tcpShutdown ∉ v.log) (user : Obj → Prop) (hm : user .channel) : ¬ Freed v user (.session s) := by
  have hi := h.inv
  have hs : s < v.sess.length := by
    have h3 : s ∈ openings v.log := List.mem_filterMap.2 ⟨_, ho, by simp⟩
    rw [hi.1.opened] at h3
    exact List.mem_range.1 h3
  have hup : v.cli.isShutdown = false := h.chan.1.down (by rw [h.chan.2]; exact fun hm => h2 (mem_ofChannel.1 hm))
  exact (InUse.via (.held hm) (.inl ⟨s, by rw [hi.2.all hup]; exact List.mem_range.2 hs, rfl⟩)).not_freed

/-! The client of `restOps` (three scheduled requests on two sessions, shut down with polls outstanding) comes to rest; then everything is
released, or, if the user still has a handle of the first session, everything but that session and the channel. -/

def releasedOps : List Pcl.Op := restOps ++ (List.replicate 12 [Pcl.Op.sess 0 .runTask, .sess 1 .runTask, .chan .runTask]).flatten ++
  [.tick 60, .sess 1 (.expire 1 0), .sess 1 (.runTimer 1 0)]

def releasedState : Pcl := pdemoState demoEnv releasedOps

theorem released_rest : AtRest releasedState := by
  refine ⟨by decide +kernel, by decide +kernel, by decide +kernel, fun q hq => ?_⟩
  have h2 : releasedState.sess.all (fun p => p.sess.tasks.isEmpty && p.sess.polls.all fun q => q.armed.isEmpty && q.fired.isEmpty) = true := by decide +kernel
  have h3 := List.all_eq_true.1 h2 _ hq
  simp only [Bool.and_eq_true, List.isEmpty_iff, List.all_eq_true] at h3
  exact h3

theorem released_log : releasedState.log = releasedState.log.take 32 ++ .ch .tcpShutdown :: releasedState.log.drop 33 ∧
    LEv.ch .tcpShutdown ∉ releasedState.log.take 32 ∧ ∀ s i, LEv.api s (.register i) ∉ releasedState.log.drop 33 := by
  refine ⟨by decide +kernel, by decide +kernel, fun s i hm => ?_⟩
  have h1 : (releasedState.log.drop 33).all (fun e => match e with
    | .api _ (.register _) => false
    | _ => true) = true := by decide +kernel
  have := List.all_eq_true.1 h1 _ hm
  cases this

example : releasedState.sess.map (fun p => p.sess.polls.length) = [1, 2] ∧ ∀ x, Freed releasedState nobody x := by
  refine ⟨by decide +kernel, fun x => C117_released_partial demoEnv _ (pdemo_reach _ _) _ _ released_log.1 released_log.2.1 released_log.2.2 released_rest nobody x
    fun hx => ?_⟩
  induction hx with
  | held h => exact h
  | via _ _ ih => exact ih

/-- With a handle of the first session left. -/
example : Freed releasedState (fun x => x = .session 0) (.session 1) ∧ (∀ i, Freed releasedState (fun x => x = .session 0) (.request 0 i)) ∧
    ¬ Freed releasedState (fun x => x = .session 0) .channel := by
  have key : ∀ x, InUse releasedState (fun x => x = .session 0) x → x = .session 0 ∨ x = .channel := by
    intro x hx
    induction hx with
    | held h => exact .inl h
    | @via x y _ h ih =>
      rcases ih with rfl | rfl
      · obtain ⟨p, hp, hy | ⟨i, hi, -⟩⟩ := h
        · exact .inr hy
        · have h1 : (releasedState.sess[0]?.map fun p => p.sess.registered) = some [] := by decide +kernel
          rw [hp] at h1
          simp only [Option.map_some, Option.some.injEq] at h1
          rw [h1] at hi; cases hi
      · rcases h with ⟨s, hs, -⟩ | ⟨r, hr, -⟩
        · have h1 : releasedState.cli.sessions = [] := by decide +kernel
          rw [h1] at hs; cases hs
        · have h1 : releasedState.cli.pending = [] ∧ releasedState.cli.current = none := by decide +kernel
          rw [h1.1, h1.2] at hr
          rcases hr with hr | hr <;> cases hr
  have free := fun x hx => C117_released_partial demoEnv releasedState (pdemo_reach _ _) _ _ released_log.1 released_log.2.1 released_log.2.2 released_rest
    (fun x => x = .session 0) x hx
  refine ⟨free _ fun h => ?_, fun i => free _ fun h => ?_, ?_⟩
  · rcases key _ h with h | h <;> simp at h
  · rcases key _ h with h | h <;> simp at h
  · refine (InUse.via (x := .session 0) (.held (by rfl)) ?_).not_freed
    have h1 : releasedState.sess.length = 2 := by decide +kernel
    exact ⟨_, List.getElem?_eq_getElem (by omega), .inl rfl⟩

example : ∃ ops σ n a b, LExecution demoEnv ops σ ∧ LFair ops σ ∧ (σ n).log = a ++ .ch .tcpShutdown :: b ∧ LEv.ch .tcpShutdown ∉ a ∧
    (∀ s i, LEv.api s (.register i) ∉ b) ∧ (∀ m, n ≤ m → byUser (ops m) = false) ∧ ∃ m, n ≤ m ∧ ∀ x, Freed (σ m) nobody x := by
  obtain ⟨ops, σ, hx, hf, hr, hu⟩ := quiet_execution_exists demoEnv releasedOps
  have hs : σ releasedOps.length = releasedState := by simp only [releasedState, pdemoState, hr]
  have hd := released_log.1
  rw [← hs] at hd
  have h1 := released_log.2
  rw [← hs] at h1
  obtain ⟨m, hm, h2⟩ := C117_released_in_time_partial demoEnv ops σ hx hf _ _ _ hd h1.1 h1.2 hu
  refine ⟨ops, σ, _, _, _, hx, hf, hd, h1.1, h1.2, hu, m, hm, fun x => h2 m (Nat.le_refl _) nobody x fun hx => ?_⟩
  induction hx with
  | held h => exact h
  | via _ _ ih => exact ih

/-- The scheduled requests of `pdemo`, with all handles gone. -/
example : ¬ Freed pdemo onlyManager (.request 0 0) ∧ ¬ Freed pdemo onlyManager (.session 0) :=
  C117_polling_kept demoEnv pdemo (pdemo_reach _ _) 0 0 ⟨pdemo.log.take 5, pdemo.log.drop 6, reqA, 10, 100, by decide +kernel, by decide +kernel⟩
    (by decide +kernel) (by decide +kernel) onlyManager rfl

/-- A scheduled request whose session is shut down, and which is stopped and no longer registered, while its poll is on the wire. -/
def flightOps : List Pcl.Op := [.createSession 1, .schedule 0 reqA 10 100, .api 0 (.register 0), .sess 0 .runTask, .sess 0 .runTask, .chan .runTask,
  .api 0 .shutdown, .sess 0 .runTask, .sess 0 .runTask]

example : ((pdemoState demoEnv flightOps).sess.map fun p => (p.sess.registered, p.sess.tasks.length)) = [([], 0)] ∧
    ¬ Freed (pdemoState demoEnv flightOps) onlyManager (.request 0 0) ∧ ¬ Freed (pdemoState demoEnv flightOps) onlyManager (.session 0) := by
  refine ⟨by decide +kernel, C117_in_flight_kept demoEnv _ (pdemo_reach _ _) 0 0 0 0 (by decide +kernel) (fun t' hm => ?_) (by decide +kernel) onlyManager rfl⟩
  have h1 : pollsHandled (ofPoll 0 0 (pdemoState demoEnv flightOps).log) = [] := by decide +kernel
  have h2 : 0 ∈ pollsHandled (ofPoll 0 0 (pdemoState demoEnv flightOps).log) := by
    refine List.mem_filterMap.2 ⟨.handled 0 t', List.mem_filterMap.2 ⟨.poll 0 (.handled 0 t'), List.mem_filterMap.2 ⟨_, hm, by simp⟩, by simp⟩, rfl⟩
  rw [h1] at h2; cases h2

/-- A session that has been shut down, at rest. -/
example : ¬ Freed (pdemoState demoEnv [.createSession 1, .api 0 .shutdown, .sess 0 .runTask]) onlyManager (.session 0) :=
  C117_sessions_kept demoEnv _ (pdemo_reach _ _) 0 1 (by decide +kernel) (by decide +kernel) onlyManager rfl

end Modbus.Props
