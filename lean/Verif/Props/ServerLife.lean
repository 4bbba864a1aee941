import Verif.Props.Server

/-!
Properties C30-C32 of the server channel, and concrete cases meeting the hypotheses of C22-C34.
-/

namespace Modbus

variable {W : Type}

namespace Srv

theorem runTask_addSession (v : Srv W) (u : UInt8) (s : SessId) (h : v.isShutdown = false) :
    v.runTask (.addSession u s) = if (v.sessions.lookup u).isSome then v else { v with sessions := v.sessions ++ [(u, s)] } := by
  simp [runTask, h]

theorem ReactsAll.down {env : ServerEnv W} {v v' : Srv W} {c : ConnId} {ms : List Mbap} (h : ReactsAll env c v ms v')
    (hd : v.isShutdown = true) : v'.log = v.log ++ ms.map (.mbap c) ∧ v'.world = v.world := by
  induction h with
  | nil => simp
  | cons h1 h2 ih =>
    have h3 := ih (by rw [← h1.same.isShutdown] at *; simpa using hd)
    cases h1 with
    | silent => exact ⟨by rw [h3.1]; simp, h3.2⟩
    | refuse s fc t hr => rw [hd] at hr; cases hr
    | call s k r hp hr => rw [hd] at hr; cases hr
    | answer s k r hp msg hm hr => rw [hd] at hr; cases hr

/-- Events of message processing. -/
def _root_.Modbus.SEv.isTraffic : SEv → Bool
  | .mbap .. => true
  | .request .. => true
  | .send .. => true
  | _ => false

/-- What an operation posts to the strand. -/
def posted (v : Srv W) : Op → List STask
  | .start => if v.isShutdown then [] else [.start]
  | .shutdown => [.shutdown]
  | .addSession u s => if v.isShutdown then [] else [.addSession u s]
  | _ => []

theorem step_ctl {env : ServerEnv W} {v v' : Srv W} {op : Op} (h : v.step env op = .ret v') :
    (∃ t ts, op = .runTask ∧ v.tasks = t :: ts ∧ v' = { v with tasks := ts }.runTask t) ∨
    (v'.isShutdown = v.isShutdown ∧ v'.isStarted = v.isStarted ∧ v'.sessions = v.sessions ∧ v'.tasks = v.tasks ++ v.posted op ∧
      ∃ new, v'.log = v.log ++ new ∧ (∀ e ∈ new, e.isTraffic = true) ∧
        (v.isShutdown = true → v'.world = v.world ∧ ∀ e ∈ new, ∃ c m, e = .mbap c m)) := by
  have trivial_case : ∀ v' : Srv W, v'.isShutdown = v.isShutdown → v'.isStarted = v.isStarted → v'.sessions = v.sessions →
      v'.tasks = v.tasks ++ v.posted op → v'.log = v.log → v'.world = v.world → (v'.isShutdown = v.isShutdown ∧ v'.isStarted = v.isStarted ∧ v'.sessions = v.sessions ∧ v'.tasks = v.tasks ++ v.posted op ∧
      ∃ new, v'.log = v.log ++ new ∧ (∀ e ∈ new, e.isTraffic = true) ∧ (v.isShutdown = true → v'.world = v.world ∧ ∀ e ∈ new, ∃ c m, e = .mbap c m)) :=
    fun v' a b c d e f => ⟨a, b, c, d, [], by simp [e], by simp, fun _ => ⟨f, by simp⟩⟩
  cases op with
  | start => 
    simp only [step] at h
    split at h <;> (rename_i hs; injection h with h; subst h; exact Or.inr (trivial_case _ rfl rfl rfl (by simp [posted, hs]) rfl rfl))
  | shutdown => injection h with h; subst h; exact Or.inr (trivial_case _ rfl rfl rfl rfl rfl rfl)
  | addSession u s =>
    simp only [step] at h
    split at h <;> (rename_i hs; injection h with h; subst h; exact Or.inr (trivial_case _ rfl rfl rfl (by simp [posted, hs]) rfl rfl))
  | runTask =>
    simp only [step] at h
    split at h
    · injection h with h; subst h; exact Or.inr (trivial_case _ rfl rfl rfl (by simp [posted]) rfl rfl)
    · rename_i t ts ht
      injection h with h; subst h
      exact Or.inl ⟨t, ts, rfl, ht, rfl⟩
  | opened c mem =>
    simp only [step] at h
    split at h <;> (injection h with h; subst h; exact Or.inr (trivial_case _ rfl rfl rfl (by simp [posted]) rfl rfl))
  | receive c d =>
    rcases step_cases h with ⟨t, ts, h, -, -⟩ | ⟨c1, d1, p1, p', ms, hop, hlk', hparse, hre⟩ | hx
    · cases h
    · have hs := hre.same
      refine Or.inr ⟨hs.1, hs.2, hs.3, by rw [hs.4]; simp [posted], ?_⟩
      obtain ⟨bs, h1, h2, h3⟩ := hre.blocks
      refine ⟨_, h1, ?_, ?_⟩
      · intro e he
        obtain ⟨b, hb, he⟩ := List.mem_flatten.1 he
        cases h2 b hb with
        | other e' e1 e2 e3 =>
          exfalso
          obtain ⟨i, hi, hbi⟩ := List.getElem_of_mem hb
          have hlen := h3.length_eq
          have h4 := (List.forall₂_iff_get.1 h3).2 i (by omega) hi
          obtain ⟨rest, h5, -⟩ := h4
          simp only [List.get_eq_getElem, hbi] at h5
          injection h5 with h5 h6
          exact e1 _ _ h5
        | reaction c m calls answers hc ha =>
          simp only [List.mem_cons, List.mem_append] at he
          rcases he with rfl | he | he
          · rfl
          · rcases hc with rfl | ⟨s, k, r, rfl⟩
            · cases he
            · simp only [List.mem_singleton] at he; subst he; rfl
          · rcases ha with rfl | ⟨pdu, -, rfl⟩
            · cases he
            · simp only [List.mem_singleton] at he; subst he; rfl
      · intro hd
        obtain ⟨e1, e2⟩ := hre.down hd
        refine ⟨e2, ?_⟩
        simp only at e1 h1
        rw [h1] at e1
        have e3 := List.append_cancel_left e1
        rw [e3]
        intro e he
        obtain ⟨m, -, rfl⟩ := List.mem_map.1 he
        exact ⟨_, _, rfl⟩
    · simp only [step] at h
      split at h
      · injection h with h; subst h; exact Or.inr (trivial_case _ rfl rfl rfl (by simp [posted]) rfl rfl)
      · rename_i p hl
        cases hp : p.parse d with
        | ub => rw [hp] at h; cases h
        | ret x =>
          rw [hp] at h
          simp only [CM.ret_bind] at h
          obtain ⟨v2, h1, h2⟩ := onMbaps_reacts env c x.2 { v with listeners := setListener v.listeners c x.1 }
          rw [h1] at h
          injection h with h; subst h
          exact Or.inr (trivial_case _ h2.same.1 h2.same.2 h2.same.3 (by rw [h2.same.4]; simp [posted]) hx.1 hx.2.1)
  | error c =>
    simp only [step] at h
    split at h <;> (injection h with h; subst h; exact Or.inr (trivial_case _ rfl rfl rfl (by simp [posted]) rfl rfl))
  | dropped c => injection h with h; subst h; exact Or.inr (trivial_case _ rfl rfl rfl (by simp [posted]) rfl rfl)

/-- Shutdown has been performed completely whenever the flag is set. -/
def Inv (v : Srv W) : Prop :=
  (v.sessions.map (·.1)).Nodup ∧ (v.isShutdown = true → v.sessions = [] ∧ v.isStarted = false) ∧
  (v.isShutdown = false → (v.isStarted = true ↔ SEv.serverStart ∈ v.log) ∧
    SEv.serverShutdown ∉ v.log ∧ ∀ s, SEv.sessionShutdown s ∉ v.log)

theorem not_mem_keys_of_lookup {u : UInt8} : ∀ {l : List (UInt8 × SessId)}, l.lookup u = none → u ∉ l.map (·.1) := by
  intro l
  induction l with
  | nil => simp
  | cons x l ih =>
    intro h
    rcases x with ⟨a, b⟩
    simp only [List.lookup_cons] at h
    split at h
    · cases h
    · rename_i hne
      simp only [List.map_cons, List.mem_cons, not_or]
      exact ⟨by simpa using hne, ih h⟩

theorem Inv.runTask {v : Srv W} (hv : Inv v) (t : STask) : Inv (v.runTask t) := by
  obtain ⟨i1, i2, i3⟩ := hv
  cases t with
  | start =>
    cases hsd : v.isShutdown with
    | true => simp only [Srv.runTask, hsd, if_true]; exact ⟨i1, i2, i3⟩
    | false =>
      obtain ⟨j1, j2, j3⟩ := i3 hsd
      simp only [Srv.runTask, hsd, Bool.false_eq_true, if_false]
      exact ⟨i1, by simp [hsd], fun _ => ⟨by simp, by simpa [emit] using j2, by simpa [emit] using j3⟩⟩
  | shutdown => exact ⟨by simp [Srv.runTask], by intro; simp only [Srv.runTask]; split <;> simp_all, by simp only [Srv.runTask]; split <;> simp⟩
  | addSession u s =>
    cases hsd : v.isShutdown with
    | true => simp only [Srv.runTask, hsd, if_true]; exact ⟨i1, i2, i3⟩
    | false =>
      rw [runTask_addSession _ _ _ hsd]
      split
      · exact ⟨i1, i2, i3⟩
      · rename_i hn
        refine ⟨?_, by simp [hsd], i3⟩
        simp only [Option.isSome_iff_ne_none, ne_eq, not_not] at hn
        simp only [List.map_append, List.map_cons, List.map_nil]
        rw [List.nodup_append]
        refine ⟨i1, by simp, ?_⟩
        intro a ha b hb
        simp only [List.mem_singleton] at hb
        subst hb
        rintro rfl
        exact not_mem_keys_of_lookup hn ha

theorem runTask_isShutdown_of_ne {v : Srv W} {t : STask} (h : (v.runTask t).isShutdown = true) (hv : v.isShutdown = false) : t = .shutdown := by
  cases t with
  | shutdown => rfl
  | start => simp [Srv.runTask, hv] at h
  | addSession u s => rw [runTask_addSession _ _ _ hv] at h; split at h <;> simp [hv] at h

theorem runTask_down {v : Srv W} {t : STask} (h : t ≠ .shutdown) (hv : v.isShutdown = true) : v.runTask t = v := by
  cases t with
  | shutdown => exact absurd rfl h
  | start => simp [Srv.runTask, hv]
  | addSession u s => simp [Srv.runTask, hv]

theorem Inv.step {env : ServerEnv W} {v v' : Srv W} {op : Op} (hv : Inv v) (h : v.step env op = .ret v') : Inv v' := by
  rcases step_ctl h with ⟨t, ts, -, -, rfl⟩ | ⟨h1, h2, h3, -, new, h5, h6, h7⟩
  · exact Inv.runTask (v := { v with tasks := ts }) hv t
  · obtain ⟨i1, i2, i3⟩ := hv
    refine ⟨by rw [h3]; exact i1, by rw [h1, h2, h3]; exact i2, ?_⟩
    rw [h1, h2, h5]
    intro hsd
    obtain ⟨j1, j2, j3⟩ := i3 hsd
    have hn : ∀ e : SEv, e.isTraffic = false → e ∉ new := fun e he hm => by have := h6 e hm; rw [he] at this; cases this
    refine ⟨?_, ?_, ?_⟩
    · rw [j1]; simp only [List.mem_append, hn .serverStart rfl, or_false]
    · simp only [List.mem_append, j2, hn .serverShutdown rfl, or_self, not_false_eq_true]
    · intro s; simp only [List.mem_append, j3, hn (.sessionShutdown s) rfl, or_self, not_false_eq_true]

theorem Inv.init (w : W) : Inv (Srv.init w) := ⟨by simp [Srv.init], by simp [Srv.init], by simp [Srv.init]⟩

theorem run_snoc {env : ServerEnv W} {v v' v'' : Srv W} {ops : List Op} {op : Op} (h1 : v.run env ops = .ret v')
    (h2 : v'.step env op = .ret v'') : v.run env (ops ++ [op]) = .ret v'' := by
  rw [run_append, h1]
  simp [run, h2]

end Srv

namespace Props

open Srv (Op)
open Spec (frameOf)

theorem SReach.inv {env : ServerEnv W} {v : Srv W} (h : SReach env v) : Srv.Inv v := by
  obtain ⟨w, ops, h⟩ := h
  exact Srv.run_induction (P := Srv.Inv) (fun _ _ _ hp hs => hp.step hs) (Srv.Inv.init w) h

theorem SReach.step {env : ServerEnv W} {v v' : Srv W} {op : Op} (h : SReach env v) (hs : v.step env op = .ret v') : SReach env v' := by
  obtain ⟨w, ops, h⟩ := h
  exact ⟨w, ops ++ [op], Srv.run_snoc h hs⟩

/-! ### C31 -/

/-- C31, after. Once the shutdown has taken effect, whatever happens later: the channel stays shut down, nothing but the
arrival of messages happens (no session call, no frame sent, no start or shutdown of the listening server, no session told
to shut down), no session can be added and the user's state is not touched. -/
theorem C31_nothing_after_shutdown (env : ServerEnv W) (v v' : Srv W) (hv : SReach env v) (hd : v.isShutdown = true)
    (ops : List Op) (hr : v.run env ops = .ret v') :
    v'.isShutdown = true ∧ v'.sessions = [] ∧ v'.world = v.world ∧
      ∃ new, v'.log = v.log ++ new ∧ ∀ e ∈ new, ∃ c m, e = .mbap c m := by
  induction ops generalizing v with
  | nil => injection hr with hr; subst hr; exact ⟨hd, (hv.inv.2.1 hd).1, rfl, [], by simp, by simp⟩
  | cons op ops ih =>
    simp only [Srv.run] at hr
    cases hs : v.step env op with
    | ub => rw [hs] at hr; cases hr
    | ret v1 =>
      rw [hs] at hr
      simp only [CM.ret_bind] at hr
      have hi := hv.inv
      have h1 : v1.isShutdown = true ∧ v1.world = v.world ∧ ∃ new, v1.log = v.log ++ new ∧ ∀ e ∈ new, ∃ c m, e = .mbap c m := by
        rcases Srv.step_ctl hs with ⟨t, ts, -, -, rfl⟩ | ⟨h1, h2, h3, -, new, h5, -, h7⟩
        · obtain ⟨e1, e2⟩ := hi.2.1 hd
          cases t <;> simp [Srv.runTask, hd, e1, e2]
        · exact ⟨by rw [h1, hd], (h7 hd).1, new, h5, (h7 hd).2⟩
      obtain ⟨a1, aw, n1, a2, a3⟩ := h1
      obtain ⟨b1, b2, bw, n2, b3, b4⟩ := ih v1 (hv.step hs) a1 hr
      refine ⟨b1, b2, bw.trans aw, n1 ++ n2, by rw [b3, a2, List.append_assoc], ?_⟩
      intro e he
      rcases List.mem_append.1 he with he | he
      · exact a3 e he
      · exact b4 e he

/-- C31, at and before. In every history either no shutdown has taken effect and nobody was told to shut down, or there
is the one moment at which it took effect: then the listening server was shut down if it had been started, every
registered unit's session was told to shut down exactly once, and afterwards only messages arrived. -/
theorem C31_shutdown_once (env : ServerEnv W) (v : Srv W) (hv : SReach env v) :
    (v.isShutdown = false ∧ SEv.serverShutdown ∉ v.log ∧ ∀ s, SEv.sessionShutdown s ∉ v.log) ∨
    (v.isShutdown = true ∧ ∃ v0, SReach env v0 ∧ v0.isShutdown = false ∧ (v0.sessions.map (·.1)).Nodup ∧
      SEv.serverShutdown ∉ v0.log ∧ (∀ s, SEv.sessionShutdown s ∉ v0.log) ∧
      ∃ after, v.log = v0.log ++ ((if SEv.serverStart ∈ v0.log then [.serverShutdown] else []) ++
          v0.sessions.map (fun x => .sessionShutdown x.2)) ++ after ∧ ∀ e ∈ after, ∃ c m, e = .mbap c m) := by
  have hi := hv.inv
  cases hsd : v.isShutdown with
  | false => exact Or.inl ⟨rfl, (hi.2.2 hsd).2⟩
  | true =>
    refine Or.inr ⟨rfl, ?_⟩
    obtain ⟨w, ops, hrun⟩ := hv
    -- find the step that sets the flag
    have key : ∀ (ops : List Op) (v0 : Srv W), SReach env v0 → v0.isShutdown = false → v0.run env ops = .ret v →
        ∃ v1 ops2 v2 ts, SReach env v1 ∧ v1.isShutdown = false ∧ v1.step env .runTask = .ret v2 ∧ v1.tasks = .shutdown :: ts ∧ v2.run env ops2 = .ret v := by
      intro ops
      induction ops with
      | nil => intro v0 _ h1 h2; injection h2 with h2; subst h2; rw [hsd] at h1; cases h1
      | cons op ops ih =>
        intro v0 hr0 h1 h2
        simp only [Srv.run] at h2
        cases hs : v0.step env op with
        | ub => rw [hs] at h2; cases h2
        | ret v1 =>
          rw [hs] at h2
          simp only [CM.ret_bind] at h2
          cases hv1 : v1.isShutdown with
          | false => exact ih v1 (hr0.step hs) hv1 h2
          | true =>
            rcases Srv.step_ctl hs with ⟨t, ts, rfl, ht, rfl⟩ | ⟨e1, -⟩
            · have := Srv.runTask_isShutdown_of_ne hv1 h1
              subst this
              exact ⟨v0, ops, _, ts, hr0, h1, hs, ht, h2⟩
            · rw [e1, h1] at hv1; cases hv1
    obtain ⟨v1, ops2, v2, ts, hr1, hrn, hst, htk, hr2⟩ := key ops (Srv.init w) ⟨w, [], rfl⟩ rfl hrun
    have hi1 := hr1.inv
    obtain ⟨j1, j2, j3⟩ := hi1.2.2 hrn
    have hv2 : SReach env v2 := hr1.step hst
    simp only [Srv.step, htk] at hst
    injection hst with hst
    have hd2 : v2.isShutdown = true := by rw [← hst]; simp only [Srv.runTask]; split <;> rfl
    obtain ⟨-, -, -, after, e1, e2⟩ := C31_nothing_after_shutdown env v2 v hv2 hd2 ops2 hr2
    refine ⟨v1, hr1, hrn, hi1.1, j2, j3, after, ?_, e2⟩
    rw [e1, ← hst]
    congr 1
    by_cases hstd : SEv.serverStart ∈ v1.log
    · simp [Srv.runTask, j1.2 hstd, hstd]
    · have : v1.isStarted = false := by cases h : v1.isStarted with | false => rfl | true => exact absurd (j1.1 h) hstd
      simp [Srv.runTask, this, hstd]

/-- C31, corollary. The listening server is shut down at most once, however often `shutdown` is called. -/
theorem C31_server_shutdown_at_most_once (env : ServerEnv W) (v : Srv W) (hv : SReach env v) :
    v.log.count .serverShutdown ≤ 1 := by
  rcases C31_shutdown_once env v hv with ⟨-, h, -⟩ | ⟨-, v0, -, -, -, h1, -, after, h2, h3⟩
  · rw [List.count_eq_zero.2 h]; omega
  · rw [h2, List.count_append, List.count_append, List.count_append, List.count_eq_zero.2 h1]
    have e1 : (v0.sessions.map (fun x => SEv.sessionShutdown x.2)).count .serverShutdown = 0 := by
      apply List.count_eq_zero.2; simp
    have e2 : after.count .serverShutdown = 0 := by
      apply List.count_eq_zero.2
      intro hm
      obtain ⟨c, m, hh⟩ := h3 _ hm
      cases hh
    rw [e1, e2]
    split <;> simp

/-! ### C30 -/

/-- Every conformant request for unit `u` is handled by session `s`. -/
def HandledBy (env : ServerEnv W) (v : Srv W) (u : UInt8) (s : SessId) : Prop :=
  ∀ c m k r, m.unit = u → Spec.Denotes k m.data r → ∃ sent, Handles env v c m s k r sent

theorem handledBy_of_lookup {env : ServerEnv W} {v : Srv W} {u : UInt8} {s : SessId} (h1 : v.isShutdown = false)
    (h2 : v.sessions.lookup u = some s) : HandledBy env v u s := by
  intro c m k r hu hd
  subst hu
  cases hres : (env.onRequest s k r v.world).2 with
  | ok resp =>
    obtain ⟨pdu, h, -⟩ := C24_request_reaches_session env v c m s ⟨h1, h2⟩ k r hd resp hres
    exact ⟨_, h⟩
  | error e =>
    obtain ⟨g1, g2⟩ := C28_session_failures env v c m s ⟨h1, h2⟩ k r hd e hres
    cases e with
    | modbus t => exact ⟨_, g1 t rfl⟩
    | _ => exact ⟨_, g2 (by simp)⟩

/-- C30, as documented ("If a session with the same unit identifier is already present, it will replace it",
IServerChannel.h): after `add_session(u, s)` has taken effect on a running channel, requests for `u` are handled by `s`. -/
def C30_Statement : Prop := ∀ (W : Type) (env : ServerEnv W) (w : W) (ops : List Op) (u : UInt8) (s : SessId) (n : Nat) (v : Srv W),
  (Srv.init w).run env (ops ++ .addSession u s :: List.replicate n .runTask) = .ret v → v.isShutdown = false → v.tasks = [] →
  HandledBy env v u s

/-- A history of `n` tasks run. -/
theorem run_tasks (env : ServerEnv W) (n : Nat) : ∀ (v : Srv W), ∃ v', v.run env (List.replicate n .runTask) = .ret v' ∧
    v'.tasks = v.tasks.drop n ∧ v' = { (v.tasks.take n).foldl Srv.runTask v with tasks := v.tasks.drop n } := by
  induction n with
  | zero => intro v; exact ⟨v, rfl, by simp, by simp⟩
  | succ n ih =>
    intro v
    have ht : ∀ (v : Srv W) t, (v.runTask t).tasks = v.tasks := by
      intro v t
      cases t <;> simp only [Srv.runTask]
      · split <;> rfl
      · split <;> rfl
      · split
        · rfl
        · split <;> rfl
    have hc : ∀ (v : Srv W) t ts, ({ v with tasks := ts }.runTask t) = { v.runTask t with tasks := ts } := by
      intro v t ts
      cases t <;> simp only [Srv.runTask]
      · split <;> rfl
      · split <;> rfl
      · split
        · rfl
        · split <;> rfl
    have hf : ∀ (l : List STask) (v : Srv W) ts ts', { l.foldl Srv.runTask { v with tasks := ts } with tasks := ts' } = { l.foldl Srv.runTask v with tasks := ts' } := by
      intro l
      induction l with
      | nil => intro v ts ts'; rfl
      | cons t l ihl => intro v ts ts'; simp only [List.foldl_cons]; rw [hc, ihl]
    cases hts : v.tasks with
    | nil =>
      obtain ⟨v', h1, h2, h3⟩ := ih v
      refine ⟨v', ?_, by simp [h2, hts], by rw [h3]; simp [hts]⟩
      simp only [List.replicate_succ, Srv.run, Srv.step, hts, CM.ret_bind, h1]
    | cons t ts =>
      obtain ⟨v', h1, h2, h3⟩ := ih ({ v with tasks := ts }.runTask t)
      have e : ({ v with tasks := ts }.runTask t).tasks = ts := ht _ _
      refine ⟨v', ?_, by rw [h2, e]; simp, ?_⟩
      · simp only [List.replicate_succ, Srv.run, Srv.step, hts, CM.ret_bind, h1]
      · rw [h3, e, hc, hf]; simp

/-- No `add_session` for `u` was ever called. -/
def Unused (u : UInt8) (ops : List Op) : Prop := ∀ s, Op.addSession u s ∉ ops

theorem runTask_lookup (v : Srv W) (t : STask) (u : UInt8) (h : (v.runTask t).isShutdown = false) :
    (v.runTask t).sessions.lookup u = match v.sessions.lookup u with
      | some s => some s
      | none => match t with
        | .addSession u' s => if u = u' then some s else none
        | _ => none := by
  have hrun := Srv.runTask_sessions_running h
  cases t with
  | start => simp only [Srv.runTask, hrun, Bool.false_eq_true, if_false, Srv.emit_sessions]; cases v.sessions.lookup u <;> rfl
  | shutdown => revert h; simp only [Srv.runTask]; split <;> simp
  | addSession u' s =>
    rw [Srv.runTask_addSession _ _ _ hrun]
    split
    · rename_i hs
      cases hl : v.sessions.lookup u with
      | some s' => rfl
      | none =>
        simp only
        rw [if_neg]
        rintro rfl
        rw [hl] at hs; cases hs
    · rename_i hs
      rw [Srv.lookup_append_single]
      cases hl : v.sessions.lookup u with
      | some s' => rfl
      | none => rfl

/-- C30, what holds: a session added for a unit for which none was added before handles that unit's requests. -/
theorem C30_new_unit_partial (env : ServerEnv W) (w : W) (ops : List Op) (u : UInt8) (hu : Unused u ops) (s : SessId) (n : Nat) (v : Srv W)
    (hr : (Srv.init w).run env (ops ++ .addSession u s :: List.replicate n .runTask) = .ret v) (hd : v.isShutdown = false)
    (ht : v.tasks = []) : HandledBy env v u s := by
  obtain ⟨v0, h0⟩ := server_total env w ops
  rw [Srv.run_append, h0] at hr
  simp only [CM.ret_bind, Srv.run] at hr
  have hinv : v0.sessions.lookup u = none ∧ ∀ s, STask.addSession u s ∉ v0.tasks := by
    have key : ∀ (ops : List Op) (a b : Srv W), Unused u ops → a.run env ops = .ret b →
        (a.sessions.lookup u = none ∧ ∀ s, STask.addSession u s ∉ a.tasks) → (b.sessions.lookup u = none ∧ ∀ s, STask.addSession u s ∉ b.tasks) := by
      intro ops
      induction ops with
      | nil => intro a b _ h1 h2; injection h1 with h1; subst h1; exact h2
      | cons op ops ih =>
        intro a b hu h1 h2
        simp only [Srv.run] at h1
        cases hs : a.step env op with
        | ub => rw [hs] at h1; cases h1
        | ret a1 =>
          rw [hs] at h1
          simp only [CM.ret_bind] at h1
          refine ih a1 b (fun s hm => hu s (by simp [hm])) h1 ?_
          rcases Srv.step_ctl hs with ⟨t, ts, rfl, htk, rfl⟩ | ⟨e1, e2, e3, e4, -⟩
          · obtain ⟨g1, g2⟩ := h2
            have htl : ({ a with tasks := ts }.runTask t).tasks = ts := by
              cases t <;> simp only [Srv.runTask]
              · split <;> rfl
              · split <;> rfl
              · split
                · rfl
                · split <;> rfl
            refine ⟨?_, by rw [htl]; exact fun s hm => g2 s (by rw [htk]; simp [hm])⟩
            cases hsd : ({ a with tasks := ts }.runTask t).isShutdown with
            | false =>
              rw [runTask_lookup _ _ _ hsd]
              simp only [g1]
              cases t with
              | addSession u' s' =>
                simp only
                rw [if_neg]
                rintro rfl
                exact g2 s' (by rw [htk]; simp)
              | _ => rfl
            | true =>
              by_cases htt : t = .shutdown
              · subst htt; simp [Srv.runTask]
              · have : a.isShutdown = true := by
                  cases h : a.isShutdown with
                  | true => rfl
                  | false => exact absurd (Srv.runTask_isShutdown_of_ne hsd h) htt
                rw [Srv.runTask_down (v := { a with tasks := ts }) htt this]; exact g1
          · rw [e3, e4]
            refine ⟨h2.1, ?_⟩
            intro s hm
            rcases List.mem_append.1 hm with hm | hm
            · exact h2.2 s hm
            · cases op <;> simp [Srv.posted] at hm
              obtain ⟨-, rfl, rfl⟩ := hm
              exact hu s (by simp)
    exact key ops _ _ hu h0 ⟨rfl, by simp [Srv.init]⟩
  have hrun0 : v0.isShutdown = false := by
    cases h : v0.isShutdown with
    | false => rfl
    | true =>
      obtain ⟨g, -⟩ := C31_nothing_after_shutdown env v0 v ⟨w, ops, h0⟩ h (.addSession u s :: List.replicate n .runTask) (by simpa [Srv.run] using hr)
      rw [g] at hd; cases hd
  have hadd : v0.step env (.addSession u s) = .ret { v0 with tasks := v0.tasks ++ [.addSession u s] } := by
    simp only [Srv.step]; rw [if_neg (by rw [hrun0]; simp)]
  rw [hadd, CM.ret_bind] at hr
  obtain ⟨v', g1, g2, g3⟩ := run_tasks env n { v0 with tasks := v0.tasks ++ [.addSession u s] }
  rw [g1] at hr
  injection hr with hr
  subst hr
  rw [ht] at g2
  simp only at g2 g3
  have hlen : (v0.tasks ++ [STask.addSession u s]).take n = v0.tasks ++ [STask.addSession u s] := by
    apply List.take_of_length_le
    have := congrArg List.length g2
    simp only [List.length_nil, List.length_drop] at this
    omega
  rw [hlen] at g3
  apply handledBy_of_lookup hd
  rw [g3] at hd ⊢
  simp only [List.foldl_append, List.foldl_cons, List.foldl_nil] at hd ⊢
  have hkey : ∀ (l : List STask) (a : Srv W), (l.foldl Srv.runTask a).isShutdown = false → a.sessions.lookup u = none →
      (∀ s, STask.addSession u s ∉ l) → (l.foldl Srv.runTask a).sessions.lookup u = none := by
    intro l
    induction l with
    | nil => intro a _ h _; exact h
    | cons t l ihl =>
      intro a h1 h2 h3
      simp only [List.foldl_cons] at h1 ⊢
      have hm : ∀ (l : List STask) (a : Srv W), (l.foldl Srv.runTask a).isShutdown = false → a.isShutdown = false := by
        intro l
        induction l with
        | nil => intro a h; exact h
        | cons t l ih2 => intro a h; exact Srv.runTask_sessions_running (ih2 _ h)
      refine ihl _ h1 ?_ (fun s hmm => h3 s (by simp [hmm]))
      rw [runTask_lookup _ _ _ (hm l _ h1), h2]
      cases t with
      | addSession u' s' =>
        simp only
        rw [if_neg]
        rintro rfl
        exact h3 s' (by simp)
      | _ => rfl
  rw [runTask_lookup _ _ _ hd, hkey _ _ (Srv.runTask_sessions_running hd) hinv.1 hinv.2]
  simp

/-- C30, what happens instead of replacement: the session that handles a unit's requests keeps doing so, whatever is
added later, until the channel is shut down. -/
theorem C30_first_registration_stays_partial (env : ServerEnv W) (v v' : Srv W) (u : UInt8) (s : SessId) (h : v.sessions.lookup u = some s)
    (ops : List Op) (hr : v.run env ops = .ret v') (hd : v'.isShutdown = false) : HandledBy env v' u s := by
  apply handledBy_of_lookup hd
  induction ops generalizing v with
  | nil => injection hr with hr; subst hr; exact h
  | cons op ops ih =>
    simp only [Srv.run] at hr
    cases hs : v.step env op with
    | ub => rw [hs] at hr; cases hr
    | ret v1 =>
      rw [hs] at hr
      simp only [CM.ret_bind] at hr
      refine ih v1 ?_ hr
      rcases Srv.step_ctl hs with ⟨t, ts, rfl, htk, rfl⟩ | ⟨e1, e2, e3, e4, -⟩
      · cases hsd : ({ v with tasks := ts }.runTask t).isShutdown with
        | false => rw [runTask_lookup _ _ _ hsd]; simp only [h]
        | true =>
          exfalso
          have mono : ∀ (ops : List Op) (a b : Srv W), a.isShutdown = true → a.run env ops = .ret b → b.isShutdown = true := by
            intro ops
            induction ops with
            | nil => intro a b h1 h2; injection h2 with h2; subst h2; exact h1
            | cons op ops ih2 =>
              intro a b h1 h2
              simp only [Srv.run] at h2
              cases hs : a.step env op with
              | ub => rw [hs] at h2; cases h2
              | ret a1 =>
                rw [hs] at h2
                simp only [CM.ret_bind] at h2
                refine ih2 a1 b ?_ h2
                rcases Srv.step_ctl hs with ⟨t, ts, rfl, htk, rfl⟩ | ⟨e1, -⟩
                · exact Srv.runTask_shutdown _ (by simpa using h1)
                · rw [e1, h1]
          rw [mono ops _ _ hsd hr] at hd; cases hd
      · rw [e3, h]

/-! ### Concrete cases (see also the end of Props/Server.lean) -/

/-- Frames arriving in one read on a fresh connection are processed one after the other. -/
theorem receive_fresh (env : ServerEnv W) (v : Srv W) (c : ConnId) (mem : Vector UInt8 260) (hn : v.listeners.lookup c = none)
    (msgs : List Mbap) (hm : ∀ m ∈ msgs, 1 ≤ m.data.length ∧ m.data.length ≤ 253) :
    ∃ p, v.run env [.opened c mem, .receive c (Spec.streamOf (msgs.map frameOf))] =
      { v with listeners := Srv.setListener (v.listeners ++ [(c, Parser.init env.pol mem.toList)]) c p }.onMbaps env c msgs := by
  obtain ⟨p, hp⟩ := C15_framing_round_trip env.pol mem.toList (by simp) msgs hm [Spec.streamOf (msgs.map frameOf)] (by simp)
  simp only [Parser.feed] at hp
  cases hq : (Parser.init env.pol mem.toList).parse (Spec.streamOf (msgs.map frameOf)) with
  | ub => rw [hq] at hp; cases hp
  | ret x =>
    rw [hq] at hp
    simp only [CM.ret_bind, CM.pure_eq, List.append_nil] at hp
    injection hp with hp; injection hp with h1 h2
    refine ⟨p, ?_⟩
    have hl : (v.listeners ++ [(c, Parser.init env.pol mem.toList)]).lookup c = some (Parser.init env.pol mem.toList) := by
      rw [Srv.lookup_append_single, hn]; simp
    simp only [Srv.run, Srv.step, hn, Option.isSome_none, Bool.false_eq_true, if_false, CM.ret_bind, hl, hq]
    rw [h1, h2]
    cases ({ v with listeners := Srv.setListener (v.listeners ++ [(c, Parser.init env.pol mem.toList)]) c p }.onMbaps env c msgs) <;> rfl

theorem onMbap_ls (env : ServerEnv W) (v : Srv W) (ls : List (ConnId × Parser)) (c : ConnId) (m : Mbap) :
    { v with listeners := ls }.onMbap env c m = (v.onMbap env c m >>= fun v => .ret { v with listeners := ls }) := by
  rcases v with ⟨sd, st, ss, ts, l, w, n, lg⟩
  cases sd
  case true => rfl
  simp only [Srv.onMbap, Srv.emit]
  simp only [Bool.false_eq_true, if_false]
  cases ss.lookup m.unit with
  | none => rfl
  | some s =>
    simp only
    by_cases hl : m.data.length < 1
    · rw [if_pos hl, if_pos hl]; rfl
    · rw [if_neg hl, if_neg hl]
      cases getU8 m.data with
      | ub => rfl
      | ret x =>
        simp only [CM.ret_bind]
        cases Srv.kindOf x.1 with
        | none => rfl
        | some k =>
          simp only [Srv.processMessage]
          cases parseReq k m.data with
          | ub => rfl
          | ret y =>
            simp only [CM.ret_bind]
            cases y with
            | error e => cases e <;> rfl
            | ok q =>
              simp only [Srv.emit]
              cases (env.onRequest s k q w).2 with
              | error e => cases e <;> rfl
              | ok resp => rfl

theorem onMbaps_ls (env : ServerEnv W) (ls : List (ConnId × Parser)) (c : ConnId) (ms : List Mbap) : ∀ v : Srv W,
    { v with listeners := ls }.onMbaps env c ms = (v.onMbaps env c ms >>= fun v => .ret { v with listeners := ls }) := by
  induction ms with
  | nil => intro v; rfl
  | cons m ms ih =>
    intro v
    simp only [Srv.onMbaps]
    rw [onMbap_ls]
    cases v.onMbap env c m with
    | ub => rfl
    | ret v1 => simp only [CM.ret_bind]; exact ih v1

/- C22, C23, C34: a reachable state after garbage on connection 6 and two pipelined requests on connection 5. -/
example : ∃ v, SReach (demo 0) v ∧ v.log = [.serverStart,
    .mbap 5 (demoRead 1), .request 0 .readHoldingRegisters ⟨16, 2⟩, .send 5 [1, 2, 0, 0, 0, 7, 1, 3, 4, 0, 0, 0, 0],
    .mbap 5 (demoRead 1), .request 0 .readHoldingRegisters ⟨16, 2⟩, .send 5 [1, 2, 0, 0, 0, 7, 1, 3, 4, 0, 1, 0, 1]] := by
  obtain ⟨p, hp⟩ := receive_fresh (demo 0) demoSrv 5 (Vector.replicate 260 0) rfl [demoRead 1, demoRead 1] (by simp [demoRead])
  obtain ⟨v, hv, -⟩ := Srv.onMbaps_reacts (demo 0) 5 [demoRead 1, demoRead 1]
    { demoSrv with listeners := Srv.setListener (demoSrv.listeners ++ [(5, Parser.init (demo 0).pol (Vector.replicate 260 (0 : UInt8)).toList)]) 5 p }
  refine ⟨v, ⟨0, demoOps ++ [.opened 5 (Vector.replicate 260 0), .receive 5 (Spec.streamOf ([demoRead 1, demoRead 1].map frameOf))], ?_⟩, ?_⟩
  · rw [Srv.run_append, show (Srv.init 0).run (demo 0) demoOps = .ret demoSrv from rfl, CM.ret_bind, hp, hv]
  · generalize Srv.setListener (demoSrv.listeners ++ [(5, Parser.init (demo 0).pol (Vector.replicate 260 (0 : UInt8)).toList)]) 5 p = ls at hv
    have h1 : ∀ ls, logOf (Srv.onMbaps (demo 0) { demoSrv with listeners := ls } 5 [demoRead 1, demoRead 1]) = some [.serverStart,
        .mbap 5 (demoRead 1), .request 0 .readHoldingRegisters ⟨16, 2⟩, .send 5 [1, 2, 0, 0, 0, 7, 1, 3, 4, 0, 0, 0, 0],
        .mbap 5 (demoRead 1), .request 0 .readHoldingRegisters ⟨16, 2⟩, .send 5 [1, 2, 0, 0, 0, 7, 1, 3, 4, 0, 1, 0, 1]] := by
      intro ls
      rw [onMbaps_ls]
      have h0 : logOf (Srv.onMbaps (demo 0) demoSrv 5 [demoRead 1, demoRead 1]) = some [.serverStart,
        .mbap 5 (demoRead 1), .request 0 .readHoldingRegisters ⟨16, 2⟩, .send 5 [1, 2, 0, 0, 0, 7, 1, 3, 4, 0, 0, 0, 0],
        .mbap 5 (demoRead 1), .request 0 .readHoldingRegisters ⟨16, 2⟩, .send 5 [1, 2, 0, 0, 0, 7, 1, 3, 4, 0, 1, 0, 1]] := by decide +kernel
      cases hx : Srv.onMbaps (demo 0) demoSrv 5 [demoRead 1, demoRead 1] with
      | ub => rw [hx] at h0; cases h0
      | ret v => rw [hx] at h0; exact h0
    have h2 := h1 ls
    rw [hv] at h2
    injection h2

/- C31: shutdown of the demo server, called twice. -/
example : logOf (demoSrv.run (demo 0) [.shutdown, .shutdown, .addSession 9 0, .runTask, .runTask, .runTask, .start, .runTask]) =
    some [.serverStart, .serverShutdown, .sessionShutdown 0, .sessionShutdown 1, .sessionShutdown 2, .sessionShutdown 3] := by decide +kernel

/- C30: a new unit is added and used. -/
example : Unused 9 demoOps := by simp [Unused, demoOps]
example : logOf ((Srv.init 0).run (demo 0) (demoOps ++ .addSession 9 0 :: List.replicate 3 .runTask)) = some [.serverStart] := by decide +kernel

/-- C30 is violated: a second session added for unit 1 does not replace the first. -/
theorem C30_violated : ¬ C30_Statement := by
  intro h
  have h1 := h Nat (demo 0) 0 demoOps 1 1 1 demoSrv rfl rfl rfl 5 (demoRead 1) .readHoldingRegisters ⟨16, 2⟩ rfl ⟨⟨by decide, by decide⟩, rfl⟩
  obtain ⟨sent, v', h2, -, h3⟩ := h1
  have h4 : logOf (demoSrv.onMbap (demo 0) 5 (demoRead 1)) = some v'.log := by rw [h2]; rfl
  rw [h3] at h4
  have h5 : logOf (demoSrv.onMbap (demo 0) 5 (demoRead 1)) = some [.serverStart, .mbap 5 (demoRead 1),
    .request 0 .readHoldingRegisters ⟨16, 2⟩, .send 5 [1, 2, 0, 0, 0, 7, 1, 3, 4, 0, 0, 0, 0]] := by decide +kernel
  rw [h5] at h4
  simp [demoSrv] at h4

/-! ### C32 -/

/-- Responses that carry a byte count. -/
def IsRead : Kind → Prop
  | .readCoils | .readDiscreteInputs | .readHoldingRegisters | .readInputRegisters => True
  | _ => False

/-- C32. Whatever the session answers, the frame sent is decodable (the byte count of a read response equals the number of
bytes that follow) and does not depend on what was in the memory of the response buffer before. -/
def C32_Statement : Prop := ∀ (W : Type) (env : ServerEnv W) (v : Srv W) (c : ConnId) (m : Mbap) (s : SessId), Reaches v m s →
  ∀ (k : Kind) (r : Req k), Spec.Denotes k m.data r → ∀ resp, (env.onRequest s k r v.world).2 = .ok resp →
  ∃ pdu, (IsRead k → ∃ body : List UInt8, pdu = Spec.fc k :: UInt8.ofNat body.length :: body) ∧
    ∀ junk, Handles { env with junk := junk } v c m s k r [.send c (frameOf ⟨m.unit, m.tid, pdu⟩).bytes]

/-- C32, what holds: responses that fit a PDU (at most 2008 bits, at most 125 registers) are encoded as prescribed,
whatever the buffer contained. -/
theorem C32_fitting_responses_partial (env : ServerEnv W) (v : Srv W) (c : ConnId) (m : Mbap) (s : SessId) (hs : Reaches v m s)
    (k : Kind) (r : Req k) (hd : Spec.Denotes k m.data r) (resp : Resp k) (hresp : (env.onRequest s k r v.world).2 = .ok resp)
    (p : List UInt8) (hp : Spec.ResponsePdu k resp p) (hl : p.length ≤ 253) (junk : Nat → Vector UInt8 260) :
    Handles { env with junk := junk } v c m s k r [.send c (frameOf ⟨m.unit, m.tid, p⟩).bytes] := by
  obtain ⟨pdu, h1, h2⟩ := C24_request_reaches_session { env with junk := junk } v c m s hs k r hd resp hresp
  rw [← h2 p hp hl]; exact h1

/-- The size condition of the previous theorem in terms of the number of values. -/
theorem responsePdu_length {k : Kind} {resp : Resp k} {p : List UInt8} (hp : Spec.ResponsePdu k resp p) :
    p.length = match k, resp with
      | .readCoils, r => 2 + (r.length + 7) / 8
      | .readDiscreteInputs, r => 2 + (r.length + 7) / 8
      | .readHoldingRegisters, r => 2 + 2 * r.length
      | .readInputRegisters, r => 2 + 2 * r.length
      | _, _ => 5 := by
  cases k
  case readCoils => obtain ⟨b, hb, rfl⟩ := hp; simp [hb.length_eq, Spec.bytesFor]; omega
  case readDiscreteInputs => obtain ⟨b, hb, rfl⟩ := hp; simp [hb.length_eq, Spec.bytesFor]; omega
  case readHoldingRegisters => cases hp; simp [regBytes_length]; omega
  case readInputRegisters => cases hp; simp [regBytes_length]; omega
  all_goals (cases hp; rfl)

/-- Writing registers into too little room. -/
theorem writeRegs_overflow (vs : List UInt16) (n : Nat) : ∀ (w : WSeq), w.rest.length = 2 * n + 1 → n ≤ vs.length →
    writeRegs vs w = w.put (Spec.regBytes (vs.take n)) := by
  intro w h1 h2
  have hfull : ∀ (vs : List UInt16) (w : WSeq), w.rest.length = 1 → writeRegs vs w = w := by
    intro vs
    induction vs with
    | nil => intro w _; rfl
    | cons v vs ih =>
      intro w hw
      rcases w with ⟨d, r⟩
      match r, hw with
      | [x], _ => rw [writeRegs, show (⟨d, [x]⟩ : WSeq).writeU16 v = ⟨d, [x]⟩ from rfl]; exact ih _ rfl
  have happ : ∀ (a b : List UInt16) (w : WSeq), writeRegs (a ++ b) w = writeRegs b (writeRegs a w) := by
    intro a
    induction a with
    | nil => intro b w; rfl
    | cons v a ih => intro b w; exact ih b _
  conv => lhs; rw [← List.take_append_drop n vs, happ]
  have e : writeRegs (vs.take n) w = w.put (Spec.regBytes (vs.take n)) := writeRegs_eq _ _ (by simp; omega)
  rw [e]
  apply hfull
  simp [regBytes_length]; omega

theorem buildMbap_overflow (unit : UInt8) (tid : UInt16) (resp : List RegVal) (hn : 125 < resp.length) (mem : List UInt8)
    (hmem : mem.length = 260) : buildMbap unit tid (respMsg .readHoldingRegisters resp) ⟨[], mem⟩ =
      (frameOf ⟨unit, tid, 3 :: UInt8.ofNat (2 * resp.length) :: (Spec.regBytes ((resp.map (·.value)).take 125) ++ [mem[259]])⟩).bytes := by
  obtain ⟨payload, h1, h2, h3⟩ := buildMbap_eq unit tid (respMsg .readHoldingRegisters resp) mem hmem
    (respMsg_appends .readHoldingRegisters resp)
  have hlen : min (respMsg .readHoldingRegisters resp).length 253 = 253 := by simp only [respMsg, regsRespMsg]; omega
  rw [hlen] at h1 h2 h3
  have hrl : (Spec.regBytes ((resp.map (·.value)).take 125)).length = 250 := by
    rw [regBytes_length, List.length_take, List.length_map]; omega
  have hpay : payload = 3 :: UInt8.ofNat (2 * resp.length) :: (Spec.regBytes ((resp.map (·.value)).take 125) ++ [mem[259]]) := by
    rw [h3]
    simp only [respMsg, regsRespMsg]
    have hr0 : (mem.drop 7).length = 253 := by rw [List.length_drop, hmem]
    generalize hh : hdr tid 0 (UInt16.ofNat (253 + 1)) unit = hd
    have hdl : hd.length = 7 := by rw [← hh]; exact hdr_length _ _ _ _
    have e1 : (⟨hd, mem.drop 7⟩ : WSeq).writeU8 3 = (⟨hd, mem.drop 7⟩ : WSeq).put [3] := WSeq.writeU8_eq _ _ (by simp only; omega)
    have e2 : ((⟨hd, mem.drop 7⟩ : WSeq).put [3]).writeU8 (UInt8.ofNat (2 + resp.length * 2 - 2)) =
        (⟨hd, mem.drop 7⟩ : WSeq).put ([3] ++ [UInt8.ofNat (2 + resp.length * 2 - 2)]) := WSeq.put_writeU8 _ _ _ (by simp only [List.length_singleton]; omega)
    rw [e1, e2, writeRegs_overflow _ 125 _ (by rw [WSeq.put_rest_length]; simp only [List.length_append, List.length_singleton]; omega)
      (by rw [List.length_map]; omega), WSeq.put_put]
    simp only [WSeq.put, WSeq.mem]
    rw [List.append_assoc, List.drop_append_of_le_length (by omega), List.drop_of_length_le (by omega), List.nil_append]
    rw [show 2 + resp.length * 2 - 2 = 2 * resp.length by omega]
    have hl2 : (([3] : List UInt8) ++ [UInt8.ofNat (2 * resp.length)] ++ Spec.regBytes ((resp.map (fun x : RegVal => x.value)).take 125)).length = 252 := by
      simp only [List.length_append, List.length_singleton, hrl]
    rw [List.take_append, hl2, List.take_of_length_le (by omega), List.drop_drop]
    have : (mem.drop (7 + 252)) = [mem[259]] := by
      rw [List.drop_eq_getElem_cons (by omega), List.drop_of_length_le (by omega)]
    rw [this]
    rfl
  rw [h1, hpay, frame_bytes]
  simp only [Spec.frameOf, List.length_cons, List.length_append, List.length_nil, hrl]

/-- C32, the defect in general: a session that answers a register read with more than 125 registers makes the server send
the first 125 of them, a byte count announcing all of them (modulo 256), and one byte of leftover memory. -/
theorem C32_oversized_registers_leak (env : ServerEnv W) (v : Srv W) (c : ConnId) (m : Mbap) (s : SessId) (hs : Reaches v m s)
    (r : ReadReq) (hd : Spec.Denotes .readHoldingRegisters m.data r) (resp : List RegVal) (hn : 125 < resp.length)
    (hresp : (env.onRequest s .readHoldingRegisters r v.world).2 = .ok resp) :
    Handles env v c m s .readHoldingRegisters r [.send c (frameOf ⟨m.unit, m.tid,
      3 :: UInt8.ofNat (2 * resp.length) :: (Spec.regBytes ((resp.map (·.value)).take 125) ++ [(env.junk v.nsend)[259]])⟩).bytes] := by
  have hp := (C02_accepts_iff_denotes .readHoldingRegisters m.data r).2 hd
  refine ⟨((v.emit (.mbap c m)).called env s .readHoldingRegisters r).sendMessage env c m.unit m.tid (respMsg .readHoldingRegisters resp), ?_, rfl, ?_⟩
  · rw [onMbap_dispatch env c hs (denotes_head hd), Srv.processMessage_ok _ _ _ _ _ _ _ hp]
    simp only [Srv.emit_world, hresp]
  · have hb := buildMbap_overflow m.unit m.tid resp hn (env.junk v.nsend).toList (by simp)
    rw [show (env.junk v.nsend).toList[259] = (env.junk v.nsend)[259] from by simp] at hb
    rw [← hb]
    simp [Srv.sendMessage, Srv.called, Srv.emit]

/-- C32 is violated: session 3 of the demo answers with 126 registers; the last byte sent is leftover memory. -/
theorem C32_violated : ¬ C32_Statement := by
  intro h
  obtain ⟨pdu, -, h2⟩ := h Nat (demo 0) demoSrv 5 (demoRead 4) 3 ⟨rfl, rfl⟩ .readHoldingRegisters ⟨16, 2⟩
    ⟨⟨by decide, by decide⟩, rfl⟩ _ rfl
  have key : ∀ b, logOf (demoSrv.onMbap (demo b) 5 (demoRead 4)) = some ([.serverStart] ++ ([.mbap 5 (demoRead 4), .request 3 .readHoldingRegisters ⟨16, 2⟩] ++
      [.send 5 (frameOf ⟨4, 0x0102, pdu⟩).bytes])) := by
    intro b
    obtain ⟨v', h3, -, h4⟩ := h2 (demo b).junk
    have : logOf (demoSrv.onMbap (demo b) 5 (demoRead 4)) = some v'.log := by
      rw [show demo b = { demo 0 with junk := (demo b).junk } from rfl, h3]; rfl
    rw [this, h4]; rfl
  have h0 := key 0xAA
  rw [← key 0xBB] at h0
  revert h0
  decide +kernel

/- C32: the response of session 0 fits. -/
example : ∃ p, Spec.ResponsePdu .readHoldingRegisters (Spec.labelRegs 16 [5, 6]) p ∧ p.length ≤ 253 := ⟨_, rfl, by decide⟩
/- C32: session 3 answers with more than 125 registers. -/
example : Reaches demoSrv (demoRead 4) 3 ∧ Spec.Denotes .readHoldingRegisters (demoRead 4).data ⟨16, 2⟩ ∧
    ∃ resp, ((demo 7).onRequest 3 .readHoldingRegisters ⟨16, 2⟩ 0).2 = .ok resp ∧ resp.length = 126 :=
  ⟨⟨rfl, rfl⟩, ⟨⟨by decide, by decide⟩, rfl⟩, _, rfl, by decide +kernel⟩

end Props

end Modbus
