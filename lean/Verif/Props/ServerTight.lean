import Verif.Props.ServerLife
import Verif.Lemmas.ServerTrace

/-!
Further parts of C24-C28, C30, C31 and C70: what the calls `start`, `add_session` and `shutdown` of a server channel lead
to in every history, stated with the calls made (not with the state of the channel): a call takes effect once the strand
has run as many tasks as were posted before it, and one more.
-/

namespace Modbus

open Spec

variable {W : Type}

namespace Srv

/-- Calls of the API, each of which posts at most one task. -/
def isCall : Op → Bool
  | .start | .shutdown | .addSession .. => true
  | _ => false

/-- The strand runs a task. -/
def isRun : Op → Bool
  | .runTask => true
  | _ => false

theorem runTask_tasks (v : Srv W) (t : STask) : (v.runTask t).tasks = v.tasks := by
  cases t <;> simp only [runTask] <;> (repeat' split) <;> rfl

theorem posted_length (v : Srv W) (op : Op) : (v.posted op).length ≤ if isCall op then 1 else 0 := by
  cases op <;> simp only [posted, isCall] <;> (repeat' split) <;> simp_all

theorem step_tasks {env : ServerEnv W} {v v' : Srv W} {op : Op} (h : v.step env op = .ret v') (hr : isRun op = false) :
    v'.tasks = v.tasks ++ v.posted op := by
  rcases step_ctl h with ⟨t, ts, rfl, -, -⟩ | ⟨-, -, -, h, -⟩
  · cases hr
  · exact h

theorem run_cons {env : ServerEnv W} {v v' : Srv W} {op : Op} {ops : List Op} (h : v.run env (op :: ops) = .ret v') :
    ∃ v1, v.step env op = .ret v1 ∧ v1.run env ops = .ret v' := by
  simp only [run] at h
  cases hs : v.step env op with
  | ub => rw [hs] at h; cases h
  | ret v1 => rw [hs] at h; exact ⟨v1, rfl, h⟩

theorem run_split {env : ServerEnv W} {v v' : Srv W} {ops1 ops2 : List Op} (h : v.run env (ops1 ++ ops2) = .ret v') :
    ∃ v1, v.run env ops1 = .ret v1 ∧ v1.run env ops2 = .ret v' := by
  rw [run_append] at h
  cases hs : v.run env ops1 with
  | ub => rw [hs] at h; cases h
  | ret v1 => rw [hs] at h; exact ⟨v1, rfl, h⟩

theorem tasks_length {env : ServerEnv W} (ops : List Op) : ∀ (v v' : Srv W), v.run env ops = .ret v' →
    v'.tasks.length ≤ v.tasks.length + ops.countP isCall := by
  induction ops with
  | nil => intro v v' h; injection h with h; subst h; simp
  | cons op ops ih =>
    intro v v' h
    obtain ⟨v1, h1, h2⟩ := run_cons h
    have := ih v1 v' h2
    rw [List.countP_cons]
    rcases step_ctl h1 with ⟨t, ts, rfl, ht, rfl⟩ | ⟨-, -, -, h3, -⟩
    · rw [runTask_tasks] at this
      rw [ht]; simp only [List.length_cons] at *; omega
    · have hp := posted_length v op
      rw [h3, List.length_append] at this
      split at hp <;> simp_all <;> omega

/-- A task in the queue comes up when as many tasks have been run as are before it, and one more. -/
theorem comes_up {env : ServerEnv W} {t : STask} (ops : List Op) : ∀ (v v' : Srv W) (ts1 ts2 : List STask),
    v.run env ops = .ret v' → v.tasks = ts1 ++ t :: ts2 → ts1.length < ops.countP isRun →
    ∃ opsA opsB va rest, ops = opsA ++ .runTask :: opsB ∧ v.run env opsA = .ret va ∧ va.tasks = t :: rest ∧
      ({ va with tasks := rest }.runTask t).run env opsB = .ret v' := by
  induction ops with
  | nil => intro v v' ts1 ts2 _ _ hn; simp at hn
  | cons op ops ih =>
    intro v v' ts1 ts2 h ht hn
    obtain ⟨v1, h1, h2⟩ := run_cons h
    rw [List.countP_cons] at hn
    by_cases hop : op = .runTask
    · subst hop
      rcases step_ctl h1 with ⟨t', ts, -, htk, rfl⟩ | ⟨-, -, -, h3, -⟩
      · cases ts1 with
        | nil =>
          rw [ht] at htk; injection htk with e1 e2; subst e1
          exact ⟨[], ops, v, ts2, rfl, rfl, ht, by rw [e2]; exact h2⟩
        | cons t0 ts1 =>
          rw [ht] at htk; injection htk with e1 e2; subst e1
          obtain ⟨opsA, opsB, va, rest, i1, i2, i3, i4⟩ := ih _ v' ts1 ts2 h2 (by rw [runTask_tasks]; exact e2.symm)
            (by simp [isRun] at hn; omega)
          refine ⟨.runTask :: opsA, opsB, va, rest, by rw [i1]; rfl, ?_, i3, i4⟩
          simp only [run, h1, CM.ret_bind, i2]
      · simp only [step, ht] at h1
        cases ts1 with
        | nil =>
          simp only [List.nil_append] at h1
          injection h1 with h1
          exact ⟨[], ops, v, ts2, rfl, rfl, ht, by rw [h1]; exact h2⟩
        | cons t0 ts1 =>
          simp only [List.cons_append] at h1
          injection h1 with h1
          exfalso
          have e := congrArg (fun x : Srv W => x.tasks.length) h1
          simp only [runTask_tasks] at e
          rw [h3, ht] at e
          simp [posted] at e
    · have hr : isRun op = false := by cases op <;> simp_all [isRun]
      have h3 := step_tasks h1 hr
      obtain ⟨opsA, opsB, va, rest, i1, i2, i3, i4⟩ := ih v1 v' ts1 (ts2 ++ v.posted op) h2 (by rw [h3, ht]; simp) (by simpa [hr] using hn)
      refine ⟨op :: opsA, opsB, va, rest, by rw [i1]; rfl, ?_, i3, i4⟩
      simp only [run, h1, CM.ret_bind, i2]

theorem run_log {env : ServerEnv W} {v v' : Srv W} {ops : List Op} (h : v.run env ops = .ret v') : ∃ new, v'.log = v.log ++ new := by
  obtain ⟨bs, h1, -⟩ := run_blocks h
  exact ⟨_, h1⟩

theorem run_down {env : ServerEnv W} {v v' : Srv W} {ops : List Op} (h : v.run env ops = .ret v') (hd : v.isShutdown = true) : v'.isShutdown = true := by
  refine run_induction (P := fun v => v.isShutdown = true) ?_ hd h
  intro v op v' hv hs
  rcases step_ctl hs with ⟨t, ts, -, -, rfl⟩ | ⟨e, -⟩
  · exact runTask_shutdown (v := { v with tasks := ts }) t hv
  · rw [e]; exact hv

/-- As long as `shutdown` has not been called it is neither carried out nor posted. -/
theorem run_up {env : ServerEnv W} (ops : List Op) (hn : Op.shutdown ∉ ops) : ∀ (v v' : Srv W), v.run env ops = .ret v' →
    v.isShutdown = false ∧ STask.shutdown ∉ v.tasks → v'.isShutdown = false ∧ STask.shutdown ∉ v'.tasks := by
  induction ops with
  | nil => intro v v' h hv; injection h with h; subst h; exact hv
  | cons op ops ih =>
    intro v v' h hv
    obtain ⟨v1, h1, h2⟩ := run_cons h
    refine ih (fun hm => hn (by simp [hm])) v1 v' h2 ?_
    rcases step_ctl h1 with ⟨t, ts, -, htk, rfl⟩ | ⟨e1, -, -, e4, -⟩
    · rw [runTask_tasks]
      have ht : t ≠ .shutdown := by rintro rfl; exact hv.2 (by rw [htk]; simp)
      refine ⟨?_, fun hm => hv.2 (by rw [htk]; simp [hm])⟩
      cases hd : ({ v with tasks := ts }.runTask t).isShutdown with
      | false => rfl
      | true => exact absurd (runTask_isShutdown_of_ne hd hv.1) ht
    · rw [e1, e4]
      refine ⟨hv.1, ?_⟩
      intro hm
      rcases List.mem_append.1 hm with hm | hm
      · exact hv.2 hm
      · cases op <;> simp [posted] at hm
        exact hn (by simp)

/-- The session `s` is registered for unit `u`, or will be as soon as the tasks posted have been run. -/
def Booked (u : UInt8) (s : SessId) (v : Srv W) : Prop :=
  v.isShutdown = false ∧ (v.sessions.lookup u = some s ∨ (v.sessions.lookup u = none ∧ ∃ a b, v.tasks = a ++ .addSession u s :: b ∧
    STask.shutdown ∉ a ∧ ∀ s', STask.addSession u s' ∉ a))

theorem Booked.step {env : ServerEnv W} {u : UInt8} {s : SessId} {v v' : Srv W} {op : Op} (hb : Booked u s v) (h : v.step env op = .ret v') :
    Booked u s v' ∨ (v'.isShutdown = true ∧ SEv.sessionShutdown s ∈ v'.log) := by
  obtain ⟨hup, hb⟩ := hb
  rcases step_ctl h with ⟨t, ts, -, htk, rfl⟩ | ⟨e1, -, e3, e4, -⟩
  · by_cases ht : t = .shutdown
    · subst ht
      rcases hb with hb | ⟨-, a, b, hab, ha, -⟩
      · right
        obtain ⟨x, hx, rfl⟩ : ∃ x ∈ v.sessions, x.2 = s := by
          obtain ⟨l1, l2, hl, -⟩ := List.lookup_eq_some_iff.1 hb
          exact ⟨(u, s), by rw [hl]; simp, rfl⟩
        simp only [runTask]
        refine ⟨by split <;> rfl, ?_⟩
        split <;> simp only [List.mem_append, List.mem_map] <;> exact Or.inr ⟨x, hx, rfl⟩
      · exfalso
        rw [htk] at hab
        cases a with
        | nil => simp at hab
        | cons y a => injection hab with hy; subst hy; simp at ha
    · left
      have hup' : ({ v with tasks := ts }.runTask t).isShutdown = false := by
        cases hd : ({ v with tasks := ts }.runTask t).isShutdown with
        | false => rfl
        | true => exact absurd (runTask_isShutdown_of_ne hd hup) ht
      refine ⟨hup', ?_⟩
      rw [Props.runTask_lookup _ _ _ hup', runTask_tasks]
      rcases hb with hb | ⟨hb, a, b, hab, ha, ha'⟩
      · left; simp only [hb]
      · simp only [hb]
        rw [htk] at hab
        cases a with
        | nil => injection hab with hy; subst hy; left; simp
        | cons y a =>
          injection hab with hy hab; subst hy
          right
          refine ⟨?_, a, b, hab, fun hm => ha (by simp [hm]), fun s' hm => ha' s' (by simp [hm])⟩
          cases t with
          | addSession u' s' =>
            simp only
            rw [if_neg]
            rintro rfl
            exact ha' s' (by simp)
          | _ => rfl
  · left
    refine ⟨by rw [e1]; exact hup, ?_⟩
    rw [e3, e4]
    rcases hb with hb | ⟨hb, a, b, hab, ha, ha'⟩
    · exact Or.inl hb
    · exact Or.inr ⟨hb, a, b ++ v.posted op, by rw [hab]; simp, ha, ha'⟩

theorem Booked.run {env : ServerEnv W} {u : UInt8} {s : SessId} (ops : List Op) : ∀ (v v' : Srv W), Booked u s v → v.run env ops = .ret v' →
    Booked u s v' ∨ (v'.isShutdown = true ∧ SEv.sessionShutdown s ∈ v'.log) := by
  induction ops with
  | nil => intro v v' hb h; injection h with h; subst h; exact Or.inl hb
  | cons op ops ih =>
    intro v v' hb h
    obtain ⟨v1, h1, h2⟩ := run_cons h
    rcases hb.step h1 with hb | hb
    · exact ih v1 v' hb h2
    · obtain ⟨new, hn⟩ := run_log h2
      right; rw [hn]; exact ⟨run_down h2 hb.1, List.mem_append_left _ hb.2⟩

/-- No session is registered for `u`, and none is going to be. -/
def NotBooked (u : UInt8) (v : Srv W) : Prop := v.sessions.lookup u = none ∧ ∀ s, STask.addSession u s ∉ v.tasks

theorem NotBooked.run {env : ServerEnv W} {u : UInt8} (ops : List Op) : ∀ (a b : Srv W), Props.Unused u ops → a.run env ops = .ret b →
    NotBooked u a → NotBooked u b := by
  induction ops with
  | nil => intro a b _ h1 h2; injection h1 with h1; subst h1; exact h2
  | cons op ops ih =>
    intro a b hu h1 h2
    obtain ⟨a1, hs, h1⟩ := run_cons h1
    refine ih a1 b (fun s hm => hu s (by simp [hm])) h1 ?_
    rcases step_ctl hs with ⟨t, ts, rfl, htk, rfl⟩ | ⟨e1, e2, e3, e4, -⟩
    · obtain ⟨g1, g2⟩ := h2
      refine ⟨?_, by rw [runTask_tasks]; exact fun s hm => g2 s (by rw [htk]; simp [hm])⟩
      cases hsd : ({ a with tasks := ts }.runTask t).isShutdown with
      | false =>
        rw [Props.runTask_lookup _ _ _ hsd]
        simp only [g1]
        cases t with
        | addSession u' s' =>
          simp only
          rw [if_neg]
          rintro rfl
          exact g2 s' (by rw [htk]; simp)
        | _ => rfl
      | true =>
        by_cases htt : t = .shutdown
        · subst htt; simp [runTask]
        · have : a.isShutdown = true := by
            cases h : a.isShutdown with
            | true => rfl
            | false => exact absurd (runTask_isShutdown_of_ne hsd h) htt
          rw [runTask_down (v := { a with tasks := ts }) htt this]; exact g1
    · rw [NotBooked, e3, e4]
      refine ⟨h2.1, ?_⟩
      intro s hm
      rcases List.mem_append.1 hm with hm | hm
      · exact h2.2 s hm
      · cases op <;> simp [posted] at hm
        obtain ⟨-, rfl, rfl⟩ := hm
        exact hu s (by simp)

/-- The first `add_session` for a unit books it. -/
theorem booked_of_add {env : ServerEnv W} {w : W} {ops1 : List Op} {u : UInt8} {s : SessId} {v0 v1 : Srv W} (hu : Props.Unused u ops1)
    (hn : Op.shutdown ∉ ops1) (h0 : (Srv.init w).run env ops1 = .ret v0) (h1 : v0.step env (.addSession u s) = .ret v1) :
    Booked u s v1 ∧ STask.shutdown ∉ v1.tasks ∧ v1.tasks = v0.tasks ++ [.addSession u s] := by
  obtain ⟨g1, g2⟩ := NotBooked.run ops1 _ _ hu h0 ⟨rfl, by simp [Srv.init]⟩
  obtain ⟨g3, g4⟩ := run_up ops1 hn _ _ h0 ⟨rfl, by simp [Srv.init]⟩
  simp only [step, g3, Bool.false_eq_true, if_false] at h1
  injection h1 with h1; subst h1
  exact ⟨⟨by simp, Or.inr ⟨g1, v0.tasks, [], rfl, g4, g2⟩⟩, by simp [g4], rfl⟩

/-- Once the queue has been worked off so far, a booked session is registered. -/
theorem registered {env : ServerEnv W} {w : W} {ops1 ops2 : List Op} {u : UInt8} {s : SessId} {v : Srv W} (hu : Props.Unused u ops1)
    (hn1 : Op.shutdown ∉ ops1) (hn2 : Op.shutdown ∉ ops2) (hc : ops1.countP isCall < ops2.countP isRun)
    (h : (Srv.init w).run env (ops1 ++ .addSession u s :: ops2) = .ret v) :
    v.isShutdown = false ∧ STask.shutdown ∉ v.tasks ∧ v.sessions.lookup u = some s := by
  obtain ⟨v0, h0, h⟩ := run_split h
  obtain ⟨v1, h1, h2⟩ := run_cons h
  obtain ⟨hb, hq, htk⟩ := booked_of_add hu hn1 h0 h1
  obtain ⟨hd, hq'⟩ := run_up ops2 hn2 _ _ h2 ⟨hb.1, hq⟩
  refine ⟨hd, hq', ?_⟩
  have hlen := tasks_length ops1 _ _ h0
  obtain ⟨opsA, opsB, va, rest, rfl, i2, i3, i4⟩ := comes_up ops2 v1 v v0.tasks [] h2 htk (by simp [Srv.init] at hlen; omega)
  have hmono : ∀ {a b : Srv W} {ops : List Op}, a.run env ops = .ret b → b.isShutdown = false → a.isShutdown = false := by
    intro a b ops hr hb
    cases ha : a.isShutdown with
    | false => rfl
    | true => rw [run_down hr ha] at hb; cases hb
  have hda := hmono i4 hd
  have hva := runTask_sessions_running hda
  have hbv : Booked u s va := by
    rcases Booked.run opsA v1 va hb i2 with hb | hb
    · exact hb
    · have hva : va.isShutdown = false := hva
      rw [hva] at hb; cases hb.1
  have hl : ({ va with tasks := rest }.runTask (.addSession u s)).sessions.lookup u = some s := by
    rw [Props.runTask_lookup _ _ _ hda]
    rcases hbv.2 with hb | ⟨hb, -⟩ <;> simp [hb]
  -- and stays registered
  have hstay : ∀ (ops : List Op) (a b : Srv W), a.sessions.lookup u = some s → a.run env ops = .ret b → b.isShutdown = false →
      b.sessions.lookup u = some s := by
    intro ops
    induction ops with
    | nil => intro a b hb h _; injection h with h; subst h; exact hb
    | cons op ops ih =>
      intro a b hb h hd
      obtain ⟨a1, e1, e2⟩ := run_cons h
      have hd1 := hmono e2 hd
      refine ih a1 b ?_ e2 hd
      rcases step_ctl e1 with ⟨t, ts, -, htk, rfl⟩ | ⟨g1, -, g3, g4, -⟩
      · rw [Props.runTask_lookup _ _ _ hd1]; simp only [hb]
      · rw [g3]; exact hb
  exact hstay opsB _ _ hl i4 hd

/-- The next thing in `l`, if any, is neither a call of a session nor a frame sent. -/
def NoAnswer (l : List SEv) : Prop := ∀ e l', l = e :: l' → (∀ s k r, e ≠ .request s k r) ∧ ∀ c b, e ≠ .send c b

theorem noAnswer_blocks {env : ServerEnv W} {bs : List (List SEv)} (h : ∀ b ∈ bs, Block env b) : NoAnswer bs.flatten := by
  cases bs with
  | nil => intro e l' h; simp at h
  | cons b bs =>
    intro e l' he
    rw [List.flatten_cons] at he
    cases h b (by simp) with
    | other e' h1 h2 h3 =>
      simp only [List.cons_append, List.nil_append] at he
      injection he with he; subst he
      exact ⟨fun s k r => h2 s k r, fun c b => h3 c b⟩
    | reaction c m calls answers hc ha =>
      simp only [List.cons_append] at he
      injection he with he; subst he
      exact ⟨by simp, by simp⟩

theorem NoAnswer.append {l1 l2 : List SEv} (h1 : NoAnswer l1) (h2 : NoAnswer l2) : NoAnswer (l1 ++ l2) := by
  cases l1 with
  | nil => exact h2
  | cons e l1 =>
    intro e' l' he
    simp only [List.cons_append] at he
    injection he with he he'; subst he
    exact h1 e l1 rfl

/-- Where in a list of reactions a message is taken. -/
theorem onMbaps_at {env : ServerEnv W} {c : ConnId} (ms : List Mbap) : ∀ (v v' : Srv W) (l1 : List SEv) (c' : ConnId) (m : Mbap) (l2 : List SEv),
    v.onMbaps env c ms = .ret v' → v'.log = v.log ++ (l1 ++ .mbap c' m :: l2) →
    ∃ va vb rest, c' = c ∧ va.log = v.log ++ l1 ∧ Same v va ∧ va.onMbap env c m = .ret vb ∧ v'.log = vb.log ++ rest ∧ NoAnswer rest ∧
      ∀ w, Traced env w v → Traced env w va := by
  induction ms with
  | nil =>
    intro v v' l1 c' m l2 h hl
    injection h with h; subst h
    have := congrArg List.length hl
    simp at this
  | cons m0 ms ih =>
    intro v v' l1 c' m l2 h hl
    obtain ⟨v1, h1, h2⟩ := onMbap_reacts env v c m0
    simp only [onMbaps, h1, CM.ret_bind] at h
    obtain ⟨b, hb1, -, rest0, rfl, hb3⟩ := h2.block
    obtain ⟨v'', h3, h4⟩ := onMbaps_reacts env c ms v1
    rw [h] at h3; injection h3 with h3; subst h3
    obtain ⟨bs, hbs1, hbs2, -⟩ := h4.blocks
    have hl' := hl
    rw [hbs1, hb1, List.append_assoc] at hl'
    have hl' := List.append_cancel_left hl'
    cases l1 with
    | nil =>
      simp only [List.cons_append, List.nil_append] at hl'
      injection hl' with e1 e2
      injection e1 with e1 e1'
      subst e1; subst e1'
      exact ⟨v, v1, bs.flatten, rfl, by simp, .refl v, h1, hbs1, noAnswer_blocks hbs2, fun _ h => h⟩
    | cons x l1 =>
      simp only [List.cons_append] at hl'
      injection hl' with e1 e2
      subst e1
      rcases List.append_eq_append_iff.1 e2 with ⟨a, g1, g2⟩ | ⟨a, g1, g2⟩
      · -- the message is among the later ones
        obtain ⟨va, vb, rest, i1, i2, i3, i4, i5, i6, i7⟩ := ih v1 v' a c' m l2 h (by rw [hbs1, g2])
        refine ⟨va, vb, rest, i1, ?_, h2.same.trans i3, i4, i5, i6, fun w hw => i7 w (hw.onMbap h1)⟩
        rw [i2, hb1, g1]; simp
      · cases a with
        | nil =>
          simp only [List.nil_append] at g2
          obtain ⟨va, vb, rest, i1, i2, i3, i4, i5, i6, i7⟩ := ih v1 v' [] c' m l2 h (by rw [hbs1, g2]; rfl)
          refine ⟨va, vb, rest, i1, ?_, h2.same.trans i3, i4, i5, i6, fun w hw => i7 w (hw.onMbap h1)⟩
          rw [i2, hb1]; simp at g1; simp [g1]
        | cons y a =>
          exfalso
          simp only [List.cons_append] at g2
          injection g2 with g2 g3
          subst g2
          exact hb3 c' m (by rw [g1]; simp)

/-- Where in a history a message is taken. -/
theorem run_at {env : ServerEnv W} (ops : List Op) : ∀ (v v' : Srv W) (l1 : List SEv) (c : ConnId) (m : Mbap) (l2 : List SEv),
    v.run env ops = .ret v' → v'.log = v.log ++ (l1 ++ .mbap c m :: l2) →
    ∃ (opsA opsB : List Op) (va va' vb : Srv W) (rest : List SEv), ops = opsA ++ opsB ∧ v.run env opsA = .ret va ∧ (va'.isShutdown = va.isShutdown ∧ va'.sessions = va.sessions) ∧ va'.log = v.log ++ l1 ∧
      va'.onMbap env c m = .ret vb ∧ v'.log = vb.log ++ rest ∧ NoAnswer rest ∧ ∀ w, Traced env w v → Traced env w va' := by
  induction ops with
  | nil =>
    intro v v' l1 c m l2 h hl
    injection h with h; subst h
    have := congrArg List.length hl
    simp at this
  | cons op ops ih =>
    intro v v' l1 c m l2 h hl
    obtain ⟨v1, h1, h2⟩ := run_cons h
    obtain ⟨bs, hb1, hb2⟩ := step_blocks h1
    obtain ⟨bs', hb1', hb2'⟩ := run_blocks h2
    have later : ∀ l1', v1.log ++ l1' = v.log ++ l1 → v'.log = v1.log ++ (l1' ++ .mbap c m :: l2) →
        ∃ (opsA opsB : List Op) (va va' vb : Srv W) (rest : List SEv), op :: ops = opsA ++ opsB ∧ v.run env opsA = .ret va ∧ (va'.isShutdown = va.isShutdown ∧ va'.sessions = va.sessions) ∧ va'.log = v.log ++ l1 ∧
          va'.onMbap env c m = .ret vb ∧ v'.log = vb.log ++ rest ∧ NoAnswer rest ∧ ∀ w, Traced env w v → Traced env w va' := by
      intro l1' e1 e2
      obtain ⟨opsA, opsB, va, va', vb, rest, i1, i2, i3, i4, i5, i6, i7, i8⟩ := ih v1 v' l1' c m l2 h2 e2
      exact ⟨op :: opsA, opsB, va, va', vb, rest, by rw [i1]; rfl, by simp only [run, h1, CM.ret_bind, i2], i3, by rw [i4, e1], i5, i6, i7, fun w hw => i8 w (hw.step h1)⟩
    have hl' := hl
    rw [hb1', hb1, List.append_assoc] at hl'
    have hl' := List.append_cancel_left hl'
    rcases List.append_eq_append_iff.1 hl' with ⟨a, g1, g2⟩ | ⟨a, g1, g2⟩
    · exact later a (by rw [hb1, g1]; simp) (by rw [hb1', g2])
    · cases a with
      | nil =>
        simp only [List.nil_append] at g2
        simp only [List.append_nil] at g1
        exact later [] (by rw [hb1, g1]; simp) (by rw [hb1', ← g2]; rfl)
      | cons y a =>
        simp only [List.cons_append] at g2
        injection g2 with g2 g3
        subst g2
        -- the message is taken in this step
        rcases step_cases h1 with ⟨t, ts, rfl, -, rfl⟩ | ⟨c1, d1, p1, p', ms, hop, hlk, hparse, hre⟩ | ⟨hx, -⟩
        · exfalso
          obtain ⟨es, e1, -, e3⟩ := runTask_blocks env { v with tasks := ts } t
          rw [e1] at hb1
          have := List.append_cancel_left hb1
          exact e3 c m (by rw [this, g1]; simp)
        · subst hop
          simp only [step, hlk, hparse, CM.ret_bind] at h1
          obtain ⟨va, vb, rest, i1, i2, i3, i4, i5, i6, i7⟩ := onMbaps_at ms _ v1 l1 c m a h1 (by rw [hb1, g1])
          subst i1
          refine ⟨[], .receive c d1 :: ops, v, va, vb, rest ++ bs'.flatten, rfl, rfl, ?_, i2, i4, by rw [hb1', i5]; simp, ?_, fun w hw => i7 w (hw.same rfl rfl)⟩
          · exact ⟨i3.1, i3.3⟩
          · exact i6.append (noAnswer_blocks hb2')
        · exfalso
          rw [hx] at hb1
          have := congrArg List.length hb1
          rw [g1] at this
          simp at this

/-- The server has been told to start, or will be as soon as the tasks posted have been run. -/
def Begun (v : Srv W) : Prop :=
  v.isShutdown = false ∧ (v.isStarted = true ∨ ∃ a b, v.tasks = a ++ .start :: b ∧ STask.shutdown ∉ a)

theorem Begun.step {env : ServerEnv W} {v v' : Srv W} {op : Op} (hb : Begun v) (h : v.step env op = .ret v') :
    Begun v' ∨ (v'.isShutdown = true ∧ SEv.serverShutdown ∈ v'.log) := by
  obtain ⟨hup, hb⟩ := hb
  rcases step_ctl h with ⟨t, ts, -, htk, rfl⟩ | ⟨e1, e2, -, e4, -⟩
  · cases t with
    | shutdown =>
      rcases hb with hb | ⟨a, b, hab, ha⟩
      · right
        simp [runTask, hb]
      · exfalso
        rw [htk] at hab
        cases a with
        | nil => simp at hab
        | cons y a => injection hab with hy; subst hy; simp at ha
    | start => left; simp [Begun, runTask, hup, emit]
    | addSession u s =>
      left
      refine ⟨by simp only [runTask]; (repeat' split) <;> simp [hup], ?_⟩
      rw [runTask_tasks]
      rcases hb with hb | ⟨a, b, hab, ha⟩
      · left; simp only [runTask]; (repeat' split) <;> exact hb
      · right
        rw [htk] at hab
        cases a with
        | nil => simp at hab
        | cons y a => injection hab with hy hab; exact ⟨a, b, hab, fun hm => ha (by simp [hm])⟩
  · left
    rw [Begun, e1, e2, e4]
    rcases hb with hb | ⟨a, b, hab, ha⟩
    · exact ⟨hup, Or.inl hb⟩
    · exact ⟨hup, Or.inr ⟨a, b ++ v.posted op, by rw [hab]; simp, ha⟩⟩

theorem Begun.run {env : ServerEnv W} (ops : List Op) : ∀ (v v' : Srv W), Begun v → v.run env ops = .ret v' →
    Begun v' ∨ (v'.isShutdown = true ∧ SEv.serverShutdown ∈ v'.log) := by
  induction ops with
  | nil => intro v v' hb h; injection h with h; subst h; exact Or.inl hb
  | cons op ops ih =>
    intro v v' hb h
    obtain ⟨v1, h1, h2⟩ := run_cons h
    rcases hb.step h1 with hb | hb
    · exact ih v1 v' hb h2
    · obtain ⟨new, hn⟩ := run_log h2
      right; rw [hn]; exact ⟨run_down h2 hb.1, List.mem_append_left _ hb.2⟩

theorem begun_of_start {env : ServerEnv W} {w : W} {ops1 : List Op} {v0 v1 : Srv W} (hn : Op.shutdown ∉ ops1)
    (h0 : (Srv.init w).run env ops1 = .ret v0) (h1 : v0.step env .start = .ret v1) : Begun v1 ∧ v1.tasks = v0.tasks ++ [.start] := by
  obtain ⟨g3, g4⟩ := run_up ops1 hn _ _ h0 ⟨rfl, by simp [Srv.init]⟩
  simp only [step, g3, Bool.false_eq_true, if_false] at h1
  injection h1 with h1; subst h1
  exact ⟨⟨by simp, Or.inr ⟨v0.tasks, [], rfl, g4⟩⟩, rfl⟩

/-- A call of `shutdown` is carried out when the tasks before it have been run. -/
theorem shutdown_carried_out {env : ServerEnv W} {w : W} {ops1 ops2 : List Op} {v : Srv W} (hc : ops1.countP isCall < ops2.countP isRun)
    (h : (Srv.init w).run env (ops1 ++ .shutdown :: ops2) = .ret v) : v.isShutdown = true := by
  obtain ⟨v0, h0, h⟩ := run_split h
  obtain ⟨v1, h1, h2⟩ := run_cons h
  have hlen := tasks_length ops1 _ _ h0
  injection h1 with h1; subst h1
  obtain ⟨opsA, opsB, va, rest, rfl, i2, i3, i4⟩ := comes_up ops2 _ v v0.tasks [] h2 rfl (by simp [Srv.init] at hlen; omega)
  refine run_down i4 ?_
  simp only [runTask]; split <;> rfl

end Srv

namespace Props

open Srv (isCall isRun NoAnswer Op)

/-! ### C31, C70 -/

/-- C31: a call of `shutdown` takes effect, whatever else is called and received: once the strand has run as many tasks as calls were
made before it, and one more, nothing happens in any continuation except that messages arrive; the user's program is not called
any more. -/
theorem C31_takes_effect (env : ServerEnv W) (w : W) (ops1 ops2 ops3 : List Op) (v v' : Srv W) (hc : ops1.countP isCall < ops2.countP isRun)
    (h : (Srv.init w).run env (ops1 ++ .shutdown :: ops2) = .ret v) (h' : v.run env ops3 = .ret v') :
    v'.world = v.world ∧ ∃ new, v'.log = v.log ++ new ∧ ∀ e ∈ new, ∃ c m, e = .mbap c m := by
  have := C31_nothing_after_shutdown env v v' ⟨w, _, h⟩ (Srv.shutdown_carried_out hc h) ops3 h'
  exact this.2.2

/-- C31: the first session added for a unit before the first `shutdown` is told to shut down, also if it was added so shortly before
that its registration had not been carried out when `shutdown` was called. -/
theorem C31_session_told (env : ServerEnv W) (w : W) (ops1 ops2 ops3 : List Op) (u : UInt8) (s : SessId) (v : Srv W) (hu : Unused u ops1)
    (hn1 : Op.shutdown ∉ ops1) (hc : (ops1 ++ .addSession u s :: ops2).countP isCall < ops3.countP isRun)
    (h : (Srv.init w).run env ((ops1 ++ .addSession u s :: ops2) ++ .shutdown :: ops3) = .ret v) : SEv.sessionShutdown s ∈ v.log := by
  have hd := Srv.shutdown_carried_out hc h
  rw [List.append_assoc] at h
  obtain ⟨v0, h0, h⟩ := Srv.run_split h
  obtain ⟨v1, h1, h2⟩ := Srv.run_cons h
  rcases Srv.Booked.run _ v1 v (Srv.booked_of_add hu hn1 h0 h1).1 h2 with hb | hb
  · rw [hb.1] at hd; cases hd
  · exact hb.2

/-- C31: if `start` was called before the first `shutdown`, the listening server is started and, later, told to shut down, once. -/
theorem C31_server_told (env : ServerEnv W) (w : W) (ops1 ops2 ops3 : List Op) (v : Srv W) (hn1 : Op.shutdown ∉ ops1)
    (hc : (ops1 ++ .start :: ops2).countP isCall < ops3.countP isRun)
    (h : (Srv.init w).run env ((ops1 ++ .start :: ops2) ++ .shutdown :: ops3) = .ret v) :
    v.log.count .serverShutdown = 1 ∧ ∃ l1 l2, v.log = l1 ++ .serverShutdown :: l2 ∧ SEv.serverStart ∈ l1 := by
  have hr : SReach env v := ⟨w, _, h⟩
  have hd := Srv.shutdown_carried_out hc h
  rw [List.append_assoc] at h
  obtain ⟨v0, h0, h⟩ := Srv.run_split h
  obtain ⟨v1, h1, h2⟩ := Srv.run_cons h
  rcases Srv.Begun.run _ v1 v (Srv.begun_of_start hn1 h0 h1).1 h2 with hb | hb
  · rw [hb.1] at hd; cases hd
  · refine ⟨?_, ?_⟩
    · have := C31_server_shutdown_at_most_once env v hr
      have := List.count_pos_iff.2 hb.2
      omega
    · rcases C31_shutdown_once env v hr with ⟨e, -⟩ | ⟨-, v3, -, -, -, hno, -, after, e, ha⟩
      · rw [hd] at e; cases e
      · by_cases hs : SEv.serverStart ∈ v3.log
        · rw [if_pos hs] at e
          exact ⟨v3.log, _, by rw [e]; simp; rfl, hs⟩
        · rw [if_neg hs] at e
          have hm := hb.2
          rw [e] at hm
          simp only [List.nil_append, List.mem_append, List.mem_map] at hm
          rcases hm with (hm | ⟨x, -, hx⟩) | hm
          · exact absurd hm hno
          · cases hx
          · obtain ⟨c, m, hx⟩ := ha _ hm; cases hx

/-- C70: a call of `start` takes effect: as long as `shutdown` is not called the listening server is started once the strand has run as
many tasks as calls were made before it, and one more. -/
theorem C70_started (env : ServerEnv W) (w : W) (ops1 ops2 : List Op) (v : Srv W) (hn1 : Op.shutdown ∉ ops1) (hn2 : Op.shutdown ∉ ops2)
    (hc : ops1.countP isCall < ops2.countP isRun) (h : (Srv.init w).run env (ops1 ++ .start :: ops2) = .ret v) : SEv.serverStart ∈ v.log := by
  have hr : SReach env v := ⟨w, _, h⟩
  obtain ⟨v0, h0, h⟩ := Srv.run_split h
  obtain ⟨v1, h1, h2⟩ := Srv.run_cons h
  obtain ⟨hb, htk⟩ := Srv.begun_of_start hn1 h0 h1
  have hlen := Srv.tasks_length ops1 _ _ h0
  obtain ⟨opsA, opsB, va, rest, rfl, i2, i3, i4⟩ := Srv.comes_up ops2 v1 v v0.tasks [] h2 htk (by simp [Srv.init] at hlen; omega)
  have g := Srv.run_up ops1 hn1 _ _ h0 ⟨rfl, by simp [Srv.init]⟩
  have hva := (Srv.run_up opsA (fun hm => hn2 (by simp [hm])) _ _ i2 ⟨hb.1, by rw [htk]; simp [g.2]⟩).1
  obtain ⟨new, hl⟩ := Srv.run_log i4
  rw [hl]
  simp [Srv.runTask, hva, Srv.emit]

/-! ### C24-C28 in every history -/

/-- What a session registered for the unit of message `m` makes of it.  `before` and `after` are what happened before and after the
arrival of the message; the user's state is what the calls made before have left. -/
structure Served (env : ServerEnv W) (w : W) (s : SessId) (before : List SEv) (c : ConnId) (m : Mbap) (after : List SEv) : Prop where
  /-- C24: a conformant request is given to the session, and its answer is sent. -/
  answered : ∀ (k : Kind) (r : Req k), Spec.Denotes k m.data r → ∀ resp, (env.onRequest s k r (played env.onRequest w before)).2 = .ok resp →
    ∃ pdu rest, after = .request s k r :: .send c (Spec.frameOf ⟨m.unit, m.tid, pdu⟩).bytes :: rest ∧ NoAnswer rest ∧
      ∀ p, Spec.ResponsePdu k resp p → p.length ≤ 253 → pdu = p
  /-- C28: so is a Modbus exception it fails with. -/
  failed : ∀ (k : Kind) (r : Req k), Spec.Denotes k m.data r → ∀ t, (env.onRequest s k r (played env.onRequest w before)).2 = .error (.modbus t) →
    ∃ rest, after = .request s k r :: .send c (Spec.frameOf ⟨m.unit, m.tid, [Spec.fc k ||| 0x80, headerCode t]⟩).bytes :: rest ∧ NoAnswer rest
  /-- C28: any other failure is not. -/
  kept : ∀ (k : Kind) (r : Req k), Spec.Denotes k m.data r → ∀ e, (env.onRequest s k r (played env.onRequest w before)).2 = .error e →
    (∀ t, e ≠ .modbus t) → ∃ rest, after = .request s k r :: rest ∧ NoAnswer rest
  /-- C27: a request out of range is refused. -/
  refused : ∀ k, Spec.OutOfRange k m.data → ∃ rest, after = .send c (Spec.frameOf ⟨m.unit, m.tid, [Spec.fc k ||| 0x80, 3]⟩).bytes :: rest ∧ NoAnswer rest
  /-- C26: so is an unsupported function. -/
  unsupported : ∀ fc rest', m.data = fc :: rest' → (∀ k, fc ≠ Spec.fc k) →
    ∃ rest, after = .send c (Spec.frameOf ⟨m.unit, m.tid, [fc ||| 0x80, 1]⟩).bytes :: rest ∧ NoAnswer rest
  /-- C25: anything else is ignored. -/
  ignored : (m.data = [] ∨ ∃ k rest', m.data = Spec.fc k :: rest' ∧ ¬ Spec.OutOfRange k m.data ∧ ∀ r, ¬ Spec.Denotes k m.data r) → NoAnswer after

/-- C24-C28 and C30 in every history: the first session `s` added for a unit serves every message for that unit which arrives once the
strand has run as many tasks as calls were made before, and one more, until `shutdown` is called, whatever else is called and
received, on however many connections. -/
theorem C24_served (env : ServerEnv W) (w : W) (ops1 ops2 ops3 : List Op) (u : UInt8) (s : SessId) (v2 v : Srv W) (hu : Unused u ops1)
    (hn1 : Op.shutdown ∉ ops1) (hn2 : Op.shutdown ∉ ops2) (hn3 : Op.shutdown ∉ ops3) (hc : ops1.countP isCall < ops2.countP isRun)
    (h2 : (Srv.init w).run env (ops1 ++ .addSession u s :: ops2) = .ret v2) (h : v2.run env ops3 = .ret v) (c : ConnId) (m : Mbap)
    (hm : m.unit = u) (l1 l2 : List SEv) (hl : v.log = v2.log ++ (l1 ++ .mbap c m :: l2)) : Served env w s (v2.log ++ l1) c m l2 := by
  obtain ⟨opsA, opsB, va, va', vb, rest, rfl, i2, i3, i4, i5, i6, i7, i8⟩ := Srv.run_at ops3 v2 v l1 c m l2 h hl
  have hreg := Srv.registered (ops2 := ops2 ++ opsA) hu hn1 (fun hx => by
    rcases List.mem_append.1 hx with hx | hx
    · exact hn2 hx
    · exact hn3 (by simp [hx])) (by rw [List.countP_append]; omega) (v := va) (s := s) (w := w) (env := env) (by
      rw [← List.cons_append, ← List.append_assoc, Srv.run_append, h2]; exact i2)
  have hre : Reaches va' m s := ⟨by rw [i3.1]; exact hreg.1, by rw [i3.2, hm]; exact hreg.2.2⟩
  have hw := (i8 w (Srv.Traced.run _ (Srv.traced_init env w) h2)).world
  rw [i4] at hw
  have key : ∀ es, vb.log = va'.log ++ .mbap c m :: es → l2 = es ++ rest := by
    intro es he
    rw [he, i4, hl] at i6
    simp only [List.append_assoc, List.cons_append] at i6
    have := List.append_cancel_left (List.append_cancel_left i6)
    injection this
  refine ⟨?_, ?_, ?_, ?_, ?_, ?_⟩
  · intro k r hd resp hr
    obtain ⟨pdu, ⟨v'', e1, -, e3⟩, e4⟩ := C24_request_reaches_session env va' c m s hre k r hd resp (by rw [hw]; exact hr)
    rw [i5] at e1; injection e1 with e1; subst e1
    exact ⟨pdu, rest, key _ e3, i7, e4⟩
  · intro k r hd t hr
    obtain ⟨v'', e1, -, e3⟩ := (C28_session_failures env va' c m s hre k r hd _ (by rw [hw]; exact hr)).1 t rfl
    rw [i5] at e1; injection e1 with e1; subst e1
    exact ⟨rest, key _ e3, i7⟩
  · intro k r hd e hr hne
    obtain ⟨v'', e1, -, e3⟩ := (C28_session_failures env va' c m s hre k r hd _ (by rw [hw]; exact hr)).2 hne
    rw [i5] at e1; injection e1 with e1; subst e1
    exact ⟨rest, key _ e3, i7⟩
  · intro k hd
    obtain ⟨v'', e1, -, e3⟩ := C27_out_of_range_refused env va' c m s hre k hd
    rw [i5] at e1; injection e1 with e1; subst e1
    exact ⟨rest, key _ e3, i7⟩
  · intro fc rest' hd hfc
    obtain ⟨v'', e1, -, e3⟩ := C26_unsupported_refused env va' c m s hre fc rest' hd hfc
    rw [i5] at e1; injection e1 with e1; subst e1
    exact ⟨rest, key _ e3, i7⟩
  · intro hd
    have hs : Silent env va' c m := by
      rcases hd with hd | ⟨k, rest', hd, h1, h2⟩
      · exact (C25_silence env va' c m).2.1 hd
      · exact (C25_silence env va' c m).2.2 k rest' hd h1 h2
    obtain ⟨v'', e1, -, e3⟩ := hs
    rw [i5] at e1; injection e1 with e1; subst e1
    rw [key [] e3]; exact i7

/-- C25 in every history: a message for a unit no session was ever added for is ignored. -/
theorem C25_unknown_unit_ignored (env : ServerEnv W) (w : W) (ops : List Op) (v : Srv W) (h : (Srv.init w).run env ops = .ret v) (c : ConnId)
    (m : Mbap) (hu : Unused m.unit ops) (l1 l2 : List SEv) (hl : v.log = l1 ++ .mbap c m :: l2) : NoAnswer l2 := by
  obtain ⟨opsA, opsB, va, va', vb, rest, rfl, i2, i3, i4, i5, i6, i7, -⟩ := Srv.run_at ops _ v l1 c m l2 h (by simpa [Srv.init] using hl)
  have hb := Srv.NotBooked.run (u := m.unit) opsA _ _ (fun s hx => hu s (by simp [hx])) i2 ⟨rfl, by simp [Srv.init]⟩
  obtain ⟨v'', e1, -, e3⟩ := (C25_silence env va' c m).1 (by rw [i3.2]; exact hb.1)
  rw [i5] at e1; injection e1 with e1; subst e1
  rw [e3, i4, hl] at i6
  simp only [Srv.init, List.nil_append, List.append_assoc, List.cons_append] at i6
  have this := List.append_cancel_left i6
  injection this with _ this
  rw [this]; exact i7

/-! ### The hypotheses are met -/

/-- `start`, two sessions and a request, with everything called before anything is run; then `shutdown`. -/
def tightOps : List Op := [.start, .addSession 1 0, .addSession 2 2, .runTask, .opened 5 (Vector.replicate 260 0), .runTask, .runTask]

/-- Requests for unit 1 (answered, answered with an exception, out of range, unsupported, malformed), unit 2 (fails otherwise), unit 9. -/
def tightTraffic : List Op :=
  [.receive 5 [1, 2, 0, 0, 0, 6, 1, 3, 0, 16, 0, 2, 1, 3, 0, 0, 0, 6, 1, 6, 0, 16, 0, 2], .receive 5 [1, 4, 0, 0, 0, 6, 1, 3, 0, 16, 0, 126],
   .receive 5 [1, 5, 0, 0, 0, 3, 1, 0x2B, 14], .receive 5 [1, 6, 0, 0, 0, 4, 1, 3, 0, 16], .receive 5 [1, 7, 0, 0, 0, 6, 2, 3, 0, 16, 0, 2],
   .receive 5 [1, 8, 0, 0, 0, 6, 9, 3, 0, 16, 0, 2]]

example : logOf ((Srv.init 0).run (demo 0) (tightOps ++ tightTraffic)) = some
    [.serverStart, .mbap 5 ⟨1, 0x0102, [3, 0, 16, 0, 2]⟩, .request 0 .readHoldingRegisters ⟨16, 2⟩, .send 5 [1, 2, 0, 0, 0, 7, 1, 3, 4, 0, 0, 0, 0],
     .mbap 5 ⟨1, 0x0103, [6, 0, 16, 0, 2]⟩, .request 0 .writeSingleRegister ⟨16, 2⟩, .send 5 [1, 3, 0, 0, 0, 3, 1, 0x86, 6],
     .mbap 5 ⟨1, 0x0104, [3, 0, 16, 0, 126]⟩, .send 5 [1, 4, 0, 0, 0, 3, 1, 0x83, 3],
     .mbap 5 ⟨1, 0x0105, [0x2B, 14]⟩, .send 5 [1, 5, 0, 0, 0, 3, 1, 0xAB, 1],
     .mbap 5 ⟨1, 0x0106, [3, 0, 16]⟩,
     .mbap 5 ⟨2, 0x0107, [3, 0, 16, 0, 2]⟩, .request 2 .readHoldingRegisters ⟨16, 2⟩,
     .mbap 5 ⟨9, 0x0108, [3, 0, 16, 0, 2]⟩] := by decide +kernel

/- C24: unit 1 is registered by the second call; the first message for it and the one that makes it fail meet the hypotheses (with
`ops1 = [.start]`, `ops2 = tightOps.drop 2`, `ops3 = tightTraffic`). -/
example : Unused 1 [Op.start] ∧ Op.shutdown ∉ [Op.start] ∧ Op.shutdown ∉ tightOps.drop 2 ∧ Op.shutdown ∉ tightTraffic ∧
    [Op.start].countP isCall < (tightOps.drop 2).countP isRun ∧ tightOps = [.start] ++ .addSession 1 0 :: tightOps.drop 2 :=
  ⟨by simp [Unused], by simp, by simp [tightOps], by simp [tightTraffic], by decide, rfl⟩
example : Spec.Denotes .readHoldingRegisters [3, 0, 16, 0, 2] ⟨16, 2⟩ ∧
    ((demo 0).onRequest 0 .readHoldingRegisters ⟨16, 2⟩ (Spec.played (demo 0).onRequest 0 [.serverStart])).2 = .ok [⟨16, 0⟩, ⟨17, 0⟩] :=
  ⟨⟨⟨by decide, by decide⟩, rfl⟩, rfl⟩
example : Spec.Denotes .writeSingleRegister [6, 0, 16, 0, 2] ⟨16, 2⟩ ∧
    ((demo 0).onRequest 0 .writeSingleRegister ⟨16, 2⟩ 1).2 = .error (.modbus .serverDeviceBusy) := ⟨⟨⟨by decide, by decide⟩, rfl⟩, rfl⟩

/- C25: unit 9 is never used. -/
example : Unused 9 (tightOps ++ tightTraffic) := by simp [Unused, tightOps, tightTraffic]

/- C31, C70: `shutdown` is called before anything has been run; the server and both sessions are told nevertheless, and only messages
arrive afterwards. -/
example : ([Op.start, .addSession 1 0, .addSession 2 2] ++ [Op.opened 5 (Vector.replicate 260 0)]).countP isCall < (List.replicate 4 Op.runTask).countP isRun := by decide
example : logOf ((Srv.init 0).run (demo 0) ([.start, .addSession 1 0, .addSession 2 2] ++ .opened 5 (Vector.replicate 260 0) :: .shutdown :: List.replicate 4 .runTask ++ tightTraffic.take 1)) = some
    [.serverStart, .serverShutdown, .sessionShutdown 0, .sessionShutdown 2, .mbap 5 ⟨1, 0x0102, [3, 0, 16, 0, 2]⟩, .mbap 5 ⟨1, 0x0103, [6, 0, 16, 0, 2]⟩] := by
  decide +kernel

end Props

end Modbus
