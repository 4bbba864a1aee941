import Verif.Lemmas.PollingDown
import Verif.Props.Scheduled

/-! Time between polls. -/

namespace Modbus

open Spec

namespace Poll

/-- What a step adds to the log. -/
theorem step_events (v : Poll) (op : Op) : ∃ es, (v.step op).log = v.log ++ es ∧ (PEv.started ∈ es → v.running = false ∧ es.head? = some .started) ∧
    (PEv.stopped ∈ es → ∀ id t, PEv.sent id t ∉ es) := by
  cases op with
  | start => exact ⟨[], by simp [step], by simp, by simp⟩
  | stop => exact ⟨[], by simp [step], by simp, by simp⟩
  | setFrequency f => exact ⟨[], by simp [step], by simp, by simp⟩
  | tick n => exact ⟨[], by simp [step], by simp, by simp⟩
  | runTask =>
    simp only [step]
    split
    · exact ⟨[], by simp, by simp, by simp⟩
    · rename_i t ts ht
      cases t with
      | start =>
        simp only [runTask]
        cases hr : v.running
        · exact ⟨[.started, .sent v.nextId v.now], by simp [execute, emit], by simp, by simp⟩
        · exact ⟨[], by simp, by simp, by simp⟩
      | stop =>
        refine ⟨[.stopped], ?_, by simp, by simp⟩
        simp only [runTask]
        split
        · simp only [cancelTimer, emit]; split <;> rfl
        · rfl
      | setFrequency f => exact ⟨[.frequency f], rfl, by simp, by simp⟩
  | respond id =>
    simp only [step]
    split
    · refine ⟨[.handled id v.now], ?_, by simp, by simp⟩
      cases hr : v.running <;> simp [onResponse, emit, hr]
    · exact ⟨[], by simp, by simp, by simp⟩
  | expire t =>
    simp only [step]
    split
    · exact ⟨[], by simp, by simp, by simp⟩
    · split <;> exact ⟨[], by simp, by simp, by simp⟩
  | runTimer t =>
    simp only [step]
    split
    · exact ⟨[.sent v.nextId v.now], by simp [execute, emit], by simp, by simp⟩
    · exact ⟨[], by simp, by simp, by simp⟩

/-- A step starts the request at most once. -/
theorem step_once (v : Poll) (op : Op) (es : List PEv) (he : (v.step op).log = v.log ++ es) : es.count .started ≤ 1 := by
  cases op with
  | start => simp [step] at he; subst he; simp
  | stop => simp [step] at he; subst he; simp
  | setFrequency g => simp [step] at he; subst he; simp
  | tick n => simp [step] at he; subst he; simp
  | runTask =>
    simp only [step] at he
    split at he
    · simp at he; subst he; simp
    · rename_i t ts ht
      cases t with
      | start =>
        cases h4 : v.running <;> simp only [runTask, h4, Bool.false_eq_true, if_false, if_true, execute, emit] at he
        · rw [List.append_assoc] at he
          rw [← List.append_cancel_left he]; simp
        · simp at he; subst he; simp
      | stop =>
        simp only [runTask] at he
        split at he
        · simp only [cancelTimer, emit] at he
          split at he <;> simp at he <;> subst he <;> simp
        · simp [emit] at he; subst he; simp
      | setFrequency g => simp [runTask, emit] at he; subst he; simp
  | respond id =>
    simp only [step] at he
    split at he
    · cases h4 : v.running <;> simp [onResponse, emit, h4] at he <;> subst he <;> simp
    · simp at he; subst he; simp
  | expire t =>
    simp only [step] at he
    split at he
    · simp at he; subst he; simp
    · split at he <;> simp at he <;> subst he <;> simp
  | runTimer t =>
    simp only [step] at he
    split at he
    · simp [execute, emit] at he; subst he; simp
    · simp at he; subst he; simp

theorem run_snoc' (f : Nat) (ops : List Op) (op : Op) : (init f).run (ops ++ [op]) = ((init f).run ops).step op := by simp [run]

theorem run_log_mono (v : Poll) (ops : List Op) : v.log <+: (v.run ops).log := by
  induction ops using List.reverseRecOn with
  | nil => exact List.prefix_rfl
  | append_singleton ops op ih =>
    obtain ⟨es, he, -⟩ := (v.run ops).step_events op
    have : v.run (ops ++ [op]) = (v.run ops).step op := by simp [run]
    rw [this, he]
    exact ih.trans (List.prefix_append _ _)

/-- Nothing is sent before the first start. -/
theorem nothing_sent (f : Nat) (ops : List Op) (h : PEv.started ∉ ((init f).run ops).log) : ((init f).run ops).nextId = 0 := by
  induction ops using List.reverseRecOn with
  | nil => rfl
  | append_singleton ops op ih =>
    rw [run_snoc'] at h ⊢
    obtain ⟨v, hv⟩ : ∃ v, v = (init f).run ops := ⟨_, rfl⟩
    have hc := Props.C58_one_per_start_partial f v ⟨ops, hv⟩
    rw [← hv] at h ih ⊢
    obtain ⟨es, he, -⟩ := v.step_events op
    have h0 : PEv.started ∉ v.log := fun hm => h (by rw [he]; exact List.mem_append_left _ hm)
    rw [List.count_eq_zero.2 h0] at hc
    have ih := ih h0
    cases op with
    | runTask =>
      revert h
      simp only [step]
      split
      · intro _; exact ih
      · rename_i t ts ht
        cases t with
        | start =>
          simp only [runTask]
          split
          · intro _; exact ih
          · intro h; exact absurd (by simp [execute, emit]) h
        | stop =>
          intro _
          simp only [runTask]
          split
          · simp only [cancelTimer, emit]; split <;> exact ih
          · exact ih
        | setFrequency g => intro _; exact ih
    | respond id =>
      simp only [step]
      split
      · cases hr : v.running <;> simp [onResponse, emit, hr, ih]
      · exact ih
    | expire t =>
      simp only [step]
      split
      · exact ih
      · split <;> exact ih
    | runTimer t =>
      simp only [step]
      split
      · rename_i hm
        have : 0 < v.fired.length := List.length_pos_of_mem hm
        omega
      · exact ih
    | _ => exact ih

theorem not_started (f : Nat) (ops : List Op) (h : ((init f).run ops).running = false) (hn : PEv.stopped ∉ ((init f).run ops).log) :
    PEv.started ∉ ((init f).run ops).log := by
  intro hm
  have h1 := running_run f ops
  rw [h, Sess.pollOn_of_started _ hm hn] at h1
  cases h1

/-- Unless it is stopped, a scheduled request starts once, before everything else. -/
theorem first_start (f : Nat) (ops : List Op) (hn : PEv.stopped ∉ ((init f).run ops).log) (x y : List PEv)
    (h : ((init f).run ops).log = x ++ .started :: y) : pollsHandled x = [] := by
  induction ops using List.reverseRecOn generalizing y with
  | nil => simp [run, init] at h
  | append_singleton ops op ih =>
    rw [run_snoc'] at h hn
    obtain ⟨es, he, h1, -⟩ := ((init f).run ops).step_events op
    rw [he] at h hn
    have hn' : PEv.stopped ∉ ((init f).run ops).log := fun hm => hn (List.mem_append_left _ hm)
    have key : ∀ m, x = ((init f).run ops).log ++ m → es = m ++ PEv.started :: y → pollsHandled x = [] := by
      intro m h2 h3
      obtain ⟨h4, h5⟩ := h1 (by rw [h3]; simp)
      have h6 := not_started f ops h4 hn'
      have h7 := nothing_sent f ops h6
      cases m with
      | nil =>
        rw [List.append_nil] at h2
        subst h2
        rw [List.eq_nil_iff_forall_not_mem]
        intro id hm
        have := ((core_run f ops).1.once id).2 (by omega)
        have := List.one_le_count_iff.2 hm
        omega
      | cons e m =>
        rw [h3] at h5
        simp only [List.cons_append, List.head?_cons, Option.some.injEq] at h5
        subst h5
        -- two starts in one step
        have := ((init f).run ops).step_once op es he
        exfalso
        rw [h3] at this
        simp only [List.cons_append, List.count_cons_self, List.count_append] at this
        omega
    rcases List.append_eq_append_iff.1 h with ⟨m, h2, h3⟩ | ⟨m, h2, h3⟩
    · exact key m h2 h3
    · cases m with
      | nil => exact key [] (by simpa using h2.symm) (by simpa using h3.symm)
      | cons e m =>
        injection h3 with h3 h4
        subst h3
        exact ih hn' m h2

theorem started_once (f : Nat) (ops : List Op) (hn : PEv.stopped ∉ ((init f).run ops).log) (x z z' : List PEv)
    (h : ((init f).run ops).log = x ++ .started :: (z ++ .started :: z')) : False := by
  induction ops using List.reverseRecOn generalizing z' with
  | nil => simp [run, init] at h
  | append_singleton ops op ih =>
    rw [run_snoc'] at h hn
    obtain ⟨es, he, h1, -⟩ := ((init f).run ops).step_events op
    rw [he] at h hn
    have hn' : PEv.stopped ∉ ((init f).run ops).log := fun hm => hn (List.mem_append_left _ hm)
    have h' : ((init f).run ops).log ++ es = (x ++ .started :: z) ++ .started :: z' := by rw [h]; simp
    have key : ∀ m, x ++ PEv.started :: z = ((init f).run ops).log ++ m → es = m ++ PEv.started :: z' → False := by
      intro m h2 h3
      obtain ⟨h4, h5⟩ := h1 (by rw [h3]; simp)
      have h6 := not_started f ops h4 hn'
      cases m with
      | nil =>
        rw [List.append_nil] at h2
        exact h6 (by rw [← h2]; simp)
      | cons e m =>
        have := ((init f).run ops).step_once op es he
        rw [h3] at h5 this
        simp only [List.cons_append, List.head?_cons, Option.some.injEq] at h5
        subst h5
        simp only [List.cons_append, List.count_cons_self, List.count_append] at this
        omega
    rcases List.append_eq_append_iff.1 h' with ⟨m, h2, h3⟩ | ⟨m, h2, h3⟩
    · exact key m h2 h3
    · cases m with
      | nil => exact key [] (by simpa using h2.symm) (by simpa using h3.symm)
      | cons e m =>
        injection h3 with h3 h4
        subst h3
        exact ih hn' m (by rw [h2]; simp)

/-- The polling time is kept as long as the request is not stopped. -/
theorem unstopped_spaced (f : Nat) (ops : List Op) (a : List PEv) (id t1 : Nat) (b : List PEv) (id' t2 : Nat) (c : List PEv)
    (hl : ((init f).run ops).log = a ++ .handled id t1 :: (b ++ .sent id' t2 :: c)) (hs : PEv.stopped ∉ a ++ .handled id t1 :: b) :
    t1 + pollTime f a ≤ t2 := by
  induction ops using List.reverseRecOn generalizing c with
  | nil => simp [run, init] at hl
  | append_singleton ops op ih =>
    obtain ⟨es, he, -, h2⟩ := ((init f).run ops).step_events op
    have hl0 := hl
    rw [run_snoc', he] at hl
    have hl' : ((init f).run ops).log ++ es = (a ++ .handled id t1 :: b) ++ .sent id' t2 :: c := by rw [hl]; simp
    have key : ∀ m, a ++ .handled id t1 :: b = ((init f).run ops).log ++ m → es = m ++ PEv.sent id' t2 :: c → t1 + pollTime f a ≤ t2 := by
      intro m h3 h4
      have hn : PEv.stopped ∉ ((init f).run (ops ++ [op])).log := by
        rw [run_snoc', he]
        intro hm
        rcases List.mem_append.1 hm with hm | hm
        · exact hs (by rw [h3]; exact List.mem_append_left _ hm)
        · exact h2 hm id' t2 (by rw [h4]; simp)
      refine Props.C59_polling_time_respected_partial f (ops ++ [op]) (fun pre o post hp hst => ?_) a id t1 b id' t2 c hl0 fun hb => ?_
      · obtain ⟨-, hr, -⟩ := hst
        have hpre : ((init f).run pre).log <+: ((init f).run (ops ++ [op])).log := by
          rw [hp, show (init f).run (pre ++ o :: post) = ((init f).run pre).run (o :: post) by simp [run]]
          exact run_log_mono _ _
        have h5 := not_started f pre hr fun hm => hn (hpre.subset hm)
        have h6 := Props.C58_one_per_start_partial f _ ⟨pre, rfl⟩
        rw [List.count_eq_zero.2 h5] at h6
        exact ⟨List.length_eq_zero_iff.1 (by omega), List.length_eq_zero_iff.1 (by omega), List.length_eq_zero_iff.1 (by omega)⟩
      · obtain ⟨b1, b2, rfl⟩ := List.append_of_mem hb
        have := first_start f (ops ++ [op]) hn (a ++ .handled id t1 :: b1) (b2 ++ .sent id' t2 :: c) (by rw [hl0]; simp)
        have hm : id ∈ pollsHandled (a ++ .handled id t1 :: b1) := mem_pollsHandled.2 ⟨t1, by simp⟩
        rw [this] at hm; cases hm
    rcases List.append_eq_append_iff.1 hl' with ⟨m, h3, h4⟩ | ⟨m, h3, h4⟩
    · exact key m h3 h4
    · cases m with
      | nil => exact key [] (by simpa using h3.symm) (by simpa using h4.symm)
      | cons e m =>
        injection h4 with h4 h5
        subst h4
        exact ih m (by rw [h3]; simp)

end Poll

/-! Which polling time. -/

namespace Pcl

theorem submit_sess {env : ClientEnv} {v w : Pcl} {unit : UInt8} {q : AnyReq} {tmo : Nat} (h : v.submit env unit q tmo = .ret w) : w.sess = v.sess := by
  simp only [submit] at h
  cases hc : v.cli.step env (.submit unit q tmo) with
  | ub => rw [hc] at h; cases h
  | ret c => rw [hc] at h; injection h with h; subst h; rfl

theorem fromSess1_sess {env : ClientEnv} {v w : Pcl} {s : Nat} {e : SessEv} (h : v.fromSess1 env s e = .ret w) : w.sess = v.sess := by
  cases hm : e.mute with
  | true => rw [fromSess1_mute env v s e hm] at h; injection h with h; subst h; rfl
  | false =>
    simp only [fromSess1] at h
    split at h
    · split at h
      · injection h with h; subst h; rfl
      · split at h
        · injection h with h; subst h; rfl
        · have := submit_sess h; exact this
    · injection h with h; subst h; rfl

theorem fromSess_sess {env : ClientEnv} {s : Nat} (es : List SessEv) : ∀ {v w : Pcl}, v.fromSess env s es = .ret w → w.sess = v.sess := by
  induction es with
  | nil => intro v w h; injection h with h; subst h; rfl
  | cons e es ih =>
    intro v w h
    simp only [fromSess] at h
    cases h1 : v.fromSess1 env s e with
    | ub => rw [h1] at h; cases h
    | ret u =>
      rw [h1, CM.ret_bind] at h
      rw [ih h, fromSess1_sess h1]

/-- What the sessions' scheduled requests send. -/
def wants (v : Pcl) : List (List (AnyReq × Nat)) := v.sess.map (·.reqs)

theorem set_wants (l : List PSess) (s : Nat) (p p' : PSess) (hp : l[s]? = some p) (h : p'.reqs = p.reqs) : (l.set s p').map (·.reqs) = l.map (·.reqs) := by
  have hs : s < l.length := (List.getElem?_eq_some_iff.1 hp).1
  refine List.ext_getElem? fun j => ?_
  simp only [List.getElem?_map]
  by_cases hj : j = s
  · subst hj; rw [List.getElem?_set_self hs, hp]; simp [h]
  · rw [List.getElem?_set_ne (Ne.symm hj)]

theorem sessStep_wants {env : ClientEnv} {v w : Pcl} {s : Nat} {op : Sess.Op} (h : v.sessStep env s op = .ret w) : w.wants = v.wants := by
  simp only [sessStep] at h
  split at h
  · injection h with h; subst h; rfl
  · rename_i p hp
    have := fromSess_sess _ h
    simp only [wants, this]
    exact set_wants _ _ p _ hp rfl

theorem fromChan1_wants {env : ClientEnv} {v w : Pcl} {e : CEv} (h : v.fromChan1 env e = .ret w) : w.wants = v.wants := by
  cases e with
  | handler u x t =>
    simp only [fromChan1] at h
    split at h
    · injection h with h; subst h; rfl
    · have := sessStep_wants h; exact this
  | sessionShutdown s => simp only [fromChan1] at h; have := sessStep_wants h; exact this
  | _ => simp only [fromChan1] at h; injection h with h; subst h; rfl

theorem fromChan_wants {env : ClientEnv} (es : List CEv) : ∀ {v w : Pcl}, v.fromChan env es = .ret w → w.wants = v.wants := by
  induction es with
  | nil => intro v w h; injection h with h; subst h; rfl
  | cons e es ih =>
    intro v w h
    simp only [fromChan] at h
    cases h1 : v.fromChan1 env e with
    | ub => rw [h1] at h; cases h
    | ret u =>
      rw [h1, CM.ret_bind] at h
      rw [ih h, fromChan1_wants h1]

theorem chanStep_wants {env : ClientEnv} {v w : Pcl} {op : Cli.Op} (h : v.chanStep env op = .ret w) : w.wants = v.wants := by
  simp only [chanStep] at h
  cases hc : v.cli.step env op with
  | ub => rw [hc] at h; cases h
  | ret c => rw [hc, CM.ret_bind] at h; have := fromChan_wants _ h; exact this

/-- Only `schedule_request` adds scheduled requests; `create_session` adds sessions without. -/
theorem step_wants {env : ClientEnv} {v w : Pcl} {op : Op} (h : v.step env op = .ret w) (ho : ∀ s q tmo f, op ≠ .schedule s q tmo f) :
    w.wants = v.wants ∨ w.wants = v.wants ++ [[]] := by
  cases op with
  | createSession unit =>
    simp only [step] at h
    cases h1 : v.chanStep env .createSession with
    | ub => rw [h1] at h; cases h
    | ret u =>
      rw [h1, CM.ret_bind] at h
      have h2 := chanStep_wants h1
      split at h
      · injection h with h; subst h; exact .inl h2
      · injection h with h; subst h
        simp only [wants] at h2 ⊢
        exact .inr (by rw [List.map_append, h2]; rfl)
  | send s q tmo =>
    simp only [step] at h
    split at h
    · injection h with h; subst h; exact .inl rfl
    · have := submit_sess h; exact .inl (by simp only [wants, this])
  | schedule s q tmo f => exact absurd rfl (ho s q tmo f)
  | api s o =>
    simp only [step] at h
    split at h
    · have := sessStep_wants h; exact .inl this
    · injection h with h; subst h; exact .inl rfl
  | sess s o =>
    simp only [step] at h
    split at h
    · exact .inl (sessStep_wants h)
    · injection h with h; subst h; exact .inl rfl
  | chan o =>
    simp only [step] at h
    split at h
    · exact .inl (chanStep_wants h)
    · injection h with h; subst h; exact .inl rfl
  | tick n =>
    simp only [step] at h
    cases h1 : v.chanStep env (.tick n) with
    | ub => rw [h1] at h; cases h
    | ret u =>
      rw [h1, CM.ret_bind] at h
      injection h with h; subst h
      have h2 := chanStep_wants h1
      simp only [wants] at h2 ⊢
      refine .inl ?_
      rw [← h2, List.map_map]; rfl

end Pcl

/-- The user schedules a request. -/
theorem PInv.schedule {env : ClientEnv} {v w : Pcl} {s : Nat} {q : AnyReq} {tmo f : Nat} (hs : v.step env (.schedule s q tmo f) = .ret w) :
    w = v ∨ ∃ p, v.sess[s]? = some p ∧ w.log = v.log ++ [LEv.scheduled s p.reqs.length q tmo f] ∧
      w.sess = v.sess.set s { p with sess := p.sess.step (.schedule f), reqs := p.reqs ++ [(q, tmo)] } := by
  cases hp : v.sess[s]? with
  | none => simp only [Pcl.step, hp] at hs; injection hs with hs; exact .inl hs.symm
  | some p =>
    have hlt : s < v.sess.length := (List.getElem?_eq_some_iff.1 hp).1
    have hst := Pcl.sessStep_mute env (v := { v with sess := v.sess.set s { p with reqs := p.reqs ++ [(q, tmo)] }, log := v.log ++ [LEv.scheduled s p.reqs.length q tmo f] })
      (s := s) (p := { p with reqs := p.reqs ++ [(q, tmo)] }) (by simp [hlt]) (op := .schedule f) (es := []) (by simp [Sess.step]) (by simp)
    simp only [List.map_nil, List.append_nil, List.set_set] at hst
    simp only [Pcl.step, hp, hst] at hs
    injection hs with hs; subst hs
    exact .inr ⟨p, rfl, rfl, rfl⟩

/-- Every scheduled request began with the polling time it was scheduled with. -/
def Clocked (v : Pcl) : Prop := ∀ (s i : Nat) (p : PSess), v.sess[s]? = some p → i < p.sess.polls.length →
  ∃ q tmo f, LEv.scheduled s i q tmo f ∈ v.log ∧ ∃ pops, p.sess.view i = some ((Poll.init f).run pops)

theorem Clocked.step {env : ClientEnv} {v w : Pcl} (h : Clocked v) (hi : PInv env [] v) {op : Pcl.Op} (hstep : v.step env op = .ret w)
    {new : List LEv} (hs : Stepped env v w op new) : Clocked w := by
  have old : ∀ (s i : Nat) (p p' : PSess), v.sess[s]? = some p → w.sess[s]? = some p' → i < p.sess.polls.length →
      ∃ q tmo f, LEv.scheduled s i q tmo f ∈ w.log ∧ ∃ pops, p'.sess.view i = some ((Poll.init f).run pops) := by
    intro s i p p' hp hp' hlt
    obtain ⟨q, tmo, f, h1, pops, h2⟩ := h s i p hp hlt
    obtain ⟨p'', hq, hmv⟩ := hs.follows.sess s p hp
    rw [hp'] at hq; injection hq with hq; subst hq
    obtain ⟨sops, a1, -⟩ := hmv.ops
    refine ⟨q, tmo, f, by rw [hs.follows.log]; exact List.mem_append_left _ h1, pops ++ Sess.trace i p.sess sops, ?_⟩
    rw [a1, Sess.view_run sops h2]
    simp [Poll.run]
  intro s i p' hp' hlt
  cases hp : v.sess[s]? with
  | none =>
    rw [(hs.opened s p' hp hp').1] at hlt
    simp [Sess.step, Sess.init] at hlt
  | some p =>
    by_cases hl : i < p.sess.polls.length
    · exact old s i p p' hp hp' hl
    · have hok := hi.sessions s p hp
      have hok' := hs.inv.sessions s p' hp'
      by_cases ho : ∃ s q tmo f, op = .schedule s q tmo f
      · obtain ⟨s0, q, tmo, f, rfl⟩ := ho
        rcases PInv.schedule hstep with rfl | ⟨p0, h1, h2, h3⟩
        · rw [hp] at hp'; injection hp' with hp'; subst hp'; exact absurd hlt hl
        · by_cases hs0 : s = s0
          · subst hs0
            rw [hp] at h1; injection h1 with h1; subst h1
            rw [h3, List.getElem?_set_self (List.getElem?_eq_some_iff.1 hp).1] at hp'
            injection hp' with hp'; subst hp'
            have hlen := p.sess.step_length (.schedule f)
            simp only at hlen hlt
            rw [hlen] at hlt
            obtain rfl : i = p.sess.polls.length := by omega
            exact ⟨q, tmo, f, by rw [h2, hok.reqs]; simp, _, Sess.view_schedule p.sess hok.lives.good f _ rfl⟩
          · rw [h3, List.getElem?_set_ne (Ne.symm hs0), hp] at hp'
            injection hp' with hp'; subst hp'; exact absurd hlt hl
      · exfalso
        have hw := Pcl.step_wants hstep fun s q tmo f he => ho ⟨s, q, tmo, f, he⟩
        have hr : p'.reqs = p.reqs := by
          have e1 : w.wants[s]? = some p'.reqs := by simp [Pcl.wants, hp']
          have e2 : v.wants[s]? = some p.reqs := by simp [Pcl.wants, hp]
          have hlt : s < v.wants.length := (List.getElem?_eq_some_iff.1 e2).1
          rcases hw with hw | hw
          · rw [hw, e2] at e1; injection e1 with e1; exact e1.symm
          · rw [hw, List.getElem?_append_left hlt, e2] at e1; injection e1 with e1; exact e1.symm
        rw [← hok'.reqs, hr, hok.reqs] at hlt
        exact hl hlt

theorem scheduled_unique {s i : Nat} {l : List LEv} (hn : (schedulings s l).Nodup) {q q' : AnyReq} {tmo tmo' f f' : Nat}
    (h : LEv.scheduled s i q tmo f ∈ l) (h' : LEv.scheduled s i q' tmo' f' ∈ l) : f = f' := by
  induction l with
  | nil => cases h
  | cons e l ih =>
    have hsub : ∀ {q tmo f}, LEv.scheduled s i q tmo f ∈ l → i ∈ schedulings s l := fun hm => List.mem_filterMap.2 ⟨_, hm, by simp⟩
    have happ : schedulings s (e :: l) = schedulings s [e] ++ schedulings s l := by rw [← schedulings_append]; rfl
    rw [happ] at hn
    have hone : ∀ {q tmo f}, LEv.scheduled s i q tmo f = e → i ∈ schedulings s [e] := by
      intro q tmo f he; subst he; simp [schedulings]
    rcases List.mem_cons.1 h with h1 | h1 <;> rcases List.mem_cons.1 h' with h2 | h2
    · rw [← h1] at h2; injection h2 with _ _ _ _ h2; exact h2.symm
    · exact absurd rfl ((List.nodup_append.1 hn).2.2 i (hone h1) i (hsub h2))
    · exact absurd rfl ((List.nodup_append.1 hn).2.2 i (hone h2) i (hsub h1))
    · exact ih (List.nodup_append.1 hn).2.1 h1 h2

/-! The clock. -/

/-- The time at which something happened, if it is recorded. -/
def LEv.timeOf : LEv → Option Nat
  | .ch (.sent _ _ t) => some t
  | .ch (.handler _ _ t) => some t
  | .sess _ (.poll _ (.sent _ t)) => some t
  | .sess _ (.poll _ (.handled _ t)) => some t
  | _ => none

theorem Cli.step_times {env : ClientEnv} {v v' : Cli} {op : Cli.Op} (h : v.step env op = .ret v') :
    ∃ es, v'.log = v.log ++ es ∧ ∀ e ∈ es, ∀ t, (LEv.ch e).timeOf = some t → t = v'.now := by
  by_cases ho : Pcl.ownChan op = true
  · rcases own_step h ho with hs | ⟨ts, -, -, hl, -⟩
    · obtain ⟨es, h1, h2⟩ := hs.log
      refine ⟨es, h1, fun e he t ht => ?_⟩
      have := h2 e he
      rw [hs.now]
      cases e <;> simp only [LEv.timeOf, Option.some.injEq, reduceCtorEq] at ht <;> subst ht <;> exact this
    · refine ⟨_, hl, fun e he t ht => ?_⟩
      simp only [List.mem_append, List.mem_map, List.mem_singleton] at he
      rcases he with ⟨s, -, rfl⟩ | rfl <;> cases ht
  · cases op with
    | submit unit q tmo =>
      simp only [Cli.step] at h
      split at h
      · injection h with h; subst h; exact ⟨_, rfl, by simp [LEv.timeOf]⟩
      · split at h <;> injection h with h <;> subst h <;> exact ⟨_, rfl, by simp [LEv.timeOf]⟩
    | createSession =>
      simp only [Cli.step] at h
      split at h <;> injection h with h <;> subst h <;> exact ⟨_, rfl, by simp [LEv.timeOf]⟩
    | tick n => injection h with h; subst h; exact ⟨[], by simp, by simp⟩
    | _ => exact absurd rfl ho

theorem Cli.step_now {env : ClientEnv} {v v' : Cli} {op : Cli.Op} (h : v.step env op = .ret v') (hop : ∀ n, op ≠ .tick n) : v'.now = v.now := by
  by_cases ho : Pcl.ownChan op = true
  · rcases own_step h ho with hs | ⟨ts, -, -, -, hn, -⟩
    · exact hs.now
    · exact hn
  · cases op with
    | submit unit q tmo =>
      simp only [Cli.step] at h
      split at h
      · injection h with h; subst h; rfl
      · split at h <;> injection h with h <;> subst h <;> rfl
    | createSession =>
      simp only [Cli.step] at h
      split at h <;> injection h with h <;> subst h <;> rfl
    | tick n => exact absurd rfl (hop n)
    | _ => exact absurd rfl ho

namespace Pcl

theorem submit_clock {env : ClientEnv} {v w : Pcl} {unit : UInt8} {q : AnyReq} {tmo : Nat} (h : v.submit env unit q tmo = .ret w) :
    w.cli.now = v.cli.now := by
  simp only [submit] at h
  cases hc : v.cli.step env (.submit unit q tmo) with
  | ub => rw [hc] at h; cases h
  | ret c => rw [hc] at h; injection h with h; subst h; exact Cli.step_now hc (by simp)

theorem fromSess1_clock {env : ClientEnv} {v w : Pcl} {s : Nat} {e : SessEv} (h : v.fromSess1 env s e = .ret w) : w.cli.now = v.cli.now := by
  simp only [fromSess1] at h
  split at h
  · split at h
    · injection h with h; subst h; rfl
    · split at h
      · injection h with h; subst h; rfl
      · have := submit_clock h; exact this
  · injection h with h; subst h; rfl

theorem fromSess_clock {env : ClientEnv} {s : Nat} (es : List SessEv) : ∀ {v w : Pcl}, v.fromSess env s es = .ret w → w.cli.now = v.cli.now := by
  induction es with
  | nil => intro v w h; injection h with h; subst h; rfl
  | cons e es ih =>
    intro v w h
    simp only [fromSess] at h
    cases h1 : v.fromSess1 env s e with
    | ub => rw [h1] at h; cases h
    | ret u =>
      rw [h1, CM.ret_bind] at h
      rw [ih h, fromSess1_clock h1]

theorem sessStep_clock {env : ClientEnv} {v w : Pcl} {s : Nat} {op : Sess.Op} (h : v.sessStep env s op = .ret w) : w.cli.now = v.cli.now := by
  simp only [sessStep] at h
  split at h
  · injection h with h; subst h; rfl
  · have := fromSess_clock _ h; exact this

theorem fromChan1_clock {env : ClientEnv} {v w : Pcl} {e : CEv} (h : v.fromChan1 env e = .ret w) : w.cli.now = v.cli.now := by
  cases e with
  | handler u x t =>
    simp only [fromChan1] at h
    split at h
    · injection h with h; subst h; rfl
    · have := sessStep_clock h; exact this
  | sessionShutdown s => simp only [fromChan1] at h; have := sessStep_clock h; exact this
  | _ => simp only [fromChan1] at h; injection h with h; subst h; rfl

theorem fromChan_clock {env : ClientEnv} (es : List CEv) : ∀ {v w : Pcl}, v.fromChan env es = .ret w → w.cli.now = v.cli.now := by
  induction es with
  | nil => intro v w h; injection h with h; subst h; rfl
  | cons e es ih =>
    intro v w h
    simp only [fromChan] at h
    cases h1 : v.fromChan1 env e with
    | ub => rw [h1] at h; cases h
    | ret u =>
      rw [h1, CM.ret_bind] at h
      rw [ih h, fromChan1_clock h1]

theorem chanStep_clock {env : ClientEnv} {v w : Pcl} {op : Cli.Op} (h : v.chanStep env op = .ret w) (ho : ∀ n, op ≠ .tick n) :
    w.cli.now = v.cli.now := by
  simp only [chanStep] at h
  cases hc : v.cli.step env op with
  | ub => rw [hc] at h; cases h
  | ret c =>
    rw [hc, CM.ret_bind] at h
    have h1 := fromChan_clock _ h
    exact h1.trans (Cli.step_now hc ho)

/-- Time passes only by ticks. -/
theorem step_clock {env : ClientEnv} {v w : Pcl} {op : Op} (h : v.step env op = .ret w) (ho : ∀ n, op ≠ .tick n) : w.cli.now = v.cli.now := by
  cases op with
  | createSession unit =>
    simp only [step] at h
    cases h1 : v.chanStep env .createSession with
    | ub => rw [h1] at h; cases h
    | ret u =>
      rw [h1, CM.ret_bind] at h
      have h2 := chanStep_clock h1 (by simp)
      split at h <;> injection h with h <;> subst h <;> exact h2
  | send s q tmo =>
    simp only [step] at h
    split at h
    · injection h with h; subst h; rfl
    · exact submit_clock h
  | schedule s q tmo f =>
    simp only [step] at h
    split at h
    · injection h with h; subst h; rfl
    · have := sessStep_clock h; exact this
  | api s o =>
    simp only [step] at h
    split at h
    · have := sessStep_clock h; exact this
    · injection h with h; subst h; rfl
  | sess s o =>
    simp only [step] at h
    split at h
    · exact sessStep_clock h
    · injection h with h; subst h; rfl
  | chan o =>
    simp only [step] at h
    split at h
    · rename_i hown
      exact chanStep_clock h fun n he => by rw [he] at hown; cases hown
    · injection h with h; subst h; rfl
  | tick n => exact absurd rfl (ho n)

end Pcl

theorem Sess.step_times {v : Sess} (hv : v.Lives) (s : Nat) (op : Sess.Op) (h1 : op ≠ .send) (h2 : ∀ id, op ≠ .report id) :
    ∃ es, (v.step op).log = v.log ++ es ∧ ∀ e ∈ es, ∀ t, (LEv.sess s e).timeOf = some t → v.now ≤ t ∧ t ≤ (v.step op).now := by
  have htimed := hv.timed
  by_cases hp : plainOp op = true
  · have hle : v.now ≤ (v.step op).now := by rw [step_now]; cases op <;> simp
    have hcalm : ∀ e : SessEv, e.calm = true → (LEv.sess s e).timeOf = none := by
      intro e he
      cases e with
      | poll i e => cases e <;> first | rfl | cases he
      | _ => rfl
    rcases Sess.step_new v hv.noSend op hp with ⟨es, h3, h4⟩ | ⟨es, i, p, h3, h4, h5⟩
    · exact ⟨es, h3, fun e he t ht => by rw [hcalm e (h4 e he)] at ht; cases ht⟩
    · refine ⟨_, h4, fun e he t ht => ?_⟩
      rcases List.mem_append.1 he with he | he
      · rw [hcalm e (h5 e he)] at ht; cases ht
      · rw [List.mem_singleton.1 he] at ht
        simp only [LEv.timeOf, Option.some.injEq] at ht
        have := htimed p (List.mem_of_getElem? h3)
        omega
  · cases op with
    | send => exact absurd rfl h1
    | report id => exact absurd rfl (h2 id)
    | respond i id =>
      cases hq : v.polls[i]? with
      | none => exact ⟨[], by simp [Sess.step, onPoll, hq], by simp⟩
      | some q =>
        by_cases hm : id ∈ q.inFlight
        · refine ⟨_, respond_new hq hm, fun e he t ht => ?_⟩
          rw [List.mem_singleton.1 he] at ht
          simp only [LEv.timeOf, Option.some.injEq] at ht
          have h3 := htimed q (List.mem_of_getElem? hq)
          have h4 := v.step_now (.respond i id)
          simp only at h4
          omega
        · exact ⟨[], by simp [Sess.step, onPoll, hq, Poll.step, hm, emit], by simp⟩
    | _ => exact absurd rfl hp

theorem Sess.run_times (s : Nat) (ops : List Sess.Op) : ∀ {v : Sess}, v.Lives → Sess.Op.send ∉ ops → (∀ id, Sess.Op.report id ∉ ops) → v.now ≤ (v.run ops).now ∧
    ∃ es, (v.run ops).log = v.log ++ es ∧ ∀ e ∈ es, ∀ t, (LEv.sess s e).timeOf = some t → v.now ≤ t ∧ t ≤ (v.run ops).now := by
  induction ops with
  | nil => intro v _ _ _; exact ⟨Nat.le_refl _, [], by simp [run], by simp⟩
  | cons op ops ih =>
    intro v hv h1 h2
    have ho : op ≠ .send := fun he => h1 (by rw [he]; exact .head _)
    obtain ⟨es, a1, a2⟩ := Sess.step_times hv s op ho (fun id he => h2 id (by rw [he]; exact .head _))
    obtain ⟨b0, es', b1, b2⟩ := ih (hv.step op ho) (fun hm => h1 (.tail _ hm)) (fun id hm => h2 id (.tail _ hm))
    have hle : v.now ≤ (v.step op).now := by rw [step_now]; cases op <;> simp
    have hrun : v.run (op :: ops) = (v.step op).run ops := rfl
    rw [hrun]
    refine ⟨Nat.le_trans hle b0, es ++ es', by rw [b1, a1, List.append_assoc], fun e he t ht => ?_⟩
    rcases List.mem_append.1 he with he | he
    · have := a2 e he t ht; omega
    · have := b2 e he t ht; omega

/-- Time never goes back. -/
structure Clock (v : Pcl) : Prop where
  past : ∀ e ∈ v.log, ∀ t, e.timeOf = some t → t ≤ v.cli.now
  order : v.log.Pairwise fun e e' => ∀ t t', e.timeOf = some t → e'.timeOf = some t' → t ≤ t'

theorem Clock.step {env : ClientEnv} {v w : Pcl} (h : Clock v) (hi : PInv env [] v) {op : Pcl.Op} (hstep : v.step env op = .ret w)
    {new : List LEv} (hs : Stepped env v w op new) : Clock w := by
  have hlog := hs.follows.log
  by_cases htick : ∃ n, op = .tick n
  · obtain ⟨n, rfl⟩ := htick
    simp only [Pcl.step, Pcl.chanStep, Cli.step, CM.ret_bind, List.drop_length, Pcl.fromChan, CM.pure_eq] at hstep
    injection hstep with hstep; subst hstep
    exact ⟨fun e he t ht => Nat.le_trans (h.past e he t ht) (Nat.le_add_right _ _), h.order⟩
  · obtain ⟨cop, hc, hcop, -⟩ := hs.chan
    have hchan : w.cli.log = v.cli.log ++ ofChannel new := by
      have h1 := hs.inv.chan
      rw [List.append_nil, hlog, ofChannel_append] at h1
      rw [h1, hi.chan, List.append_nil]
    have hnow : w.cli.now = v.cli.now := Pcl.step_clock hstep fun n he => htick ⟨n, he⟩
    have hnew : ∀ e ∈ new, ∀ t, e.timeOf = some t → t = w.cli.now := by
      intro e he t ht
      cases e with
      | ch e =>
        obtain ⟨es, h1, h2⟩ := Cli.step_times hc
        rw [hchan] at h1
        have h3 := List.append_cancel_left h1
        exact h2 e (by rw [← h3]; exact mem_ofChannel.2 he) t ht
      | sess s e =>
        have hmem : e ∈ ofSession s new := mem_ofSession.2 he
        cases hp : v.sess[s]? with
        | none =>
          exfalso
          cases hp' : w.sess[s]? with
          | none =>
            have := (hs.inv.fresh s (List.getElem?_eq_none_iff.1 hp')).1
            rw [hlog, ofSession_append] at this
            rw [(List.append_eq_nil_iff.1 this).2] at hmem; cases hmem
          | some p' =>
            have h1 := (hs.inv.sessions s p' hp').log
            rw [(hs.opened s p' hp hp').1, hlog, ofSession_append] at h1
            rw [(List.append_eq_nil_iff.1 (h1.trans rfl)).2] at hmem; cases hmem
        | some p =>
          have hok := hi.sessions s p hp
          obtain ⟨p', hp', hmv⟩ := hs.follows.sess s p hp
          have hok' := hs.inv.sessions s p' hp'
          obtain ⟨sops, a1, a2, -⟩ := hmv.ops
          obtain ⟨-, es, b1, b2⟩ := Sess.run_times s sops hok.lives (fun hm => a2 _ hm) (fun id hm => a2 _ hm)
          rw [← a1] at b1 b2
          have h1 := hok'.log
          rw [hlog, ofSession_append, hok.log, b1] at h1
          have h2 := List.append_cancel_left h1
          have := b2 e (by rw [← h2]; exact hmem) t ht
          rw [hok.now, hok'.now] at this
          omega
      | _ => cases ht
    refine ⟨fun e he t ht => ?_, ?_⟩
    · rw [hlog] at he
      rcases List.mem_append.1 he with he | he
      · rw [hnow]; exact h.past e he t ht
      · exact Nat.le_of_eq (hnew e he t ht)
    · rw [hlog]
      refine List.pairwise_append.2 ⟨h.order, ?_, fun e he e' he' t t' ht ht' => ?_⟩
      · exact List.pairwise_of_forall_mem_list fun e he e' he' t t' ht ht' => by rw [hnew e he t ht, hnew e' he' t' ht']
      · rw [hnew e' he' t' ht', hnow]; exact h.past e he t ht

end Modbus
