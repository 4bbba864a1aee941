import Verif.Props.PollingEnd
import Verif.Props.SessionTight

/-!
C111, C114: the calls a user makes on a polling client have effects.  Sessions are opened, one-time requests are given to the channel under the
session's unit, scheduled requests are polled at their turn, `start`, `stop` and `set_frequency` take effect at their turn, and a session that
is shut down polls no more.
-/

namespace Modbus.Props

open Spec

/-- How many tasks are queued for session `s`. -/
def queued (s : Nat) (v : Pcl) : Nat :=
  match v.sess[s]? with
  | none => 0
  | some p => p.sess.tasks.length

/-- The executor runs a task of session `s`. -/
def turnsOf (s : Nat) (ops : List Pcl.Op) : Nat := ops.countP fun o => match o with
  | .sess s' .runTask => s' == s
  | _ => false

/-- The tasks of session `s` stay queued. -/
def Kept (s : Nat) (v w : Pcl) : Prop := ∀ p, v.sess[s]? = some p → ∃ p', w.sess[s]? = some p' ∧ p.sess.tasks <+: p'.sess.tasks

theorem Kept.refl (s : Nat) {v w : Pcl} (h : w.sess = v.sess) : Kept s v w := fun p hp => ⟨p, by rw [h]; exact hp, List.prefix_rfl⟩

theorem Kept.trans {s : Nat} {u v w : Pcl} (h : Kept s u v) (h' : Kept s v w) : Kept s u w := by
  intro p hp
  obtain ⟨p', h1, h2⟩ := h p hp
  obtain ⟨p'', h3, h4⟩ := h' p' h1
  exact ⟨p'', h3, h2.trans h4⟩

theorem Kept.sessStep {env : ClientEnv} {v w : Pcl} {s s' : Nat} {op : Sess.Op} (h : v.sessStep env s' op = .ret w) (ho : s' = s → op ≠ .runTask) : Kept s v w := by
  intro p hp
  simp only [Pcl.sessStep] at h
  split at h
  · injection h with h; subst h; exact ⟨p, hp, List.prefix_rfl⟩
  · rename_i q hq
    have := Pcl.fromSess_sess _ h
    rw [this]
    by_cases hs : s' = s
    · subst hs
      rw [hp] at hq; injection hq with hq; subst hq
      exact ⟨_, List.getElem?_set_self (List.getElem?_eq_some_iff.1 hp).1, Sess.step_tasks p.sess op (ho rfl)⟩
    · exact ⟨p, by rw [List.getElem?_set_ne hs]; exact hp, List.prefix_rfl⟩

theorem Kept.fromChan1 {env : ClientEnv} {v w : Pcl} {s : Nat} {e : CEv} (h : v.fromChan1 env e = .ret w) : Kept s v w := by
  simp only [Pcl.fromChan1] at h
  cases e with
  | handler uid x now =>
    simp only at h
    split at h
    · injection h with h; subst h; exact .refl s rfl
    · exact (Kept.refl s rfl : Kept s v { v with log := v.log ++ [.ch (.handler uid x now)] }).trans (.sessStep h (by simp))
  | sessionShutdown k => exact (Kept.refl s rfl : Kept s v { v with log := v.log ++ [.ch (.sessionShutdown k)] }).trans (.sessStep h (by simp))
  | _ => injection h with h; subst h; exact .refl s rfl

theorem Kept.fromChan {env : ClientEnv} {s : Nat} (es : List CEv) : ∀ {v w : Pcl}, v.fromChan env es = .ret w → Kept s v w := by
  induction es with
  | nil => intro v w h; injection h with h; subst h; exact .refl s rfl
  | cons e es ih =>
    intro v w h
    simp only [Pcl.fromChan] at h
    cases h1 : v.fromChan1 env e with
    | ub => rw [h1] at h; cases h
    | ret u => rw [h1, CM.ret_bind] at h; exact (Kept.fromChan1 h1).trans (ih h)

theorem Kept.chanStep {env : ClientEnv} {v w : Pcl} {s : Nat} {op : Cli.Op} (h : v.chanStep env op = .ret w) : Kept s v w := by
  simp only [Pcl.chanStep] at h
  cases hc : v.cli.step env op with
  | ub => rw [hc] at h; cases h
  | ret c => rw [hc, CM.ret_bind] at h; exact (Kept.refl s rfl : Kept s v { v with cli := c }).trans (.fromChan _ h)

theorem Kept.step {env : ClientEnv} {v w : Pcl} {s : Nat} {op : Pcl.Op} (h : v.step env op = .ret w) (ho : op ≠ .sess s .runTask) : Kept s v w := by
  cases op with
  | createSession unit =>
    simp only [Pcl.step] at h
    cases h1 : v.chanStep env .createSession with
    | ub => rw [h1] at h; cases h
    | ret u =>
      rw [h1, CM.ret_bind] at h
      refine (Kept.chanStep h1).trans ?_
      split at h
      · injection h with h; subst h; exact .refl s rfl
      · injection h with h; subst h
        intro p hp
        exact ⟨p, by simp only; rw [List.getElem?_append_left (List.getElem?_eq_some_iff.1 hp).1]; exact hp, List.prefix_rfl⟩
  | send s' q tmo =>
    simp only [Pcl.step] at h
    split at h
    · injection h with h; subst h; exact .refl s rfl
    · exact .refl s (Pcl.submit_sess h)
  | schedule s' q tmo f =>
    rcases PInv.schedule h with rfl | ⟨p, hp, -, hw⟩
    · exact .refl s rfl
    · intro r hr
      rw [hw]
      by_cases hs : s' = s
      · subst hs
        rw [hp] at hr; injection hr with hr; subst hr
        exact ⟨_, List.getElem?_set_self (List.getElem?_eq_some_iff.1 hp).1, Sess.step_tasks p.sess _ (by simp)⟩
      · exact ⟨r, by rw [List.getElem?_set_ne hs]; exact hr, List.prefix_rfl⟩
  | api s' o =>
    simp only [Pcl.step] at h
    split at h
    · rename_i hu
      refine (Kept.refl s rfl : Kept s v { v with log := v.log ++ [.api s' o] }).trans (.sessStep h fun _ he => ?_)
      subst he; exact absurd hu.1 (by simp [Pcl.userCall])
    · injection h with h; subst h; exact .refl s rfl
  | sess s' o =>
    simp only [Pcl.step] at h
    split at h
    · exact .sessStep h fun he hr => ho (by rw [he, hr])
    · injection h with h; subst h; exact .refl s rfl
  | chan o =>
    simp only [Pcl.step] at h
    split at h
    · exact .chanStep h
    · injection h with h; subst h; exact .refl s rfl
  | tick n =>
    simp only [Pcl.step] at h
    cases h1 : v.chanStep env (.tick n) with
    | ub => rw [h1] at h; cases h
    | ret u =>
      rw [h1, CM.ret_bind] at h
      injection h with h; subst h
      refine (Kept.chanStep h1).trans fun p hp => ?_
      exact ⟨{ p with sess := p.sess.step (.tick n) }, by simp [hp], List.prefix_rfl⟩

theorem turnsOf_cons (s : Nat) (op : Pcl.Op) (ops : List Pcl.Op) (h : op ≠ .sess s .runTask) : turnsOf s (op :: ops) = turnsOf s ops := by
  unfold turnsOf
  rw [List.countP_cons, if_neg, Nat.add_zero]
  intro hm
  split at hm
  · rename_i s'
    exact h (by rw [eq_of_beq hm])
  · cases hm

/-- A task queued for session `s` has its turn. -/
theorem pcl_turn {env : ClientEnv} (s : Nat) (ops : List Pcl.Op) : ∀ (v : Pcl), LReach env v → ∀ (p : PSess) (pre ts : List SessTask) (t : SessTask), v.sess[s]? = some p →
    p.sess.tasks = pre ++ t :: ts → pre.length < turnsOf s ops →
    ∃ ops1 ops2 y py ts', ops = ops1 ++ .sess s .runTask :: ops2 ∧ v.run env ops1 = .ret y ∧ LReach env y ∧ y.sess[s]? = some py ∧ py.sess.tasks = t :: ts' := by
  induction ops with
  | nil => intro v _ p pre ts t _ _ hn; simp [turnsOf] at hn
  | cons op ops ih =>
    intro v hv p pre ts t hp ht hn
    obtain ⟨w, new, hw, hst⟩ := hv.inv.1.step hv.inv.2 op
    have hwr := hv.step hw
    by_cases ho : op = .sess s .runTask
    · subst ho
      cases pre with
      | nil => exact ⟨[], ops, v, p, ts, rfl, rfl, hv, hp, ht⟩
      | cons x pre =>
        have h1 := hst.sess s .runTask p rfl rfl hp
        have hs : p.sess.step .runTask = { p.sess with tasks := pre ++ t :: ts }.runTask x := by simp only [Sess.step]; rw [ht]; rfl
        obtain ⟨ts1, hts⟩ := Sess.tasks_runTask { p.sess with tasks := pre ++ t :: ts } x
        obtain ⟨ops1, ops2, y, py, ts', e1, e2, e3, e4, e5⟩ := ih w hwr _ pre (ts ++ ts1) t h1 (by simp only; rw [hs, hts]; simp)
          (by simp only [turnsOf, List.countP_cons, List.length_cons, beq_self_eq_true, if_true] at hn ⊢; omega)
        exact ⟨_ :: ops1, ops2, y, py, ts', by rw [e1]; rfl, by simp only [Pcl.run, hw, CM.ret_bind, e2], e3, e4, e5⟩
    · obtain ⟨p', h1, ts1, h2⟩ := Kept.step hw ho p hp
      rw [turnsOf_cons s op ops ho] at hn
      obtain ⟨ops1, ops2, y, py, ts', e1, e2, e3, e4, e5⟩ := ih w hwr p' pre (ts ++ ts1) t h1 (by rw [← h2, ht]; simp) hn
      exact ⟨_ :: ops1, ops2, y, py, ts', by rw [e1]; rfl, by simp only [Pcl.run, hw, CM.ret_bind, e2], e3, e4, e5⟩

theorem opened_session {env : ClientEnv} {v : Pcl} (h : LReach env v) {s : Nat} {unit : UInt8} (ho : LEv.opened s unit ∈ v.log) : ∃ p, v.sess[s]? = some p ∧ p.unit = unit := by
  have hm : s ∈ openings v.log := List.mem_filterMap.2 ⟨_, ho, rfl⟩
  rw [h.inv.1.opened, List.mem_range] at hm
  obtain ⟨p, hp⟩ : ∃ p, v.sess[s]? = some p := ⟨_, List.getElem?_eq_getElem hm⟩
  refine ⟨p, hp, ?_⟩
  have hn : (openings v.log).Nodup := by rw [h.inv.1.opened]; exact List.nodup_range
  have h2 := (h.inv.1.sessions s p hp).unit
  have key : ∀ l : List LEv, (openings l).Nodup → ∀ u u', LEv.opened s u ∈ l → LEv.opened s u' ∈ l → u = u' := by
    intro l
    induction l with
    | nil => intro _ u u' h; cases h
    | cons e l ih =>
      intro hn u u' h h'
      have happ : openings (e :: l) = openings [e] ++ openings l := by rw [← openings_append]; rfl
      rw [happ] at hn
      have hsub : ∀ {u}, LEv.opened s u ∈ l → s ∈ openings l := fun hm => List.mem_filterMap.2 ⟨_, hm, rfl⟩
      have hone : ∀ {u}, LEv.opened s u = e → s ∈ openings [e] := by intro u he; subst he; simp [openings]
      rcases List.mem_cons.1 h with h1 | h1 <;> rcases List.mem_cons.1 h' with h2 | h2
      · rw [← h1] at h2; injection h2 with _ h2; exact h2.symm
      · exact absurd rfl ((List.nodup_append.1 hn).2.2 s (hone h1) s (hsub h2))
      · exact absurd rfl ((List.nodup_append.1 hn).2.2 s (hone h2) s (hsub h1))
      · exact ih (List.nodup_append.1 hn).2.1 u u' h1 h2
  exact key _ hn _ _ h2 ho

theorem scheduled_session {env : ClientEnv} {v : Pcl} (h : LReach env v) {s i : Nat} (hi : i ∈ schedulings s v.log) :
    ∃ p, v.sess[s]? = some p ∧ i < p.sess.polls.length := by
  by_cases hs : s < v.sess.length
  · exact ⟨_, List.getElem?_eq_getElem hs, (h.inv.1.sessions s _ (List.getElem?_eq_getElem hs)).registered hi⟩
  · rw [(h.inv.1.fresh s (by omega)).2] at hi; cases hi

/-- C111: unless the client has been shut down, `create_session` gives a new session. -/
theorem C111_sessions_open (env : ClientEnv) (v : Pcl) (h : LReach env v) (unit : UInt8) (hd : LEv.ch .tcpShutdown ∉ v.log) :
    ∃ w s, v.step env (.createSession unit) = .ret w ∧ s ∉ openings v.log ∧ w.log = v.log ++ [.ch (.session (some s)), .opened s unit] := by
  obtain ⟨hi, hn⟩ := h.inv
  have hup : v.cli.isShutdown = false := by
    cases hd' : v.cli.isShutdown with
    | false => rfl
    | true =>
      have := hi.reach.inv.1.downLog.2 hd'
      rw [hi.chan, List.append_nil] at this
      exact absurd (mem_ofChannel.1 this) hd
  obtain ⟨w, new, hw, -⟩ := hi.step hn (.createSession unit)
  refine ⟨w, v.sess.length, hw, by rw [hi.opened]; simp, ?_⟩
  simp only [Pcl.step, Pcl.chanStep, Cli.step, hup, Bool.false_eq_true, if_false, CM.ret_bind, Cli.emit, List.drop_left', Pcl.fromChan, Pcl.fromChan1] at hw
  injection hw with hw
  rw [← hw]
  simp [hn.next]

example := C111_sessions_open demoEnv pdemo (pdemo_reach _ _) 7 (by decide +kernel)

/-- C111: a one-time request on a session is given to the channel under the session's unit. -/
theorem C111_one_time_sent (env : ClientEnv) (v : Pcl) (h : LReach env v) (s : Nat) (unit : UInt8) (ho : LEv.opened s unit ∈ v.log) (q : AnyReq) (tmo : Nat) :
    ∃ w uid, v.step env (.send s q tmo) = .ret w ∧ w.log = v.log ++ [.ch (.call uid unit q tmo)] ∧ ∀ unit' q' tmo', LEv.ch (.call uid unit' q' tmo') ∉ v.log := by
  obtain ⟨p, hp, rfl⟩ := opened_session h ho
  obtain ⟨c, -, -, -, -, -, -, hc⟩ := Pcl.submit_eq env v p.unit q tmo
  refine ⟨_, v.cli.nextUid, by simp only [Pcl.step, hp]; exact hc, rfl, fun unit' q' tmo' hm => ?_⟩
  have h1 : CEv.call v.cli.nextUid unit' q' tmo' ∈ v.cli.log := by rw [h.inv.1.chan, List.append_nil]; exact mem_ofChannel.2 hm
  exact Nat.lt_irrefl _ (h.inv.1.reach.inv.1.callBound h1)

example := C111_one_time_sent demoEnv pdemo (pdemo_reach _ _) 1 2 (by decide +kernel) reqA 30

/-- A task of scheduled request `i` is run. -/
theorem pcl_poll_task {env : ClientEnv} {y : Pcl} (hy : LReach env y) {s i : Nat} {t : PTask} {py : PSess} {ts : List SessTask} (hp : y.sess[s]? = some py)
    (ht : py.sess.tasks = .poll i t :: ts) : ∃ z, y.step env (.sess s .runTask) = .ret z ∧
      (t = .stop → z.log = y.log ++ [.sess s (.poll i .stopped)]) ∧ (∀ g, t = .setFrequency g → z.log = y.log ++ [.sess s (.poll i (.frequency g))]) ∧
      (t = .start → pollOn (ofPoll s i y.log) = false → ∃ id now uid unit q tmo f, id ∉ pollsSent (ofPoll s i y.log) ∧
        LEv.opened s unit ∈ y.log ∧ LEv.scheduled s i q tmo f ∈ y.log ∧
        z.log = y.log ++ [.sess s (.poll i .started), .sess s (.poll i (.sent id now)), .ch (.call uid unit q tmo)]) := by
  have hok := hy.inv.1.sessions s py hp
  obtain ⟨z, new, hz, -⟩ := hy.inv.1.step hy.inv.2 (.sess s .runTask)
  refine ⟨z, hz, ?_⟩
  have hstep : y.sessStep env s .runTask = .ret z := by simpa [Pcl.step, Pcl.ownSess] using hz
  obtain ⟨sops, hs, -⟩ := hok.lives
  rw [hs] at ht
  have hh := Sess_poll_task sops i t ts ht
  rw [Sess_split', ← hs] at hh
  rw [← hs] at ht
  have mute : ∀ es : List SessEv, (py.sess.step .runTask).log = py.sess.log ++ es → (∀ e ∈ es, e.mute = true) → z.log = y.log ++ es.map (.sess s) := by
    intro es h1 h2
    rw [Pcl.sessStep_mute env hp h1 h2] at hstep
    injection hstep with hstep; rw [← hstep]
  refine ⟨?_, ?_, ?_⟩
  · rintro rfl
    exact mute _ hh (by simp [SessEv.mute])
  · rintro g rfl
    exact mute _ hh (by simp [SessEv.mute])
  · rintro rfl hoff
    have heff : ofPoll s i y.log = effectsOf i py.sess.log := by rw [Spec.ofPoll, hok.log]
    rw [heff] at hoff ⊢
    obtain ⟨id, now, h1, h2⟩ := hh hoff
    have hi : i < py.reqs.length := by rw [hok.reqs]; exact hok.lives.good.tasks i .start (by rw [ht]; simp)
    obtain ⟨r, hr⟩ : ∃ r, py.reqs[i]? = some r := ⟨_, List.getElem?_eq_getElem hi⟩
    obtain ⟨f, hf⟩ := hok.what i r hr
    rw [Pcl.sessStep_sent env hp (es := [.poll i .started]) (by rw [h2]; rfl) (by simp [SessEv.mute]) hr] at hstep
    obtain ⟨c, -, -, -, -, -, -, hc⟩ := Pcl.submit_eq env { y with sess := y.sess.set s { py with sess := py.sess.step .runTask }, log := y.log ++ [SessEv.poll i .started].map (.sess s) ++ [.sess s (.poll i (.sent id now))], owner := y.owner ++ [(y.cli.nextUid, s, i, id)] } py.unit r.1 r.2
    rw [hc] at hstep
    injection hstep with hstep
    exact ⟨id, now, y.cli.nextUid, py.unit, r.1, r.2, f, h1, hok.unit, hf, by rw [← hstep]; simp⟩

/-- C111: every call on a session that has been opened is accepted and posted: `shutdown`, the end of `schedule_request`, and `start`, `stop` and
`set_frequency` of one of its requests.  Nothing else happens during the call. -/
theorem C111_calls_accepted (env : ClientEnv) (v : Pcl) (h : LReach env v) (s : Nat) (unit : UInt8) (ho : LEv.opened s unit ∈ v.log) (op : Sess.Op)
    (hop : op = .shutdown ∨ (∃ i, op = .register i) ∨ ∃ i t, op = .call i t) :
    ∃ w, v.step env (.api s op) = .ret w ∧ w.log = v.log ++ [.api s op] := by
  obtain ⟨p, hp, -⟩ := opened_session h ho
  have hs := (List.getElem?_eq_some_iff.1 hp).1
  have hst := Pcl.sessStep_mute env (v := { v with log := v.log ++ [LEv.api s op] }) (s := s) (p := p) hp (op := op) (es := [])
    (by rcases hop with rfl | ⟨i, rfl⟩ | ⟨i, t, rfl⟩ <;> simp [Sess.step] <;> split <;> rfl) (by simp)
  have hu : Pcl.userCall op = true := by rcases hop with rfl | ⟨i, rfl⟩ | ⟨i, t, rfl⟩ <;> rfl
  refine ⟨_, by rw [Pcl.step, if_pos ⟨hu, hs⟩, hst], by simp⟩

example := C111_calls_accepted demoEnv pdemo (pdemo_reach _ _) 1 2 (by decide +kernel) (.call 0 .stop) (.inr (.inr ⟨_, _, rfl⟩))

/-- C111: a call of `start`, `stop` or `set_frequency` on a scheduled request takes effect when the tasks queued before it for that session have run. -/
theorem C111_calls_are_heard (env : ClientEnv) (v w : Pcl) (h : LReach env v) (s i : Nat) (t : PTask) (hi : i ∈ schedulings s v.log)
    (hw : v.step env (.api s (.call i t)) = .ret w) (ops : List Pcl.Op) (hn : queued s v < turnsOf s ops) :
    ∃ ops1 ops2 y z, ops = ops1 ++ .sess s .runTask :: ops2 ∧ w.run env ops1 = .ret y ∧ y.step env (.sess s .runTask) = .ret z ∧
      (t = .stop → z.log = y.log ++ [.sess s (.poll i .stopped)]) ∧ (∀ g, t = .setFrequency g → z.log = y.log ++ [.sess s (.poll i (.frequency g))]) ∧
      (t = .start → pollOn (ofPoll s i y.log) = false → ∃ id now uid unit q tmo f, id ∉ pollsSent (ofPoll s i y.log) ∧
        LEv.opened s unit ∈ y.log ∧ LEv.scheduled s i q tmo f ∈ y.log ∧
        z.log = y.log ++ [.sess s (.poll i .started), .sess s (.poll i (.sent id now)), .ch (.call uid unit q tmo)]) := by
  obtain ⟨p, hp, hlt⟩ := scheduled_session h hi
  have hs := (List.getElem?_eq_some_iff.1 hp).1
  have hq : w.sess[s]? = some { p with sess := p.sess.step (.call i t) } := by
    rcases h.inv.1.api hw with he | ⟨p', new, hp', -, hw', -⟩
    · simp only [Pcl.step, Pcl.userCall, hs, and_self, if_true] at hw
      simp only [Pcl.sessStep, hp] at hw
      have := Pcl.fromSess_sess _ hw
      rw [this]; exact List.getElem?_set_self hs
    · rw [hp] at hp'; injection hp' with hp'; subst hp'
      rw [hw']; exact List.getElem?_set_self hs
  have htk : (p.sess.step (.call i t)).tasks = p.sess.tasks ++ .poll i t :: [] := by simp only [Sess.step, if_pos hlt]
  obtain ⟨ops1, ops2, y, py, ts', h1, h2, h3, h4, h5⟩ := pcl_turn s ops w (h.step hw) _ _ _ _ hq htk (by simpa [queued, hp] using hn)
  obtain ⟨z, hz, h6⟩ := pcl_poll_task h3 h4 h5
  exact ⟨ops1, ops2, y, z, h1, h2, hz, h6⟩

/-- Session 1 has a registration queued when its first request is stopped. -/
example := C111_calls_are_heard demoEnv pdemo (pdemoState demoEnv (pdemoOps ++ [.api 1 (.call 0 .stop)])) (pdemo_reach _ _) 1 0 .stop (by decide +kernel)
  (by rfl) [.tick 3, .sess 1 .runTask, .sess 0 .runTask, .sess 1 .runTask, .sess 1 .runTask] (by decide +kernel)

theorem Poll_nextId_mono (v : Poll) (op : Poll.Op) : v.nextId ≤ (v.step op).nextId := by
  cases op with
  | runTask =>
    simp only [Poll.step]
    split
    · exact Nat.le_refl _
    · rename_i t ts _
      cases t <;> simp only [Poll.runTask] <;> (try split) <;> simp [Poll.execute, Poll.emit, Poll.cancelTimer]
      split <;> simp
  | respond id =>
    simp only [Poll.step]
    split
    · by_cases hr : v.running <;> simp [Poll.onResponse, Poll.emit, hr]
    · exact Nat.le_refl _
  | expire t =>
    simp only [Poll.step]
    split
    · exact Nat.le_refl _
    · split <;> simp
  | runTimer t =>
    simp only [Poll.step]
    split
    · simp [Poll.execute, Poll.emit]
    · exact Nat.le_refl _
  | _ => exact Nat.le_refl _

/-- A request that was started has been sent. -/
theorem Poll_started_sent (f : Nat) (ops : List Poll.Op) : PEv.started ∈ ((Poll.init f).run ops).log → 0 < ((Poll.init f).run ops).nextId := by
  induction ops using List.reverseRecOn with
  | nil => intro h; simp [Poll.run, Poll.init] at h
  | append_singleton ops op ih =>
    rw [Poll.run_snoc']
    obtain ⟨v, hv⟩ : ∃ v, v = (Poll.init f).run ops := ⟨_, rfl⟩
    rw [← hv] at ih ⊢
    intro h
    by_cases ho : PEv.started ∈ v.log
    · exact Nat.lt_of_lt_of_le (ih ho) (Poll_nextId_mono v op)
    · cases op with
      | runTask =>
        simp only [Poll.step] at h ⊢
        split at h
        · exact absurd h ho
        · rename_i t ts _
          cases t with
          | start =>
            simp only [Poll.runTask] at h ⊢
            split at h
            · exact absurd h ho
            · rename_i hr
              rw [if_neg hr]; simp [Poll.execute]
          | stop =>
            simp only [Poll.runTask] at h
            split at h <;> simp [Poll.emit, Poll.cancelTimer_log, ho] at h
          | setFrequency g => simp [Poll.runTask, Poll.emit, ho] at h
      | respond id =>
        simp only [Poll.step] at h
        split at h
        · by_cases hr : v.running <;> simp [Poll.onResponse, Poll.emit, hr, ho] at h
        · exact absurd h ho
      | expire t =>
        simp only [Poll.step] at h
        split at h
        · exact absurd h ho
        · split at h <;> exact absurd h ho
      | runTimer t =>
        simp only [Poll.step] at h
        split at h
        · simp [Poll.execute, Poll.emit, ho] at h
        · exact absurd h ho
      | _ => exact absurd h ho

/-- C111: a scheduled request is polled for the first time when the tasks queued before it for its session have run. -/
theorem C111_scheduled_is_polled (env : ClientEnv) (v w : Pcl) (h : LReach env v) (s : Nat) (unit : UInt8) (ho : LEv.opened s unit ∈ v.log) (q : AnyReq) (tmo f : Nat)
    (hw : v.step env (.schedule s q tmo f) = .ret w) :
    ∃ i, i ∉ schedulings s v.log ∧ w.log = v.log ++ [.scheduled s i q tmo f] ∧ ∀ ops x, queued s v < turnsOf s ops → w.run env ops = .ret x →
      ∃ new now, x.log = w.log ++ new ∧ LEv.sess s (.poll i .started) ∈ new ∧ LEv.sess s (.poll i (.sent 0 now)) ∈ new := by
  obtain ⟨p, hp, -⟩ := opened_session h ho
  have hok := h.inv.1.sessions s p hp
  have hs := (List.getElem?_eq_some_iff.1 hp).1
  have key : w.log = v.log ++ [.scheduled s p.reqs.length q tmo f] ∧ w.sess = v.sess.set s { p with sess := p.sess.step (.schedule f), reqs := p.reqs ++ [(q, tmo)] } := by
    rcases PInv.schedule hw with he | ⟨p', hp', h1, h2⟩
    · exfalso
      have h1 : v.step env (.schedule s q tmo f) = .ret v := by rw [hw, he]
      have hst := Pcl.sessStep_mute env (v := { v with sess := v.sess.set s { p with reqs := p.reqs ++ [(q, tmo)] }, log := v.log ++ [LEv.scheduled s p.reqs.length q tmo f] })
        (s := s) (p := { p with reqs := p.reqs ++ [(q, tmo)] }) (by simp [hs]) (op := .schedule f) (es := []) (by simp [Sess.step]) (by simp)
      simp only [Pcl.step, hp, hst] at h1
      injection h1 with h1
      have := congrArg (fun x => x.log.length) h1
      simp at this
    · rw [hp] at hp'; injection hp' with hp'; subst hp'; exact ⟨h1, h2⟩
  obtain ⟨hlog, hsess⟩ := key
  refine ⟨p.reqs.length, by rw [hok.known]; simp, hlog, fun ops x hn hx => ?_⟩
  have hq : w.sess[s]? = some { p with sess := p.sess.step (.schedule f), reqs := p.reqs ++ [(q, tmo)] } := by rw [hsess]; exact List.getElem?_set_self hs
  have htk : (p.sess.step (.schedule f)).tasks = p.sess.tasks ++ .poll p.reqs.length .start :: [] := by simp only [Sess.step, hok.reqs]
  have hwr := h.step hw
  obtain ⟨ops1, ops2, y, py, ts', h1, h2, h3, h4, h5⟩ := pcl_turn s ops w hwr _ _ _ _ hq htk (by simpa [queued, hp] using hn)
  obtain ⟨z, hz, -, -, h6⟩ := pcl_poll_task h3 h4 h5
  have hzr := h3.step hz
  obtain ⟨x', new1, f1, f2, -, f4⟩ := Pcl.run_good ops2 hzr.inv.1 hzr.inv.2
  obtain ⟨x'', new2, g1, g2, -, g4⟩ := Pcl.run_good ops hwr.inv.1 hwr.inv.2
  have hxx : x' = x ∧ x'' = x := by
    rw [g1] at hx
    injection hx with hx
    rw [h1, pcl_run_append ops1 _ _ _ h2, Pcl.run, hz, CM.ret_bind, f1] at g1
    injection g1 with g1
    exact ⟨g1.trans hx, hx⟩
  obtain ⟨h8, h9⟩ := hxx
  rw [h8] at f1 f2 f4
  rw [h9] at g1 g2 g4
  have hst : PEv.started ∈ ofPoll s p.reqs.length x.log := by
    rw [f4.log]
    cases hon : pollOn (ofPoll s p.reqs.length y.log) with
    | true =>
      have h7 := mem_ofPoll.1 (Sess.pollOn_started _ hon)
      obtain ⟨z', new3, k1, k2⟩ := h3.inv.1.step h3.inv.2 (.sess s .runTask)
      rw [hz] at k1; injection k1 with k1; subst k1
      rw [mem_ofPoll, k2.follows.log]
      exact List.mem_append_left _ (List.mem_append_left _ h7)
    | false =>
      obtain ⟨id, now, uid, unit, q', tmo', f', -, -, -, k⟩ := h6 rfl hon
      rw [mem_ofPoll, k]; simp
  obtain ⟨p', e1, e2⟩ := g4.sess s _ hq
  have hok' := g2.sessions s p' e1
  have hlt : p.reqs.length < p'.sess.polls.length := by
    obtain ⟨sops, a1, -⟩ := e2.ops
    rw [a1]
    refine Nat.lt_of_lt_of_le ?_ (Sess.run_length sops _)
    simp [Sess.step, hok.reqs]
  have hpl : p'.sess.polls[p.reqs.length]? = some p'.sess.polls[p.reqs.length] := List.getElem?_eq_getElem hlt
  have hsent : ∃ now, PEv.sent 0 now ∈ ofPoll s p.reqs.length x.log := by
    refine mem_pollsSent.1 ?_
    have heff : ofPoll s p.reqs.length x.log = p'.sess.polls[p.reqs.length].log := by
      rw [Spec.ofPoll, hok'.log, hok'.lives.good.effects _ _ hpl]
    rw [heff] at hst ⊢
    rw [hok'.lives.sentIds hpl, List.mem_range]
    obtain ⟨f0, pops, hv⟩ := hok'.lives.poll hpl
    have := Poll_started_sent f0 pops
    rw [← hv] at this
    exact this hst
  obtain ⟨now, hsent⟩ := hsent
  have hnone : ofPoll s p.reqs.length w.log = [] := by
    rw [Spec.ofPoll, hlog, ofSession_append, hok.log]
    have : ofSession s [LEv.scheduled s p.reqs.length q tmo f] = [] := rfl
    rw [this, List.append_nil]
    exact hok.lives.good.fresh _ (by rw [hok.reqs])
  have hin : ∀ e, e ∈ ofPoll s p.reqs.length x.log → LEv.sess s (.poll p.reqs.length e) ∈ new2 := by
    intro e he
    have := mem_ofPoll.1 he
    rw [g4.log] at this
    rcases List.mem_append.1 this with h8 | h8
    · have := mem_ofPoll.2 h8; rw [hnone] at this; exact absurd this (by simp)
    · exact h8
  exact ⟨new2, now, g4.log, hin _ hst, hin _ hsent⟩

example : ∃ i, i ∉ schedulings 1 pdemo.log ∧ ∃ w, pdemo.step demoEnv (.schedule 1 reqA 5 6) = .ret w ∧ ∃ x,
    w.run demoEnv [.tick 3, .sess 1 .runTask, .sess 0 .runTask, .sess 1 .runTask, .sess 1 .runTask] = .ret x ∧ ∃ now, LEv.sess 1 (.poll i (.sent 0 now)) ∈ x.log := by
  obtain ⟨w, new, hw, -⟩ := (pdemo_reach demoEnv pdemoOps).inv.1.step (pdemo_reach demoEnv pdemoOps).inv.2 (.schedule 1 reqA 5 6)
  obtain ⟨i, h1, -, h3⟩ := C111_scheduled_is_polled demoEnv pdemo w (pdemo_reach _ _) 1 2 (by decide +kernel) reqA 5 6 hw
  have hr := (pdemo_reach demoEnv pdemoOps).step hw
  obtain ⟨x, new', hx, -⟩ := Pcl.run_good [.tick 3, .sess 1 .runTask, .sess 0 .runTask, .sess 1 .runTask, .sess 1 .runTask] hr.inv.1 hr.inv.2
  obtain ⟨n, now, e1, -, e3⟩ := h3 _ x (by decide +kernel) hx
  exact ⟨i, h1, w, hw, x, hx, now, by rw [e1]; exact List.mem_append_right _ e3⟩

/-- C114: also a session that is shut down by the user polls no more, unless a request is started again (requests whose `schedule_request` has returned). -/
theorem C114_session_ends_partial (env : ClientEnv) (v w x : Pcl) (h : LReach env v) (s i : Nat) (hreg : RegisteredIn s i v.log) (hsd : LEv.api s .shutdown ∉ v.log)
    (hd : LEv.ch .tcpShutdown ∉ v.log) (hw : v.step env (.api s .shutdown) = .ret w) (ops : List Pcl.Op) (hx : w.run env ops = .ret x) (new : List LEv)
    (hl : x.log = w.log ++ new) (hst : LEv.api s (.call i .start) ∉ new) (ht : queued s x = 0) : pollOn (ofPoll s i x.log) = false := by
  obtain ⟨p, hp, hlt⟩ := scheduled_session h hreg.scheduled
  have hs := (List.getElem?_eq_some_iff.1 hp).1
  obtain ⟨-, hk⟩ := h.ending.up s p hp hsd hd
  have hdy := Sess.Dying.shutdown (hk i hreg)
  have hq : w.sess[s]? = some { p with sess := p.sess.step .shutdown } := by
    simp only [Pcl.step, Pcl.userCall, hs, and_self, if_true] at hw
    simp only [Pcl.sessStep, hp] at hw
    have := Pcl.fromSess_sess _ hw
    rw [this]; exact List.getElem?_set_self hs
  have hwr := h.step hw
  obtain ⟨x', new', e1, e2, -, e4⟩ := Pcl.run_good ops hwr.inv.1 hwr.inv.2
  rw [hx] at e1; injection e1 with e1; subst e1
  have hnew : new' = new := by
    have := e4.log; rw [hl] at this; exact (List.append_cancel_left this).symm
  subst hnew
  obtain ⟨p', g1, g2⟩ := e4.sess s _ hq
  obtain ⟨sops, a1, a2, -⟩ := g2.ops
  have hlt' : i < (p.sess.step .shutdown).polls.length := hlt
  have hdy' := Sess.Dying.run sops hdy hlt' fun hm => hst (a2 _ hm)
  rw [← show p'.sess = (p.sess.step .shutdown).run sops from a1] at hdy'
  have hok := e2.sessions s p' g1
  have hi : i < p'.sess.polls.length := by
    rw [a1]; exact Nat.lt_of_lt_of_le hlt' (Sess.run_length sops _)
  have hpl : p'.sess.polls[i]? = some p'.sess.polls[i] := List.getElem?_eq_getElem hi
  have htk : p'.sess.tasks = [] := by simpa [queued, g1] using ht
  have hoff := hdy'.off htk _ hpl
  unfold Spec.ofPoll
  rw [hok.log, hok.lives.good.effects i _ hpl]
  obtain ⟨f, pops, hv⟩ := hok.lives.poll hpl
  have := Poll.running_run f pops
  rw [← hv] at this
  simp only [Poll.withTasks] at this
  rw [← this]; exact hoff

/-- The first request of session 1 is being polled when the session is shut down. -/
example : RegisteredIn 1 0 pdemo.log ∧ LEv.api 1 .shutdown ∉ pdemo.log ∧ LEv.ch .tcpShutdown ∉ pdemo.log ∧ pollOn (ofPoll 1 0 pdemo.log) = true ∧
    queued 1 (pdemoState demoEnv (pdemoOps ++ [.api 1 .shutdown, .sess 1 .runTask, .sess 1 .runTask, .sess 1 .runTask])) = 0 :=
  ⟨⟨pdemo.log.take 7, pdemo.log.drop 8, reqA, 20, 50, by decide +kernel, by decide +kernel⟩, by decide +kernel, by decide +kernel, by decide +kernel, by decide +kernel⟩

end Modbus.Props
