import Verif.Props.WorldExactly
import Verif.Props.PollingCauses

/-!
C149: how often a device is asked by a scheduled request.
-/

namespace Modbus

open Spec

namespace Poll

/-- From each poll on, there have passed by `x` as many polling times `f` as polls have been sent from it on. -/
def Lag (f : Nat) (l : List PEv) (x : Nat) : Prop := ∀ a id t b, l = a ++ .sent id t :: b → t + ((pollsSent b).length + 1) * f ≤ x

/-- From each poll to each later one there pass as many polling times `f` as polls are sent. -/
def Paced (f : Nat) (l : List PEv) : Prop := ∀ a id t b id' t' c, l = a ++ .sent id t :: (b ++ .sent id' t' :: c) → t + ((pollsSent b).length + 1) * f ≤ t'

theorem Lag.mono {f : Nat} {l : List PEv} {x y : Nat} (h : Lag f l x) (hle : x ≤ y) : Lag f l y := fun a id t b he => Nat.le_trans (h a id t b he) hle

theorem snoc_split {l a b : List PEv} {e x : PEv} (h : l ++ [e] = a ++ x :: b) : (a = l ∧ x = e ∧ b = []) ∨ ∃ b', b = b' ++ [e] ∧ l = a ++ x :: b' := by
  rcases List.eq_nil_or_concat b with rfl | ⟨b', y, rfl⟩
  · obtain ⟨h1, h2⟩ := List.append_inj' h rfl
    injection h2 with h2
    exact .inl ⟨h1.symm, h2.symm, rfl⟩
  · rw [List.concat_eq_append, show a ++ x :: (b' ++ [y]) = (a ++ x :: b') ++ [y] by simp] at h
    obtain ⟨h1, h2⟩ := List.append_inj' h rfl
    injection h2 with h2
    exact .inr ⟨b', by rw [List.concat_eq_append, h2], h1⟩

theorem Lag.other {f : Nat} {l : List PEv} {x : Nat} (h : Lag f l x) {e : PEv} (he : ∀ id t, e ≠ .sent id t) : Lag f (l ++ [e]) x := by
  intro a id t b hl
  rcases snoc_split hl with ⟨_, h1, _⟩ | ⟨b', rfl, h1⟩
  · exact absurd h1.symm (he id t)
  · have : pollsSent [e] = [] := by cases e <;> first | rfl | exact absurd rfl (he _ _)
    rw [pollsSent_append, this, List.append_nil]
    exact h a id t b' h1

theorem Lag.poll {f : Nat} {l : List PEv} {x : Nat} (h : Lag f l x) (id : Nat) : Lag f (l ++ [.sent id x]) (x + f) := by
  intro a id' t' b hl
  rcases snoc_split hl with ⟨_, h1, rfl⟩ | ⟨b', rfl, h1⟩
  · injection h1 with _ h1
    simp [pollsSent, h1]
  · have := h a id' t' b' h1
    rw [pollsSent_append, show pollsSent [PEv.sent id x] = [id] from rfl, List.length_append, List.length_singleton, Nat.add_mul _ 1 f, Nat.one_mul]
    omega

theorem Paced.other {f : Nat} {l : List PEv} (h : Paced f l) {e : PEv} (he : ∀ id t, e ≠ .sent id t) : Paced f (l ++ [e]) := by
  intro a id t b id' t' c hl
  rw [show a ++ PEv.sent id t :: (b ++ .sent id' t' :: c) = (a ++ .sent id t :: b) ++ .sent id' t' :: c by simp] at hl
  rcases snoc_split hl with ⟨_, h1, _⟩ | ⟨b', rfl, h1⟩
  · exact absurd h1.symm (he id' t')
  · exact h a id t b id' t' b' (by rw [h1]; simp)

theorem Paced.poll {f : Nat} {l : List PEv} (h : Paced f l) {id t : Nat} (ht : Lag f l t) : Paced f (l ++ [.sent id t]) := by
  intro a id1 t1 b id' t' c hl
  rw [show a ++ PEv.sent id1 t1 :: (b ++ .sent id' t' :: c) = (a ++ .sent id1 t1 :: b) ++ .sent id' t' :: c by simp] at hl
  rcases snoc_split hl with ⟨h1, h2, _⟩ | ⟨b', rfl, h1⟩
  · injection h2 with _ h2
    rw [h2]
    exact ht a id1 t1 b h1.symm
  · exact h a id1 t1 b id' t' b' (by rw [h1]; simp)

theorem Lag.silent {f : Nat} {l : List PEv} (h : pollsSent l = []) (x : Nat) : Lag f l x := by
  intro a id t b he
  rw [he, pollsSent_append] at h
  exact absurd (List.append_eq_nil_iff.1 h).2 (by simp [pollsSent])

/-- Invariant of a request that is started once and keeps its polling time. -/
structure Pacing (f : Nat) (v : Poll) : Prop where
  freq : v.freq = f
  fresh : v.log.count .started = 0 → pollsSent v.log = []
  paced : Paced f v.log
  reached : Lag f v.log (v.now + f)
  armed : ∀ x ∈ v.armed, Lag f v.log x.2
  fired : v.fired ≠ [] → Lag f v.log v.now

theorem mem_of_lookup {l : List (Nat × Nat)} {t d : Nat} (h : l.lookup t = some d) : (t, d) ∈ l := by
  induction l with
  | nil => cases h
  | cons x l ih =>
    obtain ⟨t', d'⟩ := x
    rw [List.lookup_cons] at h
    split at h
    · rename_i he
      injection h with h
      rw [h, show t = t' from by simpa using he]
      exact List.mem_cons_self
    · exact List.mem_cons_of_mem _ (ih h)

theorem Pacing.step {f : Nat} {v : Poll} (h : Pacing f v) (hr : Props.PReach f v) (op : Op) (hone : (v.step op).log.count .started ≤ 1)
    (hf : ∀ g, PEv.frequency g ∉ (v.step op).log) : Pacing f (v.step op) := by
  have hloops := Props.C58_one_per_start_partial f v hr
  cases op with
  | start => exact ⟨h.freq, h.fresh, h.paced, h.reached, h.armed, h.fired⟩
  | stop => exact ⟨h.freq, h.fresh, h.paced, h.reached, h.armed, h.fired⟩
  | setFrequency g => exact ⟨h.freq, h.fresh, h.paced, h.reached, h.armed, h.fired⟩
  | tick n =>
    refine ⟨h.freq, h.fresh, h.paced, h.reached.mono ?_, h.armed, fun hn => (h.fired hn).mono ?_⟩
    · simp only [Poll.step]; omega
    · simp only [Poll.step]; omega
  | expire t =>
    simp only [Poll.step]
    split
    · exact h
    · rename_i d hd
      split
      · rename_i hle
        refine ⟨h.freq, h.fresh, h.paced, h.reached, fun x hx => h.armed x (List.mem_of_mem_filter hx), fun _ => ?_⟩
        exact (h.armed _ (mem_of_lookup hd)).mono hle
      · exact h
  | respond id =>
    simp only [Poll.step]
    split
    · have hp : pollsSent (v.log ++ [PEv.handled id v.now]) = pollsSent v.log := by simp [pollsSent]
      have hc : (v.log ++ [PEv.handled id v.now]).count .started = v.log.count .started := by simp
      have hb : Pacing f ({ v with inFlight := v.inFlight.filter fun x => x ≠ id }.emit (.handled id v.now)) := by
        refine ⟨h.freq, fun h0 => ?_, h.paced.other (by simp), ?_, fun x hx => ?_, fun hn => ?_⟩
        · simp only [emit] at h0 ⊢
          rw [hp]; exact h.fresh (by rw [← hc]; exact h0)
        · exact h.reached.other (by simp)
        · exact (h.armed x hx).other (by simp)
        · exact (h.fired hn).other (by simp)
      simp only [onResponse]
      split
      · refine ⟨hb.freq, hb.fresh, hb.paced, hb.reached, fun x hx => ?_, hb.fired⟩
        rcases List.mem_append.1 hx with hx | hx
        · exact hb.armed x hx
        · rw [List.mem_singleton.1 hx]
          have := hb.reached
          have hq := hb.freq
          simp only [emit] at this hq ⊢
          rw [hq]; exact this
      · exact hb
    · exact h
  | runTimer t =>
    simp only [Poll.step] at hone ⊢
    split
    · rename_i hm
      rw [if_pos hm] at hone
      have hlen : 0 < v.fired.length := List.length_pos_of_mem hm
      have hc : v.log.count .started ≤ 1 := by simpa [execute, emit] using hone
      have ha : v.armed = [] := List.length_eq_zero_iff.1 (by omega)
      have hpos : 0 < v.log.count .started := by omega
      have hfl : v.fired.filter (fun x => decide (x ≠ t)) = [] := by
        have h1 : v.fired.length = 1 := by omega
        obtain ⟨y, hy⟩ := List.length_eq_one_iff.1 h1
        rw [hy] at hm ⊢
        have : t = y := by simpa using hm
        subst this
        simp
      have hn := h.fired (List.ne_nil_of_mem hm)
      refine ⟨h.freq, fun h0 => ?_, ?_, ?_, fun x hx => ?_, fun hne => ?_⟩
      · simp [execute, emit] at h0
        omega
      · exact h.paced.poll hn
      · exact hn.poll v.nextId
      · simp only [execute, emit] at hx
        rw [ha] at hx; cases hx
      · exact absurd hfl (by simpa [execute, emit] using hne)
    · exact h
  | runTask =>
    simp only [Poll.step] at hone hf ⊢
    split
    · exact h
    · rename_i k ts hk
      simp only [hk] at hone hf
      cases k with
      | start =>
        by_cases hrun : v.running = true
        · simp only [runTask, hrun, if_true]
          exact ⟨h.freq, h.fresh, h.paced, h.reached, h.armed, h.fired⟩
        · simp only [runTask, hrun] at hone ⊢
          have hc : v.log.count .started = 0 := by
            simp [execute, emit] at hone
            exact hone
          have h0 := h.fresh hc
          have ha : v.armed = [] := List.length_eq_zero_iff.1 (by omega)
          have hfi : v.fired = [] := List.length_eq_zero_iff.1 (by omega)
          have hs : Lag f (v.log ++ [PEv.started]) v.now := .silent (by rw [pollsSent_append, h0]; rfl) _
          refine ⟨h.freq, fun hx => ?_, ?_, ?_, fun x hx => ?_, fun hne => ?_⟩
          · simp [execute, emit] at hx
          · exact (h.paced.other (e := .started) (by simp)).poll hs
          · exact hs.poll v.nextId
          · have hx : x ∈ v.armed := hx
            rw [ha] at hx; cases hx
          · exact absurd hfi hne
      | stop =>
        have hp : pollsSent (v.log ++ [PEv.stopped]) = pollsSent v.log := by simp [pollsSent]
        have hc : (v.log ++ [PEv.stopped]).count .started = v.log.count .started := by simp
        have hb : ∀ w : Poll, w.freq = v.freq → w.log = v.log ++ [.stopped] → w.now = v.now → (∀ x ∈ w.armed, x ∈ v.armed) → w.fired = v.fired → Pacing f w := by
          intro w e1 e2 e3 e4 e5
          refine ⟨e1.trans h.freq, fun h0 => ?_, ?_, ?_, fun x hx => ?_, fun hn => ?_⟩
          · rw [e2, hp]; exact h.fresh (by rw [← hc, ← e2]; exact h0)
          · rw [e2]; exact h.paced.other (by simp)
          · rw [e2, e3]; exact h.reached.other (by simp)
          · rw [e2]; exact (h.armed x (e4 x hx)).other (by simp)
          · rw [e2, e3]; exact (h.fired (e5 ▸ hn)).other (by simp)
        by_cases hrun : v.running = true
        · simp only [runTask, hrun, if_true, cancelTimer, emit]
          split
          · exact hb _ rfl rfl rfl (fun x hx => hx) rfl
          · exact hb _ rfl rfl rfl (fun x hx => List.mem_of_mem_filter hx) rfl
        · simp only [runTask, hrun]
          exact hb _ rfl rfl rfl (fun x hx => hx) rfl
      | setFrequency g => exact absurd (by simp [runTask, emit]) (hf g)

/-- A request that is started once and keeps its polling time `f` lets the time `f` pass from each poll to the next. -/
theorem once_paced (f : Nat) (ops : List Op) : ((init f).run ops).log.count .started ≤ 1 → (∀ g, PEv.frequency g ∉ ((init f).run ops).log) →
    Pacing f ((init f).run ops) := by
  induction ops using List.reverseRecOn with
  | nil =>
    intro _ _
    exact ⟨rfl, fun _ => rfl, fun a id t b id' t' c h => (by cases a <;> cases h), .silent rfl _, fun x hx => (by cases hx), fun h => absurd rfl h⟩
  | append_singleton ops op ih =>
    intro hone hf
    rw [run_snoc'] at hone hf ⊢
    have hm : ((init f).run ops).log <+: (((init f).run ops).step op).log := run_log_mono _ [op]
    exact (ih (Nat.le_trans (hm.sublist.count_le _) hone) fun g hg => hf g (hm.subset hg)).step ⟨ops, rfl⟩ op hone hf

end Poll

namespace Props

open PWorld

variable {W : Type}

theorem first_poll : ∀ l : List PEv, pollsSent l ≠ [] → ∃ a id t b, l = a ++ .sent id t :: b ∧ pollsSent a = [] := by
  intro l
  induction l with
  | nil => intro h; exact absurd rfl h
  | cons e l ih =>
    intro h
    by_cases he : ∃ id t, e = .sent id t
    · obtain ⟨id, t, rfl⟩ := he
      exact ⟨[], id, t, l, rfl, rfl⟩
    · have hk : ∀ k : List PEv, pollsSent (e :: k) = pollsSent k := by
        intro k
        cases e <;> first | rfl | exact absurd ⟨_, _, rfl⟩ he
      obtain ⟨a, id, t, b, h1, h2⟩ := ih (by rwa [hk] at h)
      exact ⟨e :: a, id, t, b, by rw [h1]; rfl, by rw [hk]; exact h2⟩

theorem last_poll : ∀ l : List PEv, pollsSent l ≠ [] → ∃ a id t b, l = a ++ .sent id t :: b ∧ pollsSent b = [] := by
  intro l
  induction l with
  | nil => intro h; exact absurd rfl h
  | cons e l ih =>
    intro h
    by_cases hl : pollsSent l = []
    · cases e with
      | sent id t => exact ⟨[], id, t, l, rfl, hl⟩
      | _ => exact absurd hl h
    · obtain ⟨a, id, t, b, h1, h2⟩ := ih hl
      exact ⟨e :: a, id, t, b, by rw [h1]; rfl, h2⟩

/-- Polls `f` apart, all between `S` and `T`: their number. -/
theorem paced_count {f S T : Nat} {l : List PEv} (h : Poll.Paced f l) (hle : ∀ id t, PEv.sent id t ∈ l → S ≤ t ∧ t ≤ T) :
    (pollsSent l).length * f ≤ T - S + f := by
  by_cases h0 : pollsSent l = []
  · rw [h0]; simp
  · obtain ⟨a, id, t, b, rfl, h2⟩ := first_poll l h0
    have ht := hle id t (by simp)
    have hc : pollsSent (PEv.sent id t :: b) = id :: pollsSent b := rfl
    rw [Poll.pollsSent_append, h2, hc, List.nil_append, List.length_cons, Nat.add_mul, Nat.one_mul]
    by_cases hb : pollsSent b = []
    · rw [hb]; simp
    · obtain ⟨b', id', t', c, rfl, h4⟩ := last_poll b hb
      have ht' := hle id' t' (by simp)
      have := h a id t b' id' t' c rfl
      have hc' : pollsSent (PEv.sent id' t' :: c) = id' :: pollsSent c := rfl
      rw [Poll.pollsSent_append, hc', h4, List.length_append, List.length_singleton]
      omega

/-- The polls of a scheduled request on which the user calls neither `start` nor `set_frequency` are at least its polling time apart. -/
theorem polls_paced {env : ClientEnv} {v : Pcl} (h : LReach env v) {s i : Nat} {q : AnyReq} {tmo f : Nat} (hf : LEv.scheduled s i q tmo f ∈ v.log)
    (hn : LEv.api s (.call i .start) ∉ v.log) (hg : ∀ g, LEv.api s (.call i (.setFrequency g)) ∉ v.log) : Poll.Paced f (ofPoll s i v.log) := by
  have hone := (C111_causes env v h s i).2.2.2 hn
  have hset := (C111_causes env v h s i).2.2.1
  obtain ⟨p, hp, hlt⟩ := scheduled_session h (List.mem_filterMap.2 ⟨_, hf, by simp⟩ : i ∈ schedulings s v.log)
  have hok := h.inv.1.sessions s _ hp
  have hq : p.sess.polls[i]? = some p.sess.polls[i] := List.getElem?_eq_getElem hlt
  obtain ⟨q', tmo', f', h1, pops, h2⟩ := h.clocked s i _ hp hlt
  have hff : f' = f := (scheduled_unique h h1 hf).2.2
  subst hff
  have hlog : ofPoll s i v.log = ((Poll.init f').run pops).log := by
    unfold Spec.ofPoll
    rw [hok.log, hok.lives.good.effects i _ hq]
    simp only [Sess.view, hq, Option.map_some, Option.some.injEq] at h2
    rw [← h2]; rfl
  rw [hlog] at hone ⊢
  exact (Poll.once_paced f' pops hone fun g hm => hg g (hset g (by rw [hlog]; exact hm))).paced

/-! ### C149 -/

/-- C149, to be wished for: of what only one scheduled request asks, on which the user calls neither `start` nor `set_frequency`, and whose polls
are all sent between the times `S` and `T`, the server executes not more than `T - S` divided by the polling time `f`, plus one. -/
def C149_Statement : Prop := ∀ (W : Type) (env : WorldEnv W) (w : W) (v : PWorld W), PWReach env w v → ∀ (j s i : Nat) (unit : UInt8) (q : AnyReq) (tmo f S T : Nat),
  AskedOnlyBy s i unit q (atClient j v.log) → LEv.scheduled s i q tmo f ∈ atClient j v.log → LEv.api s (.call i .start) ∉ atClient j v.log →
  (∀ g, LEv.api s (.call i (.setFrequency g)) ∉ atClient j v.log) → (∀ id t, LEv.sess s (.poll i (.sent id t)) ∈ atClient j v.log → S ≤ t ∧ t ≤ T) →
  timesExecuted env j unit q (svLog (atServer v.log)) * f ≤ T - S + f

/-- **C149** (part): it is so for clients that send calmly.
Missing from C149: the other histories (`C149_violated`). -/
theorem C149_rate_partial (env : WorldEnv W) (w : W) (v : PWorld W) (h : PWReach env w v) (j s i : Nat) (unit : UInt8) (q : AnyReq) (tmo f S T : Nat)
    (hc : CalmPollingSending env j v) (ha : AskedOnlyBy s i unit q (atClient j v.log)) (hf : LEv.scheduled s i q tmo f ∈ atClient j v.log)
    (hn : LEv.api s (.call i .start) ∉ atClient j v.log) (hg : ∀ g, LEv.api s (.call i (.setFrequency g)) ∉ atClient j v.log)
    (hT : ∀ id t, LEv.sess s (.poll i (.sent id t)) ∈ atClient j v.log → S ≤ t ∧ t ≤ T) :
    timesExecuted env j unit q (svLog (atServer v.log)) * f ≤ T - S + f := by
  have hle := C147_not_more_than_polled_partial env w v h j s i unit q hc ha
  obtain ⟨hr, hlog⟩ := h.good.client j
  rw [← hlog] at hle hf hn hg hT
  have hp := polls_paced hr hf hn hg
  exact Nat.le_trans (Nat.mul_le_mul_right f hle) (paced_count hp fun id t hm => hT id t (mem_ofPoll.1 hm))

/-- **C149** (part): the client alone, in any history: from each poll of such a request to each later one, the polling time passes as many times as polls
are sent. -/
theorem C149_paced_partial (env : ClientEnv) (v : Pcl) (h : LReach env v) (s i : Nat) (q : AnyReq) (tmo f : Nat) (hf : LEv.scheduled s i q tmo f ∈ v.log)
    (hn : LEv.api s (.call i .start) ∉ v.log) (hg : ∀ g, LEv.api s (.call i (.setFrequency g)) ∉ v.log) (a b c : List LEv) (id t id' t' : Nat)
    (he : v.log = a ++ .sess s (.poll i (.sent id t)) :: (b ++ .sess s (.poll i (.sent id' t')) :: c)) :
    t + ((pollsSent (ofPoll s i b)).length + 1) * f ≤ t' := by
  have hcons : ∀ (e : PEv) (l : List LEv), ofPoll s i (.sess s (.poll i e) :: l) = e :: ofPoll s i l := by
    intro e l
    simp [Spec.ofPoll, ofSession, effectsOf]
  refine polls_paced h hf hn hg (ofPoll s i a) id t (ofPoll s i b) id' t' (ofPoll s i c) ?_
  rw [he, ofPoll_append, hcons, ofPoll_append, hcons]

/-- The first request of session 0 in the demonstration of C115 is polled at 0 and at 110; its polling time is 100. -/
example : ∃ a b c, spacedDemo.log = a ++ .sess 0 (.poll 0 (.sent 0 0)) :: (b ++ .sess 0 (.poll 0 (.sent 1 110)) :: c) ∧
    0 + ((pollsSent (ofPoll 0 0 b)).length + 1) * 100 ≤ 110 := by
  have hl : spacedDemo.log = spacedDemo.log.take 24 ++ .sess 0 (.poll 0 (.sent 1 110)) :: spacedDemo.log.drop 25 := by decide +kernel
  have hk : spacedDemo.log.take 24 = spacedDemo.log.take (spacedDemo.log.findIdx (· == .sess 0 (.poll 0 (.sent 0 0)))) ++ .sess 0 (.poll 0 (.sent 0 0)) ::
      (spacedDemo.log.take 24).drop (spacedDemo.log.findIdx (· == .sess 0 (.poll 0 (.sent 0 0))) + 1) := by decide +kernel
  rw [hk, List.append_assoc, List.cons_append] at hl
  refine ⟨_, _, _, hl, C149_paced_partial demoEnv spacedDemo (pdemo_reach _ _) 0 0 reqA 10 100 (by decide +kernel) (by decide +kernel) ?_ _ _ _ 0 0 1 110 hl⟩
  intro g hm
  have : (spacedDemo.log.any fun e => match e with | .api 0 (.call 0 (.setFrequency _)) => true | _ => false) = true := List.any_eq_true.2 ⟨_, hm, rfl⟩
  exact absurd this (by decide +kernel)

/-- Is this a call of `start` or `set_frequency`, or a poll of request `i` later than at 10? -/
def unpaced (i : Nat) : LEv → Bool
  | .api _ (.call _ .start) => true
  | .api _ (.call _ (.setFrequency _)) => true
  | .sess _ (.poll k (.sent _ t)) => decide (k = i) && !decide (t ≤ 10)
  | _ => false

/-- The hypotheses can be met: as for C147; the client's only poll has been executed by the time 10. -/
example : ∃ v, PWReach (wenv oneRegister 1) 0 v ∧ timesExecuted (wenv oneRegister 1) 0 1 ⟨.writeSingleRegister, ⟨3, 42⟩⟩ (svLog (atServer v.log)) = 1 ∧
    timesExecuted (wenv oneRegister 1) 0 1 ⟨.writeSingleRegister, ⟨3, 42⟩⟩ (svLog (atServer v.log)) * 1000 ≤ 10 - 0 + 1000 := by
  obtain ⟨v, h1, h2⟩ := any_pwdemo (env := wenv oneRegister 1) (w := 0) (ops := ptwo) (Q := fun v => calmChk 0 [0] v.flat &&
    (askedOnlyBy 0 0 1 ⟨.writeSingleRegister, ⟨3, 42⟩⟩ none (atClient 0 v.log) &&
     (decide (timesExecuted (wenv oneRegister 1) 0 1 ⟨.writeSingleRegister, ⟨3, 42⟩⟩ (svLog (atServer v.log)) = 1 ∧
      LEv.scheduled 0 0 ⟨.writeSingleRegister, ⟨3, 42⟩⟩ 10 1000 ∈ atClient 0 v.log) && (atClient 0 v.log).all fun e => !unpaced 0 e))) (by decide +kernel)
  simp only [Bool.and_eq_true, decide_eq_true_eq, List.all_eq_true] at h2
  obtain ⟨h2, h3, ⟨h4, h5⟩, h6⟩ := h2
  exact ⟨v, h1, h4, C149_rate_partial _ 0 v h1 0 0 0 1 _ 10 1000 0 10 (calmChk_polling h2).sending (askedOnlyBy_iff h3) h5 (fun hm => by have := h6 _ hm; cases this)
    (fun g hm => by have := h6 _ hm; cases this) (fun id t hm => ⟨Nat.zero_le _, by simpa [unpaced] using h6 _ hm⟩)⟩

/-- C149 is false: what is to be asked every 1000 is executed twice by the time 10. -/
theorem C149_violated : ¬C149_Statement := by
  intro hall
  obtain ⟨v, hr, hq⟩ := any_pwdemo (env := wenv oneRegister 3) (w := 0) (ops := polledTwice) (Q := fun v =>
    askedOnlyBy 0 2 1 kreq none (atClient 0 v.log) && (decide (timesExecuted (wenv oneRegister 3) 0 1 kreq (svLog (atServer v.log)) = 2 ∧
      LEv.scheduled 0 2 kreq 10 1000 ∈ atClient 0 v.log) && (atClient 0 v.log).all fun e => !unpaced 2 e)) (by decide +kernel)
  simp only [Bool.and_eq_true, decide_eq_true_eq, List.all_eq_true] at hq
  obtain ⟨h1, ⟨h2, h3⟩, h4⟩ := hq
  have := hall UInt16 (wenv oneRegister 3) 0 v hr 0 0 2 1 kreq 10 1000 0 10 (askedOnlyBy_iff h1) h3 (fun hm => by have := h4 _ hm; cases this)
    (fun g hm => by have := h4 _ hm; cases this) (fun id t hm => ⟨Nat.zero_le _, by simpa [unpaced] using h4 _ hm⟩)
  rw [h2] at this
  omega

end Props

end Modbus
