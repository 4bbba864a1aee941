import Verif.Lemmas.Throwing
import Verif.Lemmas.ClientTime
import Verif.Lemmas.WorldParts

/-! Helper lemmas about handlers that throw: as long as none does, nothing is different; a channel that is stuck. -/

namespace Modbus

open Spec

namespace Cli

variable {th : Throws}

theorem thrown_prefix {l1 l2 : List CEv} (h : l1 <+: l2) (h0 : thrown th l2 = 0) : thrown th l1 = 0 := by
  obtain ⟨es, rfl⟩ := h
  have := thrown_le th l1 es
  omega

theorem thrown_prefix_handler {l l2 : List CEv} {u : Nat} {x : Expected (List UInt8)} {t : Nat} (h : l ++ [.handler u x t] <+: l2) (h0 : thrown th l2 = 0) :
    th l u x = false := by
  have := thrown_prefix h h0
  rw [thrown_handler] at this
  cases hx : th l u x with
  | false => rfl
  | true => rw [hx] at this; simp at this

theorem checkPending_logPrefix (env : ClientEnv) (v : Cli) : v.log <+: (v.checkPending env).log := by
  obtain ⟨es, h, -⟩ := Quiet.checkPending env v
  exact ⟨es, h.symm⟩

theorem onMbap_logPrefix (env : ClientEnv) (v : Cli) (m : Mbap) : v.log <+: (v.onMbap env m).log := by
  obtain ⟨es, h, -⟩ := Quiet.onMbap env v m
  exact ⟨es, h.symm⟩

theorem onMbaps_logPrefix (env : ClientEnv) (v : Cli) (ms : List Mbap) : v.log <+: (v.onMbaps env ms).log := by
  obtain ⟨es, h, -⟩ := Quiet.onMbaps env ms v
  exact ⟨es, h.symm⟩

theorem checkPending_logPrefix' (env : ClientEnv) (v : Cli) {l : List CEv} (h : v.log = l) : l <+: (v.checkPending env).log := h ▸ checkPending_logPrefix env v

theorem cancelCurrent_logPrefix (env : ClientEnv) (v : Cli) : v.log <+: (v.cancelCurrent env).log := by
  unfold cancelCurrent
  split
  · exact List.prefix_refl _
  · refine checkPending_logPrefix' env _ ?_
    unfold cancelTimer
    split <;> rfl

theorem cancelCurrent_logPrefix' (env : ClientEnv) (v : Cli) {l : List CEv} (h : v.log = l) : l <+: (v.cancelCurrent env).log := h ▸ cancelCurrent_logPrefix env v

theorem step_logPrefix {env : ClientEnv} {v v' : Cli} {op : Op} (h : v.step env op = .ret v') : v.log <+: v'.log := by
  by_cases hop : ∃ t, op = .runTimer t
  · obtain ⟨t, rfl⟩ := hop
    simp only [Cli.step] at h
    split at h
    · injection h with h
      subst h
      unfold onTimer
      split
      · exact List.prefix_refl _
      · split
        · exact List.prefix_refl _
        · exact (List.prefix_append _ _).trans (cancelCurrent_logPrefix' env _ rfl)
    · injection h with h; subst h; exact List.prefix_refl _
  · obtain ⟨es, h1, -⟩ := Quiet.step h (fun t ht => hop ⟨t, ht⟩)
    exact ⟨es, h1.symm⟩

theorem run_logPrefix (env : ClientEnv) (ops : List Op) : ∀ {v v' : Cli}, v.run env ops = .ret v' → v.log <+: v'.log := by
  induction ops with
  | nil => intro v v' h; injection h with h; subst h; exact List.prefix_refl _
  | cons op ops ih =>
    intro v v' h
    simp only [Cli.run] at h
    obtain ⟨v1, h1, h2⟩ := CM.bind_eq_ret.1 h
    exact (step_logPrefix h1).trans (ih h2)

theorem onMbapT_calm (env : ClientEnv) (v : Cli) (m : Mbap) (h0 : thrown th (v.onMbap env m).log = 0) : v.onMbapT env th m = (v.onMbap env m, false) := by
  obtain ⟨sd, ss, p0, pend, cur, tm, nt, ts, ar, fi, now, nti, nu, ns, nse, log⟩ := v
  simp only [onMbapT, onMbap, emit] at h0 ⊢
  cases sd with
  | true => rfl
  | false =>
    simp only [Bool.false_eq_true, if_false] at h0 ⊢
    cases cur with
    | none => rfl
    | some r =>
      dsimp only at h0 ⊢
      split
      · rename_i hm
        rw [if_pos hm] at h0
        have hx : th (log ++ [.mbap m]) r.uid (.ok m.data) = false := by
          refine thrown_prefix_handler (t := now) ?_ h0
          refine checkPending_logPrefix' env _ ?_
          cases tm <;> rfl
        cases tm <;> simp only [tell, cancelTimer, emit, hx]
      · rfl

theorem onMbapsT_calm (env : ClientEnv) (ms : List Mbap) : ∀ v : Cli, thrown th (v.onMbaps env ms).log = 0 → v.onMbapsT env th ms = (v.onMbaps env ms, false) := by
  induction ms with
  | nil => intro v _; rfl
  | cons m ms ih =>
    intro v h0
    have h1 : thrown th (v.onMbap env m).log = 0 := thrown_prefix (onMbaps_logPrefix env (v.onMbap env m) ms) h0
    simp only [onMbapsT, onMbapT_calm env v m h1]
    exact ih _ h0

theorem onMbaps_withParser (env : ClientEnv) (ms : List Mbap) (v : Cli) (p : Parser) : ({ v with parser := p } : Cli).onMbaps env ms = { v.onMbaps env ms with parser := p } := by
  have h1 := onMbapsT_calm (th := fun _ _ _ => false) env ms v (by
    have : ∀ pre l, thrownAfter (fun _ _ _ => false) pre l = 0 := by
      intro pre l
      induction l generalizing pre with
      | nil => rfl
      | cons e l ih => cases e <;> simp [thrownAfter, ih]
    exact this _ _)
  have h2 := onMbapsT_calm (th := fun _ _ _ => false) env ms { v with parser := p } (by
    have : ∀ pre l, thrownAfter (fun _ _ _ => false) pre l = 0 := by
      intro pre l
      induction l generalizing pre with
      | nil => rfl
      | cons e l ih => cases e <;> simp [thrownAfter, ih]
    exact this _ _)
  rw [onMbapsT_parser, h1] at h2
  injection h2 with h2
  exact h2.symm

theorem onTimerT_calm (env : ClientEnv) (v : Cli) (h0 : thrown th (v.onTimer env).log = 0) : v.onTimerT env th = (v.onTimer env, false) := by
  unfold onTimerT
  unfold onTimer at h0 ⊢
  cases hs : v.isShutdown with
  | true => rfl
  | false =>
    simp only [hs, Bool.false_eq_true, if_false] at h0 ⊢
    cases hc : v.current with
    | none => rfl
    | some r =>
      simp only [hc] at h0
      have hx : th v.log r.uid (.error .timeout) = false :=
        thrown_prefix_handler (t := v.now) (by exact cancelCurrent_logPrefix env (v.emit (.handler r.uid (.error .timeout) v.now))) h0
      simp only [tell, hx]

theorem onErrorT_calm (env : ClientEnv) (v : Cli) (h0 : thrown th (v.onError env).log = 0) : v.onErrorT env th = (v.onError env, false) := by
  cases hs : v.isShutdown with
  | true =>
    rw [onErrorT_down env v hs]
    simp only [onError, emit, hs, if_true]
  | false =>
    rw [onErrorT_up env v hs]
    have e : v.onError env = match ({ v.emit .connError with parser := v.parser.reset } : Cli).cancelPending.current with
        | none => ({ v.emit .connError with parser := v.parser.reset } : Cli).cancelPending
        | some r => (({ v.emit .connError with parser := v.parser.reset } : Cli).cancelPending.emit (.handler r.uid (.error .connection) v.now)).cancelCurrent env := by
      obtain ⟨sd, ss, p0, pend, cur, tm, nt, ts, ar, fi, now, nti, nu, ns, nse, log⟩ := v
      subst hs
      cases cur <;> rfl
    rw [e] at h0 ⊢
    have hcu : ({ v.emit .connError with parser := v.parser.reset } : Cli).current = v.current := rfl
    have hnow : ({ v.emit .connError with parser := v.parser.reset } : Cli).now = v.now := rfl
    generalize ({ v.emit .connError with parser := v.parser.reset } : Cli) = u at h0 hcu hnow ⊢
    rw [← hnow] at h0 ⊢
    have hp : thrown th u.cancelPending.log = 0 := by
      revert h0
      split
      · exact id
      · exact thrown_prefix ((List.prefix_append _ _).trans (cancelCurrent_logPrefix' env _ rfl))
    obtain ⟨told, rest, e1, e2, e3, e4⟩ := tellPending_spec th u.pending u
    unfold failT
    cases hm : u.tellPending th u.pending with
    | mk w b =>
      rw [hm] at e2 e3 e4
      dsimp only at e2 e3 e4
      cases b with
      | true =>
        have e4 := e4 rfl
        have : thrown th w.log = 0 := by
          refine thrown_prefix ?_ hp
          rw [e2]
          simp only [cancelPending, e1, List.map_append]
          rw [← List.append_assoc]
          exact List.prefix_append _ _
        omega
      | false =>
        obtain ⟨e3, -⟩ := e3 rfl
        subst e3
        rw [List.append_nil] at e1
        have hw : ({ w with pending := [] } : Cli) = u.cancelPending := by rw [e2, cancelPending, ← e1]
        dsimp only
        rw [hw]
        have hwc : w.current = u.cancelPending.current := by rw [← hw]
        rw [hwc]
        cases hc : u.cancelPending.current with
        | none => rfl
        | some r =>
          rw [hc] at h0
          dsimp only at h0
          have hx : th u.cancelPending.log r.uid (.error .connection) = false :=
            thrown_prefix_handler (t := u.now) (by exact cancelCurrent_logPrefix env (u.cancelPending.emit (.handler r.uid (.error .connection) u.now))) h0
          simp only [tell, hx]
          rfl

end Cli

namespace CliT

open Cli

variable {th : Throws}

theorem step_calm {env : ClientEnv} {c c' : Cli} {op : Cli.Op} (h : c.step env op = .ret c') (h0 : thrown th c'.log = 0) :
    (CliT.mk c true).step env th op = .ret ⟨c', true⟩ := by
  cases op with
  | receive d =>
    simp only [Cli.step, Cli.onReceive] at h
    simp only [CliT.step, Cli.onReceiveT, if_true]
    split at h
    · rename_i hs
      rw [if_pos hs]
      injection h with h; subst h; rfl
    · rename_i hs
      rw [if_neg hs]
      obtain ⟨⟨p, ms⟩, h1, h2⟩ := CM.bind_eq_ret.1 h
      injection h2 with h2
      subst h2
      have h0' : thrown th ((c.emit (.data d)).onMbaps env ms).log = 0 := by
        have := onMbaps_withParser env ms (c.emit (.data d)) p
        rw [this] at h0
        exact h0
      have key := (parseT_eq env th c.parser d (c.emit (.data d)) p ms rfl h1).1 (by rw [onMbapsT_calm env ms _ h0'])
      rw [key, onMbapsT_calm env ms _ h0', onMbaps_withParser env ms (c.emit (.data d)) p]
      rfl
  | error =>
    simp only [Cli.step] at h
    injection h with h; subst h
    simp only [CliT.step, onErrorT_calm env c h0]
  | runTimer t =>
    simp only [Cli.step] at h
    simp only [CliT.step]
    split at h
    · rename_i ht
      injection h with h; subst h
      rw [if_pos ht, onTimerT_calm env _ h0]
    · rename_i ht
      injection h with h; subst h
      rw [if_neg ht]
  | _ => simp only [CliT.step, h, CM.ret_bind, CM.pure_eq]

theorem run_calm {env : ClientEnv} (ops : List Cli.Op) : ∀ {c c' : Cli}, c.run env ops = .ret c' → thrown th c'.log = 0 →
    (CliT.mk c true).run env th ops = .ret ⟨c', true⟩ := by
  induction ops with
  | nil => intro c c' h _; injection h with h; subst h; rfl
  | cons op ops ih =>
    intro c c' h h0
    simp only [Cli.run] at h
    obtain ⟨c1, h1, h2⟩ := CM.bind_eq_ret.1 h
    simp only [CliT.run, step_calm h1 (thrown_prefix (run_logPrefix env ops h2) h0), CM.ret_bind]
    exact ih h2 h0

/-! ### A channel that is stuck -/

/-- Nothing more will be sent: shutdown has taken effect, or a request is out and no timer is running. -/
structure Stuck (v : CliT) : Prop where
  stuck : v.cli.isShutdown = true ∨ (∃ r, v.cli.current = some r)
  armed : v.cli.armed = []
  fired : v.cli.fired = []

/-- The event of a channel that is stuck: nothing is sent, and no handler is called but those of requests Modbus does not allow. -/
def Idle (e : CEv) : Prop := (∀ u b t, e ≠ .sent u b t) ∧ ∀ u x t, e = .handler u x t → x = .error .malformedRequest

theorem checkPending_some {env : ClientEnv} {v : Cli} {r : PendingReq} (h : v.current = some r) : v.checkPending env = v := by
  obtain ⟨sd, ss, p0, pend, cur, tm, nt, ts, ar, fi, now, nti, nu, ns, nse, log⟩ := v
  subst h
  cases sd <;> rfl

theorem submit_step (env : ClientEnv) (v : Cli) (unit : UInt8) (q : AnyReq) (tmo : Nat) : ∃ new, v.step env (.submit unit q tmo) =
    .ret { v.emit (.call v.nextUid unit q tmo) with nextUid := v.nextUid + 1, tasks := v.tasks ++ new } := by
  simp only [Cli.step]
  split
  · exact ⟨[], by simp [Cli.emit]⟩
  · split
    · exact ⟨_, rfl⟩
    · exact ⟨_, rfl⟩

/-- One step of a channel that is stuck, and whose connection neither delivers anything nor fails. -/
theorem Stuck.step {env : ClientEnv} {v v' : CliT} (h : Stuck v) {op : Cli.Op} (hr : v.reading = false ∨ ∀ d, op ≠ .receive d) (he : op ≠ .error)
    (hs : v.step env th op = .ret v') : Stuck v' ∧ v'.reading = v.reading ∧ ∃ es, v'.cli.log = v.cli.log ++ es ∧ ∀ e ∈ es, Idle e := by
  have idle0 : ∀ e : CEv, (∀ u b t, e ≠ .sent u b t) → (∀ u x t, e ≠ .handler u x t) → Idle e := fun e h1 h2 => ⟨h1, fun u x t he => absurd he (h2 u x t)⟩
  have same : v' = v → Stuck v' ∧ v'.reading = v.reading ∧ ∃ es, v'.cli.log = v.cli.log ++ es ∧ ∀ e ∈ es, Idle e := by
    rintro rfl
    exact ⟨h, rfl, [], by simp, by simp⟩
  obtain ⟨c, rd⟩ := v
  obtain ⟨sd, ss, p0, pend, cur, tm, nt, ts, ar, fi, now, nti, nu, ns, nse, log⟩ := c
  obtain ⟨h1, h2, h3⟩ := h
  dsimp only at h1 h2 h3 hr
  subst h2 h3
  cases op with
  | submit unit q tmo =>
    obtain ⟨c', e1, e2⟩ := CM.bind_eq_ret.1 hs
    injection e2 with e2; subst e2
    obtain ⟨new, e3⟩ := submit_step env (⟨sd, ss, p0, pend, cur, tm, nt, ts, [], [], now, nti, nu, ns, nse, log⟩ : Cli) unit q tmo
    have e1 := e3.symm.trans e1
    injection e1 with e1; subst e1
    exact ⟨⟨h1, rfl, rfl⟩, rfl, [.call nu unit q tmo], rfl, by simp; exact idle0 _ (by simp) (by simp)⟩
  | shutdown => injection hs with hs; subst hs; exact ⟨⟨h1, rfl, rfl⟩, rfl, [], by simp, by simp⟩
  | createSession =>
    obtain ⟨c', e1, e2⟩ := CM.bind_eq_ret.1 hs
    injection e2 with e2; subst e2
    simp only [Cli.step, Cli.emit] at e1
    split at e1 <;> (injection e1 with e1; subst e1)
    · exact ⟨⟨h1, rfl, rfl⟩, rfl, [.session none], rfl, by simp; exact idle0 _ (by simp) (by simp)⟩
    · exact ⟨⟨h1, rfl, rfl⟩, rfl, [.session (some ns)], rfl, by simp; exact idle0 _ (by simp) (by simp)⟩
  | runTask =>
    cases ts with
    | nil => injection hs with hs; exact same hs.symm
    | cons t ts =>
      simp only [CliT.step, Cli.step, CM.ret_bind, CM.pure_eq] at hs
      injection hs with hs; subst hs
      cases t with
      | request u unit q tmo =>
        cases sd with
        | true => exact ⟨⟨.inl rfl, rfl, rfl⟩, rfl, [], by simp [Cli.runTask], by simp⟩
        | false =>
          rcases h1 with h1 | ⟨r, h1⟩
          · cases h1
          · subst h1
            exact ⟨⟨.inr ⟨r, rfl⟩, rfl, rfl⟩, rfl, [], by simp [Cli.runTask, Cli.checkPending], by simp⟩
      | malformed u =>
        exact ⟨⟨h1, rfl, rfl⟩, rfl, [.handler u (.error .malformedRequest) now], rfl, by simp [Idle]⟩
      | shutdown =>
        refine ⟨⟨.inl ?_, ?_, ?_⟩, rfl, ss.map CEv.sessionShutdown ++ [.tcpShutdown], ?_, ?_⟩
        · cases tm <;> rfl
        · cases tm <;> rfl
        · cases tm <;> rfl
        · cases tm <;> simp [Cli.runTask, Cli.cancelTimer, Cli.emit]
        · intro e he
          rcases List.mem_append.1 he with he | he
          · obtain ⟨s, -, rfl⟩ := List.mem_map.1 he
            exact idle0 _ (by simp) (by simp)
          · rw [List.mem_singleton] at he; subst he
            exact idle0 _ (by simp) (by simp)
  | receive d =>
    rcases hr with hr | hr
    · subst hr; injection hs with hs; exact same hs.symm
    · exact absurd rfl (hr d)
  | error => exact absurd rfl he
  | tick n => injection hs with hs; subst hs; exact ⟨⟨h1, rfl, rfl⟩, rfl, [], by simp, by simp⟩
  | expire t => injection hs with hs; exact same hs.symm
  | runTimer t =>
    simp only [CliT.step, List.not_mem_nil, if_false] at hs
    injection hs with hs; exact same hs.symm

theorem Stuck.run {env : ClientEnv} (ops : List Cli.Op) : ∀ {v v' : CliT}, Stuck v → (v.reading = false ∨ ∀ d, .receive d ∉ ops) → Cli.Op.error ∉ ops →
    v.run env th ops = .ret v' → Stuck v' ∧ ∃ es, v'.cli.log = v.cli.log ++ es ∧ ∀ e ∈ es, Idle e := by
  induction ops with
  | nil => intro v v' h _ _ hs; injection hs with hs; subst hs; exact ⟨h, [], by simp, by simp⟩
  | cons op ops ih =>
    intro v v' h hr he hs
    simp only [CliT.run] at hs
    obtain ⟨v1, h1, h2⟩ := CM.bind_eq_ret.1 hs
    have hr1 : v.reading = false ∨ ∀ d, op ≠ .receive d := hr.imp id (fun hh d hd => hh d (by simp [hd]))
    obtain ⟨a, b, es, c, d⟩ := h.step hr1 (fun hh => he (by simp [hh])) h1
    obtain ⟨a', es', c', d'⟩ := ih a (by rw [b]; exact hr.imp id (fun hh d hd => hh d (by simp [hd]))) (fun hh => he (by simp [hh])) h2
    refine ⟨a', es ++ es', by rw [c', c, List.append_assoc], fun e hm => ?_⟩
    rcases List.mem_append.1 hm with hm | hm
    · exact d e hm
    · exact d' e hm

end CliT

end Modbus

namespace Modbus

open Spec

namespace Cli

variable {th : Throws}

theorem thrown_mono {l1 l2 : List CEv} (h : l1 <+: l2) : thrown th l1 ≤ thrown th l2 := by
  obtain ⟨es, rfl⟩ := h
  exact thrown_le th l1 es

theorem thrown_plain (l : List CEv) (e : CEv) (h : ∀ u x t, e ≠ .handler u x t) : thrown th (l ++ [e]) = thrown th l := by
  rw [thrown_append]
  cases e <;> simp_all [thrownAfter]

theorem checkPending_thrown (env : ClientEnv) (v : Cli) : thrown th (v.checkPending env).log = thrown th v.log := by
  obtain ⟨sd, ss, p0, pend, cur, tm, nt, ts, ar, fi, now, nti, nu, ns, nse, log⟩ := v
  cases sd <;> cases cur <;> cases pend <;> first | rfl | exact thrown_plain _ _ (by simp)

theorem cancelCurrent_thrown (env : ClientEnv) (v : Cli) : thrown th (v.cancelCurrent env).log = thrown th v.log := by
  unfold cancelCurrent
  split
  · rfl
  · rw [checkPending_thrown]
    unfold cancelTimer
    split <;> rfl

/-- Something throws while a message is processed exactly if the number of exceptions grows; the request is then still out. -/
theorem onMbapT_threw (env : ClientEnv) (v : Cli) (m : Mbap) : ((v.onMbapT env th m).2 = false → thrown th (v.onMbapT env th m).1.log = thrown th v.log) ∧
    ((v.onMbapT env th m).2 = true → ∃ r, (v.onMbapT env th m).1.current = some r) := by
  obtain ⟨sd, ss, p0, pend, cur, tm, nt, ts, ar, fi, now, nti, nu, ns, nse, log⟩ := v
  have h0 : thrown th (log ++ [.mbap m]) = thrown th log := thrown_plain _ _ (by simp)
  simp only [onMbapT, emit]
  cases sd with
  | true => exact ⟨fun _ => h0, fun hb => (by cases hb)⟩
  | false =>
    simp only [Bool.false_eq_true, if_false]
    cases cur with
    | none => exact ⟨fun _ => h0, fun hb => (by cases hb)⟩
    | some r =>
      dsimp only
      split
      · cases hx : th (log ++ [.mbap m]) r.uid (.ok m.data) with
        | true =>
          cases tm <;> simp only [tell, cancelTimer, emit, hx] <;> exact ⟨fun hb => (by cases hb), fun _ => ⟨r, rfl⟩⟩
        | false =>
          have h1 : thrown th (log ++ [.mbap m] ++ [.handler r.uid (.ok m.data) now]) = thrown th log := by rw [thrown_handler, hx, h0]; simp
          cases tm <;> simp only [tell, cancelTimer, emit, hx] <;> exact ⟨fun _ => (checkPending_thrown env _).trans h1, fun hb => (by cases hb)⟩
      · exact ⟨fun _ => h0, fun hb => (by cases hb)⟩

theorem onMbapsT_threw (env : ClientEnv) (ms : List Mbap) : ∀ v : Cli, ((v.onMbapsT env th ms).2 = false → thrown th (v.onMbapsT env th ms).1.log = thrown th v.log) ∧
    ((v.onMbapsT env th ms).2 = true → ∃ r, (v.onMbapsT env th ms).1.current = some r) := by
  induction ms with
  | nil => intro v; exact ⟨fun _ => rfl, fun hb => (by cases hb)⟩
  | cons m ms ih =>
    intro v
    have h1 := onMbapT_threw (th := th) env v m
    simp only [onMbapsT]
    cases hm : v.onMbapT env th m with
    | mk w b =>
      rw [hm] at h1
      cases b with
      | true => exact ⟨fun hb => (by cases hb), fun _ => h1.2 rfl⟩
      | false =>
        have h2 := ih w
        exact ⟨fun hb => (h2.1 hb).trans (h1.1 rfl), h2.2⟩

theorem onMbapsT_answer (env : ClientEnv) (th : Throws) (v : Cli) (r : PendingReq) (hs : v.isShutdown = false) (hc : v.current = some r) (hp : v.pending = []) (m : Mbap)
    (hm : m.tid = r.tid ∧ m.unit = r.unit) : (v.onMbapsT env th [m]).1.log = v.log ++ [.mbap m, .handler r.uid (.ok m.data) v.now] := by
  obtain ⟨sd, ss, p0, pend, cur, tm, nt, ts, ar, fi, now, nti, nu, ns, nse, log⟩ := v
  dsimp only at hs hc hp
  subst hs hc hp
  simp only [onMbapsT, onMbapT, emit, Bool.false_eq_true, if_false, hm, and_self, if_true]
  cases hx : th (log ++ [.mbap m]) r.uid (.ok m.data) <;> cases tm <;> simp [tell, cancelTimer, emit, hx, checkPending]

theorem onTimerT_threw (env : ClientEnv) (v : Cli) (h : thrown th v.log < thrown th (v.onTimerT env th).1.log) :
    ∃ r, v.current = some r ∧ (v.onTimerT env th).1 = v.emit (.handler r.uid (.error .timeout) v.now) := by
  unfold onTimerT at h ⊢
  cases hs : v.isShutdown with
  | true => simp only [hs, if_true] at h; omega
  | false =>
    simp only [hs, Bool.false_eq_true, if_false] at h ⊢
    cases hc : v.current with
    | none => simp only [hc] at h; omega
    | some r =>
      simp only [hc, tell] at h ⊢
      cases hx : th v.log r.uid (.error .timeout) with
      | true => exact ⟨r, rfl, rfl⟩
      | false =>
        simp only [hx, cancelCurrent_thrown] at h
        have : thrown th (v.emit (.handler r.uid (.error .timeout) v.now)).log = thrown th v.log := by
          show thrown th (v.log ++ [.handler r.uid (.error .timeout) v.now]) = _
          rw [thrown_handler, hx]; simp
        omega

theorem checkPending_nil {env : ClientEnv} {v : Cli} (h : v.pending = []) : v.checkPending env = v := by
  obtain ⟨sd, ss, p0, pend, cur, tm, nt, ts, ar, fi, now, nti, nu, ns, nse, log⟩ := v
  subst h
  cases sd <;> cases cur <;> rfl

theorem cancelCurrent_nil {env : ClientEnv} {v : Cli} (h : v.pending = []) : (v.cancelCurrent env).current = none ∧ (v.cancelCurrent env).pending = [] ∧
    (v.cancelCurrent env).tasks = v.tasks ∧ (v.cancelCurrent env).isShutdown = v.isShutdown := by
  obtain ⟨sd, ss, p0, pend, cur, tm, nt, ts, ar, fi, now, nti, nu, ns, nse, log⟩ := v
  subst h
  cases cur with
  | none => exact ⟨rfl, rfl, rfl, rfl⟩
  | some r =>
    cases tm <;> (unfold cancelCurrent cancelTimer; dsimp only; rw [checkPending_nil rfl]; exact ⟨rfl, rfl, rfl, rfl⟩)

/-- An error during which no handler throws leaves no request behind. -/
theorem failT_calm (env : ClientEnv) (u : Cli) (h : thrown th (failT env th u).1.log = thrown th u.log) :
    (failT env th u).1.current = none ∧ (failT env th u).1.pending = [] ∧ (failT env th u).1.tasks = u.tasks ∧ (failT env th u).1.isShutdown = u.isShutdown := by
  obtain ⟨told, rest, e1, e2, e3, e4⟩ := tellPending_spec th u.pending u
  unfold failT at h ⊢
  cases hm : u.tellPending th u.pending with
  | mk w b =>
    rw [hm] at e2 e3 e4 h
    dsimp only at e2 e3 e4 h
    cases b with
    | true => have := e4 rfl; dsimp only at h; omega
    | false =>
      obtain ⟨-, e5⟩ := e3 rfl
      have hw : w.tasks = u.tasks ∧ w.isShutdown = u.isShutdown := by rw [e2]; exact ⟨rfl, rfl⟩
      dsimp only at h ⊢
      cases hc : w.current with
      | none => exact ⟨rfl, rfl, hw.1, hw.2⟩
      | some r =>
        simp only [hc, tell] at h ⊢
        cases hx : th w.log r.uid (.error .connection) with
        | true =>
          simp only [hx] at h
          have : thrown th (w.log ++ [.handler r.uid (.error .connection) w.now]) = thrown th u.log := h
          rw [thrown_handler, hx, e5] at this
          simp at this
        | false =>
          have := cancelCurrent_nil (env := env) (v := ({ w with pending := [], current := some r } : Cli).emit (.handler r.uid (.error .connection) w.now)) rfl
          exact ⟨this.1, this.2.1, this.2.2.1.trans hw.1, this.2.2.2.trans hw.2⟩

end Cli

end Modbus
