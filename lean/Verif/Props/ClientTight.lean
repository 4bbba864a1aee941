import Verif.Props.UserTight
import Verif.Lemmas.PollingDown

/-! What the theorems on the client channel (C49, C51, C52, C56) left open: that a response to the outstanding request is given to its handler, that a timeout is reported
as soon as its time has come, that the timers of completed requests hit no other request, and that shutdown reaches every session. -/

namespace Modbus

open Spec

namespace Cli

/-- Every timer not yet called belongs to the request that is outstanding now. -/
def Owned (v : Cli) : Prop := ∀ t ∈ v.armed.map (·.1) ++ v.fired, v.timer = some t ∧ v.current ≠ none

theorem Owned.idle {v : Cli} (h : v.Owned) (hc : v.current = none) : v.armed = [] ∧ v.fired = [] := by
  have : v.armed.map (·.1) ++ v.fired = [] := List.eq_nil_iff_forall_not_mem.2 fun t ht => (h t ht).2 hc
  simpa using this

theorem Owned.checkPending {env : ClientEnv} {v : Cli} (h : v.Owned) : (v.checkPending env).Owned := by
  unfold Cli.checkPending
  split
  · exact h
  · split
    · rename_i hc _
      obtain ⟨h1, h2⟩ := h.idle hc
      intro t ht
      simp only [emit, h1, h2, List.nil_append, List.map_cons, List.map_nil, List.append_nil, List.mem_singleton] at ht
      subst ht
      exact ⟨rfl, nofun⟩
    · exact h

/-- Completing the outstanding request when its timer has not expired. -/
theorem Owned.finish {v : Cli} (h : v.Owned) (hf : v.fired = []) (r : PendingReq) (x : Expected (List UInt8)) : (v.finish r x).Owned ∧ (v.finish r x).fired = [] := by
  have ha : (v.finish r x).armed = [] := by
    unfold Cli.finish cancelTimer
    simp only [emit]
    cases hv : v.armed with
    | nil => split <;> simp
    | cons y l =>
      have hy := (h y.1 (by simp [hv])).1
      rw [hy]
      simp only
      rw [List.filter_eq_nil_iff]
      intro z hz
      have := (h z.1 (List.mem_append_left _ (List.mem_map_of_mem (hv ▸ hz)))).1
      rw [hy] at this
      injection this with this
      simp [this]
  have hf' : (v.finish r x).fired = [] := by
    obtain ⟨f, hff⟩ := cancelTimer_eq { v.emit (.handler r.uid x v.now) with current := none }
    rw [Cli.finish, hff]; exact hf
  refine ⟨fun t ht => ?_, hf'⟩
  rw [ha, hf'] at ht
  cases ht

theorem Owned.onMbaps {env : ClientEnv} (ms : List Mbap) : ∀ (v : Cli), v.Owned → v.fired = [] → (v.onMbaps env ms).Owned ∧ (v.onMbaps env ms).fired = [] := by
  induction ms with
  | nil => intro _ h hf; exact ⟨h, hf⟩
  | cons m ms ih =>
    intro v h hf
    have h0 : (v.emit (.mbap m)).Owned := h
    rcases onMbap_eq env v m with ⟨h1, -⟩ | ⟨r, -, -, -, -, h1⟩
    · exact ih (v.onMbap env m) (by rw [h1]; exact h0) (by rw [h1]; exact hf)
    · obtain ⟨h2, h3⟩ := h0.finish hf r (.ok m.data)
      exact ih (v.onMbap env m) (by rw [h1]; exact h2.checkPending) (by rw [h1, checkPending_fired]; exact h3)
where
  checkPending_fired {env : ClientEnv} {v : Cli} : (v.checkPending env).fired = v.fired := by
    unfold Cli.checkPending
    split
    · rfl
    · split <;> rfl

end Cli

namespace Props

/-- Histories in which no expired timer is waiting for its callback when data or an error of the connection is processed: the executor runs the callbacks of expired
timers before anything that comes in later. -/
inductive Orderly (env : ClientEnv) : Cli → Prop where
  | init : Orderly env (Cli.init env)
  | step {v v' : Cli} {op : Cli.Op} : Orderly env v → v.step env op = .ret v' →
      (∀ d, op = .receive d → v.fired = []) → (op = .error → v.fired = []) → Orderly env v'

theorem Orderly.reach {env : ClientEnv} {v : Cli} (h : Orderly env v) : CReach env v := by
  induction h with
  | init => exact ⟨[], rfl⟩
  | step _ h1 _ _ ih => exact ih.step h1

theorem owned_step {env : ClientEnv} {v v' : Cli} {op : Cli.Op} (hr : CReach env v) (ho : v.isShutdown = true ∨ v.Owned) (hs : v.step env op = .ret v')
    (h1 : ∀ d, op = .receive d → v.fired = []) (h2 : op = .error → v.fired = []) : v'.isShutdown = true ∨ v'.Owned := by
  cases hd : v.isShutdown with
  | true => exact Or.inl (down_stays hr hd hs)
  | false =>
    have ho : v.Owned := by
      rcases ho with ho | ho
      · rw [hd] at ho; cases ho
      · exact ho
    cases op with
    | submit unit req tmo =>
      simp only [Cli.step] at hs
      split at hs
      · injection hs with hs; subst hs; exact Or.inr ho
      · split at hs <;> (injection hs with hs; subst hs; exact Or.inr ho)
    | shutdown => injection hs with hs; subst hs; exact Or.inr ho
    | createSession =>
      simp only [Cli.step] at hs
      split at hs <;> (injection hs with hs; subst hs; exact Or.inr ho)
    | runTask =>
      simp only [Cli.step] at hs
      split at hs
      · injection hs with hs; subst hs; exact Or.inr ho
      · rename_i t ts ht
        injection hs with hs; subst hs
        cases t with
        | request uid unit req tmo =>
          simp only [Cli.runTask, hd, Bool.false_eq_true, if_false]
          exact Or.inr (Cli.Owned.checkPending ho)
        | malformed uid => exact Or.inr ho
        | shutdown =>
          left
          obtain ⟨f, hf⟩ := Cli.cancelTimer_eq { v with tasks := ts, isShutdown := true, log := v.log ++ v.sessions.map CEv.sessionShutdown, sessions := [], pending := [], current := none }
          simp only [Cli.runTask, hf, Cli.emit]
    | receive data =>
      simp only [Cli.step, Cli.onReceive] at hs
      split at hs
      · injection hs with hs; subst hs; exact Or.inr ho
      · obtain ⟨⟨p, ms⟩, -, hs⟩ := CM.bind_eq_ret.1 hs
        injection hs with hs; subst hs
        exact Or.inr (Cli.Owned.onMbaps ms { v.emit (.data data) with parser := p } ho (h1 data rfl)).1
    | error =>
      injection hs with hs; subst hs
      right
      rw [Cli.onError_eq, if_neg (by simp [hd])]
      have hfd : v.failed.Owned := ho
      split
      · exact hfd
      · exact (hfd.finish (h2 rfl) _ _).1.checkPending
    | tick n => injection hs with hs; subst hs; exact Or.inr ho
    | expire t =>
      simp only [Cli.step] at hs
      split at hs
      · injection hs with hs; subst hs; exact Or.inr ho
      · rename_i dl hl
        split at hs
        · injection hs with hs; subst hs
          right
          intro t' ht'
          simp only [List.mem_append, List.mem_map, List.mem_filter, List.mem_singleton] at ht'
          rcases ht' with ⟨x, ⟨hx, -⟩, rfl⟩ | ht' | rfl
          · exact ho _ (List.mem_append_left _ (List.mem_map_of_mem hx))
          · exact ho _ (List.mem_append_right _ ht')
          · exact ho _ (List.mem_append_left _ (List.mem_map_of_mem (lookup_pair hl)))
        · injection hs with hs; subst hs; exact Or.inr ho
    | runTimer t =>
      simp only [Cli.step] at hs
      split at hs
      · rename_i ht
        injection hs with hs; subst hs
        right
        have hall : ∀ t' ∈ v.armed.map (·.1) ++ v.fired, t' = t := fun t' ht' => by
          have a := (ho t' ht').1
          rw [(ho t (List.mem_append_right _ ht)).1] at a
          injection a with a; exact a.symm
        have hn := hr.inv.1.timerIds.1
        have hf : (v.fired.filter fun x => x ≠ t) = [] := by
          rw [List.filter_eq_nil_iff]
          intro t' ht'
          simp [hall t' (List.mem_append_right _ ht')]
        have ho' : ({ v with fired := v.fired.filter fun x => x ≠ t } : Cli).Owned := by
          intro t' ht'
          simp only [hf, List.append_nil] at ht'
          exact absurd (hall t' (List.mem_append_left _ ht')) ((List.nodup_append.1 hn).2.2 t' ht' t ht)
        unfold Cli.onTimer
        split
        · exact ho'
        · split
          · exact ho'
          · rename_i r hc
            rw [Cli.cancelCurrent_eq env _ r _ hc]
            exact (ho'.finish hf _ _).1.checkPending
      · injection hs with hs; subst hs; exact Or.inr ho
where
  lookup_pair {l : List (Nat × Nat)} {t d : Nat} (h : l.lookup t = some d) : (t, d) ∈ l := by
    induction l with
    | nil => cases h
    | cons x l ih =>
      obtain ⟨a, b⟩ := x
      rw [List.lookup_cons] at h
      split at h
      · rename_i he
        injection h with h; subst h
        rw [beq_iff_eq.1 he]; exact List.mem_cons_self
      · exact List.mem_cons_of_mem _ (ih h)
  down_stays {env : ClientEnv} {v v' : Cli} {op : Cli.Op} (hr : CReach env v) (hd : v.isShutdown = true) (hs : v.step env op = .ret v') : v'.isShutdown = true := by
    have h1 : CEv.tcpShutdown ∈ v'.log := by
      have h0 := hr.inv.1.downLog.2 hd
      rcases Cli.step_log' hs with ⟨es, hl, -⟩ | hl <;> (rw [hl]; exact List.mem_append_left _ h0)
    exact (hr.step hs).inv.1.downLog.1 h1

theorem Orderly.owned {env : ClientEnv} {v : Cli} (h : Orderly env v) : v.isShutdown = true ∨ v.Owned := by
  induction h with
  | init => exact Or.inr nofun
  | step hv hs h1 h2 ih => exact owned_step hv.reach ih hs h1 h2

theorem Orderly.noLateTimer {env : ClientEnv} {v : Cli} (h : Orderly env v) : NoLateTimer env v := by
  induction h with
  | init => exact .init
  | @step v v' op hv hs h1 h2 ih =>
    by_cases hop : ∃ t, op = .runTimer t ∧ t ∉ v.fired
    · obtain ⟨t, rfl, ht⟩ := hop
      simp only [Cli.step, if_neg ht] at hs
      injection hs with hs; subst hs; exact ih
    · refine .step ih hs fun t ht => ?_
      have ht' : t ∈ v.fired := by by_contra hc; exact hop ⟨t, ht, hc⟩
      rcases hv.owned with hd | ho
      · exact Or.inl (hv.reach.inv.1.down hd).1
      · exact Or.inr (ho t (List.mem_append_right _ ht')).1

/-- C51, another proved part, with an assumption on the order of events instead of one on timers: when the callbacks of expired timers run before anything the connection
reports later, a handler is called with a timeout only if its own request's time is up.  So a timer that has not expired when its request is completed never hits a later
request. -/
theorem C51_orderly_partial (env : ClientEnv) (v : Cli) (h : Orderly env v) (u now : Nat)
    (hm : CEv.handler u (.error .timeout) now ∈ v.log) : TimeUp v.log u now :=
  C51_own_timeout_partial env v h.noLateTimer u now hm

/-- Data or an error of the connection. -/
def comesIn : Cli.Op → Bool
  | .receive _ => true
  | .error => true
  | _ => false

/-- Histories of this kind, computed. -/
def orderlyRun (env : ClientEnv) (v : Cli) : List Cli.Op → Option Cli
  | [] => some v
  | op :: ops =>
    if comesIn op = true ∧ v.fired ≠ [] then none
    else match v.step env op with
      | .ret v' => orderlyRun env v' ops
      | .ub => none

theorem orderlyRun_orderly {env : ClientEnv} (ops : List Cli.Op) : ∀ {v w : Cli}, Orderly env v → orderlyRun env v ops = some w → Orderly env w := by
  induction ops with
  | nil => intro v w h hr; injection hr with hr; subst hr; exact h
  | cons op ops ih =>
    intro v w h hr
    unfold orderlyRun at hr
    split at hr
    · cases hr
    · rename_i hc
      split at hr
      · rename_i v' hs
        refine ih (.step h hs (fun d hd => ?_) (fun hd => ?_)) hr
        · subst hd; simpa [comesIn] using hc
        · subst hd; simpa [comesIn] using hc
      · cases hr

/-- Request 0 is answered before its time is up, request 1 is sent, time passes beyond the timeout of request 0, and only then request 1 times out. -/
example : ∃ v, Orderly demoEnv v ∧ CEv.handler 0 (.ok [3, 2, 0, 42]) 2 ∈ v.log ∧ CEv.handler 1 (.error .timeout) 12 ∈ v.log := by
  have h : (match orderlyRun demoEnv (Cli.init demoEnv) [.submit 1 reqA 5, .submit 1 reqA 10, .runTask, .runTask, .tick 2,
      .receive [0, 0, 0, 0, 0, 5, 1, 3, 2, 0, 42], .tick 10, .expire 0, .expire 1, .runTimer 0, .runTimer 1] with
    | some v => decide (CEv.handler 0 (.ok [3, 2, 0, 42]) 2 ∈ v.log ∧ CEv.handler 1 (.error .timeout) 12 ∈ v.log)
    | none => false) = true := by decide +kernel
  split at h
  · rename_i v hv
    obtain ⟨h1, h2⟩ := of_decide_eq_true h
    exact ⟨v, orderlyRun_orderly _ .init hv, h1, h2⟩
  · cases h

/-- A request goes on the wire once. -/
theorem sent_once {env : ClientEnv} {v : Cli} (h : CReach env v) {u : Nat} {b b' : List UInt8} {t t' : Nat} (h1 : CEv.sent u b t ∈ v.log)
    (h2 : CEv.sent u b' t' ∈ v.log) : b = b' ∧ t = t' := by
  have hn : (sentUids v.log).Nodup := (C46_submission_order env v h).2.1.imp fun hlt => Nat.ne_of_lt hlt
  revert hn h1 h2
  generalize v.log = l
  induction l with
  | nil => intro h1; cases h1
  | cons e l ih =>
    intro h1 h2 hn
    rcases List.mem_cons.1 h1 with rfl | h1' <;> rcases List.mem_cons.1 h2 with h2' | h2'
    · injection h2' with _ h2 h3; exact ⟨h2.symm, h3.symm⟩
    · simp only [sentUids, List.filterMap_cons, List.nodup_cons] at hn
      exact absurd (mem_sentUids.2 ⟨_, _, h2'⟩) hn.1
    · subst h2'
      simp only [sentUids, List.filterMap_cons, List.nodup_cons] at hn
      exact absurd (mem_sentUids.2 ⟨_, _, h1'⟩) hn.1
    · refine ih h1' h2' ?_
      simp only [sentUids, List.filterMap_cons] at hn
      split at hn
      · exact hn
      · exact (List.nodup_cons.1 hn).2

/-- C52: when the time of the outstanding request is up, the timer's expiry and its callback, with nothing else happening and no more time passing, tell its handler. -/
theorem C52_in_time (env : ClientEnv) (v : Cli) (h : CReach env v) (hs : CEv.tcpShutdown ∉ v.log) (u : Nat) (hu : u ∈ sentUids v.log) (hn : u ∉ handledUids v.log)
    (hup : TimeUp v.log u v.now) :
    ∃ timer v', v.run env [.expire timer, .runTimer timer] = .ret v' ∧ v'.now = v.now ∧ CEv.handler u (.error .timeout) v.now ∈ v'.log := by
  have hinv := h.inv.1
  have hd := h.down hs
  obtain ⟨o, o1, o2⟩ := hinv.outstanding
  have ho := o1 u hu hn
  rw [o2 hd] at ho
  rcases hc : v.current with _ | r
  · rw [hc] at ho; cases ho
  rw [hc] at ho
  simp only [Option.map_some, Option.some.injEq] at ho
  obtain ⟨-, -, -, -, hcall, -⟩ := hinv.current hc
  obtain ⟨bytes, t0, hsent, timer, htm, harm⟩ := hinv.curSent r hc
  rw [ho] at hsent hcall
  obtain ⟨unit, q, tmo, bytes', t', hcall', hsent', hle⟩ := hup
  obtain ⟨-, -, rfl⟩ := hinv.callUnique hcall hcall'
  obtain ⟨-, rfl⟩ := sent_once h hsent hsent'
  -- the timer has expired or expires now
  have hexp : ∃ v1, v.step env (.expire timer) = .ret v1 ∧ timer ∈ v1.fired ∧ v1.current = some r ∧ v1.now = v.now ∧ v1.isShutdown = false := by
    rcases harm with ha | ⟨hf, -⟩
    · have hl : v.armed.lookup timer = some (t0 + r.timeout) := lookup_of_nodup (List.nodup_append.1 hinv.timerIds.1).1 ha
      refine ⟨{ v with armed := v.armed.filter (fun x => x.1 ≠ timer), fired := v.fired ++ [timer] }, ?_, by simp, hc, rfl, hd⟩
      simp only [Cli.step, hl, if_pos hle]
    · have hl : v.armed.lookup timer = none := by
        rw [List.lookup_eq_none_iff]
        intro x hx
        have := (List.nodup_append.1 hinv.timerIds.1).2.2 x.1 (List.mem_map_of_mem hx) timer hf
        simpa using fun he => this he.symm
      refine ⟨v, ?_, hf, hc, rfl, hd⟩
      simp only [Cli.step, hl]
  obtain ⟨v1, e1, e2, e3, e4, e5⟩ := hexp
  obtain ⟨v2, hv2⟩ := (h.step e1).total (.runTimer timer)
  refine ⟨timer, v2, by simp only [Cli.run, e1, hv2, CM.ret_bind], ?_, ?_⟩
  all_goals
    simp only [Cli.step, if_pos e2] at hv2
    injection hv2 with hv2
    rw [fire (v := { v1 with fired := v1.fired.filter fun x => x ≠ timer }) e5 e3] at hv2
  · rw [← hv2, checkPending_now, finish_now]; exact e4
  · rw [← hv2]
    refine checkPending_mem ?_
    rw [Cli.finish_log, ← ho]
    simp [e4]
where
  fire {env : ClientEnv} {v : Cli} {r : PendingReq} (h1 : v.isShutdown = false) (h2 : v.current = some r) :
      v.onTimer env = (v.finish r (.error .timeout)).checkPending env := by
    unfold Cli.onTimer
    rw [if_neg (by simp [h1])]
    simp only [h2]
    exact Cli.cancelCurrent_eq env v r _ h2
  lookup_of_nodup {l : List (Nat × Nat)} {t d : Nat} (hn : (l.map (·.1)).Nodup) (h : (t, d) ∈ l) : l.lookup t = some d := by
    induction l with
    | nil => cases h
    | cons x l ih =>
      obtain ⟨a, b⟩ := x
      simp only [List.map_cons, List.nodup_cons] at hn
      rw [List.lookup_cons]
      rcases List.mem_cons.1 h with h | h
      · injection h with h1 h2; subst h1; subst h2; simp
      · have : t ≠ a := fun he => hn.1 (he ▸ List.mem_map_of_mem h)
        rw [beq_eq_false_iff_ne.2 this]
        exact ih hn.2 h
  checkPending_now {env : ClientEnv} {v : Cli} : (v.checkPending env).now = v.now := by
    unfold Cli.checkPending
    split
    · rfl
    · split <;> rfl
  finish_now {v : Cli} {r : PendingReq} {x : Expected (List UInt8)} : (v.finish r x).now = v.now := by
    obtain ⟨f, hff⟩ := Cli.cancelTimer_eq { v.emit (.handler r.uid x v.now) with current := none }
    rw [Cli.finish, hff]; rfl
  checkPending_mem {env : ClientEnv} {v : Cli} {e : CEv} (h : e ∈ v.log) : e ∈ (v.checkPending env).log := by
    unfold Cli.checkPending
    split
    · exact h
    · split
      · exact List.mem_append_left _ h
      · exact h

/-- Request 3 of the demonstration, when its time is up. -/
example : ∃ v, CReach demoEnv v ∧ CEv.tcpShutdown ∉ v.log ∧ 3 ∈ sentUids v.log ∧ 3 ∉ handledUids v.log ∧ TimeUp v.log 3 v.now := by
  obtain ⟨v, hv, hl⟩ := reach_of_log (env := demoEnv) (ops := clientOps.take 15) (l := clientDemo.take 14) (by decide +kernel)
  obtain ⟨w, hw⟩ := hv.total (.tick 12)
  have hw' := hw
  injection hw' with hw'
  have hwl : w.log = clientDemo.take 14 := by rw [← hw']; exact hl
  refine ⟨w, hv.step hw, by rw [hwl]; decide +kernel, by rw [hwl]; decide +kernel, by rw [hwl]; decide +kernel,
    3, reqA, 7, [0, 2, 0, 0, 0, 6, 3, 3, 0, 0, 0, 1], 5, by rw [hwl]; decide +kernel, by rw [hwl]; decide +kernel, ?_⟩
  rw [← hw']
  show 12 ≤ v.now + 12
  omega

/-! ### Responses are delivered -/

/-- Messages that are not for the outstanding request only appear in the log; the first that is, is followed by the call of its handler. -/
theorem onMbaps_first {env : ClientEnv} (r : PendingReq) (ms : List Mbap) : ∀ v : Cli, v.isShutdown = false → v.current = some r →
    ((∀ m ∈ ms, ¬ (m.tid = r.tid ∧ m.unit = r.unit)) ∧ (v.onMbaps env ms).log = v.log ++ ms.map CEv.mbap) ∨
    ∃ (ns : List Mbap) (m : Mbap) (rest : List CEv), (∀ n ∈ ns, ¬ (n.tid = r.tid ∧ n.unit = r.unit)) ∧ m.tid = r.tid ∧ m.unit = r.unit ∧
      (v.onMbaps env ms).log = v.log ++ (ns.map CEv.mbap ++ .mbap m :: .handler r.uid (.ok m.data) v.now :: rest) := by
  induction ms with
  | nil => intro v _ _; exact Or.inl ⟨nofun, by simp [Cli.onMbaps]⟩
  | cons m ms ih =>
    intro v hd hc
    rcases Cli.onMbap_eq env v m with ⟨h1, h2⟩ | ⟨r', -, hc', ht, hu, h1⟩
    · have hno : ¬ (m.tid = r.tid ∧ m.unit = r.unit) := by
        rcases h2 with h2 | h2
        · rw [hd] at h2; cases h2
        · exact h2 r hc
      have hstep : v.onMbaps env (m :: ms) = (v.emit (.mbap m)).onMbaps env ms := by
        show (v.onMbap env m).onMbaps env ms = _
        rw [h1]
      rw [hstep]
      rcases ih (v.emit (.mbap m)) hd hc with ⟨a, b⟩ | ⟨ns, m', rest, a, b, c, d⟩
      · exact Or.inl ⟨fun n hn => by rcases List.mem_cons.1 hn with rfl | hn; exacts [hno, a n hn], by rw [b]; simp [Cli.emit]⟩
      · exact Or.inr ⟨m :: ns, m', rest, fun n hn => by rcases List.mem_cons.1 hn with rfl | hn; exacts [hno, a n hn], b, c, by rw [d]; simp [Cli.emit]⟩
    · rw [hc] at hc'
      injection hc' with hc'; subst hc'
      obtain ⟨rest, hrest⟩ := onMbaps_grows env ms (v.onMbap env m)
      have hm : ∃ es, (v.onMbap env m).log = v.log ++ (.mbap m :: .handler r.uid (.ok m.data) v.now :: es) := by
        obtain ⟨es, hes⟩ := checkPending_grows env ((v.emit (.mbap m)).finish r (.ok m.data))
        refine ⟨es, ?_⟩
        rw [h1, hes, Cli.finish_log]
        simp [Cli.emit]
      obtain ⟨es, hes⟩ := hm
      refine Or.inr ⟨[], m, es ++ rest, nofun, ht, hu, ?_⟩
      show ((v.onMbap env m).onMbaps env ms).log = _
      rw [hrest, hes]; simp
where
  checkPending_grows (env : ClientEnv) (v : Cli) : ∃ es, (v.checkPending env).log = v.log ++ es := by
    unfold Cli.checkPending
    split
    · exact ⟨[], by simp⟩
    · split
      · exact ⟨_, rfl⟩
      · exact ⟨[], by simp⟩
  onMbaps_grows (env : ClientEnv) (ms : List Mbap) : ∀ v : Cli, ∃ es, (v.onMbaps env ms).log = v.log ++ es := by
    induction ms with
    | nil => intro v; exact ⟨[], by simp [Cli.onMbaps]⟩
    | cons m ms ih =>
      intro v
      obtain ⟨es, he⟩ := ih (v.onMbap env m)
      have : ∃ es, (v.onMbap env m).log = v.log ++ es := by
        rcases Cli.onMbap_eq env v m with ⟨h1, -⟩ | ⟨r', -, -, -, -, h1⟩
        · exact ⟨_, by rw [h1]; rfl⟩
        · obtain ⟨es, hes⟩ := checkPending_grows env ((v.emit (.mbap m)).finish r' (.ok m.data))
          exact ⟨.mbap m :: .handler r'.uid (.ok m.data) v.now :: es, by rw [h1, hes, Cli.finish_log]; simp [Cli.emit]⟩
      obtain ⟨es', he'⟩ := this
      exact ⟨es' ++ es, by show ((v.onMbap env m).onMbaps env ms).log = _; rw [he, he']; simp⟩

/-- C49: and it does receive it.  When data arrives while request `u` is outstanding, the first message in it with the transaction id and unit id `u` was sent with is given
to the handler of `u` at once. -/
theorem C49_delivered (env : ClientEnv) (v v' : Cli) (h : CReach env v) (hs : CEv.tcpShutdown ∉ v.log) (u : Nat) (bytes : List UInt8) (t : Nat)
    (hsent : CEv.sent u bytes t ∈ v.log) (hn : u ∉ handledUids v.log) (d : List UInt8) (hstep : v.step env (.receive d) = .ret v')
    (past future : List CEv) (m : Mbap) (he : v'.log = v.log ++ (past ++ .mbap m :: future)) (q : AnyReq) (hm : IsRequestFrame m.unit m.tid q bytes)
    (hfirst : ∀ n, CEv.mbap n ∈ past → ∀ q', ¬ IsRequestFrame n.unit n.tid q' bytes) :
    ∃ rest, future = .handler u (.ok m.data) v.now :: rest := by
  have hinv := h.inv.1
  have hd := h.down hs
  obtain ⟨o, o1, o2⟩ := hinv.outstanding
  have ho := o1 u (mem_sentUids.2 ⟨_, _, hsent⟩) hn
  rw [o2 hd] at ho
  rcases hc : v.current with _ | r
  · rw [hc] at ho; cases ho
  rw [hc] at ho
  simp only [Option.map_some, Option.some.injEq] at ho
  subst ho
  obtain ⟨-, -, -, -, hcall, -, htid⟩ := hinv.current hc
  obtain ⟨unit, q0, tmo, hcall', -, tid, htid', hf⟩ := C54_transaction_ids env v h r.uid bytes t hsent
  obtain ⟨rfl, rfl, rfl⟩ := hinv.callUnique hcall hcall'
  have htr : tid = r.tid := by
    rw [htid]
    apply UInt16.toNat_inj.1
    rw [htid']; simp
  have hiff : ∀ n : Mbap, (∃ q', IsRequestFrame n.unit n.tid q' bytes) ↔ n.tid = r.tid ∧ n.unit = r.unit := by
    intro n
    constructor
    · rintro ⟨q', hq'⟩
      obtain ⟨a, b⟩ := requestFrame_inj hq' hf
      exact ⟨b.trans htr, a⟩
    · rintro ⟨a, b⟩
      refine ⟨r.req, ?_⟩
      rw [a, b, ← htr]; exact hf
  obtain ⟨hm1, hm2⟩ := (hiff m).1 ⟨q, hm⟩
  simp only [Cli.step, Cli.onReceive] at hstep
  rw [if_neg (by simp [Cli.emit, hd])] at hstep
  obtain ⟨⟨p, ms⟩, -, hstep⟩ := CM.bind_eq_ret.1 hstep
  injection hstep with hstep
  rcases onMbaps_first (env := env) r ms { v.emit (.data d) with parser := p } hd hc with ⟨a, b⟩ | ⟨ns, m', rest, a, b, c, e⟩
  · rw [hstep, he] at b
    have hmem : CEv.mbap m ∈ v.log ++ (past ++ .mbap m :: future) := by simp
    simp only [Cli.emit, List.append_assoc, List.append_cancel_left_eq] at b
    have : CEv.mbap m ∈ [CEv.data d] ++ ms.map CEv.mbap := by rw [← b]; simp
    simp only [List.mem_append, List.mem_singleton, List.mem_map, reduceCtorEq, CEv.mbap.injEq, exists_eq_right, false_or] at this
    exact absurd ⟨hm1, hm2⟩ (a m this)
  · rw [hstep, he] at e
    simp only [Cli.emit, List.append_assoc, List.append_cancel_left_eq] at e
    have key : ∀ (xs ys zs : List CEv), (∀ n, CEv.mbap n ∈ xs → ¬ (n.tid = r.tid ∧ n.unit = r.unit)) → (∀ n, CEv.mbap n ∈ ys → ¬ (n.tid = r.tid ∧ n.unit = r.unit)) →
        xs ++ .mbap m :: future = ys ++ .mbap m' :: zs → CEv.mbap m = .mbap m' ∧ future = zs := by
      intro xs
      induction xs with
      | nil =>
        intro ys zs _ hy heq
        cases ys with
        | nil => injection heq with h1 h2; exact ⟨h1, h2⟩
        | cons y ys => injection heq with h1 h2; exact absurd ⟨hm1, hm2⟩ (hy m (by rw [h1]; exact List.mem_cons_self))
      | cons x xs ih =>
        intro ys zs hx hy heq
        cases ys with
        | nil => injection heq with h1 h2; exact absurd ⟨b, c⟩ (hx m' (by rw [h1]; exact List.mem_cons_self))
        | cons y ys =>
          injection heq with h1 h2
          exact ih ys zs (fun n hn => hx n (List.mem_cons_of_mem _ hn)) (fun n hn => hy n (List.mem_cons_of_mem _ hn)) h2
    obtain ⟨k1, k2⟩ := key past ([.data d] ++ ns.map CEv.mbap) _ (fun n hn hh => by obtain ⟨q', hq'⟩ := (hiff n).2 hh; exact hfirst n hn q' hq')
      (fun n hn => a n (by simpa using hn)) (by simpa using e)
    injection k1 with k1; subst k1
    exact ⟨rest, k2⟩

/-- The second chunk of the demonstration completes the answer to request 0. -/
example : ∃ v v', CReach demoEnv v ∧ CEv.tcpShutdown ∉ v.log ∧ CEv.sent 0 [0, 0, 0, 0, 0, 6, 1, 3, 0, 0, 0, 1] 0 ∈ v.log ∧ 0 ∉ handledUids v.log ∧
    v.step demoEnv (.receive [3, 2, 0, 42]) = .ret v' ∧
    v'.log = v.log ++ ([.data [3, 2, 0, 42]] ++ .mbap ⟨1, 0, [3, 2, 0, 42]⟩ :: [.handler 0 (.ok [3, 2, 0, 42]) 0, .sent 2 [0, 1, 0, 0, 0, 6, 2, 3, 0, 0, 0, 1] 0]) ∧
    IsRequestFrame 1 0 reqA [0, 0, 0, 0, 0, 6, 1, 3, 0, 0, 0, 1] := by
  have h : (match (Cli.init demoEnv).run demoEnv (clientOps.take 7) with
    | .ret v => (match v.step demoEnv (.receive [3, 2, 0, 42]) with
      | .ret v' => decide (v.log = clientDemo.take 6 ∧ v'.log = clientDemo.take 10)
      | .ub => false)
    | .ub => false) = true := by decide +kernel
  split at h
  · rename_i v hv
    split at h
    · rename_i v' hv'
      obtain ⟨h1, h2⟩ := of_decide_eq_true h
      refine ⟨v, v', ⟨_, hv⟩, by rw [h1]; decide +kernel, by rw [h1]; decide +kernel, by rw [h1]; decide +kernel, hv', by rw [h1, h2]; rfl, ⟨[3, 0, 0, 0, 1], rfl, by decide, rfl⟩⟩
    · cases h
  · cases h

/-! ### Shutdown reaches every session -/

/-- Sessions created and sessions told. -/
structure Told (v : Cli) : Prop where
  nodup : v.sessions.Nodup
  bound : ∀ s ∈ v.sessions, s < v.nextSession
  up : v.isShutdown = false → (∀ s, CEv.session (some s) ∈ v.log ↔ s ∈ v.sessions) ∧ ∀ s, CEv.sessionShutdown s ∉ v.log
  down : v.isShutdown = true → v.sessions = [] ∧ ∀ s, CEv.session (some s) ∈ v.log → v.log.count (.sessionShutdown s) = 1

theorem Told.keep {v v' : Cli} (h : Told v) (h1 : v'.sessions = v.sessions) (h2 : v'.nextSession = v.nextSession) (h3 : v'.isShutdown = v.isShutdown)
    (h4 : ∃ es, v'.log = v.log ++ es ∧ ∀ e ∈ es, (∀ s, e ≠ .session (some s)) ∧ ∀ s, e ≠ .sessionShutdown s) : Told v' := by
  obtain ⟨es, hl, he⟩ := h4
  have hc : ∀ s, CEv.sessionShutdown s ∉ es := fun s hs => (he _ hs).2 s rfl
  have ho : ∀ s, CEv.session (some s) ∉ es := fun s hs => (he _ hs).1 s rfl
  refine ⟨h1 ▸ h.nodup, by rw [h1, h2]; exact h.bound, fun hd => ?_, fun hd => ?_⟩
  · obtain ⟨a, b⟩ := h.up (h3 ▸ hd)
    rw [hl, h1]
    exact ⟨fun s => by simp [ho s, a s], fun s => by simp [hc s, b s]⟩
  · obtain ⟨a, b⟩ := h.down (h3 ▸ hd)
    rw [hl, h1]
    refine ⟨a, fun s hs => ?_⟩
    rw [List.count_append, List.count_eq_zero_of_not_mem (hc s), Nat.add_zero]
    exact b s (by simpa [ho s] using hs)

theorem CReach.told {env : ClientEnv} {v : Cli} (h : CReach env v) : Told v := by
  obtain ⟨ops, hr⟩ := h
  have key : ∀ (ops : List Cli.Op) (v w : Cli), Told v → v.run env ops = .ret w → Told w := by
    intro ops
    induction ops with
    | nil => intro v w h hr; injection hr with hr; subst hr; exact h
    | cons op ops ih =>
      intro v w h hr
      obtain ⟨v1, h1, h2⟩ := CM.bind_eq_ret.1 hr
      refine ih v1 w ?_ h2
      by_cases ho : Pcl.ownChan op = true
      · rcases Cli.own_step h1 ho with hs | ⟨ts, -, -, hl, -, hse, hns, -, hsd⟩
        · obtain ⟨es, hl, he⟩ := hs.log
          exact h.keep hs.sessions hs.nextSession hs.isShutdown ⟨es, hl, fun e hm => ⟨by rintro s rfl; exact he _ hm, by rintro s rfl; exact he _ hm⟩⟩
        · refine ⟨by rw [hse]; exact List.nodup_nil, (by rw [hse]; intro s hs; cases hs), (fun hd => by rw [hsd] at hd; cases hd), fun _ => ⟨hse, fun s hs => ?_⟩⟩
          have hs' : CEv.session (some s) ∈ v.log := by rw [hl] at hs; simpa using hs
          have hcount : ∀ l : List Nat, (l.map CEv.sessionShutdown).count (.sessionShutdown s) = l.count s := fun l =>
            List.count_map_of_injective l CEv.sessionShutdown (fun a b hab => by injection hab) s
          rw [hl, List.count_append, List.count_append, hcount]
          have hz : [CEv.tcpShutdown].count (.sessionShutdown s) = 0 := List.count_eq_zero_of_not_mem (by simp)
          rw [hz]
          cases hd : v.isShutdown with
          | true =>
            obtain ⟨a, b⟩ := h.down hd
            rw [b s hs', a]; rfl
          | false =>
            obtain ⟨a, b⟩ := h.up hd
            rw [List.count_eq_zero_of_not_mem (b s), List.count_eq_one_of_mem h.nodup ((a s).1 hs')]
      · cases op with
        | submit unit q tmo =>
          simp only [Cli.step] at h1
          split at h1
          · injection h1 with h1; subst h1; exact h.keep rfl rfl rfl ⟨_, rfl, by simp⟩
          · split at h1 <;> (injection h1 with h1; subst h1; exact h.keep rfl rfl rfl ⟨_, rfl, by simp⟩)
        | tick n => injection h1 with h1; subst h1; exact h.keep rfl rfl rfl ⟨[], by simp, nofun⟩
        | createSession =>
          simp only [Cli.step] at h1
          split at h1
          · injection h1 with h1; subst h1; exact h.keep rfl rfl rfl ⟨_, rfl, by simp⟩
          · rename_i hd
            injection h1 with h1; subst h1
            have hd' : v.isShutdown = false := by simpa using hd
            obtain ⟨a, b⟩ := h.up hd'
            refine ⟨?_, ?_, fun _ => ⟨fun s => ?_, fun s => ?_⟩, fun hd2 => absurd hd2 hd⟩
            · refine List.nodup_append.2 ⟨h.nodup, by simp, ?_⟩
              intro x hx y hy
              rw [List.mem_singleton] at hy; subst hy
              exact Nat.ne_of_lt (h.bound x hx)
            · intro s hs
              rcases List.mem_append.1 hs with hs | hs
              · exact Nat.lt_succ_of_lt (h.bound s hs)
              · rw [List.mem_singleton.1 hs]; exact Nat.lt_succ_self _
            · simp [Cli.emit, a s]
            · simp [Cli.emit, b s]
        | _ => exact absurd rfl ho
  refine key ops _ v ⟨List.nodup_nil, fun s hs => by (cases hs), fun _ => ⟨fun s => ?_, fun s => ?_⟩, fun hd => by (cases hd)⟩ hr <;> simp [Cli.init]

/-- C56: when shutdown takes effect every session created before is told, exactly once; before that none is. -/
theorem C56_sessions_told (env : ClientEnv) (v : Cli) (h : CReach env v) (s : Nat) (hs : CEv.session (some s) ∈ v.log) :
    (CEv.tcpShutdown ∈ v.log → v.log.count (.sessionShutdown s) = 1) ∧ (CEv.tcpShutdown ∉ v.log → CEv.sessionShutdown s ∉ v.log) :=
  ⟨fun hd => (h.told.down (h.inv.1.downLog.1 hd)).2 s hs, fun hd => (h.told.up (h.down hd)).2 s⟩

example : ∃ v, CReach demoEnv v ∧ CEv.session (some 0) ∈ v.log ∧ CEv.tcpShutdown ∈ v.log := by
  obtain ⟨v, hv, hl⟩ := demo_reach
  exact ⟨v, hv, by rw [hl]; decide +kernel, by rw [hl]; decide +kernel⟩

end Props

end Modbus
