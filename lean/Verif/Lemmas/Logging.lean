import Verif.Lemmas.WorldParts
import Verif.Spec.Logging
import Verif.Lemmas.Client

/-! Auxiliary results about the lines of the client channel. -/

namespace Modbus

open Spec

namespace Spec.Witness

theorem account_append (a : Witness) (l1 l2 : List CEv) : a.account (l1 ++ l2) = a.account l1 ++ (l1.foldl see a).account l2 := by
  induction l1 generalizing a with
  | nil => rfl
  | cons e es ih => simp only [List.cons_append, account, List.foldl_cons, ih, List.append_assoc]

theorem account_one (a : Witness) (e : CEv) : a.account [e] = a.tells e := by simp [account]

end Spec.Witness

namespace Cli

/-- What one who has seen all effects knows. -/
def seen (v : Cli) : Witness := v.log.foldl Witness.see .init

/-- The witness knows what is going on in the channel. -/
structure Known (v : Cli) : Prop where
  down : v.seen.down = v.isShutdown
  out : v.seen.out = v.current.map fun r => (r.uid, r.unit, r.tid)
  reqs : ∀ r ∈ v.pending, v.seen.timeouts.lookup r.uid = some r.timeout ∧ isValid r.req.1 r.req.2 = true
  tasks : ∀ u unit q tmo, CTask.request u unit q tmo ∈ v.tasks → v.seen.timeouts.lookup u = some tmo ∧ isValid q.1 q.2 = true
  fresh : ∀ x ∈ v.seen.timeouts, x.1 < v.nextUid
  once : ∀ u, v.curUids.count u + v.pendUids.count u + (taskUids v.tasks).count u ≤ 1
  bound : ∀ u, v.nextUid ≤ u → v.curUids.count u + v.pendUids.count u + (taskUids v.tasks).count u = 0

/-- From `v` to `v'` the lines `ls` are what a truthful log says. -/
def Tells (v v' : Cli) (ls : List CLine) : Prop :=
  ∃ es, v'.log = v.log ++ es ∧ v.seen.account es = ls ∧ Known v'

theorem seen_append {v v' : Cli} {es : List CEv} (h : v'.log = v.log ++ es) : v'.seen = es.foldl Witness.see v.seen := by
  simp [seen, h]

theorem Tells.trans {v v' v'' : Cli} {l l' : List CLine} (h : Tells v v' l) (h' : Tells v' v'' l') : Tells v v'' (l ++ l') := by
  obtain ⟨e1, a1, b1, -⟩ := h
  obtain ⟨e2, a2, b2, k⟩ := h'
  refine ⟨e1 ++ e2, by rw [a2, a1, List.append_assoc], ?_, k⟩
  rw [Witness.account_append, b1, ← seen_append a1, b2]

theorem Tells.same {v v' : Cli} (hl : v'.log = v.log) (h : Known v') : Tells v v' [] := ⟨[], by simpa using hl, rfl, h⟩

theorem Tells.one {v v' : Cli} (e : CEv) (hl : v'.log = v.log ++ [e]) (h : Known v') : Tells v v' (v.seen.tells e) :=
  ⟨[e], hl, Witness.account_one _ _, h⟩

/-- The parts of the state the witness's knowledge is about. -/
theorem Known.of_eq {v v' : Cli} (h : Known v) (h1 : v'.log = v.log) (h2 : v'.isShutdown = v.isShutdown) (h3 : v'.current = v.current)
    (h4 : v'.pending = v.pending) (h5 : v'.tasks = v.tasks) (h6 : v'.nextUid = v.nextUid) : Known v' := by
  have hs : v'.seen = v.seen := by rw [seen, h1]; rfl
  constructor
  · rw [hs, h2]; exact h.down
  · rw [hs, h3]; exact h.out
  · rw [hs, h4]; exact h.reqs
  · rw [hs, h5]; exact h.tasks
  · rw [hs, h6]; exact h.fresh
  · simp only [curUids, pendUids, h3, h4, h5]; exact h.once
  · simp only [curUids, pendUids, h3, h4, h5, h6]; exact h.bound

theorem Known.cancelTimer {v : Cli} (h : Known v) : Known v.cancelTimer := by
  unfold Cli.cancelTimer
  split
  · exact h
  · exact h.of_eq rfl rfl rfl rfl rfl rfl

theorem cancelTimer_log (v : Cli) : v.cancelTimer.log = v.log := by unfold Cli.cancelTimer; split <;> rfl

theorem reqMsg_length_le (q : AnyReq) (hq : isValid q.1 q.2 = true) : (reqMsg q.1 q.2).length ≤ 253 := by
  obtain ⟨k, r⟩ := q
  cases k <;> simp only [reqMsg, readReqMsg, singleCoilMsg, singleRegMsg, writeCoilsMsg, writeRegsMsg] <;> try omega
  · simp only [isValid, writeCoilsValid, maxCoils, Bool.and_eq_true, decide_eq_true_eq] at hq
    have h2 : r.values.length ≤ 1968 := of_decide_eq_true hq.2
    simp only [byteCount]
    split <;> omega
  · simp only [isValid, writeRegsValid, maxWriteRegs, Bool.and_eq_true, decide_eq_true_eq] at hq
    have h2 : r.values.length ≤ 123 := of_decide_eq_true hq.2
    omega

/-- The bytes of a request. -/
theorem frameIds_build (unit : UInt8) (tid : UInt16) (q : AnyReq) (hq : isValid q.1 q.2 = true) (mem : List UInt8) (hmem : mem.length = 260) :
    frameIds (buildMbap unit tid (reqMsg q.1 q.2) ⟨[], mem⟩) = some (unit, tid) ∧
      (buildMbap unit tid (reqMsg q.1 q.2) ⟨[], mem⟩).length - 7 = (reqMsg q.1 q.2).length := by
  obtain ⟨payload, h1, h2, -⟩ := buildMbap_eq unit tid (reqMsg q.1 q.2) mem hmem (reqMsg_appends q.1 q.2)
  have h3 := reqMsg_length_le q hq
  constructor
  · rw [h1]
    simp only [hdr, List.cons_append, frameIds, hiByte_toNat, loByte_toNat]
    congr 2
    apply UInt16.toNat_inj.1
    have := tid.toNat_lt
    rw [UInt16.toNat_ofNat_of_lt' (by simp only [UInt16.size]; omega)]
    omega
  · rw [h1, List.length_append, hdr_length, h2]
    omega

theorem Known.checkPending {v : Cli} (env : ClientEnv) (h : Known v) : Tells v (v.checkPending env) v.checkPendingLines := by
  unfold Cli.checkPending checkPendingLines
  cases hs : v.isShutdown with
  | true => simp only [if_true]; exact .same rfl h
  | false =>
    simp only [Bool.false_eq_true, if_false]
    rcases hc : v.current with _ | r0
    · rcases hp : v.pending with _ | ⟨r, rest⟩
      · exact .same rfl h
      · simp only
        obtain ⟨k1, k2⟩ := h.reqs r (by simp [hp])
        obtain ⟨f1, f2⟩ := frameIds_build r.unit r.tid r.req k2 (env.junk v.nsend).toList (by simp)
        set bytes := buildMbap r.unit r.tid (reqMsg r.req.1 r.req.2) ⟨[], (env.junk v.nsend).toList⟩
        have ht : v.seen.tells (.sent r.uid bytes v.now) = [.sending r.unit r.tid r.timeout (reqMsg r.req.1 r.req.2).length] := by
          simp only [Witness.tells, f1, k1, f2]
        rw [← ht]
        refine .one (.sent r.uid bytes v.now) rfl ?_
        have hsee : ∀ v' : Cli, v'.log = v.log ++ [.sent r.uid bytes v.now] → v'.seen = { v.seen with out := some (r.uid, r.unit, r.tid) } := by
          intro v' hl
          rw [seen_append hl]
          simp [Witness.see, f1]
        constructor
        · rw [hsee _ rfl]; exact h.down.trans hs
        · rw [hsee _ rfl]; rfl
        · rw [hsee _ rfl]; intro r' hr'
          exact h.reqs r' (by rw [hp]; exact List.mem_cons_of_mem _ hr')
        · rw [hsee _ rfl]; exact h.tasks
        · rw [hsee _ rfl]; exact h.fresh
        · intro u
          have := h.once u
          simpa [curUids, pendUids, hc, hp, List.count_cons, Nat.add_comm, Nat.add_left_comm, Nat.add_assoc, Cli.emit] using this
        · intro u hu
          have := h.bound u hu
          simp [curUids, pendUids, hc, hp, List.count_cons] at this
          simp [curUids, pendUids, List.count_cons, Cli.emit, this]
    · exact .same rfl h

/-- The current request is over. -/
theorem Known.finished {v v' : Cli} {r : PendingReq} {x : Expected (List UInt8)} (h : Known v) (hc : v.current = some r)
    (h1 : v'.log = v.log ++ [.handler r.uid x v.now]) (h2 : v'.isShutdown = v.isShutdown) (h3 : v'.current = none)
    (h4 : v'.pending = v.pending) (h5 : v'.tasks = v.tasks) (h6 : v'.nextUid = v.nextUid) : Known v' := by
  have hs : v'.seen = { v.seen with out := none } := by
    rw [seen_append h1]
    simp [Witness.see, h.out, hc]
  constructor
  · rw [hs, h2]; exact h.down
  · rw [hs, h3]; rfl
  · rw [hs, h4]; exact h.reqs
  · rw [hs, h5]; exact h.tasks
  · rw [hs, h6]; exact h.fresh
  · intro u
    have := h.once u
    simp only [curUids, pendUids, h3, h4, h5, hc] at this ⊢
    simp only [Option.toList, List.map_nil, List.count_nil]
    omega
  · intro u hu
    have := h.bound u (by omega)
    simp only [curUids, pendUids, h3, h4, h5, hc] at this ⊢
    simp only [Option.toList, List.map_nil, List.count_nil]
    omega

theorem finish_leaves (v : Cli) (r : PendingReq) (x : Expected (List UInt8)) : (v.finish r x).log = v.log ++ [.handler r.uid x v.now] ∧
    (v.finish r x).isShutdown = v.isShutdown ∧ (v.finish r x).current = none ∧ (v.finish r x).pending = v.pending ∧
    (v.finish r x).tasks = v.tasks ∧ (v.finish r x).nextUid = v.nextUid := by
  rw [← finish_eq]
  unfold Cli.cancelTimer
  split <;> exact ⟨rfl, rfl, rfl, rfl, rfl, rfl⟩

theorem Known.finish {v : Cli} {r : PendingReq} (x : Expected (List UInt8)) (h : Known v) (hc : v.current = some r) :
    Tells v (v.finish r x) (v.seen.tells (.handler r.uid x v.now)) := by
  obtain ⟨h1, h2, h3, h4, h5, h6⟩ := finish_leaves v r x
  exact .one _ h1 (h.finished hc h1 h2 h3 h4 h5 h6)

/-- The lines of the rest do not depend on how the request ended. -/
theorem checkPendingLines_congr {v v' : Cli} (h2 : v'.isShutdown = v.isShutdown) (h3 : v'.current = v.current) (h4 : v'.pending = v.pending) :
    v'.checkPendingLines = v.checkPendingLines := by
  simp only [checkPendingLines, h2, h3, h4]

theorem cancelTimer_same (v : Cli) : v.cancelTimer.isShutdown = v.isShutdown ∧ v.cancelTimer.current = v.current ∧ v.cancelTimer.pending = v.pending := by
  unfold Cli.cancelTimer; split <;> exact ⟨rfl, rfl, rfl⟩

theorem Known.plain {v v' : Cli} (h : Known v) (e : CEv) (he : v.seen.see e = v.seen) (h1 : v'.log = v.log ++ [e]) (h2 : v'.isShutdown = v.isShutdown)
    (h3 : v'.current = v.current) (h4 : v'.pending = v.pending) (h5 : v'.tasks = v.tasks) (h6 : v'.nextUid = v.nextUid) : Known v' := by
  have hs : v'.seen = v.seen := by rw [seen_append h1]; exact he
  constructor
  · rw [hs, h2]; exact h.down
  · rw [hs, h3]; exact h.out
  · rw [hs, h4]; exact h.reqs
  · rw [hs, h5]; exact h.tasks
  · rw [hs, h6]; exact h.fresh
  · simp only [curUids, pendUids, h3, h4, h5]; exact h.once
  · simp only [curUids, pendUids, h3, h4, h5, h6]; exact h.bound

theorem Known.onMbap {v : Cli} (env : ClientEnv) (m : Mbap) (h : Known v) : Tells v (v.onMbap env m) (v.mbapLines m) := by
  have h0 : Tells v (v.emit (.mbap m)) (v.seen.tells (.mbap m)) := .one _ rfl (h.plain (.mbap m) rfl rfl rfl rfl rfl rfl rfl)
  have hk : Known (v.emit (.mbap m)) := h0.choose_spec.2.2
  have ht : v.seen.tells (.mbap m) = if v.isShutdown then [] else match v.current with
      | none => [.notWaiting]
      | some r => if m.unit = r.unit ∧ m.tid = r.tid then [.response r.unit r.tid] else [.unexpected m.unit m.tid] := by
    simp only [Witness.tells, h.down, h.out]
    rcases v.current with _ | r <;> rfl
  rw [ht] at h0
  unfold mbapLines
  cases hs : v.isShutdown with
  | true =>
    have : v.onMbap env m = v.emit (.mbap m) := by simp [Cli.onMbap, Cli.emit, hs]
    rw [this]
    simpa [hs] using h0
  | false =>
    simp only [Bool.false_eq_true, if_false, hs] at h0 ⊢
    rcases onMbap_eq env v m with ⟨e1, e2⟩ | ⟨r, -, hc, e3, e4, e5⟩
    · rw [e1]
      simp only [hs, Bool.false_eq_true, false_or] at e2
      rcases hc : v.current with _ | r
      · simpa [hc] using h0
      · have e6 := e2 r hc
        simp only [hc] at h0 ⊢
        rw [if_neg (fun hh => e6 ⟨hh.2, hh.1⟩)] at h0
        rw [if_neg e6]; exact h0
    · rw [e5]
      simp only [hc] at h0 ⊢
      rw [if_pos ⟨e4, e3⟩] at h0
      rw [if_pos ⟨e3, e4⟩]
      have h1 := h0.trans (hk.finish (r := r) (.ok m.data) hc)
      obtain ⟨g1, g2, g3, g4, g5, g6⟩ := finish_leaves (v.emit (.mbap m)) r (.ok m.data)
      have h2 := h1.trans ((h1.choose_spec.2.2).checkPending env)
      rw [checkPendingLines_congr (v := { v with current := none }) g2 g3 g4] at h2
      simpa [Witness.tells, e3, e4, hs] using h2

theorem Known.onMbaps (env : ClientEnv) (ms : List Mbap) : ∀ {v : Cli}, Known v → Tells v (v.onMbaps env ms) (v.mbapsLines env ms) := by
  induction ms with
  | nil => exact fun h => .same rfl h
  | cons m ms ih =>
    intro v h
    have h1 := h.onMbap env m
    exact h1.trans (ih h1.choose_spec.2.2)

theorem Known.onTimer {v : Cli} (env : ClientEnv) (h : Known v) : Tells v (v.onTimer env) v.timerLines := by
  unfold Cli.onTimer timerLines
  cases hs : v.isShutdown with
  | true => exact .same rfl h
  | false =>
    simp only [Bool.false_eq_true, if_false]
    rcases hc : v.current with _ | r
    · exact .same rfl h
    · simp only
      rw [cancelCurrent_eq env v r _ hc]
      have h1 := h.finish (r := r) (.error .timeout) hc
      obtain ⟨g1, g2, g3, g4, g5, g6⟩ := finish_leaves v r (.error .timeout)
      have h2 := h1.trans ((h1.choose_spec.2.2).checkPending env)
      obtain ⟨c1, c2, c3⟩ := cancelTimer_same { v with current := none }
      rw [checkPendingLines_congr (v := { v with current := none }.cancelTimer) (by rw [g2, c1]) (by rw [g3, c2]) (by rw [g4, c3])] at h2
      simpa [Witness.tells, h.out, hc, cancelCurrentLines] using h2

theorem account_failures (a : Witness) (ps : List PendingReq) (now : Nat) (h : ∀ p ∈ ps, ∀ x, a.out = some x → x.1 ≠ p.uid) :
    a.account (ps.map fun p => .handler p.uid (.error .connection) now) = [] ∧
      (ps.map fun p => CEv.handler p.uid (.error .connection) now).foldl Witness.see a = a := by
  induction ps with
  | nil => exact ⟨rfl, rfl⟩
  | cons p ps ih =>
    have e : a.see (.handler p.uid (.error .connection) now) = a := by
      have h1 := h p (by simp)
      obtain ⟨o, t, d⟩ := a
      rcases o with _ | x
      · rfl
      · simp [Witness.see, Option.filter, h1 x rfl]
    obtain ⟨i1, i2⟩ := ih fun p' hp' => h p' (List.mem_cons_of_mem _ hp')
    simp only [List.map_cons, Witness.account, List.foldl_cons, e, i1, i2]
    simp [Witness.tells]

theorem Known.failed {v : Cli} (h : Known v) (hs : v.isShutdown = false) : Tells v v.failed [.connError] := by
  have hd : ∀ p ∈ v.pending, ∀ x, v.seen.out = some x → x.1 ≠ p.uid := by
    intro p hp x hx he
    rw [h.out] at hx
    rcases hc : v.current with _ | r
    · rw [hc] at hx; cases hx
    · rw [hc] at hx
      simp only [Option.map_some, Option.some.injEq] at hx
      subst hx
      have h1 := h.once p.uid
      have h2 : 0 < v.pendUids.count p.uid := List.count_pos_iff.2 (List.mem_map.2 ⟨p, hp, rfl⟩)
      have h3 : 0 < v.curUids.count p.uid := List.count_pos_iff.2 (by simp [curUids, hc, ← he])
      omega
  obtain ⟨a1, a2⟩ := account_failures v.seen v.pending v.now hd
  refine ⟨.connError :: v.pending.map fun p => .handler p.uid (.error .connection) v.now, ?_, ?_, ?_⟩
  · simp [Cli.failed, Cli.cancelPending, Cli.emit]
  · have : v.seen.see .connError = v.seen := rfl
    simp only [Witness.account, this, a1]
    simp [Witness.tells, h.down, hs]
  · have hsn : v.failed.seen = v.seen := by
      rw [seen_append (v := v) (es := .connError :: v.pending.map fun p => .handler p.uid (.error .connection) v.now)
        (by simp [Cli.failed, Cli.cancelPending, Cli.emit])]
      exact a2
    constructor
    · rw [hsn]; exact h.down
    · rw [hsn]; exact h.out
    · intro r hr; cases hr
    · rw [hsn]; exact h.tasks
    · rw [hsn]; exact h.fresh
    · intro u
      have := h.once u
      simp only [Cli.failed, Cli.cancelPending, Cli.emit, curUids, pendUids, List.map_nil, List.count_nil] at this ⊢
      omega
    · intro u hu
      have := h.bound u hu
      simp only [Cli.failed, Cli.cancelPending, Cli.emit, curUids, pendUids, List.map_nil, List.count_nil] at this ⊢
      omega

theorem Known.onError {v : Cli} (env : ClientEnv) (h : Known v) : Tells v (v.onError env) v.errorLines := by
  rw [onError_eq]
  unfold errorLines
  cases hs : v.isShutdown with
  | true =>
    simp only [if_true]
    have h0 : Tells v (v.emit .connError) (v.seen.tells .connError) := .one _ rfl (h.plain .connError rfl rfl rfl rfl rfl rfl rfl)
    simpa [Witness.tells, h.down, hs] using h0
  | false =>
    simp only [Bool.false_eq_true, if_false]
    have h0 := h.failed hs
    rcases hc : v.current with _ | r
    · exact h0
    · simp only
      have hk := h0.choose_spec.2.2
      have h1 := h0.trans (hk.finish (r := r) (.error .connection) hc)
      obtain ⟨g1, g2, g3, g4, g5, g6⟩ := finish_leaves v.failed r (.error .connection)
      have h2 := h1.trans ((h1.choose_spec.2.2).checkPending env)
      have e1 : (v.failed.finish r (.error .connection)).checkPendingLines = [] := by
        have g4' : (v.failed.finish r (.error .connection)).pending = [] := g4
        simp only [checkPendingLines, g4', g3, ite_self]
      have e2 : v.cancelPending.cancelCurrentLines = [] := by
        obtain ⟨c1, c2, c3⟩ := cancelTimer_same { v.cancelPending with current := none }
        simp only [cancelCurrentLines]
        rcases v.cancelPending.current with _ | r'
        · rfl
        · have c3' : ({ v.cancelPending with current := none } : Cli).cancelTimer.pending = [] := c3
          simp only [checkPendingLines, c2, c3', ite_self]
      rw [e1] at h2
      rw [e2]
      simpa [Witness.tells] using h2

theorem Known.onReceive {v v' : Cli} (env : ClientEnv) (h : Known v) (d : List UInt8) (hr : v.onReceive env d = .ret v') :
    Tells v v' (v.receiveLines env d) := by
  have h0 : Tells v (v.emit (.data d)) (v.seen.tells (.data d)) := .one _ rfl (h.plain (.data d) rfl rfl rfl rfl rfl rfl rfl)
  unfold receiveLines
  by_cases hs : v.isShutdown = true
  · have : v.onReceive env d = .ret (v.emit (.data d)) := by simp [Cli.onReceive, Cli.emit, hs]
    rw [this] at hr
    injection hr with hr; subst hr
    simpa [Witness.tells, h.down, hs] using h0
  · have e2 : (v.emit (.data d)).parser = v.parser := rfl
    unfold Cli.onReceive at hr
    rw [if_neg hs]
    simp only at hr
    rw [if_neg (show ¬ (v.emit (.data d)).isShutdown = true from hs), e2] at hr
    rcases hp : v.parser.parse d with _ | ⟨p, ms⟩
    · rw [hp] at hr; simp only [CM.ub_bind, reduceCtorEq] at hr
    · rw [hp] at hr
      simp only [CM.ret_bind, CM.pure_eq] at hr
      injection hr with hr; subst hr
      have h1 : Tells v { v.emit (.data d) with parser := p } (v.seen.tells (.data d)) :=
        .one _ rfl (h.plain (.data d) rfl rfl rfl rfl rfl rfl rfl)
      have h2 := h1.trans ((h1.choose_spec.2.2).onMbaps env ms)
      have ht : v.seen.tells (.data d) = [.received d.length] := by simp [Witness.tells, h.down, hs]
      rw [ht] at h2
      exact h2

theorem Known.runTask {v : Cli} (env : ClientEnv) (h : Known v) {t : CTask} {ts : List CTask} (ht : v.tasks = t :: ts) :
    Tells v ({ v with tasks := ts }.runTask env t) ({ v with tasks := ts }.taskLines t) := by
  have hcount : ∀ u, (taskUids v.tasks).count u = (t.uid?.toList).count u + (taskUids ts).count u := by
    intro u; rw [ht, taskUids_cons, List.count_append]
  have hk : Known { v with tasks := ts } := by
    constructor
    · exact h.down
    · exact h.out
    · exact h.reqs
    · intro u unit q tmo hm; exact h.tasks u unit q tmo (by rw [ht]; exact List.mem_cons_of_mem _ hm)
    · exact h.fresh
    · intro u
      have := h.once u
      rw [hcount] at this
      simp only [curUids, pendUids] at this ⊢
      omega
    · intro u hu
      have := h.bound u hu
      rw [hcount] at this
      simp only [curUids, pendUids] at this ⊢
      omega
  cases t with
  | request u unit q tmo =>
    simp only [Cli.runTask, taskLines]
    by_cases hs : v.isShutdown = true
    · rw [if_pos hs, if_pos hs]; exact .same rfl hk
    · rw [if_neg hs, if_neg hs]
      have hk2 : Known { v with tasks := ts, pending := v.pending ++ [PendingReq.mk u unit v.nextTid q tmo], nextTid := v.nextTid + 1 } := by
        constructor
        · exact h.down
        · exact h.out
        · intro r hr
          rcases List.mem_append.1 hr with hr | hr
          · exact h.reqs r hr
          · rw [List.mem_singleton.1 hr]
            exact h.tasks u unit q tmo (by rw [ht]; exact List.mem_cons_self ..)
        · exact hk.tasks
        · exact h.fresh
        · intro u'
          have := h.once u'
          rw [hcount] at this
          simp only [curUids, pendUids, List.map_append, List.map_cons, List.map_nil, List.count_append, CTask.uid?, Option.toList] at this ⊢
          omega
        · intro u' hu
          have := h.bound u' hu
          rw [hcount] at this
          simp only [curUids, pendUids, List.map_append, List.map_cons, List.map_nil, List.count_append, CTask.uid?, Option.toList] at this ⊢
          omega
      have h2 := Tells.trans (Tells.same rfl hk2) (hk2.checkPending env)
      exact h2
  | malformed u =>
    simp only [Cli.runTask, taskLines]
    have hne : v.seen.see (.handler u (.error .malformedRequest) v.now) = v.seen := by
      have h1 := h.once u
      rw [hcount] at h1
      simp only [CTask.uid?, Option.toList, List.count_cons_self, List.count_nil] at h1
      have h2 : u ∉ v.curUids := by
        intro hm
        have := List.count_pos_iff.2 hm
        omega
      have h3 : v.seen.out.filter (fun x => x.1 ≠ u) = v.seen.out := by
        rw [h.out]
        rcases hc : v.current with _ | r
        · rfl
        · have : r.uid ≠ u := fun he => h2 (by simp [curUids, hc, he])
          simp [Option.filter, this]
      simp only [Witness.see, h3]
    have h0 : Tells v (({ v with tasks := ts } : Cli).emit (.handler u (.error .malformedRequest) v.now)) (v.seen.tells (.handler u (.error .malformedRequest) v.now)) :=
      .one _ rfl (hk.plain (v' := ({ v with tasks := ts } : Cli).emit (.handler u (.error .malformedRequest) v.now)) _ hne rfl rfl rfl rfl rfl rfl)
    simpa [Witness.tells] using h0
  | shutdown =>
    simp only [Cli.runTask, taskLines]
    set v1 : Cli := { v with tasks := ts, isShutdown := true, log := v.log ++ v.sessions.map CEv.sessionShutdown, sessions := [], pending := [], current := none } with hv1
    have hfold : ∀ (ss : List Nat) (a : Witness), (ss.map CEv.sessionShutdown).foldl Witness.see a = a ∧ a.account (ss.map CEv.sessionShutdown) = [] := by
      intro ss
      induction ss with
      | nil => exact fun a => ⟨rfl, rfl⟩
      | cons s ss ih =>
        intro a
        refine ⟨(ih a).1, ?_⟩
        simp only [List.map_cons, Witness.account, Witness.tells, List.nil_append]
        exact (ih a).2
    have hl : (v1.cancelTimer.emit .tcpShutdown).log = v.log ++ (v.sessions.map CEv.sessionShutdown ++ [.tcpShutdown]) := by
      simp only [Cli.emit, cancelTimer_log, hv1, List.append_assoc]
    have hct : v1.cancelTimer.isShutdown = true ∧ v1.cancelTimer.current = none ∧ v1.cancelTimer.pending = [] ∧ v1.cancelTimer.tasks = ts ∧
        v1.cancelTimer.nextUid = v.nextUid := by
      unfold Cli.cancelTimer; split <;> exact ⟨rfl, rfl, rfl, rfl, rfl⟩
    obtain ⟨t1, t2, t3, t4, t5⟩ := hct
    refine ⟨_, hl, ?_, ?_⟩
    · rw [Witness.account_append, (hfold _ _).2, (hfold _ _).1, Witness.account_one]; rfl
    · have hsn : (v1.cancelTimer.emit .tcpShutdown).seen = { v.seen with out := none, down := true } := by
        rw [seen_append hl, List.foldl_append, (hfold _ _).1]; rfl
      constructor
      · rw [hsn]; exact t1.symm
      · rw [hsn]; show none = Option.map _ v1.cancelTimer.current; rw [t2]; rfl
      · intro r hr
        have : r ∈ v1.cancelTimer.pending := hr
        rw [t3] at this; cases this
      · rw [hsn]; intro u unit q tmo hm
        have : CTask.request u unit q tmo ∈ v1.cancelTimer.tasks := hm
        rw [t4] at this
        exact hk.tasks u unit q tmo this
      · rw [hsn]; intro x hx
        show x.1 < v1.cancelTimer.nextUid
        rw [t5]; exact h.fresh x hx
      · intro u
        have := hk.once u
        have e1 : (v1.cancelTimer.emit .tcpShutdown).current = none := t2
        have e2 : (v1.cancelTimer.emit .tcpShutdown).pending = [] := t3
        have e3 : (v1.cancelTimer.emit .tcpShutdown).tasks = ts := t4
        simp only [curUids, pendUids, e1, e2, e3, Option.toList, List.map_nil, List.count_nil] at this ⊢
        omega
      · intro u hu
        have := hk.bound u (by have : v.nextUid ≤ u := by rw [← t5]; exact hu
                               exact this)
        have e1 : (v1.cancelTimer.emit .tcpShutdown).current = none := t2
        have e2 : (v1.cancelTimer.emit .tcpShutdown).pending = [] := t3
        have e3 : (v1.cancelTimer.emit .tcpShutdown).tasks = ts := t4
        simp only [curUids, pendUids, e1, e2, e3, Option.toList, List.map_nil, List.count_nil] at this ⊢
        omega

theorem lookup_snoc_of_some {l : List (Nat × Nat)} {u t a b : Nat} (h : l.lookup u = some t) : (l ++ [(a, b)]).lookup u = some t := by
  induction l with
  | nil => cases h
  | cons x xs ih =>
    obtain ⟨p, q⟩ := x
    simp only [List.cons_append, List.lookup_cons] at h ⊢
    split
    · rename_i hh; simpa [hh] using h
    · rename_i hh; simp only [hh] at h; exact ih h

theorem lookup_snoc_new {l : List (Nat × Nat)} {u b : Nat} (h : ∀ x ∈ l, x.1 < u) : (l ++ [(u, b)]).lookup u = some b := by
  induction l with
  | nil => simp
  | cons x xs ih =>
    obtain ⟨p, q⟩ := x
    have h1 : p < u := h (p, q) (by simp)
    simp only [List.cons_append, List.lookup_cons]
    have : (u == p) = false := by simp; omega
    simp only [this]
    exact ih fun y hy => h y (List.mem_cons_of_mem _ hy)

theorem Known.submit {v : Cli} (h : Known v) (unit : UInt8) (q : AnyReq) (tmo : Nat) (ts : List CTask)
    (hts : ts = [] ∨ (isValid q.1 q.2 = true ∧ ts = [.request v.nextUid unit q tmo]) ∨ ts = [.malformed v.nextUid]) :
    Tells v { v.emit (.call v.nextUid unit q tmo) with nextUid := v.nextUid + 1, tasks := v.tasks ++ ts } [] := by
  have hu : ∀ u, (taskUids (v.tasks ++ ts)).count u ≤ (taskUids v.tasks).count u + (if u = v.nextUid then 1 else 0) := by
    intro u
    rw [taskUids_append, List.count_append]
    rcases hts with rfl | ⟨-, rfl⟩ | rfl
    · simp [taskUids]
    · simp only [taskUids, List.filterMap_cons, CTask.uid?, List.filterMap_nil, List.count_cons, List.count_nil]
      split <;> split <;> simp_all
    · simp only [taskUids, List.filterMap_cons, CTask.uid?, List.filterMap_nil, List.count_cons, List.count_nil]
      split <;> split <;> simp_all
  refine ⟨[.call v.nextUid unit q tmo], rfl, rfl, ?_⟩
  have hs : ∀ v' : Cli, v'.log = v.log ++ [.call v.nextUid unit q tmo] → v'.seen = { v.seen with timeouts := v.seen.timeouts ++ [(v.nextUid, tmo)] } := by
    intro v' hl; rw [seen_append hl]; rfl
  constructor
  · rw [hs _ rfl]; exact h.down
  · rw [hs _ rfl]; exact h.out
  · rw [hs _ rfl]; intro r hr
    exact ⟨lookup_snoc_of_some (h.reqs r hr).1, (h.reqs r hr).2⟩
  · rw [hs _ rfl]; intro u un q' t' hm
    rcases List.mem_append.1 hm with hm | hm
    · exact ⟨lookup_snoc_of_some (h.tasks u un q' t' hm).1, (h.tasks u un q' t' hm).2⟩
    · rcases hts with rfl | ⟨hv, rfl⟩ | rfl
      · cases hm
      · obtain ⟨rfl, rfl, rfl, rfl⟩ := by simpa using hm
        exact ⟨lookup_snoc_new h.fresh, hv⟩
      · simp at hm
  · rw [hs _ rfl]; intro x hx
    rcases List.mem_append.1 hx with hx | hx
    · exact Nat.lt_succ_of_lt (h.fresh x hx)
    · rw [List.mem_singleton.1 hx]; exact Nat.lt_succ_self _
  · intro u
    have h1 := h.once u
    have h2 := hu u
    by_cases he : u = v.nextUid
    · have h3 := h.bound u (by omega)
      rw [if_pos he] at h2
      simp only [curUids, pendUids, Cli.emit] at h1 h3 ⊢
      omega
    · rw [if_neg he] at h2
      simp only [curUids, pendUids, Cli.emit] at h1 ⊢
      omega
  · intro u hb
    have hb' : v.nextUid + 1 ≤ u := hb
    have h1 := h.bound u (by omega)
    have h2 := hu u
    rw [if_neg (by omega)] at h2
    simp only [curUids, pendUids, Cli.emit] at h1 ⊢
    omega

theorem Known.step {v v' : Cli} {env : ClientEnv} (h : Known v) {op : Op} (hst : v.step env op = .ret v') : Tells v v' (v.lines env op) := by
  cases op with
  | submit unit req timeout =>
    simp only [Cli.step] at hst
    have e : (Cli.lines env v (.submit unit req timeout)) = [] := rfl
    rw [e]
    split at hst
    · injection hst with hst; subst hst
      have := h.submit unit req timeout [] (.inl rfl)
      rw [List.append_nil] at this
      exact this
    · split at hst
      · rename_i hv
        injection hst with hst; subst hst
        exact h.submit unit req timeout _ (.inr (.inl ⟨hv, rfl⟩))
      · injection hst with hst; subst hst
        exact h.submit unit req timeout _ (.inr (.inr rfl))
  | shutdown =>
    simp only [Cli.step] at hst
    injection hst with hst; subst hst
    refine .same rfl ?_
    constructor
    · exact h.down
    · exact h.out
    · exact h.reqs
    · intro u unit q tmo hm
      have : CTask.request u unit q tmo ∈ v.tasks := by simpa using hm
      exact h.tasks u unit q tmo this
    · exact h.fresh
    · intro u
      have := h.once u
      have e : taskUids (v.tasks ++ [.shutdown]) = taskUids v.tasks := by
        rw [taskUids_append]; exact List.append_nil _
      simp only [curUids, pendUids, e] at this ⊢
      exact this
    · intro u hu
      have := h.bound u hu
      have e : taskUids (v.tasks ++ [.shutdown]) = taskUids v.tasks := by
        rw [taskUids_append]; exact List.append_nil _
      simp only [curUids, pendUids, e] at this ⊢
      exact this
  | createSession =>
    simp only [Cli.step] at hst
    split at hst
    · injection hst with hst; subst hst
      exact Tells.one (.session none) rfl (h.plain (.session none) rfl rfl rfl rfl rfl rfl rfl)
    · injection hst with hst; subst hst
      exact Tells.one (.session (some v.nextSession)) rfl (h.plain (.session (some v.nextSession)) rfl rfl rfl rfl rfl rfl rfl)
  | runTask =>
    simp only [Cli.step, Cli.lines] at hst ⊢
    rcases ht : v.tasks with _ | ⟨t, ts⟩
    · simp only [ht] at hst
      injection hst with hst; subst hst
      exact .same rfl h
    · simp only [ht] at hst
      injection hst with hst; subst hst
      exact h.runTask env ht
  | receive data => exact h.onReceive env data hst
  | error =>
    simp only [Cli.step] at hst
    injection hst with hst; subst hst
    exact h.onError env
  | tick n =>
    simp only [Cli.step] at hst
    injection hst with hst; subst hst
    exact .same rfl (h.of_eq rfl rfl rfl rfl rfl rfl)
  | expire t =>
    simp only [Cli.step] at hst
    split at hst
    · injection hst with hst; subst hst; exact .same rfl h
    · split at hst
      · injection hst with hst; subst hst; exact .same rfl (h.of_eq rfl rfl rfl rfl rfl rfl)
      · injection hst with hst; subst hst; exact .same rfl h
  | runTimer t =>
    simp only [Cli.step, Cli.lines] at hst ⊢
    split at hst
    · rename_i hm
      injection hst with hst; subst hst
      rw [if_pos hm]
      have hk : Known { v with fired := v.fired.filter fun x => x ≠ t } := h.of_eq rfl rfl rfl rfl rfl rfl
      exact Tells.trans (Tells.same rfl hk) (hk.onTimer env)
    · rename_i hm
      injection hst with hst; subst hst
      rw [if_neg hm]
      exact .same rfl h

theorem Known.init (env : ClientEnv) : Known (Cli.init env) := by
  constructor <;> simp [Cli.init, seen, Witness.init, curUids, pendUids, taskUids]

theorem Known.runLines {env : ClientEnv} (ops : List Op) : ∀ {v v' : Cli} {ls : List CLine}, Known v → v.runLines env ops = .ret (v', ls) →
    Tells v v' ls ∧ v.run env ops = .ret v' := by
  induction ops with
  | nil =>
    intro v v' ls h hr
    simp only [Cli.runLines] at hr
    injection hr with hr; injection hr with h1 h2; subst h1; subst h2
    exact ⟨.same rfl h, rfl⟩
  | cons op ops ih =>
    intro v v' ls h hr
    simp only [Cli.runLines, CM.bind_eq_ret, CM.pure_eq] at hr
    obtain ⟨v1, h1, ⟨v2, l2⟩, h2, h3⟩ := hr
    injection h3 with h3; injection h3 with h3 h4; subst h3; subst h4
    have t1 := h.step h1
    obtain ⟨i1, i2⟩ := ih t1.choose_spec.2.2 h2
    refine ⟨t1.trans i1, ?_⟩
    simp only [Cli.run, h1, CM.ret_bind, i2]

/-- Lines and effects agree in number. -/
def Fair (v v' : Cli) (ls : List CLine) : Prop :=
  ∃ es, v'.log = v.log ++ es ∧ (es.filterMap sentFrame?).map frameIds = (ls.filterMap sendingIds?).map some ∧
    es.countP toldTimeout = ls.countP saysTimeout ∧ es.countP toldResponse = ls.countP saysResponse

theorem Fair.trans {v v' v'' : Cli} {l l' : List CLine} (h : Fair v v' l) (h' : Fair v' v'' l') : Fair v v'' (l ++ l') := by
  obtain ⟨e1, a1, b1, c1, d1⟩ := h
  obtain ⟨e2, a2, b2, c2, d2⟩ := h'
  refine ⟨e1 ++ e2, by rw [a2, a1, List.append_assoc], ?_, ?_, ?_⟩
  · simp only [List.filterMap_append, List.map_append, b1, b2]
  · simp only [List.countP_append, c1, c2]
  · simp only [List.countP_append, d1, d2]

theorem Fair.same {v v' : Cli} (hl : v'.log = v.log) : Fair v v' [] := ⟨[], by simpa using hl, rfl, rfl, rfl⟩

theorem fairCheckOf {v : Cli} (env : ClientEnv) (h : ∀ r ∈ v.pending, isValid r.req.1 r.req.2 = true) : Fair v (v.checkPending env) v.checkPendingLines := by
  unfold Cli.checkPending checkPendingLines
  by_cases hs : v.isShutdown = true
  · rw [if_pos hs, if_pos hs]; exact .same rfl
  · rw [if_neg hs, if_neg hs]
    rcases hc : v.current with _ | r0
    · rcases hp : v.pending with _ | ⟨r, rest⟩
      · exact .same rfl
      · simp only
        have k2 := h r (by simp [hp])
        obtain ⟨f1, -⟩ := frameIds_build r.unit r.tid r.req k2 (env.junk v.nsend).toList (by simp)
        refine ⟨[.sent r.uid (buildMbap r.unit r.tid (reqMsg r.req.1 r.req.2) ⟨[], (env.junk v.nsend).toList⟩) v.now], rfl, ?_, rfl, rfl⟩
        simp only [List.filterMap_cons, sentFrame?, sendingIds?, List.filterMap_nil, List.map_cons, List.map_nil, f1]
    · exact .same rfl

theorem Known.fairCheck {v : Cli} (env : ClientEnv) (h : Known v) : Fair v (v.checkPending env) v.checkPendingLines :=
  fairCheckOf env fun r hr => (h.reqs r hr).2

theorem Known.fairMbap {v : Cli} (env : ClientEnv) (m : Mbap) (h : Known v) : Fair v (v.onMbap env m) (v.mbapLines m) := by
  have hk : Known (v.emit (.mbap m)) := h.plain (.mbap m) rfl rfl rfl rfl rfl rfl rfl
  unfold mbapLines
  by_cases hs : v.isShutdown = true
  · rw [if_pos hs]
    have : v.onMbap env m = v.emit (.mbap m) := by simp [Cli.onMbap, Cli.emit, hs]
    rw [this]
    exact ⟨[.mbap m], rfl, rfl, rfl, rfl⟩
  · rw [if_neg hs]
    rcases onMbap_eq env v m with ⟨e1, e2⟩ | ⟨r, -, hc, e3, e4, e5⟩
    · rw [e1]
      rcases hc : v.current with _ | r
      · exact ⟨[.mbap m], rfl, rfl, rfl, rfl⟩
      · simp only
        rcases e2 with e2 | e2
        · exact absurd e2 hs
        · rw [if_neg (e2 r hc)]
          exact ⟨[.mbap m], rfl, rfl, rfl, rfl⟩
    · rw [e5]
      simp only [hc]
      rw [if_pos ⟨e3, e4⟩]
      obtain ⟨g1, g2, g3, g4, g5, g6⟩ := finish_leaves (v.emit (.mbap m)) r (.ok m.data)
      have h1 : Fair v ((v.emit (.mbap m)).finish r (.ok m.data)) [.response m.unit m.tid] :=
        ⟨[.mbap m, .handler r.uid (.ok m.data) v.now], by rw [g1]; simp [Cli.emit], rfl, rfl, rfl⟩
      have h2 := h1.trans ((hk.finish (r := r) (.ok m.data) hc).choose_spec.2.2.fairCheck env)
      rw [checkPendingLines_congr (v := { v with current := none }) g2 g3 g4] at h2
      exact h2

theorem Known.fairMbaps (env : ClientEnv) (ms : List Mbap) : ∀ {v : Cli}, Known v → Fair v (v.onMbaps env ms) (v.mbapsLines env ms) := by
  induction ms with
  | nil => exact fun h => .same rfl
  | cons m ms ih =>
    intro v h
    exact (h.fairMbap env m).trans (ih (h.onMbap env m).choose_spec.2.2)

theorem Known.fairTimer {v : Cli} (env : ClientEnv) (h : Known v) : Fair v (v.onTimer env) v.timerLines := by
  unfold Cli.onTimer timerLines
  by_cases hs : v.isShutdown = true
  · rw [if_pos hs, if_pos hs]; exact .same rfl
  · rw [if_neg hs, if_neg hs]
    rcases hc : v.current with _ | r
    · exact .same rfl
    · simp only
      rw [cancelCurrent_eq env v r _ hc]
      obtain ⟨g1, g2, g3, g4, g5, g6⟩ := finish_leaves v r (.error .timeout)
      have h1 : Fair v (v.finish r (.error .timeout)) [.timeout r.unit r.tid] := ⟨_, g1, rfl, rfl, rfl⟩
      have h2 := h1.trans ((h.finish (r := r) (.error .timeout) hc).choose_spec.2.2.fairCheck env)
      obtain ⟨c1, c2, c3⟩ := cancelTimer_same { v with current := none }
      rw [checkPendingLines_congr (v := { v with current := none }.cancelTimer) (by rw [g2, c1]) (by rw [g3, c2]) (by rw [g4, c3])] at h2
      simpa only [cancelCurrentLines, hc, List.singleton_append] using h2

theorem fair_failed (v : Cli) : Fair v v.failed [.connError] := by
  refine ⟨.connError :: v.pending.map fun p => .handler p.uid (.error .connection) v.now, by simp [Cli.failed, Cli.cancelPending, Cli.emit], ?_, ?_, ?_⟩
  · simp [List.filterMap_cons, sentFrame?, sendingIds?, List.filterMap_map, Function.comp_def]
  · simp [toldTimeout, saysTimeout, List.countP_map, Function.comp_def]
  · simp [toldResponse, saysResponse, List.countP_map, Function.comp_def]

theorem Known.fairError {v : Cli} (env : ClientEnv) (h : Known v) : Fair v (v.onError env) v.errorLines := by
  rw [onError_eq]
  unfold errorLines
  by_cases hs : v.isShutdown = true
  · rw [if_pos hs, if_pos hs]; exact ⟨[.connError], rfl, rfl, rfl, rfl⟩
  · rw [if_neg hs, if_neg hs]
    have h0 := fair_failed v
    have hk := (h.failed (by simpa using hs)).choose_spec.2.2
    rcases hc : v.current with _ | r
    · exact h0
    · simp only
      obtain ⟨g1, g2, g3, g4, g5, g6⟩ := finish_leaves v.failed r (.error .connection)
      have h1 : Fair v.failed (v.failed.finish r (.error .connection)) [] := ⟨_, g1, rfl, rfl, rfl⟩
      have h2 := (h0.trans h1).trans ((hk.finish (r := r) (.error .connection) hc).choose_spec.2.2.fairCheck env)
      have e1 : (v.failed.finish r (.error .connection)).checkPendingLines = [] := by
        have g4' : (v.failed.finish r (.error .connection)).pending = [] := g4
        simp only [checkPendingLines, g4', g3, ite_self]
      have e2 : v.cancelPending.cancelCurrentLines = [] := by
        obtain ⟨c1, c2, c3⟩ := cancelTimer_same { v.cancelPending with current := none }
        simp only [cancelCurrentLines]
        rcases v.cancelPending.current with _ | r'
        · rfl
        · have c3' : ({ v.cancelPending with current := none } : Cli).cancelTimer.pending = [] := c3
          simp only [checkPendingLines, c2, c3', ite_self]
      rw [e1] at h2
      rw [e2]
      exact h2

theorem Known.fairReceive {v v' : Cli} (env : ClientEnv) (h : Known v) (d : List UInt8) (hr : v.onReceive env d = .ret v') :
    Fair v v' (v.receiveLines env d) := by
  unfold receiveLines
  by_cases hs : v.isShutdown = true
  · have : v.onReceive env d = .ret (v.emit (.data d)) := by simp [Cli.onReceive, Cli.emit, hs]
    rw [this] at hr
    injection hr with hr; subst hr
    rw [if_pos hs]
    exact ⟨[.data d], rfl, rfl, rfl, rfl⟩
  · have e2 : (v.emit (.data d)).parser = v.parser := rfl
    unfold Cli.onReceive at hr
    rw [if_neg hs]
    simp only at hr
    rw [if_neg (show ¬ (v.emit (.data d)).isShutdown = true from hs), e2] at hr
    rcases hp : v.parser.parse d with _ | ⟨p, ms⟩
    · rw [hp] at hr; simp only [CM.ub_bind, reduceCtorEq] at hr
    · rw [hp] at hr
      simp only [CM.ret_bind, CM.pure_eq] at hr
      injection hr with hr; subst hr
      have hk : Known { v.emit (.data d) with parser := p } := h.plain (.data d) rfl rfl rfl rfl rfl rfl rfl
      have h1 : Fair v { v.emit (.data d) with parser := p } [.received d.length] := ⟨[.data d], rfl, rfl, rfl, rfl⟩
      exact h1.trans (hk.fairMbaps env ms)

theorem Known.fairStep {v v' : Cli} {env : ClientEnv} (h : Known v) {op : Op} (hst : v.step env op = .ret v') : Fair v v' (v.lines env op) := by
  cases op with
  | submit unit req timeout =>
    simp only [Cli.step] at hst
    split at hst
    · injection hst with hst; subst hst; exact ⟨[_], rfl, rfl, rfl, rfl⟩
    · split at hst <;> · injection hst with hst; subst hst; exact ⟨[_], rfl, rfl, rfl, rfl⟩
  | shutdown => simp only [Cli.step] at hst; injection hst with hst; subst hst; exact .same rfl
  | createSession =>
    simp only [Cli.step] at hst
    split at hst <;> · injection hst with hst; subst hst; exact ⟨[_], rfl, rfl, rfl, rfl⟩
  | runTask =>
    simp only [Cli.step, Cli.lines] at hst ⊢
    rcases ht : v.tasks with _ | ⟨t, ts⟩
    · simp only [ht] at hst
      injection hst with hst; subst hst
      exact .same rfl
    · simp only [ht] at hst
      injection hst with hst; subst hst
      cases t with
      | malformed u => exact ⟨[.handler u (.error .malformedRequest) v.now], rfl, rfl, rfl, rfl⟩
      | request u unit q tmo =>
        simp only [Cli.runTask, taskLines]
        by_cases hs : v.isShutdown = true
        · rw [if_pos hs, if_pos hs]; exact .same rfl
        · rw [if_neg hs, if_neg hs]
          have k2 := h.tasks u unit q tmo (by rw [ht]; exact List.mem_cons_self ..)
          have hk2 : Fair { v with tasks := ts, pending := v.pending ++ [PendingReq.mk u unit v.nextTid q tmo], nextTid := v.nextTid + 1 } _ _ :=
            fairCheckOf env fun r hr => by
              rcases List.mem_append.1 hr with hr | hr
              · exact (h.reqs r hr).2
              · rw [List.mem_singleton.1 hr]; exact k2.2
          obtain ⟨es, k⟩ := hk2
          exact ⟨es, k⟩
      | shutdown =>
        simp only [Cli.runTask, taskLines]
        refine ⟨v.sessions.map CEv.sessionShutdown ++ [.tcpShutdown], ?_, ?_, ?_, ?_⟩
        · simp only [Cli.emit, cancelTimer_log, List.append_assoc]
        · simp [List.filterMap_cons, sentFrame?, sendingIds?, List.filterMap_map, Function.comp_def]
        · simp [toldTimeout, saysTimeout, List.countP_map, Function.comp_def]
        · simp [toldResponse, saysResponse, List.countP_map, Function.comp_def]
  | receive data => exact h.fairReceive env data hst
  | error =>
    simp only [Cli.step] at hst
    injection hst with hst; subst hst
    exact h.fairError env
  | tick n => simp only [Cli.step] at hst; injection hst with hst; subst hst; exact .same rfl
  | expire t =>
    simp only [Cli.step] at hst
    split at hst
    · injection hst with hst; subst hst; exact .same rfl
    · split at hst <;> · injection hst with hst; subst hst; exact .same rfl
  | runTimer t =>
    simp only [Cli.step, Cli.lines] at hst ⊢
    split at hst
    · rename_i hm
      injection hst with hst; subst hst
      rw [if_pos hm]
      have hk : Known { v with fired := v.fired.filter fun x => x ≠ t } := h.of_eq rfl rfl rfl rfl rfl rfl
      exact Fair.trans (Fair.same rfl) (hk.fairTimer env)
    · rename_i hm
      injection hst with hst; subst hst
      rw [if_neg hm]
      exact .same rfl

theorem Known.fairLines {env : ClientEnv} (ops : List Op) : ∀ {v v' : Cli} {ls : List CLine}, Known v → v.runLines env ops = .ret (v', ls) →
    Fair v v' ls := by
  induction ops with
  | nil =>
    intro v v' ls h hr
    simp only [Cli.runLines] at hr
    injection hr with hr; injection hr with h1 h2; subst h1; subst h2
    exact .same rfl
  | cons op ops ih =>
    intro v v' ls h hr
    simp only [Cli.runLines, CM.bind_eq_ret, CM.pure_eq] at hr
    obtain ⟨v1, h1, ⟨v2, l2⟩, h2, h3⟩ := hr
    injection h3 with h3; injection h3 with h3 h4; subst h3; subst h4
    exact (h.fairStep h1).trans (ih (h.step h1).choose_spec.2.2 h2)

end Cli

end Modbus
