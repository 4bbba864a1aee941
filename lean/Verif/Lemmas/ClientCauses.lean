import Verif.Spec.ClientCauses
import Verif.Lemmas.ClientConn

/-! Why the client's connection fails. -/

namespace Modbus.Tcp

open Spec

/-- The attempt about which a queued task reports a failure, or which it ends. -/
def badTask : TTask → Option Nat
  | .close c => some c
  | .resolved c false => some c
  | .connected c false => some c
  | .read c .eof => some c
  | .read c .error => some c
  | .written c false => some c
  | _ => none

/-- Failures have a cause. -/
structure Cst (K : Nat → Prop) (v : Tcp) : Prop where
  task : ∀ t ∈ v.queue, ∀ c, badTask t = some c → K c
  shut : v.isOpen = false → 0 < v.conn → K v.conn
  error : ∀ c cur, TEv.error c cur ∈ v.log → K c
  closed : ∀ c cur, TEv.closed c cur ∈ v.log → K c

/-- Before the first attempt there is nothing. -/
def Zero (v : Tcp) : Prop := v.conn = 0 → v.status = .notConnected ∧ v.flying = [] ∧ ∀ t ∈ v.queue, t = .shutdown

theorem Zero.pos {v : Tcp} (h : Zero v) {t : TTask} (ht : t ∈ v.queue) (hs : t ≠ .shutdown) : 0 < v.conn := by
  by_contra hc
  exact hs ((h (by omega)).2.2 t ht)

theorem runTask_conn (v : Tcp) (t : TTask) : (v.runTask t).conn = v.conn := by
  have fail : ∀ c, ((v.close c).sendError c).conn = v.conn := by
    intro c; simp only [sendError, Tcp.close]
    by_cases hd : v.isShutdown = true <;> simp [hd, Tcp.post, Tcp.emit]
  cases t with
  | close c => simp only [runTask, runClose]; split <;> (try rfl); split <;> rfl
  | shutdown => rfl
  | resolved c ok =>
    simp only [runTask, onResolved]; split <;> (try rfl); split <;> (try rfl)
    simp only [sendError]; split <;> rfl
  | connected c ok =>
    simp only [runTask, onConnected]; split <;> (try rfl); split
    · rw [(beginRead_same _).2.2.2.1, (sendBuffer_same _).2.2.2.1]
    · exact fail c
  | read c r =>
    simp only [runTask, onRead]; split <;> (try rfl); cases r
    · rfl
    · simp only [Tcp.close]; split <;> rfl
    · exact fail c
    · exact (beginRead_same _).2.2.2.1
  | written c ok =>
    simp only [runTask, onWritten]; split <;> (try rfl); split
    · rfl
    · exact fail c

theorem Zero.step {v v' : Tcp} (h : Zero v) (op : Op) (hs : v.step op = .ret v') : Zero v' := by
  intro hc
  cases op with
  | send data loc =>
    injection hs with hs; subst hs
    by_cases hd : v.isShutdown = true
    · have : v.send data loc = v := by simp [send, hd]
      rw [this] at hc ⊢; exact h hc
    · have hd' : v.isShutdown = false := by simpa using hd
      cases hst : v.status with
      | notConnected =>
        by_cases hg : v.isOpen = true ∨ loc ≠ .ok
        · obtain ⟨o, e, -⟩ := send_gaveUp hd' hst data loc hg
          rw [e] at hc ⊢
          exact h hc
        · simp only [not_or, ne_eq, not_not, Bool.not_eq_true] at hg
          obtain ⟨ho, rfl⟩ := hg
          rw [send_start hd' hst ho] at hc
          simp at hc
      | connecting =>
        rw [send_connecting hd' hst] at hc ⊢
        have := (h hc).1
        rw [hst] at this; cases this
      | connected =>
        rw [send_connected hd' hst, (sendBuffer_same _).2.2.2.1] at hc
        have := (h hc).1
        rw [hst] at this; cases this
  | shutdown =>
    injection hs with hs; subst hs
    obtain ⟨h1, h2, h3⟩ := h hc
    refine ⟨h1, h2, fun t ht => ?_⟩
    rcases List.mem_append.1 ht with ht | ht
    · exact h3 t ht
    · exact List.mem_singleton.1 ht
  | complete i r =>
    rcases complete_cases hs with rfl | ⟨o, t, h1, h2, h3, h4, h5, -⟩
    · exact h hc
    · rw [h5] at hc
      rw [(h hc).2.1] at h1; simp at h1
  | run k =>
    simp only [Tcp.step] at hs
    split at hs
    · injection hs with hs; subst hs; exact h hc
    · rename_i t ht
      injection hs with hs; subst hs
      rw [runTask_conn] at hc
      obtain ⟨h1, h2, h3⟩ := h hc
      have := h3 t (List.mem_of_getElem? ht)
      subst this
      refine ⟨h1, ?_, ?_⟩
      · show (List.filter _ v.flying) = []
        rw [h2]; rfl
      · intro t' ht'
        have : t' ∈ v.queue.eraseIdx k ++ v.flying.filterMap aborted := ht'
        rw [h2] at this
        simp only [List.filterMap_nil, List.append_nil] at this
        exact h3 t' (List.mem_of_mem_eraseIdx this)

theorem _root_.Modbus.Spec.TcpReach.zero {P : Tcp → Op → Prop} {v : Tcp} (h : TcpReach P v) : Zero v := by
  induction h with
  | init => intro _; exact ⟨rfl, rfl, by simp [Tcp.init]⟩
  | step _ _ hs ih => exact ih.step _ hs

namespace Cst

variable {K : Nat → Prop} {v : Tcp}

theorem init : Cst K Tcp.init := ⟨by simp [Tcp.init], by simp [Tcp.init], by simp [Tcp.init], by simp [Tcp.init]⟩

theorem emit (h : Cst K v) (e : TEv) (he : ∀ c cur, e = .error c cur ∨ e = .closed c cur → K c) : Cst K (v.emit e) := by
  refine ⟨h.task, h.shut, fun c cur hm => ?_, fun c cur hm => ?_⟩
  · rcases List.mem_append.1 hm with hm | hm
    · exact h.error c cur hm
    · exact he c cur (Or.inl (List.mem_singleton.1 hm).symm)
  · rcases List.mem_append.1 hm with hm | hm
    · exact h.closed c cur hm
    · exact he c cur (Or.inr (List.mem_singleton.1 hm).symm)

theorem post (h : Cst K v) (t : TTask) (ht : ∀ c, badTask t = some c → K c) : Cst K (v.post t) := by
  refine ⟨fun t' ht' => ?_, h.shut, h.error, h.closed⟩
  rcases List.mem_append.1 ht' with ht' | ht'
  · exact h.task t' ht'
  · rw [List.mem_singleton.1 ht']; exact ht

theorem pop (h : Cst K v) (k : Nat) : Cst K { v with queue := v.queue.eraseIdx k } :=
  ⟨fun t ht => h.task t (List.mem_of_mem_eraseIdx ht), h.shut, h.error, h.closed⟩

/-- Only what the invariant does not speak of changes. -/
theorem of_eq {v' : Tcp} (h : Cst K v) (h1 : v'.queue = v.queue) (h2 : v'.isOpen = v.isOpen) (h3 : v'.conn = v.conn) (h4 : v'.log = v.log) : Cst K v' :=
  ⟨by rw [h1]; exact h.task, by rw [h2, h3]; exact h.shut, by rw [h4]; exact h.error, by rw [h4]; exact h.closed⟩

theorem sendBuffer (h : Cst K v) (hd : v.isShutdown = false) (hc : 0 < v.conn) : Cst K v.sendBuffer := by
  cases hw : v.wbuf with
  | none => rw [sendBuffer_none hw]; exact h
  | some x =>
    obtain ⟨b, d⟩ := x
    cases ho : v.isOpen with
    | true =>
      rw [sendBuffer_open hd ho hw]
      exact (h.emit (.submit v.conn d) (by simp)).of_eq rfl rfl rfl rfl
    | false =>
      rw [sendBuffer_closed hd ho hw]
      refine (h.emit (.submit v.conn d) (by simp)).post _ fun c hx => ?_
      simp only [badTask, Option.some.injEq] at hx
      rw [← hx]; exact h.shut ho hc

theorem beginRead (h : Cst K v) (hd : v.isShutdown = false) (hc : 0 < v.conn) : Cst K v.beginRead := by
  cases ho : v.isOpen with
  | true => rw [beginRead_open hd ho]; exact h.of_eq rfl rfl rfl rfl
  | false =>
    rw [beginRead_closed hd ho]
    refine h.post _ fun c hx => ?_
    simp only [badTask, Option.some.injEq] at hx
    rw [← hx]; exact h.shut ho hc

theorem fail (h : Cst K v) {c : Nat} (hk : K c) : Cst K ((v.post (.close c)).emit (.error c v.conn)) := by
  refine (h.post _ fun d hx => ?_).emit _ fun d cur hx => ?_
  · simp only [badTask, Option.some.injEq] at hx; rw [← hx]; exact hk
  · rcases hx with hx | hx
    · injection hx with hx _; rw [← hx]; exact hk
    · cases hx

theorem bad_aborted {o : TOp} {t : TTask} (h : aborted o = some t) {c : Nat} (hb : badTask t = some c) : c = opTag o ∧ TOp.isResolve o = false := by
  cases o <;> simp only [aborted, reduceCtorEq, Option.some.injEq] at h <;> subst h <;> simp only [badTask, Option.some.injEq] at hb <;> exact ⟨hb.symm, rfl⟩

theorem abortAll (h : Cst K v) (hk : ∀ o ∈ v.flying, TOp.isResolve o = false → K (opTag o)) : Cst K v.abortAll := by
  refine ⟨fun t ht c hb => ?_, h.shut, h.error, h.closed⟩
  rcases List.mem_append.1 ht with ht | ht
  · exact h.task t ht c hb
  · obtain ⟨o, ho, ha⟩ := List.mem_filterMap.1 ht
    obtain ⟨rfl, hr⟩ := bad_aborted ha hb
    exact hk o ho hr

theorem runTask {k : Nat} {t : TTask} (hd : v.isShutdown = false) (hn : Neat v) (hz : Zero v) (h : Cst K v) (hk : v.queue[k]? = some t) (hns : t ≠ .shutdown) :
    Cst K ({ v with queue := v.queue.eraseIdx k }.runTask t) := by
  have hm := List.mem_of_getElem? hk
  have hpos := hz.pos hm hns
  have htag := hn.tags.queue t hm
  have hbad := h.task t hm
  have hfly := hn.tags.flying
  have hcnt : isAttemptTask t = true → ∀ o ∈ v.flying, TOp.isResolve o = false → False := by
    intro hta o ho hr
    have hp : 0 < v.queue.countP isAttemptTask := List.countP_pos_iff.2 ⟨t, hm, hta⟩
    have hst : v.status = .connecting := by
      by_contra hs
      have := hn.other hs
      simp only [tcpAttempts] at this; omega
    obtain ⟨c1, c2⟩ := hn.connecting hst
    have hone : tcpAttempts v ≤ 1 := by rcases c2 with c2 | c2 <;> omega
    have hf0 : v.flying.countP isAttemptOp = 0 := by simp only [tcpAttempts] at hone; omega
    simp only [dataOps, Nat.add_eq_zero_iff] at c1
    have g1 := List.countP_eq_zero.1 hf0 o ho
    have g2 := List.countP_eq_zero.1 c1.1 o ho
    cases o <;> simp [isAttemptOp, isDataOp] at g1 g2
  obtain ⟨w, hw⟩ : ∃ w, w = { v with queue := v.queue.eraseIdx k } := ⟨_, rfl⟩
  have hwd : w.isShutdown = false := by rw [hw]; exact hd
  have h0 : Cst K w := by rw [hw]; exact h.pop k
  have hwp : 0 < w.conn := by rw [hw]; exact hpos
  have hwf : w.flying = v.flying := by rw [hw]
  have hwc : w.conn = v.conn := by rw [hw]
  rw [← hw]
  cases t with
  | shutdown => exact absurd rfl hns
  | close c =>
    have hkc : K c := hbad c rfl
    have hcc : c = v.conn := htag c rfl
    have h1 : Cst K { w.emit (.closed c w.conn) with status := .notConnected } :=
      (h0.emit (.closed c w.conn) fun d cur hx => by
        rcases hx with hx | hx
        · cases hx
        · injection hx with hx _; rw [← hx]; exact hkc).of_eq rfl rfl rfl rfl
    simp only [Tcp.runTask]
    cases ho : w.isOpen with
    | true =>
      rw [runClose_open hwd ho]
      have h2 := h1.abortAll fun o ho _ => by
        have : opTag o = v.conn := hfly o (by rw [← hwf]; exact ho)
        rw [this, ← hcc]; exact hkc
      exact ⟨h2.task, fun _ _ => (by show K w.conn; rw [hwc, ← hcc]; exact hkc), h2.error, h2.closed⟩
    | false => rw [runClose_closed hwd ho]; exact h1
  | resolved c ok =>
    simp only [Tcp.runTask]
    cases ok with
    | true =>
      rw [onResolved_ok hwd]
      have h2 := h0.abortAll fun o ho hr => (hcnt rfl o (by rw [← hwf]; exact ho) hr).elim
      exact ⟨h2.task, fun hx => (by cases hx), h2.error, h2.closed⟩
    | false =>
      rw [onResolved_err hwd]
      refine Cst.emit (v := { w with status := .notConnected }) (h0.of_eq rfl rfl rfl rfl) _ fun d cur hx => ?_
      rcases hx with hx | hx
      · injection hx with hx _; rw [← hx]; exact hbad c rfl
      · cases hx
  | connected c ok =>
    simp only [Tcp.runTask]
    cases ok with
    | true =>
      rw [onConnected_ok hwd]
      have h1 : Cst K ({ w with status := .connected } : Tcp).sendBuffer := sendBuffer (v := { w with status := .connected }) (h0.of_eq rfl rfl rfl rfl) hwd hwp
      have hs := sendBuffer_same { w with status := .connected }
      exact h1.beginRead (hs.1.trans hwd) (by rw [hs.2.2.2.1]; exact hwp)
    | false => rw [onConnected_err hwd]; exact h0.fail (hbad c rfl)
  | read c r =>
    simp only [Tcp.runTask]
    cases r with
    | eof =>
      rw [onRead_eof hwd]
      refine h0.post _ fun d hx => ?_
      simp only [badTask, Option.some.injEq] at hx; rw [← hx]; exact hbad c rfl
    | error => rw [onRead_error hwd]; exact h0.fail (hbad c rfl)
    | data bs => rw [onRead_data hwd]; exact (h0.emit _ (by simp)).post _ (by simp [badTask])
    | again => rw [onRead_again hwd]; exact h0.beginRead hwd hwp
  | written c ok =>
    simp only [Tcp.runTask]
    cases ok with
    | true => rw [onWritten_ok hwd]; exact Cst.emit (v := { w with wbuf := none }) (h0.of_eq rfl rfl rfl rfl) _ (by simp)
    | false => rw [onWritten_err hwd]; exact h0.fail (hbad c rfl)

/-- A completed operation posts a failure only if it failed. -/
theorem complete_bad {v' : Tcp} {i : Nat} {r : TRes} (hs : v.complete i r = .ret v') :
    v' = v ∨ ∃ t, v'.queue = v.queue ++ [t] ∧ v'.isOpen = v.isOpen ∧ v'.conn = v.conn ∧ (∀ c cur, (TEv.error c cur ∈ v'.log → TEv.error c cur ∈ v.log) ∧
      (TEv.closed c cur ∈ v'.log → TEv.closed c cur ∈ v.log)) ∧ ∀ c, badTask t = some c → Broke v (.complete i r) c := by
  unfold complete at hs
  dsimp only at hs
  cases ho : v.flying[i]? with
  | none => rw [ho] at hs; injection hs with hs; exact Or.inl hs.symm
  | some o =>
    rw [ho] at hs
    have er : r = .error → ∀ c, opTag o = c → Broke v (.complete i r) c := by
      rintro rfl c rfl
      refine Or.inl ⟨i, rfl, ?_⟩
      rw [ho]
      cases o with
      | resolve c => exact Or.inl rfl
      | connect c => exact Or.inr (Or.inl rfl)
      | read c => exact Or.inr (Or.inr (Or.inl rfl))
      | write c b d => exact Or.inr (Or.inr (Or.inr ⟨b, d, rfl⟩))
    cases o with
    | resolve c =>
      cases r <;> simp only [CM.ret.injEq] at hs <;> subst hs <;> first
        | exact Or.inl rfl
        | exact Or.inr ⟨_, rfl, rfl, rfl, fun _ _ => ⟨id, id⟩, fun d hx => er rfl d (by injection hx)⟩
        | exact Or.inr ⟨_, rfl, rfl, rfl, fun _ _ => ⟨id, id⟩, fun d hx => by cases hx⟩
    | connect c =>
      cases r <;> simp only [CM.ret.injEq] at hs <;> subst hs <;> first
        | exact Or.inl rfl
        | exact Or.inr ⟨_, rfl, rfl, rfl, fun _ _ => ⟨id, id⟩, fun d hx => er rfl d (by injection hx)⟩
        | exact Or.inr ⟨_, rfl, rfl, rfl, fun _ _ => ⟨id, id⟩, fun d hx => by cases hx⟩
    | read c =>
      cases r with
      | data bs =>
        simp only at hs
        split at hs
        · injection hs with hs; subst hs
          exact Or.inr ⟨_, rfl, rfl, rfl, fun _ _ => ⟨id, id⟩, fun d hx => by cases hx⟩
        · injection hs with hs; exact Or.inl hs.symm
      | eof =>
        simp only [CM.ret.injEq] at hs; subst hs
        refine Or.inr ⟨_, rfl, rfl, rfl, fun _ _ => ⟨id, id⟩, fun d hx => Or.inr ⟨i, rfl, ?_⟩⟩
        simp only [badTask, Option.some.injEq] at hx
        rw [ho, hx]
      | error =>
        simp only [CM.ret.injEq] at hs; subst hs
        exact Or.inr ⟨_, rfl, rfl, rfl, fun _ _ => ⟨id, id⟩, fun d hx => er rfl d (by injection hx)⟩
      | _ => simp only [CM.ret.injEq] at hs; subst hs; exact Or.inl rfl
    | write c b d =>
      cases r with
      | sent n =>
        simp only at hs
        split at hs
        · split at hs
          · injection hs with hs; subst hs
            refine Or.inr ⟨_, rfl, rfl, rfl, fun c' cur => ⟨fun hm => ?_, fun hm => ?_⟩, fun d hx => by cases hx⟩
            · simpa [Tcp.emit, Tcp.post] using hm
            · simpa [Tcp.emit, Tcp.post] using hm
          · cases hs
        · injection hs with hs; exact Or.inl hs.symm
      | error =>
        simp only [CM.ret.injEq] at hs; subst hs
        exact Or.inr ⟨_, rfl, rfl, rfl, fun _ _ => ⟨id, id⟩, fun d hx => er rfl d (by injection hx)⟩
      | _ => simp only [CM.ret.injEq] at hs; subst hs; exact Or.inl rfl

theorem step {v' : Tcp} (hd : v.isShutdown = false) (hn : Neat v) (hz : Zero v) (h : Cst K v) {op : Op} (hs : v.step op = .ret v') (hk : ∀ c, Broke v op c → K c) :
    ((∀ c cur, TEv.error c cur ∈ v'.log → K c) ∧ ∀ c cur, TEv.closed c cur ∈ v'.log → K c) ∧ (v'.isShutdown = true ∨ Cst K v') := by
  have fin : Cst K v' → ((∀ c cur, TEv.error c cur ∈ v'.log → K c) ∧ ∀ c cur, TEv.closed c cur ∈ v'.log → K c) ∧ (v'.isShutdown = true ∨ Cst K v') :=
    fun h => ⟨⟨h.error, h.closed⟩, Or.inr h⟩
  have hask : ∀ data, Cst K (v.ask data) := fun data => (h.emit (.asked data) (by simp)).of_eq rfl rfl rfl rfl
  cases op with
  | send data loc =>
    injection hs with hs; subst hs
    apply fin
    cases hst : v.status with
    | notConnected =>
      by_cases hg : v.isOpen = true ∨ loc ≠ .ok
      · obtain ⟨o, e, he⟩ := send_gaveUp hd hst data loc hg
        rw [e]
        have h1 := (hask data).emit .gaveUp (by simp)
        refine ⟨h1.task, fun ho hc => h.shut ?_ hc, h1.error, h1.closed⟩
        cases hv : v.isOpen with
        | false => rfl
        | true => have ho : o = false := ho
                  rw [he hv] at ho; cases ho
      · simp only [not_or, ne_eq, not_not, Bool.not_eq_true] at hg
        obtain ⟨ho, rfl⟩ := hg
        rw [send_start hd hst ho]
        have h1 := (hask data).emit (.attempt (v.conn + 1)) (by simp)
        exact ⟨h1.task, fun hx => (by cases hx), h1.error, h1.closed⟩
    | connecting => rw [send_connecting hd hst]; exact hask data
    | connected =>
      rw [send_connected hd hst]
      refine (hask data).sendBuffer hd ?_
      by_contra hc
      have := (hz (by simp only [Tcp.ask, Tcp.emit] at hc; omega)).1
      rw [hst] at this; cases this
  | shutdown =>
    injection hs with hs; subst hs
    exact fin (h.post _ (by simp [badTask]))
  | complete i r =>
    rcases complete_bad hs with rfl | ⟨t, h1, h2, h3, h4, h5⟩
    · exact fin h
    · refine fin ⟨fun t' ht' c hb => ?_, by rw [h2, h3]; exact h.shut, fun c cur hm => h.error c cur ((h4 c cur).1 hm), fun c cur hm => h.closed c cur ((h4 c cur).2 hm)⟩
      rw [h1] at ht'
      rcases List.mem_append.1 ht' with ht' | ht'
      · exact h.task t' ht' c hb
      · rw [List.mem_singleton.1 ht'] at hb
        exact hk c (h5 c hb)
  | run k =>
    simp only [Tcp.step] at hs
    split at hs
    · injection hs with hs; subst hs; exact fin h
    · rename_i t ht
      injection hs with hs; subst hs
      by_cases hns : t = .shutdown
      · subst hns
        exact ⟨⟨h.error, h.closed⟩, Or.inl rfl⟩
      · exact fin (runTask hd hn hz h ht hns)

end Cst

/-- Every attempt starting afresh, an attempt fails or is closed only if one of its operations fails. -/
theorem _root_.Modbus.Spec.TcpReach.caused {P : Tcp → Op → Prop} (hP : ∀ v op, P v op → FreshStarts v op) {v : Tcp} (h : TcpReach P v) :
    let K := fun c => ∃ a op, TcpReach P a ∧ P a op ∧ Broke a op c
    ((∀ c cur, TEv.error c cur ∈ v.log → K c) ∧ ∀ c cur, TEv.closed c cur ∈ v.log → K c) ∧ (v.isShutdown = true ∨ Cst K v) := by
  intro K
  induction h with
  | init => exact ⟨⟨by simp [Tcp.init], by simp [Tcp.init]⟩, Or.inr .init⟩
  | @step v v' op hv hp hs ih =>
    cases hd : v.isShutdown with
    | true =>
      obtain ⟨v2, e1, e2, e3, -⟩ := shut_step hd hv.quiet op
      rw [hs] at e1; injection e1 with e1; subst e1
      exact ⟨by rw [e3]; exact ih.1, Or.inl e2⟩
    | false =>
      have hn := (hv.neat hP).resolve_left (by simp [hd])
      exact Cst.step hd hn hv.zero (ih.2.resolve_left (by simp [hd])) hs fun c hb => ⟨v, op, hv, hp, hb⟩

/-- A step after which the connection is shut down does not touch the socket. -/
theorem shut_keeps {v v' : Tcp} {op : Op} (hs : v.step op = .ret v') (hd : v'.isShutdown = true) : v'.isOpen = v.isOpen ∧ v'.conn = v.conn := by
  cases op with
  | send data loc =>
    injection hs with hs; subst hs
    by_cases hv : v.isShutdown = true
    · have : v.send data loc = v := by simp [send, hv]
      rw [this]; exact ⟨rfl, rfl⟩
    · exfalso
      have hv' : v.isShutdown = false := by simpa using hv
      have : (v.send data loc).isShutdown = false := by
        cases hst : v.status with
        | notConnected =>
          by_cases hg : v.isOpen = true ∨ loc ≠ .ok
          · obtain ⟨o, e, -⟩ := send_gaveUp hv' hst data loc hg
            rw [e]; exact hv'
          · simp only [not_or, ne_eq, not_not, Bool.not_eq_true] at hg
            obtain ⟨ho, rfl⟩ := hg
            rw [send_start hv' hst ho]; exact hv'
        | connecting => rw [send_connecting hv' hst]; exact hv'
        | connected => rw [send_connected hv' hst, (sendBuffer_same _).1]; exact hv'
      rw [this] at hd; cases hd
  | shutdown => injection hs with hs; subst hs; exact ⟨rfl, rfl⟩
  | complete i r =>
    rcases complete_cases hs with rfl | ⟨o, t, -, -, -, h4, h5, -⟩
    · exact ⟨rfl, rfl⟩
    · exact ⟨h4, h5⟩
  | run k =>
    simp only [Tcp.step] at hs
    split at hs
    · injection hs with hs; subst hs; exact ⟨rfl, rfl⟩
    · rename_i t ht
      injection hs with hs; subst hs
      refine ⟨?_, runTask_conn _ _⟩
      by_cases hv : v.isShutdown = true
      · cases t <;> simp [runTask, runClose, runShutdown, onResolved, onConnected, onRead, onWritten, hv, Tcp.abortAll]
      · have hv' : v.isShutdown = false := by simpa using hv
        cases t with
        | shutdown => rfl
        | close c =>
          exfalso; simp only [runTask, runClose, hv', Bool.false_eq_true, if_false] at hd
          split at hd <;> simp [Tcp.emit, Tcp.abortAll, hv'] at hd
        | resolved c ok =>
          exfalso
          cases ok <;> simp [runTask, onResolved, hv', Tcp.abortAll, sendError, Tcp.emit] at hd
        | connected c ok =>
          exfalso
          cases ok with
          | true =>
            simp only [runTask] at hd
            rw [onConnected_ok (v := { v with queue := v.queue.eraseIdx k }) hv', (beginRead_same _).1, (sendBuffer_same _).1] at hd
            simp [hv'] at hd
          | false => simp [runTask, onConnected, hv', Tcp.close, sendError, Tcp.emit, Tcp.post] at hd
        | read c r =>
          exfalso
          cases r with
          | again => simp only [runTask] at hd; rw [onRead_again (v := { v with queue := v.queue.eraseIdx k }) hv', (beginRead_same _).1] at hd; simp [hv'] at hd
          | _ => simp [runTask, onRead, hv', Tcp.close, sendError, Tcp.emit, Tcp.post] at hd
        | written c ok =>
          exfalso
          cases ok <;> simp [runTask, onWritten, hv', Tcp.close, sendError, Tcp.emit, Tcp.post] at hd

/-- As long as nothing fails, every attempt starts afresh; in fact there is only one. -/
theorem _root_.Modbus.Spec.TcpReach.noFailure {v : Tcp} (h : TcpReach (fun v op => ∀ c, ¬Broke v op c) v) :
    TcpReach (fun v op => FreshStarts v op ∧ ∀ c, ¬Broke v op c) v ∧ (v.isOpen = false → v.conn = 0) ∧ v.conn ≤ 1 := by
  induction h with
  | init => exact ⟨.init, fun _ => rfl, Nat.zero_le _⟩
  | @step v v' op hv hp hs ih =>
    have hz := hv.zero
    have hf : FreshStarts v op := by
      intro data loc _ _ ho
      obtain ⟨-, h2, h3⟩ := hz (ih.2.1 ho)
      exact ⟨by rw [h2]; simp, fun t ht => Or.inl (h3 t ht)⟩
    have hr : TcpReach (fun v op => FreshStarts v op ∧ ∀ c, ¬Broke v op c) v' := ih.1.step ⟨hf, hp⟩ hs
    refine ⟨hr, fun ho => ?_, ?_⟩
    · cases hd : v'.isShutdown with
      | true =>
        obtain ⟨k1, k2⟩ := shut_keeps hs hd
        rw [k2]; exact ih.2.1 (k1 ▸ ho)
      | false =>
        have hc := (hr.caused fun _ _ h => h.1).2.resolve_left (by simp [hd])
        by_contra hn
        obtain ⟨a, op, -, hp, hb⟩ := hc.shut ho (by omega)
        exact hp.2 _ hb
    · cases op with
      | send data loc =>
        injection hs with hs; subst hs
        by_cases hd : v.isShutdown = true
        · have : v.send data loc = v := by simp [send, hd]
          rw [this]; exact ih.2.2
        · have hd' : v.isShutdown = false := by simpa using hd
          cases hst : v.status with
          | notConnected =>
            by_cases hg : v.isOpen = true ∨ loc ≠ .ok
            · obtain ⟨o, e, -⟩ := send_gaveUp hd' hst data loc hg
              rw [e]; exact ih.2.2
            · simp only [not_or, ne_eq, not_not, Bool.not_eq_true] at hg
              obtain ⟨ho, rfl⟩ := hg
              rw [send_start hd' hst ho]
              have := ih.2.1 ho
              simp [this]
          | connecting => rw [send_connecting hd' hst]; exact ih.2.2
          | connected => rw [send_connected hd' hst, (sendBuffer_same _).2.2.2.1]; exact ih.2.2
      | shutdown => injection hs with hs; subst hs; exact ih.2.2
      | complete i r =>
        rcases complete_cases hs with rfl | ⟨o, t, -, -, -, h4, h5, -⟩
        · exact ih.2.2
        · rw [h5]; exact ih.2.2
      | run k =>
        simp only [Tcp.step] at hs
        split at hs
        · injection hs with hs; subst hs; exact ih.2.2
        · injection hs with hs; subst hs
          rw [runTask_conn]; exact ih.2.2

end Modbus.Tcp
