import Verif.Lemmas.StackRx
import Verif.Lemmas.AsioOne

/-! Helper lemmas: a client's connection has at most one read, so it receives the bytes in the order in which they arrive. -/

namespace Modbus.Tcp

open Spec

/-- Connecting or reading. -/
def ringOp : TOp → Bool
  | .write _ _ _ => false
  | _ => true

/-- The handler of one of these. -/
def ringTask : TTask → Bool
  | .resolved _ _ | .connected _ _ | .read _ _ => true
  | _ => false

/-- How many of these there are. -/
def ring (v : Tcp) : Nat := v.flying.countP ringOp + v.queue.countP ringTask

/-- Data read from connection `n` and not handled yet. -/
def rdData (n : Nat) : TTask → Option (List UInt8)
  | .read n' (.data d) => if n' = n then some d else none
  | _ => none

/-- Everything the operating system has given to connection `n` so far. -/
def got (n : Nat) (v : Tcp) : List UInt8 := (tcpReceived n v.log).flatten ++ (v.queue.filterMap (rdData n)).flatten

theorem tcpReceived_append (n : Nat) (a b : List TEv) : tcpReceived n (a ++ b) = tcpReceived n a ++ tcpReceived n b := by simp [tcpReceived]

/-- A change that has nothing to do with reading. -/
structure Idle (v v' : Tcp) : Prop where
  ring : v'.ring ≤ v.ring
  pend : ∀ n, v'.queue.filterMap (rdData n) = v.queue.filterMap (rdData n)
  recv : ∀ n, tcpReceived n v'.log = tcpReceived n v.log

theorem Idle.got {v v' : Tcp} (h : Idle v v') (n : Nat) : got n v' = got n v := by simp [Tcp.got, h.pend, h.recv]

namespace Idle

theorem refl (v : Tcp) : Idle v v := ⟨Nat.le_refl _, fun _ => rfl, fun _ => rfl⟩

theorem trans {a b c : Tcp} (h : Idle a b) (h' : Idle b c) : Idle a c :=
  ⟨Nat.le_trans h'.ring h.ring, fun x => (h'.pend x).trans (h.pend x), fun x => (h'.recv x).trans (h.recv x)⟩

theorem same {v v' : Tcp} (h1 : v'.flying = v.flying) (h2 : v'.queue = v.queue) (h4 : v'.log = v.log) : Idle v v' :=
  ⟨by simp [Tcp.ring, h1, h2], fun c => by rw [h2], fun c => by rw [h4]⟩

theorem emit (v : Tcp) {e : TEv} (he : ∀ c d, e ≠ .receive c d) : Idle v (v.emit e) :=
  ⟨Nat.le_refl _, fun _ => rfl, fun c => by
    show tcpReceived c (v.log ++ [e]) = _
    rw [tcpReceived_append]
    cases e <;> first | exact absurd rfl (he _ _) | simp [tcpReceived]⟩

theorem post (v : Tcp) {t : TTask} (ht : ringTask t = false) : Idle v (v.post t) := by
  refine ⟨?_, fun c => ?_, fun _ => rfl⟩
  · simp [Tcp.ring, Tcp.post, ht]
  · simp only [Tcp.post, List.filterMap_append]
    have : rdData c t = none := by
      cases t <;> first | rfl | cases ht
    simp [this]

theorem abortAll (v : Tcp) : Idle v v.abortAll := by
  have key : ∀ l : List TOp, (l.filter TOp.isResolve).countP ringOp + (l.filterMap aborted).countP ringTask = l.countP ringOp := by
    intro l
    induction l with
    | nil => rfl
    | cons o l ih => cases o <;> simp only [List.filter_cons, List.filterMap_cons, TOp.isResolve, aborted, List.countP_cons, ringOp, ringTask, if_true, if_false, Bool.false_eq_true] <;> omega
  refine ⟨?_, fun c => ?_, fun _ => rfl⟩
  · have := key v.flying
    simp only [Tcp.ring, Tcp.abortAll, List.countP_append]
    omega
  · simp only [Tcp.abortAll, List.filterMap_append]
    have : (v.flying.filterMap aborted).filterMap (rdData c) = [] := by
      rw [List.filterMap_eq_nil_iff]
      intro t ht
      obtain ⟨o, -, ho⟩ := List.mem_filterMap.1 ht
      cases o with
      | resolve c => cases ho
      | _ => injection ho with ho; subst ho; rfl
    rw [this, List.append_nil]

theorem sendBuffer (v : Tcp) : Idle v v.sendBuffer := by
  unfold Tcp.sendBuffer
  split
  · exact refl v
  · split
    · exact refl v
    · rename_i b data _
      have h1 := emit v (e := .submit v.conn data) (by simp)
      dsimp only
      split
      · refine h1.trans ⟨?_, fun _ => rfl, fun _ => rfl⟩
        simp [Tcp.ring, ringOp]
      · exact h1.trans (post _ rfl)

theorem runClose (v : Tcp) (c : Nat) : Idle v (v.runClose c) := by
  unfold Tcp.runClose
  split
  · exact refl v
  · have h1 : Idle v { v.emit (.closed c v.conn) with status := .notConnected } := (emit v (by simp)).trans (same rfl rfl rfl)
    dsimp only
    split
    · exact h1.trans ((abortAll _).trans (same rfl rfl rfl))
    · exact h1

theorem fail (v : Tcp) (c : Nat) : Idle v ((v.close c).sendError c) := by
  unfold Tcp.close Tcp.sendError
  by_cases h : v.isShutdown = true
  · simp [h]; exact refl v
  · simp only [h, if_false, Bool.false_eq_true]
    rw [if_neg (by exact h)]
    exact (post v rfl).trans (emit _ (by simp))

end Idle

theorem beginRead_ring (v : Tcp) : v.beginRead.ring ≤ v.ring + 1 ∧ ∀ n, got n v.beginRead = got n v := by
  unfold beginRead
  split
  · exact ⟨Nat.le_add_right _ _, fun _ => rfl⟩
  · split
    · refine ⟨?_, fun _ => rfl⟩
      simp only [ring, List.countP_append, List.countP_singleton, ringOp]
      simp; omega
    · refine ⟨?_, fun n => ?_⟩
      · simp only [ring, post, List.countP_append, List.countP_singleton, ringTask]
        simp; omega
      · simp [got, post, rdData]

/-- What arrives on connection `n` in a step. -/
def arrived (n : Nat) (v : Tcp) : Op → List UInt8
  | .complete i (.data d) => if v.flying[i]? = some (.read n) ∧ 1 ≤ d.length ∧ d.length ≤ 4096 then d else []
  | _ => []

theorem ring_taken {v : Tcp} {k : Nat} {t : TTask} (hk : v.queue[k]? = some t) :
    ring { v with queue := v.queue.eraseIdx k } + (if ringTask t = true then 1 else 0) = v.ring := by
  have := countP_eraseIdx ringTask hk
  simp only [ring]
  omega

theorem pend_taken {q : List TTask} {k : Nat} {t : TTask} (hk : q[k]? = some t) (n : Nat) (h : rdData n t = none) :
    (q.eraseIdx k).filterMap (rdData n) = q.filterMap (rdData n) := by
  induction q generalizing k with
  | nil => rfl
  | cons x q ih =>
    cases k with
    | zero => simp at hk; subst hk; simp [h]
    | succ k =>
      simp only [List.getElem?_cons_succ] at hk
      simp only [List.eraseIdx_cons_succ, List.filterMap_cons]
      rw [ih hk]

theorem pend_none {q : List TTask} {n : Nat} (h : q.countP ringTask = 0) : q.filterMap (rdData n) = [] := by
  rw [List.filterMap_eq_nil_iff]
  rw [List.countP_eq_zero] at h
  intro t ht
  have := h t ht
  cases t with
  | read c' r => exact absurd rfl this
  | _ => rfl

theorem idle_taken {v : Tcp} {k : Nat} {t : TTask} (hk : v.queue[k]? = some t) (h : ∀ c d, t ≠ .read c (.data d)) : Idle v { v with queue := v.queue.eraseIdx k } :=
  ⟨by have := ring_taken hk; omega, fun c => pend_taken hk c (by
    cases t with
    | read c' r =>
      cases r with
      | data d => exact absurd rfl (h c' d)
      | _ => rfl
    | _ => rfl), fun _ => rfl⟩

/-- While the connection has not been shut down, what it gets from a step is what arrives; afterwards it only loses things. -/
theorem ring_step {v v' : Tcp} (h : v.ring ≤ 1) (hn : v.isShutdown = true ∨ Neat v) {op : Op} (hf : FreshStarts v op) (hs : v.step op = .ret v') :
    v'.ring ≤ 1 ∧ (v.isShutdown = false → ∀ n, got n v' = got n v ++ arrived n v op) ∧ (v.isShutdown = true → ∀ n, tcpReceived n v'.log = tcpReceived n v.log) := by
  have idle : Idle v v' → (∀ n, arrived n v op = []) →
      v'.ring ≤ 1 ∧ (v.isShutdown = false → ∀ n, got n v' = got n v ++ arrived n v op) ∧ (v.isShutdown = true → ∀ n, tcpReceived n v'.log = tcpReceived n v.log) := by
    intro hi ha
    exact ⟨Nat.le_trans hi.ring h, fun _ n => by rw [ha, hi.got, List.append_nil], fun _ => hi.recv⟩
  cases op with
  | send data loc =>
    injection hs with hs; subst hs
    have ask1 : Idle v (ask v data) := (Idle.emit v (e := .asked data) (by simp)).trans (.same rfl rfl rfl)
    rcases v.isShutdown.eq_false_or_eq_true with hd | hd
    ·
      have : v.send data loc = v := by simp [send, hd]
      rw [this]
      rw [this] at idle
      exact idle (.refl v) fun _ => rfl
    · cases hst : v.status with
      | connected => rw [send_connected hd hst] at idle ⊢; exact idle (ask1.trans (.sendBuffer _)) fun _ => rfl
      | connecting => rw [send_connecting hd hst] at idle ⊢; exact idle ask1 fun _ => rfl
      | notConnected =>
        by_cases hh : v.isOpen = true ∨ loc ≠ .ok
        · obtain ⟨o, g1, -⟩ := send_gaveUp hd hst data loc hh
          rw [g1] at idle ⊢
          exact idle (ask1.trans ((Idle.emit _ (e := .gaveUp) (by simp)).trans (.same rfl rfl rfl))) fun _ => rfl
        · simp only [not_or, Bool.not_eq_true, ne_eq, not_not] at hh
          have hset := hf data loc rfl hst hh.1
          have h0 : v.ring = 0 := by
            have h1 := (settled_counts hset).1
            have h2 := (hn.resolve_left (by simp [hd])).other (by simp [hst])
            have e1 : v.flying.countP ringOp ≤ v.flying.countP isAttemptOp + v.flying.countP isDataOp := by
              clear * -
              induction v.flying with
              | nil => simp
              | cons o l ih => cases o <;> simp [List.countP_cons, ringOp, isAttemptOp, isDataOp] <;> omega
            have e2 : v.queue.countP ringTask ≤ v.queue.countP isAttemptTask + v.queue.countP isDataTask := by
              clear * -
              induction v.queue with
              | nil => simp
              | cons o l ih => cases o <;> simp [List.countP_cons, ringTask, isAttemptTask, isDataTask] <;> omega
            simp only [tcpAttempts] at h2
            simp only [dataOps] at h1
            simp only [ring]
            omega
          obtain rfl : loc = .ok := by simpa using hh.2
          rw [send_start hd hst hh.1]
          refine ⟨?_, fun _ n => ?_, fun hx => absurd hx (by simp [hd])⟩
          · simp only [ring] at h0 ⊢
            simp only [Tcp.emit, ask, List.countP_append, List.countP_singleton]
            split <;> omega
          · rw [show arrived n v (.send data .ok) = [] from rfl, List.append_nil]
            simp [got, Tcp.emit, ask, tcpReceived_append]
            simp [tcpReceived]
  | shutdown => injection hs with hs; subst hs; exact idle (.post v rfl) fun _ => rfl
  | complete i r =>
    have hs : v.complete i r = .ret v' := hs
    by_cases hdata : ∃ d n, r = .data d ∧ v.flying[i]? = some (.read n) ∧ 1 ≤ d.length ∧ d.length ≤ 4096
    · obtain ⟨d, n0, rfl, hfi, h1, h2⟩ := hdata
      simp only [Tcp.complete, hfi, h1, h2, and_self, if_true] at hs
      injection hs with hs; subst hs
      refine ⟨?_, fun hd n => ?_, fun _ n => rfl⟩
      · have := countP_eraseIdx ringOp hfi
        simp only [ring] at h
        simp only [ring, Tcp.post, List.countP_append, List.countP_singleton]
        have e : ringTask (.read n0 (.data d)) = ringOp (.read n0) := rfl
        rw [e]; omega
      · simp only [got, Tcp.post, arrived, hfi, h1, h2, List.filterMap_append, List.flatten_append, List.append_assoc]
        by_cases hcc : n0 = n
        · subst hcc; simp [rdData]
        · simp [rdData, hcc]
    · have ha : ∀ n, arrived n v (.complete i r) = [] := by
        intro n
        cases r with
        | data d =>
          simp only [arrived]
          rw [if_neg]
          rintro ⟨h1, h2, h3⟩
          exact hdata ⟨d, n, rfl, h1, h2, h3⟩
        | _ => rfl
      unfold Tcp.complete at hs
      dsimp only at hs
      cases hfi : v.flying[i]? with
      | none =>
        rw [hfi] at hs
        injection hs with hs; subst hs
        exact idle (.refl _) ha
      | some o =>
        rw [hfi] at hs
        have mv : ∀ (t : TTask) (l : List TEv), ringTask t = ringOp o → (∀ n, rdData n t = none) → (∀ n, tcpReceived n l = tcpReceived n v.log) →
            Idle v { v with flying := v.flying.eraseIdx i, queue := v.queue ++ [t], log := l } := by
          intro t l h1 h2 h3
          refine ⟨?_, fun c => ?_, h3⟩
          · have := countP_eraseIdx ringOp hfi
            simp only [ring, List.countP_append, List.countP_singleton, h1]
            omega
          · simp [h2]
        cases o with
        | resolve c =>
          cases r <;> simp only [CM.ret.injEq] at hs <;> subst hs <;> first
            | exact idle (.refl _) ha
            | exact idle (mv (.resolved c true) _ rfl (fun _ => rfl) fun _ => rfl) ha
            | exact idle (mv (.resolved c false) _ rfl (fun _ => rfl) fun _ => rfl) ha
        | connect c =>
          cases r <;> simp only [CM.ret.injEq] at hs <;> subst hs <;> first
            | exact idle (.refl _) ha
            | exact idle (mv (.connected c true) _ rfl (fun _ => rfl) fun _ => rfl) ha
            | exact idle (mv (.connected c false) _ rfl (fun _ => rfl) fun _ => rfl) ha
        | read c =>
          cases r with
          | data bs =>
            simp only at hs
            rw [if_neg (fun hx => hdata ⟨bs, c, rfl, hfi, hx.1, hx.2⟩)] at hs
            injection hs with hs; subst hs
            exact idle (.refl _) ha
          | eof => simp only [CM.ret.injEq] at hs; subst hs; exact idle (mv (.read c .eof) _ rfl (fun _ => rfl) fun _ => rfl) ha
          | error => simp only [CM.ret.injEq] at hs; subst hs; exact idle (mv (.read c .error) _ rfl (fun _ => rfl) fun _ => rfl) ha
          | _ => simp only [CM.ret.injEq] at hs; subst hs; exact idle (.refl _) ha
        | write c b d =>
          cases r with
          | sent n =>
            simp only at hs
            split at hs
            · split at hs
              · injection hs with hs; subst hs
                exact idle (mv (.written c true) _ rfl (fun _ => rfl) fun n => by simp [tcpReceived_append, Tcp.emit]; simp [tcpReceived]) ha
              · cases hs
            · injection hs with hs; subst hs
              exact idle (.refl _) ha
          | error => simp only [CM.ret.injEq] at hs; subst hs; exact idle (mv (.written c false) _ rfl (fun _ => rfl) fun _ => rfl) ha
          | _ => simp only [CM.ret.injEq] at hs; subst hs; exact idle (.refl _) ha
  | run k =>
    simp only [Tcp.step] at hs
    split at hs
    · injection hs with hs; subst hs; exact idle (.refl _) fun _ => rfl
    · rename_i t hk
      injection hs with hs; subst hs
      rcases v.isShutdown.eq_false_or_eq_true with hd | hd
      · have hr : ring { v with queue := v.queue.eraseIdx k } ≤ 1 := by have := ring_taken hk; omega
        refine ⟨?_, fun hx => absurd hx (by simp [hd]), fun _ n => ?_⟩
        · cases t with
          | shutdown => exact Nat.le_trans ((Idle.trans (b := { v with queue := v.queue.eraseIdx k, isShutdown := true }) (.same rfl rfl rfl) (.abortAll _)).ring) hr
          | _ => simpa [Tcp.runTask, Tcp.runClose, Tcp.onResolved, Tcp.onConnected, Tcp.onRead, Tcp.onWritten, hd] using hr
        · cases t with
          | shutdown => rfl
          | _ => simp [Tcp.runTask, Tcp.runClose, Tcp.onResolved, Tcp.onConnected, Tcp.onRead, Tcp.onWritten, hd]
      · have hwd : ({ v with queue := v.queue.eraseIdx k } : Tcp).isShutdown = false := hd
        have tk := ring_taken hk
        -- one token is taken and one put back
        have back : ∀ u u' : Tcp, Idle v u → Idle u u' → u.ring = 0 → u'.beginRead = Tcp.runTask { v with queue := v.queue.eraseIdx k } t →
            (Tcp.runTask { v with queue := v.queue.eraseIdx k } t).ring ≤ 1 ∧
            (v.isShutdown = false → ∀ n, got n (Tcp.runTask { v with queue := v.queue.eraseIdx k } t) = got n v ++ arrived n v (.run k)) ∧
            (v.isShutdown = true → ∀ n, tcpReceived n (Tcp.runTask { v with queue := v.queue.eraseIdx k } t).log = tcpReceived n v.log) := by
          intro u u' h1 h2 h3 h4
          rw [← h4]
          have h5 := h2.ring
          have h6 := (beginRead_ring u').1
          refine ⟨by omega, fun _ n => ?_, fun hx => absurd hx (by simp [hd])⟩
          rw [(beginRead_ring u').2, h2.got, h1.got]
          exact (List.append_nil _).symm
        cases t with
        | close c => exact idle ((idle_taken hk (by simp)).trans (.runClose _ c)) fun _ => rfl
        | shutdown => exact idle ((idle_taken hk (by simp)).trans (Idle.trans (b := { v with queue := v.queue.eraseIdx k, isShutdown := true }) (.same rfl rfl rfl) (.abortAll _))) fun _ => rfl
        | resolved c ok =>
          have h0 : ring { v with queue := v.queue.eraseIdx k } = 0 := by simp [ringTask] at tk; omega
          cases ok with
          | true =>
            simp only [Tcp.runTask] at idle ⊢
            rw [onResolved_ok hwd] at idle ⊢
            have h1 := Idle.abortAll { v with queue := v.queue.eraseIdx k }
            have h2 := (idle_taken hk (by simp)).trans h1
            refine ⟨?_, fun _ n => ?_, fun hx => absurd hx (by simp [hd])⟩
            · have := h1.ring
              rw [h0] at this
              simp only [ring] at this ⊢
              simp only [List.countP_append, List.countP_singleton]
              simp
              split <;> omega
            · have := h2.got n
              rw [show arrived n v (.run k) = [] from rfl, List.append_nil, ← this]
              rfl
          | false =>
            simp only [Tcp.runTask] at idle ⊢
            refine idle ((idle_taken hk (by simp)).trans ?_) fun _ => rfl
            rw [onResolved_err hwd]
            exact Idle.trans (b := { v with queue := v.queue.eraseIdx k, status := .notConnected }) (.same rfl rfl rfl) (.emit _ (by simp))
        | connected c ok =>
          cases ok with
          | true =>
            have h0 : ring { v with queue := v.queue.eraseIdx k } = 0 := by simp [ringTask] at tk; omega
            refine back { v with queue := v.queue.eraseIdx k } (Tcp.sendBuffer { v with queue := v.queue.eraseIdx k, status := .connected }) (idle_taken hk (by simp)) ?_ h0 ?_
            · exact Idle.trans (b := { v with queue := v.queue.eraseIdx k, status := .connected }) (.same rfl rfl rfl) (.sendBuffer _)
            · simp only [Tcp.runTask]; rw [onConnected_ok hwd]
          | false =>
            refine idle ((idle_taken hk (by simp)).trans ?_) fun _ => rfl
            simp only [Tcp.runTask]; rw [onConnected_err hwd]
            exact (Idle.post _ rfl).trans (.emit _ (by simp))
        | written c ok =>
          refine idle ((idle_taken hk (by simp)).trans ?_) fun _ => rfl
          simp only [Tcp.runTask]
          cases ok with
          | true =>
            rw [onWritten_ok hwd]
            exact Idle.trans (b := { v with queue := v.queue.eraseIdx k, wbuf := none }) (.same rfl rfl rfl) (.emit _ (by simp))
          | false => rw [onWritten_err hwd]; exact (Idle.post _ rfl).trans (.emit _ (by simp))
        | read c r =>
          have h0 : ring { v with queue := v.queue.eraseIdx k } = 0 := by simp [ringTask] at tk; omega
          cases r with
          | eof =>
            refine idle ((idle_taken hk (by simp)).trans ?_) fun _ => rfl
            simp only [Tcp.runTask]; rw [onRead_eof hwd]; exact .post _ rfl
          | error =>
            refine idle ((idle_taken hk (by simp)).trans ?_) fun _ => rfl
            simp only [Tcp.runTask]; rw [onRead_error hwd]; exact (Idle.post _ rfl).trans (.emit _ (by simp))
          | again =>
            refine back { v with queue := v.queue.eraseIdx k } { v with queue := v.queue.eraseIdx k } (idle_taken hk (by simp)) (.refl _) h0 ?_
            simp only [Tcp.runTask]; rw [onRead_again hwd]
          | data d =>
            simp only [Tcp.runTask]
            rw [onRead_data hwd]
            refine ⟨?_, fun _ n => ?_, fun hx => absurd hx (by simp [hd])⟩
            · simp only [ring] at h0 ⊢
              simp only [Tcp.post, Tcp.emit, List.countP_append, List.countP_singleton]
              split <;> omega
            · have e0 : (v.queue.eraseIdx k).countP ringTask = 0 := by simp only [ring] at h0; omega
              have e1 : ∀ n, (v.queue.eraseIdx k).filterMap (rdData n) = [] := fun n => pend_none e0
              rw [show arrived n v (.run k) = [] from rfl, List.append_nil]
              simp only [got, Tcp.post, Tcp.emit, tcpReceived_append, List.filterMap_append, List.flatten_append, e1]
              by_cases hcc : c = n
              · subst hcc
                have e2 : v.queue.filterMap (rdData c) = [d] := by
                  have := Asv.filterMap_eraseIdx_some (rdData c) hk (b := d) (by simp [rdData])
                  rw [e1] at this
                  exact List.perm_singleton.1 this
                rw [e2]; simp [tcpReceived, rdData]
              · have e2 : v.queue.filterMap (rdData n) = [] := by
                  rw [← pend_taken hk n (by simp [rdData, hcc]), e1]
                rw [e2]; simp [tcpReceived, rdData, hcc]

theorem _root_.Modbus.Spec.TcpReach.ring {P : Tcp → Op → Prop} (hP : ∀ v op, P v op → FreshStarts v op) {v : Tcp} (h : TcpReach P v) : v.ring ≤ 1 := by
  induction h with
  | init => simp [Tcp.ring, Tcp.init]
  | step hr hp hs ih => exact (ring_step ih ((hr.neat hP).imp_left And.left) (hP _ _ hp) hs).1

end Modbus.Tcp
