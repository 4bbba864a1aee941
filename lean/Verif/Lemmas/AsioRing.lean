import Verif.Lemmas.AsioOne
import Verif.Lemmas.ServerStack

/-! Helper lemmas: a connection of the server has at most one read, so it receives the bytes in the order in which they arrive. -/

namespace Modbus.Asv

open Spec

/-- Accepting connection `c`, or reading from it. -/
def ringOp (c : Nat) : AOp → Bool
  | .accept c' => c' = c
  | .read c' => c' = c
  | .write _ _ _ => false

/-- The handler of accepting connection `c` or of reading from it. -/
def ringTask (c : Nat) : ATask → Bool
  | .accepted c' _ => c' = c
  | .read c' _ => c' = c
  | _ => false

/-- How many of these there are. -/
def ring (v : Asv) (c : Nat) : Nat := v.flying.countP (ringOp c) + v.queue.countP (ringTask c)

/-- Data read from connection `c` and not handled yet. -/
def rdData (c : Nat) : ATask → Option (List UInt8)
  | .read c' (some d) => if c' = c then some d else none
  | _ => none

/-- Everything the operating system has given to connection `c` so far. -/
def got (c : Nat) (v : Asv) : List UInt8 := (asvReceived c v.log).flatten ++ (v.queue.filterMap (rdData c)).flatten

/-- A change that has nothing to do with reading. -/
structure Idle (v v' : Asv) : Prop where
  ring : ∀ c, v'.ring c ≤ v.ring c
  next : v'.nextConn = v.nextConn
  pend : ∀ c, v'.queue.filterMap (rdData c) = v.queue.filterMap (rdData c)
  recv : ∀ c, asvReceived c v'.log = asvReceived c v.log

namespace Idle

theorem refl (v : Asv) : Idle v v := ⟨fun _ => Nat.le_refl _, rfl, fun _ => rfl, fun _ => rfl⟩

theorem trans {a b c : Asv} (h : Idle a b) (h' : Idle b c) : Idle a c :=
  ⟨fun x => Nat.le_trans (h'.ring x) (h.ring x), h'.next.trans h.next, fun x => (h'.pend x).trans (h.pend x), fun x => (h'.recv x).trans (h.recv x)⟩

theorem same {v v' : Asv} (h1 : v'.flying = v.flying) (h2 : v'.queue = v.queue) (h3 : v'.nextConn = v.nextConn) (h4 : v'.log = v.log) : Idle v v' :=
  ⟨fun c => by simp [Asv.ring, h1, h2], h3, fun c => by rw [h2], fun c => by rw [h4]⟩

theorem emit (v : Asv) {e : AEv} (he : ∀ c d, e ≠ .receive c d) : Idle v (v.emit e) :=
  ⟨fun _ => Nat.le_refl _, rfl, fun _ => rfl, fun c => by
    show asvReceived c (v.log ++ [e]) = _
    rw [received_append]
    cases e <;> first | exact absurd rfl (he _ _) | simp [asvReceived]⟩

theorem post (v : Asv) {t : ATask} (ht : (∀ c ok, t ≠ .accepted c ok) ∧ ∀ c r, t ≠ .read c r) : Idle v (v.post t) := by
  refine ⟨fun c => ?_, rfl, fun c => ?_, fun _ => rfl⟩
  · simp only [Asv.ring, Asv.post, List.countP_append, List.countP_singleton]
    cases t <;> first | exact absurd rfl (ht.1 _ _) | exact absurd rfl (ht.2 _ _) | simp [ringTask]
  · simp only [Asv.post, List.filterMap_append]
    cases t <;> first | exact absurd rfl (ht.1 _ _) | exact absurd rfl (ht.2 _ _) | simp [rdData]

theorem setConn (v : Asv) (c : Nat) (x : AConn) : Idle v (v.setConn c x) := same rfl rfl rfl rfl

theorem remove (v : Asv) (c : Nat) : Idle v (v.removeConnection c) := by
  unfold removeConnection
  split
  · exact ((post v (t := .close c) (by simp)).trans (emit _ (e := .left c) (by simp))).trans (same rfl rfl rfl rfl)
  · exact refl v

theorem abort (v : Asv) (p : AOp → Bool) : Idle v (v.abort p) := by
  have key : ∀ (c : Nat) (l : List AOp), (l.filter p |>.map aborted).countP (ringTask c) + (l.filter fun o => !p o).countP (ringOp c) = l.countP (ringOp c) := by
    intro c l
    induction l with
    | nil => rfl
    | cons o l ih =>
      have e : ringTask c (aborted o) = ringOp c o := by cases o <;> rfl
      cases hp : p o with
      | true =>
        simp only [List.filter_cons, hp, if_true, Bool.not_true, List.map_cons, List.countP_cons, e]
        simp only [Bool.false_eq_true, if_false]
        omega
      | false =>
        simp only [List.filter_cons, hp, Bool.not_false, if_true, List.countP_cons, Bool.false_eq_true, if_false]
        omega
  refine ⟨fun c => ?_, rfl, fun c => ?_, fun _ => rfl⟩
  · have := key c v.flying
    simp only [Asv.ring, Asv.abort, List.countP_append]
    omega
  · simp only [Asv.abort, List.filterMap_append]
    have : ((v.flying.filter p).map aborted).filterMap (rdData c) = [] := by
      rw [List.filterMap_eq_nil_iff]
      intro t ht
      obtain ⟨o, -, rfl⟩ := List.mem_map.1 ht
      cases o <;> rfl
    rw [this, List.append_nil]

theorem runClose (v : Asv) (c : Nat) : Idle v (v.runClose c) := by
  unfold Asv.runClose
  dsimp only
  split
  · exact (((setConn v c _).trans (abort _ _)).trans (emit _ (by simp))).trans (remove _ c)
  · exact setConn v c _

theorem sendBuffer (v : Asv) (c : Nat) : Idle v (v.sendBuffer c) := by
  unfold Asv.sendBuffer
  split
  · exact refl v
  · split
    · rename_i b data _ _
      have h1 := emit v (e := .submit c data) (by simp)
      dsimp only
      split
      · refine h1.trans ⟨fun d => ?_, rfl, fun _ => rfl, fun _ => rfl⟩
        simp [Asv.ring, ringOp]
      · exact h1.trans (post _ (by simp))
    · exact refl v

theorem send (v : Asv) (c : Nat) (data : List UInt8) : Idle v (v.send c data) := by
  unfold Asv.send
  refine Idle.trans ?_ (sendBuffer _ c)
  exact ((emit v (e := .asked c data) (by simp)).trans (same (v' := { v.emit (.asked c data) with nextBuf := v.nextBuf + 1 }) rfl rfl rfl rfl)).trans (setConn _ c _)

theorem sendAll (c : Nat) (ds : List (List UInt8)) : ∀ v : Asv, Idle v (v.sendAll c ds) := by
  induction ds with
  | nil => exact refl
  | cons d ds ih => intro v; exact (send v c d).trans (ih _)

theorem startAccept (v : Asv) : Idle v v.startAccept := by
  unfold Asv.startAccept
  split
  · exact refl v
  · exact post v (by simp)

theorem fail (v : Asv) (c : Nat) : Idle v (v.fail c) := by
  unfold Asv.fail
  exact ((post v (by simp)).trans (emit _ (by simp))).trans (remove _ c)

theorem runShutdown (v : Asv) : Idle v v.runShutdown := by
  unfold Asv.runShutdown
  dsimp only
  have h1 : Idle v ({ v with isShutdown := true }.abort isAccept) := Idle.trans (b := { v with isShutdown := true }) (same rfl rfl rfl rfl) (abort _ _)
  refine h1.trans ?_
  generalize ({ v with isShutdown := true }.abort isAccept) = u
  refine ⟨fun c => ?_, rfl, fun c => ?_, fun c => ?_⟩
  · have : (u.list.map ATask.close).countP (ringTask c) = 0 := by
      rw [List.countP_eq_zero]
      intro t ht
      obtain ⟨x, -, rfl⟩ := List.mem_map.1 ht
      simp [ringTask]
    simp only [Asv.ring, List.countP_append]
    omega
  · have : (u.list.map ATask.close).filterMap (rdData c) = [] := by
      rw [List.filterMap_eq_nil_iff]
      intro t ht
      obtain ⟨x, -, rfl⟩ := List.mem_map.1 ht
      rfl
    simp only [List.filterMap_append, this, List.append_nil]
  · have : asvReceived c (u.list.map AEv.left) = [] := by
      unfold asvReceived
      rw [List.filterMap_eq_nil_iff]
      intro t ht
      obtain ⟨x, -, rfl⟩ := List.mem_map.1 ht
      rfl
    simp only [received_append, this, List.append_nil]

end Idle

/-- The invariant: each connection is being accepted, or has one read, or neither. -/
def OneRead (v : Asv) : Prop := ∀ c, v.ring c ≤ 1 ∧ (v.nextConn ≤ c → v.ring c = 0)

theorem OneRead.idle {v v' : Asv} (h : OneRead v) (hi : Idle v v') : OneRead v' := fun c =>
  ⟨Nat.le_trans (hi.ring c) (h c).1, fun hc => by have := (h c).2 (hi.next ▸ hc); have := hi.ring c; omega⟩

theorem Idle.got {v v' : Asv} (h : Idle v v') (c : Nat) : got c v' = got c v := by simp [Asv.got, h.pend, h.recv]

/-- Starting the next read. -/
theorem beginRead_ring (v : Asv) (c : Nat) : (v.beginRead c).nextConn = v.nextConn ∧ (∀ c', got c' (v.beginRead c) = got c' v) ∧
    ∀ c', (v.beginRead c).ring c' ≤ v.ring c' + if c = c' then 1 else 0 := by
  unfold beginRead
  split
  · split
    · refine ⟨rfl, fun _ => rfl, fun c' => ?_⟩
      simp only [ring, List.countP_append, List.countP_singleton, ringOp, decide_eq_true_eq]
      omega
    · refine ⟨rfl, fun c' => ?_, fun c' => ?_⟩
      · simp [got, post, rdData]
      · simp only [ring, post, List.countP_append, List.countP_singleton, ringTask, decide_eq_true_eq]
        omega
  · exact ⟨rfl, fun _ => rfl, fun c' => Nat.le_add_right _ _⟩

/-- What arrives on connection `c` in a step. -/
def arrived (c : Nat) (v : Asv) : Op → List UInt8
  | .complete i (.data d) => if v.flying[i]? = some (.read c) ∧ 1 ≤ d.length ∧ d.length ≤ 4096 then d else []
  | _ => []

theorem ring_taken {v : Asv} {k : Nat} {t : ATask} (hk : v.queue[k]? = some t) (c : Nat) :
    ring { v with queue := v.queue.eraseIdx k } c + (if ringTask c t = true then 1 else 0) = v.ring c := by
  have := Tcp.countP_eraseIdx (ringTask c) hk
  simp only [ring]
  omega

theorem pend_taken {v : Asv} {k : Nat} {t : ATask} (hk : v.queue[k]? = some t) (c : Nat) (h : rdData c t = none) :
    (v.queue.eraseIdx k).filterMap (rdData c) = v.queue.filterMap (rdData c) := by
  induction hq : v.queue generalizing v k with
  | nil => rfl
  | cons x q ih =>
    rw [hq] at hk
    cases k with
    | zero => simp at hk; subst hk; simp [h]
    | succ k =>
      simp only [List.getElem?_cons_succ] at hk
      simp only [List.eraseIdx_cons_succ, List.filterMap_cons]
      rw [ih (v := { v with queue := q }) hk rfl]

theorem pend_none {q : List ATask} {c : Nat} (h : q.countP (ringTask c) = 0) : q.filterMap (rdData c) = [] := by
  rw [List.filterMap_eq_nil_iff]
  rw [List.countP_eq_zero] at h
  intro t ht
  have := h t ht
  cases t with
  | read c' r =>
    cases r with
    | none => rfl
    | some d => simp [ringTask] at this; simp [rdData, this]
  | _ => rfl

/-- The handler taken is one of nothing else about reading from connection `c`. -/
theorem idle_taken {v : Asv} {k : Nat} {t : ATask} (hk : v.queue[k]? = some t) (h : ∀ c d, t ≠ .read c (some d)) : Idle v { v with queue := v.queue.eraseIdx k } :=
  ⟨fun c => by have := ring_taken hk c; omega, rfl, fun c => pend_taken hk c (by
    cases t with
    | read c' r =>
      cases r with
      | none => rfl
      | some d => exact absurd rfl (h c' d)
    | _ => rfl), fun _ => rfl⟩

theorem sendBuffer_idle_start (v : Asv) (c : Nat) : Idle v ((v.setConn c { v.conns c with connected := true }).sendBuffer c) :=
  (Idle.setConn v c _).trans (Idle.sendBuffer _ c)

theorem OneRead.begin {v : Asv} (h : OneRead v) {c : Nat} (h0 : v.ring c = 0) (hc : c < v.nextConn) : OneRead (v.beginRead c) := by
  obtain ⟨e1, -, e3⟩ := beginRead_ring v c
  intro c'
  have := e3 c'
  have h1 := h c'
  rw [e1]
  by_cases hcc : c = c'
  · subst hcc
    rw [if_pos rfl] at this
    exact ⟨by omega, fun hn => by omega⟩
  · rw [if_neg hcc] at this
    exact ⟨by omega, fun hn => by have := h1.2 hn; omega⟩

theorem OneRead.step {v v' : Asv} (h : OneRead v) {op : Op} (hs : v.step op = .ret v') :
    OneRead v' ∧ ∀ c, got c v' = got c v ++ arrived c v op := by
  have idle : Idle v v' → (∀ c, arrived c v op = []) → OneRead v' ∧ ∀ c, got c v' = got c v ++ arrived c v op := by
    intro hi ha
    exact ⟨h.idle hi, fun c => by rw [ha, hi.got, List.append_nil]⟩
  cases op with
  | start =>
    injection hs with hs; subst hs
    exact idle ((Idle.startAccept v).trans (.same rfl rfl rfl rfl)) fun _ => rfl
  | shutdown => injection hs with hs; subst hs; exact idle (.post v (by simp)) fun _ => rfl
  | complete i r =>
    simp only [Asv.step, Asv.complete] at hs
    cases hfi : v.flying[i]? with
    | none =>
      rw [hfi] at hs
      injection hs with hs; subst hs
      exact idle (.refl _) fun c => by cases r <;> simp [arrived, hfi]
    | some o =>
      rw [hfi] at hs
      have hcnt := fun c => Tcp.countP_eraseIdx (ringOp c) hfi
      -- the operation becomes a handler of the same kind
      have mv : ∀ (t : ATask) (cs : Nat → AConn) (l : List AEv), (∀ c, ringTask c t = ringOp c o) → (∀ c, rdData c t = none) → (∀ c, asvReceived c l = asvReceived c v.log) →
          Idle v { v with flying := v.flying.eraseIdx i, queue := v.queue ++ [t], conns := cs, log := l } := by
        intro t cs l h1 h2 h3
        refine ⟨fun c => ?_, rfl, fun c => ?_, h3⟩
        · have := hcnt c
          simp only [ring, List.countP_append, List.countP_singleton, h1]
          omega
        · simp [h2]
      cases o with
      | accept c =>
        dsimp only at hs
        split at hs
        · injection hs with hs; subst hs
          exact idle (mv (.accepted c true) _ _ (fun _ => rfl) (fun _ => rfl) fun _ => rfl) fun _ => rfl
        · injection hs with hs; subst hs
          exact idle (mv (.accepted c false) _ _ (fun _ => rfl) (fun _ => rfl) fun _ => rfl) fun _ => rfl
        · injection hs with hs; subst hs
          exact idle (.refl _) fun c => by cases r <;> simp [arrived, hfi]
      | write c b data =>
        dsimp only at hs
        split at hs
        · split at hs
          · split at hs
            · rename_i n _ _
              injection hs with hs; subst hs
              exact idle (mv (.written c true) _ _ (fun _ => rfl) (fun _ => rfl) fun c' => by simp [received_append, Asv.emit]; simp [asvReceived]) fun _ => rfl
            · cases hs
          · injection hs with hs; subst hs; exact idle (.refl _) fun _ => rfl
        · injection hs with hs; subst hs
          exact idle (mv (.written c false) _ _ (fun _ => rfl) (fun _ => rfl) fun _ => rfl) fun _ => rfl
        · injection hs with hs; subst hs
          exact idle (.refl _) fun c => by cases r <;> simp [arrived, hfi]
      | read c =>
        dsimp only at hs
        split at hs
        · rename_i bs
          split at hs
          · rename_i hb
            injection hs with hs; subst hs
            refine ⟨fun c' => ?_, fun c' => ?_⟩
            · have h1 := h c'
              have h2 : Asv.ring (Asv.post { v with flying := v.flying.eraseIdx i } (.read c (some bs))) c' = v.ring c' := by
                have := hcnt c'
                simp only [ring, Asv.post, List.countP_append, List.countP_singleton]
                have e : ringTask c' (.read c (some bs)) = ringOp c' (.read c) := rfl
                rw [e]; omega
              rw [h2]; exact h1
            · simp only [got, Asv.post, arrived, hfi, List.filterMap_append, List.flatten_append, List.append_assoc]
              by_cases hcc : c = c'
              · subst hcc; simp [rdData, hb]
              · simp [rdData, hcc]
          · rename_i hb
            injection hs with hs; subst hs
            exact idle (.refl _) fun c' => by simp [arrived, hb]
        · injection hs with hs; subst hs
          exact idle (mv (.read c none) _ _ (fun _ => rfl) (fun _ => rfl) fun _ => rfl) fun _ => rfl
        · rename_i h1 h2
          injection hs with hs; subst hs
          refine idle (.refl _) fun c => ?_
          cases r with
          | data d => exact absurd rfl (h1 d)
          | _ => rfl
  | run k rs =>
    simp only [Asv.step] at hs
    split at hs
    · injection hs with hs; subst hs; exact idle (.refl _) fun _ => rfl
    · rename_i t hk
      cases t with
      | startAccept =>
        injection hs with hs; subst hs
        have he := idle_taken hk (by simp)
        suffices hx : OneRead (Asv.runStartAccept { v with queue := v.queue.eraseIdx k }) ∧ ∀ c, got c (Asv.runStartAccept { v with queue := v.queue.eraseIdx k }) = got c { v with queue := v.queue.eraseIdx k } from
          ⟨hx.1, fun c => by rw [hx.2 c, he.got]; exact (List.append_nil _).symm⟩
        have h' := h.idle he
        generalize { v with queue := v.queue.eraseIdx k } = u at h' ⊢
        unfold Asv.runStartAccept
        split
        · exact ⟨h', fun _ => rfl⟩
        · refine ⟨fun c => ?_, fun _ => rfl⟩
          have h1 := h' c
          have h2 : Asv.ring { u with list := u.list ++ [u.nextConn], nextConn := u.nextConn + 1, flying := u.flying ++ [.accept u.nextConn] } c = u.ring c + if u.nextConn = c then 1 else 0 := by
            simp only [ring, List.countP_append, List.countP_singleton, ringOp, decide_eq_true_eq]
            omega
          rw [h2]
          by_cases hc : u.nextConn = c
          · have := h1.2 (Nat.le_of_eq hc)
            rw [if_pos hc, this]
            exact ⟨Nat.le_refl _, fun hn => by have : u.nextConn + 1 ≤ c := hn; omega⟩
          · rw [if_neg hc]
            exact ⟨h1.1, fun hn => h1.2 (by have : u.nextConn + 1 ≤ c := hn; omega)⟩
      | shutdown => injection hs with hs; subst hs; exact idle ((idle_taken hk (by simp)).trans (.runShutdown _)) fun _ => rfl
      | close c => injection hs with hs; subst hs; exact idle ((idle_taken hk (by simp)).trans (.runClose _ c)) fun _ => rfl
      | written c ok =>
        injection hs with hs; subst hs
        refine idle ((idle_taken hk (by simp)).trans ?_) fun _ => rfl
        unfold Asv.onWritten
        split
        · exact (Idle.setConn _ c _).trans (.emit _ (by simp))
        · exact .fail _ c
      | accepted c ok =>
        have he := idle_taken hk (by simp)
        have h0 : ring { v with queue := v.queue.eraseIdx k } c = 0 := by
          have := ring_taken hk c
          have h1 := (h c).1
          simp [ringTask] at this
          omega
        have hc : c < v.nextConn := by
          by_contra hc
          have := (h c).2 (by omega)
          have h2 := ring_taken hk c
          simp [ringTask] at h2
          omega
        have h' := h.idle he
        have hc' : c < ({ v with queue := v.queue.eraseIdx k } : Asv).nextConn := hc
        suffices hx : OneRead v' ∧ ∀ c, got c v' = got c { v with queue := v.queue.eraseIdx k } from
          ⟨hx.1, fun c => by rw [hx.2 c, he.got]; exact (List.append_nil _).symm⟩
        change Asv.onAccepted { v with queue := v.queue.eraseIdx k } c ok = .ret v' at hs
        generalize ({ v with queue := v.queue.eraseIdx k } : Asv) = u at h' h0 hc' hs ⊢
        -- starting an accepted connection
        have start : ∀ u1 : Asv, Idle u u1 → OneRead (u1.startConn c).startAccept ∧ ∀ c', got c' (u1.startConn c).startAccept = got c' u := by
          intro u1 hu
          have hi := hu.trans (sendBuffer_idle_start u1 c)
          have h3 : OneRead (u1.startConn c) := (h'.idle hi).begin (by have := hi.ring c; omega) (by rw [hi.next]; exact hc')
          exact ⟨h3.idle (.startAccept _), fun c' => by rw [(Idle.startAccept _).got, ← hi.got]; exact (beginRead_ring _ c).2.1 c'⟩
        have hj : Idle u { u.emit (.joined c) with num := u.num + 1 } := (Idle.emit u (by simp)).trans (.same rfl rfl rfl rfl)
        simp only [onAccepted] at hs
        split at hs
        · injection hs with hs; subst hs; exact ⟨h', fun _ => rfl⟩
        · split at hs
          · split at hs
            · split at hs
              · cases hs
              · injection hs with hs; subst hs
                exact start _ (hj.trans (.remove _ _))
            · injection hs with hs; subst hs
              exact start _ hj
          · injection hs with hs; subst hs
            exact ⟨h'.idle (.remove u c), fun c' => (Idle.remove u c).got c'⟩
      | read c r =>
        injection hs with hs; subst hs
        cases r with
        | none => exact idle ((idle_taken hk (by simp)).trans (.fail _ c)) fun _ => rfl
        | some d =>
          have h0 : ring { v with queue := v.queue.eraseIdx k } c = 0 := by
            have := ring_taken hk c
            have h1 := (h c).1
            simp [ringTask] at this
            omega
          have hc : c < v.nextConn := by
            by_contra hc
            have := (h c).2 (by omega)
            have h2 := ring_taken hk c
            simp [ringTask] at h2
            omega
          have h' : OneRead { v with queue := v.queue.eraseIdx k } := fun c' => by
            have := ring_taken hk c'
            have h1 := h c'
            refine ⟨by omega, fun hn => ?_⟩
            have := h1.2 hn
            omega
          -- the handler's own data was the only data waiting
          have hg : ∀ c', got c' (Asv.emit { v with queue := v.queue.eraseIdx k } (.receive c d)) = got c' v := by
            intro c'
            simp only [got, Asv.emit, received_append, List.flatten_append]
            by_cases hcc : c = c'
            · subst hcc
              have e1 : (v.queue.eraseIdx k).filterMap (rdData c) = [] := pend_none (by
                simp only [ring] at h0
                omega)
              have e2 : v.queue.filterMap (rdData c) = [d] := by
                have := filterMap_eraseIdx_some (rdData c) hk (b := d) (by simp [rdData])
                rw [e1] at this
                exact List.perm_singleton.1 this
              rw [e1, e2]; simp [asvReceived]
            · rw [pend_taken hk c' (by simp [rdData, hcc])]
              simp [asvReceived, hcc]
          have hr : OneRead (Asv.emit { v with queue := v.queue.eraseIdx k } (.receive c d)) := h'
          have h0' : ring (Asv.emit { v with queue := v.queue.eraseIdx k } (.receive c d)) c = 0 := h0
          have hc' : c < (Asv.emit { v with queue := v.queue.eraseIdx k } (.receive c d)).nextConn := hc
          suffices hx : OneRead ((Asv.sendAll (Asv.emit { v with queue := v.queue.eraseIdx k } (.receive c d)) c rs).beginRead c) ∧
              ∀ c', got c' ((Asv.sendAll (Asv.emit { v with queue := v.queue.eraseIdx k } (.receive c d)) c rs).beginRead c) = got c' (Asv.emit { v with queue := v.queue.eraseIdx k } (.receive c d)) from
            ⟨hx.1, fun c' => by
              have := hx.2 c'
              rw [hg] at this
              exact this.trans (List.append_nil _).symm⟩
          generalize Asv.emit { v with queue := v.queue.eraseIdx k } (.receive c d) = u at hr h0' hc' ⊢
          have hi := Idle.sendAll c rs u
          exact ⟨(hr.idle hi).begin (by have := hi.ring c; omega) (by rw [hi.next]; exact hc'), fun c' => by rw [(beginRead_ring _ c).2.1, hi.got]⟩

theorem _root_.Modbus.Spec.AsvReach.oneRead {max : UInt32} {P : Asv → Op → Prop} {v : Asv} (h : AsvReach max P v) : OneRead v := by
  induction h with
  | init => exact fun c => ⟨Nat.zero_le _, fun _ => rfl⟩
  | step _ _ hs ih => exact (ih.step hs).1

end Modbus.Asv
