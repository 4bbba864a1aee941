import Verif.Lemmas.AsioServer
import Verif.Lemmas.ServerOpen

/-!
Helper lemmas: a connection of the server ends only because an operation on it failed, because too many are connected, or because the
server is shut down.
-/

namespace Modbus.Asv

open Spec

/-- The connection that ends when this has been handled. -/
def ends : ATask → Option Nat
  | .close c => some c
  | .accepted c false => some c
  | .read c none => some c
  | .written c false => some c
  | _ => none

/-- The connection an operation belongs to. -/
def opOwner : AOp → Nat
  | .accept c => c
  | .read c => c
  | .write c _ _ => c

/-- What ends connection `c`: the step `op` made in state `v`. -/
def EndsBy (v : Asv) (op : Op) (c : Nat) : Prop :=
  op = .shutdown ∨ (∃ i o, op = .complete i .error ∧ v.flying[i]? = some o ∧ opOwner o = c) ∨
    ∃ k rs d, op = .run k rs ∧ v.queue[k]? = some (.accepted d true) ∧ v.isShutdown = false ∧ v.max < v.num + 1 ∧ v.list.head? = some c

/-- Connections end only for the reasons `K`. -/
structure Csd (K : Nat → Prop) (v : Asv) : Prop where
  task : ∀ t ∈ v.queue, ∀ c, ends t = some c → K c
  down : v.isShutdown = true ∨ ATask.shutdown ∈ v.queue → ∀ c, K c
  left : ∀ c, AEv.left c ∈ v.log → K c
  error : ∀ c, AEv.error c ∈ v.log → K c
  closed : ∀ c, AEv.closed c ∈ v.log → K c
  conn : ∀ c, (v.conns c).connected = true → (v.conns c).isOpen = true ∨ K c
  acc : ∀ c, ATask.accepted c true ∈ v.queue → (v.conns c).isOpen = true ∨ K c

variable {K : Nat → Prop}

theorem Csd.init (max : UInt32) : Csd K (Asv.init max) := by
  constructor <;> simp [Asv.init]

theorem Csd.mono {K' : Nat → Prop} {v : Asv} (h : Csd K v) (hk : ∀ c, K c → K' c) : Csd K' v where
  task t ht c hc := hk c (h.task t ht c hc)
  down hd c := hk c (h.down hd c)
  left c hc := hk c (h.left c hc)
  error c hc := hk c (h.error c hc)
  closed c hc := hk c (h.closed c hc)
  conn c hc := (h.conn c hc).imp_right (hk c)
  acc c hc := (h.acc c hc).imp_right (hk c)

/-- The state after something that leaves the connections alone. -/
theorem Csd.grow {v v' : Asv} (h : Csd K v) (h1 : v'.conns = v.conns) (h2 : v'.isShutdown = true → v.isShutdown = true ∨ ∀ c, K c)
    (h3 : ∀ t ∈ v'.queue, t ∈ v.queue ∨ (∀ c, ends t = some c → K c) ∧ (t = .shutdown → ∀ c, K c) ∧ ∀ c, t ≠ .accepted c true)
    (h4 : ∀ e ∈ v'.log, e ∈ v.log ∨ ∀ c, e = .left c ∨ e = .error c ∨ e = .closed c → K c) : Csd K v' where
  task t ht c hc := (h3 t ht).elim (fun ht => h.task t ht c hc) fun h => h.1 c hc
  down hd c := by
    rcases hd with hd | hd
    · exact (h2 hd).elim (fun hd => h.down (Or.inl hd) c) fun h => h c
    · exact (h3 _ hd).elim (fun hd => h.down (Or.inr hd) c) fun h => h.2.1 rfl c
  left c hc := (h4 _ hc).elim (h.left c) fun h => h c (Or.inl rfl)
  error c hc := (h4 _ hc).elim (h.error c) fun h => h c (Or.inr (Or.inl rfl))
  closed c hc := (h4 _ hc).elim (h.closed c) fun h => h c (Or.inr (Or.inr rfl))
  conn c hc := by rw [h1] at hc ⊢; exact h.conn c hc
  acc c hc := by
    rw [h1]
    exact (h3 _ hc).elim (h.acc c) fun h => absurd rfl (h.2.2 c)

theorem Csd.pop {v : Asv} (h : Csd K v) (k : Nat) : Csd K { v with queue := v.queue.eraseIdx k } :=
  h.grow rfl Or.inl (fun _ ht => Or.inl (List.mem_of_mem_eraseIdx ht)) fun _ he => Or.inl he

theorem Csd.land {v : Asv} (h : Csd K v) (l : List AOp) : Csd K { v with flying := l } :=
  h.grow rfl Or.inl (fun _ ht => Or.inl ht) fun _ he => Or.inl he

theorem Csd.emit {v : Asv} (h : Csd K v) (e : AEv) (he : ∀ c, e = .left c ∨ e = .error c ∨ e = .closed c → K c) : Csd K (v.emit e) := by
  refine h.grow rfl Or.inl (fun _ ht => Or.inl ht) fun x hx => ?_
  rcases List.mem_append.1 hx with hx | hx
  · exact Or.inl hx
  · rw [List.mem_singleton.1 hx]; exact Or.inr he

theorem Csd.post {v : Asv} (h : Csd K v) (t : ATask) (h1 : ∀ c, ends t = some c → K c) (h2 : t = .shutdown → ∀ c, K c) (h3 : ∀ c, t ≠ .accepted c true) :
    Csd K (v.post t) := by
  refine h.grow rfl Or.inl (fun x hx => ?_) fun _ he => Or.inl he
  rcases List.mem_append.1 hx with hx | hx
  · exact Or.inl hx
  · rw [List.mem_singleton.1 hx]; exact Or.inr ⟨h1, h2, h3⟩

theorem Csd.close {v : Asv} (h : Csd K v) {c : Nat} (hc : K c) : Csd K (v.post (.close c)) :=
  h.post _ (fun d hd => by simp only [ends, Option.some.injEq] at hd; exact hd ▸ hc) (fun hx => by cases hx) fun d hx => by cases hx

theorem Csd.remove {v : Asv} (h : Csd K v) {c : Nat} (hc : K c) : Csd K (v.removeConnection c) := by
  unfold removeConnection
  split
  · have := (h.close hc).emit (.left c) (fun d hd => by rcases hd with hd | hd | hd <;> cases hd; exact hc)
    exact this.grow rfl Or.inl (fun _ ht => Or.inl ht) fun _ he => Or.inl he
  · exact h

theorem Csd.abort {v : Asv} (h : Csd K v) (p : AOp → Bool) (hp : ∀ o, p o = true → K (opOwner o)) : Csd K (v.abort p) := by
  refine h.grow rfl Or.inl (fun t ht => ?_) fun _ he => Or.inl he
  rcases List.mem_append.1 ht with ht | ht
  · exact Or.inl ht
  · obtain ⟨o, ho, rfl⟩ := List.mem_map.1 ht
    have hk := hp o (List.mem_filter.1 ho).2
    refine Or.inr ⟨fun c hc => ?_, fun hx => ?_, fun c hx => ?_⟩
    · cases o <;> simp only [aborted, ends, Option.some.injEq] at hc <;> exact hc ▸ hk
    · cases o <;> cases hx
    · cases o <;> cases hx

theorem Csd.setConn {v : Asv} (h : Csd K v) (c : Nat) (x : AConn) (h1 : x.connected = true → x.isOpen = true ∨ K c)
    (h2 : (v.conns c).isOpen = true → x.isOpen = true ∨ K c) : Csd K (v.setConn c x) where
  task := h.task
  down := h.down
  left := h.left
  error := h.error
  closed := h.closed
  conn d hd := by
    by_cases hdc : d = c
    · subst hdc; simp only [Asv.setConn, if_true] at hd ⊢; exact h1 hd
    · simp only [Asv.setConn, if_neg hdc] at hd ⊢; exact h.conn d hd
  acc d hd := by
    by_cases hdc : d = c
    · subst hdc
      simp only [Asv.setConn, if_true]
      exact (h.acc d hd).elim h2 Or.inr
    · simp only [Asv.setConn, if_neg hdc]; exact h.acc d hd

theorem Csd.runClose {v : Asv} (h : Csd K v) {c : Nat} (hc : K c) : Csd K (v.runClose c) := by
  unfold Asv.runClose
  dsimp only
  split
  · refine Csd.remove (Csd.emit (Csd.abort (h.setConn c _ (fun hx => by cases hx) fun _ => Or.inr hc) _ fun o ho => ?_) _ fun d hd => ?_) hc
    · cases o <;> simp_all [onSocket, opOwner]
    · rcases hd with hd | hd | hd <;> cases hd; exact hc
  · exact h.setConn c _ (fun hx => by cases hx) Or.inl

theorem Csd.sendBuffer {v : Asv} (h : Csd K v) (c : Nat) : Csd K (v.sendBuffer c) := by
  unfold Asv.sendBuffer
  split
  · exact h
  · rename_i b data hw
    split
    · rename_i hcon
      have h1 := h.emit (.submit c data) fun d hd => by rcases hd with hd | hd | hd <;> cases hd
      dsimp only
      split
      · exact h1.land _
      · rename_i ho
        have hk : K c := (h.conn c hcon).resolve_left ho
        exact h1.post _ (fun d hd => by simp only [ends, Option.some.injEq] at hd; exact hd ▸ hk) (fun hx => by cases hx) fun d hx => by cases hx
    · exact h

theorem Csd.send {v : Asv} (h : Csd K v) (c : Nat) (d : List UInt8) : Csd K (v.send c d) := by
  have h1 : Csd K { v.emit (.asked c d) with nextBuf := v.nextBuf + 1 } :=
    (h.emit (.asked c d) fun d hd => by rcases hd with hd | hd | hd <;> cases hd).grow rfl Or.inl (fun _ ht => Or.inl ht) fun _ he => Or.inl he
  exact Csd.sendBuffer (h1.setConn c { v.conns c with wbuf := some (v.nextBuf, d) } (h.conn c) Or.inl) c

theorem Csd.sendAll (c : Nat) (ds : List (List UInt8)) : ∀ {v : Asv}, Csd K v → Csd K (v.sendAll c ds) := by
  induction ds with
  | nil => intro v h; exact h
  | cons d ds ih => intro v h; exact ih (h.send c d)

theorem Csd.beginRead {v : Asv} (h : Csd K v) (c : Nat) : Csd K (v.beginRead c) := by
  unfold Asv.beginRead
  split
  · rename_i hcon
    split
    · exact h.land _
    · rename_i ho
      have hk : K c := (h.conn c hcon).resolve_left ho
      exact h.post _ (fun d hd => by simp only [ends, Option.some.injEq] at hd; exact hd ▸ hk) (fun hx => by cases hx) fun d hx => by cases hx
  · exact h

theorem Csd.fail {v : Asv} (h : Csd K v) {c : Nat} (hc : K c) : Csd K (v.fail c) :=
  Csd.remove ((h.close hc).emit _ fun d hd => by rcases hd with hd | hd | hd <;> cases hd; exact hc) hc

theorem Csd.startAccept {v : Asv} (h : Csd K v) : Csd K v.startAccept := by
  unfold Asv.startAccept
  split
  · exact h
  · exact h.post _ (fun d hd => by cases hd) (fun hx => by cases hx) fun d hx => by cases hx

theorem conns_remove (v : Asv) (c : Nat) : (v.removeConnection c).conns = v.conns := by
  unfold removeConnection
  split <;> rfl

/-- Every step keeps this up; what ends a connection is a reason. -/
theorem Csd.step {v v' : Asv} (h : Csd K v) {op : Op} (hs : v.step op = .ret v') (hk : ∀ c, EndsBy v op c → K c) : Csd K v' := by
  cases op with
  | start =>
    injection hs with hs; subst hs
    exact h.startAccept.grow rfl Or.inl (fun _ ht => Or.inl ht) fun _ he => Or.inl he
  | shutdown =>
    injection hs with hs; subst hs
    exact h.post _ (fun d hd => by cases hd) (fun _ c => hk c (Or.inl rfl)) fun d hx => by cases hx
  | complete i r =>
    have herr : ∀ o, v.flying[i]? = some o → r = .error → K (opOwner o) := fun o ho hr =>
      hk _ (Or.inr (Or.inl ⟨i, o, by rw [hr], ho, rfl⟩))
    simp only [Asv.step, Asv.complete] at hs
    split at hs
    · injection hs with hs; subst hs; exact h
    · rename_i c hf
      split at hs
      · injection hs with hs; subst hs
        have h1 := (h.land (v.flying.eraseIdx i)).setConn c { v.conns c with isOpen := true } (fun _ => Or.inl rfl) fun _ => Or.inl rfl
        exact {
          task := fun t ht d hd => (List.mem_append.1 ht).elim (fun ht => h1.task t ht d hd) fun ht => by
            rw [List.mem_singleton.1 ht] at hd; cases hd
          down := fun hd => h1.down (hd.imp_right fun hd => (List.mem_append.1 hd).resolve_right (by simp))
          left := h1.left
          error := h1.error
          closed := h1.closed
          conn := h1.conn
          acc := fun d hd => (List.mem_append.1 hd).elim (h1.acc d) fun hd => by
            have := List.mem_singleton.1 hd
            injection this with hdc
            subst hdc
            exact Or.inl (by simp [Asv.post, Asv.setConn]) }
      · injection hs with hs; subst hs
        exact (h.land _).post _ (fun d hd => by simp only [ends, Option.some.injEq] at hd; exact hd ▸ herr _ hf rfl) (fun hx => by cases hx) fun d hx => by cases hx
      · injection hs with hs; subst hs; exact h
    · rename_i c hf
      split at hs
      · split at hs
        · injection hs with hs; subst hs
          exact (h.land _).post _ (fun d hd => by cases hd) (fun hx => by cases hx) fun d hx => by cases hx
        · injection hs with hs; subst hs; exact h
      · injection hs with hs; subst hs
        exact (h.land _).post _ (fun d hd => by simp only [ends, Option.some.injEq] at hd; exact hd ▸ herr _ hf rfl) (fun hx => by cases hx) fun d hx => by cases hx
      · injection hs with hs; subst hs; exact h
    · rename_i c b data hf
      split at hs
      · split at hs
        · split at hs
          · injection hs with hs; subst hs
            exact ((h.land _).emit _ fun d hd => by rcases hd with hd | hd | hd <;> cases hd).post _ (fun d hd => by cases hd) (fun hx => by cases hx)
              fun d hx => by cases hx
          · cases hs
        · injection hs with hs; subst hs; exact h
      · injection hs with hs; subst hs
        exact (h.land _).post _ (fun d hd => by simp only [ends, Option.some.injEq] at hd; exact hd ▸ herr _ hf rfl) (fun hx => by cases hx) fun d hx => by cases hx
      · injection hs with hs; subst hs; exact h
  | run k rs =>
    simp only [Asv.step] at hs
    split at hs
    · injection hs with hs; subst hs; exact h
    · rename_i t hq
      have hm := List.mem_of_getElem? hq
      have h0 := h.pop k
      cases t with
      | startAccept =>
        injection hs with hs; subst hs
        unfold Asv.runStartAccept
        split
        · exact h0
        · exact h0.grow rfl Or.inl (fun _ ht => Or.inl ht) fun _ he => Or.inl he
      | shutdown =>
        have hall := h.down (Or.inr hm)
        injection hs with hs; subst hs
        refine h0.grow rfl (fun _ => Or.inr hall) (fun t ht => ?_) fun e he => Or.inr fun c _ => hall c
        rcases List.mem_append.1 ht with ht | ht
        · rcases List.mem_append.1 ht with ht | ht
          · exact Or.inl ht
          · obtain ⟨o, -, rfl⟩ := List.mem_map.1 ht
            exact Or.inr ⟨fun c _ => hall c, fun _ => hall, fun c hx => by cases o <;> cases hx⟩
        · obtain ⟨d, -, rfl⟩ := List.mem_map.1 ht
          exact Or.inr ⟨fun c _ => hall c, fun _ => hall, fun c hx => by cases hx⟩
      | close c => injection hs with hs; subst hs; exact h0.runClose (h.task _ hm c rfl)
      | accepted c ok =>
        simp only [Asv.runTask, Asv.onAccepted] at hs
        split at hs
        · injection hs with hs; subst hs; exact h0
        · rename_i hd
          have hd' : v.isShutdown = false := by simpa using hd
          cases ok with
          | true =>
            have ha := h.acc c hm
            simp only [if_true] at hs
            have h1 : Csd K { ({ v with queue := v.queue.eraseIdx k } : Asv).emit (.joined c) with num := v.num + 1 } :=
              (h0.emit (.joined c) fun d hd => by rcases hd with hd | hd | hd <;> cases hd).grow rfl Or.inl (fun _ ht => Or.inl ht) fun _ he => Or.inl he
            have key : ∀ u : Asv, Csd K u → u.conns = v.conns → Csd K ((u.startConn c).startAccept) := by
              intro u hu hc
              refine Csd.startAccept (Csd.beginRead (Csd.sendBuffer (hu.setConn c { u.conns c with connected := true } (fun _ => ?_) fun ho => Or.inl ho) c) c)
              simp only [hc]; exact ha
            split at hs
            · rename_i hlt
              split at hs
              · cases hs
              · rename_i front rest hl
                injection hs with hs; subst hs
                refine key _ (h1.remove (hk front (Or.inr (Or.inr ⟨k, rs, c, rfl, hq, hd', hlt, ?_⟩)))) (conns_remove _ _)
                have : v.list = front :: rest := hl
                rw [this]; rfl
            · injection hs with hs; subst hs
              exact key _ h1 rfl
          | false =>
            injection hs with hs; subst hs
            exact h0.remove (h.task _ hm c rfl)
      | read c r =>
        injection hs with hs; subst hs
        cases r with
        | none => exact h0.fail (h.task _ hm c rfl)
        | some bytes =>
          exact (Csd.sendAll c rs (h0.emit _ fun d hd => by rcases hd with hd | hd | hd <;> cases hd)).beginRead c
      | written c ok =>
        injection hs with hs; subst hs
        cases ok with
        | true =>
          exact (h0.setConn c { v.conns c with wbuf := none } (h.conn c) Or.inl).emit (.writeDone c) fun d hd => by rcases hd with hd | hd | hd <;> cases hd
        | false => exact h0.fail (h.task _ hm c rfl)

/-- Connections end only by steps that end them. -/
theorem _root_.Modbus.Spec.AsvReach.caused {max : UInt32} {P : Asv → Op → Prop} {v : Asv} (h : AsvReach max P v) :
    Csd (fun c => ∃ a op, AsvReach max P a ∧ P a op ∧ EndsBy a op c) v := by
  induction h with
  | init => exact .init max
  | @step v v' op hv hp hs ih => exact ih.step hs fun c hc => ⟨v, op, hv, hp, hc⟩

end Modbus.Asv
