import Verif.Lemmas.AsioWrites

/-! What a step of the listening server and its connections leaves alone. -/

namespace Modbus.Asv

open Spec

/-- The connection an event is about. -/
def evConn : AEv → Nat
  | .joined c => c
  | .left c => c
  | .closed c => c
  | .receive c _ => c
  | .error c => c
  | .writeDone c => c
  | .asked c _ => c
  | .submit c _ => c
  | .wire c _ => c

/-- Events about the existence of a connection (not: its data). -/
def evExist : AEv → Bool
  | .joined _ => true
  | .left _ => true
  | .closed _ => true
  | _ => false

/-- The connection a task is about. -/
def taskOf : ATask → Option Nat
  | .startAccept => none
  | .shutdown => none
  | .close c => some c
  | .accepted c _ => some c
  | .read c _ => some c
  | .written c _ => some c

/-- The connection an operation is about. -/
def opOf : AOp → Nat
  | .accept c => c
  | .read c => c
  | .write c _ _ => c

/-- Is this event about `c`?  (`full`: including its existence.) -/
def relEv (full : Bool) (c : Nat) (e : AEv) : Bool := evConn e == c && (full || !evExist e)

def relTask (full : Bool) (c : Nat) (t : ATask) : Bool := if full then taskOf t == some c else taskConn t == some c

def relOp (full : Bool) (c : Nat) (o : AOp) : Bool := if full then opOf o == c else opConn o == some c

/-- Nothing about connection `c` has changed (if not `full`, apart from its place in the list and the request to close it). -/
structure Apart (full : Bool) (c : Nat) (v v' : Asv) : Prop where
  conns : v'.conns c = v.conns c
  flying : v'.flying.filter (relOp full c) = v.flying.filter (relOp full c)
  queue : v'.queue.filter (relTask full c) = v.queue.filter (relTask full c)
  list : full = true → (c ∈ v'.list ↔ c ∈ v.list)
  log : v'.log.filter (relEv full c) = v.log.filter (relEv full c)

variable {full : Bool} {c d : Nat}

theorem Apart.refl (v : Asv) : Apart full c v v := ⟨rfl, rfl, rfl, fun _ => Iff.rfl, rfl⟩

theorem Apart.trans {u v w : Asv} (h : Apart full c u v) (h' : Apart full c v w) : Apart full c u w :=
  ⟨h'.conns.trans h.conns, h'.flying.trans h.flying, h'.queue.trans h.queue, fun hf => (h'.list hf).trans (h.list hf), h'.log.trans h.log⟩

theorem Apart.emit (v : Asv) {e : AEv} (h : relEv full c e = false) : Apart full c v (v.emit e) :=
  ⟨rfl, rfl, rfl, fun _ => Iff.rfl, by simp [Asv.emit, h]⟩

theorem Apart.post (v : Asv) {t : ATask} (h : relTask full c t = false) : Apart full c v (v.post t) :=
  ⟨rfl, rfl, by simp [Asv.post, h], fun _ => Iff.rfl, rfl⟩

theorem Apart.fly (v : Asv) {o : AOp} (h : relOp full c o = false) : Apart full c v { v with flying := v.flying ++ [o] } :=
  ⟨rfl, by simp [h], rfl, fun _ => Iff.rfl, rfl⟩

theorem Apart.setConn (v : Asv) (h : c ≠ d) (x : AConn) : Apart full c v (v.setConn d x) :=
  ⟨by simp [Asv.setConn, h], rfl, rfl, fun _ => Iff.rfl, rfl⟩

theorem filter_eraseIdx {α : Type} (p : α → Bool) {l : List α} {k : Nat} (h : ∀ t, l[k]? = some t → p t = false) : (l.eraseIdx k).filter p = l.filter p := by
  induction l generalizing k with
  | nil => rfl
  | cons a l ih =>
    cases k with
    | zero => simp [h a rfl]
    | succ k =>
      rw [List.eraseIdx_cons_succ, List.filter_cons, List.filter_cons, ih (k := k) (fun t ht => h t (by simpa using ht))]

theorem filter_nil_of {α : Type} {p : α → Bool} {l : List α} (h : ∀ t ∈ l, ¬p t = true) : l.filter p = [] := List.filter_eq_nil_iff.2 h

theorem Apart.eraseQueue (v : Asv) {k : Nat} (h : ∀ t, v.queue[k]? = some t → relTask full c t = false) : Apart full c v { v with queue := v.queue.eraseIdx k } :=
  ⟨rfl, rfl, filter_eraseIdx _ h, fun _ => Iff.rfl, rfl⟩

theorem Apart.eraseFlying (v : Asv) {i : Nat} (h : ∀ o, v.flying[i]? = some o → relOp full c o = false) : Apart full c v { v with flying := v.flying.eraseIdx i } :=
  ⟨rfl, filter_eraseIdx _ h, rfl, fun _ => Iff.rfl, rfl⟩

theorem relTask_aborted (o : AOp) : relTask full c (aborted o) = relOp full c o := by
  cases o <;> cases full <;> simp [relTask, relOp, aborted, taskConn, opConn, taskOf, opOf]

theorem Apart.abort (v : Asv) {p : AOp → Bool} (h : ∀ o ∈ v.flying, p o = true → relOp full c o = false) : Apart full c v (v.abort p) := by
  refine ⟨rfl, ?_, ?_, fun _ => Iff.rfl, rfl⟩
  · simp only [Asv.abort, List.filter_filter]
    refine List.filter_congr fun o ho => ?_
    cases hp : p o with
    | false => simp
    | true => simp [h o ho hp]
  · simp only [Asv.abort, List.filter_append]
    rw [filter_nil_of (l := List.map _ _) ?_, List.append_nil]
    intro t ht
    obtain ⟨o, ho, rfl⟩ := List.mem_map.1 ht
    have := List.mem_filter.1 ho
    rw [relTask_aborted, h o this.1 this.2]
    simp

theorem relTask_close (h : full = true → c ≠ d) : relTask full c (.close d) = false := by
  cases full
  · rfl
  · have := h rfl; simp [relTask, taskOf]; exact fun e => this e.symm

theorem relEv_exist {e : AEv} (he : evExist e = true) (h : full = true → c ≠ evConn e) : relEv full c e = false := by
  cases full
  · simp [relEv, he]
  · have := h rfl; simp [relEv]; exact fun e => this e.symm

theorem relEv_ne {e : AEv} (h : c ≠ evConn e) : relEv full c e = false := by
  simp only [relEv, Bool.and_eq_false_iff, beq_eq_false_iff_ne]
  exact Or.inl h.symm

theorem relTask_ne {t : ATask} (h : taskOf t ≠ some c) : relTask full c t = false := by
  cases full
  · cases t <;> simp_all [relTask, taskConn, taskOf]
  · simp [relTask, h]

theorem relOp_ne {o : AOp} (h : opOf o ≠ c) : relOp full c o = false := by
  cases full
  · cases o <;> simp_all [relOp, opConn, opOf]
  · simp [relOp, h]

theorem Apart.remove (v : Asv) (h : full = true → c ≠ d) : Apart full c v (v.removeConnection d) := by
  unfold removeConnection
  split
  · have := (Apart.post v (relTask_close h)).trans (Apart.emit _ (e := .left d) (relEv_exist rfl h))
    exact ⟨this.conns, this.flying, this.queue, fun hf => List.mem_erase_of_ne (h hf), this.log⟩
  · exact .refl v

theorem Apart.fail (v : Asv) (h : c ≠ d) : Apart full c v (v.fail d) :=
  ((Apart.post v (relTask_close fun _ => h)).trans (Apart.emit _ (e := .error d) (relEv_ne h))).trans (Apart.remove _ fun _ => h)

theorem relOp_onSocket {o : AOp} (h : c ≠ d) (ho : onSocket d o = true) : relOp full c o = false := by
  refine relOp_ne ?_
  cases o <;> simp [onSocket] at ho <;> subst ho <;> exact h.symm

theorem Apart.runClose (v : Asv) (h : c ≠ d) : Apart full c v (v.runClose d) := by
  unfold Asv.runClose
  dsimp only
  split
  · exact ((Apart.setConn v h _).trans ((Apart.abort _ fun o _ ho => relOp_onSocket h ho).trans (Apart.emit _ (e := .closed d) (relEv_ne h)))).trans (Apart.remove _ fun _ => h)
  · exact Apart.setConn v h _

theorem Apart.sendBuffer (v : Asv) (h : c ≠ d) : Apart full c v (v.sendBuffer d) := by
  unfold Asv.sendBuffer
  split
  · exact .refl v
  · split
    · dsimp only
      split
      · exact (Apart.emit v (e := .submit d _) (relEv_ne h)).trans (Apart.fly _ (relOp_ne (Ne.symm h)))
      · exact (Apart.emit v (e := .submit d _) (relEv_ne h)).trans (Apart.post _ (relTask_ne (by simpa [taskOf] using h.symm)))
    · exact .refl v

theorem Apart.send (v : Asv) (h : c ≠ d) (data : List UInt8) : Apart full c v (v.send d data) := by
  unfold Asv.send
  refine Apart.trans ?_ (Apart.sendBuffer _ h)
  refine Apart.trans ?_ (Apart.setConn _ h _)
  have := Apart.emit (full := full) v (e := .asked d data) (relEv_ne h)
  exact ⟨this.conns, this.flying, this.queue, this.list, this.log⟩

theorem Apart.sendAll (v : Asv) (h : c ≠ d) (ds : List (List UInt8)) : Apart full c v (v.sendAll d ds) := by
  induction ds generalizing v with
  | nil => exact .refl v
  | cons x ds ih => exact (Apart.send v h x).trans (ih _)

theorem Apart.beginRead (v : Asv) (h : c ≠ d) : Apart full c v (v.beginRead d) := by
  unfold Asv.beginRead
  split
  · split
    · exact Apart.fly _ (relOp_ne (Ne.symm h))
    · exact Apart.post _ (relTask_ne (by simpa [taskOf] using h.symm))
  · exact .refl v

theorem Apart.startConn (v : Asv) (h : c ≠ d) : Apart full c v (v.startConn d) :=
  ((Apart.setConn v h _).trans (Apart.sendBuffer _ h)).trans (Apart.beginRead _ h)

theorem Apart.startAccept (v : Asv) : Apart full c v v.startAccept := by
  unfold Asv.startAccept
  split
  · exact .refl v
  · exact Apart.post v (relTask_ne (by simp [taskOf]))

theorem Apart.runStartAccept (v : Asv) (h : full = true → c ≠ v.nextConn) : Apart full c v v.runStartAccept := by
  unfold Asv.runStartAccept
  split
  · exact .refl v
  · refine ⟨rfl, ?_, rfl, fun hf => ?_, rfl⟩
    · have : relOp full c (.accept v.nextConn) = false := by
        cases full
        · rfl
        · simp [relOp, opOf]; exact fun e => h rfl e.symm
      simp [this]
    · simp [h hf]

theorem Apart.runShutdown (v : Asv) (h : full = true → c ∉ v.list ∧ ∀ o ∈ v.flying, isAccept o = true → opOf o ≠ c) : Apart full c v v.runShutdown := by
  have h1 : Apart full c v ({ v with isShutdown := true }.abort isAccept) := by
    refine Apart.trans (v := { v with isShutdown := true }) ⟨rfl, rfl, rfl, fun _ => Iff.rfl, rfl⟩ (Apart.abort _ fun o ho ha => ?_)
    cases full
    · cases o <;> simp_all [isAccept, relOp, opConn]
    · simp only [relOp, if_true, beq_eq_false_iff_ne]; exact (h rfl).2 o ho ha
  refine h1.trans ?_
  unfold Asv.runShutdown
  dsimp only
  refine ⟨rfl, rfl, ?_, fun hf => ?_, ?_⟩
  · rw [List.filter_append, filter_nil_of (l := List.map _ _) ?_, List.append_nil]
    intro t ht
    obtain ⟨x, hx, rfl⟩ := List.mem_map.1 ht
    rw [relTask_close (d := x)]
    · simp
    · intro hf e; subst e; exact (h hf).1 hx
  · have := (h hf).1
    exact ⟨fun hm => (by cases hm), fun hm => absurd hm this⟩
  · rw [List.filter_append, filter_nil_of (l := List.map _ _) ?_, List.append_nil]
    intro t ht
    obtain ⟨x, hx, rfl⟩ := List.mem_map.1 ht
    rw [relEv_exist rfl]
    · simp
    · intro hf e; subst e; exact (h hf).1 hx

theorem Apart.onRead (v : Asv) (h : c ≠ d) (r : Option (List UInt8)) (rs : List (List UInt8)) : Apart full c v (v.onRead d r rs) := by
  unfold Asv.onRead
  split
  · exact .fail v h
  · exact ((Apart.emit v (relEv_ne h)).trans (Apart.sendAll _ h rs)).trans (Apart.beginRead _ h)

theorem Apart.onWritten (v : Asv) (h : c ≠ d) (ok : Bool) : Apart full c v (v.onWritten d ok) := by
  unfold Asv.onWritten
  split
  · exact (Apart.setConn v h _).trans (Apart.emit _ (relEv_ne h))
  · exact .fail v h

/-- Accepting connection `d` concerns `d` and, if there are too many, the oldest one. -/
theorem Apart.onAccepted {v v' : Asv} {ok : Bool} (h : c ≠ d) (hf : full = true → v.list.head? ≠ some c) (hs : v.onAccepted d ok = .ret v') : Apart full c v v' := by
  unfold Asv.onAccepted at hs
  split at hs
  · injection hs with hs; subst hs; exact .refl v
  · split at hs
    · have h1 : Apart full c v { v.emit (.joined d) with num := v.num + 1 } := by
        have := Apart.emit (full := full) v (e := .joined d) (relEv_ne h)
        exact ⟨this.conns, this.flying, this.queue, this.list, this.log⟩
      dsimp only at hs
      split at hs
      · split at hs
        · cases hs
        · rename_i front rest hl
          injection hs with hs; subst hs
          refine h1.trans (((Apart.remove _ fun hfu => ?_).trans (Apart.startConn _ h)).trans (Apart.startAccept _))
          rintro rfl
          refine hf hfu ?_
          have : v.list = c :: rest := hl
          rw [this]; rfl
      · injection hs with hs; subst hs
        exact h1.trans ((Apart.startConn _ h).trans (Apart.startAccept _))
    · injection hs with hs; subst hs
      exact .remove v fun _ => h

/-- The connections a step is about (`full`: including evicting, closing and shutting down). -/
def Touches (full : Bool) (v : Asv) (c : Nat) : Op → Prop
  | .start => False
  | .shutdown => False
  | .complete i _ => ∃ o, v.flying[i]? = some o ∧ opOf o = c
  | .run k _ => ∃ t, v.queue[k]? = some t ∧ (taskOf t = some c ∨ full = true ∧ (t = .shutdown ∨ t = .startAccept ∧ c = v.nextConn ∨
      (∃ d, t = .accepted d true) ∧ v.list.head? = some c))

/-- A step changes nothing about the connections it is not about. -/
theorem step_apart {v v' : Asv} {op : Op} (hs : v.step op = .ret v') (hn : ¬Touches full v c op) : Apart full c v v' := by
  cases op with
  | start =>
    injection hs with hs; subst hs
    have := Apart.startAccept (full := full) (c := c) v
    exact ⟨this.conns, this.flying, this.queue, this.list, this.log⟩
  | shutdown => injection hs with hs; subst hs; exact Apart.post v (relTask_ne (by simp [taskOf]))
  | complete i r =>
    simp only [Asv.step, Asv.complete] at hs
    have he : ∀ o, v.flying[i]? = some o → opOf o ≠ c := fun o ho e => hn ⟨o, ho, e⟩
    have h1 : Apart full c v { v with flying := v.flying.eraseIdx i } := Apart.eraseFlying v fun o ho => relOp_ne (he o ho)
    split at hs
    · injection hs with hs; subst hs; exact .refl v
    · rename_i d ho
      have hd : c ≠ d := Ne.symm (he _ ho)
      split at hs
      · injection hs with hs; subst hs
        exact h1.trans ((Apart.setConn _ hd _).trans (Apart.post _ (relTask_ne (by simpa [taskOf] using hd.symm))))
      · injection hs with hs; subst hs
        exact h1.trans (Apart.post _ (relTask_ne (by simpa [taskOf] using hd.symm)))
      · injection hs with hs; subst hs; exact .refl v
    · rename_i d ho
      have hd : c ≠ d := Ne.symm (he _ ho)
      split at hs
      · split at hs
        · injection hs with hs; subst hs
          exact h1.trans (Apart.post _ (relTask_ne (by simpa [taskOf] using hd.symm)))
        · injection hs with hs; subst hs; exact .refl v
      · injection hs with hs; subst hs
        exact h1.trans (Apart.post _ (relTask_ne (by simpa [taskOf] using hd.symm)))
      · injection hs with hs; subst hs; exact .refl v
    · rename_i d b data ho
      have hd : c ≠ d := Ne.symm (he _ ho)
      split at hs
      · split at hs
        · split at hs
          · injection hs with hs; subst hs
            exact h1.trans ((Apart.emit _ (relEv_ne hd)).trans (Apart.post _ (relTask_ne (by simpa [taskOf] using hd.symm))))
          · cases hs
        · injection hs with hs; subst hs; exact .refl v
      · injection hs with hs; subst hs
        exact h1.trans (Apart.post _ (relTask_ne (by simpa [taskOf] using hd.symm)))
      · injection hs with hs; subst hs; exact .refl v
  | run k rs =>
    simp only [Asv.step] at hs
    split at hs
    · injection hs with hs; subst hs; exact .refl v
    · rename_i t hk
      have ht : taskOf t ≠ some c := fun e => hn ⟨t, hk, Or.inl e⟩
      have h1 : Apart full c v { v with queue := v.queue.eraseIdx k } := Apart.eraseQueue v fun x hx => by
        rw [hk] at hx; injection hx with hx; subst hx; exact relTask_ne ht
      refine h1.trans ?_
      cases t with
      | startAccept =>
        injection hs with hs; subst hs
        exact Apart.runStartAccept _ fun hf e => hn ⟨_, hk, Or.inr ⟨hf, Or.inr (Or.inl ⟨rfl, e⟩)⟩⟩
      | shutdown =>
        injection hs with hs; subst hs
        exact Apart.runShutdown _ fun hf => (hn ⟨_, hk, Or.inr ⟨hf, Or.inl rfl⟩⟩).elim
      | close d => injection hs with hs; subst hs; exact Apart.runClose _ (by simpa [taskOf, eq_comm] using ht)
      | accepted d ok =>
        have hd : c ≠ d := by simpa [taskOf, eq_comm] using ht
        cases ok with
        | true => exact Apart.onAccepted hd (fun hf e => hn ⟨_, hk, Or.inr ⟨hf, Or.inr (Or.inr ⟨⟨d, rfl⟩, e⟩)⟩⟩) hs
        | false =>
          simp only [Asv.runTask, Asv.onAccepted] at hs
          split at hs
          · injection hs with hs; subst hs; exact .refl _
          · injection hs with hs; subst hs; exact .remove _ fun _ => hd
      | read d r => injection hs with hs; subst hs; exact Apart.onRead _ (by simpa [taskOf, eq_comm] using ht) r rs
      | written d ok => injection hs with hs; subst hs; exact Apart.onWritten _ (by simpa [taskOf, eq_comm] using ht) ok

end Modbus.Asv
