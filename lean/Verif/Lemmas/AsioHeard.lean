import Verif.Lemmas.AsioApart

/-! Helper lemmas: every connection of the server that is open is being read. -/

namespace Modbus.Asv

open Spec

/-- Is this a read handler of connection `c`? -/
def isReadOf (c : Nat) : ATask → Bool
  | .read c' _ => c' = c
  | _ => false

/-- Reads of connection `c` in progress and read handlers waiting to run. -/
def rd (v : Asv) (c : Nat) : Nat := v.flying.count (.read c) + v.queue.countP (isReadOf c)

/-- Events that matter for whether `c` is being read. -/
def evLife (c : Nat) : AEv → Bool
  | .joined c' => c' = c
  | .error c' => c' = c
  | .closed c' => c' = c
  | _ => false

/-- Nothing has changed that matters for whether `c` is being read. -/
structure Quiet (c : Nat) (v v' : Asv) : Prop where
  isOpen : (v'.conns c).isOpen = (v.conns c).isOpen
  connected : (v'.conns c).connected = (v.conns c).connected
  rd : v'.rd c = v.rd c
  log : v'.log.filter (evLife c) = v.log.filter (evLife c)
  acc : ATask.accepted c true ∈ v'.queue → ATask.accepted c true ∈ v.queue

variable {c d : Nat}

theorem Quiet.refl (v : Asv) : Quiet c v v := ⟨rfl, rfl, rfl, rfl, id⟩

theorem Quiet.trans {u v w : Asv} (h : Quiet c u v) (h' : Quiet c v w) : Quiet c u w :=
  ⟨h'.isOpen.trans h.isOpen, h'.connected.trans h.connected, h'.rd.trans h.rd, h'.log.trans h.log, fun hx => h.acc (h'.acc hx)⟩

theorem Quiet.joined {v v' : Asv} (h : Quiet c v v') : AEv.joined c ∈ v'.log ↔ AEv.joined c ∈ v.log := by
  have : ∀ l : List AEv, AEv.joined c ∈ l ↔ AEv.joined c ∈ l.filter (evLife c) := fun l => by simp [List.mem_filter, evLife]
  rw [this, h.log, ← this]

theorem Quiet.error {v v' : Asv} (h : Quiet c v v') : AEv.error c ∈ v'.log ↔ AEv.error c ∈ v.log := by
  have : ∀ l : List AEv, AEv.error c ∈ l ↔ AEv.error c ∈ l.filter (evLife c) := fun l => by simp [List.mem_filter, evLife]
  rw [this, h.log, ← this]

theorem Quiet.closed {v v' : Asv} (h : Quiet c v v') : AEv.closed c ∈ v'.log ↔ AEv.closed c ∈ v.log := by
  have : ∀ l : List AEv, AEv.closed c ∈ l ↔ AEv.closed c ∈ l.filter (evLife c) := fun l => by simp [List.mem_filter, evLife]
  rw [this, h.log, ← this]

theorem Quiet.emit (v : Asv) {e : AEv} (h : evLife c e = false) : Quiet c v (v.emit e) :=
  ⟨rfl, rfl, rfl, by simp [Asv.emit, h], id⟩

theorem Quiet.post (v : Asv) {t : ATask} (h : isReadOf c t = false) (h' : t ≠ .accepted c true) : Quiet c v (v.post t) := by
  refine ⟨rfl, rfl, ?_, rfl, fun hx => ?_⟩
  · simp [Asv.rd, Asv.post, h]
  · rcases List.mem_append.1 hx with hx | hx
    · exact hx
    · exact absurd (List.mem_singleton.1 hx).symm h'

theorem Quiet.fly (v : Asv) {o : AOp} (h : o ≠ .read c) : Quiet c v { v with flying := v.flying ++ [o] } := by
  refine ⟨rfl, rfl, ?_, rfl, id⟩
  simp [Asv.rd, List.count_append, h]

theorem Quiet.setConn (v : Asv) (h : c ≠ d) (x : AConn) : Quiet c v (v.setConn d x) :=
  ⟨by simp [Asv.setConn, h], by simp [Asv.setConn, h], rfl, rfl, id⟩

theorem Quiet.setBuf (v : Asv) (d : Nat) (b : Option (Nat × List UInt8)) : Quiet c v (v.setConn d { v.conns d with wbuf := b }) := by
  refine ⟨?_, ?_, rfl, rfl, id⟩
  all_goals
    simp only [Asv.setConn]
    split
    · rename_i h; rw [h]
    · rfl

theorem abort_rd (v : Asv) (p : AOp → Bool) : (v.abort p).rd c = v.rd c := by
  have ha : ∀ l : List AOp, ((l.filter p).map aborted).countP (isReadOf c) + (l.filter fun o => !p o).count (.read c) = l.count (.read c) := by
    intro l
    induction l with
    | nil => rfl
    | cons o l ih =>
      have ho : isReadOf c (aborted o) = (o == AOp.read c) := by
        cases o
        · rfl
        · rename_i x
          show decide (x = c) = (AOp.read x == AOp.read c)
          by_cases hx : x = c
          · subst hx; simp
          · simp [hx]
        · rfl
      rw [List.filter_cons, List.filter_cons, List.count_cons]
      cases hp : p o with
      | true => simp only [if_true, List.map_cons, List.countP_cons, ho, Bool.not_true, Bool.false_eq_true, if_false]; omega
      | false => simp only [Bool.false_eq_true, if_false, Bool.not_false, if_true, List.count_cons]; omega
  simp only [Asv.rd, Asv.abort, List.countP_append]
  have := ha v.flying
  omega

theorem Quiet.abort (v : Asv) (p : AOp → Bool) : Quiet c v (v.abort p) := by
  refine ⟨rfl, rfl, abort_rd v p, rfl, fun hx => ?_⟩
  rcases List.mem_append.1 hx with hx | hx
  · exact hx
  · obtain ⟨o, -, ho⟩ := List.mem_map.1 hx
    cases o <;> cases ho

theorem Quiet.remove (v : Asv) (d : Nat) : Quiet c v (v.removeConnection d) := by
  unfold removeConnection
  split
  · have := (Quiet.post (c := c) v (t := .close d) rfl (by simp)).trans (Quiet.emit _ (e := .left d) rfl)
    exact ⟨this.isOpen, this.connected, this.rd, this.log, this.acc⟩
  · exact .refl v

theorem Quiet.fail (v : Asv) (h : c ≠ d) : Quiet c v (v.fail d) :=
  ((Quiet.post v (t := .close d) rfl (by simp)).trans (Quiet.emit _ (e := .error d) (by simpa [evLife] using h.symm))).trans (Quiet.remove _ d)

theorem Quiet.runClose (v : Asv) (h : c ≠ d) : Quiet c v (v.runClose d) := by
  unfold Asv.runClose
  dsimp only
  split
  · exact ((Quiet.setConn v h _).trans ((Quiet.abort _ _).trans (Quiet.emit _ (e := .closed d) (by simpa [evLife] using h.symm)))).trans (Quiet.remove _ d)
  · exact Quiet.setConn v h _

theorem Quiet.sendBuffer (v : Asv) (d : Nat) : Quiet c v (v.sendBuffer d) := by
  unfold Asv.sendBuffer
  split
  · exact .refl v
  · split
    · dsimp only
      split
      · exact (Quiet.emit v (e := .submit d _) rfl).trans (Quiet.fly _ (by simp))
      · exact (Quiet.emit v (e := .submit d _) rfl).trans (Quiet.post _ rfl (by simp))
    · exact .refl v

theorem Quiet.send (v : Asv) (d : Nat) (data : List UInt8) : Quiet c v (v.send d data) := by
  unfold Asv.send
  refine Quiet.trans ?_ (Quiet.sendBuffer _ d)
  have h1 : Quiet c v { v.emit (.asked d data) with nextBuf := v.nextBuf + 1 } := by
    have := Quiet.emit (c := c) v (e := .asked d data) rfl
    exact ⟨this.isOpen, this.connected, this.rd, this.log, this.acc⟩
  exact h1.trans (Quiet.setBuf _ d _)

theorem Quiet.sendAll (v : Asv) (d : Nat) (ds : List (List UInt8)) : Quiet c v (v.sendAll d ds) := by
  induction ds generalizing v with
  | nil => exact .refl v
  | cons x ds ih => exact (Quiet.send v d x).trans (ih _)

theorem Quiet.beginRead (v : Asv) (h : c ≠ d) : Quiet c v (v.beginRead d) := by
  unfold Asv.beginRead
  split
  · split
    · exact Quiet.fly _ (by simpa using h.symm)
    · exact Quiet.post _ (by simpa [isReadOf] using h.symm) (by simp)
  · exact .refl v

theorem Quiet.startAccept (v : Asv) : Quiet c v v.startAccept := by
  unfold Asv.startAccept
  split
  · exact .refl v
  · exact Quiet.post v rfl (by simp)

theorem Quiet.runStartAccept (v : Asv) : Quiet c v v.runStartAccept := by
  unfold Asv.runStartAccept
  split
  · exact .refl v
  · have := Quiet.fly (c := c) v (o := .accept v.nextConn) (by simp)
    exact ⟨this.isOpen, this.connected, this.rd, this.log, this.acc⟩

theorem Quiet.runShutdown (v : Asv) : Quiet c v v.runShutdown := by
  have h1 : Quiet c v ({ v with isShutdown := true }.abort isAccept) :=
    Quiet.trans (v := { v with isShutdown := true }) ⟨rfl, rfl, rfl, rfl, id⟩ (Quiet.abort _ _)
  refine h1.trans ?_
  unfold Asv.runShutdown
  dsimp only
  refine ⟨rfl, rfl, ?_, ?_, fun hx => ?_⟩
  · simp only [Asv.rd, List.countP_append]
    have : ∀ l : List Nat, (l.map ATask.close).countP (isReadOf c) = 0 := fun l => by
      simp [List.countP_eq_zero, isReadOf]
    rw [this]; rfl
  · rw [List.filter_append]
    have : ∀ l : List Nat, (l.map AEv.left).filter (evLife c) = [] := fun l => by
      rw [List.filter_eq_nil_iff]; intro e he; obtain ⟨x, -, rfl⟩ := List.mem_map.1 he; simp [evLife]
    rw [this, List.append_nil]
  · rcases List.mem_append.1 hx with hx | hx
    · exact hx
    · obtain ⟨o, -, ho⟩ := List.mem_map.1 hx; cases ho

/-- `c` is being read as long as it is open. -/
structure Heard (v : Asv) (c : Nat) : Prop where
  one : v.rd c ≤ 1
  acc : ATask.accepted c true ∈ v.queue → (v.conns c).isOpen = true ∨ AEv.closed c ∈ v.log
  live : AEv.joined c ∈ v.log → AEv.error c ∉ v.log → AEv.closed c ∉ v.log →
    (v.conns c).connected = true ∧ (v.conns c).isOpen = true ∧ v.rd c = 1

theorem Heard.quiet {v v' : Asv} (h : Heard v c) (q : Quiet c v v') : Heard v' c := by
  refine ⟨by rw [q.rd]; exact h.one, fun ha => ?_, fun hj he hc => ?_⟩
  · rw [q.isOpen, q.closed]; exact h.acc (q.acc ha)
  · rw [q.isOpen, q.connected, q.rd]
    exact h.live (q.joined.1 hj) (fun x => he (q.error.2 x)) (fun x => hc (q.closed.2 x))

theorem rd_eraseQueue {v : Asv} {k : Nat} {t : ATask} (hk : v.queue[k]? = some t) :
    Asv.rd { v with queue := v.queue.eraseIdx k } c + (if isReadOf c t then 1 else 0) = v.rd c := by
  have := Tcp.countP_eraseIdx (isReadOf c) hk
  simp only [rd]
  split <;> simp_all
  omega

theorem rd_eraseFlying {v : Asv} {i : Nat} {o : AOp} (hi : v.flying[i]? = some o) :
    Asv.rd { v with flying := v.flying.eraseIdx i } c + (if o = .read c then 1 else 0) = v.rd c := by
  have := Tcp.countP_eraseIdx (fun x => x == AOp.read c) hi
  simp only [rd, List.count]
  split <;> simp_all
  omega

theorem Quiet.eraseQueue (v : Asv) {k : Nat} {t : ATask} (hk : v.queue[k]? = some t) (h : isReadOf c t = false) :
    Quiet c v { v with queue := v.queue.eraseIdx k } := by
  refine ⟨rfl, rfl, ?_, rfl, fun hx => List.mem_of_mem_eraseIdx hx⟩
  have := rd_eraseQueue (c := c) hk
  rw [h] at this
  simpa using this

theorem Quiet.eraseFlying (v : Asv) {i : Nat} {o : AOp} (hk : v.flying[i]? = some o) (h : o ≠ .read c) :
    Quiet c v { v with flying := v.flying.eraseIdx i } := by
  refine ⟨rfl, rfl, ?_, rfl, id⟩
  have := rd_eraseFlying (c := c) hk
  rw [if_neg h] at this
  simpa using this

/-- Nobody reads a connection whose accept has not been dealt with. -/
theorem rd_zero {v : Asv} (h : Inv v) (ht : v.tok c ≠ 0) : v.rd c = 0 := by
  simp only [rd, Nat.add_eq_zero_iff, List.count_eq_zero, List.countP_eq_zero]
  refine ⟨fun hx => ht (h.flive _ hx c rfl).2, fun t hx hr => ?_⟩
  cases t <;> simp [isReadOf] at hr
  subst hr
  exact ht (h.qlive _ hx _ rfl).2

theorem beginRead_self (v : Asv) : (v.beginRead c).conns = v.conns ∧ (v.beginRead c).log = v.log ∧ (v.beginRead c).rd c = v.rd c + (if (v.conns c).connected then 1 else 0) ∧
    (ATask.accepted c true ∈ (v.beginRead c).queue → ATask.accepted c true ∈ v.queue) := by
  unfold Asv.beginRead
  split
  · split
    · refine ⟨rfl, rfl, ?_, id⟩
      simp [rd, List.count_append]; omega
    · refine ⟨rfl, rfl, ?_, fun hx => ?_⟩
      · simp [rd, Asv.post, isReadOf]; omega
      · rcases List.mem_append.1 hx with hx | hx
        · exact hx
        · cases List.mem_singleton.1 hx
  · exact ⟨rfl, rfl, by simp, id⟩

/-- After an error nothing more is promised. -/
theorem Heard.fail {v : Asv} (h1 : v.rd c ≤ 1) (ha : ATask.accepted c true ∈ v.queue → (v.conns c).isOpen = true ∨ AEv.closed c ∈ v.log) : Heard (v.fail c) c := by
  have hp : Heard ((v.post (.close c)).emit (.error c)) c := by
    refine ⟨?_, fun hx => ?_, fun _ he _ => absurd (by simp [Asv.emit]) he⟩
    · have : Asv.rd ((v.post (.close c)).emit (.error c)) c = v.rd c := by simp [rd, Asv.emit, Asv.post, isReadOf]
      rw [this]; exact h1
    · have : ATask.accepted c true ∈ v.queue := by simpa [Asv.emit, Asv.post] using hx
      rcases ha this with h | h
      · exact Or.inl h
      · exact Or.inr (by simp [Asv.emit, Asv.post, h])
  exact hp.quiet (Quiet.remove _ c)

theorem Heard.onAccepted {v v' : Asv} {ok : Bool} (hi : v.rd d = 0) (ho : ok = true → (v.conns d).isOpen = true ∨ AEv.closed d ∈ v.log)
    (h : Heard v c) (hs : v.onAccepted d ok = .ret v') : Heard v' c := by
  unfold Asv.onAccepted at hs
  split at hs
  · injection hs with hs; subst hs; exact h
  · split at hs
    · rename_i hok
      have key : ∀ u : Asv, Quiet c { v.emit (.joined d) with num := v.num + 1 } u → Heard (u.startConn d).startAccept c := by
        intro u q
        refine Heard.quiet ?_ (Quiet.startAccept _)
        by_cases hcd : c = d
        · subst hcd
          unfold Asv.startConn
          have q2 := Quiet.sendBuffer (c := c) (u.setConn c { u.conns c with connected := true }) c
          obtain ⟨b1, b2, b3, b4⟩ := beginRead_self (c := c) ((u.setConn c { u.conns c with connected := true }).sendBuffer c)
          have hcl : ∀ {l : List AEv}, (AEv.closed c ∈ (v.log ++ [.joined c]) ↔ AEv.closed c ∈ v.log) := by simp
          have hlog : AEv.closed c ∈ ((u.setConn c { u.conns c with connected := true }).sendBuffer c).log ↔ AEv.closed c ∈ v.log := by
            rw [q2.closed]
            show AEv.closed c ∈ u.log ↔ _
            rw [q.closed]; simp [Asv.emit]
          have hcon : (((u.setConn c { u.conns c with connected := true }).sendBuffer c).conns c).connected = true := by
            rw [q2.connected]; simp [Asv.setConn]
          have hopn : (((u.setConn c { u.conns c with connected := true }).sendBuffer c).conns c).isOpen = (v.conns c).isOpen := by
            rw [q2.isOpen]
            have : ((u.setConn c { u.conns c with connected := true }).conns c).isOpen = (u.conns c).isOpen := by simp [Asv.setConn]
            rw [this, q.isOpen]; rfl
          have hrd : ((u.setConn c { u.conns c with connected := true }).sendBuffer c).rd c = 0 := by
            rw [q2.rd]
            show u.rd c = 0
            rw [q.rd]; exact hi
          rw [hrd, hcon] at b3
          refine ⟨by rw [b3]; simp, fun _ => ?_, fun _ _ hc => ?_⟩
          · rw [b1, b2, hopn, hlog]; exact ho hok
          · rw [b1, b3, hcon, hopn]
            refine ⟨rfl, ?_, by simp⟩
            rw [b2, hlog] at hc
            exact (ho hok).resolve_right hc
        · have h0 : Heard { v.emit (.joined d) with num := v.num + 1 } c := by
            have q0 := Quiet.emit (c := c) v (e := .joined d) (by simpa [evLife] using Ne.symm hcd)
            exact h.quiet ⟨q0.isOpen, q0.connected, q0.rd, q0.log, q0.acc⟩
          have h1 := h0.quiet q
          exact h1.quiet (((Quiet.setConn u hcd _).trans (Quiet.sendBuffer _ d)).trans (Quiet.beginRead _ hcd))
      dsimp only at hs
      split at hs
      · split at hs
        · cases hs
        · injection hs with hs; subst hs
          exact key _ (Quiet.remove _ _)
      · injection hs with hs; subst hs
        exact key _ (.refl _)
    · injection hs with hs; subst hs
      exact h.quiet (Quiet.remove _ _)

theorem Heard.step {v v' : Asv} {op : Op} (hv : Inv v) (h : ∀ c, Heard v c) (hs : v.step op = .ret v') (c : Nat) : Heard v' c := by
  cases op with
  | start =>
    injection hs with hs; subst hs
    have := Quiet.startAccept (c := c) v
    exact (h c).quiet ⟨this.isOpen, this.connected, this.rd, this.log, this.acc⟩
  | shutdown => injection hs with hs; subst hs; exact (h c).quiet (Quiet.post v rfl (by simp))
  | complete i r =>
    simp only [Asv.step, Asv.complete] at hs
    split at hs
    · injection hs with hs; subst hs; exact h c
    · rename_i d ho
      have q := Quiet.eraseFlying (c := c) v ho (by simp)
      split at hs
      · injection hs with hs; subst hs
        by_cases hcd : c = d
        · subst hcd
          have hz : v.rd c = 0 := rd_zero hv (by
            have : 0 < v.flying.countP (tokOp c) := List.countP_pos_iff.2 ⟨_, List.mem_of_getElem? ho, by simp [tokOp]⟩
            simp only [tok]; omega)
          have hcl := (hv.unopened c (List.mem_of_getElem? ho))
          have hr : ({ v with flying := v.flying.eraseIdx i }.setConn c { v.conns c with isOpen := true } |>.post (.accepted c true)).rd c = 0 := by
            have e : ({ v with flying := v.flying.eraseIdx i }.setConn c { v.conns c with isOpen := true } |>.post (.accepted c true)).rd c = Asv.rd { v with flying := v.flying.eraseIdx i } c := by
              simp [rd, Asv.post, Asv.setConn, isReadOf]
            rw [e, q.rd, hz]
          refine ⟨by rw [hr]; omega, fun _ => Or.inl (by simp [Asv.post, Asv.setConn]), fun hj he hc => ?_⟩
          have := ((h c).live hj he hc).2.2
          omega
        · exact ((h c).quiet q).quiet ((Quiet.setConn _ hcd _).trans (Quiet.post _ rfl (by simpa using Ne.symm hcd)))
      · injection hs with hs; subst hs
        exact ((h c).quiet q).quiet (Quiet.post _ rfl (by simp))
      · injection hs with hs; subst hs; exact h c
    · rename_i d ho
      have key : ∀ r', Heard (Asv.post { v with flying := v.flying.eraseIdx i } (.read d r')) c := by
        intro r'
        by_cases hcd : c = d
        · subst hcd
          have := rd_eraseFlying (c := c) ho
          have e : Asv.rd (Asv.post { v with flying := v.flying.eraseIdx i } (.read c r')) c = v.rd c := by
            rw [← this]; simp [rd, Asv.post, isReadOf]; omega
          refine ⟨by rw [e]; exact (h c).one, fun hx => (h c).acc ?_, fun hj he hc => ?_⟩
          · simpa [Asv.post] using hx
          · rw [e]; exact (h c).live hj he hc
        · exact ((h c).quiet (Quiet.eraseFlying v ho (by simpa using Ne.symm hcd))).quiet (Quiet.post _ (by simpa [isReadOf] using Ne.symm hcd) (by simp))
      split at hs
      · split at hs
        · injection hs with hs; subst hs; exact key _
        · injection hs with hs; subst hs; exact h c
      · injection hs with hs; subst hs; exact key _
      · injection hs with hs; subst hs; exact h c
    · rename_i d b data ho
      have q := Quiet.eraseFlying (c := c) v ho (by simp)
      split at hs
      · split at hs
        · split at hs
          · injection hs with hs; subst hs
            exact ((h c).quiet q).quiet ((Quiet.emit _ rfl).trans (Quiet.post _ rfl (by simp)))
          · cases hs
        · injection hs with hs; subst hs; exact h c
      · injection hs with hs; subst hs
        exact ((h c).quiet q).quiet (Quiet.post _ rfl (by simp))
      · injection hs with hs; subst hs; exact h c
  | run k rs =>
    simp only [Asv.step] at hs
    split at hs
    · injection hs with hs; subst hs; exact h c
    · rename_i t hk
      have hmem := List.mem_of_getElem? hk
      cases t with
      | startAccept => injection hs with hs; subst hs; exact ((h c).quiet (Quiet.eraseQueue v hk rfl)).quiet (Quiet.runStartAccept _)
      | shutdown => injection hs with hs; subst hs; exact ((h c).quiet (Quiet.eraseQueue v hk rfl)).quiet (Quiet.runShutdown _)
      | close d =>
        injection hs with hs; subst hs
        have h1 := (h c).quiet (Quiet.eraseQueue v hk rfl)
        by_cases hcd : c = d
        · subst hcd
          unfold Asv.runClose
          dsimp only
          split
          · refine Heard.quiet ?_ (Quiet.remove _ c)
            refine ⟨?_, fun _ => Or.inr (by simp [Asv.emit]), fun _ _ hc => absurd (by simp [Asv.emit]) hc⟩
            have := abort_rd (c := c) ({ v with queue := v.queue.eraseIdx k }.setConn c { v.conns c with connected := false, isOpen := false }) (onSocket c)
            have e : Asv.rd ((({ v with queue := v.queue.eraseIdx k }.setConn c { v.conns c with connected := false, isOpen := false }).abort (onSocket c)).emit (.closed c)) c =
                Asv.rd { v with queue := v.queue.eraseIdx k } c := this
            rw [e]; exact h1.one
          · rename_i hno
            refine ⟨h1.one, fun hx => ?_, fun hj he hc => ?_⟩
            · have := h1.acc hx
              simpa [Asv.setConn] using this
            · exact absurd (h1.live hj he hc).2.1 hno
        · exact h1.quiet (Quiet.runClose _ hcd)
      | accepted d ok =>
        have h1 := (h c).quiet (Quiet.eraseQueue v hk rfl)
        have hz : v.rd d = 0 := rd_zero hv (by
          have : 0 < v.queue.countP (tokTask d) := List.countP_pos_iff.2 ⟨_, hmem, by simp [tokTask]⟩
          simp only [tok]; omega)
        refine Heard.onAccepted (v := { v with queue := v.queue.eraseIdx k }) (d := d) (ok := ok) ?_ ?_ h1 hs
        · rw [(Quiet.eraseQueue (c := d) v hk rfl).rd, hz]
        · rintro rfl; exact (h d).acc hmem
      | read d r =>
        injection hs with hs; subst hs
        by_cases hcd : c = d
        · subst hcd
          have e := rd_eraseQueue (c := c) hk
          have hr : (if isReadOf c (.read c r) then 1 else 0) = 1 := by simp [isReadOf]
          rw [hr] at e
          have hone := (h c).one
          have hz : Asv.rd { v with queue := v.queue.eraseIdx k } c = 0 := by omega
          have hacc : ATask.accepted c true ∈ v.queue.eraseIdx k → (v.conns c).isOpen = true ∨ AEv.closed c ∈ v.log := fun hx => (h c).acc (List.mem_of_mem_eraseIdx hx)
          cases r with
          | none => exact Heard.fail (by rw [hz]; omega) hacc
          | some bytes =>
            have q := (Quiet.emit (c := c) { v with queue := v.queue.eraseIdx k } (e := .receive c bytes) rfl).trans (Quiet.sendAll _ c rs)
            obtain ⟨b1, b2, b3, b4⟩ := beginRead_self (c := c) ((Asv.emit { v with queue := v.queue.eraseIdx k } (.receive c bytes)).sendAll c rs)
            show Heard (((Asv.emit { v with queue := v.queue.eraseIdx k } (.receive c bytes)).sendAll c rs).beginRead c) c
            rw [q.rd, hz, q.connected] at b3
            refine ⟨?_, fun hx => ?_, fun hj he hc => ?_⟩
            · rw [b3]; split <;> omega
            · rw [b1, b2, q.isOpen, q.closed]; exact hacc (q.acc (b4 hx))
            · rw [b2] at hj he hc
              obtain ⟨l1, l2, l3⟩ := (h c).live (q.joined.1 hj) (fun x => he (q.error.2 x)) (fun x => hc (q.closed.2 x))
              rw [b1, q.connected, q.isOpen, b3]
              refine ⟨l1, l2, ?_⟩
              have : (Asv.conns { v with queue := v.queue.eraseIdx k } c).connected = true := l1
              rw [this]; rfl
        · have h1 := (h c).quiet (Quiet.eraseQueue v hk (by simpa [isReadOf] using Ne.symm hcd))
          cases r with
          | none => exact h1.quiet (Quiet.fail _ hcd)
          | some bytes => exact h1.quiet (((Quiet.emit _ (e := .receive d bytes) rfl).trans (Quiet.sendAll _ d rs)).trans (Quiet.beginRead _ hcd))
      | written d ok =>
        injection hs with hs; subst hs
        have h1 := (h c).quiet (Quiet.eraseQueue v hk rfl)
        unfold Asv.onWritten
        split
        · exact h1.quiet ((Quiet.setBuf _ d none).trans (Quiet.emit _ rfl))
        · by_cases hcd : c = d
          · subst hcd; exact Heard.fail h1.one h1.acc
          · exact h1.quiet (Quiet.fail _ hcd)

theorem _root_.Modbus.Spec.AsvReach.heard {max : UInt32} {P : Asv → Op → Prop} {v : Asv} (h : AsvReach max P v) : ∀ c, Heard v c := by
  induction h with
  | init => intro c; constructor <;> simp [Asv.init, rd]
  | step hr _ hs ih => exact Heard.step hr.inv ih hs

end Modbus.Asv
