import Verif.Lemmas.AsioHeard
import Verif.Lemmas.AsioSilent
import Verif.Lemmas.AsioDown
import Verif.Spec.ServerStackThrowing

/-!
Helper lemmas: a listening server whose listeners throw is an ordinary one with reads that never complete.
-/

namespace Modbus.Asv

open Spec

/-! ### Started connections are open, or have been closed -/

/-- No connection is started or opened, and no flag that matters here gets lost. -/
structure Calmer (v v' : Asv) : Prop where
  con : ∀ c, (v'.conns c).connected = true → (v.conns c).connected = true
  opn : ∀ c, (v'.conns c).isOpen = (v.conns c).isOpen
  log : ∀ e, e ∈ v.log → e ∈ v'.log

theorem Calmer.refl (v : Asv) : Calmer v v := ⟨fun _ h => h, fun _ => rfl, fun _ h => h⟩

theorem Calmer.trans {u v w : Asv} (h : Calmer u v) (h' : Calmer v w) : Calmer u w :=
  ⟨fun c x => h.con c (h'.con c x), fun c => (h'.opn c).trans (h.opn c), fun e x => h'.log e (h.log e x)⟩

/-- The part of the state that matters. -/
theorem Calmer.of {v v' : Asv} (h : v'.conns = v.conns) (hl : ∃ es, v'.log = v.log ++ es) : Calmer v v' := by
  obtain ⟨es, hl⟩ := hl
  exact ⟨fun c x => by rw [h] at x; exact x, fun c => by rw [h], fun e x => by rw [hl]; exact List.mem_append_left _ x⟩

theorem Calmer.remove (v : Asv) (c : Nat) : Calmer v (v.removeConnection c) := by
  unfold removeConnection
  split
  · exact .of rfl ⟨_, rfl⟩
  · exact .refl v

theorem Calmer.fail (v : Asv) (c : Nat) : Calmer v (v.fail c) := by
  refine Calmer.trans (v := (v.post (.close c)).emit (.error c)) ?_ (.remove _ c)
  exact .of rfl ⟨_, rfl⟩

theorem Calmer.sendBuffer (v : Asv) (c : Nat) : Calmer v (v.sendBuffer c) := by
  unfold Asv.sendBuffer
  split
  · exact .refl v
  · split
    · dsimp only
      split
      · exact .of rfl ⟨_, rfl⟩
      · exact .of rfl ⟨_, rfl⟩
    · exact .refl v

theorem Calmer.setConn (v : Asv) (c : Nat) {x : AConn} (h1 : x.connected = true → (v.conns c).connected = true) (h2 : x.isOpen = (v.conns c).isOpen) :
    Calmer v (v.setConn c x) := by
  refine ⟨fun d hd => ?_, fun d => ?_, fun _ h => h⟩
  · by_cases hdc : d = c
    · subst hdc; exact h1 (by simpa [Asv.setConn] using hd)
    · simpa [Asv.setConn, hdc] using hd
  · by_cases hdc : d = c
    · subst hdc; simpa [Asv.setConn] using h2
    · simp [Asv.setConn, hdc]

theorem Calmer.send (v : Asv) (c : Nat) (d : List UInt8) : Calmer v (v.send c d) := by
  unfold Asv.send
  refine Calmer.trans ?_ (.sendBuffer _ c)
  refine Calmer.trans (v := { v.emit (.asked c d) with nextBuf := v.nextBuf + 1 }) (.of rfl ⟨_, rfl⟩) ?_
  exact .setConn _ c (fun h => h) rfl

theorem Calmer.sendAll (v : Asv) (c : Nat) (ds : List (List UInt8)) : Calmer v (v.sendAll c ds) := by
  induction ds generalizing v with
  | nil => exact .refl v
  | cons d ds ih => exact (Calmer.send v c d).trans (ih _)

theorem Calmer.beginRead (v : Asv) (c : Nat) : Calmer v (v.beginRead c) := by
  unfold Asv.beginRead
  split
  · split
    · exact .of rfl ⟨[], by simp⟩
    · exact .of rfl ⟨[], by simp [Asv.post]⟩
  · exact .refl v

theorem Calmer.startAccept (v : Asv) : Calmer v v.startAccept := by
  unfold Asv.startAccept
  split
  · exact .refl v
  · exact .of rfl ⟨[], by simp [Asv.post]⟩

/-- A started connection is open, or its socket has been closed. -/
def Opn (v : Asv) : Prop := ∀ c, (v.conns c).connected = true → (v.conns c).isOpen = true ∨ AEv.closed c ∈ v.log

theorem Opn.calmer {v v' : Asv} (h : Opn v) (q : Calmer v v') : Opn v' := by
  intro c hc
  rw [q.opn c]
  exact (h c (q.con c hc)).imp id (q.log _)

theorem Opn.startConn {v : Asv} (h : Opn v) {c : Nat} (ho : (v.conns c).isOpen = true ∨ AEv.closed c ∈ v.log) : Opn (v.startConn c) := by
  refine Opn.calmer (v := v.setConn c { v.conns c with connected := true }) ?_ ((Calmer.sendBuffer _ c).trans (.beginRead _ c))
  intro d hd
  by_cases hdc : d = c
  · subst hdc; simpa [Asv.setConn] using ho
  · simpa [Asv.setConn, hdc] using h d (by simpa [Asv.setConn, hdc] using hd)

theorem Opn.step {v v' : Asv} (h : Opn v) (hh : ∀ c, Heard v c) {op : Op} (hs : v.step op = .ret v') : Opn v' := by
  cases op with
  | start => injection hs with hs; subst hs; exact h.calmer ((Calmer.startAccept v).trans (.of rfl ⟨[], by simp⟩))
  | shutdown => injection hs with hs; subst hs; exact h.calmer (.of rfl ⟨[], by simp [Asv.post]⟩)
  | complete i r =>
    simp only [Asv.step, Asv.complete] at hs
    repeat' split at hs
    all_goals first
      | cases hs; done
      | (injection hs with hs; subst hs)
    all_goals first
      | exact h
      | exact h.calmer (.of rfl ⟨_, rfl⟩)
      | exact h.calmer (.of rfl ⟨[], by simp [Asv.post]⟩)
      | skip
    rename_i c _ _
    intro d hd
    by_cases hdc : d = c
    · subst hdc; exact Or.inl (by simp [Asv.setConn, Asv.post])
    · simpa [Asv.setConn, Asv.post, hdc] using h d (by simpa [Asv.setConn, Asv.post, hdc] using hd)
  | run k rs =>
    simp only [Asv.step] at hs
    split at hs
    · injection hs with hs; subst hs; exact h
    · rename_i t hk
      have h0 : Opn { v with queue := v.queue.eraseIdx k } := h
      cases t with
      | startAccept =>
        injection hs with hs; subst hs
        refine h0.calmer ?_
        unfold Asv.runStartAccept
        split
        · exact .refl _
        · exact .of rfl ⟨[], by simp⟩
      | shutdown => injection hs with hs; subst hs; exact h0.calmer (.of rfl ⟨_, rfl⟩)
      | close c =>
        injection hs with hs; subst hs
        unfold Asv.runClose
        dsimp only
        split
        · refine Opn.calmer ?_ (.remove _ c)
          intro d hd
          by_cases hdc : d = c
          · subst hdc; exact Or.inr (by simp [Asv.emit])
          · have hd' : (v.conns d).connected = true := by simpa [Asv.setConn, Asv.emit, Asv.abort, hdc] using hd
            have := h d hd'
            simp [Asv.setConn, Asv.emit, Asv.abort, hdc]
            exact this
        · exact h0.calmer (.setConn _ c (fun hx => by cases hx) rfl)
      | accepted c ok =>
        simp only [Asv.runTask, Asv.onAccepted] at hs
        have ho : ok = true → (v.conns c).isOpen = true ∨ AEv.closed c ∈ v.log := by
          rintro rfl; exact (hh c).acc (List.mem_of_getElem? hk)
        have key : ∀ u : Asv, Calmer v u → ok = true → Opn ((u.startConn c).startAccept) := by
          intro u q hok
          refine Opn.calmer ?_ (.startAccept _)
          refine (h.calmer q).startConn ?_
          rw [q.opn c]
          exact (ho hok).imp id (q.log _)
        split at hs
        · injection hs with hs; subst hs; exact h0
        · split at hs
          · rename_i hok
            split at hs
            · split at hs
              · cases hs
              · injection hs with hs; subst hs
                exact key _ (Calmer.trans (v := { ({ v with queue := v.queue.eraseIdx k } : Asv).emit (.joined c) with num := v.num + 1 }) (.of rfl ⟨_, rfl⟩) (.remove _ _)) hok
            · injection hs with hs; subst hs
              exact key _ (.of rfl ⟨_, rfl⟩) hok
          · injection hs with hs; subst hs
            exact h0.calmer (.remove _ _)
      | read c r =>
        injection hs with hs; subst hs
        cases r with
        | none => exact h0.calmer (.fail _ c)
        | some bytes =>
          refine h0.calmer ?_
          exact (Calmer.trans (u := { v with queue := v.queue.eraseIdx k }) (v := ({ v with queue := v.queue.eraseIdx k } : Asv).emit (.receive c bytes)) (.of rfl ⟨_, rfl⟩) (.sendAll _ c rs)).trans (.beginRead _ c)
      | written c ok =>
        injection hs with hs; subst hs
        unfold Asv.onWritten
        split
        · exact h0.calmer ((Calmer.setConn { v with queue := v.queue.eraseIdx k } c (x := { v.conns c with wbuf := none }) (fun hx => hx) rfl).trans (.of rfl ⟨_, rfl⟩))
        · exact h0.calmer (.fail _ c)

theorem _root_.Modbus.Spec.AsvReach.opn {max : UInt32} {P : Asv → Op → Prop} {v : Asv} (h : AsvReach max P v) : Opn v := by
  induction h with
  | init => intro c hc; simp [Asv.init] at hc
  | step hr _ hs ih => exact ih.step (fun c => hr.heard c) hs

/-! ### Reads that never complete -/

/-- Is this an operation that is really in progress, if the connections in `G` are not read? -/
def keep (G : List Nat) : AOp → Bool
  | .read c => decide (c ∉ G)
  | _ => true

/-- Is this no error of a connection in `D`? -/
def noErr (D : List Nat) : AEv → Bool
  | .error c => decide (c ∉ D)
  | _ => true

/-- `v` is `t` with additional reads of the connections in `G`; their logs differ at most in errors of connections in `D`. -/
structure Gh (D G : List Nat) (t v : Asv) : Prop where
  frame : ∃ L, t = { v with flying := v.flying.filter (keep G), log := L }
  inn : ∀ c ∈ G, AOp.read c ∈ v.flying
  sub : t.log.Sublist v.log
  same : t.log.filter (noErr D) = v.log.filter (noErr D)

variable {D G : List Nat} {t v : Asv}

/-- Both do the same, and it does not concern operations in progress. -/
theorem Gh.both (h : Gh D G t v) {t' v' : Asv} (es : List AEv) (hf : t'.flying = t.flying) (hf' : v'.flying = v.flying) (hl : t'.log = t.log ++ es)
    (hl' : v'.log = v.log ++ es) (he : ∀ L, t = { v with flying := v.flying.filter (keep G), log := L } → t' = { v' with flying := v'.flying.filter (keep G), log := t'.log }) :
    Gh D G t' v' := by
  obtain ⟨L, hL⟩ := h.frame
  refine ⟨⟨_, he L hL⟩, fun c hc => by rw [hf']; exact h.inn c hc, ?_, ?_⟩
  · rw [hl, hl']; exact h.sub.append_right es
  · rw [hl, hl', List.filter_append, List.filter_append, h.same]

theorem Gh.emit (h : Gh D G t v) (e : AEv) : Gh D G (t.emit e) (v.emit e) :=
  h.both [e] rfl rfl rfl rfl (by rintro L rfl; rfl)

theorem Gh.post (h : Gh D G t v) (x : ATask) : Gh D G (t.post x) (v.post x) :=
  h.both [] rfl rfl (by simp [Asv.post]) (by simp [Asv.post]) (by rintro L rfl; rfl)

theorem Gh.conns (h : Gh D G t v) : t.conns = v.conns := by obtain ⟨L, rfl⟩ := h.frame; rfl
theorem Gh.list (h : Gh D G t v) : t.list = v.list := by obtain ⟨L, rfl⟩ := h.frame; rfl
theorem Gh.queue (h : Gh D G t v) : t.queue = v.queue := by obtain ⟨L, rfl⟩ := h.frame; rfl
theorem Gh.num (h : Gh D G t v) : t.num = v.num := by obtain ⟨L, rfl⟩ := h.frame; rfl
theorem Gh.maxi (h : Gh D G t v) : t.max = v.max := by obtain ⟨L, rfl⟩ := h.frame; rfl
theorem Gh.isShutdown (h : Gh D G t v) : t.isShutdown = v.isShutdown := by obtain ⟨L, rfl⟩ := h.frame; rfl
theorem Gh.starts (h : Gh D G t v) : t.starts = v.starts := by obtain ⟨L, rfl⟩ := h.frame; rfl
theorem Gh.nextConn (h : Gh D G t v) : t.nextConn = v.nextConn := by obtain ⟨L, rfl⟩ := h.frame; rfl
theorem Gh.nextBuf (h : Gh D G t v) : t.nextBuf = v.nextBuf := by obtain ⟨L, rfl⟩ := h.frame; rfl
theorem Gh.flying (h : Gh D G t v) : t.flying = v.flying.filter (keep G) := by obtain ⟨L, rfl⟩ := h.frame; rfl

theorem Gh.setConn (h : Gh D G t v) (c : Nat) (x : AConn) : Gh D G (t.setConn c x) (v.setConn c x) :=
  h.both [] rfl rfl (by simp [Asv.setConn]) (by simp [Asv.setConn]) (by rintro L rfl; rfl)

theorem Gh.setQueue (h : Gh D G t v) (q : List ATask) : Gh D G { t with queue := q } { v with queue := q } :=
  h.both [] rfl rfl (by simp) (by simp) (by rintro L rfl; rfl)

theorem Gh.setNum (h : Gh D G t v) (n : UInt32) : Gh D G { t with num := n } { v with num := n } :=
  h.both [] rfl rfl (by simp) (by simp) (by rintro L rfl; rfl)

theorem Gh.setStarts (h : Gh D G t v) (n : Nat) : Gh D G { t with starts := n } { v with starts := n } :=
  h.both [] rfl rfl (by simp) (by simp) (by rintro L rfl; rfl)

theorem Gh.setBuf (h : Gh D G t v) (n : Nat) : Gh D G { t with nextBuf := n } { v with nextBuf := n } :=
  h.both [] rfl rfl (by simp) (by simp) (by rintro L rfl; rfl)

theorem Gh.fly (h : Gh D G t v) {o : AOp} (ho : keep G o = true) : Gh D G { t with flying := t.flying ++ [o] } { v with flying := v.flying ++ [o] } := by
  obtain ⟨L, rfl⟩ := h.frame
  refine ⟨⟨L, ?_⟩, fun c hc => List.mem_append_left _ (h.inn c hc), h.sub, h.same⟩
  simp [List.filter_append, ho]

theorem Gh.remove (h : Gh D G t v) (c : Nat) : Gh D G (t.removeConnection c) (v.removeConnection c) := by
  unfold removeConnection
  rw [h.list]
  split
  · have := (h.post (.close c)).emit (.left c)
    refine this.both [] rfl rfl (by simp) (by simp) ?_
    obtain ⟨L, rfl⟩ := h.frame
    intro L' _
    rfl
  · exact h

theorem Gh.fail (h : Gh D G t v) (c : Nat) : Gh D G (t.fail c) (v.fail c) := ((h.post _).emit _).remove c

theorem Gh.sendBuffer (h : Gh D G t v) (c : Nat) : Gh D G (t.sendBuffer c) (v.sendBuffer c) := by
  obtain ⟨L, rfl⟩ := h.frame
  unfold Asv.sendBuffer
  dsimp only
  split
  · exact h
  · rename_i b data hw
    have h1 := h.emit (.submit c data)
    by_cases hc : (v.conns c).connected = true
    · simp only [hc, if_true]
      by_cases ho : (v.conns c).isOpen = true
      · simp only [Asv.emit, ho, if_true]
        exact h1.fly (o := .write c b data) rfl
      · simp only [Asv.emit, ho]
        exact h1.post _
    · simp only [hc]
      exact h

theorem Gh.send (h : Gh D G t v) (c : Nat) (d : List UInt8) : Gh D G (t.send c d) (v.send c d) := by
  unfold Asv.send
  rw [h.conns, h.nextBuf]
  exact (((h.emit _).setBuf _).setConn c _).sendBuffer c

theorem Gh.sendAll (h : Gh D G t v) (c : Nat) (ds : List (List UInt8)) : Gh D G (t.sendAll c ds) (v.sendAll c ds) := by
  induction ds generalizing t v with
  | nil => exact h
  | cons d ds ih => exact ih (h.send c d)

theorem Gh.beginRead (h : Gh D G t v) {c : Nat} (hc : c ∉ G) : Gh D G (t.beginRead c) (v.beginRead c) := by
  obtain ⟨L, rfl⟩ := h.frame
  unfold Asv.beginRead
  dsimp only
  split
  · split
    · exact h.fly (o := .read c) (by simpa [keep] using hc)
    · exact h.post _
  · exact h

theorem Gh.startAccept (h : Gh D G t v) : Gh D G t.startAccept v.startAccept := by
  unfold Asv.startAccept
  rw [h.isShutdown]
  split
  · exact h
  · exact h.post _

theorem Gh.startConn (h : Gh D G t v) {c : Nat} (hc : c ∉ G) : Gh D G (t.startConn c) (v.startConn c) := by
  unfold Asv.startConn
  rw [h.conns]
  exact ((h.setConn c _).sendBuffer c).beginRead hc

theorem Gh.runStartAccept (h : Gh D G t v) : Gh D G t.runStartAccept v.runStartAccept := by
  unfold Asv.runStartAccept
  rw [h.isShutdown]
  split
  · exact h
  · obtain ⟨L, rfl⟩ := h.frame
    refine ⟨⟨L, ?_⟩, fun c hc => List.mem_append_left _ (h.inn c hc), h.sub, h.same⟩
    simp only [List.filter_append]
    rfl

theorem filter_accept (G : List Nat) (l : List AOp) : (l.filter (keep G)).filter isAccept = l.filter isAccept := by
  rw [List.filter_filter]
  refine List.filter_congr fun o _ => ?_
  cases o <;> simp [isAccept, keep]

theorem filter_swap {α : Type} (p q : α → Bool) (l : List α) : (l.filter p).filter q = (l.filter q).filter p := by
  rw [List.filter_filter, List.filter_filter]
  refine List.filter_congr fun o _ => ?_
  rw [Bool.and_comm]

theorem Gh.runShutdown (h : Gh D G t v) : Gh D G t.runShutdown v.runShutdown := by
  have hf := h.flying
  have hl := h.list
  have hq := h.queue
  refine ⟨⟨t.log ++ t.list.map .left, ?_⟩, fun c hc => ?_, ?_, ?_⟩
  · obtain ⟨L, rfl⟩ := h.frame
    simp only [Asv.runShutdown, Asv.abort, filter_accept]
    rw [filter_swap]
  · exact List.mem_filter.2 ⟨h.inn c hc, rfl⟩
  · show (t.log ++ t.list.map AEv.left).Sublist (v.log ++ v.list.map AEv.left)
    rw [hl]; exact h.sub.append_right _
  · show (t.log ++ t.list.map AEv.left).filter (noErr D) = (v.log ++ v.list.map AEv.left).filter (noErr D)
    rw [hl, List.filter_append, List.filter_append, h.same]

/-- Two outcomes that correspond to each other. -/
def GhR (D G : List Nat) : CM Asv → CM Asv → Prop
  | .ub, .ub => True
  | .ret t, .ret v => Gh D G t v
  | _, _ => False

theorem Gh.onAccepted (h : Gh D G t v) {c : Nat} (hc : c ∉ G) (ok : Bool) : GhR D G (t.onAccepted c ok) (v.onAccepted c ok) := by
  obtain ⟨L, rfl⟩ := h.frame
  unfold Asv.onAccepted
  dsimp only
  split
  · exact h
  · split
    · have h1 := (h.emit (.joined c)).setNum (v.num + 1)
      by_cases hm : v.max < v.num + 1
      · simp only [Asv.emit, hm, if_true]
        cases hl : v.list with
        | nil => trivial
        | cons a l =>
          have h2 := ((h1.remove a).startConn hc).startAccept
          simp only [Asv.emit, hl] at h2
          exact h2
      · simp only [Asv.emit, hm, if_false]
        exact (h1.startConn hc).startAccept
    · exact h.remove c

theorem Gh.onRead (h : Gh D G t v) {c : Nat} (hc : c ∉ G) (r : Option (List UInt8)) (rs : List (List UInt8)) : Gh D G (t.onRead c r rs) (v.onRead c r rs) := by
  cases r with
  | none => exact h.fail c
  | some bytes => exact ((h.emit _).sendAll c rs).beginRead hc

theorem Gh.onWritten (h : Gh D G t v) (c : Nat) (ok : Bool) : Gh D G (t.onWritten c ok) (v.onWritten c ok) := by
  unfold Asv.onWritten
  split
  · rw [h.conns]; exact (h.setConn c _).emit _
  · exact h.fail c

/-- Connections that are not read have neither a read handler nor an accept in the queue. -/
theorem Gh.task (h : Gh D G t v) (hi : Inv v) (hh : ∀ c, Heard v c) {k : Nat} {x : ATask} (hk : t.queue[k]? = some x) {c : Nat}
    (hx : isReadOf c x = true ∨ tokTask c x = true) : c ∉ G := by
  intro hc
  have hf := h.inn c hc
  rw [h.queue] at hk
  have hm := List.mem_of_getElem? hk
  rcases hx with hx | hx
  · have h1 := (hh c).one
    have h2 : 0 < v.queue.countP (isReadOf c) := List.countP_pos_iff.2 ⟨_, hm, hx⟩
    have h3 : 0 < v.flying.count (.read c) := List.count_pos_iff.2 hf
    simp only [rd] at h1
    omega
  · have h1 := (hi.flive _ hf c rfl).2
    have h2 : 0 < v.queue.countP (tokTask c) := List.countP_pos_iff.2 ⟨_, hm, hx⟩
    simp only [tok] at h1
    omega

theorem Gh.runClose (h : Gh D G t v) {c : Nat} (hc : c ∉ G) : Gh D G (t.runClose c) (v.runClose c) := by
  unfold Asv.runClose
  rw [h.conns]
  dsimp only
  split
  · have h1 := h.setConn c { v.conns c with connected := false, isOpen := false }
    refine Gh.remove ?_ c
    refine Gh.emit ?_ _
    have e : ∀ l : List AOp, (l.filter (keep G)).filter (onSocket c) = l.filter (onSocket c) := by
      intro l
      rw [List.filter_filter]
      refine List.filter_congr fun o _ => ?_
      cases o with
      | accept x => rfl
      | read x =>
        by_cases hxc : x = c
        · subst hxc; simp [onSocket, keep, hc]
        · simp [onSocket, hxc]
      | write x b d => simp [keep]
    obtain ⟨L, rfl⟩ := h.frame
    refine ⟨⟨L, ?_⟩, fun d hd => ?_, h1.sub, h1.same⟩
    · simp only [Asv.abort, Asv.setConn, e]
      rw [filter_swap]
    · refine List.mem_filter.2 ⟨h1.inn d hd, ?_⟩
      have : d ≠ c := fun hdc => hc (hdc ▸ hd)
      simp [onSocket, this]
  · exact h.setConn c _

/-- Tasks other than closing a connection that is not read. -/
theorem Gh.run (h : Gh D G t v) (hi : Inv v) (hh : ∀ c, Heard v c) {k : Nat} {x : ATask} (hk : t.queue[k]? = some x) (hx : ∀ c ∈ G, x ≠ .close c) (rs : List (List UInt8)) :
    GhR D G (t.step (.run k rs)) (v.step (.run k rs)) := by
  have hk' : v.queue[k]? = some x := by rw [← h.queue]; exact hk
  simp only [Asv.step, hk, hk', h.queue]
  have h0 := h.setQueue (v.queue.eraseIdx k)
  cases x with
  | startAccept => exact h0.runStartAccept
  | shutdown => exact h0.runShutdown
  | close c =>
    have hc : c ∉ G := fun hm => hx c hm rfl
    exact h0.runClose hc
  | accepted c ok => exact h0.onAccepted (h.task hi hh hk (Or.inr (by simp [tokTask]))) ok
  | read c r => exact h0.onRead (h.task hi hh hk (Or.inl (by simp [isReadOf]))) r rs
  | written c ok => exact h0.onWritten c ok

theorem filter_index {α : Type} (p : α → Bool) : ∀ {l : List α} {i : Nat} {o : α}, (l.filter p)[i]? = some o →
    ∃ j, l[j]? = some o ∧ (l.eraseIdx j).filter p = (l.filter p).eraseIdx i := by
  intro l
  induction l with
  | nil => intro i o h; simp at h
  | cons a l ih =>
    intro i o h
    by_cases ha : p a = true
    · rw [List.filter_cons_of_pos ha] at h
      cases i with
      | zero =>
        refine ⟨0, by simpa using h, ?_⟩
        simp [ha]
      | succ i =>
        obtain ⟨j, hj, he⟩ := ih (by simpa using h)
        refine ⟨j + 1, by simpa using hj, ?_⟩
        simp [ha, he]
    · rw [List.filter_cons_of_neg ha] at h
      obtain ⟨j, hj, he⟩ := ih h
      refine ⟨j + 1, by simpa using hj, ?_⟩
      simp [ha, he]

theorem mem_eraseIdx_ne {α : Type} [DecidableEq α] {l : List α} {j : Nat} {o x : α} (hj : l[j]? = some o) (hx : x ∈ l) (hne : x ≠ o) : x ∈ l.eraseIdx j := by
  have h1 := Tcp.countP_eraseIdx (fun y => y == x) hj
  have h2 : 0 < l.countP (fun y => y == x) := List.countP_pos_iff.2 ⟨x, hx, by simp⟩
  have h3 : ¬((o == x) = true) := by simpa using fun h => hne h.symm
  rw [if_neg h3] at h1
  obtain ⟨y, hy, hyx⟩ := List.countP_pos_iff.1 (show 0 < (l.eraseIdx j).countP (fun y => y == x) by omega)
  rwa [beq_iff_eq.1 hyx] at hy

theorem Gh.complete (h : Gh D G t v) (i : Nat) (r : ARes) : ∃ j, t.flying[i]? = v.flying[j]? ∧ GhR D G (t.complete i r) (v.complete j r) := by
  cases ho : t.flying[i]? with
  | none =>
    refine ⟨v.flying.length, by simp, ?_⟩
    simp only [Asv.complete, ho]
    have : v.flying[v.flying.length]? = none := by simp
    rw [this]
    exact h
  | some o =>
    have ho' := ho
    rw [h.flying] at ho'
    obtain ⟨j, hj, he⟩ := filter_index (keep G) ho'
    refine ⟨j, hj.symm, ?_⟩
    have hk : keep G o = true := (List.mem_filter.1 (List.mem_of_getElem? ho')).2
    have h1 : Gh D G { t with flying := t.flying.eraseIdx i } { v with flying := v.flying.eraseIdx j } := by
      refine ⟨?_, fun c hc => mem_eraseIdx_ne hj (h.inn c hc) ?_, h.sub, h.same⟩
      · obtain ⟨L, rfl⟩ := h.frame
        exact ⟨L, by simp only [he]⟩
      · rintro rfl
        simp [keep, hc] at hk
    have hc := h.conns
    rw [hc] at h1
    simp only [Asv.complete, ho, hj, hc]
    cases o with
    | accept c => cases r <;> first | exact h | exact h1.post _ | exact (h1.setConn c _).post _
    | read c =>
      cases r with
      | data bs =>
        dsimp only
        split
        · exact h1.post _
        · exact h
      | _ => first | exact h | exact h1.post _
    | write c b d =>
      cases r with
      | sent n =>
        dsimp only
        split
        · split
          · exact (h1.emit _).post _
          · trivial
        · exact h
      | _ => first | exact h | exact h1.post _

/-- Restrictions on histories that do not depend on reads in progress and on what is run. -/
structure Portable (P : Asv → Op → Prop) : Prop where
  run : ∀ v k rs, P v (.run k rs)
  shutdown : ∀ v v', P v .shutdown → P v' .shutdown
  start : ∀ v v', v.starts = v'.starts → P v .start → P v' .start
  complete : ∀ v v' i j r, v.flying[i]? = v'.flying[j]? → P v (.complete i r) → P v' (.complete j r)

theorem Portable.any : Portable anyAsv := ⟨fun _ _ _ => trivial, fun _ _ _ => trivial, fun _ _ _ _ => trivial, fun _ _ _ _ _ _ _ => trivial⟩

theorem Portable.single : Portable SingleStart where
  run := fun _ _ _ h => by cases h
  shutdown := fun _ _ _ h => by cases h
  start := fun v v' he h _ => he ▸ h rfl
  complete := fun _ _ _ _ _ _ _ h => by cases h

theorem Portable.noErr : Portable NoAcceptError where
  run := fun _ _ _ _ _ h => by cases h
  shutdown := fun _ _ _ _ _ h => by cases h
  start := fun _ _ _ _ _ _ h => by cases h
  complete := fun v v' i j r he h i' c hh => by
    injection hh with h1 h2
    subst h1
    rw [← he]
    exact h i c (by rw [h2])

theorem Portable.and {P Q : Asv → Op → Prop} (h : Portable P) (h' : Portable Q) : Portable (fun v op => P v op ∧ Q v op) where
  run := fun v k rs => ⟨h.run v k rs, h'.run v k rs⟩
  shutdown := fun v v' x => ⟨h.shutdown v v' x.1, h'.shutdown v v' x.2⟩
  start := fun v v' he x => ⟨h.start v v' he x.1, h'.start v v' he x.2⟩
  complete := fun v v' i j r he x => ⟨h.complete v v' i j r he x.1, h'.complete v v' i j r he x.2⟩

theorem aborted_index {G : List Nat} {c : Nat} (hc : c ∈ G) : ∀ {l : List AOp}, l.count (.read c) = 1 →
    ∃ j, ((l.filter (onSocket c)).map aborted)[j]? = some (.read c none) ∧
      ((l.filter (onSocket c)).map aborted).eraseIdx j = ((l.filter (keep G)).filter (onSocket c)).map aborted := by
  intro l
  induction l with
  | nil => intro h; simp at h
  | cons o l ih =>
    intro h
    by_cases ho : o = .read c
    · subst ho
      have h0 : l.count (.read c) = 0 := by simpa using h
      refine ⟨0, by simp [onSocket, aborted], ?_⟩
      have hk : keep G (.read c) = false := by simp [keep, hc]
      rw [List.filter_cons_of_pos (by simp [onSocket]), List.filter_cons_of_neg (by simp [hk]), List.filter_filter]
      simp only [List.map_cons, List.eraseIdx_cons_zero]
      congr 1
      refine List.filter_congr fun x hx => ?_
      cases x with
      | accept y => rfl
      | read y =>
        have : y ≠ c := by
          rintro rfl
          exact absurd hx (List.count_eq_zero.1 h0)
        simp [onSocket, this]
      | write y b d => simp [keep]
    · have h1 : l.count (.read c) = 1 := by rw [List.count_cons_of_ne ho] at h; exact h
      obtain ⟨j, hj, he⟩ := ih h1
      by_cases hs : onSocket c o = true
      · have hk : keep G o = true := by
          cases o with
          | accept y => rfl
          | read y => simp only [onSocket, decide_eq_true_eq] at hs; subst hs; exact absurd rfl ho
          | write y b d => rfl
        refine ⟨j + 1, ?_, ?_⟩
        · rw [List.filter_cons_of_pos hs]; simpa using hj
        · rw [List.filter_cons_of_pos hs, List.filter_cons_of_pos hk, List.filter_cons_of_pos hs]
          simp [he]
      · refine ⟨j, ?_, ?_⟩
        · rw [List.filter_cons_of_neg hs]; exact hj
        · rw [List.filter_cons_of_neg hs]
          by_cases hk : keep G o = true
          · rw [List.filter_cons_of_pos hk, List.filter_cons_of_neg hs, he]
          · rw [List.filter_cons_of_neg hk, he]

/-- Closing a connection that is not read. -/
theorem Gh.closeDead {max : UInt32} {P : Asv → Op → Prop} (hP : Portable P) (h : Gh D G t v) (hr : AsvReach max P v) (hGD : ∀ c ∈ G, c ∈ D) {k c : Nat} (hk : t.queue[k]? = some (.close c))
    (hc : c ∈ G) (rs : List (List UInt8)) {t' : Asv} (hs : t.step (.run k rs) = .ret t') :
    ∃ v', AsvReach max P v' ∧ Gh D (G.filter fun d => decide (d ≠ c)) t' v' := by
  have hi := hr.inv
  have hrd := h.inn c hc
  have hone : v.flying.count (.read c) = 1 := by
    have h1 := (hr.heard c).one
    have h2 : 0 < v.flying.count (.read c) := List.count_pos_iff.2 hrd
    simp only [rd] at h1
    omega
  obtain ⟨hopen, hcon⟩ := hr.dn.fo _ hrd c rfl
  have hk' : v.queue[k]? = some (.close c) := by rw [← h.queue]; exact hk
  have hnl : c ∉ v.list := (hi.closeOut c (List.mem_of_getElem? hk')).1
  obtain ⟨j, hj, he⟩ := aborted_index (G := G) hc hone
  -- the state after the close
  let x : AConn := { v.conns c with connected := false, isOpen := false }
  let q := v.queue.eraseIdx k
  let A := (v.flying.filter (onSocket c)).map aborted
  let v1 : Asv := { v with queue := q ++ A, flying := v.flying.filter fun o => !onSocket c o, conns := fun i => if i = c then x else v.conns i, log := v.log ++ [.closed c] }
  have s1 : v.step (.run k rs) = .ret v1 := by
    simp only [Asv.step, hk', Asv.runTask, Asv.runClose, hopen, if_true]
    rw [show ∀ u : Asv, u.list = v.list → u.removeConnection c = u from fun u hu => by unfold removeConnection; rw [if_neg (by rw [hu]; exact hnl)]]
    · rfl
    · rfl
  have r1 : AsvReach max P v1 := hr.step (hP.run _ _ _) s1
  let v2 : Asv := { v1 with queue := (q ++ A.eraseIdx j) ++ [.close c], log := v.log ++ [.closed c] ++ [.error c] }
  have hlen : q.length ≤ q.length + j := Nat.le_add_right _ _
  have s2 : v1.step (.run (q.length + j) []) = .ret v2 := by
    have e1 : v1.queue[q.length + j]? = some (.read c none) := by
      show (q ++ A)[q.length + j]? = _
      rw [List.getElem?_append_right hlen, Nat.add_sub_cancel_left]
      exact hj
    have e2 : v1.queue.eraseIdx (q.length + j) = q ++ A.eraseIdx j := by
      show (q ++ A).eraseIdx (q.length + j) = _
      rw [List.eraseIdx_append_of_length_le hlen, Nat.add_sub_cancel_left]
    simp only [Asv.step, e1, e2, Asv.runTask, Asv.onRead, Asv.fail]
    rw [show ∀ u : Asv, u.list = v.list → u.removeConnection c = u from fun u hu => by unfold removeConnection; rw [if_neg (by rw [hu]; exact hnl)]]
    · rfl
    · rfl
  have r2 : AsvReach max P v2 := r1.step (hP.run _ _ _) s2
  let v3 : Asv := { v2 with queue := q ++ A.eraseIdx j }
  have s3 : v2.step (.run (q ++ A.eraseIdx j).length []) = .ret v3 := by
    have e1 : v2.queue[(q ++ A.eraseIdx j).length]? = some (.close c) := by
      show ((q ++ A.eraseIdx j) ++ [ATask.close c])[(q ++ A.eraseIdx j).length]? = _
      simp
    have e2 : v2.queue.eraseIdx (q ++ A.eraseIdx j).length = q ++ A.eraseIdx j := by
      show ((q ++ A.eraseIdx j) ++ [ATask.close c]).eraseIdx (q ++ A.eraseIdx j).length = _
      rw [List.eraseIdx_append_of_length_le (Nat.le_refl _)]
      simp
    have e3 : v2.conns c = x := by show (if c = c then x else v.conns c) = x; simp
    simp only [Asv.step, e1, e2, Asv.runTask, Asv.runClose, e3]
    have e4 : x.isOpen = false := rfl
    simp only [e4]
    show CM.ret (Asv.setConn { v2 with queue := q ++ A.eraseIdx j } c { x with connected := false }) = CM.ret v3
    congr 1
    simp only [Asv.setConn, v3]
    congr 1
    funext i
    by_cases hic : i = c
    · simp [hic, e3, x]
    · simp [hic]
  have r3 : AsvReach max P v3 := r2.step (hP.run _ _ _) s3
  refine ⟨v3, r3, ?_⟩
  have hsub := h.sub
  have hsame := h.same
  have hcD := hGD c hc
  obtain ⟨L, rfl⟩ := h.frame
  have ht' : t' = { v3 with flying := (v.flying.filter (keep G)).filter fun o => !onSocket c o, log := L ++ [.closed c] } := by
    simp only [Asv.step, hk', Asv.runTask, Asv.runClose, hopen, if_true] at hs
    rw [show ∀ u : Asv, u.list = v.list → u.removeConnection c = u from fun u hu => by unfold removeConnection; rw [if_neg (by rw [hu]; exact hnl)]] at hs
    · injection hs with hs
      subst hs
      simp only [Asv.emit, Asv.abort, Asv.setConn, v3, v2, v1]
      rw [show A.eraseIdx j = _ from he]
    · rfl
  subst ht'
  have hfl : (v.flying.filter (keep G)).filter (fun o => !onSocket c o) = (v.flying.filter fun o => !onSocket c o).filter (keep (G.filter fun d => decide (d ≠ c))) := by
    rw [List.filter_filter, List.filter_filter]
    refine List.filter_congr fun o _ => ?_
    cases o with
    | accept y => rfl
    | read y =>
      by_cases hy : y = c
      · simp [onSocket, hy]
      · simp [onSocket, keep, hy]
    | write y b d => simp [keep]
  refine ⟨⟨L ++ [.closed c], ?_⟩, fun d hd => ?_, ?_, ?_⟩
  · simp only [v3, v2, v1]
    rw [hfl]
  · obtain ⟨hd1, hd2⟩ := List.mem_filter.1 hd
    exact List.mem_filter.2 ⟨h.inn d hd1, by simpa [onSocket] using hd2⟩
  · exact List.Sublist.trans (hsub.append_right _) (List.sublist_append_left _ _)
  · show (L ++ [AEv.closed c]).filter (noErr D) = (v.log ++ [AEv.closed c] ++ [AEv.error c]).filter (noErr D)
    rw [List.filter_append, List.filter_append (v.log ++ [AEv.closed c]), List.filter_append v.log, ← hsame]
    have : [AEv.error c].filter (noErr D) = [] := by simp [noErr, hcD]
    rw [this, List.append_nil]

/-- A step without exception. -/
theorem Gh.step {max : UInt32} {P : Asv → Op → Prop} (hP : Portable P) (h : Gh D G t v) (hr : AsvReach max P v) (hGD : ∀ c ∈ G, c ∈ D) {op : Op} (hp : P t op) {t' : Asv}
    (hs : t.step op = .ret t') : ∃ v' G', AsvReach max P v' ∧ Gh D G' t' v' ∧ ∀ c ∈ G', c ∈ G := by
  cases op with
  | start =>
    injection hs with hs; subst hs
    refine ⟨_, G, hr.step (hP.start _ _ h.starts hp) rfl, ?_, fun _ h => h⟩
    rw [h.starts]
    exact h.startAccept.setStarts _
  | shutdown =>
    injection hs with hs; subst hs
    exact ⟨_, G, hr.step (hP.shutdown _ _ hp) rfl, h.post _, fun _ h => h⟩
  | complete i r =>
    obtain ⟨j, hj, hg⟩ := h.complete i r
    have hp' := hP.complete t v i j r hj hp
    rw [show t.complete i r = .ret t' from hs] at hg
    cases hv : v.complete j r with
    | ub => rw [hv] at hg; exact hg.elim
    | ret v' => rw [hv] at hg; exact ⟨v', G, hr.step hp' hv, hg, fun _ h => h⟩
  | run k rs =>
    cases hk : t.queue[k]? with
    | none =>
      simp only [Asv.step, hk] at hs
      injection hs with hs; subst hs
      exact ⟨v, G, hr, h, fun _ h => h⟩
    | some x =>
      by_cases hx : ∀ c ∈ G, x ≠ .close c
      · have hg := h.run hr.inv (fun c => hr.heard c) hk hx rs
        rw [hs] at hg
        cases hv : v.step (.run k rs) with
        | ub => rw [hv] at hg; exact hg.elim
        | ret v' => rw [hv] at hg; exact ⟨v', G, hr.step (hP.run _ _ _) hv, hg, fun _ h => h⟩
      · simp only [not_forall, not_not] at hx
        obtain ⟨c, hc, rfl⟩ := hx
        obtain ⟨v', hv', hg⟩ := h.closeDead hP hr hGD hk hc rs hs
        exact ⟨v', _, hv', hg, fun d hd => (List.mem_filter.1 hd).1⟩

theorem Gh.more (h : Gh D G t v) {D' : List Nat} (hD : ∀ c ∈ D, c ∈ D') : Gh D' G t v := by
  refine ⟨h.frame, h.inn, h.sub, ?_⟩
  have e : ∀ l : List AEv, l.filter (noErr D') = (l.filter (noErr D)).filter (noErr D') := by
    intro l
    rw [List.filter_filter]
    refine List.filter_congr fun x _ => ?_
    cases x <;> simp [noErr]
    intro hc
    exact fun hx => hc (hD _ hx)
  rw [e, h.same, ← e]

/-- A read handler that is left by an exception. -/
theorem Gh.throws {max : UInt32} {P : Asv → Op → Prop} (hP : Portable P) (h : Gh D G t v) (hr : AsvReach max P v) {k c : Nat} {bytes : List UInt8}
    (hk : t.queue[k]? = some (.read c (some bytes))) (rs : List (List UInt8)) :
    ∃ v' G', AsvReach max P v' ∧ Gh (c :: D) G' (({ t with queue := t.queue.eraseIdx k }.emit (.receive c bytes)).sendAll c rs) v' ∧ ∀ d ∈ G', d ∈ c :: G := by
  have hcG := h.task hr.inv (fun c => hr.heard c) hk (c := c) (Or.inl (by simp [isReadOf]))
  have hk' : v.queue[k]? = some (.read c (some bytes)) := by rw [← h.queue]; exact hk
  let w := ({ v with queue := v.queue.eraseIdx k }.emit (.receive c bytes)).sendAll c rs
  have hs : v.step (.run k rs) = .ret (w.beginRead c) := by simp only [Asv.step, hk', Asv.runTask, Asv.onRead]; rfl
  have hg : Gh (c :: D) G (({ t with queue := t.queue.eraseIdx k }.emit (.receive c bytes)).sendAll c rs) w := by
    rw [h.queue]
    exact (((h.setQueue _).emit _).sendAll c rs).more (fun d hd => List.mem_cons_of_mem _ hd)
  have hcalm : Calmer v w := Calmer.trans (v := ({ v with queue := v.queue.eraseIdx k } : Asv).emit (.receive c bytes)) (.of rfl ⟨_, rfl⟩) (.sendAll _ c rs)
  refine ⟨w.beginRead c, ?_⟩
  have hr' := hr.step (hP.run _ _ _) hs
  by_cases hcon : (w.conns c).connected = true
  · have hopen : (w.conns c).isOpen = true := by
      rw [hcalm.opn]
      have hcv := hcalm.con c hcon
      exact (hr.opn c hcv).resolve_right fun hcl => (hr.sil c).conn hcl hcv bytes (List.mem_of_getElem? hk')
    have hnone : AOp.read c ∉ w.flying := by
      have h1 := (hr.heard c).one
      have h2 := rd_eraseQueue (c := c) hk'
      have h3 : (if isReadOf c (.read c (some bytes)) then 1 else 0) = 1 := by simp [isReadOf]
      rw [h3] at h2
      have h4 : w.rd c = Asv.rd { v with queue := v.queue.eraseIdx k } c :=
        ((Quiet.emit { v with queue := v.queue.eraseIdx k } (e := .receive c bytes) rfl).trans (Quiet.sendAll _ c rs)).rd
      have h5 : w.rd c = 0 := by omega
      simp only [rd, Nat.add_eq_zero_iff, List.count_eq_zero] at h5
      exact h5.1
    refine ⟨c :: G, hr', ?_, fun _ h => h⟩
    have e : w.beginRead c = { w with flying := w.flying ++ [.read c] } := by simp only [Asv.beginRead, hcon, hopen, if_true]
    rw [e]
    obtain ⟨L, hL⟩ := hg.frame
    refine ⟨⟨L, ?_⟩, fun d hd => ?_, hg.sub, hg.same⟩
    · rw [hL]
      have e1 : (w.flying ++ [AOp.read c]).filter (keep (c :: G)) = w.flying.filter (keep G) := by
        rw [List.filter_append]
        have : [AOp.read c].filter (keep (c :: G)) = [] := by simp [keep]
        rw [this, List.append_nil]
        refine List.filter_congr fun o ho => ?_
        cases o with
        | accept y => rfl
        | read y =>
          have : y ≠ c := fun hy => hnone (hy ▸ ho)
          simp [keep, this]
        | write y b d => rfl
      simp only [e1]
    · rcases List.mem_cons.1 hd with rfl | hd
      · exact List.mem_append_right _ (by simp)
      · exact List.mem_append_left _ (hg.inn d hd)
  · refine ⟨G, hr', ?_, fun d hd => List.mem_cons_of_mem _ hd⟩
    have e : w.beginRead c = w := by simp [Asv.beginRead, hcon]
    rw [e]
    exact hg

/-- Whatever listeners throw, the listening server is an ordinary one, except for reads that are missing. -/
theorem _root_.Modbus.Spec.AsvTReach.gh {max : UInt32} {P : Asv → Op → Prop} (hP : Portable P) {t : AsvT} (h : AsvTReach max P t) :
    ∃ v G, AsvReach max P v ∧ Gh t.dead G t.asv v ∧ ∀ c ∈ G, c ∈ t.dead := by
  induction h with
  | init => exact ⟨Asv.init max, [], .init, ⟨⟨[], by simp [AsvT.init, Asv.init]⟩, by simp, List.Sublist.refl _, rfl⟩, by simp⟩
  | @step t t' op _ hp hs ih =>
    obtain ⟨v, G, hr, hg, hGD⟩ := ih
    cases op with
    | op o =>
      simp only [AsvT.step] at hs
      cases hs1 : t.asv.step o with
      | ub => rw [hs1] at hs; cases hs
      | ret a =>
        rw [hs1] at hs
        injection hs with hs; subst hs
        obtain ⟨v', G', hr', hg', hG'⟩ := hg.step hP hr hGD (hp o rfl) hs1
        exact ⟨v', G', hr', hg', fun c hc => hGD c (hG' c hc)⟩
    | throws k rs =>
      simp only [AsvT.step] at hs
      split at hs
      · rename_i c bytes hk
        injection hs with hs; subst hs
        obtain ⟨v', G', hr', hg', hG'⟩ := hg.throws hP hr hk rs
        refine ⟨v', G', hr', hg', fun d hd => ?_⟩
        rcases List.mem_cons.1 (hG' d hd) with rfl | hd
        · simp
        · exact List.mem_cons_of_mem _ (hGD d hd)
      · injection hs with hs; subst hs
        exact ⟨v, G, hr, hg, hGD⟩

/-! ### What follows for the listening server -/

theorem kept_noErr (D : List Nat) (log : List AEv) : kept log = kept (log.filter (noErr D)) := by
  have : ∀ (log : List AEv) (l : List Nat), log.foldl keepStep l = (log.filter (noErr D)).foldl keepStep l := by
    intro log
    induction log with
    | nil => intro l; rfl
    | cons e log ih =>
      intro l
      by_cases he : noErr D e = true
      · rw [List.filter_cons_of_pos he]; exact ih _
      · rw [List.filter_cons_of_neg he, List.foldl_cons, ih]
        cases e <;> simp_all [noErr, keepStep]
  exact this log []

theorem Gh.kept (h : Gh D G t v) : Spec.kept t.log = Spec.kept v.log := by
  rw [kept_noErr D t.log, kept_noErr D v.log, h.same]

theorem Gh.mem (h : Gh D G t v) {e : AEv} (he : noErr D e = true) : e ∈ t.log ↔ e ∈ v.log := by
  have : ∀ l : List AEv, e ∈ l ↔ e ∈ l.filter (noErr D) := fun l => by simp [List.mem_filter, he]
  rw [this, h.same, ← this]

theorem Gh.count (h : Gh D G t v) {e : AEv} (he : noErr D e = true) : t.log.count e = v.log.count e := by
  have : ∀ l : List AEv, l.count e = (l.filter (noErr D)).count e := fun l => by rw [List.count_filter he]
  rw [this, h.same, ← this]

theorem Gh.read (h : Gh D G t v) {c : Nat} (hc : c ∉ G) : AOp.read c ∈ t.flying ↔ AOp.read c ∈ v.flying := by
  rw [h.flying, List.mem_filter]
  simp [keep, hc]

theorem Gh.rd (h : Gh D G t v) (c : Nat) : t.rd c ≤ v.rd c := by
  simp only [Asv.rd, h.queue, h.flying]
  exact Nat.add_le_add_right (List.filter_sublist.count_le _) _

theorem Gh.rd_eq (h : Gh D G t v) {c : Nat} (hc : c ∉ G) : t.rd c = v.rd c := by
  simp only [Asv.rd, h.queue, h.flying]
  rw [List.count_filter (by simp [keep, hc])]

theorem Gh.accepts (h : Gh D G t v) (c : Nat) : AOp.accept c ∈ t.flying ↔ AOp.accept c ∈ v.flying := by
  rw [h.flying, List.mem_filter]
  simp [keep]

theorem Gh.tok (h : Gh D G t v) (c : Nat) : t.tok c = v.tok c := by
  simp only [Asv.tok, h.queue, h.flying, List.countP_filter]
  congr 1
  refine List.countP_congr fun o _ => ?_
  cases o <;> simp [tokOp, keep]

/-! ### Connections that are not read stay so -/

theorem send_tok (v : Asv) (c d : Nat) (x : List UInt8) : (v.send c x).tok d = v.tok d := by
  unfold Asv.send
  rw [sendBuffer_tok]
  rfl

theorem sendAll_tok (c d : Nat) (ds : List (List UInt8)) : ∀ v : Asv, (v.sendAll c ds).tok d = v.tok d := by
  induction ds with
  | nil => intro v; rfl
  | cons x ds ih => intro v; exact (ih _).trans (send_tok v c d x)

theorem sendAll_next (c : Nat) (ds : List (List UInt8)) : ∀ v : Asv, (v.sendAll c ds).nextConn = v.nextConn := by
  induction ds with
  | nil => intro v; rfl
  | cons x ds ih => intro v; exact (ih _).trans (sendBuffer_next _ c)

theorem fail_tok (v : Asv) (c d : Nat) : (v.fail c).tok d = v.tok d := by
  unfold Asv.fail
  rw [remove_tok]
  simp [Asv.tok, Asv.post, Asv.emit, tokTask]

theorem startConn_tok (v : Asv) (c d : Nat) : (v.startConn c).tok d = v.tok d := by
  unfold Asv.startConn
  rw [beginRead_tok, sendBuffer_tok]
  rfl

theorem startAccept_tok (v : Asv) (d : Nat) : v.startAccept.tok d = v.tok d ∧ v.startAccept.nextConn = v.nextConn := by
  unfold Asv.startAccept
  split
  · exact ⟨rfl, rfl⟩
  · exact ⟨by simp [Asv.tok, Asv.post, tokTask], rfl⟩

theorem startConn_next (v : Asv) (c : Nat) : (v.startConn c).nextConn = v.nextConn := by
  unfold Asv.startConn
  rw [beginRead_next, sendBuffer_next]
  rfl

theorem tok_eraseQueue (v : Asv) (k d : Nat) : Asv.tok { v with queue := v.queue.eraseIdx k } d ≤ v.tok d := by
  simp only [Asv.tok]
  exact Nat.add_le_add_left ((List.eraseIdx_sublist _ _).countP_le) _

/-- A connection whose accept has been dealt with is not accepted again. -/
theorem Live.step {v v' : Asv} {c : Nat} (h : v.Live c) {op : Op} (hs : v.step op = .ret v') : v'.Live c := by
  obtain ⟨hlt, ht⟩ := h
  cases op with
  | start =>
    injection hs with hs; subst hs
    obtain ⟨h1, h2⟩ := startAccept_tok v c
    exact ⟨by show c < v.startAccept.nextConn; omega, by show v.startAccept.tok c = 0; omega⟩
  | shutdown => injection hs with hs; subst hs; exact ⟨hlt, by simpa [Asv.tok, Asv.post, tokTask] using ht⟩
  | complete i r =>
    obtain ⟨h1, h2⟩ := complete_tok hs c
    exact ⟨by omega, by omega⟩
  | run k rs =>
    simp only [Asv.step] at hs
    split at hs
    · injection hs with hs; subst hs; exact ⟨hlt, ht⟩
    · rename_i x hk
      have h0 : Asv.tok { v with queue := v.queue.eraseIdx k } c = 0 := by have := tok_eraseQueue v k c; omega
      have hn : ({ v with queue := v.queue.eraseIdx k } : Asv).nextConn = v.nextConn := rfl
      generalize ({ v with queue := v.queue.eraseIdx k } : Asv) = u at hs h0 hn
      cases x with
      | startAccept =>
        injection hs with hs; subst hs
        unfold Asv.runStartAccept
        split
        · exact ⟨by omega, h0⟩
        · refine ⟨by show c < u.nextConn + 1; omega, ?_⟩
          have : u.nextConn ≠ c := by omega
          simp only [Asv.tok, List.countP_append, List.countP_singleton, tokOp, this, decide_false] at h0 ⊢
          simpa using h0
      | shutdown =>
        injection hs with hs; subst hs
        refine ⟨by show c < u.nextConn; omega, ?_⟩
        have h1 := tok_abort { u with isShutdown := true } isAccept c
        have h2 : Asv.tok { u with isShutdown := true } c = u.tok c := rfl
        unfold Asv.runShutdown
        simp only [Asv.tok, List.countP_append] at h1 h2 h0 ⊢
        have h3 : ∀ l : List Nat, (l.map ATask.close).countP (tokTask c) = 0 := fun l => by
          simp [List.countP_eq_zero, tokTask]
        rw [h3]
        omega
      | close d =>
        injection hs with hs; subst hs
        unfold Asv.runClose
        dsimp only
        split
        · refine ⟨by rw [remove_next]; show c < u.nextConn; omega, ?_⟩
          rw [remove_tok]
          have := tok_abort (u.setConn d { u.conns d with connected := false, isOpen := false }) (onSocket d) c
          exact this.trans h0
        · exact ⟨by show c < u.nextConn; omega, h0⟩
      | accepted d ok =>
        simp only [Asv.runTask, Asv.onAccepted] at hs
        split at hs
        · injection hs with hs; subst hs; exact ⟨by omega, h0⟩
        · split at hs
          · split at hs
            · split at hs
              · cases hs
              · injection hs with hs; subst hs
                rename_i front _ _
                obtain ⟨h1, h2⟩ := startAccept_tok ((Asv.removeConnection { u.emit (.joined d) with num := u.num + 1 } front).startConn d) c
                refine ⟨?_, ?_⟩
                · rw [h2, startConn_next, remove_next]; show c < u.nextConn; omega
                · rw [h1, startConn_tok, remove_tok]; exact h0
            · injection hs with hs; subst hs
              obtain ⟨h1, h2⟩ := startAccept_tok (Asv.startConn { u.emit (.joined d) with num := u.num + 1 } d) c
              refine ⟨?_, ?_⟩
              · rw [h2, startConn_next]; show c < u.nextConn; omega
              · rw [h1, startConn_tok]; exact h0
          · injection hs with hs; subst hs
            exact ⟨by rw [remove_next]; omega, by rw [remove_tok]; exact h0⟩
      | read d r =>
        injection hs with hs; subst hs
        cases r with
        | none => exact ⟨by simp only [Asv.onRead, Asv.fail]; rw [remove_next]; show c < u.nextConn; omega, by simp only [Asv.onRead]; rw [fail_tok]; exact h0⟩
        | some bytes =>
          refine ⟨?_, ?_⟩
          · simp only [Asv.onRead]; rw [beginRead_next, sendAll_next]; show c < u.nextConn; omega
          · simp only [Asv.onRead]; rw [beginRead_tok, sendAll_tok]; exact h0
      | written d ok =>
        injection hs with hs; subst hs
        unfold Asv.onWritten
        split
        · exact ⟨by show c < u.nextConn; omega, h0⟩
        · exact ⟨by unfold Asv.fail; rw [remove_next]; show c < u.nextConn; omega, by rw [fail_tok]; exact h0⟩

/-- A connection that exists and is not read. -/
structure Stuck (v : Asv) (c : Nat) : Prop where
  live : v.Live c
  rd : v.rd c = 0

theorem Apart.rd {v v' : Asv} {c : Nat} (h : Apart false c v v') : v'.rd c = v.rd c := by
  have e1 : ∀ l : List AOp, l.count (.read c) = (l.filter (relOp false c)).count (.read c) := fun l => by
    rw [List.count_filter (by simp [relOp, opConn])]
  have e2 : ∀ l : List ATask, l.countP (isReadOf c) = (l.filter (relTask false c)).countP (isReadOf c) := fun l => by
    rw [List.countP_filter]
    refine List.countP_congr fun x _ => ?_
    cases x <;> simp [isReadOf, relTask, taskConn]
  simp only [Asv.rd]
  rw [e1, e2, h.flying, h.queue, ← e1, ← e2]

theorem fail_rd (v : Asv) (c d : Nat) : (v.fail d).rd c = v.rd c := by
  unfold Asv.fail
  rw [(Quiet.remove (c := c) _ d).rd]
  simp [Asv.rd, Asv.post, Asv.emit, isReadOf]

theorem Stuck.no_task {v : Asv} {c : Nat} (h : Stuck v c) {x : ATask} (hx : x ∈ v.queue) : (∀ r, x ≠ .read c r) ∧ ∀ ok, x ≠ .accepted c ok := by
  have h1 := h.rd
  have h2 := h.live.2
  simp only [Asv.rd, Asv.tok, Nat.add_eq_zero_iff, List.countP_eq_zero] at h1 h2
  refine ⟨fun r hr => ?_, fun ok hr => ?_⟩
  · subst hr; exact h1.2 _ hx (by simp [isReadOf])
  · subst hr; exact h2.2 _ hx (by simp [tokTask])

theorem Stuck.no_op {v : Asv} {c : Nat} (h : Stuck v c) {o : AOp} (hx : o ∈ v.flying) : o ≠ .read c ∧ o ≠ .accept c := by
  have h1 := h.rd
  have h2 := h.live.2
  simp only [Asv.rd, Asv.tok, Nat.add_eq_zero_iff, List.countP_eq_zero, List.count_eq_zero] at h1 h2
  refine ⟨fun hr => ?_, fun hr => ?_⟩
  · subst hr; exact h1.1 hx
  · subst hr; exact h2.1 _ hx (by simp [tokOp])

theorem Stuck.step {v v' : Asv} {c : Nat} (h : Stuck v c) {op : Op} (hs : v.step op = .ret v') : Stuck v' c := by
  refine ⟨h.live.step hs, ?_⟩
  by_cases ht : Touches false v c op
  · cases op with
    | start => exact ht.elim
    | shutdown => exact ht.elim
    | complete i r =>
      obtain ⟨o, ho, hc⟩ := ht
      obtain ⟨h1, h2⟩ := h.no_op (List.mem_of_getElem? ho)
      cases o with
      | accept d => exact absurd (congrArg AOp.accept hc) h2
      | read d => exact absurd (congrArg AOp.read hc) h1
      | write d b x =>
        have q := Quiet.eraseFlying (c := c) v ho (by simp)
        simp only [Asv.step, Asv.complete, ho] at hs
        split at hs
        · split at hs
          · split at hs
            · injection hs with hs; subst hs
              exact ((q.trans (Quiet.emit _ rfl)).trans (Quiet.post _ rfl (by simp))).rd.trans h.rd
            · cases hs
          · injection hs with hs; subst hs; exact h.rd
        · injection hs with hs; subst hs
          exact (q.trans (Quiet.post _ rfl (by simp))).rd.trans h.rd
        · injection hs with hs; subst hs; exact h.rd
    | run k rs =>
      obtain ⟨x, hk, hx⟩ := ht
      have hm := List.mem_of_getElem? hk
      obtain ⟨h1, h2⟩ := h.no_task hm
      rcases hx with hx | ⟨hx, -⟩
      · cases x with
        | startAccept => cases hx
        | shutdown => cases hx
        | accepted d ok => injection hx with hx; exact absurd (congrArg (ATask.accepted · ok) hx) (h2 ok)
        | read d r => injection hx with hx; exact absurd (congrArg (ATask.read · r) hx) (h1 r)
        | close d =>
          have q := Quiet.eraseQueue (c := c) v hk rfl
          simp only [Asv.step, hk, Asv.runTask] at hs
          injection hs with hs; subst hs
          unfold Asv.runClose
          dsimp only
          split
          · rw [(Quiet.remove (c := c) _ d).rd]
            have := abort_rd (c := c) ({ v with queue := v.queue.eraseIdx k }.setConn d { v.conns d with connected := false, isOpen := false }) (onSocket d)
            exact this.trans (q.rd.trans h.rd)
          · exact q.rd.trans h.rd
        | written d ok =>
          have q := Quiet.eraseQueue (c := c) v hk rfl
          simp only [Asv.step, hk, Asv.runTask] at hs
          injection hs with hs; subst hs
          unfold Asv.onWritten
          split
          · exact q.rd.trans h.rd
          · rw [fail_rd]; exact q.rd.trans h.rd
      · cases hx
  · exact (step_apart hs ht).rd.trans h.rd

theorem Stuck.throws {v : Asv} {c : Nat} (h : Stuck v c) {k d : Nat} {bytes : List UInt8} (hk : v.queue[k]? = some (.read d (some bytes))) (rs : List (List UInt8)) :
    Stuck (({ v with queue := v.queue.eraseIdx k }.emit (.receive d bytes)).sendAll d rs) c := by
  have hd : d ≠ c := fun hd => (h.no_task (List.mem_of_getElem? hk)).1 _ (by rw [hd])
  have q := Quiet.eraseQueue (c := c) v hk (by simpa [isReadOf] using hd)
  refine ⟨⟨?_, ?_⟩, ?_⟩
  · rw [sendAll_next]; exact h.live.1
  · rw [sendAll_tok]
    have := tok_eraseQueue v k c
    have h2 := h.live.2
    show Asv.tok { v with queue := v.queue.eraseIdx k } c = 0
    omega
  · exact ((q.trans (Quiet.emit _ rfl)).trans (Quiet.sendAll _ d rs)).rd.trans h.rd

theorem Stuck.fresh {max : UInt32} {P : Asv → Op → Prop} (hg : Gh D G t v) (hr : AsvReach max P v) {k c : Nat} {bytes : List UInt8}
    (hk : t.queue[k]? = some (.read c (some bytes))) (rs : List (List UInt8)) :
    Stuck (({ t with queue := t.queue.eraseIdx k }.emit (.receive c bytes)).sendAll c rs) c := by
  have hk' : v.queue[k]? = some (.read c (some bytes)) := by rw [← hg.queue]; exact hk
  have hl := hr.inv.qlive _ (List.mem_of_getElem? hk') c rfl
  refine ⟨⟨?_, ?_⟩, ?_⟩
  · rw [sendAll_next]; show c < t.nextConn; rw [hg.nextConn]; exact hl.1
  · rw [sendAll_tok]
    have h1 := tok_eraseQueue t k c
    have h2 := hg.tok c
    have h3 := hl.2
    show Asv.tok { t with queue := t.queue.eraseIdx k } c = 0
    omega
  · have h1 := (hr.heard c).one
    have h2 := hg.rd c
    have h3 := rd_eraseQueue (c := c) hk
    have h4 : (if isReadOf c (.read c (some bytes)) then 1 else 0) = 1 := by simp [isReadOf]
    rw [h4] at h3
    have h5 := ((Quiet.emit (c := c) { t with queue := t.queue.eraseIdx k } (e := .receive c bytes) rfl).trans (Quiet.sendAll _ c rs)).rd
    omega

/-- A connection that an exception came from is never read again. -/
theorem _root_.Modbus.Spec.AsvTReach.stuck {max : UInt32} {P : Asv → Op → Prop} {t : AsvT} (h : AsvTReach max P t) : ∀ c ∈ t.dead, Stuck t.asv c := by
  induction h with
  | init => intro c hc; cases hc
  | @step t t' op h hp hs ih =>
    cases op with
    | op o =>
      simp only [AsvT.step] at hs
      cases hs1 : t.asv.step o with
      | ub => rw [hs1] at hs; cases hs
      | ret a =>
        rw [hs1] at hs
        injection hs with hs; subst hs
        exact fun c hc => (ih c hc).step hs1
    | throws k rs =>
      simp only [AsvT.step] at hs
      split at hs
      · rename_i d bytes hk
        injection hs with hs; subst hs
        intro c hc
        rcases List.mem_cons.1 hc with rfl | hc
        · have h' : AsvTReach max anyAsv t := by
            clear hk hc ih hp
            induction h with
            | init => exact .init
            | step _ _ hs ih => exact .step ih (fun _ _ => trivial) hs
          obtain ⟨v, G, hr, hg, -⟩ := h'.gh .any
          exact Stuck.fresh hg hr hk rs
        · exact (ih c hc).throws hk rs
      · injection hs with hs; subst hs; exact ih

end Modbus.Asv
