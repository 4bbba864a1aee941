import Verif.Lemmas.AsioLog

/-! Helper lemmas about the writes of a single connection of the server, whatever the other connections do. -/

namespace Modbus.Asv

open Spec

/-- A connection not accepted yet has nothing to write. -/
def Frz (v : Asv) : Prop := ∀ c, v.nextConn ≤ c ∨ 0 < v.tok c → (v.conns c).wbuf = none

theorem Frz.still {v v' : Asv} (h : Frz v) (hs : Still v v') : Frz v' := fun c hf => (hs.wbuf c).trans (h c (hs.fresh c hf))

/-- Nothing about which connections exist has changed. -/
theorem Frz.same {v v' : Asv} (h : Frz v) (h1 : v'.nextConn = v.nextConn) (h2 : ∀ c, v'.tok c = v.tok c) (h3 : ∀ c, (v'.conns c).wbuf = (v.conns c).wbuf) : Frz v' := by
  intro c hf
  rw [h1, h2] at hf
  rw [h3, h c hf]

theorem tok_sendBuffer (v : Asv) (c d : Nat) : (v.sendBuffer c).tok d = v.tok d := by
  unfold Asv.sendBuffer
  split
  · rfl
  · split
    · dsimp only
      split
      · simp [tok, Asv.emit, tokOp]
      · simp [tok, Asv.emit, Asv.post, tokTask]
    · rfl

theorem nextConn_sendBuffer (v : Asv) (c : Nat) : (v.sendBuffer c).nextConn = v.nextConn := by
  unfold Asv.sendBuffer
  split
  · rfl
  · split
    · dsimp only
      split <;> rfl
    · rfl

theorem conns_sendBuffer (v : Asv) (c : Nat) : (v.sendBuffer c).conns = v.conns := by
  unfold Asv.sendBuffer
  split
  · rfl
  · split
    · dsimp only
      split <;> rfl
    · rfl

theorem Frz.send {v : Asv} (h : Frz v) {c : Nat} (hl : v.Live c) (data : List UInt8) : Frz (v.send c data) ∧ (v.send c data).Live c := by
  unfold Asv.send
  obtain ⟨w, hw⟩ : ∃ w, w = { v.emit (.asked c data) with nextBuf := v.nextBuf + 1 }.setConn c { v.conns c with wbuf := some (v.nextBuf, data) } := ⟨_, rfl⟩
  change Frz (({ v.emit (.asked c data) with nextBuf := v.nextBuf + 1 }.setConn c { v.conns c with wbuf := some (v.nextBuf, data) }).sendBuffer c) ∧
    Asv.Live (({ v.emit (.asked c data) with nextBuf := v.nextBuf + 1 }.setConn c { v.conns c with wbuf := some (v.nextBuf, data) }).sendBuffer c) c
  rw [← hw]
  have ht : ∀ d, w.tok d = v.tok d := fun d => by rw [hw]; rfl
  have hn : w.nextConn = v.nextConn := by rw [hw]; rfl
  refine ⟨Frz.same (v := w) ?_ (nextConn_sendBuffer w c) (tok_sendBuffer w c) (fun d => by rw [conns_sendBuffer]), ?_⟩
  · intro d hf
    rw [ht, hn] at hf
    have h1 := hl.1
    have h2 := hl.2
    have hd : d ≠ c := by rintro rfl; omega
    rw [hw]
    show (if d = c then _ else v.conns d).wbuf = _
    rw [if_neg hd]
    exact h d hf
  · refine ⟨?_, ?_⟩
    · rw [nextConn_sendBuffer, hn]; exact hl.1
    · rw [tok_sendBuffer, ht]; exact hl.2

theorem Frz.sendAll {v : Asv} (h : Frz v) {c : Nat} (hl : v.Live c) (ds : List (List UInt8)) : Frz (v.sendAll c ds) := by
  induction ds generalizing v with
  | nil => exact h
  | cons x ds ih => exact ih (h.send hl x).1 (h.send hl x).2

theorem Still.startConn {u : Asv} {c : Nat} (hu : (u.conns c).wbuf = none) : Still u (u.startConn c) := by
  have h1 : Still u (u.setConn c { u.conns c with connected := true }) := .setConn u c rfl
  have h2 : (u.setConn c { u.conns c with connected := true }).sendBuffer c = u.setConn c { u.conns c with connected := true } := by
    unfold Asv.sendBuffer
    have : ((u.setConn c { u.conns c with connected := true }).conns c).wbuf = none := by simp [Asv.setConn, hu]
    rw [this]
  unfold Asv.startConn
  rw [h2]
  exact h1.trans (.beginRead _ c)

theorem Still.accepted {w v' : Asv} {c : Nat} {ok : Bool} (hwn : (w.conns c).wbuf = none) (hs : w.onAccepted c ok = .ret v') : Still w v' := by
  have hj : Still w { w.emit (.joined c) with num := w.num + 1 } := .log rfl rfl rfl (fun _ => rfl) [.joined c] rfl (by simp [silent])
  simp only [onAccepted] at hs
  split at hs
  · injection hs with hs; subst hs; exact .refl _
  · split at hs
    · split at hs
      · split at hs
        · cases hs
        · injection hs with hs; subst hs
          rename_i front _ _
          have h2 := hj.trans (Still.remove _ front)
          exact (h2.trans (Still.startConn (by rw [h2.wbuf]; exact hwn))).trans (.startAccept _)
      · injection hs with hs; subst hs
        exact (hj.trans (Still.startConn (by rw [hj.wbuf]; exact hwn))).trans (.startAccept _)
    · injection hs with hs; subst hs
      exact .remove _ c

theorem Still.runStartAccept (w : Asv) : Still w w.runStartAccept := by
  unfold Asv.runStartAccept
  split
  · exact .refl _
  · refine ⟨fun c => by simp [Asv.busy, isW], fun c => by simp [wData], fun c b d hm => by simpa using hm, fun _ => rfl, fun c hf => ?_, fun _ => rfl, fun _ => rfl⟩
    rcases hf with hf | hf
    · exact Or.inl (Nat.le_of_succ_le hf)
    · have : Asv.tok { w with list := w.list ++ [w.nextConn], nextConn := w.nextConn + 1, flying := w.flying ++ [.accept w.nextConn] } c =
          w.tok c + if w.nextConn = c then 1 else 0 := by
        simp only [tok, List.countP_append, List.countP_singleton, tokOp]
        simp only [decide_eq_true_eq]
        omega
      rw [this] at hf
      by_cases hc : w.nextConn = c
      · exact Or.inl (Nat.le_of_eq hc)
      · rw [if_neg hc] at hf; exact Or.inr hf

theorem Frz.taken {v : Asv} (h : Frz v) {k c : Nat} {ok : Bool} (hk : v.queue[k]? = some (.accepted c ok)) : (v.conns c).wbuf = none := by
  refine h c (Or.inr ?_)
  have : 0 < v.queue.countP (tokTask c) := List.countP_pos_iff.2 ⟨_, List.mem_of_getElem? hk, by simp [tokTask]⟩
  simp only [tok]; omega

/-- Completing an accept only moves it to the queue. -/
theorem Still.acceptDone {v u : Asv} {i c : Nat} (hfi : v.flying[i]? = some (.accept c)) {ok : Bool} (h1 : u.flying = v.flying.eraseIdx i)
    (h2 : u.queue = v.queue ++ [.accepted c ok]) (h3 : u.nextConn = v.nextConn) (h4 : ∀ d, (u.conns d).wbuf = (v.conns d).wbuf) (h5 : u.log = v.log) : Still v u := by
  have he := Still.eraseFlying v i
  refine ⟨fun d => ?_, fun d => ?_, fun d b e hm => ?_, h4, fun d hf => ?_, fun d => by rw [h5], fun d => by rw [h5]⟩
  · have := he.busy d
    simp only [Asv.busy] at this ⊢
    rw [h1, h2, List.countP_append]
    simp [isWr]
    omega
  · rw [h1]; exact he.sub d
  · rw [h1] at hm; exact he.mem d b e hm
  · rw [h3] at hf
    refine hf.imp_right fun ht => ?_
    have h6 := Tcp.countP_eraseIdx (tokOp d) hfi
    have h7 : tokOp d (.accept c) = tokTask d (.accepted c ok) := rfl
    rw [h7] at h6
    simp only [tok, h1, h2, List.countP_append, List.countP_singleton] at ht ⊢
    omega

/-- The steps that change nothing about anybody's writes. -/
theorem still_step {v v' : Asv} (h : Frz v) {op : Op} (hs : v.step op = .ret v') (hw : ∀ i r, op = .complete i r → ∀ c b d, v.flying[i]? ≠ some (.write c b d))
    (hr : ∀ k rs, op = .run k rs → ∀ c bytes, v.queue[k]? = some (.read c (some bytes)) → rs = []) (hd : ∀ k rs, op = .run k rs → ∀ c, v.queue[k]? ≠ some (.written c true)) : Still v v' := by
  cases op with
  | start =>
    injection hs with hs; subst hs
    have := Still.startAccept v
    exact ⟨this.busy, this.sub, this.mem, this.wbuf, this.fresh, this.wires, this.submits⟩
  | shutdown => injection hs with hs; subst hs; exact .post v (t := .shutdown) (fun _ => rfl) (fun _ => rfl)
  | complete i r =>
    simp only [Asv.step, Asv.complete] at hs
    have he := Still.eraseFlying v i
    split at hs
    · injection hs with hs; subst hs; exact .refl _
    · rename_i c hfi
      split at hs
      · injection hs with hs; subst hs
        refine Still.acceptDone hfi (ok := true) rfl rfl rfl (fun d => ?_) rfl
        show (if d = c then _ else v.conns d).wbuf = _
        split
        · rename_i hd; rw [hd]
        · rfl
      · injection hs with hs; subst hs
        exact Still.acceptDone hfi (ok := false) rfl rfl rfl (fun _ => rfl) rfl
      · injection hs with hs; subst hs; exact .refl _
    · rename_i c hfi
      split at hs
      · split at hs
        · injection hs with hs; subst hs
          exact he.trans (.post _ (t := .read c _) (fun _ => rfl) (fun _ => rfl))
        · injection hs with hs; subst hs; exact .refl _
      · injection hs with hs; subst hs
        exact he.trans (.post _ (t := .read c _) (fun _ => rfl) (fun _ => rfl))
      · injection hs with hs; subst hs; exact .refl _
    · rename_i c b data hfi
      exact absurd hfi (hw i r rfl c b data)
  | run k rs =>
    simp only [Asv.step] at hs
    split at hs
    · injection hs with hs; subst hs; exact .refl _
    · rename_i t hk
      have he := Still.eraseQueue v k
      cases t with
      | startAccept => injection hs with hs; subst hs; exact he.trans (.runStartAccept _)
      | shutdown => injection hs with hs; subst hs; exact he.trans (.runShutdown _)
      | close c => injection hs with hs; subst hs; exact he.trans (.runClose _ c)
      | accepted c ok =>
        exact he.trans (Still.accepted (c := c) (ok := ok) (by show (v.conns c).wbuf = none; exact h.taken hk) hs)
      | read c r =>
        injection hs with hs; subst hs
        cases r with
        | none => exact he.trans (.fail _ c)
        | some bytes =>
          have := hr k rs rfl c bytes hk
          subst this
          exact he.trans ((Still.emit _ (e := .receive c bytes) rfl).trans (.beginRead _ c))
      | written c ok =>
        injection hs with hs; subst hs
        cases ok with
        | false => exact he.trans (.fail _ c)
        | true => exact absurd hk (hd k rs rfl c)

theorem Frz.step {v v' : Asv} (h : Frz v) (hi : Inv v) {op : Op} (hs : v.step op = .ret v') : Frz v' := by
  by_cases h1 : ∀ i r, op = .complete i r → ∀ c b d, v.flying[i]? ≠ some (.write c b d)
  · by_cases h2 : ∀ k rs, op = .run k rs → ∀ c bytes, v.queue[k]? = some (.read c (some bytes)) → rs = []
    · by_cases h3 : ∀ k rs, op = .run k rs → ∀ c, v.queue[k]? ≠ some (.written c true)
      · exact h.still (still_step h hs h1 h2 h3)
      · simp only [not_forall, Classical.not_not] at h3
        obtain ⟨k, rs, rfl, c, hk⟩ := h3
        simp only [Asv.step, hk] at hs
        injection hs with hs; subst hs
        have he := h.still (Still.eraseQueue v k)
        have h2 : Frz (Asv.setConn { v with queue := v.queue.eraseIdx k } c { v.conns c with wbuf := none }) := by
          intro d hf
          show (if d = c then _ else v.conns d).wbuf = _
          by_cases hd : d = c
          · rw [if_pos hd]
          · rw [if_neg hd]; exact he d hf
        exact h2.still (.emit _ (e := .writeDone c) rfl)
    · simp only [not_forall] at h2
      obtain ⟨k, rs, rfl, c, bytes, hk, -⟩ := h2
      simp only [Asv.step, hk] at hs
      injection hs with hs; subst hs
      have hl := live_eraseQueue hi (c := c) hk (Or.inl rfl)
      have h3 := h.still ((Still.eraseQueue v k).trans (Still.emit _ (e := .receive c bytes) rfl))
      exact (h3.sendAll (c := c) (hl.frame rfl rfl) rs).still (.beginRead _ c)
  · simp only [not_forall, Classical.not_not] at h1
    obtain ⟨i, r, rfl, c, b, data, hfi⟩ := h1
    simp only [Asv.step, Asv.complete, hfi] at hs
    have hq : ∀ (ok : Bool) (l : List AEv), Frz { v with flying := v.flying.eraseIdx i, queue := v.queue ++ [.written c ok], log := l } := by
      intro ok l d hf
      refine h d (hf.imp_right fun ht => ?_)
      have := (List.eraseIdx_sublist v.flying i).countP_le (p := tokOp d)
      simp only [tok, List.countP_append, List.countP_singleton, tokTask] at ht ⊢
      simp at ht
      omega
    split at hs
    · split at hs
      · split at hs
        · injection hs with hs; subst hs; exact hq true _
        · cases hs
      · injection hs with hs; subst hs; exact h
    · injection hs with hs; subst hs; exact hq false _
    · injection hs with hs; subst hs; exact h

theorem _root_.Modbus.Spec.AsvReach.frz {max : UInt32} {P : Asv → Op → Prop} {v : Asv} (h : AsvReach max P v) : Frz v := by
  induction h with
  | init => exact fun _ _ => rfl
  | step hr _ hs ih => exact ih.step hr.inv hs

/-- Each write belongs to one request to send. -/
theorem _root_.Modbus.Spec.AsvReach.submitsAsked {max : UInt32} {P : Asv → Op → Prop} {v : Asv} (h : AsvReach max P v) :
    ∀ c, (asvSubmits c v.log).Sublist (asvAsked c v.log) := by
  induction h with
  | init => intro c; simp [Asv.init, asvSubmits]
  | @step v v' op hv hp hs ih =>
    intro c
    obtain ⟨es, h1, h2⟩ := step_adds hs
    rw [h1, submits_append, asked_append]
    refine (ih c).append ?_
    cases h2 with
    | data k rs d bytes rest h1 h2 h3 h4 => subst h3; simpa [asvSubmits, asvAsked] using h4.submits c
    | error k rs d rest h1 h2 h3 h4 =>
      subst h3
      have e1 : asvSubmits c (.error d :: rest) = asvSubmits c rest := rfl
      rw [e1, quiet_submits h4 c]
      exact List.nil_sublist _
    | other h1 h2 =>
      rw [quiet_submits (fun e he => ?_) c]
      · exact List.nil_sublist _
      · rcases h2 e he with h | ⟨k, rs, c, b, d, -, hk, hw, -⟩
        · exact h
        · exfalso
          have := hv.frz.taken hk
          rw [hw] at this; cases this

/-- Invariant of histories in which every write on connection `c` waits for the one before. -/
structure WrAt (c : Nat) (v : Asv) : Prop where
  one : v.busy c ≤ 1
  buf : ∀ b d, AOp.write c b d ∈ v.flying → (v.conns c).wbuf = some (b, d)
  sub : (asvWires c v.log ++ v.flying.filterMap (wData c)).Sublist (asvSubmits c v.log)

variable {c : Nat}

theorem WrAt.still {v v' : Asv} (h : WrAt c v) (hs : Still v v') : WrAt c v' :=
  ⟨Nat.le_trans (hs.busy c) h.one, fun b d hm => (hs.wbuf c).trans (h.buf b d (hs.mem c b d hm)), by
      rw [hs.wires, hs.submits]
      exact ((List.Sublist.refl _).append (hs.sub c)).trans h.sub⟩

theorem countP_filter_of {α : Type} {p q : α → Bool} (h : ∀ x, p x = true → q x = true) (l : List α) : (l.filter q).countP p = l.countP p := by
  rw [List.countP_filter]
  refine List.countP_congr fun x _ => ?_
  simp only [Bool.and_eq_true]
  exact ⟨fun hx => hx.1, fun hx => ⟨hx, h x hx⟩⟩

theorem filterMap_filter_of {α β : Type} {f : α → Option β} {q : α → Bool} (h : ∀ x, q x = false → f x = none) (l : List α) : (l.filter q).filterMap f = l.filterMap f := by
  induction l with
  | nil => rfl
  | cons x l ih =>
    rw [List.filter_cons]
    cases hq : q x with
    | true => simp [List.filterMap_cons, ih]
    | false => simp [List.filterMap_cons, ih, h x hq]

theorem WrAt.apart {v v' : Asv} (h : WrAt c v) (ha : Apart false c v v') : WrAt c v' := by
  have hf : ∀ x, isW c x = true → relOp false c x = true := by
    intro x hx; cases x <;> simp_all [isW, relOp, opConn]
  have hq : ∀ x, isWr c x = true → relTask false c x = true := by
    intro x hx; cases x <;> simp_all [isWr, relTask, taskConn]
  have hd : ∀ x, relOp false c x = false → wData c x = none := by
    intro x hx; cases x <;> simp_all [wData, relOp, opConn]
  have e1 : v'.flying.countP (isW c) = v.flying.countP (isW c) := by rw [← countP_filter_of hf, ha.flying, countP_filter_of hf]
  have e2 : v'.queue.countP (isWr c) = v.queue.countP (isWr c) := by rw [← countP_filter_of hq, ha.queue, countP_filter_of hq]
  have e3 : v'.flying.filterMap (wData c) = v.flying.filterMap (wData c) := by rw [← filterMap_filter_of hd, ha.flying, filterMap_filter_of hd]
  have e4 : asvWires c v'.log = asvWires c v.log := by
    unfold asvWires
    rw [← filterMap_filter_of (q := relEv false c), ha.log, filterMap_filter_of (q := relEv false c)]
    all_goals intro x hx; cases x <;> simp_all [relEv, evConn, evExist]
  have e5 : asvSubmits c v'.log = asvSubmits c v.log := by
    unfold asvSubmits
    rw [← filterMap_filter_of (q := relEv false c), ha.log, filterMap_filter_of (q := relEv false c)]
    all_goals intro x hx; cases x <;> simp_all [relEv, evConn, evExist]
  refine ⟨?_, fun b d hm => ?_, ?_⟩
  · have := h.one; simp only [Asv.busy] at this ⊢; omega
  · rw [ha.conns]
    refine h.buf b d ?_
    have : AOp.write c b d ∈ v'.flying.filter (relOp false c) := List.mem_filter.2 ⟨hm, by simp [relOp, opConn]⟩
    rw [ha.flying] at this
    exact (List.mem_filter.1 this).1
  · rw [e3, e4, e5]; exact h.sub

theorem WrAt.send {v : Asv} (h : WrAt c v) (hb : v.busy c = 0) (data : List UInt8) : WrAt c (v.send c data) := by
  have hw := no_write (v := v) (c := c) (by simp only [busy] at hb; omega)
  have h1 : WrAt c ({ v.emit (.asked c data) with nextBuf := v.nextBuf + 1 }.setConn c { v.conns c with wbuf := some (v.nextBuf, data) }) := by
    refine ⟨h.one, fun b e hm => absurd hm (hw.1 b e), ?_⟩
    have hs := silent_wires (es := [.asked c data]) (by simp [silent]) c
    show (asvWires c (v.log ++ [.asked c data]) ++ v.flying.filterMap (wData c)).Sublist (asvSubmits c (v.log ++ [.asked c data]))
    rw [wires_append, submits_append, hs.1, hs.2, List.append_nil, List.append_nil]
    exact h.sub
  unfold Asv.send
  obtain ⟨w, hw'⟩ : ∃ w, w = { v.emit (.asked c data) with nextBuf := v.nextBuf + 1 }.setConn c { v.conns c with wbuf := some (v.nextBuf, data) } := ⟨_, rfl⟩
  have hbuf : (w.conns c).wbuf = some (v.nextBuf, data) := by rw [hw']; simp [Asv.setConn]
  have hbw : w.busy c = 0 := by rw [hw']; exact hb
  have hww := no_write (v := w) (c := c) (by simp only [busy] at hbw; omega)
  change WrAt c (({ v.emit (.asked c data) with nextBuf := v.nextBuf + 1 }.setConn c { v.conns c with wbuf := some (v.nextBuf, data) }).sendBuffer c)
  rw [← hw'] at h1 ⊢
  unfold Asv.sendBuffer
  rw [hbuf]
  dsimp only
  split
  · have hsub : asvSubmits c (w.log ++ [.submit c data]) = asvSubmits c w.log ++ [data] := by
      rw [submits_append]
      simp [asvSubmits]
    have hwi : asvWires c (w.log ++ [.submit c data]) = asvWires c w.log := by
      rw [wires_append]
      simp [asvWires]
    split
    · refine ⟨?_, fun b e hm => ?_, ?_⟩
      · simp only [Asv.busy, Asv.emit, List.countP_append, List.countP_singleton, isW]
        simp only [Asv.busy] at hbw
        simp; omega
      · rcases List.mem_append.1 hm with hm | hm
        · exact h1.buf b e hm
        · rw [List.mem_singleton] at hm
          injection hm with e1 e2 e3
          subst e2 e3
          exact hbuf
      · show (asvWires c (w.log ++ [.submit c data]) ++ (w.flying ++ [AOp.write c v.nextBuf data]).filterMap (wData c)).Sublist (asvSubmits c (w.log ++ [.submit c data]))
        rw [hwi, hsub, List.filterMap_append, ← List.append_assoc]
        refine h1.sub.append ?_
        simp [wData]
    · refine ⟨?_, fun b e hm => h1.buf b e hm, ?_⟩
      · simp only [Asv.busy, Asv.emit, Asv.post, List.countP_append, List.countP_singleton, isWr]
        simp only [Asv.busy] at hbw
        simp; omega
      · show (asvWires c (w.log ++ [.submit c data]) ++ w.flying.filterMap (wData c)).Sublist (asvSubmits c (w.log ++ [.submit c data]))
        rw [hwi, hsub]
        exact h1.sub.trans (List.sublist_append_left _ _)
  · exact h1

theorem WrAt.step {v v' : Asv} (h : WrAt c v) (hz : Frz v) {op : Op} (hp : PatientClient c v op) (hs : v.step op = .ret v') : WrAt c v' := by
  by_cases ht : Touches false v c op
  · by_cases h1 : ∀ i r, op = .complete i r → ∀ c b d, v.flying[i]? ≠ some (.write c b d)
    · by_cases h2 : ∀ k rs, op = .run k rs → ∀ c bytes, v.queue[k]? = some (.read c (some bytes)) → rs = []
      · by_cases h3 : ∀ k rs, op = .run k rs → ∀ c, v.queue[k]? ≠ some (.written c true)
        · exact h.still (still_step hz hs h1 h2 h3)
        · simp only [not_forall, Classical.not_not] at h3
          obtain ⟨k, rs, rfl, d, hk⟩ := h3
          have hd : d = c := by
            obtain ⟨t, e1, e2⟩ := ht
            rw [hk] at e1; injection e1 with e1; subst e1
            rcases e2 with e2 | ⟨e2, -⟩
            · simpa [taskOf] using e2
            · cases e2
          subst hd
          simp only [Asv.step, hk] at hs
          injection hs with hs; subst hs
          have he := h.still (Still.eraseQueue v k)
          have hcnt := Tcp.countP_eraseIdx (isWr d) hk
          have hself : isWr d (.written d true) = true := by simp [isWr]
          rw [hself, if_pos rfl] at hcnt
          have hb1 := h.one
          simp only [busy] at hb1
          have hnw := no_write (v := { v with queue := v.queue.eraseIdx k }) (c := d) (by show v.flying.countP (isW d) = 0; omega)
          have h2 : WrAt d (Asv.setConn { v with queue := v.queue.eraseIdx k } d { v.conns d with wbuf := none }) :=
            ⟨he.one, fun b e hm => absurd hm (hnw.1 b e), he.sub⟩
          exact h2.still (.emit _ (e := .writeDone d) rfl)
      · simp only [not_forall] at h2
        obtain ⟨k, rs, rfl, d, bytes, hk, hne⟩ := h2
        have hd : d = c := by
          obtain ⟨t, e1, e2⟩ := ht
          rw [hk] at e1; injection e1 with e1; subst e1
          rcases e2 with e2 | ⟨e2, -⟩
          · simpa [taskOf] using e2
          · cases e2
        subst hd
        simp only [Asv.step, hk] at hs
        injection hs with hs; subst hs
        rcases hp.1 k bytes rs rfl hk with hr | ⟨⟨x, hr⟩, hb⟩
        · exact absurd hr hne
        · subst hr
          have h1 := h.still ((Still.eraseQueue v k).trans (Still.emit _ (e := .receive d bytes) rfl))
          have hb0 : Asv.busy (Asv.emit { v with queue := v.queue.eraseIdx k } (.receive d bytes)) d = 0 := by
            have e1 := not_busy hb
            have e2 := (Still.eraseQueue v k).busy d
            show Asv.busy { v with queue := v.queue.eraseIdx k } d = 0
            omega
          exact (h1.send hb0 x).still (.beginRead _ d)
    · simp only [not_forall, Classical.not_not] at h1
      obtain ⟨i, r, rfl, d, b, data, hfi⟩ := h1
      have hd : d = c := by
        obtain ⟨t, e1, e2⟩ := ht
        rw [hfi] at e1; injection e1 with e1; subst e1
        exact e2
      subst hd
      simp only [Asv.step, Asv.complete, hfi] at hs
      have hb1 := h.one
      have hcnt := Tcp.countP_eraseIdx (isW d) hfi
      have hself : isW d (.write d b data) = true := by simp [isW]
      rw [hself, if_pos rfl] at hcnt
      simp only [busy] at hb1
      have hnone : (v.flying.eraseIdx i).countP (isW d) = 0 := by omega
      have hnw := no_write (v := { v with flying := v.flying.eraseIdx i }) hnone
      have hdata : v.flying.filterMap (wData d) = [data] := by
        have h1 := filterMap_eraseIdx_some (wData d) hfi (b := data) (by simp [wData])
        rw [hnw.2] at h1
        exact List.perm_singleton.1 h1
      have hbusy : ∀ ok, (v.flying.eraseIdx i).countP (isW d) + (v.queue ++ [ATask.written d ok]).countP (isWr d) ≤ 1 := by
        intro ok
        have : isWr d (.written d ok) = true := by simp [isWr]
        rw [List.countP_append, List.countP_singleton, if_pos this]
        omega
      split at hs
      · rename_i n
        have hn := hp.2 i n b data rfl hfi
        split at hs
        · split at hs
          · injection hs with hs; subst hs
            refine ⟨hbusy true, fun b' e hm => absurd hm (hnw.1 b' e), ?_⟩
            show (asvWires d (v.log ++ [.wire d (data.take n)]) ++ (v.flying.eraseIdx i).filterMap (wData d)).Sublist (asvSubmits d (v.log ++ [.wire d (data.take n)]))
            have hsu : asvSubmits d (v.log ++ [.wire d (data.take n)]) = asvSubmits d v.log := by
              rw [submits_append]; simp [asvSubmits]
            have hwi : asvWires d (v.log ++ [.wire d (data.take n)]) = asvWires d v.log ++ [data] := by
              rw [wires_append, hn, List.take_length]
              simp [asvWires]
            rw [hsu, hwi, hnw.2, List.append_nil, ← hdata]
            exact h.sub
          · cases hs
        · injection hs with hs; subst hs; exact h
      · injection hs with hs; subst hs
        exact ⟨hbusy false, fun b' e hm => absurd hm (hnw.1 b' e), ((List.Sublist.refl _).append ((List.eraseIdx_sublist ..).filterMap _)).trans h.sub⟩
      · injection hs with hs; subst hs; exact h
  · exact h.apart (step_apart hs ht)

/-- On a connection whose client waits for each answer, what went out is whole answers. -/
theorem _root_.Modbus.Spec.AsvReach.wrAt {max : UInt32} {v : Asv} (h : AsvReach max (PatientClient c) v) : WrAt c v := by
  induction h with
  | init => exact ⟨Nat.zero_le _, fun b d hm => (by cases hm), List.Sublist.refl _⟩
  | step hr hp hs ih => exact ih.step hr.frz hp hs

theorem _root_.Modbus.Spec.AsvReach.wiresAsked {max : UInt32} {v : Asv} (h : AsvReach max (PatientClient c) v) : (asvWires c v.log).Sublist (asvAsked c v.log) :=
  ((List.sublist_append_left _ _).trans h.wrAt.sub).trans (h.submitsAsked c)

end Modbus.Asv
