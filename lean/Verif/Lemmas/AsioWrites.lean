import Verif.Lemmas.AsioServer

/-! Helper lemmas about the writes of the server's connections. -/

namespace Modbus.Asv

open Spec

def isW (c : Nat) : AOp → Bool
  | .write c' _ _ => c' = c
  | _ => false

def isWr (c : Nat) : ATask → Bool
  | .written c' _ => c' = c
  | _ => false

def wData (c : Nat) : AOp → Option (List UInt8)
  | .write c' _ d => if c' = c then some d else none
  | _ => none

/-- Number of writes in progress on connection `c`, or completed without their handler having run. -/
def busy (v : Asv) (c : Nat) : Nat := v.flying.countP (isW c) + v.queue.countP (isWr c)

/-- Invariant of histories in which every write waits for the one before. -/
structure Wr (v : Asv) : Prop where
  one : ∀ c, v.busy c ≤ 1
  buf : ∀ c b d, AOp.write c b d ∈ v.flying → (v.conns c).wbuf = some (b, d)
  fresh : ∀ c, v.nextConn ≤ c ∨ 0 < v.tok c → (v.conns c).wbuf = none
  sub : ∀ c, (asvWires c v.log ++ v.flying.filterMap (wData c)).Sublist (asvSubmits c v.log)

theorem not_busy {v : Asv} {c : Nat} (h : ¬AWriteBusy v c) : v.busy c = 0 := by
  have h1 : v.flying.countP (isW c) = 0 := by
    rw [List.countP_eq_zero]
    intro o ho hw
    cases o with
    | write c' b d =>
      have : c' = c := by simpa [isW] using hw
      subst this
      exact h (Or.inl ⟨b, d, ho⟩)
    | _ => cases hw
  have h2 : v.queue.countP (isWr c) = 0 := by
    rw [List.countP_eq_zero]
    intro t ht hw
    cases t with
    | written c' ok =>
      have : c' = c := by simpa [isWr] using hw
      subst this
      exact h (Or.inr ⟨ok, ht⟩)
    | _ => cases hw
  simp only [busy]; omega

theorem no_write {v : Asv} {c : Nat} (h : v.flying.countP (isW c) = 0) : (∀ b d, AOp.write c b d ∉ v.flying) ∧ v.flying.filterMap (wData c) = [] := by
  rw [List.countP_eq_zero] at h
  refine ⟨fun b d hm => h _ hm (by simp [isW]), ?_⟩
  rw [List.filterMap_eq_nil_iff]
  intro o ho
  have := h o ho
  cases o <;> simp_all [isW, wData]

/-- Nothing is added to the writes. -/
structure Still (v v' : Asv) : Prop where
  busy : ∀ c, v'.busy c ≤ v.busy c
  sub : ∀ c, (v'.flying.filterMap (wData c)).Sublist (v.flying.filterMap (wData c))
  mem : ∀ c b d, AOp.write c b d ∈ v'.flying → AOp.write c b d ∈ v.flying
  wbuf : ∀ c, (v'.conns c).wbuf = (v.conns c).wbuf
  fresh : ∀ c, v'.nextConn ≤ c ∨ 0 < v'.tok c → v.nextConn ≤ c ∨ 0 < v.tok c
  wires : ∀ c, asvWires c v'.log = asvWires c v.log
  submits : ∀ c, asvSubmits c v'.log = asvSubmits c v.log

theorem Still.refl (v : Asv) : Still v v :=
  ⟨fun _ => Nat.le_refl _, fun _ => List.Sublist.refl _, fun _ _ _ h => h, fun _ => rfl, fun _ h => h, fun _ => rfl, fun _ => rfl⟩

theorem Still.trans {u v w : Asv} (h : Still u v) (h' : Still v w) : Still u w :=
  ⟨fun c => Nat.le_trans (h'.busy c) (h.busy c), fun c => (h'.sub c).trans (h.sub c), fun c b d hm => h.mem c b d (h'.mem c b d hm),
    fun c => (h'.wbuf c).trans (h.wbuf c), fun c hf => h.fresh c (h'.fresh c hf), fun c => (h'.wires c).trans (h.wires c),
    fun c => (h'.submits c).trans (h.submits c)⟩

theorem Wr.still {v v' : Asv} (h : Wr v) (hs : Still v v') : Wr v' :=
  ⟨fun c => Nat.le_trans (hs.busy c) (h.one c), fun c b d hm => (hs.wbuf c).trans (h.buf c b d (hs.mem c b d hm)),
    fun c hf => (hs.wbuf c).trans (h.fresh c (hs.fresh c hf)), fun c => by
      rw [hs.wires, hs.submits]
      exact ((List.Sublist.refl _).append (hs.sub c)).trans (h.sub c)⟩

/-- Events that are neither submissions nor bytes on the wire. -/
def silent : AEv → Bool
  | .submit _ _ => false
  | .wire _ _ => false
  | _ => true

theorem wires_append (c : Nat) (l l' : List AEv) : asvWires c (l ++ l') = asvWires c l ++ asvWires c l' := by simp [asvWires]

theorem submits_append (c : Nat) (l l' : List AEv) : asvSubmits c (l ++ l') = asvSubmits c l ++ asvSubmits c l' := by simp [asvSubmits]

theorem silent_wires {es : List AEv} (h : ∀ e ∈ es, silent e = true) (c : Nat) : asvWires c es = [] ∧ asvSubmits c es = [] := by
  simp only [asvWires, asvSubmits, List.filterMap_eq_nil_iff]
  refine ⟨fun e he => ?_, fun e he => ?_⟩
  all_goals have := h e he; cases e <;> simp_all [silent]

theorem Still.log {v v' : Asv} (h1 : v'.flying = v.flying) (h2 : v'.queue = v.queue) (h3 : v'.nextConn = v.nextConn) (h4 : ∀ c, (v'.conns c).wbuf = (v.conns c).wbuf)
    (es : List AEv) (h5 : v'.log = v.log ++ es) (h6 : ∀ e ∈ es, silent e = true) : Still v v' := by
  refine ⟨fun c => Nat.le_of_eq (by simp only [Asv.busy, h1, h2]), fun c => by rw [h1], fun c b d hm => h1 ▸ hm, h4,
    fun c hf => ?_, fun c => ?_, fun c => ?_⟩
  · simp only [tok, h1, h2, h3] at hf ⊢; exact hf
  · rw [h5, wires_append, (silent_wires h6 c).1, List.append_nil]
  · rw [h5, submits_append, (silent_wires h6 c).2, List.append_nil]

theorem Still.emit (v : Asv) {e : AEv} (h : silent e = true) : Still v (v.emit e) :=
  .log rfl rfl rfl (fun _ => rfl) [e] rfl (by simpa using h)

theorem Still.setConn (v : Asv) (c : Nat) {x : AConn} (h : x.wbuf = (v.conns c).wbuf) : Still v (v.setConn c x) := by
  refine .log rfl rfl rfl (fun d => ?_) [] (by simp [Asv.setConn]) (by simp)
  simp only [Asv.setConn]
  split
  · rename_i hd; rw [h, hd]
  · rfl

theorem Still.post (v : Asv) {t : ATask} (h : ∀ c, isWr c t = false) (h' : ∀ c, tokTask c t = false) : Still v (v.post t) := by
  refine ⟨fun c => by simp [Asv.busy, Asv.post, h], fun c => List.Sublist.refl _, fun _ _ _ hm => hm, fun _ => rfl, fun c hf => ?_, fun _ => rfl, fun _ => rfl⟩
  simpa [tok, Asv.post, h'] using hf

theorem Still.eraseQueue (v : Asv) (k : Nat) : Still v { v with queue := v.queue.eraseIdx k } := by
  have hc : ∀ p : ATask → Bool, (v.queue.eraseIdx k).countP p ≤ v.queue.countP p := fun p => (List.eraseIdx_sublist ..).countP_le
  refine ⟨fun c => ?_, fun c => List.Sublist.refl _, fun _ _ _ hm => hm, fun _ => rfl, fun c hf => ?_, fun _ => rfl, fun _ => rfl⟩
  · have := hc (isWr c); simp only [Asv.busy]; omega
  · have := hc (tokTask c); simp only [tok] at hf ⊢; omega

theorem Still.eraseFlying (v : Asv) (k : Nat) : Still v { v with flying := v.flying.eraseIdx k } := by
  have hc : ∀ p : AOp → Bool, (v.flying.eraseIdx k).countP p ≤ v.flying.countP p := fun p => (List.eraseIdx_sublist ..).countP_le
  refine ⟨fun c => ?_, fun c => (List.eraseIdx_sublist ..).filterMap _, fun _ _ _ hm => List.mem_of_mem_eraseIdx hm, fun _ => rfl, fun c hf => ?_, fun _ => rfl, fun _ => rfl⟩
  · have := hc (isW c); simp only [Asv.busy]; omega
  · have := hc (tokOp c); simp only [tok] at hf ⊢; omega

theorem Still.abort (v : Asv) (p : AOp → Bool) : Still v (v.abort p) := by
  refine ⟨fun c => ?_, fun c => (List.filter_sublist ..).filterMap _, fun _ _ _ hm => (List.mem_filter.1 hm).1, fun _ => rfl, fun c hf => ?_, fun _ => rfl, fun _ => rfl⟩
  · have ha : ∀ l : List AOp, ((l.filter p).map aborted).countP (isWr c) + (l.filter fun o => !p o).countP (isW c) = l.countP (isW c) := by
      intro l
      induction l with
      | nil => rfl
      | cons o l ih =>
        have : isWr c (aborted o) = isW c o := by cases o <;> rfl
        cases hp : p o <;> simp only [List.filter_cons, hp, Bool.not_true, Bool.not_false, if_true, if_false, Bool.false_eq_true, List.map_cons, List.countP_cons, this] <;> omega
    have := ha v.flying
    simp only [Asv.busy, Asv.abort, List.countP_append]
    omega
  · rw [tok_abort] at hf; exact hf

theorem Still.remove (v : Asv) (c : Nat) : Still v (v.removeConnection c) := by
  unfold removeConnection
  split
  · have h := (Still.post v (t := .close c) (fun _ => rfl) (fun _ => rfl)).trans (Still.emit _ (e := .left c) rfl)
    exact ⟨h.busy, h.sub, h.mem, h.wbuf, h.fresh, h.wires, h.submits⟩
  · exact .refl v

theorem Still.fail (v : Asv) (c : Nat) : Still v (v.fail c) :=
  ((Still.post v (t := .close c) (fun _ => rfl) (fun _ => rfl)).trans (Still.emit _ (e := .error c) rfl)).trans (Still.remove _ _)

theorem Still.beginRead (v : Asv) (c : Nat) : Still v (v.beginRead c) := by
  unfold Asv.beginRead
  split
  · split
    · refine ⟨fun d => by simp [Asv.busy, isW], fun d => by simp [wData], fun d b e hm => by simpa using hm, fun _ => rfl, fun d hf => ?_, fun _ => rfl, fun _ => rfl⟩
      simpa [tok, tokOp] using hf
    · exact Still.post _ (t := .read c none) (fun _ => rfl) (fun _ => rfl)
  · exact .refl v

theorem Still.startAccept (v : Asv) : Still v v.startAccept := by
  unfold Asv.startAccept
  split
  · exact .refl v
  · exact .post _ (t := .startAccept) (fun _ => rfl) (fun _ => rfl)

theorem Still.runClose (v : Asv) (c : Nat) : Still v (v.runClose c) := by
  unfold Asv.runClose
  dsimp only
  split
  · exact (Still.setConn v c (x := { v.conns c with connected := false, isOpen := false }) rfl).trans ((Still.abort _ _).trans ((Still.emit _ (e := .closed c) rfl).trans (Still.remove _ _)))
  · exact Still.setConn v c (x := { v.conns c with connected := false }) rfl

theorem Still.runShutdown (v : Asv) : Still v v.runShutdown := by
  have h1 : Still v ({ v with isShutdown := true }.abort isAccept) :=
    (Still.log (v := v) (v' := { v with isShutdown := true }) rfl rfl rfl (fun _ => rfl) [] (by simp) (by simp)).trans (Still.abort _ _)
  refine h1.trans ?_
  obtain ⟨w, hw⟩ : ∃ w, w = { v with isShutdown := true }.abort isAccept := ⟨_, rfl⟩
  unfold Asv.runShutdown
  dsimp only
  rw [← hw]
  have hq : ∀ (p : ATask → Bool), (∀ c, p (.close c) = false) → (w.queue ++ w.list.map ATask.close).countP p = w.queue.countP p := by
    intro p hp
    have : (w.list.map ATask.close).countP p = 0 := by
      rw [List.countP_eq_zero]
      intro t ht
      obtain ⟨c, _, rfl⟩ := List.mem_map.1 ht
      rw [hp]; exact Bool.false_ne_true
    rw [List.countP_append, this]; rfl
  have hs : ∀ e ∈ w.list.map AEv.left, silent e = true := by
    intro e he
    obtain ⟨c, _, rfl⟩ := List.mem_map.1 he
    rfl
  refine ⟨fun c => ?_, fun c => List.Sublist.refl _, fun _ _ _ hm => hm, fun _ => rfl, fun c hf => ?_, fun c => ?_, fun c => ?_⟩
  · simp only [Asv.busy, hq (isWr c) (fun _ => rfl)]; omega
  · simp only [tok, hq (tokTask c) (fun _ => rfl)] at hf ⊢; exact hf
  · show asvWires c (w.log ++ w.list.map .left) = _
    rw [wires_append, (silent_wires hs c).1, List.append_nil]
  · show asvSubmits c (w.log ++ w.list.map .left) = _
    rw [submits_append, (silent_wires hs c).2, List.append_nil]

/-- An answer is sent while no write is in progress. -/
theorem Wr.send {v : Asv} (h : Wr v) {c : Nat} (hl : v.Live c) (hb : v.busy c = 0) (data : List UInt8) : Wr (v.send c data) := by
  have hw := no_write (v := v) (c := c) (by simp only [busy] at hb; omega)
  have h1 : Wr ({ v.emit (.asked c data) with nextBuf := v.nextBuf + 1 }.setConn c { v.conns c with wbuf := some (v.nextBuf, data) }) := by
    refine ⟨h.one, fun d b e hm => ?_, fun d hf => ?_, fun d => ?_⟩
    · have hm : AOp.write d b e ∈ v.flying := hm
      show (if d = c then _ else v.conns d).wbuf = _
      by_cases hd : d = c
      · subst hd; exact absurd hm (hw.1 b e)
      · rw [if_neg hd]; exact h.buf d b e hm
    · have hf : v.nextConn ≤ d ∨ 0 < v.tok d := hf
      show (if d = c then _ else v.conns d).wbuf = _
      by_cases hd : d = c
      · subst hd
        have h1 := hl.1
        have h2 := hl.2
        omega
      · rw [if_neg hd]; exact h.fresh d hf
    · have hs := silent_wires (es := [.asked c data]) (by simp [silent]) d
      show (asvWires d (v.log ++ [.asked c data]) ++ v.flying.filterMap (wData d)).Sublist (asvSubmits d (v.log ++ [.asked c data]))
      rw [wires_append, submits_append, hs.1, hs.2, List.append_nil, List.append_nil]
      exact h.sub d
  unfold Asv.send
  obtain ⟨w, hw'⟩ : ∃ w, w = { v.emit (.asked c data) with nextBuf := v.nextBuf + 1 }.setConn c { v.conns c with wbuf := some (v.nextBuf, data) } := ⟨_, rfl⟩
  have hbuf : (w.conns c).wbuf = some (v.nextBuf, data) := by rw [hw']; simp [Asv.setConn]
  have hbw : w.busy c = 0 := by rw [hw']; exact hb
  have hww := no_write (v := w) (c := c) (by simp only [busy] at hbw; omega)
  change Wr (({ v.emit (.asked c data) with nextBuf := v.nextBuf + 1 }.setConn c { v.conns c with wbuf := some (v.nextBuf, data) }).sendBuffer c)
  rw [← hw'] at h1 ⊢
  unfold Asv.sendBuffer
  rw [hbuf]
  dsimp only
  split
  · have hsub : ∀ d, asvSubmits d (w.log ++ [.submit c data]) = asvSubmits d w.log ++ if c = d then [data] else [] := by
      intro d
      rw [submits_append]
      simp only [asvSubmits, List.filterMap_cons, List.filterMap_nil]
      by_cases hd : c = d <;> simp [hd]
    have hwi : ∀ d, asvWires d (w.log ++ [.submit c data]) = asvWires d w.log := by
      intro d
      rw [wires_append]
      simp [asvWires]
    split
    · refine ⟨fun d => ?_, fun d b e hm => ?_, fun d hf => ?_, fun d => ?_⟩
      · simp only [Asv.busy, Asv.emit, List.countP_append, List.countP_singleton, isW]
        have := h1.one d
        simp only [Asv.busy] at this hbw
        by_cases hd : c = d
        · subst hd; simp; omega
        · simp [hd]; omega
      · rcases List.mem_append.1 hm with hm | hm
        · exact h1.buf d b e hm
        · rw [List.mem_singleton] at hm
          injection hm with e1 e2 e3
          subst e1 e2 e3
          exact hbuf
      · refine h1.fresh d ?_
        simpa [tok, tokOp, Asv.emit] using hf
      · show (asvWires d (w.log ++ [.submit c data]) ++ (w.flying ++ [AOp.write c v.nextBuf data]).filterMap (wData d)).Sublist (asvSubmits d (w.log ++ [.submit c data]))
        rw [hwi, hsub, List.filterMap_append, ← List.append_assoc]
        refine (h1.sub d).append ?_
        by_cases hd : c = d <;> simp [wData, hd]
    · refine ⟨fun d => ?_, fun d b e hm => h1.buf d b e hm, fun d hf => ?_, fun d => ?_⟩
      · simp only [Asv.busy, Asv.emit, Asv.post, List.countP_append, List.countP_singleton, isWr]
        have := h1.one d
        simp only [Asv.busy] at this hbw
        by_cases hd : c = d
        · subst hd; simp; omega
        · simp [hd]; omega
      · refine h1.fresh d ?_
        simpa [tok, tokTask, Asv.emit, Asv.post] using hf
      · show (asvWires d (w.log ++ [.submit c data]) ++ w.flying.filterMap (wData d)).Sublist (asvSubmits d (w.log ++ [.submit c data]))
        rw [hwi, hsub]
        exact (h1.sub d).trans (List.sublist_append_left _ _)
  · exact h1

theorem Wr.step {v v' : Asv} (h : Wr v) (hi : Inv v) {op : Op} (hp : PatientClients v op) (hs : v.step op = .ret v') : Wr v' := by
  cases op with
  | start =>
    injection hs with hs; subst hs
    have := h.still (Still.startAccept v)
    exact ⟨this.one, this.buf, this.fresh, this.sub⟩
  | shutdown =>
    injection hs with hs; subst hs
    exact h.still (.post v (t := .shutdown) (fun _ => rfl) (fun _ => rfl))
  | complete i r =>
    simp only [Asv.step, Asv.complete] at hs
    have he := Still.eraseFlying v i
    split at hs
    · injection hs with hs; subst hs; exact h
    · rename_i c hfi
      have hacc : ∀ (u : Asv) (ok : Bool), u.flying = v.flying.eraseIdx i → u.queue = v.queue ++ [.accepted c ok] → u.nextConn = v.nextConn →
          (∀ d, (u.conns d).wbuf = (v.conns d).wbuf) → u.log = v.log → Wr u := by
        intro u ok h1 h2 h3 h4 h5
        refine h.still ⟨fun d => ?_, fun d => ?_, fun d b e hm => ?_, h4, fun d hf => ?_, fun d => by rw [h5], fun d => by rw [h5]⟩
        · have := he.busy d
          simp only [Asv.busy] at this ⊢
          rw [h1, h2, List.countP_append]
          simp [isWr]
          omega
        · rw [h1]; exact he.sub d
        · rw [h1] at hm; exact he.mem d b e hm
        · rw [h3] at hf
          refine hf.imp_right fun ht => ?_
          have h6 := Tcp.countP_eraseIdx (tokOp d) hfi
          have h7 : tokOp d (.accept c) = tokTask d (.accepted c ok) := rfl
          rw [h7] at h6
          simp only [tok, h1, h2, List.countP_append, List.countP_singleton] at ht ⊢
          omega
      split at hs
      · injection hs with hs; subst hs
        refine hacc _ true rfl rfl rfl (fun d => ?_) rfl
        show (if d = c then _ else v.conns d).wbuf = _
        split
        · rename_i hd; rw [hd]
        · rfl
      · injection hs with hs; subst hs
        exact hacc _ false rfl rfl rfl (fun _ => rfl) rfl
      · injection hs with hs; subst hs; exact h
    · rename_i c hfi
      split at hs
      · split at hs
        · injection hs with hs; subst hs
          exact h.still (he.trans (.post _ (t := .read c _) (fun _ => rfl) (fun _ => rfl)))
        · injection hs with hs; subst hs; exact h
      · injection hs with hs; subst hs
        exact h.still (he.trans (.post _ (t := .read c _) (fun _ => rfl) (fun _ => rfl)))
      · injection hs with hs; subst hs; exact h
    · rename_i c b data hfi
      have hb1 := h.one c
      have hcnt := fun d => Tcp.countP_eraseIdx (isW d) hfi
      have hself : isW c (.write c b data) = true := by simp [isW]
      have hnone : (v.flying.eraseIdx i).countP (isW c) = 0 := by
        have := hcnt c
        rw [hself, if_pos rfl] at this
        simp only [busy] at hb1
        omega
      have hdata : v.flying.filterMap (wData c) = [data] := by
        have h1 := filterMap_eraseIdx_some (wData c) hfi (b := data) (by simp [wData])
        rw [(no_write (v := { v with flying := v.flying.eraseIdx i }) hnone).2] at h1
        exact List.perm_singleton.1 h1
      have hother : ∀ d, d ≠ c → (v.flying.eraseIdx i).filterMap (wData d) = v.flying.filterMap (wData d) := by
        intro d hd
        exact filterMap_eraseIdx_none (wData d) hfi (by simp only [wData]; rw [if_neg (fun hh => hd hh.symm)])
      have hbusy : ∀ d ok, (v.flying.eraseIdx i).countP (isW d) + (v.queue ++ [ATask.written c ok]).countP (isWr d) ≤ 1 := by
        intro d ok
        have h1 := hcnt d
        have h2 : isW d (.write c b data) = isWr d (.written c ok) := rfl
        have h3 := h.one d
        rw [h2] at h1
        simp only [busy] at h3
        rw [List.countP_append, List.countP_singleton]
        omega
      split at hs
      · rename_i n
        have hn := hp.2 i n c b data rfl hfi
        split at hs
        · split at hs
          · injection hs with hs; subst hs
            refine ⟨fun d => hbusy d true, fun d b' e hm => h.buf d b' e (List.mem_of_mem_eraseIdx hm), fun d hf => h.fresh d ?_, fun d => ?_⟩
            · refine hf.imp_right fun ht => ?_
              have := (List.eraseIdx_sublist v.flying i).countP_le (p := tokOp d)
              simp only [tok, Asv.post, Asv.emit, List.countP_append, List.countP_singleton, tokTask] at ht ⊢
              simp at ht
              omega
            · show (asvWires d (v.log ++ [.wire c (data.take n)]) ++ (v.flying.eraseIdx i).filterMap (wData d)).Sublist (asvSubmits d (v.log ++ [.wire c (data.take n)]))
              have hsu : asvSubmits d (v.log ++ [.wire c (data.take n)]) = asvSubmits d v.log := by
                rw [submits_append]; simp [asvSubmits]
              have hwi : asvWires d (v.log ++ [.wire c (data.take n)]) = asvWires d v.log ++ if c = d then [data] else [] := by
                rw [wires_append, hn, List.take_length]
                simp only [asvWires, List.filterMap_cons, List.filterMap_nil]
                by_cases hd : c = d <;> simp [hd]
              rw [hsu, hwi]
              by_cases hd : d = c
              · subst hd
                rw [if_pos rfl, (no_write (v := { v with flying := v.flying.eraseIdx i }) hnone).2, List.append_nil, ← hdata]
                exact h.sub d
              · rw [if_neg (fun hh => hd hh.symm), List.append_nil, hother d hd]
                exact h.sub d
          · cases hs
        · injection hs with hs; subst hs; exact h
      · injection hs with hs; subst hs
        refine ⟨fun d => hbusy d false, fun d b' e hm => h.buf d b' e (List.mem_of_mem_eraseIdx hm), fun d hf => h.fresh d ?_, fun d => ?_⟩
        · refine hf.imp_right fun ht => ?_
          have := (List.eraseIdx_sublist v.flying i).countP_le (p := tokOp d)
          simp only [tok, Asv.post, List.countP_append, List.countP_singleton, tokTask] at ht ⊢
          simp at ht
          omega
        · exact ((List.Sublist.refl _).append ((List.eraseIdx_sublist ..).filterMap _)).trans (h.sub d)
      · injection hs with hs; subst hs; exact h
  | run k rs =>
    simp only [Asv.step] at hs
    split at hs
    · injection hs with hs; subst hs; exact h
    · rename_i t hk
      have he := h.still (Still.eraseQueue v k)
      cases t with
      | startAccept =>
        injection hs with hs; subst hs
        unfold runStartAccept
        split
        · exact he
        · obtain ⟨w, hw⟩ : ∃ w, w = { v with queue := v.queue.eraseIdx k } := ⟨_, rfl⟩
          rw [← hw] at he ⊢
          refine he.still ⟨fun c => by simp [Asv.busy, isW], fun c => by simp [wData], fun c b d hm => by simpa using hm, fun _ => rfl, fun c hf => ?_, fun _ => rfl, fun _ => rfl⟩
          rcases hf with hf | hf
          · exact Or.inl (Nat.le_of_succ_le hf)
          · have : Asv.tok { w with list := w.list ++ [w.nextConn], nextConn := w.nextConn + 1, flying := w.flying ++ [.accept w.nextConn] } c =
                w.tok c + if w.nextConn = c then 1 else 0 := by
              simp only [tok, List.countP_append, List.countP_singleton, tokOp]
              simp only [decide_eq_true_eq]
              omega
            rw [this] at hf
            by_cases hc : w.nextConn = c
            · exact Or.inl (Nat.le_of_eq hc)
            · rw [if_neg hc] at hf; exact Or.inr hf
      | shutdown =>
        injection hs with hs; subst hs
        exact he.still (.runShutdown _)
      | close c =>
        injection hs with hs; subst hs
        exact he.still (.runClose _ c)
      | accepted c ok =>
        have hnone : (v.conns c).wbuf = none := by
          refine h.fresh c (Or.inr ?_)
          have : 0 < v.queue.countP (tokTask c) := List.countP_pos_iff.2 ⟨_, List.mem_of_getElem? hk, by simp [tokTask]⟩
          simp only [tok]; omega
        obtain ⟨w, hw⟩ : ∃ w, w = { v with queue := v.queue.eraseIdx k } := ⟨_, rfl⟩
        have hwn : (w.conns c).wbuf = none := by rw [hw]; exact hnone
        rw [← hw] at he hs
        have hsc : ∀ u : Asv, (u.conns c).wbuf = none → Still u (u.startConn c) := by
          intro u hu
          have h1 : Still u (u.setConn c { u.conns c with connected := true }) := .setConn u c rfl
          have h2 : (u.setConn c { u.conns c with connected := true }).sendBuffer c = u.setConn c { u.conns c with connected := true } := by
            unfold Asv.sendBuffer
            have : ((u.setConn c { u.conns c with connected := true }).conns c).wbuf = none := by simp [Asv.setConn, hu]
            rw [this]
          unfold Asv.startConn
          rw [h2]
          exact h1.trans (.beginRead _ c)
        have hj : Still w { w.emit (.joined c) with num := w.num + 1 } := .log rfl rfl rfl (fun _ => rfl) [.joined c] rfl (by simp [silent])
        simp only [Asv.runTask, onAccepted] at hs
        split at hs
        · injection hs with hs; subst hs; exact he
        · split at hs
          · split at hs
            · split at hs
              · cases hs
              · injection hs with hs; subst hs
                rename_i front _ _
                have h2 := hj.trans (Still.remove _ front)
                exact he.still ((h2.trans (hsc _ (by rw [h2.wbuf]; exact hwn))).trans (.startAccept _))
            · injection hs with hs; subst hs
              exact he.still ((hj.trans (hsc _ (by rw [hj.wbuf]; exact hwn))).trans (.startAccept _))
          · injection hs with hs; subst hs
            exact he.still (.remove _ c)
      | read c r =>
        injection hs with hs; subst hs
        cases r with
        | none => exact he.still (.fail _ c)
        | some bytes =>
          have hl := live_eraseQueue hi (c := c) hk (Or.inl rfl)
          rcases hp.1 k c bytes rs rfl hk with hr | ⟨⟨d, hr⟩, hb⟩
          · subst hr
            exact he.still ((Still.emit _ (e := .receive c bytes) rfl).trans (.beginRead _ c))
          · subst hr
            have h1 := he.still (Still.emit _ (e := .receive c bytes) rfl)
            have hb0 : Asv.busy (Asv.emit { v with queue := v.queue.eraseIdx k } (.receive c bytes)) c = 0 := by
              have e1 := not_busy hb
              have e2 := (Still.eraseQueue v k).busy c
              show Asv.busy { v with queue := v.queue.eraseIdx k } c = 0
              omega
            exact (h1.send (c := c) (hl.frame rfl rfl) hb0 d).still (.beginRead _ c)
      | written c ok =>
        injection hs with hs; subst hs
        cases ok with
        | false => exact he.still (.fail _ c)
        | true =>
          have hcnt := Tcp.countP_eraseIdx (isWr c) hk
          have hself : isWr c (.written c true) = true := by simp [isWr]
          rw [hself, if_pos rfl] at hcnt
          have hb1 := h.one c
          simp only [busy] at hb1
          have hnw := no_write (v := { v with queue := v.queue.eraseIdx k }) (c := c) (by show v.flying.countP (isW c) = 0; omega)
          have h2 : Wr (Asv.setConn { v with queue := v.queue.eraseIdx k } c { v.conns c with wbuf := none }) := by
            refine ⟨he.one, fun d b e hm => ?_, fun d hf => ?_, he.sub⟩
            · show (if d = c then _ else v.conns d).wbuf = _
              by_cases hd : d = c
              · subst hd; exact absurd hm (hnw.1 b e)
              · rw [if_neg hd]; exact he.buf d b e hm
            · show (if d = c then _ else v.conns d).wbuf = _
              by_cases hd : d = c
              · rw [if_pos hd]
              · rw [if_neg hd]; exact he.fresh d hf
          exact h2.still (.emit _ (e := .writeDone c) rfl)

theorem _root_.Modbus.Spec.AsvReach.wr {max : UInt32} {v : Asv} (h : AsvReach max PatientClients v) : Wr v := by
  induction h with
  | init => exact ⟨fun _ => Nat.zero_le _, fun c b d hm => (by cases hm), fun _ _ => rfl, fun _ => List.Sublist.refl _⟩
  | step hr hp hs ih => exact ih.step hr.inv hp hs

/-- Only a write whose buffer is gone, or the oldest connection of an empty list, can be undefined. -/
theorem step_ok {v : Asv} (h : Wr v) (op : Op) (hl : ∀ k rs c, op = .run k rs → v.queue[k]? = some (.accepted c true) → v.list ≠ []) : ∃ v', v.step op = .ret v' := by
  cases op with
  | start => exact ⟨_, rfl⟩
  | shutdown => exact ⟨_, rfl⟩
  | complete i r =>
    simp only [Asv.step, Asv.complete]
    split
    · exact ⟨_, rfl⟩
    · split <;> exact ⟨_, rfl⟩
    · split
      · split <;> exact ⟨_, rfl⟩
      · exact ⟨_, rfl⟩
      · exact ⟨_, rfl⟩
    · rename_i c b data hfi
      split
      · split
        · rw [h.buf c b data (List.mem_of_getElem? hfi)]
          exact ⟨_, if_pos rfl⟩
        · exact ⟨_, rfl⟩
      · exact ⟨_, rfl⟩
      · exact ⟨_, rfl⟩
  | run k rs =>
    simp only [Asv.step]
    split
    · exact ⟨_, rfl⟩
    · rename_i t hk
      cases t with
      | accepted c ok =>
        cases ok with
        | true =>
          have hne := hl k rs c rfl hk
          simp only [Asv.runTask, onAccepted]
          split
          · exact ⟨_, rfl⟩
          · rw [if_pos trivial]
            split
            · split
              · rename_i hn; exact absurd hn hne
              · exact ⟨_, rfl⟩
            · exact ⟨_, rfl⟩
        | false =>
          simp only [Asv.runTask, onAccepted]
          split
          · exact ⟨_, rfl⟩
          · exact ⟨_, rfl⟩
      | _ => exact ⟨_, rfl⟩

theorem step_down {v : Asv} (h : Wr v) (hd : v.isShutdown = true) (op : Op) : ∃ v', v.step op = .ret v' := by
  cases op with
  | run k rs =>
    simp only [Asv.step]
    split
    · exact ⟨_, rfl⟩
    · rename_i t hk
      cases t with
      | accepted c ok =>
        simp only [Asv.runTask, onAccepted]
        rw [if_pos hd]
        exact ⟨_, rfl⟩
      | _ => exact ⟨_, rfl⟩
  | _ => exact step_ok h _ (fun k rs c ho => by cases ho)

theorem isUB_eq {α : Type} {x : CM α} (h : (match x with | .ub => true | .ret _ => false) = true) : x = .ub := by
  cases x with
  | ub => rfl
  | ret _ => cases h

theorem startConn_queue {u : Asv} {c : Nat} {t : ATask} (h : t ∈ u.queue) : t ∈ (u.startConn c).startAccept.queue := by
  have e1 : ∀ (w : Asv) (x : ATask), t ∈ w.queue → t ∈ (w.post x).queue := fun w x hm => List.mem_append_left _ hm
  have e2 : ∀ (w : Asv) (d : Nat), t ∈ w.queue → t ∈ (w.sendBuffer d).queue := by
    intro w d hm
    unfold sendBuffer
    split
    · exact hm
    · split
      · dsimp only
        split
        · exact hm
        · exact e1 _ _ hm
      · exact hm
  have e3 : ∀ (w : Asv) (d : Nat), t ∈ w.queue → t ∈ (w.beginRead d).queue := by
    intro w d hm
    unfold beginRead
    repeat' split
    · exact hm
    · exact e1 _ _ hm
    · exact hm
  have e4 : ∀ (w : Asv), t ∈ w.queue → t ∈ w.startAccept.queue := by
    intro w hm
    unfold startAccept
    split
    · exact hm
    · exact e1 _ _ hm
  exact e4 _ (e3 _ _ (e2 _ _ h))

/-- Whoever is evicted will be closed. -/
theorem closes_evicted {v v' : Asv} (_hi : Inv v) (h : Ring v) {k c : Nat} (hk : v.queue[k]? = some (.accepted c true)) (hd : v.isShutdown = false)
    (hs : onAccepted { v with queue := v.queue.eraseIdx k } c true = .ret v') {old : Nat} (ho : old ∈ kept v.log) (hn : old ∉ kept v'.log) :
    ATask.close old ∈ v'.queue := by
  obtain ⟨_, _, hlist, _⟩ := h.take hk
  obtain ⟨w, hw⟩ : ∃ w : Asv, w = { Asv.emit { v with queue := v.queue.eraseIdx k } (.joined c) with num := v.num + 1 } := ⟨_, rfl⟩
  have hwk : kept w.log = kept v.log ++ [c] := by rw [hw]; exact kept_joined _ _
  have hwl : w.list = kept v.log ++ [c] := by rw [hw]; exact hlist
  have e1 : ∀ u : Asv, u.startAccept.log = u.log := by intro u; unfold Asv.startAccept; split <;> rfl
  have hun : Asv.onAccepted { v with queue := v.queue.eraseIdx k } c true =
      if w.max < w.num then
        match w.list with
        | [] => .ub
        | front :: _ => .ret ((w.removeConnection front).startConn c).startAccept
      else .ret (w.startConn c).startAccept := by
    rw [hw]
    unfold onAccepted
    rw [if_neg (by simp [hd]), if_pos rfl]
    rfl
  rw [hun] at hs
  split at hs
  · split at hs
    · cases hs
    · rename_i front rest hfl
      injection hs with hs
      subst hs
      have hfm : front ∈ w.list := by rw [hfl]; simp
      by_cases hof : old = front
      · subst hof
        refine startConn_queue ?_
        unfold removeConnection
        rw [if_pos hfm]
        simp [Asv.post, Asv.emit]
      · refine absurd ?_ hn
        rw [e1, (Same.startConn _ c).kept, (removed_same w front hfm).2.2.2.2.2.1, hwk]
        exact (List.mem_erase_of_ne hof).2 (List.mem_append_left _ ho)
  · injection hs with hs
    subst hs
    refine absurd ?_ hn
    rw [e1, (Same.startConn _ c).kept, hwk]
    exact List.mem_append_left _ ho

end Modbus.Asv
