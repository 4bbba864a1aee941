import Verif.Props.DbThreads
import Verif.Spec.DbThrowing

/-!
Executions of threads whose transactions may throw (no transaction calls the database itself): the invariant of C41 again.
-/

namespace Modbus.Props

open Modbus

theorem _root_.Modbus.CallT.takesLock_eq (x : CallT) : x.takesLock = true := by
  cases x with
  | plain c => exact c.takesLock_eq
  | transaction t => rfl

theorem secTxT_run (t : TxT) : ∀ (db : Db) (acc : List DbRes), Spec.NoOwn t → db.WF →
    ∃ db', (secTxT acc t).run db = .ret (db', acc ++ (Spec.runTxT db.view t).2.1, (Spec.runTxT db.view t).2.2) ∧ db'.view = (Spec.runTxT db.view t).1 ∧ db'.WF := by
  induction t with
  | done => intro db acc _ h; exact ⟨db, by simp [secTxT, Sec.run, Spec.runTxT], rfl, h⟩
  | throw => intro db acc _ h; exact ⟨db, by simp [secTxT, Sec.run, Spec.runTxT], rfl, h⟩
  | own c k _ => intro db acc hn; exact hn.elim
  | op o k ih =>
    intro db acc hn h
    obtain ⟨d1, h1, h2, h3⟩ := Db.apply_spec h o.op
    obtain ⟨d2, g1, g2, g3⟩ := ih (Spec.dbStep db.view o.op).2 d1 (acc ++ [(Spec.dbStep db.view o.op).2]) (hn _) h3
    refine ⟨d2, ?_, ?_, g3⟩
    · simp only [secTxT, Sec.run_bind, secOp_run, h1, CM.ret_bind, g1, Spec.runTxT, txStep_op, h2, List.append_assoc, List.singleton_append]
    · simp only [g2, h2, Spec.runTxT, txStep_op]

/-- A call run without interruption does what the specification says. -/
theorem call_runT (x : CallT) {k : List DbRes → Bool → ProgT} (hn : Spec.NoOwnProg (.call x k)) {db : Db} (h : db.WF) :
    ∃ db', x.sec.run db = .ret (db', (Spec.execT db.view x).2) ∧ db'.view = (Spec.execT db.view x).1 ∧ db'.WF := by
  cases x with
  | plain c =>
    obtain ⟨d1, h1, h2, h3⟩ := call_run c h
    exact ⟨d1, by simp only [CallT.sec, Sec.run_bind, h1, CM.ret_bind, Sec.run, Spec.execT], h2, h3⟩
  | transaction t =>
    obtain ⟨d1, h1, h2, h3⟩ := secTxT_run t db [] hn.1 h
    exact ⟨d1, h1, h2, h3⟩

theorem noOwn_next {x : CallT} {k : List DbRes → Bool → ProgT} (hn : Spec.NoOwnProg (.call x k)) (r : List DbRes) (b : Bool) : Spec.NoOwnProg (k r b) := by
  cases x with
  | plain c => exact hn r b
  | transaction t => exact hn.2 r b

theorem doesT_noOwn {p q : ProgT} {cs : List (CallT × List DbRes × Bool)} (h : Spec.DoesT p cs q) (hn : Spec.NoOwnProg p) : Spec.NoOwnProg q := by
  induction h with
  | nil p => exact hn
  | cons _ ih => exact ih (noOwn_next hn _ _)

/-- What thread `i` still has to do. -/
def remainingT : ThreadT → ProgT
  | .idle p => p
  | .inside _ c k => .call c k

/-- The thread is not in the middle of a call. -/
def OutsideT : ThreadT → Prop
  | .idle _ => True
  | .inside .. => False

theorem serialT_snoc {d d' : Spec.Tables} {tr : List (Nat × CallT × List DbRes × Bool)} (h : Spec.SerialBy Spec.execT d tr d') (i : Nat) (c : CallT) :
    Spec.SerialBy Spec.execT d (tr ++ [(i, c, (Spec.execT d' c).2)]) (Spec.execT d' c).1 := by
  induction h with
  | nil d => exact .cons rfl (.nil _)
  | cons h1 _ ih => exact .cons h1 ih

theorem doesT_snoc {p q : ProgT} {cs : List (CallT × List DbRes × Bool)} (h : Spec.DoesT p cs q) {c : CallT} {k : List DbRes → Bool → ProgT} (hq : q = .call c k)
    (r : List DbRes) (b : Bool) : Spec.DoesT p (cs ++ [(c, r, b)]) (k r b) := by
  induction h with
  | nil p => subst hq; exact .cons (.nil _)
  | cons _ ih => exact .cons (ih hq)

/-- Invariant of executions. -/
structure Inv136 (db₀ : Db) (ps : List ProgT) (c : ThreadsT) : Prop where
  len : c.threads.length = ps.length
  progs : ∀ (i : Nat) (h : i < ps.length) (t : ThreadT), c.threads[i]? = some t →
    Spec.DoesT ps[i] (Spec.callsOfT i c.trace) (remainingT t)
  state : ∃ db, db.WF ∧ Spec.SerialBy Spec.execT db₀.view c.trace db.view ∧
    match c.lock with
    | none => db = c.db ∧ ∀ t ∈ c.threads, OutsideT t
    | some i => (∃ s x k, c.threads[i]? = some (.inside s x k) ∧ s.run c.db = x.sec.run db) ∧
        ∀ j, j ≠ i → ∀ t, c.threads[j]? = some t → OutsideT t

theorem Inv136.init {db : Db} (h : db.WF) (ps : List ProgT) : Inv136 db ps (.init db ps) := by
  refine ⟨by simp [ThreadsT.init], ?_, db, h, .nil _, rfl, ?_⟩
  · intro i hi t ht
    simp only [ThreadsT.init, List.getElem?_map, List.getElem?_eq_getElem hi, Option.map_some, Option.some.injEq] at ht
    subst ht
    exact .nil _
  · intro t ht
    simp only [ThreadsT.init, List.mem_map] at ht
    obtain ⟨p, -, rfl⟩ := ht
    trivial

theorem Inv136.step {db₀ : Db} {ps : List ProgT} (hno : ∀ p ∈ ps, Spec.NoOwnProg p) {c : ThreadsT} (h : Inv136 db₀ ps c) (i : Nat) :
    ∃ c', c.step i = .ret c' ∧ Inv136 db₀ ps c' := by
  obtain ⟨hlen, hprogs, db, hwf, hser, hst⟩ := h
  have hsame : Inv136 db₀ ps c := ⟨hlen, hprogs, db, hwf, hser, hst⟩
  rcases c with ⟨cdb, lock, threads, trace⟩
  simp only at hlen hprogs hser hst
  simp only [ThreadsT.step]
  cases ht : threads[i]? with
  | none => exact ⟨_, rfl, hsame⟩
  | some t =>
    have hi : i < threads.length := (List.getElem?_eq_some_iff.1 ht).1
    have setSelf : ∀ u : ThreadT, (threads.set i u)[i]? = some u := fun u => by simp [hi]
    have setOther : ∀ (u : ThreadT) j, j ≠ i → (threads.set i u)[j]? = threads[j]? := fun u j hj => by
      rw [List.getElem?_set_ne (by omega)]
    cases t with
    | idle p =>
      cases p with
      | done => exact ⟨_, rfl, hsame⟩
      | call x k =>
        simp only [x.takesLock_eq, if_true]
        cases lock with
        | some o => exact ⟨_, rfl, hsame⟩
        | none =>
          obtain ⟨rfl, hout⟩ := hst
          refine ⟨_, rfl, by simpa using hlen, ?_, db, hwf, hser, ⟨_, _, _, setSelf _, rfl⟩, ?_⟩
          · intro j hj t' ht'
            by_cases hji : j = i
            · subst hji
              simp only [setSelf, Option.some.injEq] at ht'
              subst ht'
              exact (hprogs j hj _ ht : Spec.DoesT _ _ (.call x k))
            · simp only [setOther _ _ hji] at ht'
              exact hprogs j hj _ ht'
          · intro j hji t' ht'
            simp only [setOther _ _ hji] at ht'
            exact hout t' (List.mem_of_getElem? ht')
    | inside s x k =>
      cases lock with
      | none => exact (hst.2 _ (List.mem_of_getElem? ht)).elim
      | some o =>
        obtain ⟨⟨s', x', k', hs', hrun⟩, hout⟩ := hst
        have hio : i = o := by
          by_contra hne
          exact (hout i hne _ ht).elim
        subst hio
        rw [ht] at hs'
        cases hs'
        obtain ⟨db', hc1, hc2, hc3⟩ := call_runT x (doesT_noOwn (hprogs i (by omega) _ ht) (hno _ (List.getElem_mem _))) hwf
        rw [hc1] at hrun
        cases s with
        | ub => simp [Sec.run] at hrun
        | ret r =>
          simp only [Sec.run, CM.ret.injEq, Prod.mk.injEq] at hrun
          obtain ⟨rfl, rfl⟩ := hrun
          simp only [x.takesLock_eq, if_true]
          refine ⟨_, rfl, by simpa using hlen, ?_, cdb, hc3, ?_, rfl, ?_⟩
          · intro j hj t' ht'
            simp only [Spec.callsOfT, List.filter_append, List.map_append]
            by_cases hji : j = i
            · subst hji
              simp only [setSelf, Option.some.injEq] at ht'
              subst ht'
              simp only [List.filter_cons, decide_true, if_true, List.filter_nil, List.map_cons, List.map_nil, remainingT]
              exact doesT_snoc (hprogs j hj _ ht) rfl _ _
            · simp only [setOther _ _ hji] at ht'
              simp only [List.filter_cons, show (decide (i = j)) = false by simpa using fun e => hji e.symm, Bool.false_eq_true, if_false, List.filter_nil, List.map_nil, List.append_nil]
              exact hprogs j hj _ ht'
          · rw [hc2]; exact serialT_snoc hser i x
          · intro t' ht'
            obtain ⟨j, hj⟩ := List.getElem?_of_mem ht'
            by_cases hji : j = i
            · subst hji
              simp only [setSelf, Option.some.injEq] at hj
              subst hj
              trivial
            · simp only [setOther _ _ hji] at hj
              exact hout j hji _ hj
        | act f g =>
          simp only [Sec.run] at hrun
          cases hf : f cdb with
          | ub => rw [hf] at hrun; simp at hrun
          | ret db2 =>
            rw [hf] at hrun
            simp only at hrun
            refine ⟨⟨db2, some i, threads.set i (.inside (g cdb) x k), trace⟩, by simp only [hf], by simpa using hlen, ?_, db, hwf, hser, ⟨_, _, _, setSelf _, by rw [hc1, ← hrun]⟩, ?_⟩
            · intro j hj t' ht'
              by_cases hji : j = i
              · subst hji
                simp only [setSelf, Option.some.injEq] at ht'
                subst ht'
                exact (hprogs j hj _ ht : Spec.DoesT _ _ (.call x k))
              · simp only [setOther _ _ hji] at ht'
                exact hprogs j hj _ ht'
            · intro j hji t' ht'
              simp only [setOther _ _ hji] at ht'
              exact hout j hji _ ht'

theorem Inv136.run {db₀ : Db} {ps : List ProgT} (hno : ∀ p ∈ ps, Spec.NoOwnProg p) (sched : List Nat) : ∀ {c : ThreadsT}, Inv136 db₀ ps c → ∃ c', c.run sched = .ret c' ∧ Inv136 db₀ ps c' := by
  induction sched with
  | nil => intro c h; exact ⟨c, rfl, h⟩
  | cons i is ih =>
    intro c h
    obtain ⟨c1, h1, h2⟩ := h.step hno i
    obtain ⟨c2, h3, h4⟩ := ih h2
    exact ⟨c2, by simp [ThreadsT.run, h1, h3], h4⟩

/-- All threads have finished except possibly those in `l`. -/
def DoneButT (c : ThreadsT) (n : Nat) : Prop := ∀ j, j < n → c.threads[j]? = some (.idle .done)

theorem run_append136 (xs ys : List Nat) : ∀ c : ThreadsT, c.run (xs ++ ys) = (do let c ← c.run xs; c.run ys) := by
  induction xs with
  | nil => intro c; rfl
  | cons x xs ih =>
    intro c
    simp only [List.cons_append, ThreadsT.run]
    cases c.step x with
    | ub => rfl
    | ret c' => simp [ih]

/-- The thread inside a call can finish it. -/
theorem finish_callT {db₀ : Db} {ps : List ProgT} (hno : ∀ p ∈ ps, Spec.NoOwnProg p) (i : Nat) (s : Sec (List DbRes × Bool)) : ∀ {c : ThreadsT} {x : CallT} {k : List DbRes → Bool → ProgT},
    Inv136 db₀ ps c → c.threads[i]? = some (.inside s x k) → ∃ sched c', ∃ r : List DbRes × Bool, c.run sched = .ret c' ∧
      c'.lock = none ∧ c'.threads = c.threads.set i (.idle (k r.1 r.2)) := by
  induction s with
  | ub =>
    intro c x k h ht
    obtain ⟨c1, h1, -⟩ := h.step hno i
    simp [ThreadsT.step, ht] at h1
  | ret r =>
    intro c x k h ht
    refine ⟨[i], ⟨c.db, none, c.threads.set i (.idle (k r.1 r.2)), c.trace ++ [(i, x, r)]⟩, r, ?_, rfl, rfl⟩
    simp [ThreadsT.run, ThreadsT.step, ht, x.takesLock_eq]
  | act f g ih =>
    intro c x k h ht
    have hi : i < c.threads.length := (List.getElem?_eq_some_iff.1 ht).1
    obtain ⟨c1, h1, h2⟩ := h.step hno i
    have h1' := h1
    simp only [ThreadsT.step, ht] at h1
    cases hf : f c.db with
    | ub => rw [hf] at h1; simp at h1
    | ret db =>
      rw [hf] at h1
      simp only [CM.ret.injEq] at h1
      obtain ⟨sched, c', r, g1, g2, g3⟩ := ih c.db (c := c1) (x := x) (k := k) h2 (by rw [← h1]; simp [hi])
      refine ⟨i :: sched, c', r, by simp [ThreadsT.run, h1', g1], g2, ?_⟩
      rw [g3, ← h1]; simp

/-- With the mutex free, a thread can run to its end. -/
theorem finish_threadT {db₀ : Db} {ps : List ProgT} (hno : ∀ p ∈ ps, Spec.NoOwnProg p) (i : Nat) (p : ProgT) : ∀ {c : ThreadsT},
    Inv136 db₀ ps c → c.lock = none → c.threads[i]? = some (.idle p) → ∃ sched c', c.run sched = .ret c' ∧
      c'.lock = none ∧ c'.threads = c.threads.set i (.idle .done) := by
  induction p with
  | done =>
    intro c h hl ht
    refine ⟨[], c, rfl, hl, ?_⟩
    obtain ⟨hi, ht⟩ := List.getElem?_eq_some_iff.1 ht
    rw [← ht, List.set_getElem_self]
  | call x k ih =>
    intro c h hl ht
    have hi : i < c.threads.length := (List.getElem?_eq_some_iff.1 ht).1
    obtain ⟨c1, h1, h2⟩ := h.step hno i
    have h1' := h1
    simp only [ThreadsT.step, ht, x.takesLock_eq, if_true, hl, CM.ret.injEq] at h1
    obtain ⟨s2, c2, r, g1, g2, g3⟩ := finish_callT hno i x.sec (c := c1) (x := x) (k := k) h2 (by rw [← h1]; simp [hi])
    obtain ⟨c2', e1, hinv⟩ := h2.run hno s2
    rw [g1] at e1
    cases e1
    obtain ⟨s3, c3, f1, f2, f3⟩ := ih r.1 r.2 hinv g2 (by rw [g3, ← h1]; simp [hi])
    refine ⟨i :: (s2 ++ s3), c3, ?_, f2, ?_⟩
    · simp only [ThreadsT.run, h1', CM.ret_bind, run_append136, g1, f1]
    · rw [f3, g3, ← h1]; simp

end Modbus.Props
