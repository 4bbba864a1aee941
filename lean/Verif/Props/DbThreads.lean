import Verif.Lemmas.DbThreads
import Verif.Spec.DbThreads
import Verif.Props.Db

/-!
Property C41: concurrent users of the database are serialised.
-/

namespace Modbus.Props

open Modbus

theorem txStep_op (d : Spec.Tables) (o : TxOp) : Spec.txStep d o = Spec.dbStep d o.op := by cases o <;> rfl

theorem secTx_run (t : Tx) : ∀ (db : Db) (acc : List DbRes), db.WF →
    ∃ db', (secTx acc t).run db = .ret (db', acc ++ (Spec.runTx db.view t).2) ∧ db'.view = (Spec.runTx db.view t).1 ∧ db'.WF := by
  induction t with
  | done => intro db acc h; exact ⟨db, by simp [secTx, Sec.run, Spec.runTx], rfl, h⟩
  | op o k ih =>
    intro db acc h
    obtain ⟨d1, h1, h2, h3⟩ := Db.apply_spec h o.op
    obtain ⟨d2, g1, g2, g3⟩ := ih (Spec.dbStep db.view o.op).2 d1 (acc ++ [(Spec.dbStep db.view o.op).2]) h3
    refine ⟨d2, ?_, ?_, g3⟩
    · simp only [secTx, Sec.run_bind, secOp_run, h1, CM.ret_bind, g1, Spec.runTx, txStep_op, h2, List.append_assoc, List.singleton_append]
    · simp only [g2, h2, Spec.runTx, txStep_op]

/-- A call run without interruption does what the specification says. -/
theorem call_run (c : Call) {db : Db} (h : db.WF) :
    ∃ db', c.sec.run db = .ret (db', (Spec.exec db.view c).2) ∧ db'.view = (Spec.exec db.view c).1 ∧ db'.WF := by
  have one : ∀ o : DbOp, ∃ db', ((secOp o).bind fun x => .ret [x]).run db = .ret (db', [(Spec.dbStep db.view o).2]) ∧
      db'.view = (Spec.dbStep db.view o).1 ∧ db'.WF := by
    intro o
    obtain ⟨d1, h1, h2, h3⟩ := Db.apply_spec h o
    exact ⟨d1, by simp only [Sec.run_bind, secOp_run, h1, CM.ret_bind, Sec.run], h2, h3⟩
  cases c with
  | transaction t =>
    obtain ⟨d1, h1, h2, h3⟩ := secTx_run t db [] h
    exact ⟨d1, h1, h2, h3⟩
  | _ => exact one _

/-- What thread `i` still has to do. -/
def remaining : Thread → Prog
  | .idle p => p
  | .inside _ c k => .call c k

/-- The thread is not in the middle of a call. -/
def Outside : Thread → Prop
  | .idle _ => True
  | .inside .. => False

theorem serial_snoc {d d' : Spec.Tables} {tr : List (Nat × Call × List DbRes)} (h : Spec.Serial d tr d') (i : Nat) (c : Call) :
    Spec.Serial d (tr ++ [(i, c, (Spec.exec d' c).2)]) (Spec.exec d' c).1 := by
  induction h with
  | nil d => exact .cons rfl (.nil _)
  | cons h1 _ ih => exact .cons h1 ih

theorem does_snoc {p q : Prog} {cs : List (Call × List DbRes)} (h : Spec.Does p cs q) {c : Call} {k : List DbRes → Prog} (hq : q = .call c k)
    (r : List DbRes) : Spec.Does p (cs ++ [(c, r)]) (k r) := by
  induction h with
  | nil p => subst hq; exact .cons (.nil _)
  | cons _ ih => exact .cons (ih hq)

/-- Invariant of executions. -/
structure Inv41 (db₀ : Db) (ps : List Prog) (c : Threads) : Prop where
  len : c.threads.length = ps.length
  progs : ∀ (i : Nat) (h : i < ps.length) (t : Thread), c.threads[i]? = some t →
    Spec.Does ps[i] (Spec.callsOf i c.trace) (remaining t)
  state : ∃ db, db.WF ∧ Spec.Serial db₀.view c.trace db.view ∧
    match c.lock with
    | none => db = c.db ∧ ∀ t ∈ c.threads, Outside t
    | some i => (∃ s x k, c.threads[i]? = some (.inside s x k) ∧ s.run c.db = x.sec.run db) ∧
        ∀ j, j ≠ i → ∀ t, c.threads[j]? = some t → Outside t

theorem Inv41.init {db : Db} (h : db.WF) (ps : List Prog) : Inv41 db ps (.init db ps) := by
  refine ⟨by simp [Threads.init], ?_, db, h, .nil _, rfl, ?_⟩
  · intro i hi t ht
    simp only [Threads.init, List.getElem?_map, List.getElem?_eq_getElem hi, Option.map_some, Option.some.injEq] at ht
    subst ht
    exact .nil _
  · intro t ht
    simp only [Threads.init, List.mem_map] at ht
    obtain ⟨p, -, rfl⟩ := ht
    trivial

theorem Inv41.step {db₀ : Db} {ps : List Prog} {c : Threads} (h : Inv41 db₀ ps c) (i : Nat) :
    ∃ c', c.step i = .ret c' ∧ Inv41 db₀ ps c' := by
  obtain ⟨hlen, hprogs, db, hwf, hser, hst⟩ := h
  have hsame : Inv41 db₀ ps c := ⟨hlen, hprogs, db, hwf, hser, hst⟩
  rcases c with ⟨cdb, lock, threads, trace⟩
  simp only at hlen hprogs hser hst
  simp only [Threads.step]
  cases ht : threads[i]? with
  | none => exact ⟨_, rfl, hsame⟩
  | some t =>
    have hi : i < threads.length := (List.getElem?_eq_some_iff.1 ht).1
    have setSelf : ∀ u : Thread, (threads.set i u)[i]? = some u := fun u => by simp [hi]
    have setOther : ∀ (u : Thread) j, j ≠ i → (threads.set i u)[j]? = threads[j]? := fun u j hj => by
      rw [List.getElem?_set_ne (by omega)]
    cases t with
    | idle p =>
      cases p with
      | done => exact ⟨_, rfl, hsame⟩
      | call x k =>
        simp only [x.takesLock_eq, if_true]
        cases lock with
        | some o => exact ⟨_, rfl, hsame⟩
        | none =>
          obtain ⟨rfl, hout⟩ := hst
          refine ⟨_, rfl, by simpa using hlen, ?_, db, hwf, hser, ⟨_, _, _, setSelf _, rfl⟩, ?_⟩
          · intro j hj t' ht'
            by_cases hji : j = i
            · subst hji
              simp only [setSelf, Option.some.injEq] at ht'
              subst ht'
              exact (hprogs j hj _ ht : Spec.Does _ _ (.call x k))
            · simp only [setOther _ _ hji] at ht'
              exact hprogs j hj _ ht'
          · intro j hji t' ht'
            simp only [setOther _ _ hji] at ht'
            exact hout t' (List.mem_of_getElem? ht')
    | inside s x k =>
      cases lock with
      | none => exact (hst.2 _ (List.mem_of_getElem? ht)).elim
      | some o =>
        obtain ⟨⟨s', x', k', hs', hrun⟩, hout⟩ := hst
        have hio : i = o := by
          by_contra hne
          exact (hout i hne _ ht).elim
        subst hio
        rw [ht] at hs'
        cases hs'
        obtain ⟨db', hc1, hc2, hc3⟩ := call_run x hwf
        rw [hc1] at hrun
        cases s with
        | ub => simp [Sec.run] at hrun
        | ret r =>
          simp only [Sec.run, CM.ret.injEq, Prod.mk.injEq] at hrun
          obtain ⟨rfl, rfl⟩ := hrun
          simp only [x.takesLock_eq, if_true]
          refine ⟨_, rfl, by simpa using hlen, ?_, cdb, hc3, ?_, rfl, ?_⟩
          · intro j hj t' ht'
            simp only [Spec.callsOf, List.filter_append, List.map_append]
            by_cases hji : j = i
            · subst hji
              simp only [setSelf, Option.some.injEq] at ht'
              subst ht'
              simp only [List.filter_cons, decide_true, if_true, List.filter_nil, List.map_cons, List.map_nil, remaining]
              exact does_snoc (hprogs j hj _ ht) rfl _
            · simp only [setOther _ _ hji] at ht'
              simp only [List.filter_cons, show (decide (i = j)) = false by simpa using fun e => hji e.symm, Bool.false_eq_true, if_false, List.filter_nil, List.map_nil, List.append_nil]
              exact hprogs j hj _ ht'
          · rw [hc2]; exact serial_snoc hser i x
          · intro t' ht'
            obtain ⟨j, hj⟩ := List.getElem?_of_mem ht'
            by_cases hji : j = i
            · subst hji
              simp only [setSelf, Option.some.injEq] at hj
              subst hj
              trivial
            · simp only [setOther _ _ hji] at hj
              exact hout j hji _ hj
        | act f g =>
          simp only [Sec.run] at hrun
          cases hf : f cdb with
          | ub => rw [hf] at hrun; simp at hrun
          | ret db2 =>
            rw [hf] at hrun
            simp only at hrun
            refine ⟨⟨db2, some i, threads.set i (.inside (g cdb) x k), trace⟩, by simp only [hf], by simpa using hlen, ?_, db, hwf, hser, ⟨_, _, _, setSelf _, by rw [hc1, ← hrun]⟩, ?_⟩
            · intro j hj t' ht'
              by_cases hji : j = i
              · subst hji
                simp only [setSelf, Option.some.injEq] at ht'
                subst ht'
                exact (hprogs j hj _ ht : Spec.Does _ _ (.call x k))
              · simp only [setOther _ _ hji] at ht'
                exact hprogs j hj _ ht'
            · intro j hji t' ht'
              simp only [setOther _ _ hji] at ht'
              exact hout j hji _ ht'

theorem Inv41.run {db₀ : Db} {ps : List Prog} (sched : List Nat) : ∀ {c : Threads}, Inv41 db₀ ps c → ∃ c', c.run sched = .ret c' ∧ Inv41 db₀ ps c' := by
  induction sched with
  | nil => intro c h; exact ⟨c, rfl, h⟩
  | cons i is ih =>
    intro c h
    obtain ⟨c1, h1, h2⟩ := h.step i
    obtain ⟨c2, h3, h4⟩ := ih h2
    exact ⟨c2, by simp [Threads.run, h1, h3], h4⟩

/-- **C41.**  Threads running the programs `ps` on a database, scheduled in any way (`sched`).  No undefined behaviour
occurs.  The calls that have returned, in the order in which they returned, are a serial execution: carried out one
after another by the four maps of the specification they give the same results.  Each thread has made its calls in
program order, seeing these results.  Whenever no thread is in the middle of a call, the database contains what the
serial execution leaves. -/
theorem C41_serialised {db : Db} (h : DbReach db) (ps : List Prog) (sched : List Nat) :
    ∃ c d, (Threads.init db ps).run sched = .ret c ∧ Spec.Serial db.view c.trace d ∧ c.threads.length = ps.length ∧
      (∀ (i : Nat) (hi : i < ps.length) (t : Thread), c.threads[i]? = some t →
        Spec.Does ps[i] (Spec.callsOf i c.trace) (remaining t)) ∧
      ((∀ t ∈ c.threads, Outside t) → c.db.view = d) := by
  obtain ⟨c, h1, hlen, hp, d, hwf, hs, hl⟩ := (Inv41.init h.wf ps).run sched
  refine ⟨c, d.view, h1, hs, hlen, hp, ?_⟩
  intro hout
  cases hlock : c.lock with
  | none => rw [hlock] at hl; rw [hl.1]
  | some i =>
    rw [hlock] at hl
    obtain ⟨⟨s, x, k, hs, -⟩, -⟩ := hl
    exact (hout _ (List.mem_of_getElem? hs)).elim

/-- **C41** for complete executions: when all threads have finished, their calls, each thread's in program order, are a
serial execution that leaves the same database. -/
theorem C41_complete_executions {db : Db} (h : DbReach db) (ps : List Prog) (sched : List Nat) (c : Threads)
    (hrun : (Threads.init db ps).run sched = .ret c) (hdone : ∀ t ∈ c.threads, t = .idle .done) :
    Spec.Serial db.view c.trace c.db.view ∧
      ∀ (i : Nat) (hi : i < ps.length), Spec.Does ps[i] (Spec.callsOf i c.trace) .done := by
  obtain ⟨c', d, h1, h2, h3, h4, h5⟩ := C41_serialised h ps sched
  rw [hrun] at h1
  cases h1
  have := h5 (fun t ht => by rw [hdone t ht]; trivial)
  refine ⟨by rw [this]; exact h2, ?_⟩
  intro i hi
  have hic : i < c.threads.length := by omega
  have := h4 i hi _ (List.getElem?_eq_getElem hic)
  rw [hdone _ (List.getElem_mem hic)] at this
  exact this

/-- All threads have finished except possibly those in `l`. -/
def DoneBut (c : Threads) (n : Nat) : Prop := ∀ j, j < n → c.threads[j]? = some (.idle .done)

theorem run_append41 (xs ys : List Nat) : ∀ c : Threads, c.run (xs ++ ys) = (do let c ← c.run xs; c.run ys) := by
  induction xs with
  | nil => intro c; rfl
  | cons x xs ih =>
    intro c
    simp only [List.cons_append, Threads.run]
    cases c.step x with
    | ub => rfl
    | ret c' => simp [ih]

/-- The thread inside a call can finish it. -/
theorem finish_call {db₀ : Db} {ps : List Prog} (i : Nat) (s : Sec (List DbRes)) : ∀ {c : Threads} {x : Call} {k : List DbRes → Prog},
    Inv41 db₀ ps c → c.threads[i]? = some (.inside s x k) → ∃ sched c' r, c.run sched = .ret c' ∧
      c'.lock = none ∧ c'.threads = c.threads.set i (.idle (k r)) := by
  induction s with
  | ub =>
    intro c x k h ht
    obtain ⟨c1, h1, -⟩ := h.step i
    simp [Threads.step, ht] at h1
  | ret r =>
    intro c x k h ht
    refine ⟨[i], ⟨c.db, none, c.threads.set i (.idle (k r)), c.trace ++ [(i, x, r)]⟩, r, ?_, rfl, rfl⟩
    simp [Threads.run, Threads.step, ht, x.takesLock_eq]
  | act f g ih =>
    intro c x k h ht
    have hi : i < c.threads.length := (List.getElem?_eq_some_iff.1 ht).1
    obtain ⟨c1, h1, h2⟩ := h.step i
    have h1' := h1
    simp only [Threads.step, ht] at h1
    cases hf : f c.db with
    | ub => rw [hf] at h1; simp at h1
    | ret db =>
      rw [hf] at h1
      simp only [CM.ret.injEq] at h1
      obtain ⟨sched, c', r, g1, g2, g3⟩ := ih c.db (c := c1) (x := x) (k := k) h2 (by rw [← h1]; simp [hi])
      refine ⟨i :: sched, c', r, by simp [Threads.run, h1', g1], g2, ?_⟩
      rw [g3, ← h1]; simp

/-- With the mutex free, a thread can run to its end. -/
theorem finish_thread {db₀ : Db} {ps : List Prog} (i : Nat) (p : Prog) : ∀ {c : Threads},
    Inv41 db₀ ps c → c.lock = none → c.threads[i]? = some (.idle p) → ∃ sched c', c.run sched = .ret c' ∧
      c'.lock = none ∧ c'.threads = c.threads.set i (.idle .done) := by
  induction p with
  | done =>
    intro c h hl ht
    refine ⟨[], c, rfl, hl, ?_⟩
    obtain ⟨hi, ht⟩ := List.getElem?_eq_some_iff.1 ht
    rw [← ht, List.set_getElem_self]
  | call x k ih =>
    intro c h hl ht
    have hi : i < c.threads.length := (List.getElem?_eq_some_iff.1 ht).1
    obtain ⟨c1, h1, h2⟩ := h.step i
    have h1' := h1
    simp only [Threads.step, ht, x.takesLock_eq, if_true, hl, CM.ret.injEq] at h1
    obtain ⟨s2, c2, r, g1, g2, g3⟩ := finish_call i x.sec (c := c1) (x := x) (k := k) h2 (by rw [← h1]; simp [hi])
    obtain ⟨c2', e1, hinv⟩ := h2.run s2
    rw [g1] at e1
    cases e1
    obtain ⟨s3, c3, f1, f2, f3⟩ := ih r hinv g2 (by rw [g3, ← h1]; simp [hi])
    refine ⟨i :: (s2 ++ s3), c3, ?_, f2, ?_⟩
    · simp only [Threads.run, h1', CM.ret_bind, run_append41, g1, f1]
    · rw [f3, g3, ← h1]; simp

/-- **C41**: no deadlock.  From every point of every execution the threads can go on so that all of them finish. -/
theorem C41_no_deadlock {db : Db} (h : DbReach db) (ps : List Prog) (sched : List Nat) :
    ∃ sched' c, (Threads.init db ps).run (sched ++ sched') = .ret c ∧ c.threads.length = ps.length ∧ ∀ t ∈ c.threads, t = .idle .done := by
  obtain ⟨c, h1, hinv⟩ := (Inv41.init h.wf ps).run sched
  -- first whoever is inside a call finishes it
  have free : ∃ s c', c.run s = .ret c' ∧ c'.lock = none := by
    cases hl : c.lock with
    | none => exact ⟨[], c, rfl, hl⟩
    | some i =>
      obtain ⟨d, -, -, hst⟩ := hinv.state
      rw [hl] at hst
      obtain ⟨⟨s, x, k, hs, -⟩, -⟩ := hst
      obtain ⟨s1, c1, r, g1, g2, -⟩ := finish_call i s hinv hs
      exact ⟨s1, c1, g1, g2⟩
  obtain ⟨s1, c1, g1, hl1⟩ := free
  obtain ⟨c1', e1, hinv1⟩ := hinv.run s1
  rw [g1] at e1
  cases e1
  -- then one thread after another
  have all : ∀ n, n ≤ ps.length → ∃ s c', c1.run s = .ret c' ∧ c'.lock = none ∧ DoneBut c' n := by
    intro n
    induction n with
    | zero => intro _; exact ⟨[], c1, rfl, hl1, fun j hj => by omega⟩
    | succ n ih =>
      intro hn
      obtain ⟨s2, c2, k1, k2, k3⟩ := ih (by omega)
      obtain ⟨c2', e2, hinv2⟩ := hinv1.run s2
      rw [k1] at e2
      cases e2
      obtain ⟨d, -, -, hst⟩ := hinv2.state
      rw [k2] at hst
      have hn2 : n < c2.threads.length := by rw [hinv2.len]; omega
      have hout := hst.2 _ (List.getElem_mem hn2)
      cases ht : c2.threads[n] with
      | inside s x k => rw [ht] at hout; exact hout.elim
      | idle p =>
        obtain ⟨s3, c3, m1, m2, m3⟩ := finish_thread n p hinv2 k2 (by rw [List.getElem?_eq_getElem hn2, ht])
        refine ⟨s2 ++ s3, c3, by simp [run_append41, k1, m1], m2, ?_⟩
        intro j hj
        rw [m3]
        by_cases hjn : j = n
        · subst hjn; simp [hn2]
        · rw [List.getElem?_set_ne (by omega)]
          exact k3 j (by omega)
  obtain ⟨s2, c2, k1, k2, k3⟩ := all ps.length (Nat.le_refl _)
  obtain ⟨c2', e2, hinv2⟩ := hinv1.run s2
  rw [k1] at e2
  cases e2
  refine ⟨s1 ++ s2, c2, by simp [run_append41, h1, g1, k1], hinv2.len, ?_⟩
  intro t ht
  obtain ⟨j, hj⟩ := List.getElem?_of_mem ht
  have hjl : j < c2.threads.length := (List.getElem?_eq_some_iff.1 hj).1
  rw [k3 j (by rw [← hinv2.len]; exact hjl)] at hj
  simpa using hj.symm

/-- A transaction that increments register 65535 (get, then set to one more). -/
def incr : Tx := .op (.getHolding 65535) fun
  | .reg (some v) => .op (.setHolding 65535 (v + 1)) fun _ => .done
  | _ => .done

/-- Two threads, each incrementing the register once. -/
def incrThreads : List Prog := [.call (.transaction incr) fun _ => .done, .call (.transaction incr) fun _ => .done]

/-- The second thread's steps fall between the steps of the first: it waits, and no increment is lost. -/
example : ∃ c, (Threads.init demoDb incrThreads).run [0, 1, 0, 1, 0, 0, 1, 1, 1, 1] = .ret c ∧
    c.db.holdings.lookup 65535 = some 5 ∧ c.trace.map (·.1) = [0, 1] :=
  ⟨_, rfl, by decide +kernel, by decide +kernel⟩

end Modbus.Props
