import Verif.Lemmas.DbThrowing

/-!
C136: transactions that throw.  C137: transactions that call the database they run on.
-/

namespace Modbus.Props

open Modbus

/-- C136, full statement: whatever transactions throw, every execution gives the same results and the same database as carrying out the calls one after another, with a transaction that
throws having no effect. -/
def C136_Statement : Prop := ∀ (db : Db), DbReach db → ∀ ps : List ProgT, (∀ p ∈ ps, Spec.NoOwnProg p) → ∀ (sched : List Nat) (c : ThreadsT),
  (ThreadsT.init db ps).run sched = .ret c → (∀ t ∈ c.threads, t = .idle .done) → Spec.SerialBy Spec.execUndo db.view c.trace c.db.view

/-- Sets register 65535 and throws. -/
def setAndThrow : TxT := .op (.setHolding 65535 99) fun _ => .throw

/-- One thread that does this. -/
def throwingThreads : List ProgT := [.call (.transaction setAndThrow) fun _ _ => .done]

/-- C136 does not hold: what the transaction did before the exception stays. -/
theorem C136_violated : ¬ C136_Statement := by
  intro h
  have hr : ∃ c, (ThreadsT.init demoDb throwingThreads).run [0, 0, 0] = .ret c ∧ c.threads = [.idle .done] ∧ c.trace = [(0, .transaction setAndThrow, [.done true], true)] ∧
      c.db.holdings.lookup 65535 = some 99 := ⟨_, rfl, rfl, rfl, by decide +kernel⟩
  obtain ⟨c, h1, h2, h3, h4⟩ := hr
  have := h demoDb demoDb_reach throwingThreads (by intro p hp; simp only [throwingThreads, List.mem_singleton] at hp; subst hp; exact ⟨fun _ => trivial, fun _ _ => trivial⟩) [0, 0, 0] c h1
    (by rw [h2]; simp)
  rw [h3] at this
  generalize hv : c.db.view = d at this
  cases this with
  | cons e1 e2 =>
    cases e2
    have h5 : (Spec.execUndo demoDb.view (.transaction setAndThrow)).1.holdings 65535 = demoDb.view.holdings 65535 := rfl
    rw [← hv] at h5
    have h6 : c.db.view.holdings 65535 = c.db.holdings.lookup 65535 := rfl
    rw [h6, h4] at h5
    revert h5
    decide +kernel

/-- C136, with "has no effect" replaced by "has the effects of what it did before the exception".  Threads whose transactions may throw, scheduled in any way: no undefined behaviour
occurs; the calls that have ended, in the order in which they ended, are a serial execution, each transaction being carried out up to its end or its exception; each thread has made its
calls in program order and seen what they gave and whether they threw; whenever no thread is in the middle of a call the database contains what the serial execution leaves. -/
theorem C136_serialised_partial {db : Db} (h : DbReach db) (ps : List ProgT) (hno : ∀ p ∈ ps, Spec.NoOwnProg p) (sched : List Nat) :
    ∃ c d, (ThreadsT.init db ps).run sched = .ret c ∧ Spec.SerialBy Spec.execT db.view c.trace d ∧ c.threads.length = ps.length ∧
      (∀ (i : Nat) (hi : i < ps.length) (t : ThreadT), c.threads[i]? = some t → Spec.DoesT ps[i] (Spec.callsOfT i c.trace) (remainingT t)) ∧
      ((∀ t ∈ c.threads, OutsideT t) → c.db.view = d) := by
  obtain ⟨c, h1, hlen, hp, d, hwf, hs, hl⟩ := (Inv136.init h.wf ps).run hno sched
  refine ⟨c, d.view, h1, hs, hlen, hp, ?_⟩
  intro hout
  cases hlock : c.lock with
  | none => rw [hlock] at hl; rw [hl.1]
  | some i =>
    rw [hlock] at hl
    obtain ⟨⟨s, x, k, hs, -⟩, -⟩ := hl
    exact (hout _ (List.mem_of_getElem? hs)).elim

/-- The transaction does nothing before it throws. -/
def ThrowsFirst (d : Spec.Tables) (x : CallT) : Prop := (Spec.execT d x).2.2 = true → (Spec.execT d x).1 = d

/-- C136 holds as stated when transactions throw before they change anything: then a transaction that throws has no effect. -/
theorem C136_undone_partial {db : Db} (h : DbReach db) (ps : List ProgT) (hno : ∀ p ∈ ps, Spec.NoOwnProg p) (sched : List Nat) (c : ThreadsT)
    (hrun : (ThreadsT.init db ps).run sched = .ret c) (hdone : ∀ t ∈ c.threads, t = .idle .done) (hfirst : ∀ e ∈ c.trace, ∀ d, ThrowsFirst d e.2.1) :
    Spec.SerialBy Spec.execUndo db.view c.trace c.db.view := by
  obtain ⟨c', d, h1, h2, -, -, h5⟩ := C136_serialised_partial h ps hno sched
  rw [hrun] at h1
  cases h1
  rw [h5 (fun t ht => by rw [hdone t ht]; trivial)]
  clear h5 hdone hrun
  generalize c.trace = tr at *
  generalize db.view = d0 at *
  induction h2 with
  | nil d => exact .nil d
  | @cons d d' i x r calls e1 _ ih =>
    have he : Spec.execUndo d x = Spec.execT d x := by
      have := hfirst _ (List.mem_cons_self ..) d
      simp only [ThrowsFirst] at this
      simp only [Spec.execUndo]
      split
      · rename_i hb; exact Prod.ext (this hb).symm rfl
      · rfl
    refine .cons (by rw [he]; exact e1) ?_
    rw [he]
    exact ih fun e hm => hfirst e (List.mem_cons_of_mem _ hm)

/-- C136, no deadlock, whatever is thrown.  From every point of every execution the threads can go on so that all of them finish. -/
theorem C136_no_deadlock {db : Db} (h : DbReach db) (ps : List ProgT) (hno : ∀ p ∈ ps, Spec.NoOwnProg p) (sched : List Nat) :
    ∃ sched' c, (ThreadsT.init db ps).run (sched ++ sched') = .ret c ∧ c.threads.length = ps.length ∧ ∀ t ∈ c.threads, t = .idle .done := by
  obtain ⟨c, h1, hinv⟩ := (Inv136.init h.wf ps).run hno sched
  -- first whoever is inside a call finishes it
  have free : ∃ s c', c.run s = .ret c' ∧ c'.lock = none := by
    cases hl : c.lock with
    | none => exact ⟨[], c, rfl, hl⟩
    | some i =>
      obtain ⟨d, -, -, hst⟩ := hinv.state
      rw [hl] at hst
      obtain ⟨⟨s, x, k, hs, -⟩, -⟩ := hst
      obtain ⟨s1, c1, r, g1, g2, -⟩ := finish_callT hno i s hinv hs
      exact ⟨s1, c1, g1, g2⟩
  obtain ⟨s1, c1, g1, hl1⟩ := free
  obtain ⟨c1', e1, hinv1⟩ := hinv.run hno s1
  rw [g1] at e1
  cases e1
  -- then one thread after another
  have all : ∀ n, n ≤ ps.length → ∃ s c', c1.run s = .ret c' ∧ c'.lock = none ∧ DoneButT c' n := by
    intro n
    induction n with
    | zero => intro _; exact ⟨[], c1, rfl, hl1, fun j hj => by omega⟩
    | succ n ih =>
      intro hn
      obtain ⟨s2, c2, k1, k2, k3⟩ := ih (by omega)
      obtain ⟨c2', e2, hinv2⟩ := hinv1.run hno s2
      rw [k1] at e2
      cases e2
      obtain ⟨d, -, -, hst⟩ := hinv2.state
      rw [k2] at hst
      have hn2 : n < c2.threads.length := by rw [hinv2.len]; omega
      have hout := hst.2 _ (List.getElem_mem hn2)
      cases ht : c2.threads[n] with
      | inside s x k => rw [ht] at hout; exact hout.elim
      | idle p =>
        obtain ⟨s3, c3, m1, m2, m3⟩ := finish_threadT hno n p hinv2 k2 (by rw [List.getElem?_eq_getElem hn2, ht])
        refine ⟨s2 ++ s3, c3, by simp [run_append136, k1, m1], m2, ?_⟩
        intro j hj
        rw [m3]
        by_cases hjn : j = n
        · subst hjn; simp [hn2]
        · rw [List.getElem?_set_ne (by omega)]
          exact k3 j (by omega)
  obtain ⟨s2, c2, k1, k2, k3⟩ := all ps.length (Nat.le_refl _)
  obtain ⟨c2', e2, hinv2⟩ := hinv1.run hno s2
  rw [k1] at e2
  cases e2
  refine ⟨s1 ++ s2, c2, by simp [run_append136, h1, g1, k1], hinv2.len, ?_⟩
  intro t ht
  obtain ⟨j, hj⟩ := List.getElem?_of_mem ht
  have hjl : j < c2.threads.length := (List.getElem?_eq_some_iff.1 hj).1
  rw [k3 j (by rw [← hinv2.len]; exact hjl)] at hj
  simpa using hj.symm

/-- C137, full statement: transactions may use every function of the database, in every execution. -/
def C137_Statement : Prop := ∀ (db : Db), DbReach db → ∀ (ps : List ProgT) (sched : List Nat), (ThreadsT.init db ps).run sched ≠ .ub

/-- Adds a register from inside a transaction. -/
def addInside : TxT := .own (.addHolding 7 1) fun _ => .done

/-- C137 does not hold: the function of the database locks the mutex the transaction holds. -/
theorem C137_violated : ¬ C137_Statement := by
  intro h
  exact h demoDb demoDb_reach [.call (.transaction addInside) fun _ _ => .done] [0, 0] rfl

/-- C137, what is left: executions in which no transaction can call the database itself are never undefined. -/
theorem C137_defined_partial {db : Db} (h : DbReach db) (ps : List ProgT) (hno : ∀ p ∈ ps, Spec.NoOwnProg p) (sched : List Nat) : (ThreadsT.init db ps).run sched ≠ .ub := by
  obtain ⟨c, -, h1, -⟩ := C136_serialised_partial h ps hno sched
  rw [h1]
  intro h
  cases h

theorem secTxT_run_ub (t : TxT) : ∀ (db : Db) (acc : List DbRes), db.WF → ((secTxT acc t).run db = .ub ↔ Spec.CallsOwn db.view t) := by
  induction t with
  | done => intro db acc h; simp [secTxT, Sec.run, Spec.CallsOwn]
  | throw => intro db acc h; simp [secTxT, Sec.run, Spec.CallsOwn]
  | own c k _ => intro db acc h; simp [secTxT, Sec.run, Spec.CallsOwn, c.takesLock_eq]
  | op o k ih =>
    intro db acc h
    obtain ⟨d1, h1, h2, h3⟩ := Db.apply_spec h o.op
    have := ih (Spec.dbStep db.view o.op).2 d1 (acc ++ [(Spec.dbStep db.view o.op).2]) h3
    simp only [secTxT, Sec.run_bind, secOp_run, h1, CM.ret_bind, Spec.CallsOwn, txStep_op, ← h2]
    exact this

theorem inside_alone (x : CallT) (s : Sec (List DbRes × Bool)) : ∀ (c : ThreadsT), c.threads = [.inside s x fun _ _ => .done] →
    (s.run c.db = .ub ↔ ∃ n, c.run (List.replicate n 0) = .ub) := by
  induction s with
  | ub =>
    intro c hc
    exact ⟨fun _ => ⟨1, by simp [ThreadsT.run, ThreadsT.step, hc]⟩, fun _ => rfl⟩
  | ret r =>
    intro c hc
    have idle : ∀ n (c : ThreadsT), c.threads = [.idle .done] → c.run (List.replicate n 0) = .ret c := by
      intro n
      induction n with
      | zero => intro c _; rfl
      | succ n ih => intro c hc; simp [List.replicate_succ, ThreadsT.run, ThreadsT.step, hc, ih]
    refine ⟨fun h => by simp [Sec.run] at h, fun ⟨n, hn⟩ => ?_⟩
    cases n with
    | zero => simp [ThreadsT.run] at hn
    | succ n =>
      simp only [List.replicate_succ, ThreadsT.run, ThreadsT.step, hc, List.getElem?_cons_zero, CM.ret_bind, List.set_cons_zero] at hn
      rw [idle n _ rfl] at hn
      cases hn
  | act f g ih =>
    intro c hc
    cases hf : f c.db with
    | ub =>
      refine ⟨fun _ => ⟨1, by simp [ThreadsT.run, ThreadsT.step, hc, hf]⟩, fun _ => by simp [Sec.run, hf]⟩
    | ret db =>
      have := ih c.db { c with db := db, threads := [.inside (g c.db) x fun _ _ => .done] } rfl
      simp only [Sec.run, hf]
      rw [this]
      constructor
      · rintro ⟨n, hn⟩
        exact ⟨n + 1, by simpa [List.replicate_succ, ThreadsT.run, ThreadsT.step, hc, hf] using hn⟩
      · rintro ⟨n, hn⟩
        cases n with
        | zero => simp [ThreadsT.run] at hn
        | succ n => exact ⟨n, by simpa [List.replicate_succ, ThreadsT.run, ThreadsT.step, hc, hf] using hn⟩

/-- C137, exactly: a transaction alone on the database comes to undefined behaviour if and only if it comes to call the database itself, whatever function it calls and whatever it did
before. -/
theorem C137_exactly {db : Db} (h : DbReach db) (t : TxT) :
    (∃ n, (ThreadsT.init db [.call (.transaction t) fun _ _ => .done]).run (List.replicate n 0) = .ub) ↔ Spec.CallsOwn db.view t := by
  rw [← secTxT_run_ub t db [] h.wf]
  have := inside_alone (.transaction t) (secTxT [] t) ⟨db, some 0, [.inside (secTxT [] t) (.transaction t) fun _ _ => .done], []⟩ rfl
  rw [this]
  constructor
  · rintro ⟨n, hn⟩
    cases n with
    | zero => simp [ThreadsT.run] at hn
    | succ n => exact ⟨n, by simpa [List.replicate_succ, ThreadsT.run, ThreadsT.step, ThreadsT.init, CallT.takesLock, CallT.sec] using hn⟩
  · rintro ⟨n, hn⟩
    exact ⟨n + 1, by simpa [List.replicate_succ, ThreadsT.run, ThreadsT.step, ThreadsT.init, CallT.takesLock, CallT.sec] using hn⟩

/-- Increments register 65535 and throws if there is none. -/
def incrOrThrow : TxT := .op (.getHolding 65535) fun
  | .reg (some v) => .op (.setHolding 65535 (v + 1)) fun _ => .done
  | _ => .throw

/-- Two threads; the first sets the register and throws, and then increments it. -/
def mixedThreads : List ProgT :=
  [.call (.transaction setAndThrow) fun _ b => if b then .call (.transaction incrOrThrow) fun _ _ => .done else .done, .call (.transaction incrOrThrow) fun _ _ => .done]

theorem incrOrThrow_noOwn : Spec.NoOwn incrOrThrow := by
  intro x
  match x with
  | .reg (some v) => exact fun _ => trivial
  | .reg none => trivial
  | .done _ => trivial
  | .bit _ => trivial
  | .response _ _ => trivial

/-- They meet the condition of `C136_serialised_partial`; the mutex is released after the exception, and no increment is lost. -/
example : (∀ p ∈ mixedThreads, Spec.NoOwnProg p) ∧ ∃ c, (ThreadsT.init demoDb mixedThreads).run [0, 1, 0, 1, 0, 1, 0, 1, 0, 1, 1, 0, 0, 0, 0] = .ret c ∧
    c.db.holdings.lookup 65535 = some 101 ∧ c.trace.map (fun e => (e.1, e.2.2.2)) = [(0, true), (1, false), (0, false)] := by
  refine ⟨?_, _, rfl, by decide +kernel, by decide +kernel⟩
  intro p hp
  simp only [mixedThreads, List.mem_cons, List.not_mem_nil, or_false] at hp
  rcases hp with rfl | rfl
  · refine ⟨fun _ => trivial, fun _ b => ?_⟩
    cases b
    · trivial
    · exact ⟨incrOrThrow_noOwn, fun _ _ => trivial⟩
  · exact ⟨incrOrThrow_noOwn, fun _ _ => trivial⟩

/-- `incrOrThrow` throws before it changes anything, if at all. -/
example : ∀ d, ThrowsFirst d (.transaction incrOrThrow) := by
  intro d
  simp only [ThrowsFirst, Spec.execT, incrOrThrow, Spec.runTxT, Spec.txStep, Spec.dbStep]
  cases d.holdings 65535 <;> simp [Spec.runTxT]

/-- Comes to call the database itself, but only after it has found the register. -/
example : Spec.CallsOwn demoDb.view (.op (.getHolding 65535) fun | .reg (some _) => addInside | _ => .done) := trivial

end Modbus.Props
