import Verif.Lemmas.Db

/-!
Properties C35-C40: the in-memory database.

Tables are observed through `Db.view`, which gives the four finite maps held by the database as plain functions from
addresses to optional values (`List.lookup` in the list of elements).  `Verif.Spec.Db` is the separate specification.
-/

namespace Modbus.Props

open Modbus

/-- Databases a program can come to: those left by some history of operations on a new database. -/
def DbReach (db : Db) : Prop := ∃ ops rs, Db.empty.run ops = .ret (db, rs)

/-- Every history keeps the invariant and agrees with the specification, from any well-formed database. -/
theorem run_refines {db : Db} (h : db.WF) (ops : List DbOp) :
    ∃ db', db.run ops = .ret (db', (Spec.dbRun db.view ops).2) ∧ db'.view = (Spec.dbRun db.view ops).1 ∧ db'.WF := by
  induction ops generalizing db with
  | nil => exact ⟨db, rfl, rfl, h⟩
  | cons op ops ih =>
    obtain ⟨d1, h1, h2, h3⟩ := Db.apply_spec h op
    obtain ⟨d2, g1, g2, g3⟩ := ih h3
    refine ⟨d2, ?_, ?_, g3⟩
    · simp only [Db.run, h1, CM.ret_bind, g1, Spec.dbRun, h2]
      rfl
    · rw [g2, h2]; rfl

theorem DbReach.wf {db : Db} (h : DbReach db) : db.WF := by
  obtain ⟨ops, rs, h⟩ := h
  obtain ⟨db', h1, -, h3⟩ := run_refines Db.WF.empty ops
  rw [h] at h1
  cases h1
  exact h3

theorem run_append (db : Db) (xs ys : List DbOp) : db.run (xs ++ ys) = (do
    let (db, rs) ← db.run xs
    let (db, rs') ← db.run ys
    return (db, rs ++ rs')) := by
  induction xs generalizing db with
  | nil =>
    simp only [List.nil_append, Db.run, CM.ret_bind]
    cases db.run ys <;> rfl
  | cons x xs ih =>
    simp only [List.cons_append, Db.run]
    cases hx : db.apply x with
    | ub => rfl
    | ret y =>
      simp only [CM.ret_bind, ih]
      cases hxs : y.1.run xs with
      | ub => rfl
      | ret z =>
        simp only [CM.ret_bind]
        simp only [CM.pure_eq, CM.ret_bind]
        cases hys : z.1.run ys <;> rfl

theorem DbReach.snoc {db db' : Db} {op : DbOp} {r : DbRes} (h : DbReach db) (hop : db.apply op = .ret (db', r)) : DbReach db' := by
  obtain ⟨ops, rs, h⟩ := h
  exact ⟨ops ++ [op], rs ++ [r], by rw [run_append, h]; simp [Db.run, hop]⟩

/-- **C35.**  Whatever the history of operations, no undefined behaviour occurs, every result is the one the four
independent maps of the specification give, and the final content is the same. -/
theorem C35_refines_four_maps (ops : List DbOp) :
    ∃ db, Db.empty.run ops = .ret (db, (Spec.dbRun Spec.noTables ops).2) ∧ db.view = (Spec.dbRun Spec.noTables ops).1 := by
  obtain ⟨db, h1, h2, -⟩ := run_refines Db.WF.empty ops
  exact ⟨db, h1, h2⟩

/-- The table an operation is about. -/
inductive Tbl where
  | coils | discretes | holdings | inputs
deriving DecidableEq

/-- The table an operation is about. -/
def tableOf : DbOp → Tbl
  | .addCoil .. | .getCoil .. | .setCoil .. => .coils
  | .addDiscrete .. | .getDiscrete .. | .setDiscrete .. => .discretes
  | .addHolding .. | .getHolding .. | .setHolding .. => .holdings
  | .addInput .. | .getInput .. | .setInput .. => .inputs
  | .request .readCoils _ | .request .writeSingleCoil _ | .request .writeMultipleCoils _ => .coils
  | .request .readDiscreteInputs _ => .discretes
  | .request .readHoldingRegisters _ | .request .writeSingleRegister _ | .request .writeMultipleRegisters _ => .holdings
  | .request .readInputRegisters _ => .inputs

/-- The results of the operations about table `τ`. -/
def resultsFor (τ : Tbl) (ops : List DbOp) (rs : List DbRes) : List DbRes :=
  ((ops.zip rs).filter fun x => tableOf x.1 = τ).map (·.2)

/-- Two contents agree on a table. -/
def Agree (τ : Tbl) (d e : Spec.Tables) : Prop :=
  match τ with
  | .coils => d.coils = e.coils
  | .discretes => d.discretes = e.discretes
  | .holdings => d.holdings = e.holdings
  | .inputs => d.inputs = e.inputs

theorem step_same {τ : Tbl} {d e : Spec.Tables} (h : Agree τ d e) (op : DbOp) (ht : tableOf op = τ) :
    Agree τ (Spec.dbStep d op).1 (Spec.dbStep e op).1 ∧ (Spec.dbStep d op).2 = (Spec.dbStep e op).2 := by
  subst ht
  rcases d with ⟨c, di, ho, i⟩
  rcases e with ⟨c', di', ho', i'⟩
  cases op with
  | request k r =>
    cases k <;> simp only [tableOf, Agree] at h <;> subst h <;> simp only [Spec.dbStep, Spec.serve, Agree, tableOf] <;> (try split) <;> first | exact ⟨rfl, rfl⟩ | exact ⟨trivial, rfl⟩ | exact ⟨trivial, trivial⟩
  | _ => simp only [tableOf, Agree] at h; subst h; exact ⟨rfl, rfl⟩

theorem step_other {τ : Tbl} {d e : Spec.Tables} (h : Agree τ d e) (op : DbOp) (ht : tableOf op ≠ τ) :
    Agree τ (Spec.dbStep d op).1 e := by
  cases τ <;> cases op <;> first
    | exact absurd rfl ht
    | exact h
    | (rename_i k r; cases k <;> first
        | exact absurd rfl ht
        | exact h
        | (simp only [Spec.dbStep, Spec.serve]; split <;> exact h))

theorem dbRun_length (d : Spec.Tables) (ops : List DbOp) : (Spec.dbRun d ops).2.length = ops.length := by
  induction ops generalizing d with
  | nil => rfl
  | cons op ops ih => simp [Spec.dbRun, ih]

/-- **C35.**  Operations on other tables make no difference: leaving them out of the history changes no result of the
operations on a table. -/
theorem C35_tables_independent (τ : Tbl) (ops : List DbOp) :
    ∃ db rs db', Db.empty.run ops = .ret (db, rs) ∧
      Db.empty.run (ops.filter fun op => tableOf op = τ) = .ret (db', resultsFor τ ops rs) ∧ Agree τ db.view db'.view := by
  obtain ⟨db, h1, h2⟩ := C35_refines_four_maps ops
  obtain ⟨db', g1, g2⟩ := C35_refines_four_maps (ops.filter fun op => tableOf op = τ)
  have key : ∀ (ops : List DbOp) (d e : Spec.Tables), Agree τ d e →
      (Spec.dbRun e (ops.filter fun op => tableOf op = τ)).2 = resultsFor τ ops (Spec.dbRun d ops).2 ∧
      Agree τ (Spec.dbRun d ops).1 (Spec.dbRun e (ops.filter fun op => tableOf op = τ)).1 := by
    intro ops
    induction ops with
    | nil => intro d e h; exact ⟨rfl, h⟩
    | cons op ops ih =>
      intro d e h
      by_cases ht : tableOf op = τ
      · obtain ⟨s1, s2⟩ := step_same h op ht
        obtain ⟨i1, i2⟩ := ih _ _ s1
        rw [List.filter_cons_of_pos (by simpa using ht)]
        refine ⟨?_, i2⟩
        simp only [Spec.dbRun, resultsFor, List.zip_cons_cons]
        rw [List.filter_cons_of_pos (by simpa using ht), List.map_cons, i1, s2]
        rfl
      · obtain ⟨i1, i2⟩ := ih _ _ (step_other h op ht)
        rw [List.filter_cons_of_neg (by simpa using ht)]
        refine ⟨?_, i2⟩
        simp only [Spec.dbRun, resultsFor, List.zip_cons_cons]
        rw [List.filter_cons_of_neg (by simpa using ht), i1]
        rfl
  obtain ⟨k1, k2⟩ := key ops Spec.noTables Spec.noTables (by cases τ <;> rfl)
  refine ⟨db, _, db', h1, ?_, ?_⟩
  · rw [g1, k1]
  · rw [h2, g2]; exact k2

/-- A history touching several tables at the same address: the tables do not interfere. -/
example : Db.empty.run [.addCoil 7 true, .addHolding 7 300, .setHolding 7 301, .getCoil 7, .getHolding 7, .getInput 7] =
    .ret (⟨[(7, true)], [], [(7, 301)], []⟩, [.done true, .done true, .done true, .bit (some true), .reg (some 301), .reg none]) := by
  rfl

/-- What a multi-point write did to a table: `n` points from `a` on hold `vs`, the others are as before. -/
def Written {T : Type} (before after : UInt16 → Option T) (a : UInt16) (vs : List T) : Prop :=
  (∀ i, (h : i < vs.length) → a.toNat + i ≤ 65535 ∧ after (UInt16.ofNat (a.toNat + i)) = some vs[i]) ∧
  (∀ x : UInt16, (x.toNat < a.toNat ∨ a.toNat + vs.length ≤ x.toNat) → after x = before x)

theorem written_putAll {T : Type} {m : Spec.Map T} {a : UInt16} {vs : List T} (h : Spec.RangeExists m a vs.length) :
    Written m (Spec.putAll m a vs) a vs := by
  constructor
  · intro i hi
    have := (h.2 i hi).1
    refine ⟨this, ?_⟩
    simp only [Spec.putAll]
    rw [ofNat16_toNat (by omega), if_pos (by omega), show a.toNat + i - a.toNat = i by omega, List.getElem?_eq_getElem hi]
  · intro x hx
    simp only [Spec.putAll]
    split
    · rw [List.getElem?_eq_none (by omega)]
    · rfl

/-- **C36** for coils. -/
theorem C36_write_coils_all_or_nothing {db : Db} (h : DbReach db) (r : Req .writeMultipleCoils) :
    ∃ db' x, db.onRequest .writeMultipleCoils r = .ret (db', x) ∧
      ((Spec.RangeExists db.view.coils r.start r.values.length ∧ x = .ok ⟨r.start, UInt16.ofNat r.values.length⟩ ∧
          Written db.view.coils db'.view.coils r.start r.values ∧ db'.view = { db.view with coils := db'.view.coils }) ∨
       (¬ Spec.RangeExists db.view.coils r.start r.values.length ∧ x = .error (.modbus .illegalDataAddress) ∧ db'.view = db.view)) := by
  obtain ⟨db', h1, h2, -⟩ := Db.onRequest_spec h.wf .writeMultipleCoils r
  refine ⟨db', _, h1, ?_⟩
  by_cases hr : Spec.RangeExists db.view.coils r.start r.values.length
  · left
    rw [show Spec.serve db.view .writeMultipleCoils r = ({ db.view with coils := Spec.putAll db.view.coils r.start r.values }, .ok ⟨r.start, UInt16.ofNat r.values.length⟩) from if_pos hr] at h2 ⊢
    refine ⟨hr, rfl, ?_, ?_⟩
    · rw [h2]; exact written_putAll hr
    · rw [h2]
  · right
    rw [show Spec.serve db.view .writeMultipleCoils r = (db.view, Spec.illegalAddress) from if_neg hr] at h2 ⊢
    exact ⟨hr, rfl, h2⟩

/-- **C36** for registers. -/
theorem C36_write_registers_all_or_nothing {db : Db} (h : DbReach db) (r : Req .writeMultipleRegisters) :
    ∃ db' x, db.onRequest .writeMultipleRegisters r = .ret (db', x) ∧
      ((Spec.RangeExists db.view.holdings r.start r.values.length ∧ x = .ok ⟨r.start, UInt16.ofNat r.values.length⟩ ∧
          Written db.view.holdings db'.view.holdings r.start r.values ∧ db'.view = { db.view with holdings := db'.view.holdings }) ∨
       (¬ Spec.RangeExists db.view.holdings r.start r.values.length ∧ x = .error (.modbus .illegalDataAddress) ∧ db'.view = db.view)) := by
  obtain ⟨db', h1, h2, -⟩ := Db.onRequest_spec h.wf .writeMultipleRegisters r
  refine ⟨db', _, h1, ?_⟩
  by_cases hr : Spec.RangeExists db.view.holdings r.start r.values.length
  · left
    rw [show Spec.serve db.view .writeMultipleRegisters r = ({ db.view with holdings := Spec.putAll db.view.holdings r.start r.values }, .ok ⟨r.start, UInt16.ofNat r.values.length⟩) from if_pos hr] at h2 ⊢
    refine ⟨hr, rfl, ?_, ?_⟩
    · rw [h2]; exact written_putAll hr
    · rw [h2]
  · right
    rw [show Spec.serve db.view .writeMultipleRegisters r = (db.view, Spec.illegalAddress) from if_neg hr] at h2 ⊢
    exact ⟨hr, rfl, h2⟩

/-- Four registers 65532..65535 and three coils. -/
def demoHistory : List DbOp :=
  [.addHolding 65534 2, .addHolding 65533 1, .addHolding 65535 3, .addHolding 65532 0,
   .addCoil 3 true, .addCoil 1 false, .addCoil 2 true, .addDiscrete 1 true, .addInput 9 42]

/-- The database after `demoHistory`. -/
def demoDb : Db := ⟨[(1, false), (2, true), (3, true)], [(1, true)], [(65532, 0), (65533, 1), (65534, 2), (65535, 3)], [(9, 42)]⟩

theorem demoDb_reach : DbReach demoDb := ⟨demoHistory, List.replicate 9 (.done true), by rfl⟩

example : demoDb.onRequest .writeMultipleRegisters ⟨65533, [7, 8, 9]⟩ =
    .ret ({ demoDb with holdings := [(65532, 0), (65533, 7), (65534, 8), (65535, 9)] }, .ok ⟨65533, 3⟩) := by rfl

/-- One register beyond the end: nothing changes. -/
example : demoDb.onRequest .writeMultipleRegisters ⟨65533, [7, 8, 9, 10]⟩ = .ret (demoDb, .error (.modbus .illegalDataAddress)) := by rfl

example : demoDb.onRequest .writeMultipleCoils ⟨2, [false, false, false]⟩ = .ret (demoDb, .error (.modbus .illegalDataAddress)) := by rfl

/-- **C37.**  The range check of a table, in any database a program can come to. -/
theorem C37_range_check {db : Db} (h : DbReach db) (start : UInt16) (count : Nat) :
    (db.coils.isValidRange start count = true ↔ Spec.RangeExists db.view.coils start count) ∧
    (db.discretes.isValidRange start count = true ↔ Spec.RangeExists db.view.discretes start count) ∧
    (db.holdings.isValidRange start count = true ↔ Spec.RangeExists db.view.holdings start count) ∧
    (db.inputs.isValidRange start count = true ↔ Spec.RangeExists db.view.inputs start count) :=
  ⟨Table.isValidRange_spec h.wf.coils _ _, Table.isValidRange_spec h.wf.discretes _ _,
   Table.isValidRange_spec h.wf.holdings _ _, Table.isValidRange_spec h.wf.inputs _ _⟩

/-- **C37.**  The check of a single address says whether the point was added. -/
theorem C37_address_check {db : Db} (h : DbReach db) (a : UInt16) :
    (db.coils.isValid a = true ↔ Spec.RangeExists db.view.coils a 1) ∧
    (db.discretes.isValid a = true ↔ Spec.RangeExists db.view.discretes a 1) ∧
    (db.holdings.isValid a = true ↔ Spec.RangeExists db.view.holdings a 1) ∧
    (db.inputs.isValid a = true ↔ Spec.RangeExists db.view.inputs a 1) := by
  have key : ∀ {T : Type} (t : Table T), (t.isValid a = true ↔ t.isValidRange a 1 = true) := by
    intro T t
    unfold Table.isValid Table.isValidRange
    rcases t.find a with _ | ⟨x, it⟩
    · simp
    · have e : ∀ it : Table T, Table.rangeLoop a 1 a it = true := by
        intro it
        have h1 : Table.sizeT 1 = 1 := rfl
        rcases it with _ | ⟨⟨k, v⟩, r⟩ <;> simp [Table.rangeLoop, h1]
      simp [e]
  obtain ⟨h1, h2, h3, h4⟩ := C37_range_check h a 1
  exact ⟨(key _).trans h1, (key _).trans h2, (key _).trans h3, (key _).trans h4⟩

example : demoDb.coils.isValid 3 = true ∧ demoDb.coils.isValid 4 = false ∧ demoDb.inputs.isValid 9 = true := by decide +kernel

/-- **C37.**  A range running past 65535 is refused, whatever the database contains. -/
theorem C37_no_wrap {db : Db} (h : DbReach db) (start : UInt16) (count : Nat) (hw : 65536 < start.toNat + count) :
    db.coils.isValidRange start count = false ∧ db.discretes.isValidRange start count = false ∧
    db.holdings.isValidRange start count = false ∧ db.inputs.isValidRange start count = false := by
  have no : ∀ {T : Type} (m : Spec.Map T), ¬ Spec.RangeExists m start count := by
    intro T m hr
    have := (hr.2 (count - 1) (by have := hr.1; omega)).1
    have := hr.1
    omega
  obtain ⟨h1, h2, h3, h4⟩ := C37_range_check h start count
  refine ⟨?_, ?_, ?_, ?_⟩ <;> rw [Bool.eq_false_iff]
  · exact fun e => no _ (h1.1 e)
  · exact fun e => no _ (h2.1 e)
  · exact fun e => no _ (h3.1 e)
  · exact fun e => no _ (h4.1 e)

example : demoDb.holdings.isValidRange 65532 4 = true ∧ demoDb.holdings.isValidRange 65532 5 = false ∧
    demoDb.holdings.isValidRange 65532 0 = false ∧ demoDb.coils.isValidRange 1 3 = true ∧ demoDb.coils.isValidRange 0 3 = false := by
  decide +kernel

example : Spec.RangeExists demoDb.view.holdings 65532 4 := (C37_range_check demoDb_reach _ _).2.2.1.1 (by decide +kernel)

/-- The answer to a read of `n` bits from `a`: refused unless the range exists, else the stored bits in order. -/
def BitsRead (m : UInt16 → Option Bool) (a : UInt16) (n : Nat) (x : Expected (List BitVal)) : Prop :=
  (¬ Spec.RangeExists m a n ∧ x = .error (.modbus .illegalDataAddress)) ∨
  (Spec.RangeExists m a n ∧ ∃ vs, x = .ok vs ∧ vs.length = n ∧
    ∀ i, (h : i < vs.length) → vs[i].addr.toNat = a.toNat + i ∧ m vs[i].addr = some vs[i].value)

/-- The answer to a read of `n` registers from `a`. -/
def RegsRead (m : UInt16 → Option UInt16) (a : UInt16) (n : Nat) (x : Expected (List RegVal)) : Prop :=
  (¬ Spec.RangeExists m a n ∧ x = .error (.modbus .illegalDataAddress)) ∨
  (Spec.RangeExists m a n ∧ ∃ vs, x = .ok vs ∧ vs.length = n ∧
    ∀ i, (h : i < vs.length) → vs[i].addr.toNat = a.toNat + i ∧ m vs[i].addr = some vs[i].value)

theorem bitsRead {t : Table Bool} (hs : t.Sorted) (r : ReadReq) :
    ∃ x, Db.readBits t r = .ret x ∧ BitsRead (fun a => t.lookup a) r.start r.qty.toNat x := by
  rcases Table.getValues_spec hs r.start r.qty.toNat with ⟨h1, h2⟩ | ⟨h1, vs, h2, h3, h4, h5⟩
  · exact ⟨_, by simp only [Db.readBits, h2, CM.ret_bind]; rfl, Or.inl ⟨h1, rfl⟩⟩
  · refine ⟨_, by simp only [Db.readBits, h2, CM.ret_bind]; rfl, Or.inr ⟨h1, _, rfl, ?_, ?_⟩⟩
    · rw [Db.labelBitsFrom_eq]; simpa using h3
    · intro i hi
      simp only [Db.labelBitsFrom_eq, List.length_mapIdx] at hi
      simp only [Db.labelBitsFrom_eq, List.getElem_mapIdx, Spec.nthAddr, Nat.zero_add]
      refine ⟨?_, ?_⟩
      · have := (h1.2 i (by omega)).1
        rw [ofNat16_toNat (by omega)]
      · rw [← h5 i (by omega), List.getElem?_eq_getElem hi]

theorem regsRead {t : Table UInt16} (hs : t.Sorted) (r : ReadReq) :
    ∃ x, Db.readRegs t r = .ret x ∧ RegsRead (fun a => t.lookup a) r.start r.qty.toNat x := by
  rcases Table.getValues_spec hs r.start r.qty.toNat with ⟨h1, h2⟩ | ⟨h1, vs, h2, h3, h4, h5⟩
  · exact ⟨_, by simp only [Db.readRegs, h2, CM.ret_bind]; rfl, Or.inl ⟨h1, rfl⟩⟩
  · refine ⟨_, by simp only [Db.readRegs, h2, CM.ret_bind]; rfl, Or.inr ⟨h1, _, rfl, ?_, ?_⟩⟩
    · rw [Db.labelRegsFrom_eq]; simpa using h3
    · intro i hi
      simp only [Db.labelRegsFrom_eq, List.length_mapIdx] at hi
      simp only [Db.labelRegsFrom_eq, List.getElem_mapIdx, Spec.nthAddr, Nat.zero_add]
      refine ⟨?_, ?_⟩
      · have := (h1.2 i (by omega)).1
        rw [ofNat16_toNat (by omega)]
      · rw [← h5 i (by omega), List.getElem?_eq_getElem hi]

/-- **C38.**  Reads of each of the four tables. -/
theorem C38_reads {db : Db} (h : DbReach db) (start qty : UInt16) :
    (∃ x, db.onRequest .readCoils ⟨start, qty⟩ = .ret (db, x) ∧ BitsRead db.view.coils start qty.toNat x) ∧
    (∃ x, db.onRequest .readDiscreteInputs ⟨start, qty⟩ = .ret (db, x) ∧ BitsRead db.view.discretes start qty.toNat x) ∧
    (∃ x, db.onRequest .readHoldingRegisters ⟨start, qty⟩ = .ret (db, x) ∧ RegsRead db.view.holdings start qty.toNat x) ∧
    (∃ x, db.onRequest .readInputRegisters ⟨start, qty⟩ = .ret (db, x) ∧ RegsRead db.view.inputs start qty.toNat x) := by
  refine ⟨?_, ?_, ?_, ?_⟩
  · obtain ⟨x, h1, h2⟩ := bitsRead h.wf.coils ⟨start, qty⟩
    exact ⟨x, by simp only [Db.onRequest, h1, CM.ret_bind]; rfl, h2⟩
  · obtain ⟨x, h1, h2⟩ := bitsRead h.wf.discretes ⟨start, qty⟩
    exact ⟨x, by simp only [Db.onRequest, h1, CM.ret_bind]; rfl, h2⟩
  · obtain ⟨x, h1, h2⟩ := regsRead h.wf.holdings ⟨start, qty⟩
    exact ⟨x, by simp only [Db.onRequest, h1, CM.ret_bind]; rfl, h2⟩
  · obtain ⟨x, h1, h2⟩ := regsRead h.wf.inputs ⟨start, qty⟩
    exact ⟨x, by simp only [Db.onRequest, h1, CM.ret_bind]; rfl, h2⟩

example : demoDb.onRequest .readHoldingRegisters ⟨65533, 3⟩ = .ret (demoDb, .ok [⟨65533, 1⟩, ⟨65534, 2⟩, ⟨65535, 3⟩]) := by rfl
example : demoDb.onRequest .readCoils ⟨1, 4⟩ = .ret (demoDb, .error (.modbus .illegalDataAddress)) := by rfl

/-- What `add_*` did to a table. -/
def Added {T : Type} (before after : UInt16 → Option T) (a : UInt16) (v : T) (result : Bool) : Prop :=
  (before a = none ∧ result = true ∧ after a = some v ∧ ∀ x, x ≠ a → after x = before x) ∨
  (before a ≠ none ∧ result = false ∧ after = before)

theorem added_of_add {T : Type} {t : Table T} (hs : t.Sorted) (a : UInt16) (v : T) :
    Added (fun x => t.lookup x) (fun x => (t.addValue a v).1.lookup x) a v (t.addValue a v).2 := by
  obtain ⟨-, h2, h3, -⟩ := Table.insert_spec hs a v
  simp only [Table.addValue]
  cases hl : t.lookup a with
  | none =>
    refine Or.inl ⟨hl, by rw [h2, hl]; rfl, by simp only [h3, hl]; simp, ?_⟩
    intro x hx
    simp only [h3]
    rw [if_neg (fun e => hx e.2)]
  | some w =>
    have hne : t.lookup a ≠ none := by rw [hl]; simp
    refine Or.inr ⟨hne, by rw [h2, hl]; rfl, ?_⟩
    funext x
    simp only [h3]
    rw [if_neg (fun e => hne e.1)]

/-- **C39.**  `add_*` creates the point if and only if it did not exist, and never overwrites; the other tables keep
their content. -/
theorem C39_add_never_overwrites {db : Db} (h : DbReach db) (a : UInt16) :
    (∀ v, ∃ db' b, db.apply (.addCoil a v) = .ret (db', .done b) ∧ Added db.view.coils db'.view.coils a v b ∧
      db'.view = { db.view with coils := db'.view.coils }) ∧
    (∀ v, ∃ db' b, db.apply (.addDiscrete a v) = .ret (db', .done b) ∧ Added db.view.discretes db'.view.discretes a v b ∧
      db'.view = { db.view with discretes := db'.view.discretes }) ∧
    (∀ v, ∃ db' b, db.apply (.addHolding a v) = .ret (db', .done b) ∧ Added db.view.holdings db'.view.holdings a v b ∧
      db'.view = { db.view with holdings := db'.view.holdings }) ∧
    (∀ v, ∃ db' b, db.apply (.addInput a v) = .ret (db', .done b) ∧ Added db.view.inputs db'.view.inputs a v b ∧
      db'.view = { db.view with inputs := db'.view.inputs }) :=
  ⟨fun v => ⟨_, _, rfl, added_of_add h.wf.coils a v, rfl⟩, fun v => ⟨_, _, rfl, added_of_add h.wf.discretes a v, rfl⟩,
   fun v => ⟨_, _, rfl, added_of_add h.wf.holdings a v, rfl⟩, fun v => ⟨_, _, rfl, added_of_add h.wf.inputs a v, rfl⟩⟩

example : demoDb.apply (.addHolding 65533 500) = .ret (demoDb, .done false) := by rfl
example : demoDb.apply (.addHolding 5 500) = .ret ({ demoDb with holdings := (5, 500) :: demoDb.holdings }, .done true) := by rfl

/-- Same existing points in every table; same discrete inputs and input registers. -/
def SamePoints (d e : Spec.Tables) : Prop :=
  (∀ a, Spec.Exists e.coils a ↔ Spec.Exists d.coils a) ∧ (∀ a, Spec.Exists e.holdings a ↔ Spec.Exists d.holdings a) ∧
  e.discretes = d.discretes ∧ e.inputs = d.inputs

theorem exists_put {T : Type} {m : Spec.Map T} {a : UInt16} {v : T} (h : Spec.Exists m a) (x : UInt16) :
    Spec.Exists (Spec.put m a v) x ↔ Spec.Exists m x := by
  simp only [Spec.Exists, Spec.put] at *
  split
  · rename_i e; subst e; simp [h]
  · rfl

theorem exists_putAll {T : Type} {m : Spec.Map T} {a : UInt16} {vs : List T} (h : Spec.RangeExists m a vs.length) (x : UInt16) :
    Spec.Exists (Spec.putAll m a vs) x ↔ Spec.Exists m x := by
  simp only [Spec.Exists, Spec.putAll] at *
  split
  · rename_i hle
    cases hv : vs[x.toNat - a.toNat]? with
    | none => rfl
    | some v =>
      have hlt := (List.getElem?_eq_some_iff.1 hv).1
      have := (h.2 _ hlt).2
      rw [show a.toNat + (x.toNat - a.toNat) = x.toNat by omega, UInt16.ofNat_toNat] at this
      simp only [Spec.Exists] at this
      simp [this]
  · rfl

theorem serve_same (d : Spec.Tables) (k : Kind) (r : Req k) : SamePoints d (Spec.serve d k r).1 := by
  cases k <;> simp only [Spec.serve]
  case writeSingleCoil => split <;> [exact ⟨exists_put ‹_›, fun _ => Iff.rfl, rfl, rfl⟩; exact ⟨fun _ => Iff.rfl, fun _ => Iff.rfl, rfl, rfl⟩]
  case writeSingleRegister => split <;> [exact ⟨fun _ => Iff.rfl, exists_put ‹_›, rfl, rfl⟩; exact ⟨fun _ => Iff.rfl, fun _ => Iff.rfl, rfl, rfl⟩]
  case writeMultipleCoils => split <;> [exact ⟨exists_putAll ‹_›, fun _ => Iff.rfl, rfl, rfl⟩; exact ⟨fun _ => Iff.rfl, fun _ => Iff.rfl, rfl, rfl⟩]
  case writeMultipleRegisters => split <;> [exact ⟨fun _ => Iff.rfl, exists_putAll ‹_›, rfl, rfl⟩; exact ⟨fun _ => Iff.rfl, fun _ => Iff.rfl, rfl, rfl⟩]
  all_goals exact ⟨fun _ => Iff.rfl, fun _ => Iff.rfl, rfl, rfl⟩

/-- **C40.**  Any sequence of Modbus requests. -/
theorem C40_requests_keep_points {db db' : Db} {rs : List DbRes} (h : DbReach db) (reqs : List ((k : Kind) × Req k))
    (hrun : db.run (reqs.map fun x => .request x.1 x.2) = .ret (db', rs)) :
    (∀ a, Spec.Exists db'.view.coils a ↔ Spec.Exists db.view.coils a) ∧
    (∀ a, Spec.Exists db'.view.holdings a ↔ Spec.Exists db.view.holdings a) ∧
    db'.view.discretes = db.view.discretes ∧ db'.view.inputs = db.view.inputs := by
  obtain ⟨d2, h1, h2, -⟩ := run_refines h.wf (reqs.map fun (x : (k : Kind) × Req k) => DbOp.request x.1 x.2)
  rw [hrun] at h1
  cases h1
  rw [h2]
  clear h2 hrun
  show SamePoints db.view _
  generalize db.view = d
  induction reqs generalizing d with
  | nil => exact ⟨fun _ => Iff.rfl, fun _ => Iff.rfl, rfl, rfl⟩
  | cons x xs ih =>
    obtain ⟨a1, a2, a3, a4⟩ := serve_same d x.1 x.2
    obtain ⟨b1, b2, b3, b4⟩ := ih (Spec.serve d x.1 x.2).1
    exact ⟨fun a => (b1 a).trans (a1 a), fun a => (b2 a).trans (a2 a), b3.trans a3, b4.trans a4⟩

example : demoDb.run ([⟨.writeSingleCoil, ⟨2, false⟩⟩, ⟨.writeSingleCoil, ⟨20, false⟩⟩, ⟨.writeMultipleRegisters, ⟨65534, [5, 6]⟩⟩].map
      fun (x : (k : Kind) × Req k) => DbOp.request x.1 x.2) =
    .ret (⟨[(1, false), (2, false), (3, true)], [(1, true)], [(65532, 0), (65533, 1), (65534, 5), (65535, 6)], [(9, 42)]⟩,
      [.response .writeSingleCoil (.ok ⟨2, false⟩), .response .writeSingleCoil (.error (.modbus .illegalDataAddress)),
       .response .writeMultipleRegisters (.ok ⟨65534, 2⟩)]) := by rfl

end Modbus.Props
