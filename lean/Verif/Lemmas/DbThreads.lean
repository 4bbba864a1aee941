import Verif.Model.DbThreads
import Verif.Lemmas.Db

namespace Modbus

theorem Sec.run_bind {α β : Type} (s : Sec α) (g : α → Sec β) (db : Db) :
    (s.bind g).run db = (do let (db, x) ← s.run db; (g x).run db) := by
  induction s generalizing db with
  | ub => rfl
  | ret r => rfl
  | act f k ih =>
    simp only [Sec.bind, Sec.run]
    cases f db with
    | ub => rfl
    | ret db' => exact ih db db'

/-- The laws of access to one of the four maps. -/
structure TableRef.Lawful {T : Type} (t : TableRef T) : Prop where
  get_put : ∀ db x, t.get (t.put db x) = x
  put_put : ∀ db x y, t.put (t.put db x) y = t.put db y
  put_get : ∀ db, t.put db (t.get db) = db

theorem coilsRef_lawful : coilsRef.Lawful := ⟨fun _ _ => rfl, fun _ _ _ => rfl, fun _ => rfl⟩
theorem discretesRef_lawful : discretesRef.Lawful := ⟨fun _ _ => rfl, fun _ _ _ => rfl, fun _ => rfl⟩
theorem holdingsRef_lawful : holdingsRef.Lawful := ⟨fun _ _ => rfl, fun _ _ _ => rfl, fun _ => rfl⟩
theorem inputsRef_lawful : inputsRef.Lawful := ⟨fun _ _ => rfl, fun _ _ _ => rfl, fun _ => rfl⟩

theorem secReadLoop_run {T α : Type} (t : TableRef T) (start : UInt16) (fin : List T → α) (db : Db) (n : Nat) : ∀ i acc,
    (secReadLoop t start i n acc fin).run db = (do
      let vs ← Table.readLoop (((t.get db).find start).drop i) n
      return (db, fin (acc ++ vs))) := by
  induction n with
  | zero => intro i acc; simp [secReadLoop, Sec.run, Table.readLoop]
  | succ n ih =>
    intro i acc
    simp only [secReadLoop, Sec.run, Table.readLoop]
    cases hd : ((t.get db).find start).drop i with
    | nil => rfl
    | cons x r =>
      have hr : ((t.get db).find start).drop (i + 1) = r := by
        rw [← List.drop_drop, hd]; rfl
      rcases x with ⟨k, w⟩
      simp only [Table.readLoop]
      rw [ih, hr]
      cases Table.readLoop r n with
      | ub => rfl
      | ret vs => simp

theorem secRead_run {T α : Type} (t : TableRef T) (r : ReadReq) (label : List T → α) (db : Db) :
    (secRead t r label).run db = (do
      match ← (t.get db).getValues r.start r.qty.toNat with
      | none => return (db, .error (.modbus .illegalDataAddress))
      | some vs => return (db, .ok (label vs))) := by
  simp only [secRead, Sec.run, Table.getValues]
  split
  · rfl
  · rw [secReadLoop_run]
    simp only [List.drop_zero, List.nil_append]
    cases Table.readLoop ((t.get db).find r.start) r.qty.toNat <;> rfl

/-- The values written one by one. -/
def Table.writeSteps {T : Type} (it : Table T) (i : Nat) (vs : List T) : CM (Table T) :=
  match vs with
  | [] => .ret it
  | v :: vs => do
    let it ← it.writeAt i v
    it.writeSteps (i + 1) vs

theorem Table.writeSteps_succ {T : Type} (x : UInt16 × T) (r : Table T) (vs : List T) : ∀ i, Table.writeSteps (x :: r) (i + 1) vs = (do
    let r ← Table.writeSteps r i vs
    return x :: r) := by
  induction vs generalizing r with
  | nil => intro i; rfl
  | cons v vs ih =>
    intro i
    simp only [writeSteps, writeAt]
    cases h : Table.writeAt r i v with
    | ub => rfl
    | ret r' =>
      simp only [CM.ret_bind, CM.pure_eq]
      exact ih r' (i + 1)

theorem Table.writeSteps_zero {T : Type} (vs : List T) : ∀ it : Table T, it.writeSteps 0 vs = it.writeLoop vs := by
  induction vs with
  | nil => intro it; simp [writeSteps, writeLoop]
  | cons v vs ih =>
    intro it
    cases it with
    | nil => simp [writeSteps, writeLoop, writeAt]
    | cons x r =>
      rcases x with ⟨k, w⟩
      simp only [writeSteps, writeAt, CM.ret_bind]
      rw [writeSteps_succ, ih]
      simp [writeLoop]

theorem Table.writeAt_head {T : Type} {k : UInt16} {w : T} {r it' : Table T} {i : Nat} {v : T}
    (h : Table.writeAt ((k, w) :: r) i v = .ret it') : ∃ w' r', it' = (k, w') :: r' := by
  cases i with
  | zero => simp only [writeAt, CM.ret.injEq] at h; exact ⟨v, r, h.symm⟩
  | succ i =>
    simp only [writeAt] at h
    cases hr : Table.writeAt r i v with
    | ub => rw [hr] at h; simp at h
    | ret r' => rw [hr] at h; simp at h; exact ⟨w, r', h.symm⟩

theorem Table.updateFrom_seq {T : Type} (t : Table T) (a : UInt16) (i : Nat) (v : T) (g : Table T → CM (Table T)) :
    (do let t ← t.updateFrom a (fun it => it.writeAt i v); t.updateFrom a g) =
    t.updateFrom a (fun it => do let it ← it.writeAt i v; g it) := by
  induction t with
  | nil => simp [updateFrom, writeAt]
  | cons x r ih =>
    rcases x with ⟨k, w⟩
    simp only [updateFrom]
    by_cases hk : k = a
    · simp only [if_pos hk]
      cases h : Table.writeAt ((k, w) :: r) i v with
      | ub => rfl
      | ret it' =>
        obtain ⟨w', r', rfl⟩ := Table.writeAt_head h
        simp [updateFrom, hk]
    · simp only [if_neg hk]
      rw [← ih]
      cases h : Table.updateFrom r a (fun it => it.writeAt i v) with
      | ub => rfl
      | ret r' => simp [updateFrom, hk]

theorem secWriteLoop_run {T α : Type} {t : TableRef T} (ht : t.Lawful) (start : UInt16) (fin : α) (vs : List T) : ∀ i db, vs ≠ [] →
    (secWriteLoop t start i vs fin).run db = (do
      let x ← (t.get db).updateFrom start fun it => it.writeSteps i vs
      return (t.put db x, fin)) := by
  induction vs with
  | nil => intro i db h; exact absurd rfl h
  | cons v vs ih =>
    intro i db _
    simp only [secWriteLoop, Sec.run, Table.writeSteps]
    rw [← Table.updateFrom_seq]
    cases hx : (t.get db).updateFrom start fun it => it.writeAt i v with
    | ub => rfl
    | ret x =>
      simp only [CM.ret_bind, CM.pure_eq]
      cases vs with
      | nil =>
        have : x.updateFrom start (fun it => .ret it) = .ret x := by
          clear hx
          induction x with
          | nil => rfl
          | cons y r ihx =>
            rcases y with ⟨k, w⟩
            simp only [Table.updateFrom]
            split
            · rfl
            · rw [ihx]; rfl
        simp only [secWriteLoop, Sec.run, Table.writeSteps, this, CM.ret_bind]
      | cons v2 vs =>
        rw [ih (i + 1) (t.put db x) (by simp), ht.get_put]
        cases Table.updateFrom x start fun it => it.writeSteps (i + 1) (v2 :: vs) with
        | ub => rfl
        | ret y => simp [ht.put_put]

theorem secWrite_run {T : Type} {t : TableRef T} (ht : t.Lawful) (start : UInt16) (vs : List T) (db : Db) :
    (secWrite t start vs).run db = (do
      match ← (t.get db).setValues start vs with
      | (_, false) => return (db, .error (.modbus .illegalDataAddress))
      | (x, true) => return (t.put db x, .ok ⟨start, UInt16.ofNat vs.length⟩)) := by
  simp only [secWrite, Sec.run, Table.setValues]
  by_cases hv : (t.get db).isValidRange start vs.length = true
  · have hne : vs ≠ [] := by
      rintro rfl
      have := ((Table.isValidRange_iff _ _ _).1 hv).1
      simp at this
    simp only [hv, Bool.not_true, Bool.false_eq_true, if_false]
    rw [secWriteLoop_run ht _ _ _ _ _ hne]
    simp only [Table.writeSteps_zero]
    cases (t.get db).updateFrom start fun it => it.writeLoop vs <;> rfl
  · rw [Bool.not_eq_true] at hv
    simp [hv, Sec.run]

theorem secAtomic_run (o : DbOp) (db : Db) : (secAtomic o).run db = db.apply o := by
  simp only [secAtomic, Sec.run]
  cases db.apply o <;> rfl

/-- The steps of an operation, run without interruption, are the operation. -/
theorem secOp_run (o : DbOp) (db : Db) : (secOp o).run db = db.apply o := by
  cases o with
  | request k r =>
    cases k
    case writeSingleCoil => exact secAtomic_run _ _
    case writeSingleRegister => exact secAtomic_run _ _
    case writeMultipleCoils =>
      simp only [secOp, Sec.run_bind, secWrite_run coilsRef_lawful, Db.apply, Db.onRequest]
      rw [show coilsRef.get db = db.coils from rfl]
      cases db.coils.setValues r.start r.values with
      | ub => rfl
      | ret x => rcases x with ⟨t, b⟩; cases b <;> rfl
    case writeMultipleRegisters =>
      simp only [secOp, Sec.run_bind, secWrite_run holdingsRef_lawful, Db.apply, Db.onRequest]
      rw [show holdingsRef.get db = db.holdings from rfl]
      cases db.holdings.setValues r.start r.values with
      | ub => rfl
      | ret x => rcases x with ⟨t, b⟩; cases b <;> rfl
    case readCoils =>
      simp only [secOp, Sec.run_bind, secRead_run, Db.apply, Db.onRequest, Db.readBits]
      rw [show coilsRef.get db = db.coils from rfl]
      cases db.coils.getValues r.start r.qty.toNat with
      | ub => rfl
      | ret x => cases x <;> rfl
    case readDiscreteInputs =>
      simp only [secOp, Sec.run_bind, secRead_run, Db.apply, Db.onRequest, Db.readBits]
      rw [show discretesRef.get db = db.discretes from rfl]
      cases db.discretes.getValues r.start r.qty.toNat with
      | ub => rfl
      | ret x => cases x <;> rfl
    case readHoldingRegisters =>
      simp only [secOp, Sec.run_bind, secRead_run, Db.apply, Db.onRequest, Db.readRegs]
      rw [show holdingsRef.get db = db.holdings from rfl]
      cases db.holdings.getValues r.start r.qty.toNat with
      | ub => rfl
      | ret x => cases x <;> rfl
    case readInputRegisters =>
      simp only [secOp, Sec.run_bind, secRead_run, Db.apply, Db.onRequest, Db.readRegs]
      rw [show inputsRef.get db = db.inputs from rfl]
      cases db.inputs.getValues r.start r.qty.toNat with
      | ub => rfl
      | ret x => cases x <;> rfl
  | _ => exact secAtomic_run _ _

theorem Call.takesLock_eq (c : Call) : c.takesLock = true := by
  cases c with
  | request k r => cases k <;> rfl
  | _ => rfl

end Modbus
