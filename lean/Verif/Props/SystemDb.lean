import Verif.Props.SystemLive
import Verif.Props.EndToEnd

/-!
Client, network and server together, the server's sessions being sessions of one in-memory database.
-/

namespace Modbus.Props

open Spec

/-- The requests the server's sessions were called for, in order. -/
def executed (log : List XEv) : List AnyReq :=
  log.filterMap fun e => match e with
    | .srv (.request _ k q) => some ⟨k, q⟩
    | _ => none

/-- The four tables after some requests, one after the other. -/
def contents (d : Tables) (qs : List AnyReq) : Tables := qs.foldl (fun d q => (serve d q.1 q.2).1) d

/-- All sessions of the server are sessions of one in-memory database. -/
def Backed (env : ServerEnv Db) : Prop :=
  ∀ (s : SessId) (k : Kind) (r : Req k) (db : Db), DbReach db → db.onRequest k r = .ret (env.onRequest s k r db)

theorem executed_append (a b : List XEv) : executed (a ++ b) = executed a ++ executed b := by simp [executed]

theorem contents_append (d : Tables) (a b : List AnyReq) : contents d (a ++ b) = contents (contents d a) b := by simp [contents]

theorem Backed.one {env : ServerEnv Db} (h : Backed env) {db : Db} (hr : DbReach db) (s : SessId) (k : Kind) (q : Req k) :
    DbReach (env.onRequest s k q db).1 ∧ (env.onRequest s k q db).1.view = (serve db.view k q).1 ∧
      (env.onRequest s k q db).2 = (serve db.view k q).2 := by
  obtain ⟨db', h1, h2, -⟩ := Db.onRequest_spec hr.wf k q
  have h3 := h s k q db hr
  have h4 : env.onRequest s k q db = (db', (serve db.view k q).2) := by rw [h1] at h3; injection h3 with h3; exact h3.symm
  rw [h4]
  refine ⟨hr.snoc (op := .request k q) (r := .response k (serve db.view k q).2) ?_, h2, rfl⟩
  simp only [Db.apply, h1, CM.ret_bind]
  rfl

theorem Backed.replay {env : ServerEnv Db} (h : Backed env) (l : List XEv) : ∀ {w : Db}, DbReach w →
    DbReach (replay env.onRequest w l) ∧ (replay env.onRequest w l).view = contents w.view (executed l) := by
  induction l with
  | nil => intro w hw; exact ⟨hw, rfl⟩
  | cons e l ih =>
    intro w hw
    have skip : ∀ e, (∀ s k q, e ≠ XEv.srv (.request s k q)) → Spec.replay env.onRequest w (e :: l) = Spec.replay env.onRequest w l ∧
        executed (e :: l) = executed l := by
      intro e he
      rcases e with ⟨i, e⟩ | e
      · exact ⟨rfl, rfl⟩
      · cases e with
        | request s k q => exact absurd rfl (he s k q)
        | _ => exact ⟨rfl, rfl⟩
    by_cases he : ∃ s k q, e = XEv.srv (.request s k q)
    · obtain ⟨s, k, q, rfl⟩ := he
      obtain ⟨h1, h2, -⟩ := h.one hw s k q
      obtain ⟨h3, h4⟩ := ih h1
      refine ⟨h3, ?_⟩
      have e1 : Spec.replay env.onRequest w (.srv (.request s k q) :: l) = Spec.replay env.onRequest (env.onRequest s k q w).1 l := rfl
      have e2 : contents w.view (executed (.srv (.request s k q) :: l)) = contents (serve w.view k q).1 (executed l) := rfl
      rw [e1, e2, h4, h2]
    · obtain ⟨h1, h2⟩ := skip e (fun s k q hh => he ⟨s, k, q, hh⟩)
      rw [h1, h2]
      exact ih hw

theorem recent {env : SysEnv Db} {w : Db} {v : Sys Db} (h : XReach env w v) (hfew : (submissions (cliLog v.log)).length < 65536) (u u' : Nat) :
    rank (cliLog v.log) u < rank (cliLog v.log) u' + 65536 := by
  have h1 : (allowedUids (cliLog v.log)).length ≤ (submissions (cliLog v.log)).length := by
    simp only [allowedUids, submissions]
    generalize cliLog v.log = l
    induction l with
    | nil => simp
    | cons e l ih =>
      cases e <;> simp only [List.filterMap_cons] <;> first | exact ih | skip
      split <;> simp_all <;> omega
  have h2 : rank (cliLog v.log) u ≤ (allowedUids (cliLog v.log)).length := List.length_filter_le _ _
  omega

/-- **C81.**  Each response is the answer at one moment between call and response.  In the state the database has after all requests
executed before that moment, of this and of other clients, one after the other, the request was executed then, and the answer
decodes to exactly what the four tables give. -/
theorem C81_answered_at_one_moment (env : SysEnv Db) (hb : Backed env.server) (w : Db) (hw : DbReach w) (v : Sys Db) (h : XReach env w v)
    (hfew : (submissions (cliLog v.log)).length < 65536) (past future : List XEv) (i u : Nat) (pdu : List UInt8) (t : Nat)
    (he : v.log = past ++ .cli i (.handler u (.ok pdu) t) :: future) :
    ∃ (before between : List XEv) (m : Mbap) (s : SessId) (k : Kind) (q : Req k) (tmo : Nat),
      past = before ++ .srv (.mbap (2 * i) m) :: .srv (.request s k q) :: between ∧ CEv.call u m.unit ⟨k, q⟩ tmo ∈ cliLog before ∧
      typedResult k q (.ok pdu) = .ret (serve (contents w.view (executed before)) k q).2 := by
  obtain ⟨before, between, m, s, k, q, tmo, h1, -, h3, -, -, h6⟩ := C77_own_answer_partial env w v h past future i u pdu t he
    (fun u' b _ => recent h hfew u u')
  refine ⟨before, between, m, s, k, q, tmo, h1, h3, ?_⟩
  obtain ⟨hr, hv⟩ := hb.replay before hw
  obtain ⟨-, -, h7⟩ := hb.one hr s k q
  rw [h7, hv] at h6
  rcases serve_proper (contents w.view (executed before)) k q with ⟨r, g1, g2⟩ | g
  · rw [g1] at h6 ⊢; exact h6 g2
  · rw [g] at h6 ⊢; exact h6

/-- **C81.**  At the end the database contains what all requests executed leave, one after the other. -/
theorem C81_final_contents (env : SysEnv Db) (hb : Backed env.server) (w : Db) (hw : DbReach w) (v : Sys Db) (h : XReach env w v) :
    v.srv.world.view = contents w.view (executed v.log) := by
  rw [C78_state_is_replay env w v h]
  exact (hb.replay v.log hw).2

/-- A call is made once. -/
theorem call_before {env : SysEnv Db} {w : Db} {v : Sys Db} (h : XReach env w v) {a b before rest : List XEv} {i u : Nat} {unit unit' : UInt8}
    {q q' : AnyReq} {tmo tmo' : Nat} (h1 : v.log = a ++ .cli i (.call u unit q tmo) :: b) (h2 : v.log = before ++ rest)
    (h3 : CEv.call u unit' q' tmo' ∈ cliLog before) : ∃ c, before = a ++ .cli i (.call u unit q tmo) :: c := by
  have hn : ((submissions (cliLog v.log)).map (·.1)).Nodup := by
    rw [h.inv.cliLog, h.inv.creach.inv.1.calls]; exact List.nodup_range
  rcases List.append_eq_append_iff.1 (h1.symm.trans h2) with ⟨x, e1, e2⟩ | ⟨x, e1, e2⟩
  · cases x with
    | nil =>
      rw [List.append_nil] at e1
      rw [h1, cliLog_append, submissions_append, List.map_append, List.nodup_append] at hn
      exact absurd rfl (hn.2.2 u (List.mem_map.2 ⟨_, mem_submissions.2 (by rw [← e1]; exact h3), rfl⟩) u (by simp [cliLog, submissions]))
    | cons e x =>
      injection e2 with e2 e3
      subst e2
      exact ⟨x, e1⟩
  · rw [h1, cliLog_append, submissions_append, List.map_append, List.nodup_append] at hn
    exact absurd rfl (hn.2.2 u (List.mem_map.2 ⟨_, mem_submissions.2 (by rw [e1, cliLog_append]; exact List.mem_append_left _ h3), rfl⟩) u
      (by simp [cliLog, submissions]))

/-- **C81.**  A request made after another one was answered sees the other one's effect: its answer is the one for the
tables after the other one, changed only by requests executed after the other one was made. -/
theorem C81_later_sees_earlier (env : SysEnv Db) (hb : Backed env.server) (w : Db) (hw : DbReach w) (v : Sys Db) (h : XReach env w v)
    (hfew : (submissions (cliLog v.log)).length < 65536) (p0 p1 p2 p3 p4 : List XEv) (i0 i1 i2 i3 u1 u2 : Nat) (unit1 unit2 : UInt8)
    (q1 q2 : AnyReq) (tmo1 tmo2 t1 t2 : Nat) (pdu1 pdu2 : List UInt8)
    (he : v.log = p0 ++ .cli i0 (.call u1 unit1 q1 tmo1) :: (p1 ++ .cli i1 (.handler u1 (.ok pdu1) t1) ::
      (p2 ++ .cli i2 (.call u2 unit2 q2 tmo2) :: (p3 ++ .cli i3 (.handler u2 (.ok pdu2) t2) :: p4)))) :
    ∃ (d : Tables) (others : List AnyReq),
      typedResult q1.1 q1.2 (.ok pdu1) = .ret (serve d q1.1 q1.2).2 ∧
      typedResult q2.1 q2.2 (.ok pdu2) = .ret (serve (contents (serve d q1.1 q1.2).1 others) q2.1 q2.2).2 ∧
      ∀ q ∈ others, q ∈ executed (p1 ++ p2 ++ p3) := by
  have hu : ∀ {u a b q q' t t'}, CEv.call u a q t ∈ cliLog v.log → CEv.call u b q' t' ∈ cliLog v.log → a = b ∧ q = q' ∧ t = t' := by
    intro u a b q q' t t' g1 g2
    rw [h.inv.cliLog] at g1 g2
    exact Cli.calls_unique h.inv.creach.inv.1 g1 g2
  obtain ⟨b1, c1, m1, s1, k1, r1, o1, e1, e2, e3⟩ := C81_answered_at_one_moment env hb w hw v h hfew
    (p0 ++ .cli i0 (.call u1 unit1 q1 tmo1) :: p1) (p2 ++ .cli i2 (.call u2 unit2 q2 tmo2) :: (p3 ++ .cli i3 (.handler u2 (.ok pdu2) t2) :: p4))
    i1 u1 pdu1 t1 (by rw [he]; simp)
  obtain ⟨b2, c2, m2, s2, k2, r2, o2, f1, f2, f3⟩ := C81_answered_at_one_moment env hb w hw v h hfew
    (p0 ++ .cli i0 (.call u1 unit1 q1 tmo1) :: (p1 ++ .cli i1 (.handler u1 (.ok pdu1) t1) :: (p2 ++ .cli i2 (.call u2 unit2 q2 tmo2) :: p3))) p4
    i3 u2 pdu2 t2 (by rw [he]; simp)
  have hv1 : v.log = b1 ++ (.srv (.mbap (2 * i1) m1) :: .srv (.request s1 k1 r1) :: c1 ++ .cli i1 (.handler u1 (.ok pdu1) t1) ::
      (p2 ++ .cli i2 (.call u2 unit2 q2 tmo2) :: (p3 ++ .cli i3 (.handler u2 (.ok pdu2) t2) :: p4))) := by
    rw [← List.append_assoc, ← e1, he]; simp
  have hv2 : v.log = b2 ++ (.srv (.mbap (2 * i3) m2) :: .srv (.request s2 k2 r2) :: c2 ++ .cli i3 (.handler u2 (.ok pdu2) t2) :: p4) := by
    rw [← List.append_assoc, ← f1, he]; simp
  have hq1 : (⟨k1, r1⟩ : AnyReq) = q1 := by
    refine (hu (u := u1) (a := m1.unit) (b := unit1) (t := o1) (t' := tmo1) ?_ ?_).2.1
    · rw [hv1, cliLog_append]; exact List.mem_append_left _ e2
    · rw [he, cliLog_append]; exact List.mem_append_right _ (List.mem_cons_self ..)
  have hq2 : (⟨k2, r2⟩ : AnyReq) = q2 := by
    refine (hu (u := u2) (a := m2.unit) (b := unit2) (t := o2) (t' := tmo2) ?_ ?_).2.1
    · rw [hv2, cliLog_append]; exact List.mem_append_left _ f2
    · rw [he]; simp [cliLog]
  subst hq1 hq2
  obtain ⟨x1, hx1⟩ := call_before h he hv1 e2
  obtain ⟨x2, hx2⟩ := call_before h (a := p0 ++ .cli i0 (.call u1 unit1 ⟨k1, r1⟩ tmo1) :: (p1 ++ .cli i1 (.handler u1 (.ok pdu1) t1) :: p2))
    (b := p3 ++ .cli i3 (.handler u2 (.ok pdu2) t2) :: p4) (i := i2) (unit := unit2) (q := ⟨k2, r2⟩) (tmo := tmo2) (by rw [he]; simp) hv2 f2
  have hp1 : p1 = x1 ++ .srv (.mbap (2 * i1) m1) :: .srv (.request s1 k1 r1) :: c1 := by
    rw [hx1] at e1; simpa using e1
  have hp3 : p3 = x2 ++ .srv (.mbap (2 * i3) m2) :: .srv (.request s2 k2 r2) :: c2 := by
    rw [hx2] at f1; simpa using f1
  refine ⟨contents w.view (executed b1), executed (c1 ++ p2 ++ x2), e3, ?_, ?_⟩
  · rw [f3]
    congr 2
    have : executed b2 = executed b1 ++ ⟨k1, r1⟩ :: executed (c1 ++ p2 ++ x2) := by
      rw [hx2, hx1, hp1]
      simp [executed]
    rw [this, contents_append]
    rfl
  · intro q hq
    rw [hp1, hp3]
    simp only [executed_append, List.mem_append] at hq ⊢
    have cons : ∀ (e : XEv) l, q ∈ executed l → q ∈ executed (e :: l) := by
      intro e l hl
      have : e :: l = [e] ++ l := rfl
      rw [this, executed_append]; exact List.mem_append_right _ hl
    rcases hq with (hq | hq) | hq
    · exact Or.inl (Or.inl (Or.inr (cons _ _ (cons _ _ hq))))
    · exact Or.inl (Or.inr hq)
    · exact Or.inr (Or.inl hq)

/-- The value a request assigns to the holding register with address `a`. -/
def assignsRegister (q : AnyReq) (a : UInt16) : Option UInt16 :=
  match q with
  | ⟨.writeSingleRegister, r⟩ => if r.addr = a then some r.value else none
  | ⟨.writeMultipleRegisters, r⟩ => if r.start.toNat ≤ a.toNat then r.values[a.toNat - r.start.toNat]? else none
  | _ => none

/-- The value a request assigns to the coil with address `a`. -/
def assignsCoil (q : AnyReq) (a : UInt16) : Option Bool :=
  match q with
  | ⟨.writeSingleCoil, r⟩ => if r.addr = a then some r.value else none
  | ⟨.writeMultipleCoils, r⟩ => if r.start.toNat ≤ a.toNat then r.values[a.toNat - r.start.toNat]? else none
  | _ => none

theorem serve_register (d : Tables) (q : AnyReq) (a x : UInt16) (h : d.holdings a = some x) (ho : ∀ y, assignsRegister q a = some y → y = x) :
    (serve d q.1 q.2).1.holdings a = some x := by
  rcases q with ⟨k, q⟩
  cases k <;> simp only [serve] <;> try exact h
  case writeSingleCoil => split <;> exact h
  case writeMultipleCoils => split <;> exact h
  case writeSingleRegister =>
    split
    · simp only [put]
      split
      · rename_i h1; rw [ho q.value (by simp [assignsRegister, h1])]
      · exact h
    · exact h
  case writeMultipleRegisters =>
    split
    · simp only [putAll]
      split
      · rename_i h1
        cases hv : q.values[a.toNat - q.start.toNat]? with
        | none => exact h
        | some y => simp only; rw [ho y (by simp [assignsRegister, h1, hv])]
      · exact h
    · exact h

theorem contents_register (qs : List AnyReq) (a x : UInt16) : ∀ d : Tables, d.holdings a = some x →
    (∀ q ∈ qs, ∀ y, assignsRegister q a = some y → y = x) → (contents d qs).holdings a = some x := by
  induction qs with
  | nil => intro d h _; exact h
  | cons q qs ih =>
    intro d h ho
    exact ih _ (serve_register d q a x h (ho q (List.mem_cons_self ..))) (fun q' hq' => ho q' (List.mem_cons_of_mem _ hq'))

theorem serve_wrote_register (d : Tables) (q : AnyReq) (a x : UInt16) (r : Resp q.1) (h : (serve d q.1 q.2).2 = .ok r)
    (ha : assignsRegister q a = some x) : (serve d q.1 q.2).1.holdings a = some x := by
  rcases q with ⟨k, q⟩
  cases k <;> simp only [assignsRegister] at ha <;> try cases ha
  case writeSingleRegister =>
    simp only [serve] at h ⊢
    split at ha
    · rename_i h1
      injection ha with ha
      split at h
      · rename_i h2; rw [if_pos h2]; simp [put, h1, ha]
      · cases h
    · cases ha
  case writeMultipleRegisters =>
    simp only [serve] at h ⊢
    split at ha
    · rename_i h1
      split at h
      · rename_i h2; rw [if_pos h2]; simp [putAll, h1, ha]
      · cases h
    · cases ha

theorem serve_coil (d : Tables) (q : AnyReq) (a : UInt16) (x : Bool) (h : d.coils a = some x) (ho : ∀ y, assignsCoil q a = some y → y = x) :
    (serve d q.1 q.2).1.coils a = some x := by
  rcases q with ⟨k, q⟩
  cases k <;> simp only [serve] <;> try exact h
  case writeSingleRegister => split <;> exact h
  case writeMultipleRegisters => split <;> exact h
  case writeSingleCoil =>
    split
    · simp only [put]
      split
      · rename_i h1; rw [ho q.value (by simp [assignsCoil, h1])]
      · exact h
    · exact h
  case writeMultipleCoils =>
    split
    · simp only [putAll]
      split
      · rename_i h1
        cases hv : q.values[a.toNat - q.start.toNat]? with
        | none => exact h
        | some y => simp only; rw [ho y (by simp [assignsCoil, h1, hv])]
      · exact h
    · exact h

theorem contents_coil (qs : List AnyReq) (a : UInt16) (x : Bool) : ∀ d : Tables, d.coils a = some x →
    (∀ q ∈ qs, ∀ y, assignsCoil q a = some y → y = x) → (contents d qs).coils a = some x := by
  induction qs with
  | nil => intro d h _; exact h
  | cons q qs ih =>
    intro d h ho
    exact ih _ (serve_coil d q a x h (ho q (List.mem_cons_self ..))) (fun q' hq' => ho q' (List.mem_cons_of_mem _ hq'))

theorem serve_wrote_coil (d : Tables) (q : AnyReq) (a : UInt16) (x : Bool) (r : Resp q.1) (h : (serve d q.1 q.2).2 = .ok r)
    (ha : assignsCoil q a = some x) : (serve d q.1 q.2).1.coils a = some x := by
  rcases q with ⟨k, q⟩
  cases k <;> simp only [assignsCoil] at ha <;> try cases ha
  case writeSingleCoil =>
    simp only [serve] at h ⊢
    split at ha
    · rename_i h1
      injection ha with ha
      split at h
      · rename_i h2; rw [if_pos h2]; simp [put, h1, ha]
      · cases h
    · cases ha
  case writeMultipleCoils =>
    simp only [serve] at h ⊢
    split at ha
    · rename_i h1
      split at h
      · rename_i h2; rw [if_pos h2]; simp [putAll, h1, ha]
      · cases h
    · cases ha

theorem values_nth {T : Type} {m : Map T} {a : UInt16} : ∀ {n : Nat} {vs : List T}, values m a n = some vs → ∀ i, i < n →
    ∃ x, vs[i]? = some x ∧ m (UInt16.ofNat (a.toNat + i)) = some x := by
  intro n vs h i hi
  have key : ∀ (l : List Nat) (vs : List T), (l.mapM fun i => m (UInt16.ofNat (a.toNat + i))) = some vs → ∀ j (hj : j < l.length),
      ∃ x, vs[j]? = some x ∧ m (UInt16.ofNat (a.toNat + l[j])) = some x := by
    intro l
    induction l with
    | nil => intro vs _ j hj; simp at hj
    | cons b l ih =>
      intro vs h j hj
      simp only [List.mapM_cons] at h
      cases hb : m (UInt16.ofNat (a.toNat + b)) with
      | none => rw [hb] at h; cases h
      | some y =>
        cases hl : l.mapM fun i => m (UInt16.ofNat (a.toNat + i)) with
        | none => rw [hb, hl] at h; cases h
        | some ys =>
          rw [hb, hl] at h
          injection h with h
          subst h
          cases j with
          | zero => exact ⟨y, rfl, hb⟩
          | succ j => exact ih ys hl j (by simpa using hj)
  obtain ⟨x, h1, h2⟩ := key (List.range n) vs h i (by simpa using hi)
  rw [List.getElem_range] at h2
  exact ⟨x, h1, h2⟩

/-- A read of existing points contains the value of each. -/
theorem read_contains {T α : Type} {m : Map T} {s : UInt16} {n : Nat} {label : List T → List α} {f : UInt16 → T → α}
    (hl : ∀ vs, label vs = vs.mapIdx fun i b => f (nthAddr s i) b) {r : List α} (h : Spec.read m s n label = .ok r) {a : UInt16} {x : T}
    (ha : m a = some x) (h1 : s.toNat ≤ a.toNat) (h2 : a.toNat < s.toNat + n) : f a x ∈ r := by
  simp only [Spec.read, illegalAddress] at h
  split at h
  · cases hv : values m s n with
    | none => rw [hv] at h; cases h
    | some vs =>
      rw [hv] at h
      injection h with h
      obtain ⟨y, e1, e2⟩ := values_nth hv (a.toNat - s.toNat) (by omega)
      have e3 : s.toNat + (a.toNat - s.toNat) = a.toNat := by omega
      rw [e3, UInt16.ofNat_toNat, ha] at e2
      injection e2 with e2
      subst e2
      rw [← h, hl, List.mem_iff_getElem?]
      refine ⟨a.toNat - s.toNat, ?_⟩
      rw [List.getElem?_mapIdx, e1]
      simp [nthAddr, e3]
  · cases h

/-- **C81.**  What was written is read.  Once a write of `x` to a holding register has been answered with success, later reads of
registers including that one give `x`, if no request executed since the write was made assigned another value to it. -/
theorem C81_read_your_register (env : SysEnv Db) (hb : Backed env.server) (w : Db) (hw : DbReach w) (v : Sys Db) (h : XReach env w v)
    (hfew : (submissions (cliLog v.log)).length < 65536) (p0 p1 p2 p3 p4 : List XEv) (i0 i1 i2 i3 u1 u2 : Nat) (unit1 unit2 : UInt8)
    (q1 : AnyReq) (q2 : ReadReq) (tmo1 tmo2 t1 t2 : Nat) (pdu1 pdu2 : List UInt8)
    (he : v.log = p0 ++ .cli i0 (.call u1 unit1 q1 tmo1) :: (p1 ++ .cli i1 (.handler u1 (.ok pdu1) t1) ::
      (p2 ++ .cli i2 (.call u2 unit2 ⟨.readHoldingRegisters, q2⟩ tmo2) :: (p3 ++ .cli i3 (.handler u2 (.ok pdu2) t2) :: p4))))
    (a x : UInt16) (r1 : Resp q1.1) (hr1 : typedResult q1.1 q1.2 (.ok pdu1) = .ret (.ok r1)) (hx : assignsRegister q1 a = some x)
    (hothers : ∀ q ∈ executed (p1 ++ p2 ++ p3), ∀ y, assignsRegister q a = some y → y = x)
    (ha : q2.start.toNat ≤ a.toNat ∧ a.toNat < q2.start.toNat + q2.qty.toNat)
    (r2 : List RegVal) (hr2 : typedResult .readHoldingRegisters q2 (.ok pdu2) = .ret (.ok r2)) : ⟨a, x⟩ ∈ r2 := by
  obtain ⟨d, others, h1, h2, h3⟩ := C81_later_sees_earlier env hb w hw v h hfew p0 p1 p2 p3 p4 i0 i1 i2 i3 u1 u2 unit1 unit2 q1
    ⟨.readHoldingRegisters, q2⟩ tmo1 tmo2 t1 t2 pdu1 pdu2 he
  rw [hr1] at h1
  injection h1 with h1
  rw [hr2] at h2
  injection h2 with h2
  have hd := serve_wrote_register d q1 a x r1 h1.symm hx
  have hd' := contents_register others a x _ hd (fun q hq => hothers q (h3 q hq))
  exact read_contains (f := fun a x => RegVal.mk a x) (label := labelRegs q2.start) (fun _ => rfl) h2.symm hd' ha.1 ha.2

/-- A write of two registers and, after its answer, a read of three at the database, with a write of another client in between. -/
def dbOps : List Sys.Op :=
  [.server (.addSession 1 7), .server .runTask, .server (.opened 5 (Vector.replicate 260 0)),
   .client (.submit 1 ⟨.writeMultipleRegisters, ⟨65534, [8, 9]⟩⟩ 10), .client .runTask, .arrive 0 5, .arrive 0 100, .hear 100,
   .client (.submit 1 ⟨.readHoldingRegisters, ⟨65533, 3⟩⟩ 10), .client .runTask,
   .server (.receive 5 [0, 9, 0, 0, 0, 6, 1, 6, 255, 253, 0, 55]), .arrive 0 100, .hear 100]

def dbDemo : List XEv :=
  [.cli 0 (.call 0 1 ⟨.writeMultipleRegisters, ⟨65534, [8, 9]⟩⟩ 10)] ++
  ([.cli 0 (.sent 0 [0, 0, 0, 0, 0, 11, 1, 16, 255, 254, 0, 2, 4, 0, 8, 0, 9] 0),
    .srv (.mbap 0 ⟨1, 0, [16, 255, 254, 0, 2, 4, 0, 8, 0, 9]⟩), .srv (.request 7 .writeMultipleRegisters ⟨65534, [8, 9]⟩),
    .srv (.send 0 [0, 0, 0, 0, 0, 6, 1, 16, 255, 254, 0, 2]),
    .cli 0 (.data [0, 0, 0, 0, 0, 6, 1, 16, 255, 254, 0, 2]), .cli 0 (.mbap ⟨1, 0, [16, 255, 254, 0, 2]⟩)] ++
  [.cli 0 (.handler 0 (.ok [16, 255, 254, 0, 2]) 0)] ++
  [.cli 0 (.call 1 1 ⟨.readHoldingRegisters, ⟨65533, 3⟩⟩ 10)] ++
  [.cli 0 (.sent 1 [0, 1, 0, 0, 0, 6, 1, 3, 255, 253, 0, 3] 0),
   .srv (.mbap 5 ⟨1, 9, [6, 255, 253, 0, 55]⟩), .srv (.request 7 .writeSingleRegister ⟨65533, 55⟩),
   .srv (.send 5 [0, 9, 0, 0, 0, 6, 1, 6, 255, 253, 0, 55]),
   .srv (.mbap 0 ⟨1, 1, [3, 255, 253, 0, 3]⟩), .srv (.request 7 .readHoldingRegisters ⟨65533, 3⟩),
   .srv (.send 0 [0, 1, 0, 0, 0, 9, 1, 3, 6, 0, 55, 0, 8, 0, 9]),
   .cli 0 (.data [0, 1, 0, 0, 0, 9, 1, 3, 6, 0, 55, 0, 8, 0, 9]), .cli 0 (.mbap ⟨1, 1, [3, 6, 0, 55, 0, 8, 0, 9]⟩)] ++
  [.cli 0 (.handler 1 (.ok [3, 6, 0, 55, 0, 8, 0, 9]) 0)])

/-- The hypotheses of the theorems about C81 can be met: the database, a history of the form required, and the values read. -/
example : Backed dbEnv ∧ DbReach demoDb ∧ (∃ v, XReach ⟨demoEnv, dbEnv⟩ demoDb v ∧ v.log = dbDemo) ∧
    (submissions (cliLog dbDemo)).length < 65536 ∧
    assignsRegister ⟨.writeMultipleRegisters, ⟨65534, [8, 9]⟩⟩ 65535 = some 9 ∧
    executed dbDemo = [⟨.writeMultipleRegisters, ⟨65534, [8, 9]⟩⟩, ⟨.writeSingleRegister, ⟨65533, 55⟩⟩, ⟨.readHoldingRegisters, ⟨65533, 3⟩⟩] ∧
    typedResult .writeMultipleRegisters ⟨65534, [8, 9]⟩ (.ok [16, 255, 254, 0, 2]) = .ret (.ok ⟨65534, 2⟩) ∧
    typedResult .readHoldingRegisters ⟨65533, 3⟩ (.ok [3, 6, 0, 55, 0, 8, 0, 9]) = .ret (.ok [⟨65533, 55⟩, ⟨65534, 8⟩, ⟨65535, 9⟩]) :=
  ⟨dbEnv_backed, demoDb_reach, xreach_of_log (mem := Vector.replicate 260 0) (ops := dbOps) (by decide +kernel), by decide +kernel,
    by decide +kernel, by decide +kernel, by decide +kernel, by decide +kernel⟩

/-- **C81.**  The same for coils. -/
theorem C81_read_your_coil (env : SysEnv Db) (hb : Backed env.server) (w : Db) (hw : DbReach w) (v : Sys Db) (h : XReach env w v)
    (hfew : (submissions (cliLog v.log)).length < 65536) (p0 p1 p2 p3 p4 : List XEv) (i0 i1 i2 i3 u1 u2 : Nat) (unit1 unit2 : UInt8)
    (q1 : AnyReq) (q2 : ReadReq) (tmo1 tmo2 t1 t2 : Nat) (pdu1 pdu2 : List UInt8)
    (he : v.log = p0 ++ .cli i0 (.call u1 unit1 q1 tmo1) :: (p1 ++ .cli i1 (.handler u1 (.ok pdu1) t1) ::
      (p2 ++ .cli i2 (.call u2 unit2 ⟨.readCoils, q2⟩ tmo2) :: (p3 ++ .cli i3 (.handler u2 (.ok pdu2) t2) :: p4))))
    (a : UInt16) (x : Bool) (r1 : Resp q1.1) (hr1 : typedResult q1.1 q1.2 (.ok pdu1) = .ret (.ok r1)) (hx : assignsCoil q1 a = some x)
    (hothers : ∀ q ∈ executed (p1 ++ p2 ++ p3), ∀ y, assignsCoil q a = some y → y = x)
    (ha : q2.start.toNat ≤ a.toNat ∧ a.toNat < q2.start.toNat + q2.qty.toNat)
    (r2 : List BitVal) (hr2 : typedResult .readCoils q2 (.ok pdu2) = .ret (.ok r2)) : ⟨a, x⟩ ∈ r2 := by
  obtain ⟨d, others, h1, h2, h3⟩ := C81_later_sees_earlier env hb w hw v h hfew p0 p1 p2 p3 p4 i0 i1 i2 i3 u1 u2 unit1 unit2 q1
    ⟨.readCoils, q2⟩ tmo1 tmo2 t1 t2 pdu1 pdu2 he
  rw [hr1] at h1
  injection h1 with h1
  rw [hr2] at h2
  injection h2 with h2
  have hd := serve_wrote_coil d q1 a x r1 h1.symm hx
  have hd' := contents_coil others a x _ hd (fun q hq => hothers q (h3 q hq))
  exact read_contains (f := fun a x => BitVal.mk a x) (label := labelBits q2.start) (fun _ => rfl) h2.symm hd' ha.1 ha.2

/-- The same history with coils. -/
def coilDemo : List XEv :=
  [.cli 0 (.call 0 1 ⟨.writeSingleCoil, ⟨1, true⟩⟩ 10)] ++
  ([.cli 0 (.sent 0 [0, 0, 0, 0, 0, 6, 1, 5, 0, 1, 255, 0] 0), .srv (.mbap 0 ⟨1, 0, [5, 0, 1, 255, 0]⟩),
    .srv (.request 7 .writeSingleCoil ⟨1, true⟩), .srv (.send 0 [0, 0, 0, 0, 0, 6, 1, 5, 0, 1, 255, 0]),
    .cli 0 (.data [0, 0, 0, 0, 0, 6, 1, 5, 0, 1, 255, 0]), .cli 0 (.mbap ⟨1, 0, [5, 0, 1, 255, 0]⟩)] ++
  [.cli 0 (.handler 0 (.ok [5, 0, 1, 255, 0]) 0)] ++ [.cli 0 (.call 1 1 ⟨.readCoils, ⟨1, 3⟩⟩ 10)] ++
  [.cli 0 (.sent 1 [0, 1, 0, 0, 0, 6, 1, 1, 0, 1, 0, 3] 0), .srv (.mbap 0 ⟨1, 1, [1, 0, 1, 0, 3]⟩),
   .srv (.request 7 .readCoils ⟨1, 3⟩), .srv (.send 0 [0, 1, 0, 0, 0, 4, 1, 1, 1, 7]),
   .cli 0 (.data [0, 1, 0, 0, 0, 4, 1, 1, 1, 7]), .cli 0 (.mbap ⟨1, 1, [1, 1, 7]⟩)] ++
  [.cli 0 (.handler 1 (.ok [1, 1, 7]) 0)])

example : (∃ v, XReach ⟨demoEnv, dbEnv⟩ demoDb v ∧ v.log = coilDemo) ∧ demoDb.view.coils 1 = some false ∧
    (submissions (cliLog coilDemo)).length < 65536 ∧ assignsCoil ⟨.writeSingleCoil, ⟨1, true⟩⟩ 1 = some true ∧
    executed coilDemo = [⟨.writeSingleCoil, ⟨1, true⟩⟩, ⟨.readCoils, ⟨1, 3⟩⟩] ∧
    typedResult .writeSingleCoil ⟨1, true⟩ (.ok [5, 0, 1, 255, 0]) = .ret (.ok ⟨1, true⟩) ∧
    typedResult .readCoils ⟨1, 3⟩ (.ok [1, 1, 7]) = .ret (.ok [⟨1, true⟩, ⟨2, true⟩, ⟨3, true⟩]) :=
  ⟨xreach_of_log (mem := Vector.replicate 260 0) (ops :=
    [.server (.addSession 1 7), .server .runTask, .client (.submit 1 ⟨.writeSingleCoil, ⟨1, true⟩⟩ 10), .client .runTask, .arrive 0 100,
     .hear 100, .client (.submit 1 ⟨.readCoils, ⟨1, 3⟩⟩ 10), .client .runTask, .arrive 0 100, .hear 100]) (by decide +kernel),
    by decide +kernel, by decide +kernel, by decide +kernel, by decide +kernel, by decide +kernel, by decide +kernel⟩

end Modbus.Props
