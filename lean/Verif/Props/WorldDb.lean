import Verif.Props.World
import Verif.Props.SystemDb

/-!
Clients, network and server together, the server's sessions being sessions of one in-memory database.
-/

namespace Modbus.Props

open Spec

/-- The requests sessions of the server were called for, in order. -/
def servedIn (log : List WEv) : List AnyReq :=
  log.filterMap fun e => match e with
    | .srv (.ch (.request _ k q)) => some ⟨k, q⟩
    | _ => none

theorem servedIn_append (a b : List WEv) : servedIn (a ++ b) = servedIn a ++ servedIn b := by simp [servedIn]

/-- The state of the database after the calls recorded in a log. -/
theorem Backed.played {env : ServerEnv Db} (h : Backed env) (l : List WEv) : ∀ {w : Db}, DbReach w →
    DbReach (played env.onRequest w (svLog (inServer l))) ∧
      (Spec.played env.onRequest w (svLog (inServer l))).view = contents w.view (servedIn l) := by
  induction l with
  | nil => intro w hw; exact ⟨hw, rfl⟩
  | cons e l ih =>
    intro w hw
    by_cases he : ∃ s k q, e = WEv.srv (.ch (.request s k q))
    · obtain ⟨s, k, q, rfl⟩ := he
      obtain ⟨h1, h2, -⟩ := h.one hw s k q
      obtain ⟨h3, h4⟩ := ih h1
      refine ⟨h3, ?_⟩
      have e1 : Spec.played env.onRequest w (svLog (inServer (.srv (.ch (.request s k q)) :: l))) =
        Spec.played env.onRequest (env.onRequest s k q w).1 (svLog (inServer l)) := rfl
      have e2 : contents w.view (servedIn (.srv (.ch (.request s k q)) :: l)) = contents (serve w.view k q).1 (servedIn l) := rfl
      rw [e1, e2, h4, h2]
    · have h1 : Spec.played env.onRequest w (svLog (inServer (e :: l))) = Spec.played env.onRequest w (svLog (inServer l)) ∧
          servedIn (e :: l) = servedIn l := by
        rcases e with ⟨i, e⟩ | e
        · exact ⟨rfl, rfl⟩
        · rcases e with e | e
          · cases e with
            | request s k q => exact absurd ⟨s, k, q, rfl⟩ he
            | _ => exact ⟨rfl, rfl⟩
          · exact ⟨rfl, rfl⟩
      rw [h1.1, h1.2]
      exact ih hw

/-! ### C109 -/

/-- **C109**, contents: at every time the database contains what all requests executed so far leave, one after the other, whichever clients
made them and whatever happened to the connections. -/
theorem C109_contents (env : WorldEnv Db) (hb : Backed env.server) (w : Db) (hw : DbReach w) (v : World Db) (h : WReach env w v) :
    DbReach v.srv.srv.world ∧ v.srv.srv.world.view = contents w.view (servedIn v.log) := by
  have hok := h.ok
  have hp := hok.srv.ok.traced.world
  rw [← hok.srv.ok.svl, ← hok.slog] at hp
  rw [hp]
  exact hb.played v.log hw

/-- C109, to be wished for: each response decodes to exactly what the four tables give at one moment between the call and the response, after
all requests executed before that moment. -/
def C109_Statement : Prop := ∀ (env : WorldEnv Db), Backed env.server → ∀ (w : Db), DbReach w → ∀ (v : World Db), WReach env w v →
  ∀ (past future : List WEv) (j u : Nat) (pdu : List UInt8) (t : Nat), v.log = past ++ .cli j (.ch (.handler u (.ok pdu) t)) :: future →
  ∃ (before between : List WEv) (unit : UInt8) (k : Kind) (q : Req k) (tmo : Nat) (s : SessId),
    past = before ++ .srv (.ch (.request s k q)) :: between ∧ CEv.call u unit ⟨k, q⟩ tmo ∈ chLog (inClient j before) ∧
    typedResult k q (.ok pdu) = .ret (serve (contents w.view (servedIn before)) k q).2

/-- **C109** (part): it is so for a calm client, as long as the transaction ids on a connection do not repeat.
Missing from C109: the other histories (`C109_violated`). -/
theorem C109_answered_at_one_moment_partial (env : WorldEnv Db) (hb : Backed env.server) (w : Db) (hw : DbReach w) (v : World Db)
    (h : WReach env w v) (past future : List WEv) (j u : Nat) (pdu : List UInt8) (t : Nat)
    (he : v.log = past ++ .cli j (.ch (.handler u (.ok pdu) t)) :: future) (hc : Calm env j v) (hrecent : RecentOn j u past) :
    ∃ (before between : List WEv) (unit : UInt8) (k : Kind) (q : Req k) (tmo : Nat) (s : SessId),
      past = before ++ .srv (.ch (.request s k q)) :: between ∧ CEv.call u unit ⟨k, q⟩ tmo ∈ chLog (inClient j before) ∧
      typedResult k q (.ok pdu) = .ret (serve (contents w.view (servedIn before)) k q).2 := by
  obtain ⟨A, B, c, n, m, s, k, q, tmo, l, h1, -, -, h4, h5, -, h7⟩ := C101_own_answer_partial env w v h j hc past future u pdu t he hrecent
  obtain ⟨B0, B1, hB, hno⟩ : ∃ B0 B1, B = B0 ++ .srv (.ch (.request s k q)) :: B1 ∧ svLog (inServer B0) = [] := by
    clear h1
    induction B with
    | nil => cases h5
    | cons e B ih =>
      rcases e with ⟨i, e⟩ | e
      · obtain ⟨B0, B1, g1, g2⟩ := ih h5
        exact ⟨.cli i e :: B0, B1, by rw [g1]; rfl, g2⟩
      · rcases e with e | e
        · have h5' : e :: svLog (inServer B) = .request s k q :: l := h5
          injection h5' with h5' _
          subst h5'
          exact ⟨[], B, rfl, rfl⟩
        · obtain ⟨B0, B1, g1, g2⟩ := ih h5
          exact ⟨.srv (.net e) :: B0, B1, by rw [g1]; rfl, g2⟩
  have hs0 : servedIn B0 = [] := by
    clear hB h1
    induction B0 with
    | nil => rfl
    | cons e B0 ih =>
      rcases e with ⟨i, e⟩ | e
      · exact ih hno
      · rcases e with e | e
        · cases hno
        · exact ih hno
  refine ⟨A ++ .srv (.ch (.mbap c m)) :: B0, B1, m.unit, k, q, tmo, s, by rw [h1, hB]; simp, ?_, ?_⟩
  · rw [inClient_append, chLog_append]; exact List.mem_append_left _ h4
  · obtain ⟨hr, hv⟩ := hb.played A hw
    obtain ⟨-, -, h8⟩ := hb.one hr s k q
    rw [h8, hv] at h7
    have e1 : servedIn (A ++ .srv (.ch (.mbap c m)) :: B0) = servedIn A := by
      rw [servedIn_append]
      change servedIn A ++ servedIn B0 = _
      rw [hs0, List.append_nil]
    rw [e1]
    rcases serve_proper (contents w.view (servedIn A)) k q with ⟨r, g1, g2⟩ | g
    · rw [g1] at h7 ⊢; exact h7 g2
    · rw [g] at h7 ⊢; exact h7

/-- A call is made once. -/
theorem world_call_before {env : WorldEnv Db} {w : Db} {v : World Db} (h : WReach env w v) {a b before rest : List WEv} {j u : Nat}
    {unit unit' : UInt8} {q q' : AnyReq} {tmo tmo' : Nat} (h1 : v.log = a ++ .cli j (.ch (.call u unit q tmo)) :: b) (h2 : v.log = before ++ rest)
    (h3 : CEv.call u unit' q' tmo' ∈ chLog (inClient j before)) : ∃ c, before = a ++ .cli j (.ch (.call u unit q tmo)) :: c := by
  have hok := h.ok
  have hlog : chLog (inClient j v.log) = (v.cli j).cli.log := by rw [hok.clog, (hok.cli j).proj.cli]
  have hn : ((submissions (v.cli j).cli.log).map (·.1)).Nodup := by
    rw [(C46_submission_order _ _ (hok.cli j).proj.reach).1]; exact List.nodup_range
  have bad : ∀ rest', rest = rest' ++ .cli j (.ch (.call u unit q tmo)) :: b → False := by
    intro rest' hr
    rw [← hlog, h2, hr, inClient_append, chLog_append, submissions_append, List.map_append, List.nodup_append] at hn
    exact hn.2.2 u (List.mem_map.2 ⟨_, mem_submissions.2 h3, rfl⟩) u
      (List.mem_map.2 ⟨(u, unit, q, tmo), mem_submissions.2 (by
        rw [inClient_append, chLog_append, inClient_cons_cli]; exact List.mem_append_right _ List.mem_cons_self), rfl⟩) rfl
  rcases List.append_eq_append_iff.1 (h1.symm.trans h2) with ⟨x, e1, e2⟩ | ⟨x, e1, e2⟩
  · cases x with
    | nil => exact (bad [] (by simpa using e2.symm)).elim
    | cons y x =>
      injection e2 with e2 e3
      subst e2
      exact ⟨x, e1⟩
  · exact (bad x e2).elim

/-- Two calm clients: if the second made its request after the first got its response, the second's response comes from tables in which the
first's request was carried out, and afterwards only requests executed since the first's was made. -/
theorem C109_later_sees_earlier_partial (env : WorldEnv Db) (hb : Backed env.server) (w : Db) (hw : DbReach w) (v : World Db) (h : WReach env w v)
    (p0 p1 p2 p3 p4 : List WEv) (j1 j2 u1 u2 : Nat) (unit1 unit2 : UInt8) (q1 q2 : AnyReq) (tmo1 tmo2 t1 t2 : Nat) (pdu1 pdu2 : List UInt8)
    (he : v.log = p0 ++ .cli j1 (.ch (.call u1 unit1 q1 tmo1)) :: (p1 ++ .cli j1 (.ch (.handler u1 (.ok pdu1) t1)) ::
      (p2 ++ .cli j2 (.ch (.call u2 unit2 q2 tmo2)) :: (p3 ++ .cli j2 (.ch (.handler u2 (.ok pdu2) t2)) :: p4))))
    (hc1 : Calm env j1 v) (hc2 : Calm env j2 v) (hrec1 : RecentOn j1 u1 (p0 ++ .cli j1 (.ch (.call u1 unit1 q1 tmo1)) :: p1))
    (hrec2 : RecentOn j2 u2 (p0 ++ .cli j1 (.ch (.call u1 unit1 q1 tmo1)) :: (p1 ++ .cli j1 (.ch (.handler u1 (.ok pdu1) t1)) ::
      (p2 ++ .cli j2 (.ch (.call u2 unit2 q2 tmo2)) :: p3)))) :
    ∃ (d : Tables) (others : List AnyReq),
      typedResult q1.1 q1.2 (.ok pdu1) = .ret (serve d q1.1 q1.2).2 ∧
      typedResult q2.1 q2.2 (.ok pdu2) = .ret (serve (contents (serve d q1.1 q1.2).1 others) q2.1 q2.2).2 ∧
      ∀ q ∈ others, q ∈ servedIn (p1 ++ p2 ++ p3) := by
  have hok := h.ok
  have hu : ∀ {j u a b q q' t t'}, CEv.call u a q t ∈ chLog (inClient j v.log) → CEv.call u b q' t' ∈ chLog (inClient j v.log) → a = b ∧ q = q' ∧ t = t' := by
    intro j u a b q q' t t' g1 g2
    rw [hok.clog, (hok.cli j).proj.cli] at g1 g2
    exact (hok.cli j).proj.reach.inv.1.callUnique g1 g2
  obtain ⟨b1, c1, un1, k1, r1, o1, s1, e1, e2, e3⟩ := C109_answered_at_one_moment_partial env hb w hw v h
    (p0 ++ .cli j1 (.ch (.call u1 unit1 q1 tmo1)) :: p1) (p2 ++ .cli j2 (.ch (.call u2 unit2 q2 tmo2)) :: (p3 ++ .cli j2 (.ch (.handler u2 (.ok pdu2) t2)) :: p4))
    j1 u1 pdu1 t1 (by rw [he]; simp) hc1 hrec1
  obtain ⟨b2, c2, un2, k2, r2, o2, s2, f1, f2, f3⟩ := C109_answered_at_one_moment_partial env hb w hw v h
    (p0 ++ .cli j1 (.ch (.call u1 unit1 q1 tmo1)) :: (p1 ++ .cli j1 (.ch (.handler u1 (.ok pdu1) t1)) :: (p2 ++ .cli j2 (.ch (.call u2 unit2 q2 tmo2)) :: p3))) p4
    j2 u2 pdu2 t2 (by rw [he]; simp) hc2 hrec2
  have hv1 : v.log = b1 ++ (.srv (.ch (.request s1 k1 r1)) :: c1 ++ .cli j1 (.ch (.handler u1 (.ok pdu1) t1)) ::
      (p2 ++ .cli j2 (.ch (.call u2 unit2 q2 tmo2)) :: (p3 ++ .cli j2 (.ch (.handler u2 (.ok pdu2) t2)) :: p4))) := by
    rw [← List.append_assoc, ← e1, he]; simp
  have hv2 : v.log = b2 ++ (.srv (.ch (.request s2 k2 r2)) :: c2 ++ .cli j2 (.ch (.handler u2 (.ok pdu2) t2)) :: p4) := by
    rw [← List.append_assoc, ← f1, he]; simp
  have hq1 : (⟨k1, r1⟩ : AnyReq) = q1 := by
    refine (hu (j := j1) (u := u1) (a := un1) (b := unit1) (t := o1) (t' := tmo1) ?_ ?_).2.1
    · rw [hv1, inClient_append, chLog_append]; exact List.mem_append_left _ e2
    · rw [he, inClient_append, chLog_append, inClient_cons_cli]; exact List.mem_append_right _ (List.mem_cons_self ..)
  have he2 : v.log = (p0 ++ .cli j1 (.ch (.call u1 unit1 q1 tmo1)) :: (p1 ++ .cli j1 (.ch (.handler u1 (.ok pdu1) t1)) :: p2)) ++
      .cli j2 (.ch (.call u2 unit2 q2 tmo2)) :: (p3 ++ .cli j2 (.ch (.handler u2 (.ok pdu2) t2)) :: p4) := by rw [he]; simp
  have hq2 : (⟨k2, r2⟩ : AnyReq) = q2 := by
    refine (hu (j := j2) (u := u2) (a := un2) (b := unit2) (t := o2) (t' := tmo2) ?_ ?_).2.1
    · rw [hv2, inClient_append, chLog_append]; exact List.mem_append_left _ f2
    · rw [he2, inClient_append, chLog_append, inClient_cons_cli]; exact List.mem_append_right _ (List.mem_cons_self ..)
  subst hq1 hq2
  obtain ⟨x1, hx1⟩ := world_call_before h he hv1 e2
  obtain ⟨x2, hx2⟩ := world_call_before h he2 hv2 f2
  have hp1 : p1 = x1 ++ .srv (.ch (.request s1 k1 r1)) :: c1 := by
    rw [hx1] at e1; simpa using e1
  have hp3 : p3 = x2 ++ .srv (.ch (.request s2 k2 r2)) :: c2 := by
    rw [hx2] at f1; simpa using f1
  refine ⟨contents w.view (servedIn b1), servedIn (c1 ++ p2 ++ x2), e3, ?_, ?_⟩
  · rw [f3]
    congr 2
    have : servedIn b2 = servedIn b1 ++ ⟨k1, r1⟩ :: servedIn (c1 ++ p2 ++ x2) := by
      rw [hx2, hx1, hp1]
      simp [servedIn]
    rw [this, contents_append]
    rfl
  · intro q hq
    rw [hp1, hp3]
    simp only [servedIn_append, List.mem_append] at hq ⊢
    have cons : ∀ (e : WEv) l, q ∈ servedIn l → q ∈ servedIn (e :: l) := by
      intro e l hl
      have : e :: l = [e] ++ l := rfl
      rw [this, servedIn_append]; exact List.mem_append_right _ hl
    rcases hq with (hq | hq) | hq
    · exact Or.inl (Or.inl (Or.inr (cons _ _ hq)))
    · exact Or.inl (Or.inr hq)
    · exact Or.inr (Or.inl hq)

/-- A database whose registers spell out an answer to a later request of a client. -/
def spellingDb : Db := ⟨[(5, false)], [], [(3, 0), (4, 2), (5, 0), (6, 6), (7, 0x106), (8, 5), (9, 0xff00)], []⟩

theorem spellingDb_reach : DbReach spellingDb :=
  ⟨[.addCoil 5 false, .addHolding 3 0, .addHolding 4 2, .addHolding 5 0, .addHolding 6 6, .addHolding 7 0x106, .addHolding 8 5, .addHolding 9 0xff00],
    List.replicate 8 (.done true), by rfl⟩

/-- The hypotheses of the theorems about C109 and C110 can be met: client 0 writes 42 into register 3 of the database, its connection breaks,
then client 1 reads the register. -/
theorem wtwo_db : ∃ v, WReach (wenv dbEnv 1) spellingDb v ∧ Calm (wenv dbEnv 1) 0 v ∧ Calm (wenv dbEnv 1) 1 v ∧
    (decide (v.log = v.log.take 3 ++ .cli 0 (.ch (.call 0 1 ⟨.writeSingleRegister, ⟨3, 42⟩⟩ 10)) :: ((v.log.drop 4).take 20 ++
        .cli 0 (.ch (.handler 0 (.ok [6, 0, 3, 0, 42]) 0)) :: ((v.log.drop 25).take 3 ++
        .cli 1 (.ch (.call 0 1 ⟨.readHoldingRegisters, ⟨3, 1⟩⟩ 10)) :: ((v.log.drop 29).take 17 ++ .cli 1 (.ch (.handler 0 (.ok [3, 2, 0, 42]) 0)) :: [])))) &&
      decide (servedIn v.log = [⟨.writeSingleRegister, ⟨3, 42⟩⟩, ⟨.readHoldingRegisters, ⟨3, 1⟩⟩])) = true := by
  obtain ⟨v, h1, h2⟩ := any_wdemo (env := wenv dbEnv 1) (w := spellingDb) (ops := wtwo) (Q := fun v => calmChk 0 [0] v && (calmChk 1 [1] v &&
    (decide (v.log = v.log.take 3 ++ .cli 0 (.ch (.call 0 1 ⟨.writeSingleRegister, ⟨3, 42⟩⟩ 10)) :: ((v.log.drop 4).take 20 ++
        .cli 0 (.ch (.handler 0 (.ok [6, 0, 3, 0, 42]) 0)) :: ((v.log.drop 25).take 3 ++
        .cli 1 (.ch (.call 0 1 ⟨.readHoldingRegisters, ⟨3, 1⟩⟩ 10)) :: ((v.log.drop 29).take 17 ++ .cli 1 (.ch (.handler 0 (.ok [3, 2, 0, 42]) 0)) :: [])))) &&
      decide (servedIn v.log = [⟨.writeSingleRegister, ⟨3, 42⟩⟩, ⟨.readHoldingRegisters, ⟨3, 1⟩⟩])))) (by decide +kernel)
  rw [Bool.and_eq_true, Bool.and_eq_true] at h2
  exact ⟨v, h1, wenv_calm h2.1, wenv_calm h2.2.1, h2.2.2⟩

example : Backed (wenv dbEnv 1).server := dbEnv_backed

/-- Client 0 (which is not calm) reads registers 3 to 9; half of the answer is handled, then the request times out; it writes a register, and writing
this on the connection fails when the other half has arrived already; it tries again before that half is handled.  Then client 1 reads the register. -/
def spelledWrite : List World.Op := wup ++ wsend 0 ⟨.readHoldingRegisters, ⟨3, 7⟩⟩ 12 ++
  [.arrive 0 [0, 0, 0, 0, 0, 6, 1, 3, 0, 3, 0, 7], .server vrun, .server (.complete 2 (.sent 23)), .server vrun,
   .hear 0 0 0 [0, 0, 0, 0, 0, 17, 1, 3, 14, 0, 0], .client 0 (.run 0)] ++
  (kexp 0 ++ [.chan (.submit 1 ⟨.writeSingleRegister, ⟨5, 0xff00⟩⟩ 10), .chan .runTask] : List Stk.Op).map (.client 0) ++
  [.client 0 (.complete 1 .error), .hear 0 0 0 [0, 2, 0, 0, 0, 6, 1, 6, 0, 5, 255, 0], .client 0 (.run 0)] ++
  ([.chan (.submit 1 ⟨.writeSingleRegister, ⟨5, 0xff00⟩⟩ 10), .chan .runTask] : List Stk.Op).map (.client 0) ++ [.client 0 (.run 0)] ++
  wsend 1 ⟨.readHoldingRegisters, ⟨5, 1⟩⟩ 12 ++
  [.arrive 0 [0, 0, 0, 0, 0, 6, 1, 3, 0, 5, 0, 1], .server vrun, .server (.complete 2 (.sent 11)), .server vrun,
   .hear 1 0 1 [0, 0, 0, 0, 0, 5, 1, 3, 2, 0, 0], .client 1 (.run 0)]

/-- The write of 0xff00 is reported successful, although no session was ever asked to write anything; client 1 reads 0. -/
theorem C109_spelled : ∃ v, WReach (wenv dbEnv 1) spellingDb v ∧
    (decide (v.log = v.log.take 28 ++ .cli 0 (.ch (.call 2 1 ⟨.writeSingleRegister, ⟨5, 0xff00⟩⟩ 10)) :: ((v.log.drop 29).take 6 ++
        .cli 0 (.ch (.handler 2 (.ok [6, 0, 5, 255, 0]) 10)) :: ([] ++
        .cli 1 (.ch (.call 0 1 ⟨.readHoldingRegisters, ⟨5, 1⟩⟩ 10)) :: ((v.log.drop 37).take 17 ++ .cli 1 (.ch (.handler 0 (.ok [3, 2, 0, 0]) 0)) :: [])))) &&
      decide (servedIn v.log = [⟨.readHoldingRegisters, ⟨3, 7⟩⟩, ⟨.readHoldingRegisters, ⟨5, 1⟩⟩]) &&
      decide (servedIn ((v.log.drop 29).take 6 ++ [] ++ (v.log.drop 37).take 17) = [⟨.readHoldingRegisters, ⟨5, 1⟩⟩])) = true :=
  any_wdemo (ops := spelledWrite) (by decide +kernel)

/-- C109 is false. -/
theorem C109_violated : ¬C109_Statement := by
  intro hall
  obtain ⟨v, hr, hq⟩ := C109_spelled
  simp only [Bool.and_eq_true, decide_eq_true_eq] at hq
  obtain ⟨⟨h1, h2⟩, -⟩ := hq
  have hok := hr.ok
  obtain ⟨b, c, unit, k, q, tmo, s, a1, a2, -⟩ := hall (wenv dbEnv 1) dbEnv_backed spellingDb spellingDb_reach v hr
    (v.log.take 28 ++ .cli 0 (.ch (.call 2 1 ⟨.writeSingleRegister, ⟨5, 0xff00⟩⟩ 10)) :: (v.log.drop 29).take 6) _ 0 2 [6, 0, 5, 255, 0] 10
    (by rw [List.append_assoc, List.cons_append]; exact h1)
  have hs : (⟨k, q⟩ : AnyReq) ∈ servedIn v.log := by
    rw [h1, ← List.cons_append, ← List.append_assoc, a1]
    simp [servedIn]
  have hcall : CEv.call 2 unit ⟨k, q⟩ tmo ∈ chLog (inClient 0 v.log) := by
    rw [h1, ← List.cons_append, ← List.append_assoc, a1, List.append_assoc, inClient_append, chLog_append]
    exact List.mem_append_left _ a2
  have hcall2 : CEv.call 2 1 ⟨.writeSingleRegister, ⟨5, 0xff00⟩⟩ 10 ∈ chLog (inClient 0 v.log) := by
    rw [h1, inClient_append, chLog_append, inClient_cons_cli]
    exact List.mem_append_right _ List.mem_cons_self
  rw [hok.clog, (hok.cli 0).proj.cli] at hcall hcall2
  obtain ⟨-, hk2, -⟩ := (hok.cli 0).proj.reach.inv.1.callUnique hcall2 hcall
  rw [← hk2, h2] at hs
  revert hs
  decide +kernel

/-! ### C110 -/

/-- C110, to be wished for: what one client has written, the other reads. Once a write of `x` to a holding register has been answered with
success, reads of registers including that one, made by any client afterwards, give `x`, if no request executed since the write was made
assigned another value to it. -/
def C110_Statement : Prop := ∀ (env : WorldEnv Db), Backed env.server → ∀ (w : Db), DbReach w → ∀ (v : World Db), WReach env w v →
  ∀ (p0 p1 p2 p3 p4 : List WEv) (j1 j2 u1 u2 : Nat) (unit1 unit2 : UInt8) (q1 : AnyReq) (q2 : ReadReq) (tmo1 tmo2 t1 t2 : Nat) (pdu1 pdu2 : List UInt8),
  v.log = p0 ++ .cli j1 (.ch (.call u1 unit1 q1 tmo1)) :: (p1 ++ .cli j1 (.ch (.handler u1 (.ok pdu1) t1)) ::
    (p2 ++ .cli j2 (.ch (.call u2 unit2 ⟨.readHoldingRegisters, q2⟩ tmo2)) :: (p3 ++ .cli j2 (.ch (.handler u2 (.ok pdu2) t2)) :: p4))) →
  ∀ (a x : UInt16) (r1 : Resp q1.1), typedResult q1.1 q1.2 (.ok pdu1) = .ret (.ok r1) → assignsRegister q1 a = some x →
  (∀ q ∈ servedIn (p1 ++ p2 ++ p3), ∀ y, assignsRegister q a = some y → y = x) →
  (q2.start.toNat ≤ a.toNat ∧ a.toNat < q2.start.toNat + q2.qty.toNat) →
  ∀ (r2 : List RegVal), typedResult .readHoldingRegisters q2 (.ok pdu2) = .ret (.ok r2) → ⟨a, x⟩ ∈ r2

/-- **C110** (part): it is so for two calm clients, as long as the transaction ids on their connections do not repeat.
Missing from C110: the other histories (`C110_violated`). -/
theorem C110_read_what_was_written_partial (env : WorldEnv Db) (hb : Backed env.server) (w : Db) (hw : DbReach w) (v : World Db) (h : WReach env w v)
    (p0 p1 p2 p3 p4 : List WEv) (j1 j2 u1 u2 : Nat) (unit1 unit2 : UInt8) (q1 : AnyReq) (q2 : ReadReq) (tmo1 tmo2 t1 t2 : Nat) (pdu1 pdu2 : List UInt8)
    (he : v.log = p0 ++ .cli j1 (.ch (.call u1 unit1 q1 tmo1)) :: (p1 ++ .cli j1 (.ch (.handler u1 (.ok pdu1) t1)) ::
      (p2 ++ .cli j2 (.ch (.call u2 unit2 ⟨.readHoldingRegisters, q2⟩ tmo2)) :: (p3 ++ .cli j2 (.ch (.handler u2 (.ok pdu2) t2)) :: p4))))
    (hc1 : Calm env j1 v) (hc2 : Calm env j2 v) (hrec1 : RecentOn j1 u1 (p0 ++ .cli j1 (.ch (.call u1 unit1 q1 tmo1)) :: p1))
    (hrec2 : RecentOn j2 u2 (p0 ++ .cli j1 (.ch (.call u1 unit1 q1 tmo1)) :: (p1 ++ .cli j1 (.ch (.handler u1 (.ok pdu1) t1)) ::
      (p2 ++ .cli j2 (.ch (.call u2 unit2 ⟨.readHoldingRegisters, q2⟩ tmo2)) :: p3))))
    (a x : UInt16) (r1 : Resp q1.1) (hr1 : typedResult q1.1 q1.2 (.ok pdu1) = .ret (.ok r1)) (hx : assignsRegister q1 a = some x)
    (hothers : ∀ q ∈ servedIn (p1 ++ p2 ++ p3), ∀ y, assignsRegister q a = some y → y = x)
    (ha : q2.start.toNat ≤ a.toNat ∧ a.toNat < q2.start.toNat + q2.qty.toNat)
    (r2 : List RegVal) (hr2 : typedResult .readHoldingRegisters q2 (.ok pdu2) = .ret (.ok r2)) : ⟨a, x⟩ ∈ r2 := by
  obtain ⟨d, others, h1, h2, h3⟩ := C109_later_sees_earlier_partial env hb w hw v h p0 p1 p2 p3 p4 j1 j2 u1 u2 unit1 unit2 q1
    ⟨.readHoldingRegisters, q2⟩ tmo1 tmo2 t1 t2 pdu1 pdu2 he hc1 hc2 hrec1 hrec2
  rw [hr1] at h1
  injection h1 with h1
  rw [hr2] at h2
  injection h2 with h2
  have hd := serve_wrote_register d q1 a x r1 h1.symm hx
  have hd' := contents_register others a x _ hd (fun q hq => hothers q (h3 q hq))
  exact read_contains (f := fun a x => RegVal.mk a x) (label := labelRegs q2.start) (fun _ => rfl) h2.symm hd' ha.1 ha.2

/-- **C110** (part): the same for coils. -/
theorem C110_read_coil_partial (env : WorldEnv Db) (hb : Backed env.server) (w : Db) (hw : DbReach w) (v : World Db) (h : WReach env w v)
    (p0 p1 p2 p3 p4 : List WEv) (j1 j2 u1 u2 : Nat) (unit1 unit2 : UInt8) (q1 : AnyReq) (q2 : ReadReq) (tmo1 tmo2 t1 t2 : Nat) (pdu1 pdu2 : List UInt8)
    (he : v.log = p0 ++ .cli j1 (.ch (.call u1 unit1 q1 tmo1)) :: (p1 ++ .cli j1 (.ch (.handler u1 (.ok pdu1) t1)) ::
      (p2 ++ .cli j2 (.ch (.call u2 unit2 ⟨.readCoils, q2⟩ tmo2)) :: (p3 ++ .cli j2 (.ch (.handler u2 (.ok pdu2) t2)) :: p4))))
    (hc1 : Calm env j1 v) (hc2 : Calm env j2 v) (hrec1 : RecentOn j1 u1 (p0 ++ .cli j1 (.ch (.call u1 unit1 q1 tmo1)) :: p1))
    (hrec2 : RecentOn j2 u2 (p0 ++ .cli j1 (.ch (.call u1 unit1 q1 tmo1)) :: (p1 ++ .cli j1 (.ch (.handler u1 (.ok pdu1) t1)) ::
      (p2 ++ .cli j2 (.ch (.call u2 unit2 ⟨.readCoils, q2⟩ tmo2)) :: p3))))
    (a : UInt16) (x : Bool) (r1 : Resp q1.1) (hr1 : typedResult q1.1 q1.2 (.ok pdu1) = .ret (.ok r1)) (hx : assignsCoil q1 a = some x)
    (hothers : ∀ q ∈ servedIn (p1 ++ p2 ++ p3), ∀ y, assignsCoil q a = some y → y = x)
    (ha : q2.start.toNat ≤ a.toNat ∧ a.toNat < q2.start.toNat + q2.qty.toNat)
    (r2 : List BitVal) (hr2 : typedResult .readCoils q2 (.ok pdu2) = .ret (.ok r2)) : ⟨a, x⟩ ∈ r2 := by
  obtain ⟨d, others, h1, h2, h3⟩ := C109_later_sees_earlier_partial env hb w hw v h p0 p1 p2 p3 p4 j1 j2 u1 u2 unit1 unit2 q1
    ⟨.readCoils, q2⟩ tmo1 tmo2 t1 t2 pdu1 pdu2 he hc1 hc2 hrec1 hrec2
  rw [hr1] at h1
  injection h1 with h1
  rw [hr2] at h2
  injection h2 with h2
  have hd := serve_wrote_coil d q1 a x r1 h1.symm hx
  have hd' := contents_coil others a x _ hd (fun q hq => hothers q (h3 q hq))
  exact read_contains (f := fun a x => BitVal.mk a x) (label := labelBits q2.start) (fun _ => rfl) h2.symm hd' ha.1 ha.2

/-- Client 0 wrote 42, which is reported; client 1 reads it. -/
example : ∃ (v : World Db) (p0 p1 p2 p3 : List WEv), WReach (wenv dbEnv 1) spellingDb v ∧ Calm (wenv dbEnv 1) 0 v ∧ Calm (wenv dbEnv 1) 1 v ∧
    v.log = p0 ++ .cli 0 (.ch (.call 0 1 ⟨.writeSingleRegister, ⟨3, 42⟩⟩ 10)) :: (p1 ++ .cli 0 (.ch (.handler 0 (.ok [6, 0, 3, 0, 42]) 0)) ::
      (p2 ++ .cli 1 (.ch (.call 0 1 ⟨.readHoldingRegisters, ⟨3, 1⟩⟩ 10)) :: (p3 ++ .cli 1 (.ch (.handler 0 (.ok [3, 2, 0, 42]) 0)) :: []))) ∧
    RecentOn 0 0 (p0 ++ .cli 0 (.ch (.call 0 1 ⟨.writeSingleRegister, ⟨3, 42⟩⟩ 10)) :: p1) ∧ spellingDb.view.holdings 3 = some 0 ∧
    typedResult .writeSingleRegister ⟨3, 42⟩ (.ok [6, 0, 3, 0, 42]) = .ret (.ok ⟨3, 42⟩) ∧ assignsRegister ⟨.writeSingleRegister, ⟨3, 42⟩⟩ 3 = some 42 ∧
    typedResult .readHoldingRegisters ⟨3, 1⟩ (.ok [3, 2, 0, 42]) = .ret (.ok [⟨3, 42⟩]) ∧
    ∀ q ∈ servedIn (p1 ++ p2 ++ p3), ∀ y, assignsRegister q 3 = some y → y = 42 := by
  obtain ⟨v, h1, h2, h3, h4⟩ := wtwo_db
  simp only [Bool.and_eq_true, decide_eq_true_eq] at h4
  refine ⟨v, _, _, _, _, h1, h2, h3, h4.1, recent_zero, by decide +kernel, by decide +kernel, by decide +kernel, by decide +kernel, fun q hq y hy => ?_⟩
  have hq' : q ∈ servedIn v.log := by
    rw [h4.1]
    simp only [servedIn_append, List.mem_append] at hq
    simp only [servedIn, List.filterMap_append, List.filterMap_cons, List.mem_append] at hq ⊢
    rcases hq with (hq | hq) | hq <;> simp [hq]
  rw [h4.2] at hq'
  simp only [List.mem_cons, List.not_mem_nil, or_false] at hq'
  rcases hq' with rfl | rfl
  · have : assignsRegister ⟨.writeSingleRegister, ⟨3, 42⟩⟩ 3 = some 42 := by decide +kernel
    rw [this] at hy; injection hy with hy; exact hy.symm
  · have : assignsRegister ⟨.readHoldingRegisters, ⟨3, 1⟩⟩ 3 = none := by decide +kernel
    rw [this] at hy; cases hy

/-- Client 0 sets coil 5; client 1 reads it. -/
def wtwoCoil : List World.Op := wup ++ wsend 0 kreq 12 ++
  [.arrive 0 (kframe 0), .server vrun, .server (.complete 2 (.sent 12)), .server vrun, .hear 0 0 0 (kframe 0), .client 0 (.run 0)] ++
  wsend 1 ⟨.readCoils, ⟨5, 1⟩⟩ 12 ++
  [.arrive 0 [0, 0, 0, 0, 0, 6, 1, 1, 0, 5, 0, 1], .server vrun, .server (.complete 2 (.sent 10)), .server vrun,
   .hear 1 0 1 [0, 0, 0, 0, 0, 4, 1, 1, 1, 1], .client 1 (.run 0)]

example : ∃ v, WReach (wenv dbEnv 1) spellingDb v ∧ Calm (wenv dbEnv 1) 0 v ∧ Calm (wenv dbEnv 1) 1 v ∧
    decide (CEv.handler 0 (.ok [5, 0, 5, 255, 0]) 0 ∈ chLog (inClient 0 v.log)) = true ∧
    decide (CEv.handler 0 (.ok [1, 1, 1]) 0 ∈ chLog (inClient 1 v.log)) = true := by
  obtain ⟨v, h1, h2⟩ := any_wdemo (env := wenv dbEnv 1) (w := spellingDb) (ops := wtwoCoil) (Q := fun v => calmChk 0 [0] v && (calmChk 1 [1] v &&
    (decide (CEv.handler 0 (.ok [5, 0, 5, 255, 0]) 0 ∈ chLog (inClient 0 v.log)) &&
      decide (CEv.handler 0 (.ok [1, 1, 1]) 0 ∈ chLog (inClient 1 v.log))))) (by decide +kernel)
  rw [Bool.and_eq_true, Bool.and_eq_true, Bool.and_eq_true] at h2
  exact ⟨v, h1, wenv_calm h2.1, wenv_calm h2.2.1, h2.2.2.1, h2.2.2.2⟩

/-- C110 is false: a client is told that its write was successful, and the other one reads the old value. -/
theorem C110_violated : ¬C110_Statement := by
  intro hall
  obtain ⟨v, hr, hq⟩ := C109_spelled
  simp only [Bool.and_eq_true, decide_eq_true_eq] at hq
  obtain ⟨⟨h1, -⟩, h3⟩ := hq
  have h := hall (wenv dbEnv 1) dbEnv_backed spellingDb spellingDb_reach v hr _ _ _ _ _ 0 1 2 0 1 1 _ _ _ _ _ _ _ _ h1 5 0xff00 ⟨5, 0xff00⟩
    (by decide +kernel) (by decide +kernel) (by
      intro q hq y hy
      rw [h3] at hq
      simp only [List.mem_cons, List.not_mem_nil, or_false] at hq
      subst hq
      have : assignsRegister ⟨.readHoldingRegisters, ⟨5, 1⟩⟩ 5 = none := by decide +kernel
      rw [this] at hy; cases hy) (by decide) [⟨5, 0⟩] (by decide +kernel)
  revert h
  decide +kernel

end Modbus.Props
