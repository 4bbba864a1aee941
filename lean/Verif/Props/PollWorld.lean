import Verif.Lemmas.PollWorld
import Verif.Props.WorldDb

/-!
C120, C121: scheduled requests of any number of clients, each with its TCP connection, and a server, joined by a network, in every history
of all of them.
-/

namespace Modbus.Props

open Spec PWorld

variable {W : Type}

/-! ### Demonstrations -/

def pwdemo (env : WorldEnv W) (w : W) (ops : List PWorld.Op) (Q : PWorld W → Bool) : Bool :=
  match (PWorld.init env w).run env ops with
  | .ub => false
  | .ret v => Q v

theorem run_pwreach {env : WorldEnv W} {w : W} (ops : List PWorld.Op) : ∀ {v v' : PWorld W}, PWReach env w v → v.run env ops = .ret v' → PWReach env w v' := by
  induction ops with
  | nil => intro v v' h hr; cases hr; exact h
  | cons op ops ih =>
    intro v v' h hr
    obtain ⟨x, h1, h2⟩ := CM.bind_eq_ret.1 hr
    exact ih (.step h h1) h2

theorem any_pwdemo {env : WorldEnv W} {w : W} {ops : List PWorld.Op} {Q : PWorld W → Bool} (h : pwdemo env w ops Q = true) :
    ∃ v, PWReach env w v ∧ Q v = true := by
  unfold pwdemo at h
  cases hr : (PWorld.init env w).run env ops with
  | ub => rw [hr] at h; cases h
  | ret v => rw [hr] at h; exact ⟨v, run_pwreach ops .init hr, h⟩

/-- The steps of a client without scheduled requests, as steps of one with them. -/
def asPolling : Stk.Op → Plk.Op
  | .chan (.tick n) => .up (.tick n)
  | .chan op => .up (.chan op)
  | .complete i r => .complete i r
  | .run k => .run k

/-- Steps of clients without scheduled requests and a server, as steps of clients with them and a server. -/
def asPollingWorld : World.Op → PWorld.Op
  | .client j op => .client j (asPolling op)
  | .server op => .server op
  | .arrive i d => .arrive i d
  | .hear j i c d => .hear j i c d

/-- On its session 0, client `j` schedules a request (with a timeout of 10 and to be sent every 1000), which sends it. -/
def ppoll (j : Nat) (q : AnyReq) : List PWorld.Op :=
  ([.up (.schedule 0 q 10 1000), .up (.sess 0 .runTask), .up (.chan .runTask)] : List Plk.Op).map (.client j)

/-- Client `j`, not connected, opens a session for unit 1 and schedules a request, which is sent; `len` bytes go out. -/
def ppoll1 (j : Nat) (q : AnyReq) (len : Nat) : List PWorld.Op := [.client j (.up (.createSession 1))] ++ ppoll j q ++
  (kcon ++ [.complete 0 (.sent len), .run 0] : List Stk.Op).map fun op => .client j (asPolling op)

theorem calmChk_polling {server : ServerEnv W} {a j : Nat} {v : PWorld W} (h : calmChk j [j] v.flat = true) : CalmPolling (wenv server a) j v := by
  have hc : Calm (wenv server a) j v.flat := wenv_calm h
  exact ⟨hc.steps, hc.quiet, fun c n hp => by
    have := hc.server c n hp
    rw [show v.flat.log = flatLog v.log from rfl, atServer_flat] at this
    exact this⟩

/-! ### Splitting logs -/

theorem split_client {j : Nat} {log : List PWEv} {a b : List LEv} {e : LEv} (h : atClient j log = a ++ e :: b) :
    ∃ x y, log = x ++ .cli j (.up e) :: y ∧ atClient j x = a ∧ atClient j y = b := by
  unfold atClient at h
  rw [List.filterMap_eq_append_iff] at h
  obtain ⟨x, r, rfl, h1, h2⟩ := h
  rw [List.filterMap_eq_cons_iff] at h2
  obtain ⟨b1, z, y, rfl, h3, h4, h5⟩ := h2
  refine ⟨x ++ b1, y, ?_, ?_, h5⟩
  · rw [List.append_assoc]
    congr 2
    rcases z with ⟨i, z⟩ | z
    · rcases z with z | z
      · simp only at h4
        by_cases hi : i = j
        · simp only [hi, if_true, Option.some.injEq] at h4; rw [h4, hi]
        · simp only [hi, if_false] at h4; cases h4
      · cases h4
    · cases h4
  · unfold atClient
    rw [List.filterMap_append, h1, List.filterMap_eq_nil_iff.2 h3, List.append_nil]

theorem split_flat {log : List PWEv} {a b : List WEv} {e : WEv} (h : flatLog log = a ++ e :: b) :
    ∃ x z y, log = x ++ z :: y ∧ flatLog x = a ∧ flatEv z = some e ∧ flatLog y = b := by
  unfold flatLog at h
  rw [List.filterMap_eq_append_iff] at h
  obtain ⟨x, r, rfl, h1, h2⟩ := h
  rw [List.filterMap_eq_cons_iff] at h2
  obtain ⟨b1, z, y, rfl, h3, h4, h5⟩ := h2
  refine ⟨x ++ b1, z, y, by simp, ?_, h4, h5⟩
  unfold flatLog
  rw [List.filterMap_append, h1, List.filterMap_eq_nil_iff.2 h3, List.append_nil]

theorem flatEv_srv {z : PWEv} {e : VEv} (h : flatEv z = some (.srv e)) : z = .srv e := by
  rcases z with ⟨i, z⟩ | z
  · rcases z with z | z
    · cases z <;> cases h
    · cases h
  · injection h with h; injection h with h; rw [h]

theorem atClient_cons {j : Nat} {e : LEv} {l : List PWEv} : atClient j (.cli j (.up e) :: l) = e :: atClient j l := by
  simp [atClient]

theorem atClient_cons_srv {j : Nat} {e : VEv} {l : List PWEv} : atClient j (.srv e :: l) = atClient j l := rfl

/-- Where a poll is sent, there the channel is called; this call belongs to this poll only. -/
theorem call_of_poll {env : ClientEnv} {v : Pcl} (h : LReach env v) {a b : List LEv} {s i id t0 uid : Nat} {unit : UInt8} {q : AnyReq} {tmo : Nat}
    (hl : v.log = a ++ .sess s (.poll i (.sent id t0)) :: .ch (.call uid unit q tmo) :: b) {a' b' : List LEv} {unit' : UInt8} {q' : AnyReq} {tmo' : Nat}
    (hc : v.log = a' ++ .ch (.call uid unit' q' tmo') :: b') : a' = a ++ [.sess s (.poll i (.sent id t0))] ∧ b' = b ∧ unit' = unit ∧ q' = q ∧ tmo' = tmo := by
  have hn : ((submissions v.cli.log).map (·.1)).Nodup := by
    rw [(C46_submission_order _ _ h.chan.1).1]; exact List.nodup_range
  rw [h.chan.2] at hn
  have hl' : v.log = (a ++ [.sess s (.poll i (.sent id t0))]) ++ .ch (.call uid unit q tmo) :: b := by rw [hl]; simp
  have two : ∀ (l1 l2 l3 : List LEv) (x1 x2 : UInt8) (y1 y2 : AnyReq) (z1 z2 : Nat), v.log = l1 ++ .ch (.call uid x1 y1 z1) :: (l2 ++ .ch (.call uid x2 y2 z2) :: l3) → False := by
    intro l1 l2 l3 x1 x2 y1 y2 z1 z2 he
    rw [he] at hn
    have e1 : ∀ (x : UInt8) (y : AnyReq) (z : Nat) (l : List LEv), ofChannel (.ch (.call uid x y z) :: l) = .call uid x y z :: ofChannel l := fun _ _ _ _ => rfl
    have e2 : ∀ (x : UInt8) (y : AnyReq) (z : Nat) (l : List CEv), submissions (.call uid x y z :: l) = (uid, x, y, z) :: submissions l := fun _ _ _ _ => rfl
    rw [ofChannel_append, e1, ofChannel_append, e1, submissions_append, e2, submissions_append, e2, List.map_append, List.nodup_append] at hn
    have hn2 := hn.2.1
    simp at hn2
  rcases List.append_eq_append_iff.1 (hl'.symm.trans hc) with ⟨x, e1, e2⟩ | ⟨x, e1, e2⟩
  · cases x with
    | nil =>
      simp only [List.nil_append, List.cons.injEq, LEv.ch.injEq, CEv.call.injEq, true_and] at e2
      obtain ⟨⟨r1, r2, r3⟩, r4⟩ := e2
      exact ⟨by simpa using e1, r4.symm, r1.symm, r2.symm, r3.symm⟩
    | cons y x =>
      injection e2 with e2 e3
      exact (two _ x b' unit unit' q q' tmo tmo' (by rw [hl', e3]; rfl)).elim
  · cases x with
    | nil =>
      simp only [List.nil_append, List.cons.injEq, LEv.ch.injEq, CEv.call.injEq, true_and] at e2
      obtain ⟨⟨r1, r2, r3⟩, r4⟩ := e2
      exact ⟨by simpa using e1.symm, r4, r1, r2, r3⟩
    | cons y x =>
      injection e2 with e2 e3
      exact (two a' x b unit' unit q' q tmo' tmo (by rw [hc, e3]; rfl)).elim

/-! ### C120 -/

/-- C120, to be wished for: whenever the handler of a scheduled request is called with a response, that response is what a session of the
server returned when it was called, once, with exactly the scheduled request, for a message to the unit of the scheduled request's session,
between the sending of this poll and the call of the handler. -/
def C120_Statement : Prop := ∀ (W : Type) (env : WorldEnv W) (w : W) (v : PWorld W), PWReach env w v →
  ∀ (rest future : List PWEv) (j s i id t : Nat), v.log = rest ++ .cli j (.up (.sess s (.poll i (.handled id t)))) :: future →
  ∃ past between uid x, rest = past ++ .cli j (.up (.ch (.handler uid x t))) :: between ∧ atClient j between = [] ∧ ∀ pdu, x = .ok pdu →
    ∃ A B c n m ses k q tmo f t0 l, past = A ++ .srv (.ch (.mbap c m)) :: B ∧ env.peer c = some (j, n) ∧
      LEv.opened s m.unit ∈ atClient j A ∧ LEv.scheduled s i ⟨k, q⟩ tmo f ∈ atClient j A ∧ LEv.sess s (.poll i (.sent id t0)) ∈ atClient j A ∧
      svLog (atServer B) = .request ses k q :: l ∧
      Reports k q (env.server.onRequest ses k q (played env.server.onRequest w (svLog (atServer A)))).2 pdu

/-- **C120** (part): it is so for a calm client, as long as the transaction ids on a connection do not repeat.
Missing from C120: the other histories (`C120_violated`). -/
theorem C120_polled_values_partial (env : WorldEnv W) (w : W) (v : PWorld W) (h : PWReach env w v) (rest future : List PWEv) (j s i id t : Nat)
    (he : v.log = rest ++ .cli j (.up (.sess s (.poll i (.handled id t)))) :: future) (hc : CalmPolling env j v) :
    ∃ past between uid x, rest = past ++ .cli j (.up (.ch (.handler uid x t))) :: between ∧ atClient j between = [] ∧ ∀ pdu, x = .ok pdu →
      RecentOn j uid (flatLog past) →
      ∃ A B c n m ses k q tmo f t0 l, past = A ++ .srv (.ch (.mbap c m)) :: B ∧ env.peer c = some (j, n) ∧
        LEv.opened s m.unit ∈ atClient j A ∧ LEv.scheduled s i ⟨k, q⟩ tmo f ∈ atClient j A ∧ LEv.sess s (.poll i (.sent id t0)) ∈ atClient j A ∧
        svLog (atServer B) = .request ses k q :: l ∧ (v.srv.srv.isShutdown = true ∨ v.srv.srv.sessions.lookup m.unit = some ses) ∧
        Reports k q (env.server.onRequest ses k q (played env.server.onRequest w (svLog (atServer A)))).2 pdu := by
  have hg := h.good
  obtain ⟨hr, hlog⟩ := hg.client j
  have hl : (v.cli j).pcl.log = atClient j rest ++ .sess s (.poll i (.handled id t)) :: atClient j future := by
    rw [hlog, he, atClient_append, atClient_cons]
  obtain ⟨a', uid, x, h1, a1, t0, unit, q0, tmo, b1, h2⟩ := C111_own_results_only _ _ hr _ _ _ _ _ _ hl
  obtain ⟨past, between, h3, h4, h5⟩ := split_client h1
  refine ⟨past, between, uid, x, h3, h5, ?_⟩
  rintro pdu rfl hrec
  have hflat : v.flat.log = flatLog past ++ .cli j (.ch (.handler uid (.ok pdu) t)) ::
      flatLog (between ++ .cli j (.up (.sess s (.poll i (.handled id t)))) :: future) := by
    change flatLog v.log = _
    rw [he, h3, List.append_assoc, flatLog_append]
    rfl
  obtain ⟨A', B', c, n, m, ses, k, q, tmo', l, c1, c2, -, c4, c5, c6, c7⟩ := C101_own_answer_partial env w v.flat hg.flat j hc.flat _ _ uid pdu t hflat hrec
  obtain ⟨A, z, B, d1, d2, d3, d4⟩ := split_flat c1
  obtain rfl := flatEv_srv d3
  rw [← d2, chLog_flat] at c4
  -- the call of the channel is the poll's
  obtain ⟨p0, p1, hp⟩ := List.append_of_mem (mem_ofChannel.1 c4)
  have hfull : (v.cli j).pcl.log = a1 ++ .sess s (.poll i (.sent id t0)) :: .ch (.call uid unit q0 tmo) ::
      (b1 ++ .ch (.handler uid (.ok pdu) t) :: .sess s (.poll i (.handled id t)) :: atClient j future) := by
    rw [hl, h1, h2]; simp
  have hA : atClient j past = atClient j A ++ atClient j B := by rw [d1, atClient_append, atClient_cons_srv]
  have hfull2 : (v.cli j).pcl.log = p0 ++ .ch (.call uid m.unit ⟨k, q⟩ tmo') ::
      (p1 ++ atClient j B ++ .ch (.handler uid (.ok pdu) t) :: .sess s (.poll i (.handled id t)) :: atClient j future) := by
    rw [hl, h1, ← h4, hA, hp]; simp
  obtain ⟨e1, -, e3, e4, e5⟩ := call_of_poll hr hfull hfull2
  obtain ⟨uid2, unit2, q2, tmo2, f, b2, f1, f2, f3⟩ := C111_poll_is_request _ _ hr _ _ _ _ _ _ hfull
  simp only [List.cons.injEq, LEv.ch.injEq, CEv.call.injEq] at f1
  obtain ⟨⟨rfl, rfl, rfl, rfl⟩, -⟩ := f1
  refine ⟨A, B, c, n, m, ses, k, q, tmo', f, t0, l, d1, c2, ?_, ?_, ?_, ?_, c6, ?_⟩
  · rw [hp, e1, e3]; exact List.mem_append_left _ (List.mem_append_left _ f2)
  · rw [hp, e1, e4, e5]; exact List.mem_append_left _ (List.mem_append_left _ f3)
  · rw [hp, e1]; simp
  · rw [← atServer_flat, d4]; exact c5
  · rw [← atServer_flat, d2]; exact c7

/-- Client 0 polls "write 42 into register 3", client 1 polls "read register 3". -/
def ptwo : List PWorld.Op := wup.map asPollingWorld ++ ppoll1 0 ⟨.writeSingleRegister, ⟨3, 42⟩⟩ 12 ++
  ([.arrive 0 [0, 0, 0, 0, 0, 6, 1], .server vrun, .arrive 2 [6, 0, 3, 0, 42], .server vrun, .server (.complete 2 (.sent 12)), .server vrun,
   .hear 0 0 0 [0, 0, 0, 0, 0, 6, 1, 6], .client 0 (.run 0), .hear 0 0 0 [0, 3, 0, 42], .client 0 (.run 0)] : List World.Op).map asPollingWorld ++
  ppoll1 1 ⟨.readHoldingRegisters, ⟨3, 1⟩⟩ 12 ++
  ([.arrive 0 [0, 0, 0, 0, 0, 6, 1, 3, 0, 3, 0, 1], .server vrun, .server (.complete 2 (.sent 11)), .server vrun,
   .hear 1 0 1 [0, 0, 0, 0, 0, 5, 1, 3, 2, 0, 42], .client 1 (.run 0)] : List World.Op).map asPollingWorld

/-- The hypotheses of `C120_polled_values_partial` can be met, with a response: client 1 gets 42. -/
example : ∃ v, PWReach (wenv oneRegister 1) 0 v ∧ CalmPolling (wenv oneRegister 1) 1 v ∧
    v.log = v.log.take 55 ++ .cli 1 (.up (.sess 0 (.poll 0 (.handled 0 0)))) :: [] ∧
    v.log.take 55 = v.log.take 54 ++ [.cli 1 (.up (.ch (.handler 0 (.ok [3, 2, 0, 42]) 0)))] ∧ RecentOn 1 0 (flatLog (v.log.take 54)) := by
  obtain ⟨v, h1, h2⟩ := any_pwdemo (env := wenv oneRegister 1) (w := 0) (ops := ptwo) (Q := fun v => calmChk 1 [1] v.flat &&
    (decide (v.log = v.log.take 55 ++ .cli 1 (.up (.sess 0 (.poll 0 (.handled 0 0)))) :: []) &&
      decide (v.log.take 55 = v.log.take 54 ++ [.cli 1 (.up (.ch (.handler 0 (.ok [3, 2, 0, 42]) 0)))]))) (by decide +kernel)
  simp only [Bool.and_eq_true, decide_eq_true_eq] at h2
  exact ⟨v, h1, calmChk_polling h2.1, h2.2.1, h2.2.2, recent_zero⟩

/-- A client polls the registers of a server whose registers spell out an answer to a later request; half of the answer is handled, then the
poll times out; a second scheduled request is sent, and writing it fails when the other half has arrived already; a third one is sent
before that half is handled. -/
def pspelled : List PWorld.Op := (vconnected.map World.Op.server).map asPollingWorld ++ ppoll1 0 ⟨.readHoldingRegisters, ⟨3, 7⟩⟩ 12 ++
  ([.arrive 0 [0, 0, 0, 0, 0, 6, 1, 3, 0, 3, 0, 7], .server vrun, .server (.complete 1 (.sent 23)), .server vrun,
   .hear 0 0 0 [0, 0, 0, 0, 0, 17, 1, 3, 14, 0, 0], .client 0 (.run 0)] ++ (kexp 0).map (.client 0) : List World.Op).map asPollingWorld ++
  ppoll 0 kreq ++
  ([.client 0 (.complete 1 .error), .hear 0 0 0 (kframe 2), .client 0 (.run 0)] : List World.Op).map asPollingWorld ++ ppoll 0 kreq ++ [.client 0 (.run 0)]

/-- The third request ("write coil 5") is reported successful, although no session was ever asked to write anything. -/
theorem C120_spelled : ∃ v, PWReach (wenv speller 1) () v ∧
    (decide (v.log = v.log.take 48 ++ .cli 0 (.up (.sess 0 (.poll 2 (.handled 0 10)))) :: []) &&
      decide (v.log.take 48 = v.log.take 47 ++ [.cli 0 (.up (.ch (.handler 2 (.ok [5, 0, 5, 255, 0]) 10)))]) &&
      decide (LEv.scheduled 0 2 kreq 10 1000 ∈ atClient 0 v.log) &&
      (svLog (atServer v.log)).all fun e => match e with
        | .request _ k _ => k == .readHoldingRegisters
        | _ => true) = true :=
  any_pwdemo (ops := pspelled) (by decide +kernel)

/-- What is picked out of a log once is there once. -/
theorem filterMap_once {α β : Type} {f : α → Option β} {l a b a' b' : List α} {x y : α} {c : β} (hn : (l.filterMap f).Nodup) (h1 : l = a ++ x :: b)
    (h2 : l = a' ++ y :: b') (hx : f x = some c) (hy : f y = some c) : a = a' ∧ x = y ∧ b = b' := by
  have two : ∀ (l1 l2 l3 : List α) (z1 z2 : α), f z1 = some c → f z2 = some c → l = l1 ++ z1 :: (l2 ++ z2 :: l3) → False := by
    intro l1 l2 l3 z1 z2 e1 e2 he
    rw [he] at hn
    simp [List.filterMap_append, e1, e2, List.nodup_append] at hn
  rcases List.append_eq_append_iff.1 (h1.symm.trans h2) with ⟨z, e1, e2⟩ | ⟨z, e1, e2⟩
  · cases z with
    | nil => simp only [List.nil_append, List.cons.injEq] at e2; exact ⟨by simpa using e1.symm, e2.1, e2.2⟩
    | cons u z =>
      simp only [List.cons_append, List.cons.injEq] at e2
      exact (two _ z b' x y hx hy (by rw [h1, e2.2])).elim
  · cases z with
    | nil => simp only [List.nil_append, List.cons.injEq] at e2; exact ⟨by simpa using e1, e2.1.symm, e2.2.symm⟩
    | cons u z =>
      simp only [List.cons_append, List.cons.injEq] at e2
      exact (two _ z b y x hy hx (by rw [h2, e2.2])).elim

/-- What was scheduled under one number is one request. -/
theorem scheduled_unique {env : ClientEnv} {v : Pcl} (h : LReach env v) {s i tmo tmo' f f' : Nat} {q q' : AnyReq} (h1 : LEv.scheduled s i q tmo f ∈ v.log)
    (h2 : LEv.scheduled s i q' tmo' f' ∈ v.log) : q = q' ∧ tmo = tmo' ∧ f = f' := by
  obtain ⟨a, b, h1⟩ := List.append_of_mem h1
  obtain ⟨a', b', h2⟩ := List.append_of_mem h2
  have := (filterMap_once (c := i) ((C111_identities env v h).2 s).1 h1 h2 (by simp) (by simp)).2.1
  simpa using this

/-- C120 is false. -/
theorem C120_violated : ¬C120_Statement := by
  intro hall
  obtain ⟨v, hr, hq⟩ := C120_spelled
  simp only [Bool.and_eq_true, decide_eq_true_eq, List.all_eq_true] at hq
  obtain ⟨⟨⟨h1, h2⟩, h3⟩, h4⟩ := hq
  obtain ⟨hlr, hlog⟩ := hr.good.client 0
  obtain ⟨past, between, uid, x, a1, a2, a3⟩ := hall Unit (wenv speller 1) () v hr _ _ _ _ _ _ _ h1
  have hb : between = [] ∧ x = .ok [5, 0, 5, 255, 0] := by
    rw [h2] at a1
    rcases List.eq_nil_or_concat between with rfl | ⟨b, e, rfl⟩
    · obtain ⟨-, e2⟩ := List.append_inj' a1 rfl
      simp only [List.cons.injEq, PWEv.cli.injEq, PKEv.up.injEq, LEv.ch.injEq, CEv.handler.injEq, true_and, and_true] at e2
      exact ⟨rfl, e2.2.symm⟩
    · rw [List.concat_eq_append, ← List.cons_append, ← List.append_assoc] at a1
      obtain ⟨-, e2⟩ := List.append_inj' a1 rfl
      simp only [List.cons.injEq, and_true] at e2
      rw [List.concat_eq_append, atClient_append, ← e2, atClient_cons] at a2
      simp at a2
  obtain ⟨A, B, c, n, m, ses, k, q, tmo, f, t0, l, b1, -, -, b4, -, b6, -⟩ := a3 _ hb.2
  have hall2 : v.log = A ++ .srv (.ch (.mbap c m)) :: (B ++ .cli 0 (.up (.ch (.handler uid x 10))) :: (between ++ .cli 0 (.up (.sess 0 (.poll 2 (.handled 0 10)))) :: [])) := by
    rw [h1, a1, b1]; simp
  have hk := h4 (.request ses k q) (by
    rw [hall2, ← atServer_flat, flatLog_append, inServer_append, Svk.svLog_append]
    refine List.mem_append_right _ ?_
    rw [show flatLog (.srv (.ch (.mbap c m)) :: (B ++ .cli 0 (.up (.ch (.handler uid x 10))) :: (between ++ .cli 0 (.up (.sess 0 (.poll 2 (.handled 0 10)))) :: []))) =
      .srv (.ch (.mbap c m)) :: flatLog (B ++ .cli 0 (.up (.ch (.handler uid x 10))) :: (between ++ .cli 0 (.up (.sess 0 (.poll 2 (.handled 0 10)))) :: [])) from rfl,
      inServer_cons_srv, flatLog_append, inServer_append]
    change _ ∈ SEv.mbap c m :: svLog (inServer (flatLog B) ++ _)
    rw [Svk.svLog_append, atServer_flat, b6]
    simp)
  have hs : LEv.scheduled 0 2 ⟨k, q⟩ tmo f ∈ (v.cli 0).pcl.log := by
    rw [hlog, hall2, atClient_append]; exact List.mem_append_left _ b4
  rw [← hlog] at h3
  obtain ⟨hk2, -⟩ := scheduled_unique hlr h3 hs
  have hkk : k = .writeSingleCoil := (congrArg Sigma.fst hk2).symm
  simp only [hkk] at hk
  cases hk

/-! ### C121 -/

/-- C121, to be wished for: a poll sees what has been written before. Once a write of `x` to a holding register has been answered with success
(to whichever client), the response to each poll of the register sent afterwards, by any client, gives `x`, if no request executed since
the write was made assigned another value to it. -/
def C121_Statement : Prop := ∀ (env : WorldEnv Db), Backed env.server → ∀ (w : Db), DbReach w → ∀ (v : PWorld Db), PWReach env w v →
  ∀ (p0 p1 p2 p3 p4 p5 : List PWEv) (j1 j2 u1 u2 s i id t0 : Nat) (unit1 : UInt8) (q1 : AnyReq) (q2 : ReadReq) (tmo1 tmo2 f t1 t2 : Nat) (pdu1 pdu2 : List UInt8),
  v.log = p0 ++ .cli j1 (.up (.ch (.call u1 unit1 q1 tmo1))) :: (p1 ++ .cli j1 (.up (.ch (.handler u1 (.ok pdu1) t1))) ::
    (p2 ++ .cli j2 (.up (.sess s (.poll i (.sent id t0)))) :: (p3 ++ .cli j2 (.up (.ch (.handler u2 (.ok pdu2) t2))) ::
    (p4 ++ .cli j2 (.up (.sess s (.poll i (.handled id t2)))) :: p5)))) →
  atClient j2 p4 = [] → LEv.scheduled s i ⟨.readHoldingRegisters, q2⟩ tmo2 f ∈ atClient j2 v.log →
  ∀ (a x : UInt16) (r1 : Resp q1.1), typedResult q1.1 q1.2 (.ok pdu1) = .ret (.ok r1) → assignsRegister q1 a = some x →
  (∀ q ∈ servedIn (flatLog (p1 ++ p2 ++ p3)), ∀ y, assignsRegister q a = some y → y = x) →
  (q2.start.toNat ≤ a.toNat ∧ a.toNat < q2.start.toNat + q2.qty.toNat) →
  ∀ (r2 : List RegVal), typedResult .readHoldingRegisters q2 (.ok pdu2) = .ret (.ok r2) → ⟨a, x⟩ ∈ r2

/-- Between the sending of a poll and the call of its handler, the channel was called with the scheduled request. -/
theorem poll_calls {env : WorldEnv W} {w : W} {v : PWorld W} (h : PWReach env w v) {p p3 p4 p5 : List PWEv} {j u s i id t0 t : Nat} {x : Expected (List UInt8)}
    (he : v.log = p ++ .cli j (.up (.sess s (.poll i (.sent id t0)))) :: (p3 ++ .cli j (.up (.ch (.handler u x t))) ::
      (p4 ++ .cli j (.up (.sess s (.poll i (.handled id t)))) :: p5))) (h4 : atClient j p4 = []) {q : AnyReq} {tmo f : Nat}
    (hs : LEv.scheduled s i q tmo f ∈ atClient j v.log) :
    ∃ p3a p3b unit, p3 = p3a ++ .cli j (.up (.ch (.call u unit q tmo))) :: p3b := by
  obtain ⟨hr, hlog⟩ := h.good.client j
  have hl : (v.cli j).pcl.log = atClient j p ++ .sess s (.poll i (.sent id t0)) :: (atClient j p3 ++ .ch (.handler u x t) ::
      .sess s (.poll i (.handled id t)) :: atClient j p5) := by
    rw [hlog, he]
    simp only [atClient_append, atClient_cons, h4, List.nil_append]
  obtain ⟨a', uid, x', h1, a1, t0', unit, q', tmo', b1, h2⟩ := C111_own_results_only _ _ hr
    (atClient j p ++ .sess s (.poll i (.sent id t0)) :: (atClient j p3 ++ [.ch (.handler u x t)])) (atClient j p5) s i id t (by rw [hl]; simp)
  rw [← List.cons_append, ← List.append_assoc] at h1
  obtain ⟨h5, h6⟩ := List.append_inj' h1 rfl
  simp only [List.cons.injEq, LEv.ch.injEq, CEv.handler.injEq, and_true] at h6
  obtain ⟨rfl, rfl⟩ := h6
  have hids := ((C111_identities _ _ hr).2 s).2 i |>.1
  have hl2 : (v.cli j).pcl.log = a1 ++ .sess s (.poll i (.sent id t0')) :: (.ch (.call u unit q' tmo') :: b1 ++ .ch (.handler u x t) ::
      .sess s (.poll i (.handled id t)) :: atClient j p5) := by
    rw [hl, ← List.cons_append, ← List.append_assoc, h5, h2]; simp
  have hpick : pollsSent (ofPoll s i (v.cli j).pcl.log) = (v.cli j).pcl.log.filterMap fun e => match e with
      | .sess s' (.poll i' (.sent id _)) => if s' = s ∧ i' = i then some id else none
      | _ => none := by
    generalize (v.cli j).pcl.log = l
    induction l with
    | nil => rfl
    | cons e l ih =>
      rw [List.filterMap_cons, ← ih]
      cases e with
      | sess s' e =>
        by_cases hss : s' = s
        · subst hss
          cases e with
          | poll i' e =>
            by_cases hi : i' = i
            · subst hi
              cases e <;> simp [pollsSent, ofPoll, effectsOf, ofSession]
            · cases e <;> simp [pollsSent, ofPoll, effectsOf, ofSession, hi]
          | _ => simp [pollsSent, ofPoll, effectsOf, ofSession]
        · cases e with
          | poll i' e => cases e <;> simp [pollsSent, ofPoll, effectsOf, ofSession, hss]
          | _ => simp [pollsSent, ofPoll, effectsOf, ofSession, hss]
      | _ => rfl
  rw [hpick] at hids
  obtain ⟨g1, g2, g3⟩ := filterMap_once (c := id) hids hl hl2 (by simp) (by simp)
  obtain ⟨uid2, unit2, q2, tmo2, f2, b2, k1, -, k3⟩ := C111_poll_is_request _ _ hr _ _ _ _ _ _ hl2
  simp only [List.cons_append, List.cons.injEq, LEv.ch.injEq, CEv.call.injEq] at k1
  obtain ⟨⟨-, rfl, rfl, rfl⟩, -⟩ := k1
  rw [← hlog] at hs
  obtain ⟨rfl, rfl, -⟩ := scheduled_unique hr (by rw [hl2]; exact List.mem_append_left _ k3) hs
  have hp3 : atClient j p3 = [] ++ .ch (.call u unit q' tmo') :: b1 := by
    have : atClient j p3 ++ [.ch (.handler u x t)] ++ (.sess s (.poll i (.handled id t)) :: atClient j p5) =
      (.ch (.call u unit q' tmo') :: b1) ++ [.ch (.handler u x t)] ++ (.sess s (.poll i (.handled id t)) :: atClient j p5) := by simpa using g3
    exact List.append_cancel_right (List.append_cancel_right this)
  obtain ⟨y, z, e1, -, -⟩ := split_client hp3
  exact ⟨y, z, unit, e1⟩

/-- **C121** (part): it is so for two calm clients, as long as the transaction ids on their connections do not repeat.
Missing from C121: the other histories (`C121_violated`). -/
theorem C121_polls_see_writes_partial (env : WorldEnv Db) (hb : Backed env.server) (w : Db) (hw : DbReach w) (v : PWorld Db) (h : PWReach env w v)
    (p0 p1 p2 p3 p4 p5 : List PWEv) (j1 j2 u1 u2 s i id t0 : Nat) (unit1 : UInt8) (q1 : AnyReq) (q2 : ReadReq) (tmo1 tmo2 f t1 t2 : Nat) (pdu1 pdu2 : List UInt8)
    (he : v.log = p0 ++ .cli j1 (.up (.ch (.call u1 unit1 q1 tmo1))) :: (p1 ++ .cli j1 (.up (.ch (.handler u1 (.ok pdu1) t1))) ::
      (p2 ++ .cli j2 (.up (.sess s (.poll i (.sent id t0)))) :: (p3 ++ .cli j2 (.up (.ch (.handler u2 (.ok pdu2) t2))) ::
      (p4 ++ .cli j2 (.up (.sess s (.poll i (.handled id t2)))) :: p5)))))
    (hp4 : atClient j2 p4 = []) (hs : LEv.scheduled s i ⟨.readHoldingRegisters, q2⟩ tmo2 f ∈ atClient j2 v.log)
    (hc1 : CalmPolling env j1 v) (hc2 : CalmPolling env j2 v)
    (hrec1 : RecentOn j1 u1 (flatLog (p0 ++ .cli j1 (.up (.ch (.call u1 unit1 q1 tmo1))) :: p1)))
    (hrec2 : RecentOn j2 u2 (flatLog (p0 ++ .cli j1 (.up (.ch (.call u1 unit1 q1 tmo1))) :: (p1 ++ .cli j1 (.up (.ch (.handler u1 (.ok pdu1) t1))) ::
      (p2 ++ .cli j2 (.up (.sess s (.poll i (.sent id t0)))) :: p3)))))
    (a x : UInt16) (r1 : Resp q1.1) (hr1 : typedResult q1.1 q1.2 (.ok pdu1) = .ret (.ok r1)) (hx : assignsRegister q1 a = some x)
    (hothers : ∀ q ∈ servedIn (flatLog (p1 ++ p2 ++ p3)), ∀ y, assignsRegister q a = some y → y = x)
    (ha : q2.start.toNat ≤ a.toNat ∧ a.toNat < q2.start.toNat + q2.qty.toNat)
    (r2 : List RegVal) (hr2 : typedResult .readHoldingRegisters q2 (.ok pdu2) = .ret (.ok r2)) : ⟨a, x⟩ ∈ r2 := by
  obtain ⟨p3a, p3b, unit2, rfl⟩ := poll_calls (p := p0 ++ .cli j1 (.up (.ch (.call u1 unit1 q1 tmo1))) :: (p1 ++ .cli j1 (.up (.ch (.handler u1 (.ok pdu1) t1))) :: p2))
    (p3 := p3) (p4 := p4) (p5 := p5) (u := u2) (x := .ok pdu2) (t0 := t0) (id := id) (t := t2) (q := ⟨.readHoldingRegisters, q2⟩) h (by rw [he]; simp) hp4 hs
  have e1 : ∀ (j : Nat) (e : CEv) (l : List PWEv), flatLog (.cli j (.up (.ch e)) :: l) = .cli j (.ch e) :: flatLog l := fun _ _ _ => rfl
  have e2 : ∀ (j s : Nat) (e : SessEv) (l : List PWEv), flatLog (.cli j (.up (.sess s e)) :: l) = flatLog l := fun _ _ _ _ => rfl
  refine C110_read_what_was_written_partial env hb w hw v.flat h.good.flat (flatLog p0) (flatLog p1) (flatLog p2 ++ flatLog p3a) (flatLog p3b)
    (flatLog (p4 ++ .cli j2 (.up (.sess s (.poll i (.handled id t2)))) :: p5)) j1 j2 u1 u2 unit1 unit2 q1 q2 tmo1 tmo2 t1 t2 pdu1 pdu2 ?_ hc1.flat hc2.flat
    ?_ ?_ a x r1 hr1 hx (fun q hq y hy => hothers q ?_ y hy) ha r2 hr2
  · change flatLog v.log = _
    rw [he]
    simp only [flatLog_append, e1, e2, List.append_assoc, List.cons_append]
  · simpa only [flatLog_append, e1, e2, List.append_assoc, List.cons_append] using hrec1
  · simpa only [flatLog_append, e1, e2, List.append_assoc, List.cons_append] using hrec2
  · have e3 : ∀ (j : Nat) (e : KEv) (l : List WEv), servedIn (.cli j e :: l) = servedIn l := fun _ _ _ => rfl
    simp only [flatLog_append, e1, servedIn_append, e3, List.mem_append] at hq ⊢
    tauto

/-- **C121** (part): the same for coils. -/
theorem C121_polls_see_coils_partial (env : WorldEnv Db) (hb : Backed env.server) (w : Db) (hw : DbReach w) (v : PWorld Db) (h : PWReach env w v)
    (p0 p1 p2 p3 p4 p5 : List PWEv) (j1 j2 u1 u2 s i id t0 : Nat) (unit1 : UInt8) (q1 : AnyReq) (q2 : ReadReq) (tmo1 tmo2 f t1 t2 : Nat) (pdu1 pdu2 : List UInt8)
    (he : v.log = p0 ++ .cli j1 (.up (.ch (.call u1 unit1 q1 tmo1))) :: (p1 ++ .cli j1 (.up (.ch (.handler u1 (.ok pdu1) t1))) ::
      (p2 ++ .cli j2 (.up (.sess s (.poll i (.sent id t0)))) :: (p3 ++ .cli j2 (.up (.ch (.handler u2 (.ok pdu2) t2))) ::
      (p4 ++ .cli j2 (.up (.sess s (.poll i (.handled id t2)))) :: p5)))))
    (hp4 : atClient j2 p4 = []) (hs : LEv.scheduled s i ⟨.readCoils, q2⟩ tmo2 f ∈ atClient j2 v.log)
    (hc1 : CalmPolling env j1 v) (hc2 : CalmPolling env j2 v)
    (hrec1 : RecentOn j1 u1 (flatLog (p0 ++ .cli j1 (.up (.ch (.call u1 unit1 q1 tmo1))) :: p1)))
    (hrec2 : RecentOn j2 u2 (flatLog (p0 ++ .cli j1 (.up (.ch (.call u1 unit1 q1 tmo1))) :: (p1 ++ .cli j1 (.up (.ch (.handler u1 (.ok pdu1) t1))) ::
      (p2 ++ .cli j2 (.up (.sess s (.poll i (.sent id t0)))) :: p3)))))
    (a : UInt16) (x : Bool) (r1 : Resp q1.1) (hr1 : typedResult q1.1 q1.2 (.ok pdu1) = .ret (.ok r1)) (hx : assignsCoil q1 a = some x)
    (hothers : ∀ q ∈ servedIn (flatLog (p1 ++ p2 ++ p3)), ∀ y, assignsCoil q a = some y → y = x)
    (ha : q2.start.toNat ≤ a.toNat ∧ a.toNat < q2.start.toNat + q2.qty.toNat)
    (r2 : List BitVal) (hr2 : typedResult .readCoils q2 (.ok pdu2) = .ret (.ok r2)) : ⟨a, x⟩ ∈ r2 := by
  obtain ⟨p3a, p3b, unit2, rfl⟩ := poll_calls (p := p0 ++ .cli j1 (.up (.ch (.call u1 unit1 q1 tmo1))) :: (p1 ++ .cli j1 (.up (.ch (.handler u1 (.ok pdu1) t1))) :: p2))
    (p3 := p3) (p4 := p4) (p5 := p5) (u := u2) (x := .ok pdu2) (t0 := t0) (id := id) (t := t2) (q := ⟨.readCoils, q2⟩) h (by rw [he]; simp) hp4 hs
  have e1 : ∀ (j : Nat) (e : CEv) (l : List PWEv), flatLog (.cli j (.up (.ch e)) :: l) = .cli j (.ch e) :: flatLog l := fun _ _ _ => rfl
  have e2 : ∀ (j s : Nat) (e : SessEv) (l : List PWEv), flatLog (.cli j (.up (.sess s e)) :: l) = flatLog l := fun _ _ _ _ => rfl
  refine C110_read_coil_partial env hb w hw v.flat h.good.flat (flatLog p0) (flatLog p1) (flatLog p2 ++ flatLog p3a) (flatLog p3b)
    (flatLog (p4 ++ .cli j2 (.up (.sess s (.poll i (.handled id t2)))) :: p5)) j1 j2 u1 u2 unit1 unit2 q1 q2 tmo1 tmo2 t1 t2 pdu1 pdu2 ?_ hc1.flat hc2.flat
    ?_ ?_ a x r1 hr1 hx (fun q hq y hy => hothers q ?_ y hy) ha r2 hr2
  · change flatLog v.log = _
    rw [he]
    simp only [flatLog_append, e1, e2, List.append_assoc, List.cons_append]
  · simpa only [flatLog_append, e1, e2, List.append_assoc, List.cons_append] using hrec1
  · simpa only [flatLog_append, e1, e2, List.append_assoc, List.cons_append] using hrec2
  · have e3 : ∀ (j : Nat) (e : KEv) (l : List WEv), servedIn (.cli j e :: l) = servedIn l := fun _ _ _ => rfl
    simp only [flatLog_append, e1, servedIn_append, e3, List.mem_append] at hq ⊢
    tauto

/-- Client 0 polls the registers; half of the answer is handled, then the poll times out; a scheduled write is sent, and writing it on the connection
fails when the other half has arrived already; another one is sent before that half is handled.  Then client 1 polls the register. -/
def pspelledWrite : List PWorld.Op := wup.map asPollingWorld ++ ppoll1 0 ⟨.readHoldingRegisters, ⟨3, 7⟩⟩ 12 ++
  ([.arrive 0 [0, 0, 0, 0, 0, 6, 1, 3, 0, 3, 0, 7], .server vrun, .server (.complete 2 (.sent 23)), .server vrun,
   .hear 0 0 0 [0, 0, 0, 0, 0, 17, 1, 3, 14, 0, 0], .client 0 (.run 0)] ++ (kexp 0).map (.client 0) : List World.Op).map asPollingWorld ++
  ppoll 0 ⟨.writeSingleRegister, ⟨5, 0xff00⟩⟩ ++
  ([.client 0 (.complete 1 .error), .hear 0 0 0 [0, 2, 0, 0, 0, 6, 1, 6, 0, 5, 255, 0], .client 0 (.run 0)] : List World.Op).map asPollingWorld ++
  ppoll 0 ⟨.writeSingleRegister, ⟨5, 0xff00⟩⟩ ++ [.client 0 (.run 0)] ++ ppoll1 1 ⟨.readHoldingRegisters, ⟨5, 1⟩⟩ 12 ++
  ([.arrive 0 [0, 0, 0, 0, 0, 6, 1, 3, 0, 5, 0, 1], .server vrun, .server (.complete 2 (.sent 11)), .server vrun,
   .hear 1 0 1 [0, 0, 0, 0, 0, 5, 1, 3, 2, 0, 0], .client 1 (.run 0)] : List World.Op).map asPollingWorld

/-- Client 0's write of 42 is reported; client 1's poll gives 42. -/
theorem ptwo_db : ∃ v, PWReach (wenv dbEnv 1) spellingDb v ∧ CalmPolling (wenv dbEnv 1) 0 v ∧ CalmPolling (wenv dbEnv 1) 1 v ∧
    (decide (v.log = v.log.take 8 ++ .cli 0 (.up (.ch (.call 0 1 ⟨.writeSingleRegister, ⟨3, 42⟩⟩ 10))) :: ((v.log.drop 9).take 20 ++
        .cli 0 (.up (.ch (.handler 0 (.ok [6, 0, 3, 0, 42]) 0))) :: ((v.log.drop 30).take 5 ++
        .cli 1 (.up (.sess 0 (.poll 0 (.sent 0 0)))) :: ((v.log.drop 36).take 18 ++ .cli 1 (.up (.ch (.handler 0 (.ok [3, 2, 0, 42]) 0))) ::
        ([] ++ .cli 1 (.up (.sess 0 (.poll 0 (.handled 0 0)))) :: []))))) &&
      decide (LEv.scheduled 0 0 ⟨.readHoldingRegisters, ⟨3, 1⟩⟩ 10 1000 ∈ atClient 1 v.log) &&
      decide (servedIn (flatLog ((v.log.drop 9).take 20 ++ (v.log.drop 30).take 5 ++ (v.log.drop 36).take 18)) = [⟨.writeSingleRegister, ⟨3, 42⟩⟩, ⟨.readHoldingRegisters, ⟨3, 1⟩⟩])) = true := by
  obtain ⟨v, h1, h2⟩ := any_pwdemo (env := wenv dbEnv 1) (w := spellingDb) (ops := ptwo) (Q := fun v => calmChk 0 [0] v.flat && (calmChk 1 [1] v.flat &&
    (decide (v.log = v.log.take 8 ++ .cli 0 (.up (.ch (.call 0 1 ⟨.writeSingleRegister, ⟨3, 42⟩⟩ 10))) :: ((v.log.drop 9).take 20 ++
        .cli 0 (.up (.ch (.handler 0 (.ok [6, 0, 3, 0, 42]) 0))) :: ((v.log.drop 30).take 5 ++
        .cli 1 (.up (.sess 0 (.poll 0 (.sent 0 0)))) :: ((v.log.drop 36).take 18 ++ .cli 1 (.up (.ch (.handler 0 (.ok [3, 2, 0, 42]) 0))) ::
        ([] ++ .cli 1 (.up (.sess 0 (.poll 0 (.handled 0 0)))) :: []))))) &&
      decide (LEv.scheduled 0 0 ⟨.readHoldingRegisters, ⟨3, 1⟩⟩ 10 1000 ∈ atClient 1 v.log) &&
      decide (servedIn (flatLog ((v.log.drop 9).take 20 ++ (v.log.drop 30).take 5 ++ (v.log.drop 36).take 18)) = [⟨.writeSingleRegister, ⟨3, 42⟩⟩, ⟨.readHoldingRegisters, ⟨3, 1⟩⟩])))) (by decide +kernel)
  rw [Bool.and_eq_true, Bool.and_eq_true] at h2
  exact ⟨v, h1, calmChk_polling h2.1, calmChk_polling h2.2.1, h2.2.2⟩

/-- The hypotheses of `C121_polls_see_writes_partial` can be met. -/
example : ∃ v, PWReach (wenv dbEnv 1) spellingDb v ∧ RegVal.mk 3 42 ∈ [RegVal.mk 3 42] := by
  obtain ⟨v, h1, h2, h3, h4⟩ := ptwo_db
  simp only [Bool.and_eq_true, decide_eq_true_eq] at h4
  obtain ⟨⟨a1, a2⟩, a3⟩ := h4
  refine ⟨v, h1, C121_polls_see_writes_partial (wenv dbEnv 1) dbEnv_backed spellingDb spellingDb_reach v h1 _ _ _ _ _ _ 0 1 0 0 0 0 0 0 1 _ _ _ _ _ _ _ _ _ a1
    (by rfl) a2 h2 h3 recent_zero recent_zero 3 42 ⟨3, 42⟩ (by decide +kernel) (by decide +kernel) (fun q hq y hy => ?_) (by decide) [⟨3, 42⟩] (by decide +kernel)⟩
  rw [a3] at hq
  simp only [List.mem_cons, List.not_mem_nil, or_false] at hq
  rcases hq with rfl | rfl
  · have : assignsRegister ⟨.writeSingleRegister, ⟨3, 42⟩⟩ 3 = some 42 := by decide +kernel
    rw [this] at hy; injection hy with hy; exact hy.symm
  · have : assignsRegister ⟨.readHoldingRegisters, ⟨3, 1⟩⟩ 3 = none := by decide +kernel
    rw [this] at hy; cases hy

/-- The write of 0xff00 is reported successful, although no session was ever asked to write anything; client 1's poll gives 0. -/
theorem C121_spelled : ∃ v, PWReach (wenv dbEnv 1) spellingDb v ∧
    (decide (v.log = v.log.take 41 ++ .cli 0 (.up (.ch (.call 2 1 ⟨.writeSingleRegister, ⟨5, 0xff00⟩⟩ 10))) :: ((v.log.drop 42).take 6 ++
        .cli 0 (.up (.ch (.handler 2 (.ok [6, 0, 5, 255, 0]) 10))) :: ((v.log.drop 49).take 5 ++
        .cli 1 (.up (.sess 0 (.poll 0 (.sent 0 0)))) :: ((v.log.drop 55).take 18 ++ .cli 1 (.up (.ch (.handler 0 (.ok [3, 2, 0, 0]) 0))) ::
        ([] ++ .cli 1 (.up (.sess 0 (.poll 0 (.handled 0 0)))) :: []))))) &&
      decide (LEv.scheduled 0 0 ⟨.readHoldingRegisters, ⟨5, 1⟩⟩ 10 1000 ∈ atClient 1 v.log) &&
      decide (servedIn (flatLog ((v.log.drop 42).take 6 ++ (v.log.drop 49).take 5 ++ (v.log.drop 55).take 18)) = [⟨.readHoldingRegisters, ⟨5, 1⟩⟩])) = true :=
  any_pwdemo (ops := pspelledWrite) (by decide +kernel)

/-- C121 is false. -/
theorem C121_violated : ¬C121_Statement := by
  intro hall
  obtain ⟨v, hr, hq⟩ := C121_spelled
  simp only [Bool.and_eq_true, decide_eq_true_eq] at hq
  obtain ⟨⟨h1, h2⟩, h3⟩ := hq
  have h := hall (wenv dbEnv 1) dbEnv_backed spellingDb spellingDb_reach v hr _ _ _ _ _ _ 0 1 2 0 0 0 0 0 1 _ _ _ _ _ _ _ _ _ h1 (by rfl) h2 5 0xff00 ⟨5, 0xff00⟩
    (by decide +kernel) (by decide +kernel) (by
      intro q hq y hy
      rw [h3] at hq
      simp only [List.mem_cons, List.not_mem_nil, or_false] at hq
      subst hq
      have : assignsRegister ⟨.readHoldingRegisters, ⟨5, 1⟩⟩ 5 = none := by decide +kernel
      rw [this] at hy; cases hy) (by decide) [⟨5, 0⟩] (by decide +kernel)
  revert h
  decide +kernel

/-- Client 0's scheduled request sets coil 5; client 1 polls it. -/
def ptwoCoil : List PWorld.Op := wup.map asPollingWorld ++ ppoll1 0 kreq 12 ++
  ([.arrive 0 (kframe 0), .server vrun, .server (.complete 2 (.sent 12)), .server vrun, .hear 0 0 0 (kframe 0), .client 0 (.run 0)] : List World.Op).map asPollingWorld ++
  ppoll1 1 ⟨.readCoils, ⟨5, 1⟩⟩ 12 ++
  ([.arrive 0 [0, 0, 0, 0, 0, 6, 1, 1, 0, 5, 0, 1], .server vrun, .server (.complete 2 (.sent 10)), .server vrun,
   .hear 1 0 1 [0, 0, 0, 0, 0, 4, 1, 1, 1, 1], .client 1 (.run 0)] : List World.Op).map asPollingWorld

example : ∃ v, PWReach (wenv dbEnv 1) spellingDb v ∧ CalmPolling (wenv dbEnv 1) 0 v ∧ CalmPolling (wenv dbEnv 1) 1 v ∧
    decide (LEv.ch (.handler 0 (.ok [5, 0, 5, 255, 0]) 0) ∈ atClient 0 v.log) = true ∧
    decide (LEv.ch (.handler 0 (.ok [1, 1, 1]) 0) ∈ atClient 1 v.log) = true := by
  obtain ⟨v, h1, h2⟩ := any_pwdemo (env := wenv dbEnv 1) (w := spellingDb) (ops := ptwoCoil) (Q := fun v => calmChk 0 [0] v.flat && (calmChk 1 [1] v.flat &&
    (decide (LEv.ch (.handler 0 (.ok [5, 0, 5, 255, 0]) 0) ∈ atClient 0 v.log) &&
      decide (LEv.ch (.handler 0 (.ok [1, 1, 1]) 0) ∈ atClient 1 v.log)))) (by decide +kernel)
  rw [Bool.and_eq_true, Bool.and_eq_true, Bool.and_eq_true] at h2
  exact ⟨v, h1, calmChk_polling h2.1, calmChk_polling h2.2.1, h2.2.2.1, h2.2.2.2⟩

end Modbus.Props
