import Verif.Props.WorldLive

/-!
C107-: requests one after the other.
-/

namespace Modbus.Props

open Spec World

variable {W : Type}

/-- A request: to which unit, what, and with which timeout. -/
structure Wish where
  unit : UInt8
  what : AnyReq
  tmo : Nat

/-- The sessions the requests are for exist, the requests are allowed, and the sessions, carrying them out one after the other, return a result or a Modbus exception each
time. -/
def AllAnswer (env : ServerEnv W) (sess : List (UInt8 × SessId)) : W → List Wish → Prop
  | _, [] => True
  | w, r :: rs => Allowed r.what ∧ ∃ s, sess.lookup r.unit = some s ∧ (∀ e, (env.onRequest s r.what.1 r.what.2 w).2 = .error e → ∃ t, e = .modbus t) ∧
    AllAnswer env sess (env.onRequest s r.what.1 r.what.2 w).1 rs

/-- From `v` to `v'` client `j` makes these requests on its connection `n`, each when the one before has been reported, and each is carried out, once, and its result
reported. -/
inductive Conversation (env : WorldEnv W) (j n c : Nat) : World W → List Wish → World W → Prop where
  | done (v : World W) : Conversation env j n c v [] v
  | next {v v1 v' : World W} {r : Wish} {rs : List Wish} {ops : List World.Op} {s : SessId} : v.srv.srv.sessions.lookup r.unit = some s →
      v.run env (.client j (.chan (.submit r.unit r.what r.tmo)) :: ops) = .ret v1 → Exchanged env v j n c r.unit s r.what.1 r.what.2 v1 →
      Conversation env j n c v1 rs v' → Conversation env j n c v (r :: rs) v'

/-- The requests carried out at the server. -/
def carriedOut (l : List VEv) : List AnyReq := (svLog l).filterMap fun | .request _ k q => some ⟨k, q⟩ | _ => none

/-! ### C107 -/

theorem exchange_again {env : WorldEnv W} {w : W} {v : World W} (h : WReach env w v) {j n c i : Nat} (hk : Linked env v j n c i) {unit : UInt8}
    {s : SessId} (hl : v.srv.srv.sessions.lookup unit = some s) {k : Kind} {q : Req k} (hq : Allowed ⟨k, q⟩) (tmo : Nat)
    (hans : ∀ e, (env.server.onRequest s k q v.srv.srv.world).2 = .error e → ∃ t, e = .modbus t) (mem : Vector UInt8 260) :
    ∃ ops v', v.run env (.client j (.chan (.submit unit ⟨k, q⟩ tmo)) :: ops) = .ret v' ∧ Exchanged env v j n c unit s k q v' ∧
      (∃ i, Linked env v' j n c i) ∧ v'.srv.srv.sessions = v.srv.srv.sessions ∧ attempts (inClient j v'.log) = attempts (inClient j v.log) := by
  obtain ⟨tid, p, pdu, bytes, reply, v', r1, r2, r3, r4, r5, r6, r7, r8, -, -, r9, r10, -⟩ := World.again h hk hl hq tmo hans mem
  have w' := run_wreach _ h r4
  have hok := h.ok
  obtain ⟨es, hes⟩ := World.run_grows _ j r4
  have hnet : netLog es = [.asked bytes, .submit n bytes, .wire n bytes, .writeDone, .receive n reply] := by
    rw [hes, netLog_append] at r8
    exact List.append_cancel_left r8
  have hch : chLog es = [.call (v.cli j).cli.nextUid unit ⟨k, q⟩ tmo, .sent (v.cli j).cli.nextUid bytes (v.cli j).cli.now, .data reply,
      .mbap ⟨unit, tid, pdu⟩, .handler (v.cli j).cli.nextUid (.ok pdu) (v.cli j).cli.now] := by
    rw [hes, chLog_append] at r7
    exact List.append_cancel_left r7
  refine ⟨_, v', r4, ⟨tid, p, pdu, reply, es, r1, by rw [w'.ok.clog, hok.clog, hes], ?_, ?_, ?_, ReplyPdu.reports r3 hq, r10⟩, ⟨_, r5⟩, r9, ?_⟩
  · exact mem_of_netLog (by rw [hnet, r2]; simp)
  · rw [w'.ok.slog, r6, hok.slog]
  · exact mem_of_chLog (by rw [hch]; simp)
  · rw [w'.ok.clog, hok.clog, hes]; simp only [attempts, netLog_append, hnet, List.filterMap_append]; simp

theorem Exchanged.carried {env : WorldEnv W} {v v' : World W} {j n c : Nat} {unit : UInt8} {s : SessId} {k : Kind} {q : Req k} (h : Exchanged env v j n c unit s k q v') :
    carriedOut (inServer v'.log) = carriedOut (inServer v.log) ++ [⟨k, q⟩] := by
  obtain ⟨tid, p, pdu, bytes, es, -, -, -, h, -⟩ := h
  simp only [carriedOut, h, List.filterMap_append]; simp

/-- C107. On an established connection with nothing in transit, any number of requests can be made one after the other: each is carried out once, in order, by the session of its
unit, in the state the earlier ones have left behind, and its result is reported to its handler; no new connection is needed, and afterwards the connection is ready for
more. This holds whatever all clients and the server have done before. -/
theorem C107_conversation (env : WorldEnv W) (w : W) (j n c : Nat) (mem : Vector UInt8 260) : ∀ (rs : List Wish) (v : World W), WReach env w v → ∀ i, Linked env v j n c i →
    AllAnswer env.server v.srv.srv.sessions v.srv.srv.world rs →
    ∃ v', WReach env w v' ∧ Conversation env j n c v rs v' ∧ (∃ i, Linked env v' j n c i) ∧ attempts (inClient j v'.log) = attempts (inClient j v.log) ∧
      carriedOut (inServer v'.log) = carriedOut (inServer v.log) ++ rs.map (·.what) := by
  intro rs
  induction rs with
  | nil => intro v h i hk _; exact ⟨v, h, .done v, ⟨i, hk⟩, rfl, by simp⟩
  | cons r rs ih =>
    intro v h i hk ⟨hq, s, hl, hans, hrest⟩
    obtain ⟨ops, v1, a1, a2, ⟨i1, a3⟩, a4, a5⟩ := exchange_again h hk hl (k := r.what.1) (q := r.what.2) hq r.tmo hans mem
    have hw1 : v1.srv.srv.world = (env.server.onRequest s r.what.1 r.what.2 v.srv.srv.world).1 := by
      obtain ⟨_, _, _, _, _, -, -, -, -, -, -, hx⟩ := a2; exact hx
    obtain ⟨v', b1, b2, b3, b4, b5⟩ := ih v1 (run_wreach _ h a1) i1 a3 (by rw [a4, hw1]; exact hrest)
    exact ⟨v', b1, .next hl a1 a2 b2, b3, b4.trans a5, by rw [b5, a2.carried]; simp⟩

/-! ### C108 -/

/-- C108, to be wished for: when client and server are ready, any number of requests can be carried out, and that on one connection. -/
def C108_Statement : Prop := ∀ (W : Type) (env : WorldEnv W) (w : W) (v : World W), WReach env w v → ∀ j i c, Poised env v j i c → ∀ r rs,
    AllAnswer env.server v.srv.srv.sessions v.srv.srv.world (r :: rs) →
    ∃ v', Conversation env j ((v.cli j).tcp.conn + 1) c v (r :: rs) v' ∧ attempts (inClient j v'.log) = attempts (inClient j v.log) ++ [(v.cli j).tcp.conn + 1]

/-- C108 is false, since C106 is. -/
theorem C108_violated : ¬C108_Statement := by
  intro hall
  refine C106_violated fun W env w v h j i c hp unit s k q tmo hs hq hans => ?_
  obtain ⟨v', hc, -⟩ := hall W env w v h j i c hp ⟨unit, ⟨k, q⟩, tmo⟩ [] ⟨hq, s, hs, hans, trivial⟩
  cases hc with
  | next hl hr hx _ =>
    rw [hs] at hl; injection hl with hl; subst hl
    exact ⟨_, _, hr, hx⟩

/-- C108 (part). A client at rest and a server that is ready can carry out any number of requests, one after the other and on one connection, as in C107; under the
assumptions on the client's history of `C106_exchange_partial`.
Missing from C108: histories of the client without these assumptions (`C108_violated`). -/
theorem C108_conversation_partial (env : WorldEnv W) (w : W) (v : World W) (h : WReach env w v) (j i c : Nat) (hr : Poised env v j i c)
    (hf : Throughout (fun t op => NoLocalFailure t op ∧ FreshStarts t op ∧ NoEof t op) (v.cli j)) (mem : Vector UInt8 260) (r : Wish) (rs : List Wish)
    (hans : AllAnswer env.server v.srv.srv.sessions v.srv.srv.world (r :: rs)) :
    ∃ v', WReach env w v' ∧ Conversation env j ((v.cli j).tcp.conn + 1) c v (r :: rs) v' ∧ (∃ i, Linked env v' j ((v.cli j).tcp.conn + 1) c i) ∧
      attempts (inClient j v'.log) = attempts (inClient j v.log) ++ [(v.cli j).tcp.conn + 1] ∧
      carriedOut (inServer v'.log) = carriedOut (inServer v.log) ++ (r :: rs).map (·.what) := by
  obtain ⟨hq, s, hl, ha, hrest⟩ := hans
  obtain ⟨bytes, reply, v1, a1, a2, a3, a4, a5⟩ := C106_exchange_partial env w v h j i c hr hf r.unit s r.what.1 r.what.2 r.tmo hl hq ha mem
  have hw1 : v1.srv.srv.world = (env.server.onRequest s r.what.1 r.what.2 v.srv.srv.world).1 := by
    obtain ⟨_, _, _, _, _, -, -, -, -, -, -, hx⟩ := a2; exact hx
  obtain ⟨v', b1, b2, b3, b4, b5⟩ := C107_conversation env w j _ c mem rs v1 (run_wreach _ h a1) _ a3 (by rw [a4, hw1]; exact hrest)
  exact ⟨v', b1, .next hl a1 a2 b2, b3, by rw [b4, a5], by rw [b5, a2.carried]; simp⟩

/-! ### Examples -/

/-- Write 42 into the register, read it, write 7. -/
def threeWishes : List Wish := [⟨1, ⟨.writeSingleRegister, ⟨3, 42⟩⟩, 10⟩, ⟨1, ⟨.readHoldingRegisters, ⟨3, 1⟩⟩, 10⟩, ⟨1, ⟨.writeSingleRegister, ⟨3, 7⟩⟩, 10⟩]

theorem threeWishes_answer (w : UInt16) (sess : List (UInt8 × SessId)) (h : sess.lookup 1 = some 0) : AllAnswer oneRegister sess w threeWishes := by
  refine ⟨by decide +kernel, 0, h, ?_, by decide +kernel, 0, h, ?_, by decide +kernel, 0, h, ?_, trivial⟩ <;> intro e he <;> cases he

/- Client 0's first attempt to connect was refused; now it writes the register, reads it, and writes again. -/
example : ∃ v, WReach (wenv oneRegister 2) 0 v ∧ Poised (wenv oneRegister 2) v 0 0 0 ∧
    Throughout (fun t op => NoLocalFailure t op ∧ FreshStarts t op ∧ NoEof t op) (v.cli 0) ∧ AllAnswer oneRegister v.srv.srv.sessions v.srv.srv.world threeWishes := by
  obtain ⟨v, hr, hq⟩ := any_wdemo (env := wenv oneRegister 2) (w := 0)
    (ops := (vconnected.take 5).map .server ++ (ksub ++ [.complete 0 .ok, .run 0, .complete 0 .error, .run 0, .run 0] ++ kexp 0 : List Stk.Op).map (.client 0))
    (Q := fun v => poisedChk v 0 0 0 && ((v.cli 0).tcp.conn == 1 && v.srv.srv.sessions.lookup 1 == some 0)) (by decide +kernel)
  rw [Bool.and_eq_true, Bool.and_eq_true, beq_iff_eq, beq_iff_eq] at hq
  obtain ⟨h1, h2⟩ := poisedChk_spec (server := oneRegister) (a := 2) hq.1 (by rw [hq.2.1]; rfl)
  exact ⟨v, hr, h1, h2, threeWishes_answer _ _ hq.2.2⟩

/- An established connection, after a read request was answered: C107 applies. -/
example : ∃ v, WReach (wenv oneRegister 1) 0 v ∧ (∃ i, Linked (wenv oneRegister 1) v 1 1 1 i) ∧ AllAnswer oneRegister v.srv.srv.sessions v.srv.srv.world threeWishes := by
  obtain ⟨v, hr, hq⟩ := any_wdemo (env := wenv oneRegister 1) (w := 0)
    (ops := vconnected.map .server ++ wsend 0 ⟨.writeSingleRegister, ⟨3, 42⟩⟩ 12 ++
      [.arrive 0 [0, 0, 0, 0, 0, 6, 1, 6, 0, 3, 0, 42], .server vrun, .server (.complete 1 (.sent 12)), .server vrun])
    (Q := fun v => poisedChk v 1 0 1 && ((v.cli 1).tcp.conn == 0 && (v.srv.srv.sessions.lookup 1 == some 0 && v.srv.srv.world == 42))) (by decide +kernel)
  rw [Bool.and_eq_true, Bool.and_eq_true, Bool.and_eq_true, beq_iff_eq, beq_iff_eq, beq_iff_eq] at hq
  obtain ⟨h1, h2⟩ := poisedChk_spec (server := oneRegister) (a := 1) hq.1 (by rw [hq.2.1]; rfl)
  obtain ⟨bytes, reply, v', a1, -, a3, a4, -⟩ := C106_exchange_partial (wenv oneRegister 1) 0 v hr 1 0 1 h1 h2 1 0 .readHoldingRegisters ⟨3, 1⟩ 10 hq.2.2.1 (by decide +kernel)
    (by intro e he; cases he) (Vector.replicate 260 0)
  rw [hq.2.1] at a3
  exact ⟨v', run_wreach _ hr a1, ⟨_, a3⟩, threeWishes_answer _ _ (by rw [a4]; exact hq.2.2.1)⟩

end Modbus.Props
