import Verif.Lemmas.SystemInv
import Verif.Props.EndToEnd

/-!
C77-C80: a client channel and a server channel joined by a network, in every history of both.
-/

namespace Modbus.Props

open Spec

variable {W : Type}

/-- `v` is a state that client and server can be in together, if the state of the user's program on the server was `w` at the
beginning. -/
def XReach (env : SysEnv W) (w : W) (v : Sys W) : Prop := ∃ mem ops, (Sys.init env w mem).run env ops = .ret v

theorem XReach.inv {env : SysEnv W} {w : W} {v : Sys W} (h : XReach env w v) : Sys.Inv env w v := by
  obtain ⟨mem, ops, h⟩ := h
  obtain ⟨v', h1, h2⟩ := Sys.Inv.run ops (Sys.Inv.init env w mem)
  rw [h] at h1; injection h1 with h1; subst h1; exact h2

/-- The client decodes `pdu` to the session's result `x`: to the same response, if it has as many values as were asked for, or to
a Modbus exception with the same code. -/
def Reports (k : Kind) (q : Req k) : Expected (Resp k) → List UInt8 → Prop
  | .ok r, pdu => Answers k q r → typedResult k q (.ok pdu) = .ret (.ok r)
  | .error (.modbus t), pdu => typedResult k q (.ok pdu) = .ret (.error (.modbus (exceptionOfCode (headerCode t))))
  | .error _, _ => False

theorem ReplyPdu.reports {k : Kind} {q : Req k} {x : Expected (Resp k)} {pdu : List UInt8} (h : ReplyPdu k x pdu) (hq : InRange k q) :
    Reports k q x pdu := by
  rcases x with e | r
  · cases e with
    | modbus t =>
      have h : pdu = [fc k ||| 0x80, headerCode t] := h
      exact (C09_exception_iff k q pdu _).2 ⟨_, h, rfl⟩
    | _ => exact h
  · intro ha
    obtain ⟨p, h1, h2, h3⟩ := C06_response_round_trip k q r hq ha
    obtain ⟨p', e1, e2⟩ := response_conformant k r
    cases emits_unique h1 e1
    have : pdu = p := h p e2 h2
    subst this; exact h3

theorem cliLog_mem_requestsOn {i u : Nat} {b : List UInt8} {l : List XEv} (h : (u, b) ∈ requestsOn i l) : ∃ t, CEv.sent u b t ∈ cliLog l := by
  obtain ⟨t, ht⟩ := mem_requestsOn.1 h
  exact ⟨t, mem_cliLog.2 ⟨i, ht⟩⟩

/-! ### A history used to show that hypotheses can be met -/

/-- The log of a result, for examples. -/
def sysLog : CM (Sys W) → Option (List XEv)
  | .ub => none
  | .ret v => some v.log

theorem xreach_of_log {env : SysEnv W} {w : W} {mem : Vector UInt8 260} {ops : List Sys.Op} {l : List XEv}
    (h : sysLog ((Sys.init env w mem).run env ops) = some l) : ∃ v, XReach env w v ∧ v.log = l := by
  obtain ⟨v, hv, -⟩ := Sys.Inv.run ops (Sys.Inv.init env w mem)
  rw [hv] at h
  exact ⟨v, ⟨mem, ops, hv⟩, by simpa [sysLog] using h⟩

/-- A server whose sessions all have one register, the same. -/
def oneRegister : ServerEnv UInt16 where
  pol := .reject
  onRequest _ k q w := match k, q with
    | .writeSingleRegister, q => (q.value, .ok q)
    | .readHoldingRegisters, q => (w, .ok [⟨q.start, w⟩])
    | _, _ => (w, .error (.modbus .illegalFunction))
  junk _ := Vector.replicate 260 0

def sysDemoEnv : SysEnv UInt16 := ⟨demoEnv, oneRegister⟩

/-- A write and a read of the register, with the bytes cut somewhere. -/
def sysOps : List Sys.Op :=
  [.server (.addSession 1 7), .server .runTask,
   .client (.submit 1 ⟨.writeSingleRegister, ⟨3, 42⟩⟩ 10), .client (.submit 1 ⟨.readHoldingRegisters, ⟨3, 1⟩⟩ 10),
   .client .runTask, .client .runTask, .arrive 0 5, .arrive 0 100, .hear 4, .hear 100, .arrive 0 100, .hear 100]

def sysDemo : List XEv :=
  [.cli 0 (.call 0 1 ⟨.writeSingleRegister, ⟨3, 42⟩⟩ 10), .cli 0 (.call 1 1 ⟨.readHoldingRegisters, ⟨3, 1⟩⟩ 10),
   .cli 0 (.sent 0 [0, 0, 0, 0, 0, 6, 1, 6, 0, 3, 0, 42] 0),
   .srv (.mbap 0 ⟨1, 0, [6, 0, 3, 0, 42]⟩), .srv (.request 7 .writeSingleRegister ⟨3, 42⟩),
   .srv (.send 0 [0, 0, 0, 0, 0, 6, 1, 6, 0, 3, 0, 42]),
   .cli 0 (.data [0, 0, 0, 0]), .cli 0 (.data [0, 6, 1, 6, 0, 3, 0, 42]), .cli 0 (.mbap ⟨1, 0, [6, 0, 3, 0, 42]⟩),
   .cli 0 (.handler 0 (.ok [6, 0, 3, 0, 42]) 0), .cli 0 (.sent 1 [0, 1, 0, 0, 0, 6, 1, 3, 0, 3, 0, 1] 0),
   .srv (.mbap 0 ⟨1, 1, [3, 0, 3, 0, 1]⟩), .srv (.request 7 .readHoldingRegisters ⟨3, 1⟩),
   .srv (.send 0 [0, 1, 0, 0, 0, 5, 1, 3, 2, 0, 42]),
   .cli 0 (.data [0, 1, 0, 0, 0, 5, 1, 3, 2, 0, 42]), .cli 0 (.mbap ⟨1, 1, [3, 2, 0, 42]⟩), .cli 0 (.handler 1 (.ok [3, 2, 0, 42]) 0)]

theorem sysDemo_reach : ∃ v, XReach sysDemoEnv 0 v ∧ v.log = sysDemo :=
  xreach_of_log (mem := Vector.replicate 260 0) (ops := sysOps) (by decide +kernel)

/-! ### C77 -/

/-- **C77.**  Whatever is reported to a handler as a response is genuine: it is what the session registered for the request's unit
returned, at one moment before, when it was called once with a request that this client had sent on this same connection, to
the same unit and under the same transaction id.  The session saw the state left by all calls made before that moment. -/
theorem C77_answers_are_genuine (env : SysEnv W) (w : W) (v : Sys W) (h : XReach env w v) (past future : List XEv) (i u : Nat)
    (pdu : List UInt8) (t : Nat) (he : v.log = past ++ .cli i (.handler u (.ok pdu) t) :: future) :
    ∃ u' before between m s k q tmo q2 tmo2,
      past = before ++ .srv (.mbap (2 * i) m) :: .srv (.request s k q) :: between ∧
      (u', (frameOf m).bytes) ∈ requestsOn i before ∧
      CEv.call u' m.unit ⟨k, q⟩ tmo ∈ cliLog before ∧ CEv.call u m.unit q2 tmo2 ∈ cliLog past ∧
      rank (cliLog v.log) u' % 65536 = rank (cliLog v.log) u % 65536 ∧
      (v.srv.isShutdown = true ∨ v.srv.sessions.lookup m.unit = some s) ∧
      Denotes k m.data q ∧
      Reports k q (env.server.onRequest s k q (replay env.server.onRequest w before)).2 pdu := by
  have hi := h.inv
  have hcl : v.cli.log = cliLog past ++ .handler u (.ok pdu) t :: cliLog future := by
    rw [← hi.cliLog, he, cliLog_append]; rfl
  -- the message at the client
  obtain ⟨l0, m', b, g1, g2, g3⟩ := hi.just.at he
  obtain ⟨-, -, -, l0', m2, unit, q2, tmo2, c1, c2, c3, -, c4, c5⟩ := hi.creach.inv.1.just.at hcl
  have hm2 : m2 = m' := by
    rw [g1, cliLog_append] at c1
    obtain ⟨-, c1⟩ := List.append_inj' (s₁ := cliLog l0) (t₁ := [.mbap m']) c1 rfl
    injection c1 with c1; injection c1 with c1; exact c1.symm
  subst hm2
  have hrank : rank (cliLog past) u = rank v.cli.log u := (calls_prefix hi.creach hcl c3).symm
  -- the reply of the server
  have he1 : v.log = l0 ++ .cli i (.mbap m2) :: (.cli i (.handler u (.ok pdu) t) :: future) := by rw [he, g1]; simp
  obtain ⟨D, d1, d2, d3⟩ := hi.just.at he1
  have hmD : m2 ∈ D := by obtain ⟨x, hx⟩ := d3; rw [← hx]; simp
  have hrep : XEv.srv (.send (2 * i) (wire m2)) ∈ l0 := mem_repliesOn.1 (by rw [d1]; exact List.mem_map_of_mem hmD)
  obtain ⟨a1, a2, ha⟩ := List.append_of_mem hrep
  have he2 : v.log = a1 ++ .srv (.send (2 * i) (wire m2)) :: (a2 ++ .cli i (.mbap m2) :: (.cli i (.handler u (.ok pdu) t) :: future)) := by
    rw [he1, ha]; simp
  obtain ⟨before, m, s, k, q, rp, s1, s2, s3, s4, s5, s6⟩ := hi.just.at he2 i rfl
  have hmm : m2 = ⟨m.unit, m.tid, rp⟩ := wire_inj (d2 m2 hmD) s5 s6
  -- the request of the client
  have he3 : v.log = before ++ .srv (.mbap (2 * i) m) :: (.srv (.request s k q) :: .srv (.send (2 * i) (wire m2)) ::
      (a2 ++ .cli i (.mbap m2) :: (.cli i (.handler u (.ok pdu) t) :: future))) := by rw [he2, s1]; simp
  have hpre := hi.just.at he3 i rfl
  have hmem : wire m ∈ (requestsOn i before).map (·.2) := by obtain ⟨x, hx⟩ := hpre; rw [← hx]; simp
  obtain ⟨⟨u', b'⟩, hub, hb'⟩ := List.mem_map.1 hmem
  simp only at hb'; subst hb'
  obtain ⟨t', ht'⟩ := cliLog_mem_requestsOn hub
  have hcl2 : v.cli.log = cliLog before ++ cliLog (.srv (.mbap (2 * i) m) :: (.srv (.request s k q) :: .srv (.send (2 * i) (wire m2)) ::
      (a2 ++ .cli i (.mbap m2) :: (.cli i (.handler u (.ok pdu) t) :: future)))) := by
    rw [← hi.cliLog, he3, cliLog_append]
  obtain ⟨m3, unit3, k3, q3, tmo3, r1, r2, r3, r4, r5, r6, r7, -⟩ := sent_request hi.creach hcl2 ht'
  have hm3 : m3 = m := (wire_inj s2 r2 r1).symm
  subst hm3
  have hq3 := denotes_unique s3 r6
  injection hq3 with hk hq3
  subst hk
  cases hq3
  refine ⟨u', before, .srv (.send (2 * i) (wire m2)) :: (a2 ++ [.cli i (.mbap m2)]), m3, s, k, q, tmo3, q2, tmo2, ?_, hub, ?_, ?_, ?_, ?_, s3, ?_⟩
  · rw [g1, ha, s1]; simp
  · rw [r4]; exact r3
  · have : m3.unit = unit := by rw [← c4, hmm]
    rw [this]; exact c3
  · rw [hi.cliLog]
    have e1 : m3.tid = m2.tid := by rw [hmm]
    rw [r5, c5, hrank] at e1
    have := congrArg UInt16.toNat e1
    simpa using this
  · have he4 : v.srv.log = srvLog before ++ .mbap (2 * i) m3 :: .request s k q :: srvLog (.srv (.send (2 * i) (wire m2)) ::
      (a2 ++ .cli i (.mbap m2) :: (.cli i (.handler u (.ok pdu) t) :: future))) := by
      rw [← hi.srvLog, he3, srvLog_append]; rfl
    exact Srv.asked hi.sreach _ _ _ _ _ _ _ he4
  · have : pdu = rp := by rw [← g2, hmm]
    rw [this]; exact ReplyPdu.reports s4 r7

/-- C77, to be wished for: the response is the answer to the handler's own request. -/
def C77_Statement : Prop := ∀ (W : Type) (env : SysEnv W) (w : W) (v : Sys W), XReach env w v → ∀ (past future : List XEv) (i u : Nat)
    (pdu : List UInt8) (t : Nat), v.log = past ++ .cli i (.handler u (.ok pdu) t) :: future →
    ∃ before between m s k q tmo, past = before ++ .srv (.mbap (2 * i) m) :: .srv (.request s k q) :: between ∧
      (u, (frameOf m).bytes) ∈ requestsOn i before ∧ CEv.call u m.unit ⟨k, q⟩ tmo ∈ cliLog before ∧
      Reports k q (env.server.onRequest s k q (replay env.server.onRequest w before)).2 pdu

/-- **C77**, the handler's own request: if no request sent on this connection is 65536 or more allowed requests older, the response
is the result of the session for exactly the handler's request, executed between its being sent and the response.  (Missing: longer
histories on one connection, where transaction ids repeat.) -/
theorem C77_own_answer_partial (env : SysEnv W) (w : W) (v : Sys W) (h : XReach env w v) (past future : List XEv) (i u : Nat)
    (pdu : List UInt8) (t : Nat) (he : v.log = past ++ .cli i (.handler u (.ok pdu) t) :: future)
    (hrecent : ∀ u' b, (u', b) ∈ requestsOn i past → rank (cliLog v.log) u < rank (cliLog v.log) u' + 65536) :
    ∃ before between m s k q tmo, past = before ++ .srv (.mbap (2 * i) m) :: .srv (.request s k q) :: between ∧
      (u, (frameOf m).bytes) ∈ requestsOn i before ∧ CEv.call u m.unit ⟨k, q⟩ tmo ∈ cliLog before ∧
      (v.srv.isShutdown = true ∨ v.srv.sessions.lookup m.unit = some s) ∧ Denotes k m.data q ∧
      Reports k q (env.server.onRequest s k q (replay env.server.onRequest w before)).2 pdu := by
  obtain ⟨u', before, between, m, s, k, q, tmo, q2, tmo2, h1, h2, h3, h4, h5, h6, h7, h8⟩ :=
    C77_answers_are_genuine env w v h past future i u pdu t he
  suffices hu : u' = u by subst hu; exact ⟨before, between, m, s, k, q, tmo, h1, h2, h3, h6, h7, h8⟩
  have hi := h.inv
  have hcl : v.cli.log = cliLog past ++ .handler u (.ok pdu) t :: cliLog future := by
    rw [← hi.cliLog, he, cliLog_append]; rfl
  have hub : (u', (frameOf m).bytes) ∈ requestsOn i past := by
    rw [h1, requestsOn_append]; exact List.mem_append_left _ h2
  have hr := hrecent u' _ hub
  obtain ⟨t', ht'⟩ := cliLog_mem_requestsOn hub
  rw [hi.cliLog] at hr h5
  by_contra hne
  obtain ⟨before2, m2, e1, -, e3, -⟩ := C49_response_matches_request env.client v.cli hi.creach _ _ u pdu t hcl
  -- requests are sent in order, and nothing is sent while `u` is outstanding
  have ha' : u' ∈ allowedUids v.cli.log := by
    obtain ⟨_, unit3, k3, q3, tmo3, -, -, r3, -, -, -, r7, -⟩ := sent_request hi.creach hcl ht'
    exact Cli.mem_allowedUids.2 ⟨unit3, ⟨k3, q3⟩, tmo3, by rw [hcl]; exact List.mem_append_left _ r3, r7⟩
  have hsu : u ∈ sentUids (cliLog past) := by
    obtain ⟨-, j2, -⟩ := hi.creach.inv.1.just.at hcl
    exact j2
  have hau : u ∈ allowedUids v.cli.log := by
    obtain ⟨b, t2, hb⟩ := mem_sentUids.1 hsu
    obtain ⟨_, unit3, k3, q3, tmo3, -, -, r3, -, -, -, r7, -⟩ := sent_request hi.creach hcl hb
    exact Cli.mem_allowedUids.2 ⟨unit3, ⟨k3, q3⟩, tmo3, by rw [hcl]; exact List.mem_append_left _ r3, r7⟩
  have hlt : u' < u := by
    by_contra hge
    have hgt : u < u' := by omega
    obtain ⟨a, b, hab⟩ := List.append_of_mem ht'
    have e2 : v.cli.log = a ++ .sent u' (frameOf m).bytes t' :: (b ++ .handler u (.ok pdu) t :: cliLog future) := by rw [hcl, hab]; simp
    obtain ⟨-, -, -, c4, -⟩ := hi.creach.inv.1.just.at e2
    have hua : u ∉ sentUids a := fun hh => e3 (by rw [hab]; simp [handledUids_append, c4 u hh])
    have hub : u ∈ sentUids b := by
      rw [hab, sentUids_append, List.mem_append] at hsu
      rcases hsu with hsu | hsu
      · exact absurd hsu hua
      · have e3 : sentUids (.sent u' (frameOf m).bytes t' :: b) = u' :: sentUids b := rfl
        rw [e3] at hsu
        rcases List.mem_cons.1 hsu with hsu | hsu
        · omega
        · exact hsu
    have hord := (C46_submission_order env.client v.cli hi.creach).2.1
    rw [e2, sentUids_append] at hord
    have e3 : sentUids (.sent u' (frameOf m).bytes t' :: (b ++ .handler u (.ok pdu) t :: cliLog future)) =
        u' :: sentUids (b ++ .handler u (.ok pdu) t :: cliLog future) := rfl
    rw [e3] at hord
    have := (List.pairwise_cons.1 (List.pairwise_append.1 hord).2.1).1 u (by rw [sentUids_append]; exact List.mem_append_left _ hub)
    omega
  have := rank_strict ha' hlt
  omega

/-- The read of the demonstration is answered with the value written before. -/
example : sysDemo = sysDemo.take 16 ++ .cli 0 (.handler 1 (.ok [3, 2, 0, 42]) 0) :: [] ∧
    (∀ x ∈ requestsOn 0 (sysDemo.take 16), rank (cliLog sysDemo) 1 < rank (cliLog sysDemo) x.1 + 65536) ∧
    (requestsOn 0 (sysDemo.take 16)).length = 2 := by decide +kernel

/-! ### C78 -/

/-- **C78.**  On each connection, the server takes the client's requests unchanged, in the order in which they were sent, each at most
once and none that was not sent. -/
theorem C78_requests_arrive_in_order (env : SysEnv W) (w : W) (v : Sys W) (h : XReach env w v) (i : Nat) :
    (takenFrom i v.log).map (fun m => (frameOf m).bytes) <+: (requestsOn i v.log).map (·.2) := by
  obtain ⟨rest, r1, -⟩ := h.inv.up i
  rw [r1, List.map_append]
  exact List.prefix_append _ _

/-- **C78.**  ... and sessions are called only for messages taken, directly after each, with exactly the request the message carries. -/
theorem C78_calls_follow_messages (env : SysEnv W) (w : W) (v : Sys W) (h : XReach env w v) (past future : List XEv) (s : SessId) (k : Kind)
    (q : Req k) (he : v.log = past ++ .srv (.request s k q) :: future) :
    ∃ before c m, past = before ++ [.srv (.mbap c m)] ∧ Denotes k m.data q ∧
      (v.srv.isShutdown = true ∨ v.srv.sessions.lookup m.unit = some s) := by
  have hi := h.inv
  obtain ⟨before, c, m, h1, h2⟩ := hi.just.at he
  refine ⟨before, c, m, h1, h2, ?_⟩
  have he4 : v.srv.log = srvLog before ++ .mbap c m :: .request s k q :: srvLog future := by
    rw [← hi.srvLog, he, h1, srvLog_append, srvLog_append]; simp [srvLog]
  exact Srv.asked hi.sreach _ _ _ _ _ _ _ he4

/-- **C78.**  In the other direction, the client takes from its current connection the server's replies, in order, each at most once. -/
theorem C78_replies_arrive_in_order (env : SysEnv W) (w : W) (v : Sys W) (h : XReach env w v) (past future : List XEv) (i : Nat) (m : Mbap)
    (he : v.log = past ++ .cli i (.mbap m) :: future) :
    (messagesSince (cliLog past) ++ [m]).map (fun m => (frameOf m).bytes) <+: repliesOn i past := by
  obtain ⟨D, h1, -, h2⟩ := h.inv.just.at he
  rw [h1]
  exact h2.map _

/-- **C78.**  The state of the user's program on the server is the result of the sessions' calls, one after the other. -/
theorem C78_state_is_replay (env : SysEnv W) (w : W) (v : Sys W) (h : XReach env w v) :
    v.srv.world = replay env.server.onRequest w v.log := h.inv.world

/-- Two requests were taken; the second call of a session and the second reply of the demonstration. -/
example : (takenFrom 0 sysDemo).length = 2 ∧
    sysDemo = sysDemo.take 12 ++ .srv (.request 7 .readHoldingRegisters ⟨3, 1⟩) :: sysDemo.drop 13 ∧
    sysDemo = sysDemo.take 15 ++ .cli 0 (.mbap ⟨1, 1, [3, 2, 0, 42]⟩) :: sysDemo.drop 16 ∧
    replay oneRegister.onRequest 0 sysDemo = 42 := by decide +kernel

end Modbus.Props
