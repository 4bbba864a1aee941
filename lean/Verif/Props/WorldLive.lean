import Verif.Lemmas.WorldTalk

/-!
C106-: clients and a server together get things done.
-/

namespace Modbus.Props

open Spec World

variable {W : Type}

/-! ### C106 -/

/-- The client `j` is at rest (and its local socket works), and the server is running, has nothing to do, has room, and is accepting the client's next
connection, as its connection `c`. -/
structure Poised (env : WorldEnv W) (v : World W) (j i c : Nat) : Prop where
  clientUp : CEv.tcpShutdown ∉ chLog (inClient j v.log)
  rest : AtRest (v.cli j)
  socket : (env.client j).loc (v.cli j).tcp.nextBuf = .ok
  serverUp : v.srv.srv.isShutdown = false
  accepting : v.srv.asv.flying[i]? = some (.accept c)
  idle : v.srv.asv.queue = []
  room : v.srv.asv.num < v.srv.asv.max
  joined : env.peer c = some (j, (v.cli j).tcp.conn + 1)

/-- Between `v` and `v'` the client's next request has gone out on its connection `n` to unit `unit`, has been carried out by session `s`, once and as the only one at the server,
and what the session returned has been reported to the request's handler. -/
def Exchanged (env : WorldEnv W) (v : World W) (j n c : Nat) (unit : UInt8) (s : SessId) (k : Kind) (q : Req k) (v' : World W) : Prop :=
  ∃ tid p pdu bytes es, RequestPdu k q p ∧ inClient j v'.log = inClient j v.log ++ es ∧ KEv.net (.wire n (frameOf ⟨unit, tid, p⟩).bytes) ∈ es ∧
    svLog (inServer v'.log) = svLog (inServer v.log) ++ [.mbap c ⟨unit, tid, p⟩, .request s k q, .send c bytes] ∧
    KEv.ch (.handler (v.cli j).cli.nextUid (.ok pdu) (v.cli j).cli.now) ∈ es ∧
    Reports k q (env.server.onRequest s k q v.srv.srv.world).2 pdu ∧
    v'.srv.srv.world = (env.server.onRequest s k q v.srv.srv.world).1

/-- The attempts a client has made to connect. -/
def attempts (l : List KEv) : List Nat := (netLog l).filterMap fun | .attempt n => some n | _ => none

theorem mem_of_netLog {l : List KEv} {e : TEv} (h : e ∈ netLog l) : KEv.net e ∈ l := by
  simp only [netLog, List.mem_filterMap] at h
  obtain ⟨x, hx, he⟩ := h
  cases x with
  | ch e => cases he
  | net e => injection he with he; subst he; exact hx

theorem mem_of_chLog {l : List KEv} {e : CEv} (h : e ∈ chLog l) : KEv.ch e ∈ l := by
  simp only [chLog, List.mem_filterMap] at h
  obtain ⟨x, hx, he⟩ := h
  cases x with
  | net e => cases he
  | ch e => injection he with he; subst he; exact hx

/-- C106, to be wished for: when client and server are ready, a request to a session that answers can be carried out. -/
def C106_Statement : Prop := ∀ (W : Type) (env : WorldEnv W) (w : W) (v : World W), WReach env w v → ∀ j i c, Poised env v j i c →
  ∀ unit s k q tmo, v.srv.srv.sessions.lookup unit = some s → Allowed ⟨k, q⟩ →
    (∀ e, (env.server.onRequest s k q v.srv.srv.world).2 = .error e → ∃ t, e = .modbus t) →
    ∃ ops v', v.run env (.client j (.chan (.submit unit ⟨k, q⟩ tmo)) :: ops) = .ret v' ∧ Exchanged env v j ((v.cli j).tcp.conn + 1) c unit s k q v'

/-- Everything goes well, in the order in which things become possible: the request is submitted and a connection attempted, which the server accepts; it
gets the frame in one piece, answers, and the client gets the answer. `n` is the number of operations in progress at the
server before. -/
def worldExchange (j i c : Nat) (unit : UInt8) (q : AnyReq) (tmo n : Nat) (bytes reply : List UInt8) (mem : Vector UInt8 260) : List World.Op :=
  (stackAsk unit q tmo bytes.length).map (.client j) ++ ([.complete i .ok, .run 0 mem, .run 0 mem] : List Svk.Op).map .server ++
    replying j (n - 1) c n bytes reply mem

/-- The server of the example is started, with session 0 for unit 1, and accepts connection 0; client 0 failed to resolve the server's name once. -/
def wunresolved : List World.Op := ((vconnected.take 5).map .server) ++ (unresolved.map (.client 0))

/-- C106 is false: after one failure to resolve the server's name nothing is ever transmitted again. -/
theorem C106_violated : ¬C106_Statement := by
  intro hall
  obtain ⟨v, hr, hq⟩ := any_wdemo (env := wenv oneRegister 2) (w := 0) (ops := wunresolved) (Q := fun v =>
    (decide (CEv.tcpShutdown ∉ chLog (inClient 0 v.log)) && ((v.cli 0).tcp.queue == [] && (v.cli 0).tcp.flying == [] && decide ((v.cli 0).cli.tasks = []) && waiting (v.cli 0).cli == [])) &&
    (v.srv.srv.isShutdown == false && v.srv.asv.flying[0]? == some (.accept 0) && v.srv.asv.queue == [] && decide (v.srv.asv.num < v.srv.asv.max) &&
      (v.cli 0).tcp.conn == 1 && v.srv.srv.sessions.lookup 1 == some 0 && v.srv.srv.world == 0) &&
    ((v.cli 0).tcp.status == .notConnected && (v.cli 0).tcp.isOpen)) (by decide +kernel)
  simp only [Bool.and_eq_true, beq_iff_eq, decide_eq_true_eq] at hq
  obtain ⟨⟨⟨h1, ⟨⟨h2, h3⟩, h4⟩, h5⟩, ⟨⟨⟨⟨⟨h6, h7⟩, h8⟩, h9⟩, h10⟩, h11⟩, h12⟩, h13, h14⟩ := hq
  obtain ⟨ops, v', e1, tid, p, pdu, bytes, ees, -, e0, e2, -⟩ := hall UInt16 (wenv oneRegister 2) 0 v hr 0 0 0 ⟨h1, ⟨h2, h3, h4, h5⟩, rfl, h6, h7, h8, h9, by rw [h10]; rfl⟩ 1 0
    .readHoldingRegisters ⟨3, 1⟩ 10 h11 (by decide +kernel) (by rw [h12]; intro e he; cases he)
  obtain ⟨kops, e3⟩ := World.run_cli _ 0 e1
  have hk := hr.ok.cli 0
  have hcl := (run_wreach _ hr e1).ok.clog 0
  replace e2 : KEv.net (.wire ((v.cli 0).tcp.conn + 1) (frameOf ⟨1, tid, p⟩).bytes) ∈ inClient 0 v'.log := by rw [e0]; exact List.mem_append_right _ e2
  rw [hcl] at e2
  obtain ⟨k', es, e4, e5, e6⟩ := dead_run hk (show Tcp.Dead (v.cli 0).tcp from ⟨h13, h14, h3, by rw [h2]; simp⟩) kops
  rw [e3] at e4; injection e4 with e4
  rw [← e4] at e5
  have hmem : TEv.wire ((v.cli 0).tcp.conn + 1) (frameOf ⟨1, tid, p⟩).bytes ∈ netLog (v'.cli 0).log := by
    simp only [netLog, List.mem_filterMap]; exact ⟨_, e2, rfl⟩
  rw [e5, List.mem_append] at hmem
  rcases hmem with hm | hm
  · have hun : tcpWires ((v.cli 0).tcp.conn + 1) (v.cli 0).tcp.log = [] := (tcp_through hk (P := fun _ _ => True) (fun _ _ => trivial)).unsent (Nat.lt_succ_self _)
    rw [hk.proj.micro.net] at hm
    have : (frameOf ⟨1, tid, p⟩).bytes ∈ tcpWires ((v.cli 0).tcp.conn + 1) (v.cli 0).tcp.log := by
      simp only [tcpWires, List.mem_filterMap]; exact ⟨_, hm, by simp⟩
    rw [hun] at this; cases this
  · rcases e6 _ hm with ⟨d, hx⟩ | hx <;> cases hx

/-- C106 (part). When client and server are ready, a request to a session that answers is carried out if everything goes well: it goes out on a new connection,
which the server accepts, the session is called once with exactly this request, what it returns is reported to the request's handler, and
client and server stay connected; whatever
all clients and the server have done before, provided that this client's local socket never failed and the server's name was always resolved, and that the client's
connections ended by errors only and with nothing left over when the next attempt was made.
Missing from C106: histories of the client with such failures, orderly closes and left-over events (`C106_violated`, `C86_violated`). -/
theorem C106_exchange_partial (env : WorldEnv W) (w : W) (v : World W) (h : WReach env w v) (j i c : Nat) (hr : Poised env v j i c)
    (hf : Throughout (fun t op => NoLocalFailure t op ∧ FreshStarts t op ∧ NoEof t op) (v.cli j))
    (unit : UInt8) (s : SessId) (k : Kind) (q : Req k) (tmo : Nat) (hs : v.srv.srv.sessions.lookup unit = some s) (hq : Allowed ⟨k, q⟩)
    (hans : ∀ e, (env.server.onRequest s k q v.srv.srv.world).2 = .error e → ∃ t, e = .modbus t) (mem : Vector UInt8 260) :
    ∃ bytes reply v', v.run env (worldExchange j i c unit ⟨k, q⟩ tmo v.srv.asv.flying.length bytes reply mem) = .ret v' ∧
      Exchanged env v j ((v.cli j).tcp.conn + 1) c unit s k q v' ∧ Linked env v' j ((v.cli j).tcp.conn + 1) c v.srv.asv.flying.length ∧
      v'.srv.srv.sessions = v.srv.srv.sessions ∧ attempts (inClient j v'.log) = attempts (inClient j v.log) ++ [(v.cli j).tcp.conn + 1] := by
  have hok := h.ok
  have hcu := hr.clientUp
  rw [hok.clog] at hcu
  obtain ⟨tid, bytes, k7, a1, a2, a3, a4, a5, a6, a7⟩ := Stk.asks (hok.cli j) hf hcu hr.rest hr.socket unit ⟨k, q⟩ tmo hq
  obtain ⟨p, p1, p2, p3⟩ := a1
  have hden : Denotes k p q := denotes_of_requestPdu hq p1
  have hone : 1 ≤ p.length := by obtain ⟨rest, hx⟩ := denotes_head hden; rw [hx]; simp
  -- nothing has happened on the connection
  have hunsent : tcpWires ((v.cli j).tcp.conn + 1) (v.cli j).tcp.log = [] := (tcp_through (hok.cli j) hf).unsent (Nat.lt_succ_self _)
  have hup : v.up c = [] := by
    have := hok.upOf c j _ hr.joined
    simp only [World.sentUp, hunsent, List.flatten_nil] at this
    exact List.prefix_nil.1 this
  have hgot : Asv.got c v.srv.asv = [] := by rw [hok.ups, hup]
  obtain ⟨-, -, hwires, -⟩ := Svk.untouched hok.srv (List.mem_of_getElem? hr.accepting) hgot
  have hdown : v.down j ((v.cli j).tcp.conn + 1) = [] := by
    rcases hok.downOf j ((v.cli j).tcp.conn + 1) with e | ⟨c', e1, e2⟩
    · exact e
    · have := env.inj _ _ _ e1 hr.joined
      subst this
      simp only [World.sentDown, hwires, List.flatten_nil] at e2
      exact List.prefix_nil.1 e2
  obtain ⟨s3, b1, b2, b3, b4, b5, b6⟩ := Svk.accepts_serving hok.srv hr.accepting hr.idle hr.room hgot hr.serverUp mem
  -- the client's part
  obtain ⟨u1, d1, d2, d3, d4, d5⟩ := World.client_run (env := env) (v := v) (j := j) (stackAsk unit ⟨k, q⟩ tmo bytes.length) (by simp [stackAsk, givesClient]) a2
  -- the server accepts
  obtain ⟨u2, e1, e2, e3, e4, e5⟩ := World.server_run (env := env) (v := u1) [.complete i .ok, .run 0 mem, .run 0 mem] (by simp [givesServer]) (by rw [d3]; exact b1)
  have w2 := run_wreach _ (run_wreach _ h d1) e1
  have hc2 : u2.cli j = k7 := by rw [e3, d2]
  have hsentup : u2.sentUp j ((v.cli j).tcp.conn + 1) = u2.up c ++ (frameOf ⟨unit, tid, p⟩).bytes := by
    rw [e4, d4, hup, List.nil_append, ← p3]
    simp only [World.sentUp]
    rw [← (w2.ok.cli j).proj.micro.net, hc2, a4, (hok.cli j).proj.micro.net]
    simp only [tcpWires, List.filterMap_append] at hunsent ⊢
    rw [hunsent]; simp
  have hsentdown : u2.sentDown c = [] := by
    simp only [World.sentDown]
    rw [← w2.ok.srv.ok.cnl, e2, b2, Svk.cnLog_append, hok.srv.ok.cnl]
    simp only [asvWires, List.filterMap_append] at hwires ⊢
    rw [hwires]; simp [cnLog]
  obtain ⟨pdu, v', r1, r2, r3, r4, r5, r6, r7, r8, r9, r10, r11⟩ := World.replied w2 (n := (v.cli j).tcp.conn + 1) (c := c) (i := v.srv.asv.flying.length - 1) (by rw [hc2]; exact a5)
    (by rw [e2]; exact b3) hr.joined hsentup (by rw [e5, d5, hdown, hsentdown]) (by rw [e2, b5]; exact hs) hden ⟨hone, p2⟩ (by rw [e2, b6]; exact hans) mem
  simp only [e2, b4, b5, b6, hc2, ← p3] at r1 r2 r3 r4 r5 r6 r7 r8 r9 r10 r11
  have hrun : v.run env (worldExchange j i c unit ⟨k, q⟩ tmo v.srv.asv.flying.length bytes (frameOf ⟨unit, tid, pdu⟩).bytes mem) = .ret v' := by
    simp only [worldExchange, World.run_append, d1, e1, CM.ret_bind, r2]
  have w' := run_wreach _ h hrun
  obtain ⟨es, hes⟩ := World.run_grows _ j hrun
  have hnet : netLog es = [.asked bytes, .attempt ((v.cli j).tcp.conn + 1), .submit ((v.cli j).tcp.conn + 1) bytes, .wire ((v.cli j).tcp.conn + 1) bytes, .writeDone,
      .receive ((v.cli j).tcp.conn + 1) (frameOf ⟨unit, tid, pdu⟩).bytes] := by
    have := r6
    rw [hes, netLog_append, a4, List.append_assoc] at this
    simpa using List.append_cancel_left this
  have hch : chLog es = [.call (v.cli j).cli.nextUid unit ⟨k, q⟩ tmo, .sent (v.cli j).cli.nextUid bytes (v.cli j).cli.now, .data (frameOf ⟨unit, tid, pdu⟩).bytes,
      .mbap ⟨unit, tid, pdu⟩, .handler (v.cli j).cli.nextUid (.ok pdu) (v.cli j).cli.now] := by
    have := r5
    rw [hes, chLog_append, a3, a6, List.append_assoc] at this
    simpa using List.append_cancel_left this
  refine ⟨bytes, _, v', hrun, ⟨tid, p, pdu, (frameOf ⟨unit, tid, pdu⟩).bytes, es, p1, by rw [w'.ok.clog, hok.clog, hes], ?_, ?_, ?_, ReplyPdu.reports r1 hq, r10⟩, r3, r9, ?_⟩
  · exact mem_of_netLog (by rw [hnet, p3]; simp)
  · rw [w'.ok.slog, r4, hok.slog, b2, Svk.svLog_append]; simp [svLog]
  · exact mem_of_chLog (by rw [hch]; simp)
  · rw [w'.ok.clog, hok.clog, hes]; simp only [attempts, netLog_append, hnet, List.filterMap_append]; simp

/-- Checks the assumptions of `C106_exchange_partial`. -/
def poisedChk (v : World W) (j i c : Nat) : Bool :=
  (v.cli j).steps.all (fun x => localChk x.1 x.2 && (freshChk x.1 x.2 && noEofChk x.2)) &&
  (decide (CEv.tcpShutdown ∉ chLog (inClient j v.log)) && ((v.cli j).tcp.queue == [] && (v.cli j).tcp.flying == [] && decide ((v.cli j).cli.tasks = []) && waiting (v.cli j).cli == [])) &&
  (v.srv.srv.isShutdown == false && v.srv.asv.flying[i]? == some (.accept c) && v.srv.asv.queue == [] && decide (v.srv.asv.num < v.srv.asv.max))

theorem poisedChk_spec {server : ServerEnv W} {a : Nat} {v : World W} {j i c : Nat} (h : poisedChk v j i c = true) (hp : wpeer a c = some (j, (v.cli j).tcp.conn + 1)) :
    Poised (wenv server a) v j i c ∧ Throughout (fun t op => NoLocalFailure t op ∧ FreshStarts t op ∧ NoEof t op) (v.cli j) := by
  simp only [poisedChk, Bool.and_eq_true, beq_iff_eq, decide_eq_true_eq, List.all_eq_true] at h
  obtain ⟨⟨h0, h1, ⟨⟨h2, h3⟩, h4⟩, h5⟩, ⟨⟨h6, h7⟩, h8⟩, h9⟩ := h
  refine ⟨⟨h1, ⟨h2, h3, h4, h5⟩, rfl, h6, h7, h8, h9, hp⟩, fun x hx => ?_⟩
  obtain ⟨a1, a2, a3⟩ := h0 x hx
  exact ⟨localChk_spec _ _ a1, freshChk_spec _ _ a2, noEofChk_spec _ _ a3⟩

/- Client 0's first attempt to connect was refused, and its request ran into its timeout; it tries again. -/
example : ∃ v, WReach (wenv oneRegister 2) 0 v ∧ Poised (wenv oneRegister 2) v 0 0 0 ∧
    Throughout (fun t op => NoLocalFailure t op ∧ FreshStarts t op ∧ NoEof t op) (v.cli 0) ∧ v.srv.srv.sessions.lookup 1 = some 0 := by
  obtain ⟨v, hr, hq⟩ := any_wdemo (env := wenv oneRegister 2) (w := 0)
    (ops := (vconnected.take 5).map .server ++ (ksub ++ [.complete 0 .ok, .run 0, .complete 0 .error, .run 0, .run 0] ++ kexp 0 : List Stk.Op).map (.client 0))
    (Q := fun v => poisedChk v 0 0 0 && ((v.cli 0).tcp.conn == 1 && v.srv.srv.sessions.lookup 1 == some 0)) (by decide +kernel)
  rw [Bool.and_eq_true, Bool.and_eq_true, beq_iff_eq, beq_iff_eq] at hq
  obtain ⟨h1, h2⟩ := poisedChk_spec (server := oneRegister) (a := 2) hq.1 (by rw [hq.2.1]; rfl)
  exact ⟨v, hr, h1, h2, hq.2.2⟩

/- Client 1 connects for the first time, after client 0 has written 42 into the register; it will read that. -/
example : ∃ v, WReach (wenv oneRegister 1) 0 v ∧ Poised (wenv oneRegister 1) v 1 0 1 ∧
    Throughout (fun t op => NoLocalFailure t op ∧ FreshStarts t op ∧ NoEof t op) (v.cli 1) ∧ v.srv.srv.sessions.lookup 1 = some 0 ∧ v.srv.srv.world = 42 := by
  obtain ⟨v, hr, hq⟩ := any_wdemo (env := wenv oneRegister 1) (w := 0)
    (ops := vconnected.map .server ++ wsend 0 ⟨.writeSingleRegister, ⟨3, 42⟩⟩ 12 ++
      [.arrive 0 [0, 0, 0, 0, 0, 6, 1, 6, 0, 3, 0, 42], .server vrun, .server (.complete 1 (.sent 12)), .server vrun])
    (Q := fun v => poisedChk v 1 0 1 && ((v.cli 1).tcp.conn == 0 && (v.srv.srv.sessions.lookup 1 == some 0 && v.srv.srv.world == 42))) (by decide +kernel)
  rw [Bool.and_eq_true, Bool.and_eq_true, Bool.and_eq_true, beq_iff_eq, beq_iff_eq, beq_iff_eq] at hq
  obtain ⟨h1, h2⟩ := poisedChk_spec (server := oneRegister) (a := 1) hq.1 (by rw [hq.2.1]; rfl)
  exact ⟨v, hr, h1, h2, hq.2.2⟩

end Modbus.Props
