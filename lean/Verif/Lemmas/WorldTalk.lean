import Verif.Lemmas.WorldRun
import Verif.Props.World

/-! Helper lemmas: requests and answers on an established connection between a client and the server. -/

namespace Modbus

open Spec
open Props (Reports)

variable {W : Type}

namespace World

/-- Client `j` has nothing to do and is connected, by its connection `n`, to the server's connection `c`, from which the server (the operation at position `i`) reads; the server
has nothing to do, and nothing is in transit between the two. -/
structure Linked (env : WorldEnv W) (v : World W) (j n c i : Nat) : Prop where
  client : (v.cli j).Talks n
  server : v.srv.Serving c i
  joined : env.peer c = some (j, n)
  arrived : v.up c = v.sentUp j n
  heard : v.down j n = v.sentDown c

theorem run_grows (ops : List Op) (j : Nat) {env : WorldEnv W} {v v' : World W} (h : v.run env ops = .ret v') : ∃ es, (v'.cli j).log = (v.cli j).log ++ es := by
  obtain ⟨kops, hk⟩ := run_cli ops j h
  clear h
  generalize v.cli j = a at hk ⊢
  induction kops generalizing a with
  | nil => injection hk with hk; exact ⟨[], by rw [hk, List.append_nil]⟩
  | cons o os ih =>
    obtain ⟨x, h1, h2⟩ := CM.bind_eq_ret.1 hk
    obtain ⟨⟨es, he⟩, -⟩ := Stk.step_grows h1
    obtain ⟨es', he'⟩ := ih x h2
    exact ⟨es ++ es', by rw [he', he, List.append_assoc]⟩

/-- The request reaches the server, is answered, and the answer reaches the client. -/
def replying (j i c n : Nat) (bytes reply : List UInt8) (mem : Vector UInt8 260) : List Op :=
  [.arrive i bytes, .server (.run 0 mem), .server (.complete n (.sent reply.length)), .server (.run 0 mem), .hear j 0 c reply, .client j (.run 0)]

theorem replied {env : WorldEnv W} {w : W} {v : World W} (h : WReach env w v) {j n c i u : Nat} {unit : UInt8} {tid : UInt16} {p : List UInt8}
    (hc : (v.cli j).Waits n u unit tid) (hs : v.srv.Serving c i) (hj : env.peer c = some (j, n)) (hup : v.sentUp j n = v.up c ++ (frameOf ⟨unit, tid, p⟩).bytes)
    (hdn : v.down j n = v.sentDown c) {s : SessId} (hl : v.srv.srv.sessions.lookup unit = some s) {k : Kind} {q : Req k} (hd : Denotes k p q) (hm : Ordinary ⟨unit, tid, p⟩)
    (hans : ∀ e, (env.server.onRequest s k q v.srv.srv.world).2 = .error e → ∃ t, e = .modbus t) (mem : Vector UInt8 260) :
    ∃ pdu v', ReplyPdu k (env.server.onRequest s k q v.srv.srv.world).2 pdu ∧
      v.run env (replying j i c (v.srv.asv.flying.length - 1) (frameOf ⟨unit, tid, p⟩).bytes (frameOf ⟨unit, tid, pdu⟩).bytes mem) = .ret v' ∧
      Linked env v' j n c (v.srv.asv.flying.length - 1) ∧
      svLog v'.srv.log = svLog v.srv.log ++ [.mbap c ⟨unit, tid, p⟩, .request s k q, .send c (frameOf ⟨unit, tid, pdu⟩).bytes] ∧
      chLog (v'.cli j).log = chLog (v.cli j).log ++ [.data (frameOf ⟨unit, tid, pdu⟩).bytes, .mbap ⟨unit, tid, pdu⟩, .handler u (.ok pdu) (v.cli j).cli.now] ∧
      netLog (v'.cli j).log = netLog (v.cli j).log ++ [.receive n (frameOf ⟨unit, tid, pdu⟩).bytes] ∧
      (v'.cli j).cli.now = (v.cli j).cli.now ∧ (v'.cli j).cli.nextUid = (v.cli j).cli.nextUid ∧
      v'.srv.srv.sessions = v.srv.srv.sessions ∧ v'.srv.srv.world = (env.server.onRequest s k q v.srv.srv.world).1 ∧
      v'.srv.asv.flying.length = v.srv.asv.flying.length := by
  have hok := h.ok
  obtain ⟨pdu, s4, s5, s6, s7, b1, b2, b3, b4, b5, b6, b7, b8, b9, b10, b11, b12⟩ := hs.answers hok.srv hm hl hd hans mem
  obtain ⟨k8, k9, c1, c2, c3, c4, c5, c6, c7⟩ := hc.hears (hok.cli j) b1
  obtain ⟨bytes, hb⟩ : ∃ bytes, bytes = (frameOf ⟨unit, tid, p⟩).bytes := ⟨_, rfl⟩
  obtain ⟨reply, hrp⟩ : ∃ reply, reply = (frameOf ⟨unit, tid, pdu⟩).bytes := ⟨_, rfl⟩
  have hblen : bytes.length = 7 + p.length := by rw [hb]; simp [frameOf, Frame.bytes, be]; omega
  have hrlen : reply.length = 7 + pdu.length := by rw [hrp]; simp [frameOf, Frame.bytes, be]; omega
  rw [← hb] at hup b3 b8 ⊢
  rw [← hrp] at b5 b7 b8 c1 c4 c5
  obtain ⟨u3, f1, f2, f3, f4, f5⟩ := arrive_step (env := env) (v := v) (i := i) (c := c) (d := bytes) hs.reading
    (by
      simp only [mayArrive, piece, hj, hup, Bool.and_eq_true, decide_eq_true_eq]
      have := hm.2
      simp only at this
      exact ⟨⟨by omega, by omega⟩, by simp⟩) b3
  obtain ⟨u4, g1, g2, g3, g4, g5⟩ := server_step (env := env) (v := u3) (op := .run 0 mem) rfl (by rw [f2]; exact b4)
  obtain ⟨u5, h1, h2, h3, h4, h5⟩ := server_step (env := env) (v := u4) (op := .complete (v.srv.asv.flying.length - 1) (.sent reply.length)) rfl (by rw [g2]; exact b5)
  obtain ⟨u6, i1, i2, i3, i4, i5⟩ := server_step (env := env) (v := u5) (op := .run 0 mem) rfl (by rw [h2]; exact b6)
  have hc6 : u6.cli = v.cli := by rw [i3, h3, g3, f3]
  have w6 : WReach env w u6 := .step (.step (.step (.step h f1) g1) h1) i1
  have hsentdown : u6.sentDown c = v.sentDown c ++ reply := by
    simp only [sentDown]
    rw [← w6.ok.srv.ok.cnl, i2, b8, hok.srv.ok.cnl]
    simp [asvWires, List.filterMap_append]
  have hd6 : u6.down = v.down := by rw [i5, h5, g5, f4]
  obtain ⟨u7, k1, k2, k3, k4, k5⟩ := hear_step (env := env) (v := u6) (j := j) (i := 0) (n := n) (c := c) (d := reply)
    (by rw [hc6, hc.on.flying]; rfl)
    (by
      simp only [mayHear, piece, hj, hsentdown, hd6, hdn, Bool.and_eq_true, decide_eq_true_eq]
      have := b1.2
      simp only at this
      exact ⟨⟨⟨by omega, by omega⟩, by simp⟩, by simp⟩) (by rw [hc6]; exact c1)
  obtain ⟨u8, l1, l2, l3, l4, l5⟩ := client_step (env := env) (v := u7) (j := j) (op := .run 0) rfl (by rw [k2]; exact c2)
  have w8 : WReach env w u8 := .step (.step w6 k1) l1
  have hsrv : u8.srv = s7 := by rw [l3, k3, i2]
  refine ⟨pdu, u8, b2, ?_, ⟨by rw [l2]; exact c3, by rw [hsrv]; exact b9, hj, ?_, ?_⟩, ?_⟩
  · simp only [replying, ← hrp, run, f1, g1, h1, i1, k1, l1, CM.ret_bind]
  · have : u8.sentUp j n = v.sentUp j n := by
      simp only [sentUp]
      rw [← (w8.ok.cli j).proj.micro.net, l2, c5, (hok.cli j).proj.micro.net]
      simp [tcpWires, List.filterMap_append]
    rw [this, hup, l4, k4, i4, h4, g4, f5]
  · have : u8.sentDown c = u6.sentDown c := by simp only [sentDown]; rw [l3, k3]
    rw [this, hsentdown, l5, k5, hd6, hdn]
  · rw [hsrv, l2]; simp only [← hrp]
    exact ⟨b7, c4, c5, c6, c7, b10, b11, b12⟩

/-- A request on an established connection. -/
theorem again {env : WorldEnv W} {w : W} {v : World W} (h : WReach env w v) {j n c i : Nat} (hk : Linked env v j n c i) {unit : UInt8}
    {s : SessId} (hl : v.srv.srv.sessions.lookup unit = some s) {k : Kind} {q : Req k} (hq : Allowed ⟨k, q⟩) (tmo : Nat)
    (hans : ∀ e, (env.server.onRequest s k q v.srv.srv.world).2 = .error e → ∃ t, e = .modbus t) (mem : Vector UInt8 260) :
    ∃ tid p pdu bytes reply v', RequestPdu k q p ∧ bytes = (frameOf ⟨unit, tid, p⟩).bytes ∧ ReplyPdu k (env.server.onRequest s k q v.srv.srv.world).2 pdu ∧
      v.run env (([.chan (.submit unit ⟨k, q⟩ tmo), .chan .runTask, .complete 1 (.sent bytes.length), .run 0] : List Stk.Op).map (.client j) ++
        replying j i c (v.srv.asv.flying.length - 1) bytes reply mem) = .ret v' ∧
      Linked env v' j n c (v.srv.asv.flying.length - 1) ∧
      svLog v'.srv.log = svLog v.srv.log ++ [.mbap c ⟨unit, tid, p⟩, .request s k q, .send c reply] ∧
      chLog (v'.cli j).log = chLog (v.cli j).log ++ [.call (v.cli j).cli.nextUid unit ⟨k, q⟩ tmo, .sent (v.cli j).cli.nextUid bytes (v.cli j).cli.now,
        .data reply, .mbap ⟨unit, tid, pdu⟩, .handler (v.cli j).cli.nextUid (.ok pdu) (v.cli j).cli.now] ∧
      netLog (v'.cli j).log = netLog (v.cli j).log ++ [.asked bytes, .submit n bytes, .wire n bytes, .writeDone, .receive n reply] ∧
      (v'.cli j).cli.now = (v.cli j).cli.now ∧ (v'.cli j).cli.nextUid = (v.cli j).cli.nextUid + 1 ∧
      v'.srv.srv.sessions = v.srv.srv.sessions ∧ v'.srv.srv.world = (env.server.onRequest s k q v.srv.srv.world).1 ∧
      v'.srv.asv.flying.length = v.srv.asv.flying.length := by
  have hok := h.ok
  obtain ⟨tid, bytes, k3, a1, a2, a3, a4, a5, a6, a7⟩ := hk.client.asks (hok.cli j) unit ⟨k, q⟩ tmo hq
  obtain ⟨p, p1, p2, p3⟩ := a1
  have hden : Denotes k p q := Props.denotes_of_requestPdu hq p1
  have hone : 1 ≤ p.length := by obtain ⟨rest, hx⟩ := Props.denotes_head hden; rw [hx]; simp
  obtain ⟨u1, d1, d2, d3, d4, d5⟩ := client_run (env := env) (v := v) (j := j) [.chan (.submit unit ⟨k, q⟩ tmo), .chan .runTask, .complete 1 (.sent bytes.length), .run 0]
    (by simp [givesClient]) a2
  have w1 := Props.run_wreach _ h d1
  have hup : u1.sentUp j n = u1.up c ++ (frameOf ⟨unit, tid, p⟩).bytes := by
    rw [d4, hk.arrived]
    simp only [sentUp]
    rw [← (w1.ok.cli j).proj.micro.net, d2, a4, (hok.cli j).proj.micro.net, ← p3]
    simp [tcpWires, List.filterMap_append]
  obtain ⟨pdu, v', r1, r2, r3, r4, r5, r6, r7, r8, r9, r10, r11⟩ := replied w1 (by rw [d2]; exact a5) (i := i) (c := c) (by rw [d3]; exact hk.server) hk.joined hup
    (by rw [d5, hk.heard]; simp only [sentDown, d3]) (by rw [d3]; exact hl) hden ⟨hone, p2⟩ (by rw [d3]; exact hans) mem
  simp only [d3, ← p3, d2] at r1 r2 r3 r4 r5 r6 r7 r8 r9 r10 r11
  refine ⟨tid, p, pdu, bytes, (frameOf ⟨unit, tid, pdu⟩).bytes, v', p1, p3, r1, by rw [run_append, d1, CM.ret_bind, r2], r3, r4, ?_, ?_, by rw [r7, a6], by rw [r8, a7], r9, r10, r11⟩
  · rw [r5, a3, a6]; simp
  · rw [r6, a4]; simp

end World

end Modbus
