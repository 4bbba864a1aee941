import Verif.Lemmas.AsioHeard
import Verif.Lemmas.ClientRing
import Verif.Spec.Reading
import Verif.Props.ServerStack
import Verif.Props.ClientConn

/-! C130: connections are read, one read at a time. -/

namespace Modbus.Props

open Modbus.Spec

variable {W : Type}

/-- There is never more than one read into the buffer of a connection; a connection that has been accepted, and has neither failed nor been
closed, always has one; an established connection of a client has one. -/
def C130_Statement : Prop :=
  (∀ max v, AsvReach max anyAsv v → ∀ c, asvReads v c ≤ 1 ∧
    (AEv.joined c ∈ v.log → AEv.error c ∉ v.log → AEv.closed c ∉ v.log → asvReads v c = 1)) ∧
  ∀ v, TcpReach anyTcp v → tcpReadsFlying v ≤ 1 ∧ (v.isShutdown = false → v.status = .connected → 1 ≤ tcpReadsFlying v + tcpReadsQueued v)

/-- A connection breaks with a read and a write in progress, so that it is closed twice; requests made after each close start an attempt, and the two
attempts overlap. -/
def twoAttempts : List Tcp.Op :=
  [.send [1] .ok, .complete 0 .ok, .run 0, .complete 0 .ok, .run 0, .complete 0 .error, .complete 0 .error, .run 0, .run 0, .run 0,
   .send [2] .ok, .run 0, .send [3] .ok, .complete 0 .ok, .run 0, .complete 0 .ok, .complete 0 .ok, .run 0, .run 0, .complete 0 .ok, .run 0]

/-- C130 does not hold for clients: when attempts to connect overlap, two reads into the same buffer are in progress at the same time. -/
theorem C130_violated : ¬C130_Statement := by
  intro h
  obtain ⟨v, hr, hq⟩ := any_demo twoAttempts (fun v => tcpReadsFlying v == 2 && !v.isShutdown && v.status == .connected) (by decide +kernel)
  have := (h.2 v hr).1
  simp only [Bool.and_eq_true, beq_iff_eq] at hq
  omega

theorem asvReads_rd (v : Asv) (c : Nat) : asvReads v c = v.rd c := by
  simp only [asvReads, Asv.rd, List.count, List.countP_eq_length_filter]
  congr 2
  · refine List.filter_congr fun o _ => ?_
    cases o with
    | accept x => rfl
    | read x =>
      by_cases hx : x = c
      · subst hx; simp
      · simp [hx]
    | write x b d => rfl

/-- C130 (part). In all histories of a server, every connection has at most one read into its buffer in progress or waiting to be dealt with; and a connection
that has been accepted and has neither failed nor been closed has exactly one, and its socket is open.
Missing from C130: clients (`C130_client_partial`). -/
theorem C130_server_partial (max : UInt32) (v : Asv) (h : AsvReach max anyAsv v) (c : Nat) :
    asvReads v c ≤ 1 ∧
    (AEv.joined c ∈ v.log → AEv.error c ∉ v.log → AEv.closed c ∉ v.log → asvReads v c = 1 ∧ (v.conns c).isOpen = true) := by
  rw [asvReads_rd]
  refine ⟨(h.heard c).one, fun hj he hc => ?_⟩
  obtain ⟨-, h2, h3⟩ := (h.heard c).live hj he hc
  exact ⟨h3, h2⟩

/- Two clients; of one, half a frame has arrived and not been dealt with. -/
example : ∃ v, AsvReach 5 anyAsv v ∧ (v.log.contains (.joined 0) && v.log.contains (.joined 1) && !v.log.contains (.error 0) && !v.log.contains (.closed 0) &&
    v.queue == [.startAccept, .read 0 (some [1, 2])] && v.flying == [.read 1]) = true :=
  asv_any 5 [.start, .run 0 [], .complete 0 .ok, .run 0 [], .run 0 [], .complete 1 .ok, .run 0 [], .complete 0 (.data [1, 2])] _ (by decide +kernel)

/-- C130 (part). If a client starts every attempt to connect only after everything about earlier connections is over, and neither its local socket nor the
resolving of the address fails: at most one read is in progress or waiting to be dealt with, and as long as it is connected there is exactly one, unless the
connection is about to be closed.
Missing from C130: attempts that overlap (then it does not hold), and the failures. -/
theorem C130_client_partial (v : Tcp) (h : TcpReach (fun v op => FreshStarts v op ∧ NoLocalFailure v op) v) :
    tcpReadsFlying v + tcpReadsQueued v ≤ 1 ∧
    (v.isShutdown = false → v.status = .connected → tcpReadsFlying v + tcpReadsQueued v = 1 ∨ ∃ c, TTask.close c ∈ v.queue) := by
  have hr := h.ring fun _ _ hp => hp.1
  have hle : tcpReadsFlying v + tcpReadsQueued v ≤ v.ring := by
    simp only [tcpReadsFlying, tcpReadsQueued, Tcp.ring, ← List.countP_eq_length_filter]
    refine Nat.add_le_add (List.countP_mono_left fun o _ ho => ?_) (List.countP_mono_left fun t _ ht => ?_)
    · cases o <;> simp_all [Tcp.ringOp]
    · cases t <;> simp_all [Tcp.ringTask]
  refine ⟨Nat.le_trans hle hr, fun hd hst => ?_⟩
  have hl := (h.live (fun _ _ hp => hp.2)).resolve_left (by simp [hd])
  rcases hl.connected hst with ⟨c, hc⟩ | ⟨c, r, hc⟩ | ⟨c, hc⟩
  · have : 0 < tcpReadsFlying v := List.length_pos_of_mem (List.mem_filter.2 ⟨hc, rfl⟩)
    exact Or.inl (by omega)
  · have : 0 < tcpReadsQueued v := List.length_pos_of_mem (List.mem_filter.2 ⟨hc, rfl⟩)
    exact Or.inl (by omega)
  · exact Or.inr ⟨c, hc⟩

/-- Both restrictions. -/
def freshLocalChk (v : Tcp) (op : Tcp.Op) : Bool := freshChk v op && localChk v op

/- The second connection of a client, being read. -/
example : ∃ v, TcpReach (fun v op => FreshStarts v op ∧ NoLocalFailure v op) v ∧ (!v.isShutdown && v.status == .connected && v.flying == [.read 2] && v.queue == []) = true :=
  chk_demo (chk := freshLocalChk) (fun v op h => by
    simp only [freshLocalChk, Bool.and_eq_true] at h
    exact ⟨freshChk_spec v op h.1, localChk_spec v op h.2⟩) twoConnections _ (by decide +kernel)

/-- C130 (part), and C98 without looking inside: on a connection that has been accepted, that has neither failed nor been closed, and whose data have all been
dealt with (whole frames so far, not ending with one of length 1), a well-formed request for a registered unit that arrives is handed to its session, once, and
answered on this connection, on which the server then goes on reading. -/
theorem C130_request_answered_partial (env : ServerEnv W) (w : W) (max : UInt32) (v : Svk W) (h : VReach env w max v) (c : Nat) (hj : AEv.joined c ∈ cnLog v.log)
    (herr : AEv.error c ∉ cnLog v.log) (hcl : AEv.closed c ∉ cnLog v.log) (hq : ∀ d, ATask.read c d ∉ v.asv.queue)
    (fs : List Frame) (hsp : Splits (asvReceived c (cnLog v.log)).flatten fs []) (hl : ∀ f, fs.getLast? = some f → f.len.toNat ≠ 1)
    (m : Mbap) (hm : m.data.length ≤ 253) (s : SessId) (hs : Reaches v.srv m s) (k : Kind) (r : Req k) (hd : Denotes k m.data r) (resp : Resp k)
    (hresp : (env.onRequest s k r v.srv.world).2 = .ok resp) (p : List UInt8) (hp : ResponsePdu k resp p) (hlen : p.length ≤ 253) (mem : Vector UInt8 260) :
    ∃ i v', v.asv.flying[i]? = some (.read c) ∧ v.run env [.complete i (.data (frameOf m).bytes), .run v.asv.queue.length mem,
        .complete (v.asv.flying.length - 1) (.sent (frameOf ⟨m.unit, m.tid, p⟩).bytes.length)] = .ret v' ∧
      svLog v'.log = svLog v.log ++ [.mbap c m, .request s k r, .send c (frameOf ⟨m.unit, m.tid, p⟩).bytes] ∧
      (∀ c', asvWires c' (cnLog v'.log) = asvWires c' (cnLog v.log) ++ if c' = c then [(frameOf ⟨m.unit, m.tid, p⟩).bytes] else []) ∧ AOp.read c ∈ v'.asv.flying := by
  have hok := h.ok
  have hh := hok.asv.heard c
  rw [hok.cnl] at hj hcl
  obtain ⟨-, -, h1⟩ := hh.live hj (by rw [← hok.cnl]; exact herr) hcl
  have h0 : v.asv.queue.countP (Asv.isReadOf c) = 0 := by
    rw [List.countP_eq_zero]
    intro t ht hr
    cases t <;> simp [Asv.isReadOf] at hr
    subst hr
    exact hq _ ht
  have hf : AOp.read c ∈ v.asv.flying := by
    simp only [Asv.rd, h0, Nat.add_zero] at h1
    exact List.count_pos_iff.1 (by omega)
  obtain ⟨i, hi⟩ := List.getElem?_of_mem hf
  obtain ⟨v', a1, a2, a3, a4⟩ := C98_answered env w max v h i c hi herr fs hsp hl m hm s hs k r hd resp hresp p hp hlen mem
  exact ⟨i, v', hi, a1, a2, a3, a4⟩

/- A client that has been answered before, with nothing of it pending; another client has connected. -/
example : ∃ v, VReach (demo 0) 0 5 v ∧ (decide (AEv.joined 0 ∈ cnLog v.log) && decide (AEv.error 0 ∉ cnLog v.log) && decide (AEv.closed 0 ∉ cnLog v.log) &&
    (asvReceived 0 (cnLog v.log) == [vread]) && v.asv.queue == [.read 1 none] && v.srv.isShutdown == false && v.srv.sessions.lookup 1 == some 0) = true :=
  any_vdemo (ops := vconnected ++ [.complete 1 .ok, vrun, .complete 0 (.data vread), .run 1 vmem, .complete 1 (.sent 13), .run 1 vmem, vrun, .complete 0 .error]) (by decide +kernel)

end Modbus.Props
