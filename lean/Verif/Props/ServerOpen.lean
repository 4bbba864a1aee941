import Verif.Lemmas.ServerOpen

/-! C133: a started server serves whoever connects.  C97: a call of `shutdown` stops that. -/

namespace Modbus.Props

open Modbus.Spec Modbus.Svk

variable {W : Type}

/-- A started server that is not shut down is accepting connections. -/
def C133_Statement : Prop := ∀ (W : Type) (env : ServerEnv W) w max ops v, (Svk.init w max).run env ops = .ret v → VStarted ops → Svk.Op.chan .shutdown ∉ ops →
  Accepting v.asv

/-- Runs a history and says what has become of the server. -/
def vfinal (max : UInt32) (ops : List Svk.Op) (Q : Svk Nat → Bool) : Bool :=
  match (Svk.init 0 max).run (demo 0) ops with
  | .ub => false
  | .ret v => Q v

theorem vfinal_run {max : UInt32} {ops : List Svk.Op} {Q : Svk Nat → Bool} (h : vfinal max ops Q = true) :
    ∃ v, (Svk.init 0 max).run (demo 0) ops = .ret v ∧ Q v = true := by
  unfold vfinal at h
  cases hr : (Svk.init 0 max).run (demo 0) ops with
  | ub => rw [hr] at h; cases h
  | ret v => rw [hr] at h; exact ⟨v, rfl, h⟩

/-- C133 does not hold: one failing accept (no file descriptor left, say) and nobody can connect any more. -/
theorem C133_violated : ¬C133_Statement := by
  intro h
  obtain ⟨v, h1, h2⟩ := vfinal_run (max := 5) (ops := [.chan .start, .chan .runTask, vrun, .complete 0 .error, vrun, vrun])
    (Q := fun v => v.asv.flying == [] && v.asv.queue == []) (by decide +kernel)
  simp only [Bool.and_eq_true, beq_iff_eq] at h2
  rcases h _ _ _ _ _ v h1 ⟨[], _, rfl, by decide⟩ (by simp [vrun]) with ⟨c, hm⟩ | ⟨c, ok, hm⟩ | hm
  · rw [h2.1] at hm; cases hm
  · rw [h2.2] at hm; cases hm
  · rw [h2.2] at hm; cases hm

/-- C133 (part): as long as accepting does not fail, a started server that is not shut down accepts connections: whatever has been called
and whatever clients have done. -/
theorem C133_accepting_partial (env : ServerEnv W) (w : W) (max : UInt32) (ops : List Svk.Op) (v : Svk W) (h : (Svk.init w max).run env ops = .ret v)
    (hs : VStarted ops) (hn : Svk.Op.chan .shutdown ∉ ops) (he : VThroughout NoAcceptError v) : Accepting v.asv := by
  have hr := run_reach ops (w := w) (max := max) .init h
  obtain ⟨-, hd⟩ := run_stays_up h hn
  obtain ⟨pre, post, rfl, hc⟩ := hs
  obtain ⟨s1, s2, k1, k2, k3, k4, k5⟩ := run_around (o := .start) rfl h
  have hb := C70_started env w s1 s2 v.srv (fun hm => hn (by simp [(k4 .shutdown rfl).1 hm])) (fun hm => hn (by simp [(k5 .shutdown rfl).1 hm])) (by omega) k1
  exact C70_accepting_partial max v.asv (hr.ok.asv.mono fun a op hx => he _ hx) (hr.begun hb) hd

/-- C133 (part): started once, it gets, by running its tasks, to where it waits for the next client. -/
theorem C133_ready_partial (env : ServerEnv W) (w : W) (max : UInt32) (hmax : max.toNat < 4294967295) (ops : List Svk.Op) (v : Svk W)
    (h : (Svk.init w max).run env ops = .ret v) (hs : VStarted ops) (hn : Svk.Op.chan .shutdown ∉ ops)
    (he : VThroughout (fun a op => SingleStart a op ∧ NoAcceptError a op) v) (mem : Vector UInt8 260) :
    ∃ n v' c, v.run env (List.replicate n (.run 0 mem)) = .ret v' ∧ AOp.accept c ∈ v'.asv.flying := by
  have hr := run_reach ops (w := w) (max := max) .init h
  obtain ⟨hd, hd'⟩ := run_stays_up h hn
  have h1 : VThroughout SingleStart v := fun x hx => (he x hx).1
  rcases C133_accepting_partial env w max ops v h hs hn fun x hx => (he x hx).2 with ⟨c, hm⟩ | ⟨c, ok, hm⟩ | hm
  · exact ⟨0, v, c, rfl, hm⟩
  · cases ok with
    | true => exact gets_ready_again hmax mem hr h1 hd hm
    | false =>
      exfalso
      have h0 := ((hr.ok.asv.mono (Q := NoAcceptError) fun a op hx => (he _ hx).2).loop hd').2
      have : 0 < v.asv.queue.countP Asv.isAccFail := List.countP_pos_iff.2 ⟨_, hm, rfl⟩
      simp only [Asv.fails] at h0
      omega
  · exact gets_ready hmax mem hr h1 hd hm

/-- C133 (part): a client that connects to a server which has not been shut down is served: its connection is read as soon as the accept's
handler has run, and whatever happens elsewhere from then on (other clients, calls of the API), its first request, if it is for a unit for
which a session has been added by then, is given to that session, once and exactly as sent, and exactly the frame of the session's answer
goes out on its connection.  Missing from C133: starting more than once, a limit of 2^32-1. -/
theorem C133_client_served_partial (env : ServerEnv W) (w : W) (max : UInt32) (hmax : max.toNat < 4294967295) (ops : List Svk.Op) (v : Svk W)
    (h : (Svk.init w max).run env ops = .ret v) (hst : VThroughout SingleStart v) (hn : Svk.Op.chan .shutdown ∉ ops) (i c : Nat)
    (hf : v.asv.flying[i]? = some (.accept c)) (mem : Vector UInt8 260) :
    ∃ v2, v.run env [.complete i .ok, .run v.asv.queue.length mem] = .ret v2 ∧ AEv.joined c ∈ cnLog v2.log ∧
      ∀ more v3, Elsewhere env c v2 more → Svk.Op.chan .shutdown ∉ more → v2.run env more = .ret v3 →
        ∀ (m : Mbap) (s : SessId), VAdded m.unit s (ops ++ .complete i .ok :: .run v.asv.queue.length mem :: more) → m.data.length ≤ 253 → ∀ (k : Kind) (r : Req k), Denotes k m.data r →
        ∀ resp, (env.onRequest s k r v3.srv.world).2 = .ok resp → ∀ p, ResponsePdu k resp p → p.length ≤ 253 →
        ∃ j, v3.asv.flying[j]? = some (.read c) ∧ ∃ v4, v3.run env [.complete j (.data (frameOf m).bytes), .run v3.asv.queue.length mem,
            .complete (v3.asv.flying.length - 1) (.sent (frameOf ⟨m.unit, m.tid, p⟩).bytes.length)] = .ret v4 ∧
          svLog v4.log = svLog v3.log ++ [.mbap c m, .request s k r, .send c (frameOf ⟨m.unit, m.tid, p⟩).bytes] ∧
          (∀ c', asvWires c' (cnLog v4.log) = asvWires c' (cnLog v3.log) ++ if c' = c then [(frameOf ⟨m.unit, m.tid, p⟩).bytes] else []) := by
  have hr := run_reach ops (w := w) (max := max) .init h
  obtain ⟨-, hd⟩ := run_stays_up h hn
  obtain ⟨v2, a1, a2, a3, -⟩ := accepts_any hmax hr hst hd hf mem
  have r2 := run_reach _ hr a1
  refine ⟨v2, a1, by rw [r2.ok.cnl]; exact a3, ?_⟩
  intro more v3 hel hns h3 m s hadd hlen k r hden resp hresp p hp hpl
  have r3 := run_reach _ r2 h3
  have hfr := a2.elsewhere more r2 hel h3
  obtain ⟨j, hj⟩ := List.getElem?_of_mem hfr.reading
  have hall : (Svk.init w max).run env (ops ++ .complete i .ok :: .run v.asv.queue.length mem :: more) = .ret v3 := by
    rw [Svk.run_append, h]
    show v.run env ([.complete i .ok, .run v.asv.queue.length mem] ++ more) = .ret v3
    rw [Svk.run_append, a1]; exact h3
  have hup : Svk.Op.chan .shutdown ∉ ops ++ .complete i .ok :: .run v.asv.queue.length mem :: more := by simp [hn, hns]
  obtain ⟨pre, post, e, hu, hc⟩ := hadd
  rw [e] at hall hup
  obtain ⟨s1, s2, k1, k2, k3, k4, k5⟩ := run_around (o := .addSession m.unit s) rfl hall
  obtain ⟨g1, -, g3⟩ := Srv.registered (fun s' hm => hu s' ((k4 _ rfl).1 hm)) (fun hm => hup (by simp [(k4 .shutdown rfl).1 hm]))
    (fun hm => hup (by simp [(k5 .shutdown rfl).1 hm])) (by omega) k1
  obtain ⟨v4, b1, b2, b3, -⟩ := C98_answered env w max v3 r3 j c hj (by rw [r3.ok.cnl]; exact hfr.noError) [] (by rw [r3.ok.cnl, hfr.nothing]; exact splits_streamOf (fs := []) (by simp))
    (by simp) m hlen s ⟨g1, g3⟩ k r hden resp hresp p hp hpl mem
  exact ⟨j, hj, v4, b1, b2, b3⟩

/-! A server is started, two clients connect, one of them is answered; then there is an accept to complete (hypotheses of all three). -/

def vopen : List Svk.Op := vconnected ++ [.complete 1 .ok, vrun, .complete 0 (.data vread), .run 1 vmem, .complete 1 (.sent 13), .run 1 vmem, vrun]

def openChk (v : Asv) (op : Asv.Op) : Bool := singleChk v op && noErrChk v op

example : ∃ v, (Svk.init 0 5).run (demo 0) vopen = .ret v ∧ VThroughout (fun a op => SingleStart a op ∧ NoAcceptError a op) v ∧
    v.asv.flying[2]? = some (.accept 2) ∧ VStarted vopen ∧ Svk.Op.chan .shutdown ∉ vopen ∧ VAdded 1 0 vopen := by
  obtain ⟨v, h1, h2⟩ := vfinal_run (max := 5) (ops := vopen) (Q := fun v => v.steps.all (fun x => openChk x.1 x.2) && (v.asv.flying[2]? == some (.accept 2))) (by decide +kernel)
  simp only [Bool.and_eq_true, beq_iff_eq, List.all_eq_true, openChk] at h2
  exact ⟨v, h1, fun x hx => ⟨singleChk_spec _ _ (h2.1 x hx).1, noErrChk_spec _ _ (h2.1 x hx).2⟩, h2.2, ⟨[], _, rfl, by decide⟩, by simp [vopen, vconnected, vrun],
    ⟨[.chan .start], _, rfl, by simp, by decide⟩⟩

/- While the new client is idle the first one asks again, is answered, and another session is added. -/
example : ∃ v2, (Svk.init 0 5).run (demo 0) (vopen ++ [.complete 2 .ok, .run 0 vmem]) = .ret v2 ∧
    Elsewhere (demo 0) 2 v2 [.complete 1 (.data vread), .chan (.addSession 7 3), .chan .runTask] := by
  obtain ⟨v, h1, h2⟩ := vfinal_run (max := 5) (ops := vopen ++ [.complete 2 .ok, .run 0 vmem]) (Q := fun v => v.asv.flying[1]? == some (.read 0)) (by decide +kernel)
  simp only [beq_iff_eq] at h2
  exact ⟨v, h1, by simp [Concerns, h2], fun u _ => ⟨fun h => h, fun _ _ => ⟨fun h => h, fun _ _ => trivial⟩⟩⟩

/-! ### C97: a call of `shutdown` takes effect -/

/-- C97, with the calls made: once `shutdown` has been called and the strand has run as many tasks as calls had been made before, and one more, no session is called and
nothing is answered whatever still happens. -/
theorem C97_shutdown_takes_effect (env : ServerEnv W) (w : W) (max : UInt32) (pre post ops : List Svk.Op) (v v' : Svk W)
    (h : (Svk.init w max).run env (pre ++ .chan .shutdown :: post) = .ret v) (hc : pre.countP vCall < post.countP vRun) (h' : v.run env ops = .ret v') :
    v'.srv.world = v.srv.world ∧ ∃ new, v'.log = v.log ++ new ∧
      ∀ e ∈ new, (∀ s k r, e ≠ .ch (.request s k r)) ∧ (∀ c d, e ≠ .ch (.send c d)) ∧ ∀ c d, e ≠ .net (.asked c d) := by
  obtain ⟨s1, s2, k1, k2, k3, -⟩ := run_around (o := .shutdown) rfl h
  exact (C97_nothing_served env w max v (run_reach _ (w := w) (max := max) .init h) (Srv.shutdown_carried_out (by omega) k1) ops v' h').2

/-- C97 (part), with the calls made: if the server was started, once, before `shutdown` was called, and the strand has run as many tasks as calls had been made before the
`shutdown`, and one more, then running what is queued closes every connection and no operation is left in progress. -/
theorem C97_shutdown_closes_partial (env : ServerEnv W) (w : W) (max : UInt32) (hmax : max.toNat < 4294967295) (pre post : List Svk.Op) (v : Svk W)
    (h : (Svk.init w max).run env (pre ++ .chan .shutdown :: post) = .ret v) (hn : Svk.Op.chan .shutdown ∉ pre) (hs : Svk.Op.chan .start ∈ pre)
    (hc : pre.countP vCall < post.countP vRun) (hst : VThroughout SingleStart v) (mem : Vector UInt8 260) :
    ∃ n v', v.run env (List.replicate n (.run 0 mem)) = .ret v' ∧ v'.asv.queue = [] ∧ v'.asv.flying = [] ∧ ∀ c, (v'.asv.conns c).isOpen = false := by
  have hr := run_reach _ (w := w) (max := max) .init h
  obtain ⟨s1, s2, k1, k2, k3, k4, -⟩ := run_around (o := .shutdown) rfl h
  obtain ⟨a, b, hab⟩ := List.append_of_mem ((k4 .start rfl).2 hs)
  have hm : SEv.serverShutdown ∈ v.srv.log := by
    rw [hab] at k1 k2
    have := (C31_server_told env w a b s2 v.srv (fun hm => hn ((k4 .shutdown rfl).1 (by rw [hab]; simp [hm]))) (by omega) k1).1
    exact List.count_pos_iff.1 (by omega)
  exact (C97_all_closed_partial env w max hmax v hr hst (by rw [hr.ok.svl]; exact hm) mem).2

/- The server of `vopen` (two clients, one answered, a third accept pending) is shut down; a request that arrives afterwards is not answered. -/
example : ∃ v v', (Svk.init 0 5).run (demo 0) (vopen ++ .chan .shutdown :: List.replicate 4 (.chan .runTask)) = .ret v ∧ VThroughout SingleStart v ∧
    vopen.countP vCall < (List.replicate 4 (Svk.Op.chan .runTask)).countP vRun ∧ Svk.Op.chan .start ∈ vopen ∧ Svk.Op.chan .shutdown ∉ vopen ∧
    v.asv.flying.length = 3 ∧ v.run (demo 0) [.complete 1 (.data vread), .run 1 vmem] = .ret v' ∧ (VEv.net (.receive 0 vread)) ∈ v'.log := by
  obtain ⟨v', h1, h2⟩ := vfinal_run (max := 5) (ops := (vopen ++ .chan .shutdown :: List.replicate 4 (.chan .runTask)) ++ [.complete 1 (.data vread), .run 1 vmem])
    (Q := fun v => v.log.contains (VEv.net (.receive 0 vread))) (by decide +kernel)
  obtain ⟨v, h3, h4⟩ := vfinal_run (max := 5) (ops := vopen ++ .chan .shutdown :: List.replicate 4 (.chan .runTask))
    (Q := fun v => v.steps.all (fun x => singleChk x.1 x.2) && v.asv.flying.length == 3) (by decide +kernel)
  simp only [Bool.and_eq_true, beq_iff_eq, List.all_eq_true, List.contains_iff_mem] at h4 h2
  rw [Svk.run_append, h3] at h1
  exact ⟨v, v', h3, fun x hx => singleChk_spec _ _ (h4.1 x hx), by decide, by simp [vopen, vconnected], by simp [vopen, vconnected, vrun], h4.2, h1, h2⟩
end Modbus.Props
