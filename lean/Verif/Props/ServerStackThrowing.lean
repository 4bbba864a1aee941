import Verif.Lemmas.ServerStackHeard
import Verif.Props.ServerThrowing
import Verif.Props.Reading

/-! C138: what an exception of a session does to the connections of the server. -/

namespace Modbus.Props

open Modbus.Spec Modbus.Asv

variable {W : Type}

/-! ### Concrete histories -/

/-- Runs a history of a server whose sessions throw as `th` says, checks every step of the connections without exception, and looks at the result. -/
def tdemo (th : SThrows Nat) (chk : Asv → Asv.Op → Bool) (max : UInt32) (ops : List Svk.Op) (Q : SvkT Nat → Bool) : Bool :=
  match (SvkT.init 0 max).run (demo 0) th ops with
  | .ub => false
  | .ret v => v.steps.all (fun x => match x.2 with | .op o => chk x.1.asv o | .throws _ _ => true) && Q v

theorem vtReach_run {env : ServerEnv W} {th : SThrows W} {w : W} {max : UInt32} (ops : List Svk.Op) : ∀ {v v' : SvkT W}, VTReach env th w max v → v.run env th ops = .ret v' →
    VTReach env th w max v' := by
  induction ops with
  | nil => intro v v' h hs; injection hs with hs; subst hs; exact h
  | cons op ops ih =>
    intro v v' h hs
    simp only [SvkT.run] at hs
    obtain ⟨u, h1, h2⟩ := CM.bind_eq_ret.1 hs
    exact ih (h.step h1) h2

theorem tdemo_run {th : SThrows Nat} {chk : Asv → Asv.Op → Bool} {P : Asv → Asv.Op → Prop} (hc : ∀ v op, chk v op = true → P v op) {max : UInt32} {ops : List Svk.Op}
    {Q : SvkT Nat → Bool} (h : tdemo th chk max ops Q = true) : ∃ v, VTReach (demo 0) th 0 max v ∧ VTThroughout P v ∧ Q v = true := by
  unfold tdemo at h
  cases hr : (SvkT.init 0 max).run (demo 0) th ops with
  | ub => rw [hr] at h; cases h
  | ret v =>
    rw [hr] at h
    simp only [Bool.and_eq_true, List.all_eq_true] at h
    refine ⟨v, vtReach_run ops .init hr, fun x hx o ho => hc _ _ ?_, h.2⟩
    have := h.1 x hx
    rw [ho] at this
    exact this

theorem any_tdemo {th : SThrows Nat} {max : UInt32} {ops : List Svk.Op} {Q : SvkT Nat → Bool} (h : tdemo th (fun _ _ => true) max ops Q = true) :
    ∃ v, VTReach (demo 0) th 0 max v ∧ Q v = true := by
  obtain ⟨v, h1, -, h2⟩ := tdemo_run (P := fun _ _ => True) (fun _ _ _ => trivial) h
  exact ⟨v, h1, h2⟩

/-- Started once, and accepting never fails. -/
def steadyChk (v : Asv) (op : Asv.Op) : Bool := singleChk v op && noErrChk v op

theorem steadyChk_spec (v : Asv) (op : Asv.Op) (h : steadyChk v op = true) : SingleStart v op ∧ NoAcceptError v op := by
  simp only [steadyChk, Bool.and_eq_true] at h
  exact ⟨singleChk_spec v op h.1, noErrChk_spec v op h.2⟩

/-- Two clients are connected.  The first has been answered; the second has written a coil, for which session 0 throws (with `touchy`). -/
def oneDead : List Svk.Op :=
  vconnected ++ [.complete 1 .ok, vrun, vrun, .complete 0 (.data vread), vrun, .complete 2 (.sent 13), vrun, .complete 0 (.data vwrite), vrun]

/-! ### What is lost -/

/-- What one would like: whatever sessions throw, a connection the server has accepted, that has neither failed nor been closed, is being read. -/
def C138_Statement : Prop := ∀ (W : Type) (env : ServerEnv W) (th : SThrows W) (w : W) (max : UInt32) (v : SvkT W), VTReach env th w max v →
  ∀ c, AEv.joined c ∈ v.net.asv.log → AEv.error c ∉ v.net.asv.log → AEv.closed c ∉ v.net.asv.log → asvReads v.net.asv c = 1

/-- C138 does not hold: after an exception nobody reads the connection. -/
theorem C138_violated : ¬C138_Statement := by
  intro h
  obtain ⟨v, hv, hq⟩ := any_tdemo (th := touchy) (max := 5) (ops := oneDead) (Q := fun v => decide (AEv.joined 1 ∈ v.net.asv.log ∧ AEv.error 1 ∉ v.net.asv.log ∧
    AEv.closed 1 ∉ v.net.asv.log ∧ asvReads v.net.asv 1 = 0)) (by decide +kernel)
  simp only [decide_eq_true_eq] at hq
  have := h _ _ _ _ _ v hv 1 hq.1 hq.2.1 hq.2.2.1
  omega

/-- C138, consequence: a connection that is not read takes a place for ever.  Limit 2: the second client has made a session throw, and has disconnected since, which the server cannot
notice; when a third client connects, the first one, which is being served, is closed. -/
theorem C138_served_client_evicted : ∃ v v', VTReach (demo 0) touchy 0 2 v ∧ VTThroughout (fun a o => SingleStart a o ∧ NoAcceptError a o) v ∧
    kept v.net.asv.log = [0, 1] ∧ 1 ∈ v.srv.deaf ∧ asvReads v.net.asv 0 = 1 ∧ AOp.read 1 ∉ v.net.asv.flying ∧
    v.run (demo 0) touchy [.complete 0 .ok, vrun, vrun] = .ret v' ∧ kept v'.net.asv.log = [1, 2] ∧ AEv.closed 0 ∈ v'.net.asv.log := by
  have h : tdemo touchy steadyChk 2 oneDead (fun v => decide (kept v.net.asv.log = [0, 1] ∧ 1 ∈ v.srv.deaf ∧ asvReads v.net.asv 0 = 1 ∧ AOp.read 1 ∉ v.net.asv.flying) &&
    sees (v.run (demo 0) touchy [.complete 0 .ok, vrun, vrun]) (fun v' => decide (kept v'.net.asv.log = [1, 2] ∧ AEv.closed 0 ∈ v'.net.asv.log))) = true := by decide +kernel
  obtain ⟨v, h1, h2, h3⟩ := tdemo_run steadyChk_spec h
  simp only [Bool.and_eq_true, decide_eq_true_eq] at h3
  obtain ⟨⟨a1, a2, a3, a4⟩, h3⟩ := h3
  cases hr : v.run (demo 0) touchy [.complete 0 .ok, vrun, vrun] with
  | ub => rw [hr] at h3; cases h3
  | ret v' =>
    rw [hr] at h3
    simp only [sees, decide_eq_true_eq] at h3
    exact ⟨v, v', h1, h2, a1, a2, a3, a4, hr, h3.1, h3.2⟩

/-! ### What an exception does -/

theorem svkt_net_act {v v' : SvkT W} {o : Asv.Op} (hs : v.act o = .ret v') : ∃ ops, v.net.run ops = .ret v'.net := by
  simp only [SvkT.act] at hs
  obtain ⟨n, h1, hs⟩ := CM.bind_eq_ret.1 hs
  injection hs with hs; subst hs
  exact ⟨[.op o], by simp only [AsvT.run, h1, CM.ret_bind]⟩

theorem asvt_run_append (a b : List AsvT.Op) : ∀ {t u x : AsvT}, t.run a = .ret u → u.run b = .ret x → t.run (a ++ b) = .ret x := by
  induction a with
  | nil => intro t u x h1 h2; injection h1 with h1; subst h1; exact h2
  | cons op a ih =>
    intro t u x h1 h2
    simp only [AsvT.run] at h1
    obtain ⟨y, h3, h4⟩ := CM.bind_eq_ret.1 h1
    simp only [List.cons_append, AsvT.run, h3, CM.ret_bind]
    exact ih h4 h2

theorem svkt_net_relay (es : List SEv) : ∀ {v v' : SvkT W}, v.relay es = .ret v' → ∃ ops, v.net.run ops = .ret v'.net := by
  induction es with
  | nil => intro v v' hs; injection hs with hs; subst hs; exact ⟨[], rfl⟩
  | cons e es ih =>
    intro v v' hs
    simp only [SvkT.relay] at hs
    obtain ⟨u, h1, h2⟩ := CM.bind_eq_ret.1 hs
    obtain ⟨b, hb⟩ := ih h2
    have : ∃ a, v.net.run a = .ret u.net := by
      cases e with
      | serverStart => exact svkt_net_act h1
      | serverShutdown => exact svkt_net_act h1
      | _ => injection h1 with h1; subst h1; exact ⟨[], rfl⟩
    obtain ⟨a, ha⟩ := this
    exact ⟨a ++ b, asvt_run_append a b ha hb⟩

theorem svkt_net_chan {env : ServerEnv W} {th : SThrows W} {v v' : SvkT W} {op : Srv.Op} (hs : v.chan env th op = .ret v') : ∃ ops, v.net.run ops = .ret v'.net := by
  simp only [SvkT.chan] at hs
  obtain ⟨s, -, hs⟩ := CM.bind_eq_ret.1 hs
  exact svkt_net_relay (v := { v with srv := s }) _ hs

theorem svkt_net_step {env : ServerEnv W} {th : SThrows W} {v v' : SvkT W} {op : Svk.Op} (hs : v.step env th op = .ret v') : ∃ ops, v.net.run ops = .ret v'.net := by
  have two : ∀ {o : Asv.Op} {op : Srv.Op} {u x : SvkT W}, v.act o = .ret u → u.chan env th op = .ret x → ∃ ops, v.net.run ops = .ret x.net := by
    intro o op u x h1 h2
    obtain ⟨a, ha⟩ := svkt_net_act h1
    obtain ⟨b, hb⟩ := svkt_net_chan h2
    exact ⟨a ++ b, asvt_run_append a b ha hb⟩
  cases op with
  | chan op =>
    simp only [SvkT.step] at hs
    split at hs
    · exact svkt_net_chan hs
    · injection hs with hs; subst hs; exact ⟨[], rfl⟩
  | complete i r => exact svkt_net_act hs
  | run k mem =>
    simp only [SvkT.step] at hs
    split at hs
    · obtain ⟨u, h1, hs⟩ := CM.bind_eq_ret.1 hs
      split at hs
      · injection hs with hs; subst hs; exact svkt_net_act h1
      · exact two h1 hs
    · simp only [SvkT.receive] at hs
      obtain ⟨s, -, hs⟩ := CM.bind_eq_ret.1 hs
      obtain ⟨n, h4, hs⟩ := CM.bind_eq_ret.1 hs
      injection hs with hs; subst hs
      have : ∀ o, v.net.step o = .ret n → v.net.run [o] = .ret n := by
        intro o ho
        simp only [AsvT.run, ho, CM.ret_bind]
      exact ⟨_, this _ h4⟩
    · obtain ⟨u, h1, hs⟩ := CM.bind_eq_ret.1 hs
      exact two h1 hs
    · obtain ⟨u, h1, hs⟩ := CM.bind_eq_ret.1 hs
      exact two h1 hs
    · exact svkt_net_act hs

theorem svkt_net_run {env : ServerEnv W} {th : SThrows W} (ops : List Svk.Op) : ∀ {v v' : SvkT W}, v.run env th ops = .ret v' → ∃ ops, v.net.run ops = .ret v'.net := by
  induction ops with
  | nil => intro v v' hs; injection hs with hs; subst hs; exact ⟨[], rfl⟩
  | cons op ops ih =>
    intro v v' hs
    simp only [SvkT.run] at hs
    obtain ⟨u, h1, h2⟩ := CM.bind_eq_ret.1 hs
    obtain ⟨a, ha⟩ := svkt_net_step h1
    obtain ⟨b, hb⟩ := ih h2
    exact ⟨a ++ b, asvt_run_append a b ha hb⟩

/-- C138, what an exception does: after a session has thrown for data received on a connection, the connection is never read again, whatever happens: nothing is received on it, nothing
is answered; and unless an answer is still being written, no error of it is ever noticed. -/
theorem C138_never_read_again (env : ServerEnv W) (th : SThrows W) (w : W) (max : UInt32) (v : SvkT W) (h : VTReach env th w max v) (c : Nat) (hc : c ∈ v.srv.deaf)
    (ops : List Svk.Op) (v' : SvkT W) (hs : v.run env th ops = .ret v') :
    asvReads v'.net.asv c = 0 ∧ asvReceived c v'.net.asv.log = asvReceived c v.net.asv.log ∧ asvAsked c v'.net.asv.log = asvAsked c v.net.asv.log ∧
    (¬AWriteBusy v.net.asv c → v'.net.asv.log.count (.error c) = v.net.asv.log.count (.error c)) := by
  have hst := h.ok.net.stuck c ((h.ok.deaf c).1 hc)
  obtain ⟨nops, hn⟩ := svkt_net_run ops hs
  obtain ⟨h1, h2, h3, h4⟩ := AsvT.run_dead nops hst hn
  exact ⟨by rw [asvReads_rd]; exact h1.rd, h2, h3, fun hb => (h4 hb).2⟩

example : ∃ v, VTReach (demo 0) touchy 0 5 v ∧ (decide (1 ∈ v.srv.deaf ∧ asvReceived 1 v.net.asv.log = [vwrite] ∧ AEv.error 1 ∉ v.net.asv.log) &&
    v.net.asv.flying.all (fun o => match o with | .write 1 _ _ => false | _ => true) && v.net.asv.queue.all (fun o => match o with | .written 1 _ => false | _ => true)) = true :=
  any_tdemo (ops := oneDead) (by decide +kernel)

/-! ### What still holds -/

/-- C138 (part). Whatever sessions throw: a connection that has been accepted, has neither failed nor been closed, and for whose data no session has thrown is being read, and its
socket is open; and no connection is read more than once at a time.
Missing from C138: the connections for whose data a session has thrown; they are not read (`C138_never_read_again`). -/
theorem C138_others_read_partial (env : ServerEnv W) (th : SThrows W) (w : W) (max : UInt32) (v : SvkT W) (h : VTReach env th w max v) (c : Nat) :
    asvReads v.net.asv c ≤ 1 ∧ (AEv.joined c ∈ v.net.asv.log → AEv.error c ∉ v.net.asv.log → AEv.closed c ∉ v.net.asv.log → c ∉ v.srv.deaf →
      asvReads v.net.asv c = 1 ∧ (v.net.asv.conns c).isOpen = true) := by
  obtain ⟨g, G, hr, hg, hG⟩ := (h.ok.net.mono (Q := anyAsv) fun _ _ _ => trivial).gh Portable.any
  rw [asvReads_rd]
  refine ⟨Nat.le_trans (hg.rd c) (hr.heard c).one, fun hj he hc hd => ?_⟩
  have hcD : c ∉ v.net.dead := fun hm => hd ((h.ok.deaf c).2 hm)
  have hne : noErr v.net.dead (.error c) = true := by simp [noErr, hcD]
  obtain ⟨-, k2, k3⟩ := (hr.heard c).live ((hg.mem rfl).1 hj) (fun x => he ((hg.mem hne).2 x)) (fun x => hc ((hg.mem rfl).2 x))
  exact ⟨by rw [hg.rd_eq (fun hm => hcD (hG c hm))]; exact k3, by rw [hg.conns]; exact k2⟩

example : ∃ v, VTReach (demo 0) touchy 0 5 v ∧ decide (AEv.joined 0 ∈ v.net.asv.log ∧ AEv.error 0 ∉ v.net.asv.log ∧ AEv.closed 0 ∉ v.net.asv.log ∧ 0 ∉ v.srv.deaf ∧ 1 ∈ v.srv.deaf) = true :=
  any_tdemo (ops := oneDead) (by decide +kernel)

/-- The data of such a connection reach the channel, and it goes on being read unless a session throws; the channel's answers are handed to this connection. -/
theorem C138_others_heard_partial (env : ServerEnv W) (th : SThrows W) (w : W) (max : UInt32) (v : SvkT W) (h : VTReach env th w max v) (c : Nat)
    (hj : AEv.joined c ∈ v.net.asv.log) (he : AEv.error c ∉ v.net.asv.log) (hcl : AEv.closed c ∉ v.net.asv.log) (hd : c ∉ v.srv.deaf) (hq : ∀ d, ATask.read c d ∉ v.net.asv.queue)
    (bytes : List UInt8) (hb : 1 ≤ bytes.length ∧ bytes.length ≤ 4096) (mem : Vector UInt8 260) :
    ∃ i v', v.net.asv.flying[i]? = some (.read c) ∧ v.run env th [.complete i (.data bytes), .run v.net.asv.queue.length mem] = .ret v' ∧
      v.srv.step env th (.receive c bytes) = .ret v'.srv ∧
      asvReceived c v'.net.asv.log = asvReceived c v.net.asv.log ++ [bytes] ∧
      asvAsked c v'.net.asv.log = asvAsked c v.net.asv.log ++ sendsOf c (v'.srv.srv.log.drop v.srv.srv.log.length) ∧
      (c ∉ v'.srv.deaf → AOp.read c ∈ v'.net.asv.flying) := by
  obtain ⟨g, G, hr, hg, hG⟩ := (h.ok.net.mono (Q := anyAsv) fun _ _ _ => trivial).gh Portable.any
  have hcD : c ∉ v.net.dead := fun hm => hd ((h.ok.deaf c).2 hm)
  have hne : noErr v.net.dead (.error c) = true := by simp [noErr, hcD]
  obtain ⟨k1, k2, k3⟩ := (hr.heard c).live ((hg.mem rfl).1 hj) (fun x => he ((hg.mem hne).2 x)) (fun x => hcl ((hg.mem rfl).2 x))
  rw [← hg.rd_eq (fun hm => hcD (hG c hm))] at k3
  rw [← hg.conns] at k1 k2
  have h0 : v.net.asv.queue.countP (Asv.isReadOf c) = 0 := by
    rw [List.countP_eq_zero]
    intro t ht hr
    cases t <;> simp [Asv.isReadOf] at hr
    subst hr
    exact hq _ ht
  have hf : AOp.read c ∈ v.net.asv.flying := by
    simp only [Asv.rd, h0, Nat.add_zero] at k3
    exact List.count_pos_iff.1 (by omega)
  obtain ⟨i, hi⟩ := List.getElem?_of_mem hf
  obtain ⟨ops, ho, -⟩ := h.ok.srv
  obtain ⟨s, hs⟩ : ∃ s, v.srv.step env th (.receive c bytes) = .ret s := by
    cases hx : v.srv.step env th (.receive c bytes) with
    | ret s => exact ⟨s, rfl⟩
    | ub =>
      obtain ⟨z, hz⟩ := C134_defined env th w (ops ++ [.receive c bytes])
      have : ∀ (ops : List Srv.Op) (u : SrvT W), u.run env th ops = .ret v.srv → u.run env th (ops ++ [.receive c bytes]) = .ub := by
        intro ops
        induction ops with
        | nil => intro u hu; injection hu with hu; subst hu; simp only [List.nil_append, SrvT.run, hx, CM.ub_bind]
        | cons o ops ih =>
          intro u hu
          simp only [SrvT.run] at hu
          obtain ⟨y, y1, y2⟩ := CM.bind_eq_ret.1 hu
          simp only [List.cons_append, SrvT.run, y1, CM.ret_bind]
          exact ih y y2
      rw [this ops _ ho] at hz; cases hz
  have ans : ∀ l : List SEv, Svk.answers c l = sendsOf c l := by
    intro l
    induction l with
    | nil => rfl
    | cons e l ih =>
      cases e with
      | send d b =>
        by_cases hdc : d = c
        · simp [Svk.answers, sendsOf, hdc] at ih ⊢; exact ih
        · simp [Svk.answers, sendsOf, hdc] at ih ⊢; exact ih
      | _ => simpa [Svk.answers, sendsOf] using ih
  generalize hu : ({ v.net.asv with flying := v.net.asv.flying.eraseIdx i } : Asv) = rest
  have hcomp : v.net.asv.step (.complete i (.data bytes)) = .ret (rest.post (.read c (some bytes))) := by
    subst hu
    simp only [Asv.step, Asv.complete, hi, if_pos hb]
  have hqe : (rest.post (.read c (some bytes))).queue = v.net.asv.queue ++ [.read c (some bytes)] := by subst hu; rfl
  have hk : (rest.post (.read c (some bytes))).queue[v.net.asv.queue.length]? = some (.read c (some bytes)) := by rw [hqe]; simp
  have hlog : (rest.post (.read c (some bytes))).log = v.net.asv.log := by subst hu; rfl
  have hcon : (rest.post (.read c (some bytes))).conns = v.net.asv.conns := by subst hu; rfl
  generalize rest.post (.read c (some bytes)) = a at hcomp hqe hk hlog hcon
  obtain ⟨es, e1, e2⟩ := sendAll_log c (Svk.answers c (s.srv.log.drop v.srv.srv.log.length)) ({ a with queue := a.queue.eraseIdx v.net.asv.queue.length }.emit (.receive c bytes))
  have qu := (Quiet.sendAll (c := c) ({ a with queue := a.queue.eraseIdx v.net.asv.queue.length }.emit (.receive c bytes)) c (Svk.answers c (s.srv.log.drop v.srv.srv.log.length)))
  generalize hm : (({ a with queue := a.queue.eraseIdx v.net.asv.queue.length } : Asv).emit (.receive c bytes)).sendAll c (Svk.answers c (s.srv.log.drop v.srv.srv.log.length)) = m at e1 qu
  have e0 : (({ a with queue := a.queue.eraseIdx v.net.asv.queue.length } : Asv).emit (.receive c bytes)).log = v.net.asv.log ++ [.receive c bytes] := by simp only [Asv.emit, hlog]
  have l1 : asvReceived c m.log = asvReceived c v.net.asv.log ++ [bytes] := by
    rw [e1, e0, received_append, received_append, e2.received]
    simp [asvReceived]
  have l2 : asvAsked c m.log = asvAsked c v.net.asv.log ++ sendsOf c (s.srv.log.drop v.srv.srv.log.length) := by
    rw [e1, e0, asked_append, asked_append, e2.asked, if_pos rfl, ans]
    simp [asvAsked]
  have c1 : (m.conns c).connected = true := by rw [qu.connected]; simp only [Asv.emit, hcon]; exact k1
  have c2 : (m.conns c).isOpen = true := by rw [qu.isOpen]; simp only [Asv.emit, hcon]; exact k2
  have first : v.step env th (.complete i (.data bytes)) = .ret { v with net := { v.net with asv := a }, steps := v.steps ++ [(v.net, .op (.complete i (.data bytes)))] } := by
    simp only [SvkT.step, SvkT.act, AsvT.step, hcomp, CM.ret_bind, CM.pure_eq]
  by_cases hdeaf : c ∈ s.deaf
  · refine ⟨i, { srv := s, net := ⟨m, c :: v.net.dead⟩, steps := v.steps ++ [(v.net, .op (.complete i (.data bytes)))] ++ [({ v.net with asv := a }, .throws v.net.asv.queue.length (Svk.answers c (s.srv.log.drop v.srv.srv.log.length)))] }, hi, ?_, hs, l1, l2, fun x => absurd hdeaf x⟩
    rw [SvkT.run, first, CM.ret_bind]
    simp only [SvkT.run, CM.ret_bind, SvkT.step, hk, SvkT.receive, hs, if_pos hdeaf, AsvT.step, CM.pure_eq, hm]
  · refine ⟨i, { srv := s, net := ⟨m.beginRead c, v.net.dead⟩, steps := v.steps ++ [(v.net, .op (.complete i (.data bytes)))] ++ [({ v.net with asv := a }, .op (.run v.net.asv.queue.length (Svk.answers c (s.srv.log.drop v.srv.srv.log.length))))] }, hi, ?_, hs, ?_, ?_, fun _ => ?_⟩
    rotate_left
    · show asvReceived c (m.beginRead c).log = _
      simp only [Asv.beginRead, c1, c2, if_true]; exact l1
    · show asvAsked c (m.beginRead c).log = _
      simp only [Asv.beginRead, c1, c2, if_true]; exact l2
    · show _ ∈ (m.beginRead c).flying
      simp [Asv.beginRead, c1, c2]
    rw [SvkT.run, first, CM.ret_bind]
    simp only [SvkT.run, CM.ret_bind, SvkT.step, hk, SvkT.receive, hs, if_neg hdeaf, AsvT.step, Asv.step, Asv.runTask, Asv.onRead, CM.pure_eq, hm]

example : ∃ v, VTReach (demo 0) touchy 0 5 v ∧ decide (AEv.joined 0 ∈ v.net.asv.log ∧ AEv.error 0 ∉ v.net.asv.log ∧ AEv.closed 0 ∉ v.net.asv.log ∧ 0 ∉ v.srv.deaf ∧
    v.net.asv.queue = [] ∧ asvReceived 0 v.net.asv.log = [vread] ∧ v.srv.deaf = [1]) = true :=
  any_tdemo (ops := oneDead) (by decide +kernel)

/-- C138, the limit (see C68): started once, the server never keeps more connections than its maximum, whatever sessions throw. -/
theorem C138_limit_partial (env : ServerEnv W) (th : SThrows W) (w : W) (max : UInt32) (hmax : max.toNat < 4294967295) (v : SvkT W) (h : VTReach env th w max v)
    (hp : VTThroughout SingleStart v) : (kept v.net.asv.log).length ≤ max.toNat := by
  obtain ⟨g, G, hr, hg, hG⟩ := (h.ok.throughout hp).gh Portable.single
  rw [hg.kept]
  exact C68_limit_partial max hmax g hr

/-- C138, eviction (see C68): started once, every accepted connection is kept (when at least one is allowed); the others stay, except that the oldest one (read or not) is closed if
there were as many as allowed. -/
theorem C138_evicts_oldest_partial (env : ServerEnv W) (th : SThrows W) (w : W) (max : UInt32) (hmax : max.toNat < 4294967295) (h1 : 1 ≤ max.toNat) (v : SvkT W)
    (h : VTReach env th w max v) (hp : VTThroughout SingleStart v) (k : Nat) (mem : Vector UInt8 260) (c : Nat) (hd : v.net.asv.isShutdown = false)
    (hk : v.net.asv.queue[k]? = some (.accepted c true)) :
    ∃ v', v.step env th (.run k mem) = .ret v' ∧
      kept v'.net.asv.log = (if (kept v.net.asv.log).length < max.toNat then kept v.net.asv.log ++ [c] else (kept v.net.asv.log).tail ++ [c]) ∧
      ∀ old ∈ kept v.net.asv.log, old ∉ kept v'.net.asv.log → ATask.close old ∈ v'.net.asv.queue := by
  obtain ⟨g, G, hr, hg, hG⟩ := (h.ok.throughout hp).gh Portable.single
  obtain ⟨g', s1, s2, s3⟩ := C68_evicts_oldest_partial max hmax h1 g hr k [] c (by rw [← hg.isShutdown]; exact hd) (by rw [← hg.queue]; exact hk)
  have hrun := hg.run hr.inv (fun c => hr.heard c) hk (fun c _ hx => by cases hx) []
  rw [s1] at hrun
  cases ht : v.net.asv.step (.run k []) with
  | ub => rw [ht] at hrun; exact hrun.elim
  | ret a =>
    rw [ht] at hrun
    have hrun : Gh v.net.dead G a g' := hrun
    have hopen : ∃ s, v.srv.step env th (.opened c mem) = .ret s ∧ s.srv.log = v.srv.srv.log := by
      by_cases hl : (v.srv.srv.listeners.lookup c).isSome
      · exact ⟨_, by simp only [SrvT.step, Srv.step, if_pos hl, CM.ret_bind, CM.pure_eq], rfl⟩
      · exact ⟨⟨{ v.srv.srv with listeners := v.srv.srv.listeners ++ [(c, Parser.init env.pol mem.toList)] }, v.srv.deaf⟩, by simp only [SrvT.step, Srv.step, if_neg hl, CM.ret_bind, CM.pure_eq], rfl⟩
    obtain ⟨s, hs, hl⟩ := hopen
    refine ⟨{ srv := s, net := { v.net with asv := a }, steps := v.steps ++ [(v.net, .op (.run k []))] }, ?_, ?_, ?_⟩
    · simp only [SvkT.step, hk, SvkT.act, AsvT.step, ht, CM.ret_bind, CM.pure_eq, hd, Bool.false_eq_true, if_false, SvkT.chan, hs, hl, List.drop_length, SvkT.relay]
    · show kept a.log = _
      rw [hrun.kept, s2, hg.kept]
    · intro old ho hn
      show _ ∈ a.queue
      rw [hrun.queue]
      refine s3 old (by rw [← hg.kept]; exact ho) fun hm => hn ?_
      show _ ∈ kept a.log
      rw [hrun.kept]; exact hm

/-- Before the third client of `C138_served_client_evicted` is accepted. -/
example : ∃ v, VTReach (demo 0) touchy 0 2 v ∧ VTThroughout SingleStart v ∧ (kept v.net.asv.log == [0, 1] && v.net.asv.queue == [.accepted 2 true] && v.net.asv.isShutdown == false &&
    v.srv.deaf == [1]) = true :=
  tdemo_run singleChk_spec (ops := oneDead ++ [.complete 0 .ok]) (by decide +kernel)

/-- C138, the number of connections (see C69): started once, with no failing accept, and until it is shut down, the server reports the number of connections it keeps, read or not. -/
theorem C138_count_partial (env : ServerEnv W) (th : SThrows W) (w : W) (max : UInt32) (hmax : max.toNat < 4294967295) (v : SvkT W) (h : VTReach env th w max v)
    (hp : VTThroughout (fun a o => SingleStart a o ∧ NoAcceptError a o) v) (hd : v.net.asv.isShutdown = false) : v.net.asv.num.toNat = (kept v.net.asv.log).length := by
  obtain ⟨g, G, hr, hg, hG⟩ := (h.ok.throughout hp).gh (Portable.single.and Portable.noErr)
  rw [hg.kept, hg.num]
  exact C69_count_partial max hmax g hr (by rw [← hg.isShutdown]; exact hd)

/-- C138, accepting (see C70): as long as accepting does not fail, a started server that is not shut down is accepting, whatever sessions throw. -/
theorem C138_accepting_partial (env : ServerEnv W) (th : SThrows W) (w : W) (max : UInt32) (v : SvkT W) (h : VTReach env th w max v)
    (hp : VTThroughout NoAcceptError v) (h1 : 1 ≤ v.net.asv.starts) (hd : v.net.asv.isShutdown = false) : Accepting v.net.asv := by
  obtain ⟨g, G, hr, hg, hG⟩ := (h.ok.throughout hp).gh Portable.noErr
  rcases C70_accepting_partial max g hr (by rw [← hg.starts]; exact h1) (by rw [← hg.isShutdown]; exact hd) with ⟨c, hc⟩ | ⟨c, ok, hc⟩ | hc
  · exact Or.inl ⟨c, (hg.accepts c).2 hc⟩
  · exact Or.inr (Or.inl ⟨c, ok, by rw [hg.queue]; exact hc⟩)
  · exact Or.inr (Or.inr (by rw [hg.queue]; exact hc))

example : ∃ v, VTReach (demo 0) touchy 0 2 v ∧ VTThroughout (fun a o => SingleStart a o ∧ NoAcceptError a o) v ∧
    (v.net.asv.num == 2 && kept v.net.asv.log == [1, 2] && v.net.asv.isShutdown == false && v.net.asv.starts == 1 && v.srv.deaf == [1] && v.net.asv.flying == [.read 2, .accept 3]) = true :=
  tdemo_run steadyChk_spec (ops := oneDead ++ [.complete 0 .ok, vrun, vrun, vrun, vrun]) (by decide +kernel)

/-- C138, closing (see C71): whatever sessions throw, a connection is removed from the server's list at most once and its socket is closed at most once; one that has failed has been
removed, and its socket is closed or about to be closed; and one whose socket has been closed has been removed. -/
theorem C138_removed_once (env : ServerEnv W) (th : SThrows W) (w : W) (max : UInt32) (v : SvkT W) (h : VTReach env th w max v) (c : Nat) :
    v.net.asv.log.count (.left c) ≤ 1 ∧ v.net.asv.log.count (.closed c) ≤ 1 ∧
    (.error c ∈ v.net.asv.log → v.net.asv.log.count (.left c) = 1 ∧ ((v.net.asv.conns c).isOpen = true → ATask.close c ∈ v.net.asv.queue)) ∧
    (.closed c ∈ v.net.asv.log → v.net.asv.log.count (.left c) = 1 ∧ (v.net.asv.conns c).isOpen = false) := by
  obtain ⟨g, G, hr, hg, hG⟩ := (h.ok.net.mono (Q := anyAsv) fun _ _ _ => trivial).gh Portable.any
  obtain ⟨h1, h2, h3, h4⟩ := C71_removed_once max g hr c
  rw [hg.count rfl, hg.count rfl, hg.conns, hg.queue]
  exact ⟨h1, h2, fun he => h3 (hg.sub.subset he), fun hc => h4 ((hg.mem rfl).1 hc)⟩

/- A connection that is not read any more, whose answer to an earlier request (of the same data) could not be delivered. -/
example : ∃ v, VTReach (demo 0) touchy 0 5 v ∧ decide (v.srv.deaf = [0] ∧ AEv.error 0 ∈ v.net.asv.log ∧ AEv.closed 0 ∈ v.net.asv.log) = true :=
  any_tdemo (ops := vconnected ++ [.complete 0 (.data (vread ++ vwrite)), vrun, .complete 1 .error, vrun, vrun]) (by decide +kernel)

/-- C138, the shutdown (see C97): started once, when the server has been shut down and nothing is queued any more, every connection is closed, read or not, and no operation is in
progress, whatever sessions threw. -/
theorem C138_all_closed_partial (env : ServerEnv W) (th : SThrows W) (w : W) (max : UInt32) (hmax : max.toNat < 4294967295) (v : SvkT W) (h : VTReach env th w max v)
    (hp : VTThroughout SingleStart v) (hd : v.net.asv.isShutdown = true) (hq : v.net.asv.queue = []) :
    v.net.asv.flying = [] ∧ ∀ c, (v.net.asv.conns c).isOpen = false := by
  obtain ⟨g, G, hr, hg, hG⟩ := (h.ok.throughout hp).gh Portable.single
  obtain ⟨h1, h2⟩ := hr.drained hmax (by rw [← hg.isShutdown]; exact hd) (by rw [← hg.queue]; exact hq)
  exact ⟨by rw [hg.flying, h1]; rfl, fun c => by rw [hg.conns]; exact h2 c⟩

example : ∃ v, VTReach (demo 0) touchy 0 5 v ∧ VTThroughout SingleStart v ∧ decide (v.net.asv.isShutdown = true ∧ v.net.asv.queue = [] ∧ v.srv.deaf = [1] ∧
    AEv.closed 0 ∈ v.net.asv.log ∧ AEv.closed 1 ∈ v.net.asv.log) = true :=
  tdemo_run singleChk_spec (ops := oneDead ++ [.chan .shutdown, .chan .runTask] ++ List.replicate 8 vrun) (by decide +kernel)

/-! ### What is received and answered -/

/-- C138 (part). Whatever sessions throw, and however the data of the clients are cut into pieces: the messages that reach the channel from a connection that has not failed are the frames in
what this connection has received, in order; all of them if no session has thrown for its data, and otherwise no others. -/
theorem C138_messages_partial (env : ServerEnv W) (th : SThrows W) (w : W) (max : UInt32) (v : SvkT W) (h : VTReach env th w max v) (c : Nat) (he : AEv.error c ∉ v.net.asv.log) :
    ∃ (mem : List UInt8) (p : Parser) (ms : List Mbap), mem.length = 260 ∧ (Parser.init env.pol mem).feed (asvReceived c v.net.asv.log) = .ret (p, ms) ∧
      msgsOf c v.srv.srv.log <+: ms ∧ (c ∉ v.srv.deaf → msgsOf c v.srv.srv.log = ms) := by
  obtain ⟨h1, h2⟩ := h.heeds.frm c he
  cases hl : v.srv.srv.listeners.lookup c with
  | none =>
    obtain ⟨e1, e2⟩ := h1 hl
    rw [e1, e2]
    exact ⟨List.replicate 260 0, _, [], List.length_replicate, rfl, List.nil_prefix, fun _ => rfl⟩
  | some p =>
    obtain ⟨mem, ms, k1, k2, k3, k4⟩ := h2 p hl
    exact ⟨mem, p, ms, k1, k2, k3, k4⟩

/- A connection with and one without an exception; what the first sends after the request for which a session throws, in the same data, is lost. -/
example : ∃ v, VTReach (demo 0) touchy 0 5 v ∧ decide (AEv.error 0 ∉ v.net.asv.log ∧ AEv.error 1 ∉ v.net.asv.log ∧ v.srv.deaf = [1] ∧
    asvReceived 0 v.net.asv.log = [vread] ∧ (msgsOf 0 v.srv.srv.log).length = 1 ∧ asvReceived 1 v.net.asv.log = [vread ++ vwrite ++ vread] ∧ (msgsOf 1 v.srv.srv.log).length = 2) = true :=
  any_tdemo (ops := vconnected ++ [.complete 1 .ok, vrun, vrun, .complete 0 (.data vread), vrun, .complete 2 (.sent 13), vrun, .complete 0 (.data (vread ++ vwrite ++ vread)), vrun]) (by decide +kernel)

/-- C138 (part). Whatever sessions throw: what a connection is asked to send is, in order, replies to some of the messages received on this very connection, at most one for each. -/
theorem C138_replies (env : ServerEnv W) (th : SThrows W) (w : W) (max : UInt32) (v : SvkT W) (h : VTReach env th w max v) (c : Nat) :
    ∃ sub, sub.Sublist (msgsOf c v.srv.srv.log) ∧ List.Forall₂ Replies sub (asvAsked c v.net.asv.log) := by
  rw [h.heeds.asked c]
  obtain ⟨ops, ho, -⟩ := h.ok.srv
  exact C134_replies env th v.srv ⟨w, ops, ho⟩ c

example : ∃ v, VTReach (demo 0) touchy 0 5 v ∧ decide (v.srv.deaf = [1] ∧ asvAsked 0 v.net.asv.log = [vanswer] ∧ asvAsked 1 v.net.asv.log = []) = true :=
  any_tdemo (ops := oneDead) (by decide +kernel)

/-- What a frame that arrives on an idle connection does to the channel. -/
theorem svkt_frame_heard {env : ServerEnv W} {th : SThrows W} {w : W} {max : UInt32} {v : SvkT W} (h : VTReach env th w max v) {c : Nat} (hj : AEv.joined c ∈ v.net.asv.log)
    (he : AEv.error c ∉ v.net.asv.log) (hcl : AEv.closed c ∉ v.net.asv.log) (hd : c ∉ v.srv.deaf) (hq : ∀ d, ATask.read c d ∉ v.net.asv.queue)
    {fs : List Frame} (hsp : Splits (asvReceived c v.net.asv.log).flatten fs []) (hl : ∀ f, fs.getLast? = some f → f.len.toNat ≠ 1) {m : Mbap} (hm : Ordinary m) :
    ∃ (i : Nat) (p p' : Parser), v.net.asv.flying[i]? = some (AOp.read c) ∧ (v.net.asv.conns c).isOpen = true ∧ (v.net.asv.conns c).connected = true ∧ v.srv.srv.listeners.lookup c = some p ∧
      p.parse (frameOf m).bytes = .ret (p', [m]) := by
  obtain ⟨g, G, hr, hg, hG⟩ := (h.ok.net.mono (Q := anyAsv) fun _ _ _ => trivial).gh Portable.any
  have hcD : c ∉ v.net.dead := fun hm => hd ((h.ok.deaf c).2 hm)
  have hne : noErr v.net.dead (.error c) = true := by simp [noErr, hcD]
  obtain ⟨k1, k2, k3⟩ := (hr.heard c).live ((hg.mem rfl).1 hj) (fun x => he ((hg.mem hne).2 x)) (fun x => hcl ((hg.mem rfl).2 x))
  rw [← hg.rd_eq (fun hm => hcD (hG c hm))] at k3
  rw [← hg.conns] at k1 k2
  have h0 : v.net.asv.queue.countP (Asv.isReadOf c) = 0 := by
    rw [List.countP_eq_zero]
    intro t ht hr
    cases t <;> simp [Asv.isReadOf] at hr
    subst hr
    exact hq _ ht
  have hf : AOp.read c ∈ v.net.asv.flying := by
    simp only [Asv.rd, h0, Nat.add_zero] at k3
    exact List.count_pos_iff.1 (by omega)
  obtain ⟨i, hi⟩ := List.getElem?_of_mem hf
  obtain ⟨p, hp⟩ := h.heeds.lis c (Or.inl k1)
  obtain ⟨mem0, ms0, hm0, hfd, -⟩ := (h.heeds.frm c he).2 p hp
  have hrep := rep_idle hm0 hfd hsp hl
  obtain ⟨p', ms, ms', pend', hparse, -, hrep', hms, hpend⟩ := parse_stream hrep [m] (by simpa using hm) (frameOf m).bytes [] (by simp [streamOf])
  rw [List.append_nil] at hpend
  have hms' : ms' = [] := rep_whole hrep' (fun x hx => by
    have : x ∈ [m] := by rw [hms]; exact List.mem_append_right _ hx
    rw [List.mem_singleton.1 this]; exact hm) hpend
  subst hms'
  rw [List.append_nil] at hms
  subst hms
  exact ⟨i, p, p', hi, k2, k1, hp, hparse⟩

/-- C138 (part). Whatever sessions have thrown before: on a connection that has been accepted, that has neither failed nor been closed, for whose data no session has thrown, and whose data
have all been dealt with (whole frames so far, not ending with one of length 1), a well-formed request for a registered unit whose session does not throw for it is handed to the session,
once, and answered on this connection and no other, on which the server then goes on reading. -/
theorem C138_others_answered_partial (env : ServerEnv W) (th : SThrows W) (w : W) (max : UInt32) (v : SvkT W) (h : VTReach env th w max v) (c : Nat)
    (hj : AEv.joined c ∈ v.net.asv.log) (he : AEv.error c ∉ v.net.asv.log) (hcl : AEv.closed c ∉ v.net.asv.log) (hdf : c ∉ v.srv.deaf) (hq : ∀ d, ATask.read c d ∉ v.net.asv.queue)
    (fs : List Frame) (hsp : Splits (asvReceived c v.net.asv.log).flatten fs []) (hl : ∀ f, fs.getLast? = some f → f.len.toNat ≠ 1)
    (m : Mbap) (hm : m.data.length ≤ 253) (s : SessId) (hs : Reaches v.srv.srv m s) (k : Kind) (r : Req k) (hd : Denotes k m.data r)
    (hth : th.request s k r v.srv.srv.world = false) (resp : Resp k)
    (hresp : (env.onRequest s k r v.srv.srv.world).2 = .ok resp) (p : List UInt8) (hp : ResponsePdu k resp p) (hlen : p.length ≤ 253) (mem : Vector UInt8 260) :
    ∃ i v', v.net.asv.flying[i]? = some (.read c) ∧ v.run env th [.complete i (.data (frameOf m).bytes), .run v.net.asv.queue.length mem,
        .complete (v.net.asv.flying.length - 1) (.sent (frameOf ⟨m.unit, m.tid, p⟩).bytes.length)] = .ret v' ∧
      v'.srv.srv.log = v.srv.srv.log ++ [.mbap c m, .request s k r, .send c (frameOf ⟨m.unit, m.tid, p⟩).bytes] ∧
      (∀ c', asvWires c' v'.net.asv.log = asvWires c' v.net.asv.log ++ if c' = c then [(frameOf ⟨m.unit, m.tid, p⟩).bytes] else []) ∧
      AOp.read c ∈ v'.net.asv.flying ∧ v'.srv.deaf = v.srv.deaf := by
  have hone : 1 ≤ m.data.length := by obtain ⟨rest, hr⟩ := denotes_head hd; rw [hr]; simp
  obtain ⟨i, q, q', hi, ho, hc, hq1, hq2⟩ := svkt_frame_heard h hj he hcl hdf hq hsp hl (m := m) ⟨hone, hm⟩
  obtain ⟨pdu, ⟨u, a1, -, a3⟩, b⟩ := C24_request_reaches_session env { v.srv.srv with listeners := Srv.setListener v.srv.srv.listeners c q' } c m s ⟨hs.running, hs.registered⟩ k r hd resp hresp
  rw [b p hp hlen] at a3
  have hcalm := Srv.onMbapT_calmly (env := env) (th := th) (c := c) (m := m) (v := { v.srv.srv with listeners := Srv.setListener v.srv.srv.listeners c q' }) (fun s' hs' k' r' hp' => by
    have e1 : s' = s := by
      have := hs.registered
      rw [show v.srv.srv.sessions.lookup m.unit = some s' from hs'] at this
      exact Option.some.inj this
    subst e1
    have hd' := (C02_accepts_iff_denotes k' m.data r').1 hp'
    obtain ⟨x1, hx1⟩ := denotes_head hd
    obtain ⟨x2, hx2⟩ := denotes_head hd'
    have hk : k' = k := by
      rw [hx1] at hx2
      injection hx2 with e1 _
      have : Srv.kindOf (Spec.fc k) = Srv.kindOf (Spec.fc k') := by rw [e1]
      rw [kindOf_fc, kindOf_fc] at this
      exact (Option.some.inj this).symm
    subst hk
    rw [(C02_accepts_iff_denotes k' m.data r).2 hd] at hp'
    injection hp' with hp'; injection hp' with hp'
    rw [← hp']; exact hth)
  have hst : v.srv.step env th (.receive c (frameOf m).bytes) = .ret ⟨u, v.srv.deaf⟩ := by
    simp only [SrvT.step, if_neg hdf, hq1, hq2, CM.ret_bind, Srv.onMbapsT, hcalm, a1, Bool.false_eq_true, if_false, CM.pure_eq]
  have hb : 1 ≤ (frameOf m).bytes.length ∧ (frameOf m).bytes.length ≤ 4096 := by
    have : (frameOf m).bytes.length = 7 + m.data.length := by simp [frameOf, Frame.bytes, be]; omega
    omega
  obtain ⟨y1, y2, y3, s1, e1, q1, s2, e2, s3, e3, f3, -⟩ := serve_open ho hc hi hb (reply := (frameOf ⟨m.unit, m.tid, p⟩).bytes) (by simp [frameOf, Frame.bytes, be])
  have hdrop : u.log.drop v.srv.srv.log.length = [.mbap c m, .request s k r, .send c (frameOf ⟨m.unit, m.tid, p⟩).bytes] := by rw [a3, List.drop_left]; rfl
  have hans : Svk.answers c (u.log.drop v.srv.srv.log.length) = [(frameOf ⟨m.unit, m.tid, p⟩).bytes] := by rw [hdrop, Svk.answers_eq]; simp [sendsOf]
  have first : v.step env th (.complete i (.data (frameOf m).bytes)) =
      .ret { v with net := { v.net with asv := y1 }, steps := v.steps ++ [(v.net, .op (.complete i (.data (frameOf m).bytes)))] } := by
    simp only [SvkT.step, SvkT.act, AsvT.step, s1, CM.ret_bind, CM.pure_eq]
  refine ⟨i, { srv := ⟨u, v.srv.deaf⟩, net := ⟨y3, v.net.dead⟩, steps := v.steps ++ [(v.net, .op (.complete i (.data (frameOf m).bytes)))] ++
      [({ v.net with asv := y1 }, .op (.run v.net.asv.queue.length [(frameOf ⟨m.unit, m.tid, p⟩).bytes]))] ++
      [({ v.net with asv := y2 }, .op (.complete (v.net.asv.flying.length - 1) (.sent (frameOf ⟨m.unit, m.tid, p⟩).bytes.length)))] }, hi, ?_, a3, fun c' => ?_, ?_, rfl⟩
  · rw [SvkT.run, first, CM.ret_bind]
    simp only [SvkT.run, CM.ret_bind, SvkT.step, q1, SvkT.receive, hst, if_neg hdf, AsvT.step, hans, s2, CM.pure_eq, SvkT.act, s3]
  · show asvWires c' y3.log = _
    rw [e3, e2]
    by_cases hcc : c' = c
    · subst hcc; simp [asvWires]
    · simp [asvWires, hcc, Ne.symm hcc]
  · show _ ∈ y3.flying
    rw [f3]; simp

/-- C138, the exception: if the session throws for such a request, it has been called once with exactly that request, nothing is sent on any connection, and the connection stays open but is
not read any more. -/
theorem C138_exception (env : ServerEnv W) (th : SThrows W) (w : W) (max : UInt32) (v : SvkT W) (h : VTReach env th w max v) (c : Nat)
    (hj : AEv.joined c ∈ v.net.asv.log) (he : AEv.error c ∉ v.net.asv.log) (hcl : AEv.closed c ∉ v.net.asv.log) (hdf : c ∉ v.srv.deaf) (hq : ∀ d, ATask.read c d ∉ v.net.asv.queue)
    (fs : List Frame) (hsp : Splits (asvReceived c v.net.asv.log).flatten fs []) (hl : ∀ f, fs.getLast? = some f → f.len.toNat ≠ 1)
    (m : Mbap) (hm : m.data.length ≤ 253) (s : SessId) (hs : Reaches v.srv.srv m s) (k : Kind) (r : Req k) (hd : Denotes k m.data r)
    (hth : th.request s k r v.srv.srv.world = true) (mem : Vector UInt8 260) :
    ∃ i v', v.net.asv.flying[i]? = some (.read c) ∧ v.run env th [.complete i (.data (frameOf m).bytes), .run v.net.asv.queue.length mem] = .ret v' ∧
      v'.srv.srv.log = v.srv.srv.log ++ [.mbap c m, .request s k r] ∧ v'.srv.srv.world = (env.onRequest s k r v.srv.srv.world).1 ∧
      v'.net.asv.log = v.net.asv.log ++ [.receive c (frameOf m).bytes] ∧ v'.srv.deaf = c :: v.srv.deaf ∧ (v'.net.asv.conns c).isOpen = true ∧
      v'.net.asv.flying = v.net.asv.flying.eraseIdx i ∧ v'.net.asv.queue = v.net.asv.queue ∧ v'.net.asv.conns = v.net.asv.conns := by
  have hone : 1 ≤ m.data.length := by obtain ⟨rest, hr⟩ := denotes_head hd; rw [hr]; simp
  obtain ⟨i, q, q', hi, ho, hc, hq1, hq2⟩ := svkt_frame_heard h hj he hcl hdf hq hsp hl (m := m) ⟨hone, hm⟩
  obtain ⟨u, b1, b2, b3, b4, -, -⟩ := C134_exception env th v.srv c (frameOf m).bytes q q' m [] hdf hq1 hq2 s hs k r hd hth
  have hdeaf : u.deaf = c :: v.srv.deaf := by
    rcases SvkT.deaf_receive b1 hdf with e | e
    · rw [e] at b4; exact absurd b4 hdf
    · exact e
  have hb : 1 ≤ (frameOf m).bytes.length ∧ (frameOf m).bytes.length ≤ 4096 := by
    have : (frameOf m).bytes.length = 7 + m.data.length := by simp [frameOf, Frame.bytes, be]; omega
    omega
  have hans : Svk.answers c (u.srv.log.drop v.srv.srv.log.length) = [] := by rw [b2, List.drop_left, Svk.answers_eq]; simp [sendsOf]
  have s1 : v.net.asv.step (.complete i (.data (frameOf m).bytes)) =
      .ret { v.net.asv with flying := v.net.asv.flying.eraseIdx i, queue := v.net.asv.queue ++ [.read c (some (frameOf m).bytes)] } := by
    simp [Asv.step, Asv.complete, hi, hb, Asv.post]
  have first : v.step env th (.complete i (.data (frameOf m).bytes)) =
      .ret { v with net := { v.net with asv := { v.net.asv with flying := v.net.asv.flying.eraseIdx i, queue := v.net.asv.queue ++ [.read c (some (frameOf m).bytes)] } },
                    steps := v.steps ++ [(v.net, .op (.complete i (.data (frameOf m).bytes)))] } := by
    simp only [SvkT.step, SvkT.act, AsvT.step, s1, CM.ret_bind, CM.pure_eq]
  have hk : (v.net.asv.queue ++ [ATask.read c (some (frameOf m).bytes)])[v.net.asv.queue.length]? = some (.read c (some (frameOf m).bytes)) := by simp
  have hx : (v.net.asv.queue ++ [ATask.read c (some (frameOf m).bytes)]).eraseIdx v.net.asv.queue.length = v.net.asv.queue := by
    rw [List.eraseIdx_append_of_length_le (Nat.le_refl _)]; simp
  refine ⟨i, { srv := u, net := ⟨{ v.net.asv with flying := v.net.asv.flying.eraseIdx i, log := v.net.asv.log ++ [.receive c (frameOf m).bytes] }, c :: v.net.dead⟩, steps := v.steps ++ [(v.net, .op (.complete i (.data (frameOf m).bytes)))] ++
        [({ v.net with asv := { v.net.asv with flying := v.net.asv.flying.eraseIdx i, queue := v.net.asv.queue ++ [.read c (some (frameOf m).bytes)] } }, .throws v.net.asv.queue.length [])] },
    hi, ?_, b2, b3, rfl, hdeaf, ho, rfl, rfl, rfl⟩
  rw [SvkT.run, first, CM.ret_bind]
  simp only [SvkT.run, CM.ret_bind, SvkT.step, hk, SvkT.receive, b1, hdeaf, List.mem_cons, true_or, if_true, AsvT.step, hans, CM.pure_eq, Asv.sendAll, hx, Asv.emit]

/- The first client has been answered and the second has made a session throw: "read registers" of the first is answered, "write coil" of the first makes the session throw. -/
example : ∃ v, VTReach (demo 0) touchy 0 5 v ∧ (decide (AEv.joined 0 ∈ v.net.asv.log ∧ AEv.error 0 ∉ v.net.asv.log ∧ AEv.closed 0 ∉ v.net.asv.log ∧ 0 ∉ v.srv.deaf ∧ v.srv.deaf = [1] ∧
    v.net.asv.queue = [] ∧ asvReceived 0 v.net.asv.log = [vread] ∧ v.srv.srv.isShutdown = false ∧ v.srv.srv.sessions.lookup 1 = some 0) &&
    (!touchy.request 0 .readHoldingRegisters ⟨16, 2⟩ v.srv.srv.world) && touchy.request 0 .writeSingleCoil ⟨16, true⟩ v.srv.srv.world) = true :=
  any_tdemo (ops := oneDead) (by decide +kernel)

end Modbus.Props
