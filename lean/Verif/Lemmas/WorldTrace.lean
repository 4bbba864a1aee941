import Verif.Lemmas.World
import Verif.Props.Genuine
import Verif.Props.System

/-! Helper lemmas: where the messages come from that the server and the clients take. -/

namespace Modbus

open Spec

/-- What a client puts on the wire. -/
theorem client_wires {env : StkEnv} {v : Stk} (h : KReach env v) (hf : Throughout (fun t op => FreshStarts t op ∧ Patient t op) v) (n : Nat) :
    ∃ ms : List Mbap, tcpWires n (netLog v.log) = ms.map wire ∧ ∀ m ∈ ms, Ordinary m ∧ ∃ u t unit k q tmo, CEv.sent u (wire m) t ∈ chLog v.log ∧
      CEv.call u unit ⟨k, q⟩ tmo ∈ chLog v.log ∧ m.unit = unit ∧ m.tid = UInt16.ofNat (rank (chLog v.log) u) ∧ Denotes k m.data q ∧ InRange k q := by
  have hr := Props.tcp_through h hf
  have hw : (tcpWires n v.tcp.log).Sublist (tcpSubmits n v.tcp.log) := (hr.writes fun _ _ h => h).2 n
  have hsub := (hr.once (fun _ _ h => h.1)).2
  have hall : ∀ b ∈ tcpWires n v.tcp.log, ∃ m, b = wire m ∧ Ordinary m ∧ ∃ u t unit k q tmo, CEv.sent u (wire m) t ∈ chLog v.log ∧
      CEv.call u unit ⟨k, q⟩ tmo ∈ chLog v.log ∧ m.unit = unit ∧ m.tid = UInt16.ofNat (rank (chLog v.log) u) ∧ Denotes k m.data q ∧ InRange k q := by
    intro b hb
    have hb : b ∈ tcpAsked v.tcp.log := by
      refine hsub.subset ?_
      have := hw.subset hb
      rw [tcpSubmits, List.mem_filterMap] at this
      obtain ⟨e, he, hx⟩ := this
      rw [tcpAllSubmits, List.mem_filterMap]
      refine ⟨e, he, ?_⟩
      cases e with
      | submit c d =>
        simp only at hx ⊢
        split at hx
        · exact hx
        · cases hx
      | _ => cases hx
    rw [← h.proj.micro.net, h.proj.micro.asked] at hb
    obtain ⟨⟨u, b'⟩, hp, rfl⟩ := List.mem_map.1 hb
    obtain ⟨t, hs⟩ := mem_sentFrames.1 hp
    have hs' := hs
    rw [h.proj.cli] at hs
    obtain ⟨m, unit, k, q, tmo, r1, r2, r3, r4, r5, r6, r7, -⟩ := sent_request h.proj.reach (past := v.cli.log) (future := []) (by simp) hs
    rw [← h.proj.cli] at r3 r5
    simp only at r1 hs' ⊢
    exact ⟨m, r1, r2, u, t, unit, k, q, tmo, by rw [← r1]; exact hs', r3, r4, r5, r6, r7⟩
  rw [h.proj.micro.net]
  generalize tcpWires n v.tcp.log = l at hall
  clear hw
  induction l with
  | nil => exact ⟨[], rfl, fun m hm => nomatch hm⟩
  | cons b l ih =>
    obtain ⟨m, hm, hrest⟩ := hall b (by simp)
    obtain ⟨ms, h1, h2⟩ := ih fun b hb => hall b (by simp [hb])
    refine ⟨m :: ms, by simp [h1, hm], fun m' hm' => ?_⟩
    rcases List.mem_cons.1 hm' with rfl | hm'
    · exact hrest
    · exact h2 m' hm'

/-- What the server puts on the wire. -/
theorem server_wires {W : Type} {env : ServerEnv W} {w : W} {max : UInt32} {v : Svk W} (h : VReach env w max v) (c : Nat) (hp : VThroughout (PatientClient c) v) :
    ∃ ms : List Mbap, asvWires c v.asv.log = ms.map wire ∧ ∀ m ∈ ms, Ordinary m ∧ SEv.send c (wire m) ∈ svLog v.log := by
  have hok := h.ok
  have hr : AsvReach max (PatientClient c) v.asv := hok.asv.mono fun a o hx => hp _ hx
  have hall : ∀ b ∈ asvWires c v.asv.log, ∃ m, b = wire m ∧ Ordinary m ∧ SEv.send c (wire m) ∈ svLog v.log := by
    intro b hb
    have hb := hr.wiresAsked.subset hb
    rw [hok.asked] at hb
    have hsend : SEv.send c b ∈ v.srv.log := by
      rw [Props.sendsOf, List.mem_filterMap] at hb
      obtain ⟨e, he, hx⟩ := hb
      cases e with
      | send c' d =>
        simp only at hx
        split at hx
        · rename_i hc
          injection hx with hx
          subst hx; subst hc; exact he
        · cases hx
      | _ => cases hx
    obtain ⟨l0, l1, hl⟩ := List.append_of_mem hsend
    obtain ⟨l00, m, pdu, h1, rfl, -⟩ := hok.traced.sends _ _ _ _ hl
    exact ⟨_, rfl, h1, by rw [hok.svl]; exact hsend⟩
  generalize asvWires c v.asv.log = l at hall
  induction l with
  | nil => exact ⟨[], rfl, fun m hm => nomatch hm⟩
  | cons b l ih =>
    obtain ⟨m, hm, hrest⟩ := hall b (by simp)
    obtain ⟨ms, h1, h2⟩ := ih fun b hb => hall b (by simp [hb])
    refine ⟨m :: ms, by simp [h1, hm], fun m' hm' => ?_⟩
    rcases List.mem_cons.1 hm' with rfl | hm'
    · exact hrest
    · exact h2 m' hm'

namespace World

variable {W : Type} {env : WorldEnv W} {w : W}

theorem calm_earlier {j : Nat} {u v : World W} (h : Calm env j v) (hle : Le u v) : Calm env j u := by
  obtain ⟨n3, h3⟩ := hle.log
  refine ⟨fun x hx => h.steps x ((hle.cli j).subset hx), fun a b c cur hab => ?_, fun c n hp => ⟨fun x hx => ?_, ?_⟩⟩
  · have := h.quiet a (b ++ netLog (inClient j n3)) c cur (by rw [← h3, inClient_append, netLog_append, hab]; simp)
    rw [Tcp.tcpReceived_append] at this
    exact (List.append_eq_nil_iff.1 this).1
  · exact (h.server c n hp).1 x (hle.srv.subset hx)
  · have := (h.server c n hp).2
    rw [← h3, inServer_append, Svk.cnLog_append] at this
    exact this.pre

theorem calmSending_earlier {j : Nat} {u v : World W} (h : CalmSending env j v) (hle : Le u v) : CalmSending env j u := by
  obtain ⟨n3, h3⟩ := hle.log
  refine ⟨fun x hx => h.steps x ((hle.cli j).subset hx), fun c n hp => ?_⟩
  have := h.quiet c n hp
  rw [← h3, inServer_append, Svk.cnLog_append] at this
  exact this.pre

/-- The messages the server takes from a client's connection are, in order, what the client put on the wire. -/
theorem taken_msgs {v : World W} (h : WReach env w v) {j c n : Nat} (hc : CalmSending env j v) (hp : env.peer c = some (j, n)) :
    ∃ ms : List Mbap, tcpWires n (netLog (inClient j v.log)) = ms.map wire ∧ Props.msgsOf c (svLog (inServer v.log)) <+: ms ∧
      ∀ m ∈ ms, Ordinary m ∧ ∃ u t unit k q tmo, CEv.sent u (wire m) t ∈ chLog (inClient j v.log) ∧
      CEv.call u unit ⟨k, q⟩ tmo ∈ chLog (inClient j v.log) ∧ m.unit = unit ∧ m.tid = UInt16.ofNat (rank (chLog (inClient j v.log)) u) ∧
      Denotes k m.data q ∧ InRange k q := by
  have hok := h.ok
  obtain ⟨ms, w1, w2⟩ := client_wires (hok.cli j) hc.steps n
  have hq : QuietAfterError c v.srv.asv.log := by rw [← hok.srv.ok.cnl, ← hok.slog]; exact hc.quiet c n hp
  rw [hok.slog, hok.srv.ok.svl, hok.clog]
  refine ⟨ms, w1, ?_, w2⟩
  rcases hok.srv.framed c hq with ⟨-, h2⟩ | ⟨mem, p, h1, h2⟩
  · rw [h2]; exact List.nil_prefix
  · have hpre : (asvReceived c v.srv.asv.log).flatten <+: (tcpWires n (v.cli j).tcp.log).flatten := by
      refine List.IsPrefix.trans ?_ (hok.upOf c j n hp)
      rw [← hok.ups]
      exact List.prefix_append _ _
    rw [← (hok.cli j).proj.micro.net, w1, ← streamOf_wire] at hpre
    obtain ⟨rest, hrest⟩ := hpre
    obtain ⟨ms', h3⟩ := FramedAs_stream (pol := env.server.pol) ⟨mem, h1, p, h2⟩ ms (fun m hm => (w2 m hm).1) hrest
    rw [h3]
    exact List.prefix_append _ _

theorem mem_msgsOf {c : ConnId} {m : Mbap} {l : List SEv} : m ∈ Props.msgsOf c l ↔ SEv.mbap c m ∈ l := by
  rw [Props.msgsOf, List.mem_filterMap]
  constructor
  · rintro ⟨e, he, hx⟩
    cases e with
    | mbap c' d =>
      simp only at hx
      split at hx
      · rename_i hc
        injection hx with hx
        subst hx; subst hc; exact he
      · cases hx
    | _ => cases hx
  · intro h
    exact ⟨_, h, by simp⟩

theorem mem_wires {n : Nat} {b : List UInt8} {l : List KEv} (h : b ∈ tcpWires n (netLog l)) : KEv.net (.wire n b) ∈ l := by
  rw [tcpWires, List.mem_filterMap] at h
  obtain ⟨e, he, hx⟩ := h
  rw [netLog, List.mem_filterMap] at he
  obtain ⟨e', he', hy⟩ := he
  cases e with
  | wire c' d =>
    simp only at hx
    split at hx
    · rename_i hc
      injection hx with hx
      subst hx; subst hc
      cases e' with
      | net e' => simp only [Option.some.injEq] at hy; subst hy; exact he'
      | ch _ => cases hy
    · cases hx
  | _ => cases hx

/-- A message the server takes from a connection of client `j` is a request the client made and put on that connection before. -/
theorem taken {v : World W} (h : WReach env w v) {j c n : Nat} (hc : CalmSending env j v) (hp : env.peer c = some (j, n)) {A B : List WEv} {m : Mbap}
    (hl : v.log = A ++ .srv (.ch (.mbap c m)) :: B) :
    Ordinary m ∧ KEv.net (.wire n (wire m)) ∈ inClient j A ∧ ∃ u t k q tmo, CEv.sent u (wire m) t ∈ chLog (inClient j A) ∧
      CEv.call u m.unit ⟨k, q⟩ tmo ∈ chLog (inClient j A) ∧ m.tid = UInt16.ofNat (rank (chLog (inClient j A)) u) ∧ Denotes k m.data q ∧ InRange k q := by
  obtain ⟨u, hu, hlog, hle, ⟨new, hs3⟩, -⟩ := h.at_server hl
  have hcu := calmSending_earlier hc hle
  obtain ⟨ms, w1, w2, w3⟩ := taken_msgs hu hcu hp
  have hm : m ∈ ms := w2.subset (mem_msgsOf.2 (by rw [hs3]; simp [svLog]))
  have hlog : inClient j u.log = inClient j A := by rw [hu.ok.clog, hlog]
  rw [hlog] at w1
  obtain ⟨hord, u', t, unit, k, q, tmo, r1, r2, rfl, r4, r5, r6⟩ := w3 m hm
  rw [hlog] at r1 r2 r4
  refine ⟨hord, mem_wires (n := n) ?_, u', t, k, q, tmo, r1, r2, r4, r5, r6⟩
  rw [w1]
  exact List.mem_map_of_mem hm

/-- A message the client takes for an answer is one the server sent before. -/
theorem heard {v : World W} (h : WReach env w v) {j : Nat} (hc : Calm env j v) {past future : List WEv} {u : Nat} {pdu : List UInt8} {t : Nat}
    (hl : v.log = past ++ .cli j (.ch (.handler u (.ok pdu) t)) :: future) :
    ∃ c n b t' m, env.peer c = some (j, n) ∧ CEv.sent u b t' ∈ chLog (inClient j past) ∧ KEv.net (.submit n b) ∈ inClient j past ∧
      (∃ l0, chLog (inClient j past) = l0 ++ [.mbap m]) ∧ pdu = m.data ∧ Ordinary m ∧ SEv.send c (wire m) ∈ svLog (inServer past) := by
  obtain ⟨x, hx, hlog, hle, ⟨new, hs3⟩, hrec⟩ := h.at_client hl fun y hy => (hc.steps y hy).1
  have hcx := calm_earlier hc hle
  have hok := h.ok
  have hkl : (v.cli j).log = inClient j past ++ .ch (.handler u (.ok pdu) t) :: inClient j future := by rw [← hok.clog, hl]; simp
  obtain ⟨n, b, t', m, out, h1, h2, h3, h4, h5, h6⟩ := (hok.cli j).proj.micro.genuine (fun y hy => ⟨(hc.steps y hy).1, (hc.steps y hy).2.1⟩)
    (by rw [← hok.clog]; exact hc.quiet) _ u pdu t _ hkl
  rcases hrec n with hr | ⟨c, hp, hr⟩
  · exfalso
    obtain ⟨ms', hx⟩ := FramedAs_stream h5 [] (by simp) (rest := []) (by rw [hr]; rfl)
    have : out = [] := (List.append_eq_nil_iff.1 hx.symm).1
    rw [this] at h6; cases h6
  · obtain ⟨ms, w1, w2⟩ := server_wires hx.ok.srv c (hcx.server c n hp).1
    rw [w1, ← streamOf_wire] at hr
    obtain ⟨rest, hr⟩ := hr
    obtain ⟨ms', hms⟩ := FramedAs_stream h5 ms (fun m hm => (w2 m hm).1) hr
    have hm : m ∈ ms := by rw [hms]; exact List.mem_append_left _ h6
    refine ⟨c, n, b, t', m, hp, h1, h2, h3, h4, (w2 m hm).1, ?_⟩
    rw [← hlog]; exact (w2 m hm).2

end World

end Modbus
