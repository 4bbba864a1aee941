import Verif.Lemmas.AsioThrowing
import Verif.Lemmas.WorldParts

/-! Helper lemmas about the whole server with sessions that may throw. -/

namespace Modbus.Asv

open Spec

theorem Apart.busy {v v' : Asv} {c : Nat} (h : Apart false c v v') (hb : AWriteBusy v' c) : AWriteBusy v c := by
  rcases hb with ⟨b, d, hm⟩ | ⟨ok, hm⟩
  · have : AOp.write c b d ∈ v'.flying.filter (relOp false c) := List.mem_filter.2 ⟨hm, by simp [relOp, opConn]⟩
    rw [h.flying] at this
    exact Or.inl ⟨b, d, (List.mem_filter.1 this).1⟩
  · have : ATask.written c ok ∈ v'.queue.filter (relTask false c) := List.mem_filter.2 ⟨hm, by simp [relTask, taskConn]⟩
    rw [h.queue] at this
    exact Or.inr ⟨ok, (List.mem_filter.1 this).1⟩

theorem Apart.throws {v : Asv} {c k d : Nat} {bytes : List UInt8} (hk : v.queue[k]? = some (.read d (some bytes))) (hd : c ≠ d) (rs : List (List UInt8)) :
    Apart false c v (({ v with queue := v.queue.eraseIdx k }.emit (.receive d bytes)).sendAll d rs) := by
  refine ((Apart.eraseQueue v fun x hx => ?_).trans (Apart.emit _ (e := .receive d bytes) (relEv_ne (by simpa [evConn] using hd)))).trans (Apart.sendAll _ hd rs)
  rw [hk] at hx
  injection hx with hx
  subst hx
  exact relTask_ne (by simpa [taskOf] using Ne.symm hd)

/-- Nothing is written on a connection that is not read, except what is being written. -/
theorem Stuck.busy_step {v v' : Asv} {c : Nat} (h : Stuck v c) {op : Op} (hs : v.step op = .ret v') (hb : AWriteBusy v' c) : AWriteBusy v c := by
  by_cases ht : Touches false v c op
  · cases op with
    | start => exact ht.elim
    | shutdown => exact ht.elim
    | complete i r =>
      obtain ⟨o, ho, hc⟩ := ht
      obtain ⟨h1, h2⟩ := h.no_op (List.mem_of_getElem? ho)
      cases o with
      | accept d => exact absurd (congrArg AOp.accept hc) h2
      | read d => exact absurd (congrArg AOp.read hc) h1
      | write d b x =>
        have hc : d = c := hc
        subst hc
        exact Or.inl ⟨b, x, List.mem_of_getElem? ho⟩
    | run k rs =>
      obtain ⟨x, hk, hx⟩ := ht
      have hm := List.mem_of_getElem? hk
      obtain ⟨h1, h2⟩ := h.no_task hm
      rcases hx with hx | ⟨hx, -⟩
      · cases x with
        | startAccept => cases hx
        | shutdown => cases hx
        | accepted d ok => injection hx with hx; exact absurd (congrArg (ATask.accepted · ok) hx) (h2 ok)
        | read d r => injection hx with hx; exact absurd (congrArg (ATask.read · r) hx) (h1 r)
        | close d =>
          simp only [Asv.step, hk, Asv.runTask] at hs
          injection hs with hs; subst hs
          have e0 : AWriteBusy { v with queue := v.queue.eraseIdx k } c → AWriteBusy v c := by
            rintro (hw | ⟨ok, hw⟩)
            · exact Or.inl hw
            · exact Or.inr ⟨ok, List.mem_of_mem_eraseIdx hw⟩
          refine e0 ?_
          generalize ({ v with queue := v.queue.eraseIdx k } : Asv) = u at hb ⊢
          have er : ∀ y : Asv, AWriteBusy (y.removeConnection d) c → AWriteBusy y c := by
            intro y hy
            unfold Asv.removeConnection at hy
            split at hy
            · rcases hy with hw | ⟨ok, hw⟩
              · exact Or.inl hw
              · rcases List.mem_append.1 hw with hw | hw
                · exact Or.inr ⟨ok, hw⟩
                · cases List.mem_singleton.1 hw
            · exact hy
          unfold Asv.runClose at hb
          dsimp only at hb
          split at hb
          · rcases er _ hb with ⟨b, y, hw⟩ | ⟨ok, hw⟩
            · exact Or.inl ⟨b, y, (List.mem_filter.1 hw).1⟩
            · rcases List.mem_append.1 hw with hw | hw
              · exact Or.inr ⟨ok, hw⟩
              · obtain ⟨o, ho, hoe⟩ := List.mem_map.1 hw
                cases o with
                | accept z => cases hoe
                | read z => cases hoe
                | write z b y =>
                  injection hoe with hz
                  subst hz
                  exact Or.inl ⟨b, y, (List.mem_filter.1 ho).1⟩
          · exact hb
        | written d ok => injection hx with hx; subst hx; exact Or.inr ⟨ok, hm⟩
      · cases hx
  · exact (step_apart hs ht).busy hb

/-- What a step adds to the log of a connection that is not read: neither data received nor data to be sent; an error only after a write. -/
theorem Stuck.log_step {v v' : Asv} {c : Nat} (h : Stuck v c) {op : Op} (hs : v.step op = .ret v') : asvReceived c v'.log = asvReceived c v.log ∧
    asvAsked c v'.log = asvAsked c v.log ∧ (¬AWriteBusy v c → v'.log.count (.error c) = v.log.count (.error c)) := by
  obtain ⟨es, he, ha⟩ := step_adds hs
  rw [he, received_append, asked_append, List.count_append]
  cases ha with
  | data k rs d bytes rest h1 h2 h3 h4 =>
    have hd : d ≠ c := fun hd => (h.no_task (List.mem_of_getElem? h2)).1 _ (by rw [hd])
    subst h3
    have e1 : asvReceived c (AEv.receive d bytes :: rest) = asvReceived c rest := by simp [asvReceived, hd]
    have e2 : asvAsked c (AEv.receive d bytes :: rest) = asvAsked c rest := by simp [asvAsked]
    rw [e1, e2, h4.received, h4.asked, if_neg hd]
    refine ⟨by simp, by simp, fun _ => ?_⟩
    rw [Nat.add_eq_left, List.count_eq_zero]
    intro hm
    rcases List.mem_cons.1 hm with hm | hm
    · cases hm
    · obtain ⟨y, -, hy | hy⟩ := h4.mem _ hm <;> cases hy
  | error k rs d rest h1 h2 h3 h4 =>
    subst h3
    have e1 : asvReceived c (AEv.error d :: rest) = [] := by
      rw [show asvReceived c (AEv.error d :: rest) = asvReceived c rest by simp [asvReceived]]
      exact plain_received (quiet_plain h4) c
    have e2 : asvAsked c (AEv.error d :: rest) = [] := by
      rw [show asvAsked c (AEv.error d :: rest) = asvAsked c rest by simp [asvAsked]]
      exact plain_asked (quiet_plain h4) c
    rw [e1, e2]
    refine ⟨by simp, by simp, fun hb => ?_⟩
    rw [Nat.add_eq_left, List.count_eq_zero]
    intro hm
    rcases List.mem_cons.1 hm with hm | hm
    · injection hm with hm
      subst hm
      rcases h2 with h2 | h2
      · exact (h.no_task (List.mem_of_getElem? h2)).1 _ rfl
      · exact hb (Or.inr ⟨false, List.mem_of_getElem? h2⟩)
    · have := h4 _ hm
      simp [quiet] at this
  | other h1 h2 =>
    have hpl : ∀ e ∈ es, Plain e := Adds.plain h2
    rw [plain_received hpl, plain_asked hpl]
    refine ⟨by simp, by simp, fun _ => ?_⟩
    rw [Nat.add_eq_left, List.count_eq_zero]
    intro hm
    rcases h2 _ hm with hm | ⟨_, _, _, _, _, _, _, _, hm⟩
    · simp [quiet] at hm
    · cases hm

theorem Stuck.log_throws {v : Asv} {c : Nat} (h : Stuck v c) {k d : Nat} {bytes : List UInt8} (hk : v.queue[k]? = some (.read d (some bytes))) (rs : List (List UInt8)) :
    asvReceived c (({ v with queue := v.queue.eraseIdx k }.emit (.receive d bytes)).sendAll d rs).log = asvReceived c v.log ∧
    asvAsked c (({ v with queue := v.queue.eraseIdx k }.emit (.receive d bytes)).sendAll d rs).log = asvAsked c v.log ∧
    (({ v with queue := v.queue.eraseIdx k }.emit (.receive d bytes)).sendAll d rs).log.count (AEv.error c) = v.log.count (AEv.error c) := by
  have hd : d ≠ c := fun hd => (h.no_task (List.mem_of_getElem? hk)).1 _ (by rw [hd])
  obtain ⟨es, he, hl⟩ := sendAll_log d rs ({ v with queue := v.queue.eraseIdx k }.emit (.receive d bytes))
  rw [he]
  have e0 : (({ v with queue := v.queue.eraseIdx k } : Asv).emit (.receive d bytes)).log = v.log ++ [.receive d bytes] := rfl
  rw [e0, received_append, received_append, asked_append, asked_append, hl.received, hl.asked, if_neg hd, List.count_append, List.count_append]
  refine ⟨by simp [asvReceived, hd], by simp [asvAsked], ?_⟩
  have : es.count (AEv.error c) = 0 := by
    rw [List.count_eq_zero]
    intro hm
    obtain ⟨y, -, hy | hy⟩ := hl.mem _ hm <;> cases hy
  rw [this]
  simp

end Modbus.Asv

namespace Modbus.Spec

theorem AsvTReach.mono {max : UInt32} {P Q : Asv → Asv.Op → Prop} (hPQ : ∀ v op, P v op → Q v op) {t : AsvT} (h : AsvTReach max P t) : AsvTReach max Q t := by
  induction h with
  | init => exact .init
  | step _ hp hs ih => exact ih.step (fun o ho => hPQ _ _ (hp o ho)) hs

theorem AsvTReach.run {max : UInt32} (ops : List AsvT.Op) : ∀ {t t' : AsvT}, AsvTReach max anyAsv t → t.run ops = .ret t' → AsvTReach max anyAsv t' := by
  induction ops with
  | nil => intro t t' h hs; injection hs with hs; subst hs; exact h
  | cons op ops ih =>
    intro t t' h hs
    simp only [AsvT.run] at hs
    obtain ⟨u, h1, h2⟩ := CM.bind_eq_ret.1 hs
    exact ih (h.step (fun _ _ => trivial) h1) h2

end Modbus.Spec

namespace Modbus.AsvT

open Spec Asv

/-- Once a connection is not read any more, nothing is received on it and nothing is sent; if nothing is being written on it, no error is reported on it. -/
theorem run_dead {c : Nat} (ops : List AsvT.Op) : ∀ {t t' : AsvT}, Stuck t.asv c → t.run ops = .ret t' →
    Stuck t'.asv c ∧ asvReceived c t'.asv.log = asvReceived c t.asv.log ∧ asvAsked c t'.asv.log = asvAsked c t.asv.log ∧
      (¬AWriteBusy t.asv c → ¬AWriteBusy t'.asv c ∧ t'.asv.log.count (.error c) = t.asv.log.count (.error c)) := by
  induction ops with
  | nil => intro t t' h hs; injection hs with hs; subst hs; exact ⟨h, rfl, rfl, fun hb => ⟨hb, rfl⟩⟩
  | cons op ops ih =>
    intro t t' h hs
    simp only [AsvT.run] at hs
    obtain ⟨u, h1, h2⟩ := CM.bind_eq_ret.1 hs
    have one : Stuck u.asv c ∧ asvReceived c u.asv.log = asvReceived c t.asv.log ∧ asvAsked c u.asv.log = asvAsked c t.asv.log ∧
      (¬AWriteBusy t.asv c → ¬AWriteBusy u.asv c ∧ u.asv.log.count (.error c) = t.asv.log.count (.error c)) := by
      cases op with
      | op o =>
        simp only [AsvT.step] at h1
        obtain ⟨a, h3, h4⟩ := CM.bind_eq_ret.1 h1
        injection h4 with h4; subst h4
        obtain ⟨k1, k2, k3⟩ := h.log_step h3
        exact ⟨h.step h3, k1, k2, fun hb => ⟨fun hb' => hb (h.busy_step h3 hb'), k3 hb⟩⟩
      | throws k rs =>
        simp only [AsvT.step] at h1
        split at h1
        · rename_i d bytes hk
          injection h1 with h1; subst h1
          have hd : c ≠ d := fun hd => (h.no_task (List.mem_of_getElem? hk)).1 _ (by rw [hd])
          obtain ⟨k1, k2, k3⟩ := h.log_throws hk rs
          exact ⟨h.throws hk rs, k1, k2, fun hb => ⟨fun hb' => hb ((Apart.throws hk hd rs).busy hb'), k3⟩⟩
        · injection h1 with h1; subst h1
          exact ⟨h, rfl, rfl, fun hb => ⟨hb, rfl⟩⟩
    obtain ⟨i1, i2, i3, i4⟩ := ih one.1 h2
    refine ⟨i1, i2.trans one.2.1, i3.trans one.2.2.1, fun hb => ?_⟩
    obtain ⟨j1, j2⟩ := one.2.2.2 hb
    exact ⟨(i4 j1).1, (i4 j1).2.trans j2⟩

end Modbus.AsvT

namespace Modbus.SvkT

open Spec

variable {W : Type}

/-- The invariant of the whole server: both parts are histories of their own, and they agree on which connections are not read any more. -/
structure Ok (env : ServerEnv W) (th : SThrows W) (w : W) (max : UInt32) (v : SvkT W) : Prop where
  srv : ∃ ops, (SrvT.init w).run env th ops = .ret v.srv ∧ ∀ c, Srv.Op.dropped c ∉ ops
  net : AsvTReach max (fun a o => ∃ t, t.asv = a ∧ (t, AsvT.Op.op o) ∈ v.steps) v.net
  deaf : ∀ c, c ∈ v.srv.deaf ↔ c ∈ v.net.dead

theorem run_snoc {env : ServerEnv W} {th : SThrows W} (ops : List Srv.Op) : ∀ {u v v' : SrvT W} {op : Srv.Op}, u.run env th ops = .ret v → v.step env th op = .ret v' →
    u.run env th (ops ++ [op]) = .ret v' := by
  induction ops with
  | nil =>
    intro u v v' op h hs
    injection h with h; subst h
    show (u.step env th op >>= fun x => CM.ret x) = _
    rw [hs]; rfl
  | cons o ops ih =>
    intro u v v' op h hs
    simp only [SrvT.run] at h
    obtain ⟨x, h1, h2⟩ := CM.bind_eq_ret.1 h
    show (u.step env th o >>= fun x => x.run env th (ops ++ [op])) = _
    rw [h1]
    exact ih h2 hs

/-- Only received data make a connection deaf. -/
theorem deaf_step {env : ServerEnv W} {th : SThrows W} {v v' : SrvT W} {op : Srv.Op} (hs : v.step env th op = .ret v') (h1 : ∀ c d, op ≠ .receive c d) (h2 : ∀ c, op ≠ .dropped c) :
    v'.deaf = v.deaf := by
  cases op with
  | receive c d => exact absurd rfl (h1 c d)
  | dropped c => exact absurd rfl (h2 c)
  | runTask =>
    simp only [SrvT.step] at hs
    split at hs <;> (injection hs with hs; subst hs; rfl)
  | _ =>
    simp only [SrvT.step] at hs
    obtain ⟨s, -, hs⟩ := CM.bind_eq_ret.1 hs
    injection hs with hs; subst hs; rfl

/-- Received data make at most the connection deaf on which they were received. -/
theorem deaf_receive {env : ServerEnv W} {th : SThrows W} {v v' : SrvT W} {c : ConnId} {d : List UInt8} (hs : v.step env th (.receive c d) = .ret v') (hc : c ∉ v.deaf) :
    v'.deaf = v.deaf ∨ v'.deaf = c :: v.deaf := by
  simp only [SrvT.step, if_neg hc] at hs
  split at hs
  · injection hs with hs; subst hs; exact Or.inl rfl
  · obtain ⟨x, -, hs⟩ := CM.bind_eq_ret.1 hs
    obtain ⟨y, -, hs⟩ := CM.bind_eq_ret.1 hs
    injection hs with hs; subst hs
    dsimp only
    split
    · exact Or.inr rfl
    · exact Or.inl rfl

theorem net_dead {n n' : AsvT} {o : Asv.Op} (h : n.step (.op o) = .ret n') : n'.dead = n.dead := by
  simp only [AsvT.step] at h
  obtain ⟨a, -, h⟩ := CM.bind_eq_ret.1 h
  injection h with h; subst h; rfl

theorem path {max : UInt32} {v : SvkT W} {op : AsvT.Op} {n : AsvT} (hs : v.net.step op = .ret n) (srv : SrvT W)
    (h : AsvTReach max (fun a o => ∃ t, t.asv = a ∧ (t, AsvT.Op.op o) ∈ v.steps) v.net) :
    AsvTReach max (fun a o => ∃ t, t.asv = a ∧ (t, AsvT.Op.op o) ∈ (SvkT.mk srv n (v.steps ++ [(v.net, op)])).steps) n := by
  refine (h.mono fun a o ⟨t, ht, hm⟩ => ⟨t, ht, List.mem_append_left _ hm⟩).step (fun o ho => ?_) hs
  subst ho
  exact ⟨v.net, rfl, List.mem_append_right _ (by simp)⟩

variable {env : ServerEnv W} {th : SThrows W} {w : W} {max : UInt32}

theorem Ok.act {v v' : SvkT W} (h : Ok env th w max v) {o : Asv.Op} (hs : v.act o = .ret v') : Ok env th w max v' ∧ v'.srv = v.srv := by
  simp only [SvkT.act] at hs
  obtain ⟨n, h1, hs⟩ := CM.bind_eq_ret.1 hs
  injection hs with hs; subst hs
  exact ⟨⟨h.srv, path h1 _ h.net, fun c => by simp only [net_dead h1]; exact h.deaf c⟩, rfl⟩

theorem Ok.relay (es : List SEv) : ∀ {v v' : SvkT W}, Ok env th w max v → v.relay es = .ret v' → Ok env th w max v' := by
  induction es with
  | nil => intro v v' h hs; injection hs with hs; subst hs; exact h
  | cons e es ih =>
    intro v v' h hs
    simp only [SvkT.relay] at hs
    obtain ⟨u, h1, h2⟩ := CM.bind_eq_ret.1 hs
    refine ih ?_ h2
    cases e with
    | serverStart => exact (h.act h1).1
    | serverShutdown => exact (h.act h1).1
    | _ => injection h1 with h1; subst h1; exact h

theorem Ok.chan {v v' : SvkT W} (h : Ok env th w max v) {op : Srv.Op} (h1 : ∀ c d, op ≠ .receive c d) (h2 : ∀ c, op ≠ .dropped c) (hs : v.chan env th op = .ret v') :
    Ok env th w max v' := by
  simp only [SvkT.chan] at hs
  obtain ⟨s, h3, hs⟩ := CM.bind_eq_ret.1 hs
  refine Ok.relay _ ?_ hs
  obtain ⟨ops, ho, hd⟩ := h.srv
  refine ⟨⟨ops ++ [op], run_snoc ops ho h3, fun c hc => ?_⟩, h.net, fun c => ?_⟩
  · rcases List.mem_append.1 hc with hc | hc
    · exact hd c hc
    · exact h2 c (List.mem_singleton.1 hc).symm
  · show c ∈ s.deaf ↔ _
    rw [deaf_step h3 h1 h2]; exact h.deaf c

theorem Ok.receive {v v' : SvkT W} (h : Ok env th w max v) {k c : Nat} {bytes : List UInt8} (hk : v.net.asv.queue[k]? = some (.read c (some bytes)))
    (hs : v.receive env th k c bytes = .ret v') : Ok env th w max v' := by
  have hcd : c ∉ v.srv.deaf := by
    intro hc
    exact (h.net.stuck c ((h.deaf c).1 hc)).no_task (List.mem_of_getElem? hk) |>.1 _ rfl
  simp only [SvkT.receive] at hs
  obtain ⟨s, h3, hs⟩ := CM.bind_eq_ret.1 hs
  obtain ⟨n, h4, hs⟩ := CM.bind_eq_ret.1 hs
  injection hs with hs; subst hs
  obtain ⟨ops, ho, hd⟩ := h.srv
  refine ⟨⟨ops ++ [.receive c bytes], run_snoc ops ho h3, fun d hm => ?_⟩, path h4 _ h.net, fun d => ?_⟩
  · rcases List.mem_append.1 hm with hm | hm
    · exact hd d hm
    · cases List.mem_singleton.1 hm
  · show d ∈ s.deaf ↔ d ∈ n.dead
    rcases deaf_receive h3 hcd with he | he
    · rw [if_neg (by rw [he]; exact hcd)] at h4
      rw [he, net_dead h4]; exact h.deaf d
    · rw [if_pos (by rw [he]; simp)] at h4
      simp only [AsvT.step, hk] at h4
      injection h4 with h4; subst h4
      rw [he]
      simp only [List.mem_cons, h.deaf d]

theorem Ok.step {v v' : SvkT W} (h : Ok env th w max v) {op : Svk.Op} (hs : v.step env th op = .ret v') : Ok env th w max v' := by
  cases op with
  | chan op =>
    simp only [SvkT.step] at hs
    split at hs
    · rename_i ho
      refine h.chan (fun c d he => ?_) (fun c he => ?_) hs
      · subst he; cases ho
      · subst he; cases ho
    · injection hs with hs; subst hs; exact h
  | complete i r => exact (h.act hs).1
  | run k mem =>
    simp only [SvkT.step] at hs
    split at hs
    · obtain ⟨u, h1, hs⟩ := CM.bind_eq_ret.1 hs
      have h2 := (h.act h1).1
      split at hs
      · injection hs with hs; subst hs; exact h2
      · exact h2.chan (by simp) (by simp) hs
    · rename_i hk; exact h.receive hk hs
    · obtain ⟨u, h1, hs⟩ := CM.bind_eq_ret.1 hs
      exact (h.act h1).1.chan (by simp) (by simp) hs
    · obtain ⟨u, h1, hs⟩ := CM.bind_eq_ret.1 hs
      exact (h.act h1).1.chan (by simp) (by simp) hs
    · exact (h.act hs).1

theorem _root_.Modbus.Spec.VTReach.ok {v : SvkT W} (h : VTReach env th w max v) : Ok env th w max v := by
  induction h with
  | init => exact ⟨⟨[], rfl, by simp⟩, .init, fun c => by simp [SvkT.init, SrvT.init, AsvT.init]⟩
  | step _ hs ih => exact ih.step hs

theorem Ok.throughout {v : SvkT W} (h : Ok env th w max v) {P : Asv → Asv.Op → Prop} (hP : VTThroughout P v) : AsvTReach max P v.net :=
  h.net.mono fun a o ⟨t, ht, hm⟩ => by
    have := hP _ hm o rfl
    rw [ht] at this
    exact this

end Modbus.SvkT
