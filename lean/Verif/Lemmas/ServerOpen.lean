import Verif.Spec.ServerOpen
import Verif.Props.ServerTight
import Verif.Props.ServerStack
import Verif.Lemmas.WorldParts

/-! Helper lemmas: a started server goes on accepting, and a connection it accepts is read. -/

namespace Modbus.Asv

open Spec

theorem tok_send (v : Asv) (c d : Nat) (data : List UInt8) : (v.send c data).tok d = v.tok d ∧ (v.send c data).nextConn = v.nextConn := by
  unfold Asv.send
  exact ⟨tok_sendBuffer _ c d, nextConn_sendBuffer _ c⟩

theorem tok_sendAll (c d : Nat) (ds : List (List UInt8)) : ∀ v : Asv, (v.sendAll c ds).tok d = v.tok d ∧ (v.sendAll c ds).nextConn = v.nextConn := by
  induction ds with
  | nil => intro v; exact ⟨rfl, rfl⟩
  | cons x ds ih =>
    intro v
    have h1 := ih (v.send c x)
    have h2 := tok_send v c d x
    exact ⟨h1.1.trans h2.1, h1.2.trans h2.2⟩

/-- A connection whose accept is outstanding had not been accepted before either. -/
theorem fresh_step {v v' : Asv} (h : Frz v) {op : Op} (hs : v.step op = .ret v') (d : Nat) (hf : v'.nextConn ≤ d ∨ 0 < v'.tok d) :
    v.nextConn ≤ d ∨ 0 < v.tok d := by
  by_cases h1 : ∀ i r, op = .complete i r → ∀ c b d, v.flying[i]? ≠ some (.write c b d)
  · by_cases h2 : ∀ k rs, op = .run k rs → ∀ c bytes, v.queue[k]? = some (.read c (some bytes)) → rs = []
    · by_cases h3 : ∀ k rs, op = .run k rs → ∀ c, v.queue[k]? ≠ some (.written c true)
      · exact (still_step h hs h1 h2 h3).fresh d hf
      · simp only [not_forall, Classical.not_not] at h3
        obtain ⟨k, rs, rfl, c, hk⟩ := h3
        simp only [Asv.step, hk] at hs
        injection hs with hs; subst hs
        exact (Still.eraseQueue v k).fresh d hf
    · simp only [not_forall] at h2
      obtain ⟨k, rs, rfl, c, bytes, hk, -⟩ := h2
      simp only [Asv.step, hk] at hs
      injection hs with hs; subst hs
      have hf := (Still.beginRead _ c).fresh d hf
      rw [(tok_sendAll c d rs _).1, (tok_sendAll c d rs _).2] at hf
      exact (Still.eraseQueue v k).fresh d hf
  · simp only [not_forall, Classical.not_not] at h1
    obtain ⟨i, r, rfl, c, b, data, hfi⟩ := h1
    simp only [Asv.step, Asv.complete, hfi] at hs
    have hq : ∀ (ok : Bool) (l : List AEv), v' = { v with flying := v.flying.eraseIdx i, queue := v.queue ++ [.written c ok], log := l } → v.nextConn ≤ d ∨ 0 < v.tok d := by
      rintro ok l rfl
      refine hf.imp_right fun ht => ?_
      have := (List.eraseIdx_sublist v.flying i).countP_le (p := tokOp d)
      simp only [tok, List.countP_append, List.countP_singleton, tokTask] at ht ⊢
      simp at ht
      omega
    split at hs
    · split at hs
      · split at hs
        · injection hs with hs; exact hq true _ hs.symm
        · cases hs
      · injection hs with hs; subst hs; exact hf
    · injection hs with hs; exact hq false _ hs.symm
    · injection hs with hs; subst hs; exact hf

theorem quiet_received {es : List AEv} (h : ∀ e ∈ es, quiet e = true ∨ ∃ c d, e = .submit c d) (c : Nat) : asvReceived c es = [] := by
  simp only [asvReceived, List.filterMap_eq_nil_iff]
  intro e he
  rcases h e he with h | ⟨c', d', rfl⟩
  · cases e <;> first | rfl | cases h
  · rfl

/-- Nothing has been received on a connection whose accept is outstanding. -/
theorem _root_.Modbus.Spec.AsvReach.unheard {max : UInt32} {P : Asv → Op → Prop} {v : Asv} (h : AsvReach max P v) :
    ∀ c, v.nextConn ≤ c ∨ 0 < v.tok c → asvReceived c v.log = [] := by
  induction h with
  | init => intro c _; rfl
  | @step v v' op hv hp hs ih =>
    intro c hf
    have hf := fresh_step hv.frz hs c hf
    obtain ⟨es, h1, h2⟩ := step_adds hs
    rw [h1, received_append, ih c hf, List.nil_append]
    cases h2 with
    | data k rs d bytes rest e1 e2 e3 e4 =>
      have hl := hv.inv.qlive _ (List.mem_of_getElem? e2) d rfl
      have hd : d ≠ c := by
        rintro rfl
        have := hl.1; have := hl.2; omega
      subst e3
      have : asvReceived c (.receive d bytes :: rest) = asvReceived c rest := by simp [asvReceived, hd]
      rw [this]
      exact e4.received c
    | error k rs d rest e1 e2 e3 e4 =>
      subst e3
      show asvReceived c rest = []
      exact quiet_received (fun e he => Or.inl (e4 e he)) c
    | other e1 e2 =>
      exact quiet_received (fun e he => (e2 e he).imp id fun ⟨_, _, c, _, d, _, _, _, h⟩ => ⟨c, d, h⟩) c

theorem starts_mono {v v' : Asv} {op : Op} (hs : v.step op = .ret v') : v.starts ≤ v'.starts := by
  by_cases ho : op = .start
  · subst ho
    injection hs with hs; subst hs
    unfold Asv.startAccept
    split <;> simp
  · exact Nat.le_of_eq (loop_step hs ho).2.1.symm

end Modbus.Asv

namespace Modbus.Svk

open Spec

variable {W : Type}

/-- The calls and tasks of the channel among what happens. -/
def chanOps (ops : List Op) : List Srv.Op := ops.filterMap fun op => match op with
  | .chan o => if own o then some o else none
  | _ => none

/-- What the channel does in one step. -/
theorem step_proj {env : ServerEnv W} {v v' : Svk W} {op : Op} (hs : v.step env op = .ret v') :
    ∃ sops, v.srv.run env sops = .ret v'.srv ∧ sops.filter own = chanOps [op] := by
  cases op with
  | chan o =>
    simp only [Svk.step] at hs
    split at hs
    · rename_i ho
      simp only [chan] at hs
      cases hst : v.srv.step env o with
      | ub => rw [hst] at hs; cases hs
      | ret s =>
        rw [hst] at hs
        simp only [CM.ret_bind] at hs
        obtain ⟨u, b1, b2, -⟩ := relay_spec (s.log.drop v.srv.log.length) ({ v with srv := s } : Svk W)
        rw [b1] at hs; injection hs with hs; subst hs
        exact ⟨[o], by rw [b2]; simp [Srv.run, hst], by simp [chanOps, ho]⟩
    · rename_i ho
      injection hs with hs; subst hs
      exact ⟨[], rfl, by simp [chanOps, ho]⟩
  | complete i r =>
    obtain ⟨a, es, -, -, -, rfl⟩ := net_spec hs
    exact ⟨[], rfl, rfl⟩
  | run k mem =>
    rcases run_srv hs with he | ⟨t, d, o, -, -, ho, hst⟩
    · exact ⟨[], by rw [he]; rfl, rfl⟩
    · refine ⟨[o], by simp [Srv.run, hst], ?_⟩
      rcases ho with rfl | rfl | ⟨bytes, rfl⟩ <;> rfl

/-- What the channel does in a history. -/
theorem run_proj {env : ServerEnv W} (ops : List Op) : ∀ {v v' : Svk W}, v.run env ops = .ret v' →
    ∃ sops, v.srv.run env sops = .ret v'.srv ∧ sops.filter own = chanOps ops := by
  induction ops with
  | nil => intro v v' h; injection h with h; subst h; exact ⟨[], rfl, rfl⟩
  | cons op ops ih =>
    intro v v' h
    simp only [run] at h
    obtain ⟨u, h1, h2⟩ := CM.bind_eq_ret.1 h
    obtain ⟨s1, a1, a2⟩ := step_proj h1
    obtain ⟨s2, b1, b2⟩ := ih h2
    refine ⟨s1 ++ s2, by rw [Srv.run_append, a1]; exact b1, ?_⟩
    rw [List.filter_append, a2, b2, ← List.singleton_append (l := ops)]
    simp only [chanOps, List.filterMap_append]

theorem countP_own {p : Srv.Op → Bool} (hp : ∀ o, p o = true → own o = true) (sops : List Srv.Op) : (sops.filter own).countP p = sops.countP p :=
  Asv.countP_filter_of hp sops

theorem chanOps_count {p : Srv.Op → Bool} {q : Op → Bool} (h : ∀ op, q op = true ↔ ∃ o, op = .chan o ∧ own o = true ∧ p o = true) (ops : List Op) :
    (chanOps ops).countP p = ops.countP q := by
  induction ops with
  | nil => rfl
  | cons op ops ih =>
    rw [List.countP_cons, ← ih, chanOps, List.filterMap_cons]
    by_cases hq : q op = true
    · obtain ⟨o, rfl, h1, h2⟩ := (h op).1 hq
      simp only [h1, if_true, hq]
      rw [List.countP_cons, if_pos h2]; rfl
    · rw [if_neg hq]
      split
      · rfl
      · rename_i o ho
        cases op with
        | chan o' =>
          by_cases h1 : own o' = true
          · simp only [h1, if_true] at ho
            injection ho with ho; subst ho
            rw [List.countP_cons, if_neg (fun h2 => hq ((h _).2 ⟨_, rfl, h1, h2⟩))]; rfl
          · simp [h1] at ho
        | _ => cases ho

theorem mem_chanOps {o : Srv.Op} (ho : own o = true) {ops : List Op} : o ∈ chanOps ops ↔ Op.chan o ∈ ops := by
  simp only [chanOps, List.mem_filterMap]
  constructor
  · rintro ⟨op, hm, h⟩
    cases op with
    | chan o' =>
      simp only at h
      split at h
      · injection h with h; subst h; exact hm
      · cases h
    | _ => cases h
  · intro hm
    exact ⟨_, hm, by simp [ho]⟩

/-- A history around a call, as the channel sees it. -/
theorem run_around {env : ServerEnv W} {o : Srv.Op} (ho : own o = true) {pre post : List Op} {v v' : Svk W} (h : v.run env (pre ++ .chan o :: post) = .ret v') :
    ∃ s1 s2, v.srv.run env (s1 ++ o :: s2) = .ret v'.srv ∧ s1.countP Srv.isCall = pre.countP vCall ∧ s2.countP Srv.isRun = post.countP vRun ∧
      (∀ o', own o' = true → (o' ∈ s1 ↔ Op.chan o' ∈ pre)) ∧ (∀ o', own o' = true → (o' ∈ s2 ↔ Op.chan o' ∈ post)) := by
  rw [run_append] at h
  obtain ⟨u, h1, h2⟩ := CM.bind_eq_ret.1 h
  simp only [run] at h2
  obtain ⟨u', h2, h3⟩ := CM.bind_eq_ret.1 h2
  obtain ⟨s1, a1, a2⟩ := run_proj _ h1
  obtain ⟨s2, c1, c2⟩ := run_proj _ h3
  have hst : u.srv.step env o = .ret u'.srv := by
    simp only [Svk.step, ho, if_true, chan] at h2
    obtain ⟨s, k1, k2⟩ := CM.bind_eq_ret.1 h2
    obtain ⟨x, b1, b2, -⟩ := relay_spec (s.log.drop u.srv.log.length) ({ u with srv := s } : Svk W)
    rw [b1] at k2; injection k2 with k2; subst k2
    rw [k1, b2]
  have hc : ∀ o : Srv.Op, Srv.isCall o = true → own o = true := by intro o h; cases o <;> first | rfl | cases h
  have hr : ∀ o : Srv.Op, Srv.isRun o = true → own o = true := by intro o h; cases o <;> first | rfl | cases h
  refine ⟨s1, s2, ?_, ?_, ?_, fun o' h' => ?_, fun o' h' => ?_⟩
  · rw [Srv.run_append, a1]
    simp only [CM.ret_bind, Srv.run, hst]
    exact c1
  · rw [← countP_own hc, a2]
    refine chanOps_count (fun op => ?_) pre
    constructor
    · intro h; cases op with
      | chan o => refine ⟨o, rfl, ?_⟩; cases o <;> first | exact ⟨rfl, rfl⟩ | cases h
      | _ => cases h
    · rintro ⟨o, rfl, -, h⟩; cases o <;> first | rfl | cases h
  · rw [← countP_own hr, c2]
    refine chanOps_count (fun op => ?_) post
    constructor
    · intro h; cases op with
      | chan o => refine ⟨o, rfl, ?_⟩; cases o <;> first | exact ⟨rfl, rfl⟩ | cases h
      | _ => cases h
    · rintro ⟨o, rfl, -, h⟩; cases o <;> first | rfl | cases h
  · rw [← mem_chanOps h', ← a2, List.mem_filter]; simp [h']
  · rw [← mem_chanOps h', ← c2, List.mem_filter]; simp [h']

theorem relay_started (es : List SEv) : ∀ {v v' : Svk W}, v.relay es = .ret v' → 1 ≤ v.asv.starts ∨ SEv.serverStart ∈ es → 1 ≤ v'.asv.starts := by
  induction es with
  | nil =>
    intro v v' h hd
    injection h with h; subst h
    rcases hd with hd | hd
    · exact hd
    · cases hd
  | cons e es ih =>
    intro v v' h hd
    simp only [relay] at h
    obtain ⟨u, h1, h⟩ := CM.bind_eq_ret.1 h
    refine ih h ?_
    by_cases he : SEv.serverStart ∈ es
    · exact Or.inr he
    left
    unfold relay1 at h1
    dsimp only at h1
    split at h1
    · obtain ⟨a, es', h2, -, -, rfl⟩ := net_spec h1
      injection h2 with h2; subst h2
      simp
    · obtain ⟨a, es', h2, -, -, rfl⟩ := net_spec h1
      rcases hd with hd | hd
      · exact Nat.le_trans hd (Asv.starts_mono h2)
      · rcases List.mem_cons.1 hd with hd | hd
        · cases hd
        · exact absurd hd he
    · rename_i g1 g2
      injection h1 with h1; subst h1
      rcases hd with hd | hd
      · exact hd
      · rcases List.mem_cons.1 hd with hd | hd
        · exact absurd hd.symm g1
        · exact absurd hd he

/-- If the channel has told the listening server to start, it has. -/
theorem _root_.Modbus.Spec.VReach.begun {env : ServerEnv W} {w : W} {max : UInt32} {v : Svk W} (h : VReach env w max v)
    (hm : SEv.serverStart ∈ v.srv.log) : 1 ≤ v.asv.starts := by
  induction h with
  | init => cases hm
  | @step v v' op hv hs ih =>
    cases op with
    | chan o =>
      simp only [Svk.step] at hs
      split at hs
      · rename_i ho
        simp only [chan] at hs
        obtain ⟨s, hst, hs⟩ := CM.bind_eq_ret.1 hs
        obtain ⟨h1, new, h2, h3⟩ := own_step ho hst
        simp only [h2, List.drop_left] at hs
        refine relay_started new hs ?_
        obtain ⟨u, b1, b2, -⟩ := relay_spec new ({ v with srv := s } : Svk W)
        rw [b1] at hs; injection hs with hs; subst hs
        rw [b2] at hm
        have hm : SEv.serverStart ∈ s.log := hm
        rw [h2] at hm
        rcases List.mem_append.1 hm with hm | hm
        · exact Or.inl (ih hm)
        · exact Or.inr hm
      · injection hs with hs; subst hs; exact ih hm
    | complete i r =>
      obtain ⟨a, es, h1, h2, h3, rfl⟩ := net_spec hs
      exact Nat.le_trans (ih hm) (Asv.starts_mono h1)
    | run k mem =>
      obtain ⟨rs, h1, -, -, -⟩ := run_asv hv.ok hs
      refine Nat.le_trans (ih ?_) (Asv.starts_mono h1)
      rcases run_srv hs with he | ⟨t, d, o, -, -, ho, hst⟩
      · rw [← he]; exact hm
      · rcases Srv.step_ctl hst with ⟨t, ts, rfl, -⟩ | ⟨-, -, -, -, new, hnew, htr, -⟩
        · rcases ho with ho | ho | ⟨_, ho⟩ <;> cases ho
        · rw [hnew] at hm
          rcases List.mem_append.1 hm with hm | hm
          · exact hm
          · exact absurd (htr _ hm) (by simp [SEv.isTraffic])

/-- As long as `shutdown` is not called, neither the channel nor the listening server is shut down. -/
theorem run_stays_up {env : ServerEnv W} {w : W} {max : UInt32} {ops : List Op} {v : Svk W} (h : (Svk.init w max).run env ops = .ret v) (hn : Op.chan .shutdown ∉ ops) :
    v.srv.isShutdown = false ∧ v.asv.isShutdown = false := by
  obtain ⟨sops, h1, h2⟩ := run_proj _ h
  have hn' : Srv.Op.shutdown ∉ sops := by
    intro hm
    have : Srv.Op.shutdown ∈ sops.filter own := List.mem_filter.2 ⟨hm, rfl⟩
    rw [h2] at this
    exact hn ((mem_chanOps rfl).1 this)
  have hd := (Srv.run_up sops hn' _ _ h1 ⟨rfl, by simp [Svk.init, Srv.init]⟩).1
  refine ⟨hd, ?_⟩
  cases ha : v.asv.isShutdown with
  | false => rfl
  | true =>
    have := (run_reach ops .init h).down (Or.inl ha)
    rw [hd] at this; cases this

/-- Connection `c` has been accepted, is read, and nothing has been received on it yet. -/
structure Fresh (c : Nat) (v : Svk W) : Prop where
  reading : AOp.read c ∈ v.asv.flying
  noError : AEv.error c ∉ v.asv.log
  nothing : asvReceived c v.asv.log = []

/-- An accept completes and its handler is run: the new connection is read. -/
theorem accepts_any {env : ServerEnv W} {w : W} {max : UInt32} (hmax : max.toNat < 4294967295) {v : Svk W} (h : VReach env w max v) (hst : VThroughout SingleStart v)
    (hd : v.asv.isShutdown = false) {i c : Nat} (hf : v.asv.flying[i]? = some (.accept c)) (mem : Vector UInt8 260) :
    ∃ v2, v.run env [.complete i .ok, .run v.asv.queue.length mem] = .ret v2 ∧ Fresh c v2 ∧ AEv.joined c ∈ v2.asv.log ∧ ATask.startAccept ∈ v2.asv.queue := by
  have hok := h.ok
  have htk : 0 < v.asv.tok c := by
    have : 0 < v.asv.flying.countP (Asv.tokOp c) := List.countP_pos_iff.2 ⟨_, List.mem_of_getElem? hf, by simp [Asv.tokOp]⟩
    simp only [Asv.tok]; omega
  have hrc := hok.asv.unheard c (Or.inr htk)
  have hwb := hok.asv.frz c (Or.inr htk)
  have her : AEv.error c ∉ v.asv.log := by
    intro he
    obtain ⟨⟨-, ht⟩, -⟩ := hok.asv.inv.errLive c he
    omega
  obtain ⟨a, ha⟩ : ∃ a : Asv, a = (({ v.asv with flying := v.asv.flying.eraseIdx i }).setConn c { v.asv.conns c with isOpen := true }).post (.accepted c true) := ⟨_, rfl⟩
  have hs1 : v.asv.step (.complete i .ok) = .ret a := by simp [Asv.step, Asv.complete, hf, ha]
  obtain ⟨v1, h1, k1, k2, k3⟩ : ∃ v1, v.step env (.complete i .ok) = .ret v1 ∧ v1.asv = a ∧ v1.srv = v.srv ∧ v1.steps = v.steps ++ [(v.asv, .complete i .ok)] :=
    ⟨{ v with asv := a, log := v.log ++ (a.log.drop v.asv.log.length).map .net, steps := v.steps ++ [(v.asv, .complete i .ok)] },
      by simp only [Svk.step, net, hs1, CM.ret_bind, CM.pure_eq], rfl, rfl, rfl⟩
  have r1 := h.step h1
  have hst1 : VThroughout SingleStart v1 := by
    intro x hx
    rw [k3] at hx
    rcases List.mem_append.1 hx with hx | hx
    · exact hst x hx
    · rw [List.mem_singleton.1 hx]; intro hh; cases hh
  obtain ⟨v2, h2⟩ := run_total hmax r1 hst1 v.asv.queue.length mem
  obtain ⟨rs, h3, -⟩ := run_asv r1.ok h2
  refine ⟨v2, by simp [run, h1, h2], ?_⟩
  rw [k1] at h3
  have hq : a.queue[v.asv.queue.length]? = some (.accepted c true) := by rw [ha]; simp [Asv.post, Asv.setConn]
  have hac : a.conns c = { v.asv.conns c with isOpen := true } := by rw [ha]; simp [Asv.post, Asv.setConn]
  have had : a.isShutdown = false := by rw [ha]; exact hd
  have hal : a.log = v.asv.log := by rw [ha]; rfl
  obtain ⟨es, e1, e2⟩ := Asv.step_adds h3
  have hes : ∀ e ∈ es, Asv.quiet e = true ∨ ∃ c d, e = .submit c d := by
    cases e2 with
    | data k rs d bytes rest g1 g2 g3 g4 => injection g1 with g1; subst g1; rw [hq] at g2; cases g2
    | error k rs d rest g1 g2 g3 g4 => injection g1 with g1; subst g1; rw [hq] at g2; rcases g2 with g2 | g2 <;> cases g2
    | other g1 g2 => exact fun e he => (g2 e he).imp id fun ⟨_, _, c, _, d, _, _, _, h⟩ => ⟨c, d, h⟩
  have key : AOp.read c ∈ v2.asv.flying ∧ AEv.joined c ∈ v2.asv.log ∧ ATask.startAccept ∈ v2.asv.queue := by
    have fin : ∀ u : Asv, (u.conns c) = { v.asv.conns c with isOpen := true } → u.isShutdown = false → AEv.joined c ∈ u.log → v2.asv = (u.startConn c).startAccept →
        AOp.read c ∈ v2.asv.flying ∧ AEv.joined c ∈ v2.asv.log ∧ ATask.startAccept ∈ v2.asv.queue := by
      intro u u1 u2 u3 hu
      have e : (u.startConn c) = { u.setConn c { u.conns c with connected := true } with flying := u.flying ++ [.read c] } := by
        simp [Asv.startConn, Asv.sendBuffer, Asv.beginRead, Asv.setConn, u1, hwb]
      rw [e] at hu
      rw [hu]
      simp [Asv.startAccept, Asv.setConn, Asv.post, u2, u3]
    simp only [Asv.step, hq, Asv.runTask, Asv.onAccepted, had, Bool.false_eq_true, if_false, if_true] at h3
    split at h3
    · split at h3
      · cases h3
      · rename_i front rest hl
        injection h3 with h3
        refine fin _ ?_ ?_ ?_ h3.symm
        · unfold Asv.removeConnection; split <;> exact hac
        · unfold Asv.removeConnection; split <;> rfl
        · unfold Asv.removeConnection; split <;> simp [Asv.emit, Asv.post]
    · injection h3 with h3
      refine fin _ ?_ ?_ ?_ h3.symm
      · exact hac
      · rfl
      · simp [Asv.emit]
  refine ⟨⟨key.1, ?_, ?_⟩, key.2⟩
  · rw [e1, hal]
    intro hm
    rcases List.mem_append.1 hm with hm | hm
    · exact her hm
    · rcases hes _ hm with hx | ⟨_, _, hx⟩ <;> cases hx
  · rw [e1, Asv.received_append, hal, hrc, Asv.quiet_received hes c, List.nil_append]

/-- What happens elsewhere leaves a connection as it is. -/
theorem Fresh.elsewhere {env : ServerEnv W} {w : W} {max : UInt32} {c : Nat} (ops : List Op) : ∀ {v v' : Svk W}, VReach env w max v → Fresh c v → Elsewhere env c v ops →
    v.run env ops = .ret v' → Fresh c v' := by
  induction ops with
  | nil => intro v v' _ h _ hr; injection hr with hr; subst hr; exact h
  | cons op ops ih =>
    intro v v' hv h he hr
    simp only [run] at hr
    obtain ⟨u, h1, h2⟩ := CM.bind_eq_ret.1 hr
    refine ih (hv.step h1) ?_ (he.2 u h1) h2
    have hc := Props.C99_connections_independent env w max v u hv op h1 c he.1
    have hok := hv.ok
    have hok' := (hv.step h1).ok
    rw [hok.cnl, hok'.cnl] at hc
    refine ⟨?_, ?_, ?_⟩
    · have := hc.2.1 (.read c) (Or.inl rfl)
      have hp := List.count_pos_iff.2 h.reading
      exact List.count_pos_iff.1 (by omega)
    · rw [hc.2.2.2.2.2.2.2.1]; exact h.noError
    · rw [hc.2.2.2.1]; exact h.nothing

/-- Running a task of the connections does not shut the channel down. -/
theorem run_keeps_up {env : ServerEnv W} {v v' : Svk W} {k : Nat} {mem : Vector UInt8 260} (hs : v.step env (.run k mem) = .ret v') (hd : v.srv.isShutdown = false) :
    v'.srv.isShutdown = false := by
  rcases run_srv hs with he | ⟨t, d, o, -, -, ho, hst⟩
  · rw [he]; exact hd
  · rcases Srv.step_ctl hst with ⟨t, ts, rfl, -⟩ | ⟨e, -⟩
    · rcases ho with ho | ho | ⟨_, ho⟩ <;> cases ho
    · rw [e]; exact hd

/-- A queued task comes to the front when the tasks before it have been run. -/
theorem to_front {env : ServerEnv W} {w : W} {max : UInt32} (hmax : max.toNat < 4294967295) (mem : Vector UInt8 260) {t0 : ATask} (pre : List ATask) :
    ∀ {v : Svk W}, VReach env w max v → VThroughout SingleStart v → v.srv.isShutdown = false → (∃ post, v.asv.queue = pre ++ t0 :: post) →
      ∃ v' post, v.run env (List.replicate pre.length (.run 0 mem)) = .ret v' ∧ v'.asv.queue = t0 :: post ∧ VThroughout SingleStart v' ∧ v'.srv.isShutdown = false := by
  induction pre with
  | nil => rintro v h hst hd ⟨post, hq⟩; exact ⟨v, post, rfl, hq, hst, hd⟩
  | cons t pre ih =>
    rintro v h hst hd ⟨post, hq⟩
    obtain ⟨v', hs⟩ := run_total hmax h hst 0 mem
    obtain ⟨rs, h1, -, h2, -⟩ := run_asv h.ok hs
    obtain ⟨more, hm⟩ := Asv.run_front hq h1
    obtain ⟨v2, p, h3, h4⟩ := ih (h.step hs) (throughout_run hst h2) (run_keeps_up hs hd) ⟨post ++ more, by rw [hm]; simp⟩
    refine ⟨v2, p, ?_, h4⟩
    rw [List.length_cons, List.replicate_succ]
    simp only [run, hs, CM.ret_bind]
    exact h3

theorem asv_up {env : ServerEnv W} {w : W} {max : UInt32} {v : Svk W} (h : VReach env w max v) (hd : v.srv.isShutdown = false) : v.asv.isShutdown = false := by
  cases ha : v.asv.isShutdown with
  | false => rfl
  | true => have := h.down (Or.inl ha); rw [hd] at this; cases this

theorem replicate_run {env : ServerEnv W} {v v' : Svk W} {op : Op} {n m : Nat} {v'' : Svk W} (h1 : v.run env (List.replicate n op) = .ret v')
    (h2 : v'.run env (List.replicate m op) = .ret v'') : v.run env (List.replicate (n + m) op) = .ret v'' := by
  rw [← List.replicate_append_replicate, run_append, h1]; exact h2

/-- A queued start of an accept is carried out. -/
theorem gets_ready {env : ServerEnv W} {w : W} {max : UInt32} (hmax : max.toNat < 4294967295) (mem : Vector UInt8 260) {v : Svk W} (h : VReach env w max v)
    (hst : VThroughout SingleStart v) (hd : v.srv.isShutdown = false) (hm : ATask.startAccept ∈ v.asv.queue) :
    ∃ n v' c, v.run env (List.replicate n (.run 0 mem)) = .ret v' ∧ AOp.accept c ∈ v'.asv.flying := by
  obtain ⟨pre, post, hq⟩ := List.append_of_mem hm
  obtain ⟨u, p, h1, h2, h3, h4⟩ := to_front hmax mem pre h hst hd ⟨post, hq⟩
  have hu := run_reach _ h h1
  obtain ⟨v', hs⟩ := run_total hmax hu h3 0 mem
  obtain ⟨rs, k1, -⟩ := run_asv hu.ok hs
  refine ⟨pre.length + 1, v', u.asv.nextConn, replicate_run h1 (by simp [run, hs]), ?_⟩
  simp only [Asv.step, h2] at k1
  simp [Asv.runTask, Asv.runStartAccept, asv_up hu h4] at k1
  rw [← k1]; simp

/-- So is a queued handler of a successful accept, after which the next one is started. -/
theorem gets_ready_again {env : ServerEnv W} {w : W} {max : UInt32} (hmax : max.toNat < 4294967295) (mem : Vector UInt8 260) {v : Svk W} (h : VReach env w max v)
    (hst : VThroughout SingleStart v) (hd : v.srv.isShutdown = false) {c : Nat} (hm : ATask.accepted c true ∈ v.asv.queue) :
    ∃ n v' c, v.run env (List.replicate n (.run 0 mem)) = .ret v' ∧ AOp.accept c ∈ v'.asv.flying := by
  obtain ⟨pre, post, hq⟩ := List.append_of_mem hm
  obtain ⟨u, p, h1, h2, h3, h4⟩ := to_front hmax mem pre h hst hd ⟨post, hq⟩
  have hu := run_reach _ h h1
  obtain ⟨v', hs⟩ := run_total hmax hu h3 0 mem
  obtain ⟨rs, k1, -, k2, -⟩ := run_asv hu.ok hs
  have hmem : ATask.startAccept ∈ v'.asv.queue := by
    have hup := asv_up hu h4
    simp only [Asv.step, h2, List.getElem?_cons_zero, Asv.runTask, Asv.onAccepted, hup, Bool.false_eq_true, if_false, if_true] at k1
    have fin : ∀ x : Asv, x.isShutdown = false → v'.asv = (x.startConn c).startAccept → ATask.startAccept ∈ v'.asv.queue := by
      intro x hx he
      have : (x.startConn c).isShutdown = false := by
        simp only [Asv.startConn, Asv.beginRead]
        have e : ((x.setConn c { x.conns c with connected := true }).sendBuffer c).isShutdown = x.isShutdown := by
          unfold Asv.sendBuffer
          split
          · rfl
          · split
            · dsimp only; split <;> rfl
            · rfl
        split
        · split <;> (first | exact e.trans hx | (simp only [Asv.post]; exact e.trans hx))
        · exact e.trans hx
      rw [he]; simp [Asv.startAccept, this, Asv.post]
    split at k1
    · split at k1
      · cases k1
      · injection k1 with k1
        refine fin _ ?_ k1.symm
        unfold Asv.removeConnection; split <;> rfl
    · injection k1 with k1
      refine fin _ ?_ k1.symm
      rfl
  obtain ⟨n, v2, c2, j1, j2⟩ := gets_ready hmax mem (hu.step hs) (throughout_run h3 k2) (run_keeps_up hs h4) hmem
  exact ⟨pre.length + 1 + n, v2, c2, replicate_run (replicate_run h1 (by simp [run, hs])) j1, j2⟩

end Modbus.Svk
