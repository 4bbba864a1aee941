import Verif.Lemmas.AsioLog
import Verif.Props.ServerLife

/-! Helper lemmas about the whole server: how the channel and the connections keep in step. -/

namespace Modbus.Svk

open Spec
open Props (msgsOf sendsOf msgsOf_append sendsOf_append msgsOf_reacts feed_snoc)

variable {W : Type}

@[simp] theorem svLog_append (a b : List VEv) : svLog (a ++ b) = svLog a ++ svLog b := by simp [svLog]
@[simp] theorem cnLog_append (a b : List VEv) : cnLog (a ++ b) = cnLog a ++ cnLog b := by simp [cnLog]
@[simp] theorem svLog_ch (l : List SEv) : svLog (l.map .ch) = l := by
  induction l with
  | nil => rfl
  | cons e l ih => simp only [List.map_cons, svLog, List.filterMap_cons] at ih ⊢; rw [ih]
@[simp] theorem svLog_net (l : List AEv) : svLog (l.map .net) = [] := by simp [svLog]
@[simp] theorem cnLog_ch (l : List SEv) : cnLog (l.map .ch) = [] := by simp [cnLog]
@[simp] theorem cnLog_net (l : List AEv) : cnLog (l.map .net) = l := by
  induction l with
  | nil => rfl
  | cons e l ih => simp only [List.map_cons, cnLog, List.filterMap_cons] at ih ⊢; rw [ih]

theorem answers_eq (c : ConnId) (l : List SEv) : answers c l = sendsOf c l := by
  induction l with
  | nil => rfl
  | cons e l ih =>
    cases e with
    | send c' b => by_cases h : c' = c <;> simp_all [answers, sendsOf]
    | _ => simp_all [answers, sendsOf]

theorem sendsOf_reacts {env : ServerEnv W} {v v' : Srv W} {c : ConnId} {ms : List Mbap} (h : Srv.ReactsAll env c v ms v') {c' : ConnId} (hc : c ≠ c') {new : List SEv}
    (hn : v'.log = v.log ++ new) : sendsOf c' new = [] := by
  obtain ⟨bs, h1, h2, h3⟩ := h.blocks
  rw [hn] at h1
  rw [List.append_cancel_left h1]
  clear h h1 hn
  induction h3 with
  | nil => rfl
  | @cons m b ms bs h _ ih =>
    rw [List.flatten_cons, sendsOf_append, ih (fun b hb => h2 b (by simp [hb])), List.append_nil]
    obtain ⟨rest, hb, hrest⟩ := h
    cases h2 b (by simp) with
    | other e e1 e2 e3 => injection hb with hb; exact absurd hb (e1 _ _)
    | reaction c1 m1 calls ans hcalls hans =>
      injection hb with hb hb'
      injection hb with hb; subst hb
      have e1 : sendsOf c' (.mbap c1 m1 :: (calls ++ ans)) = sendsOf c' ans := by
        rcases hcalls with rfl | ⟨s, k, r, rfl⟩ <;> simp [sendsOf]
      rw [e1]
      rcases hans with rfl | ⟨pdu, -, rfl⟩
      · rfl
      · simp [sendsOf, hc]

/-- Own steps of the channel do not touch the listeners and concern no message. -/
theorem own_step {env : ServerEnv W} {v v' : Srv W} {op : Srv.Op} (ho : own op = true) (hs : v.step env op = .ret v') :
    v'.listeners = v.listeners ∧ ∃ new, v'.log = v.log ++ new ∧ ∀ e ∈ new, e.isTraffic = false := by
  cases op with
  | start => simp only [Srv.step] at hs; split at hs <;> (injection hs with hs; subst hs; exact ⟨rfl, [], by simp, by simp⟩)
  | shutdown => injection hs with hs; subst hs; exact ⟨rfl, [], by simp, by simp⟩
  | addSession u s => simp only [Srv.step] at hs; split at hs <;> (injection hs with hs; subst hs; exact ⟨rfl, [], by simp, by simp⟩)
  | runTask =>
    simp only [Srv.step] at hs
    split at hs
    · injection hs with hs; subst hs; exact ⟨rfl, [], by simp, by simp⟩
    · rename_i t ts ht
      injection hs with hs; subst hs
      refine ⟨Srv.runTask_listeners _ _, ?_⟩
      cases t with
      | start =>
        simp only [Srv.runTask]
        split
        · exact ⟨[], by simp, by simp⟩
        · exact ⟨[.serverStart], rfl, by simp [SEv.isTraffic]⟩
      | shutdown =>
        simp only [Srv.runTask]
        refine ⟨(if v.isStarted then [.serverShutdown] else []) ++ v.sessions.map fun x => .sessionShutdown x.2, ?_, ?_⟩
        · split <;> simp [Srv.emit]
        · intro e he
          rcases List.mem_append.1 he with he | he
          · split at he
            · rw [List.mem_singleton] at he; subst he; rfl
            · cases he
          · obtain ⟨x, -, rfl⟩ := List.mem_map.1 he; rfl
      | addSession u s =>
        simp only [Srv.runTask]
        split
        · exact ⟨[], by simp, by simp⟩
        · split <;> exact ⟨[], by simp, by simp⟩
  | opened c mem => cases ho
  | receive c d => cases ho
  | error c => cases ho
  | dropped c => cases ho

theorem noTraffic_msgs {l : List SEv} (h : ∀ e ∈ l, e.isTraffic = false) (c : ConnId) : msgsOf c l = [] ∧ sendsOf c l = [] := by
  constructor
  · simp only [msgsOf, List.filterMap_eq_nil_iff]
    intro e he
    have := h e he
    cases e <;> simp_all [SEv.isTraffic]
  · simp only [sendsOf, List.filterMap_eq_nil_iff]
    intro e he
    have := h e he
    cases e <;> simp_all [SEv.isTraffic]

/-- The listening server has been asked to start or shut down, nothing else has happened to it. -/
structure Calm (a a' : Asv) : Prop where
  conns : a'.conns = a.conns
  flying : a'.flying = a.flying
  queue : ∃ ts, a'.queue = a.queue ++ ts ∧ ∀ t ∈ ts, t = .startAccept ∨ t = .shutdown
  list : a'.list = a.list
  down : a'.isShutdown = a.isShutdown
  log : a'.log = a.log

theorem Calm.refl (a : Asv) : Calm a a := ⟨rfl, rfl, ⟨[], by simp, by simp⟩, rfl, rfl, rfl⟩

theorem Calm.trans {a b c : Asv} (h : Calm a b) (h' : Calm b c) : Calm a c := by
  obtain ⟨x, hx, hx'⟩ := h.queue
  obtain ⟨y, hy, hy'⟩ := h'.queue
  exact ⟨h'.conns.trans h.conns, h'.flying.trans h.flying, ⟨x ++ y, by rw [hy, hx, List.append_assoc], fun t ht => (List.mem_append.1 ht).elim (hx' t) (hy' t)⟩,
    h'.list.trans h.list, h'.down.trans h.down, h'.log.trans h.log⟩

theorem Calm.wired {a b : Asv} (h : Calm a b) {c : Nat} (hw : b.Wired c) : a.Wired c := by
  rcases hw with hw | ⟨o, ho, hc⟩ | ⟨t, ht, hc⟩
  · exact Or.inl (h.conns ▸ hw)
  · exact Or.inr (Or.inl ⟨o, h.flying ▸ ho, hc⟩)
  · obtain ⟨ts, h1, h2⟩ := h.queue
    rw [h1] at ht
    rcases List.mem_append.1 ht with ht | ht
    · exact Or.inr (Or.inr ⟨t, ht, hc⟩)
    · rcases h2 t ht with rfl | rfl <;> cases hc

theorem calm_start (a : Asv) : ∃ b, a.step .start = .ret b ∧ Calm a b := by
  refine ⟨_, rfl, ?_⟩
  simp only [Asv.startAccept]
  split
  · exact ⟨rfl, rfl, ⟨[], by simp, by simp⟩, rfl, rfl, rfl⟩
  · exact ⟨rfl, rfl, ⟨[.startAccept], rfl, by simp⟩, rfl, rfl, rfl⟩

theorem calm_shutdown (a : Asv) : ∃ b, a.step .shutdown = .ret b ∧ Calm a b := by
  exact ⟨_, rfl, rfl, rfl, ⟨[.shutdown], rfl, by simp⟩, rfl, rfl, rfl⟩

/-- The steps of the connections lead from one state to the other. -/
def Path (max : UInt32) (v v' : Svk W) : Prop :=
  AsvReach max (fun a op => (a, op) ∈ v.steps) v.asv → AsvReach max (fun a op => (a, op) ∈ v'.steps) v'.asv

theorem path_step {max : UInt32} {v : Svk W} {op : Asv.Op} {a : Asv} (hs : v.asv.step op = .ret a) (srv : Srv W) (log : List VEv) :
    Path max v { srv := srv, asv := a, log := log, steps := v.steps ++ [(v.asv, op)] } := fun h =>
  .step (h.mono fun _ _ h => List.mem_append_left _ h) (by simp) hs

theorem relay_spec (es : List SEv) : ∀ v : Svk W, ∃ v', v.relay es = .ret v' ∧ v'.srv = v.srv ∧ svLog v'.log = svLog v.log ++ es ∧ cnLog v'.log = cnLog v.log ∧
    Calm v.asv v'.asv ∧ (∀ max, Path max v v') ∧ (∀ x ∈ v.steps, x ∈ v'.steps) ∧
    (∀ x ∈ v'.steps, x ∈ v.steps ∨ (x.2 = .start ∧ SEv.serverStart ∈ es) ∨ x.2 = .shutdown ∧ SEv.serverShutdown ∈ es) := by
  induction es with
  | nil => exact fun v => ⟨v, rfl, rfl, by simp, rfl, .refl _, fun _ h => h, fun _ h => h, fun x h => Or.inl h⟩
  | cons e es ih =>
    intro v
    have h1 : ∃ u, v.relay1 e = .ret u ∧ u.srv = v.srv ∧ svLog u.log = svLog v.log ++ [e] ∧ cnLog u.log = cnLog v.log ∧ Calm v.asv u.asv ∧ (∀ max, Path max v u) ∧
        (∀ x ∈ v.steps, x ∈ u.steps) ∧ (∀ x ∈ u.steps, x ∈ v.steps ∨ (x.2 = .start ∧ e = .serverStart) ∨ x.2 = .shutdown ∧ e = .serverShutdown) := by
      have plainly : (∃ u : Svk W, u = { v with log := v.log ++ [.ch e] } ∧ v.relay1 e = .ret u) → ∃ u, v.relay1 e = .ret u ∧ u.srv = v.srv ∧ svLog u.log = svLog v.log ++ [e] ∧ cnLog u.log = cnLog v.log ∧ Calm v.asv u.asv ∧ (∀ max, Path max v u) ∧
          (∀ x ∈ v.steps, x ∈ u.steps) ∧ (∀ x ∈ u.steps, x ∈ v.steps ∨ (x.2 = .start ∧ e = .serverStart) ∨ x.2 = .shutdown ∧ e = .serverShutdown) := by
        rintro ⟨u, rfl, h⟩
        exact ⟨_, h, rfl, by simp [svLog], by simp [cnLog], .refl _, fun _ h => h, fun _ h => h, fun _ h => Or.inl h⟩
      cases e with
      | serverStart =>
        obtain ⟨b, hb, hc⟩ := calm_start v.asv
        refine ⟨{ srv := v.srv, asv := b, log := v.log ++ [.ch .serverStart], steps := v.steps ++ [(v.asv, .start)] }, ?_, rfl, by simp [svLog], by simp [cnLog], hc,
          fun max => path_step hb _ _, fun x h => List.mem_append_left _ h, fun x h => (List.mem_append.1 h).imp_right fun h => Or.inl ?_⟩
        · simp only [relay1, net, hb, CM.ret_bind, CM.pure_eq, hc.log]
          simp
        · rw [List.mem_singleton.1 h]; exact ⟨rfl, rfl⟩
      | serverShutdown =>
        obtain ⟨b, hb, hc⟩ := calm_shutdown v.asv
        refine ⟨{ srv := v.srv, asv := b, log := v.log ++ [.ch .serverShutdown], steps := v.steps ++ [(v.asv, .shutdown)] }, ?_, rfl, by simp [svLog], by simp [cnLog], hc,
          fun max => path_step hb _ _, fun x h => List.mem_append_left _ h, fun x h => (List.mem_append.1 h).imp_right fun h => Or.inr ?_⟩
        · simp only [relay1, net, hb, CM.ret_bind, CM.pure_eq, hc.log]
          simp
        · rw [List.mem_singleton.1 h]; exact ⟨rfl, rfl⟩
      | mbap c m => exact plainly ⟨_, rfl, rfl⟩
      | request s k r => exact plainly ⟨_, rfl, rfl⟩
      | send c b => exact plainly ⟨_, rfl, rfl⟩
      | sessionShutdown s => exact plainly ⟨_, rfl, rfl⟩
    obtain ⟨u, a1, a2, a3, a4, a5, a6, a7, a8⟩ := h1
    obtain ⟨v', b1, b2, b3, b4, b5, b6, b7, b8⟩ := ih u
    refine ⟨v', by simp [relay, a1, b1], b2.trans a2, by rw [b3, a3]; simp, b4.trans a4, a5.trans b5, fun max h => b6 max (a6 max h), fun x h => b7 x (a7 x h), fun x h => ?_⟩
    rcases b8 x h with h | ⟨h1, h2⟩ | ⟨h1, h2⟩
    · rcases a8 x h with h | ⟨h1, h2⟩ | ⟨h1, h2⟩
      · exact Or.inl h
      · exact Or.inr (Or.inl ⟨h1, by simp [h2]⟩)
      · exact Or.inr (Or.inr ⟨h1, by simp [h2]⟩)
    · exact Or.inr (Or.inl ⟨h1, by simp [h2]⟩)
    · exact Or.inr (Or.inr ⟨h1, by simp [h2]⟩)

/-- What a step of the connections does to the whole. -/
theorem net_spec {v v' : Svk W} {op : Asv.Op} (h : v.net op = .ret v') : ∃ a es, v.asv.step op = .ret a ∧ a.log = v.asv.log ++ es ∧ Asv.Adds v.asv op es ∧
    v' = { srv := v.srv, asv := a, log := v.log ++ es.map .net, steps := v.steps ++ [(v.asv, op)] } := by
  simp only [net] at h
  cases ha : v.asv.step op with
  | ub => rw [ha] at h; cases h
  | ret a =>
    rw [ha] at h
    simp only [CM.ret_bind, CM.pure_eq] at h
    obtain ⟨es, h1, h2⟩ := Asv.step_adds ha
    injection h with h; subst h
    exact ⟨a, es, rfl, h1, h2, by simp [h1]⟩

/-- A connection is opened or fails: only its listener changes. -/
theorem listener_spec {env : ServerEnv W} {v v' : Svk W} {op : Srv.Op} (ho : (∃ c mem, op = .opened c mem) ∨ ∃ c, op = .error c) (h : v.chan env op = .ret v') :
    ∃ s, v.srv.step env op = .ret s ∧ s.log = v.srv.log ∧ v' = { v with srv := s } := by
  simp only [chan] at h
  cases hs : v.srv.step env op with
  | ub => rw [hs] at h; cases h
  | ret s =>
    rw [hs] at h
    have hl : s.log = v.srv.log := by
      rcases ho with ⟨c, mem, rfl⟩ | ⟨c, rfl⟩
      · simp only [Srv.step] at hs
        split at hs <;> (injection hs with hs; subst hs; rfl)
      · simp only [Srv.step] at hs
        split at hs <;> (injection hs with hs; subst hs; rfl)
    simp only [CM.ret_bind, hl, List.drop_length, relay] at h
    injection h with h; subst h
    exact ⟨s, rfl, hl, rfl⟩

/-- What data on connection `c` does to the channel. -/
theorem receive_step {env : ServerEnv W} {v v' : Srv W} {c : ConnId} {bytes : List UInt8} (hs : v.step env (.receive c bytes) = .ret v') :
    (v' = v ∧ v.listeners.lookup c = none) ∨ ∃ p p' ms new, v.listeners.lookup c = some p ∧ p.parse bytes = .ret (p', ms) ∧
      Srv.ReactsAll env c { v with listeners := Srv.setListener v.listeners c p' } ms v' ∧ v'.listeners = Srv.setListener v.listeners c p' ∧ v'.log = v.log ++ new := by
  simp only [Srv.step] at hs
  cases hl : v.listeners.lookup c with
  | none => rw [hl] at hs; injection hs with hs; exact Or.inl ⟨hs.symm, rfl⟩
  | some p =>
    rw [hl] at hs
    simp only at hs
    cases hp : p.parse bytes with
    | ub => rw [hp] at hs; cases hs
    | ret x =>
      rw [hp] at hs
      simp only [CM.ret_bind] at hs
      obtain ⟨v2, h1, h2⟩ := Srv.onMbaps_reacts env c x.2 { v with listeners := Srv.setListener v.listeners c x.1 }
      rw [h1] at hs
      injection hs with hs; subst hs
      obtain ⟨bs, h3, -, -⟩ := h2.blocks
      exact Or.inr ⟨p, x.1, x.2, bs.flatten, rfl, hp, h2, h2.same.listeners, h3⟩

/-- The invariant of the whole server. -/
structure Ok (env : ServerEnv W) (w : W) (max : UInt32) (v : Svk W) : Prop where
  srv : ∃ ops, (Srv.init w).run env ops = .ret v.srv
  wf : Srv.WF env v.srv
  asv : AsvReach max (fun a op => (a, op) ∈ v.steps) v.asv
  svl : svLog v.log = v.srv.log
  cnl : cnLog v.log = v.asv.log
  asked : ∀ c, asvAsked c v.asv.log = sendsOf c v.srv.log
  lis : ∀ c, v.asv.Wired c → ∃ p, v.srv.listeners.lookup c = some p
  frm : ∀ c, AEv.error c ∉ v.asv.log → (v.srv.listeners.lookup c = none → asvReceived c v.asv.log = [] ∧ msgsOf c v.srv.log = []) ∧
    ∀ p, v.srv.listeners.lookup c = some p → ∃ mem : List UInt8, mem.length = 260 ∧
      (Parser.init env.pol mem).feed (asvReceived c v.asv.log) = .ret (p, msgsOf c v.srv.log)

theorem Ok.init (env : ServerEnv W) (w : W) (max : UInt32) : Ok env w max (Svk.init w max) where
  srv := ⟨[], rfl⟩
  wf := Srv.WF.init env w
  asv := .init
  svl := rfl
  cnl := rfl
  asked := fun _ => rfl
  lis := by
    rintro c (h | ⟨o, h, -⟩ | ⟨t, h, -⟩)
    · simp [Svk.init, Asv.init] at h
    · simp [Svk.init, Asv.init] at h
    · simp [Svk.init, Asv.init] at h
  frm := fun c _ => ⟨fun _ => ⟨rfl, rfl⟩, fun p h => by simp [Svk.init, Srv.init] at h⟩

theorem wf_step {env : ServerEnv W} {s s' : Srv W} {op : Srv.Op} (h : Srv.WF env s) (hs : s.step env op = .ret s') : Srv.WF env s' := by
  obtain ⟨t, h1, h2⟩ := Srv.step_total h op
  rw [hs] at h1; injection h1 with h1; subst h1; exact h2

/-- The connections make a step without their listeners being involved. -/
theorem Ok.plain {env : ServerEnv W} {w : W} {max : UInt32} {v : Svk W} (h : Ok env w max v) {op : Asv.Op} {a : Asv} {es : List AEv} (hs : v.asv.step op = .ret a)
    (hl : a.log = v.asv.log ++ es) (hp : ∀ e ∈ es, Asv.Plain e) (hw : ∀ c, a.Wired c → v.asv.Wired c) :
    Ok env w max { srv := v.srv, asv := a, log := v.log ++ es.map .net, steps := v.steps ++ [(v.asv, op)] } where
  srv := h.srv
  wf := h.wf
  asv := path_step hs _ _ h.asv
  svl := by simp [h.svl]
  cnl := by simp [h.cnl, hl]
  asked := fun c => by simp only [hl]; rw [Asv.asked_append, Asv.plain_asked hp, List.append_nil]; exact h.asked c
  lis := fun c hc => h.lis c (hw c hc)
  frm := fun c hc => by
    simp only [hl] at hc ⊢
    rw [Asv.received_append, Asv.plain_received hp, List.append_nil]
    exact h.frm c (fun he => hc (List.mem_append_left _ he))

theorem Ok.step {env : ServerEnv W} {w : W} {max : UInt32} {v v' : Svk W} (h : Ok env w max v) {op : Op} (hs : v.step env op = .ret v') : Ok env w max v' := by
  cases op with
  | chan op =>
    simp only [Svk.step] at hs
    split at hs
    · rename_i ho
      simp only [chan] at hs
      cases hst : v.srv.step env op with
      | ub => rw [hst] at hs; cases hs
      | ret s =>
        rw [hst] at hs
        obtain ⟨h1, new, h2, h3⟩ := own_step ho hst
        simp only [CM.ret_bind, h2, List.drop_left] at hs
        obtain ⟨u, b1, b2, b3, b4, b5, b6, b7, -⟩ := relay_spec new ({ v with srv := s } : Svk W)
        rw [b1] at hs; injection hs with hs; subst hs
        have e1 := fun c => noTraffic_msgs h3 c
        obtain ⟨ops, hops⟩ := h.srv
        refine ⟨⟨ops ++ [op], ?_⟩, ?_, b6 max h.asv, ?_, ?_, ?_, ?_, ?_⟩
        · rw [b2]; exact Srv.run_snoc hops hst
        · rw [b2]; exact wf_step h.wf hst
        · rw [b3, b2]; show svLog v.log ++ new = s.log; rw [h.svl, h2]
        · rw [b4, b5.log]; exact h.cnl
        · intro c
          rw [b5.log, b2]
          show asvAsked c v.asv.log = sendsOf c s.log
          rw [h2, sendsOf_append, (e1 c).2, List.append_nil]; exact h.asked c
        · intro c hc
          rw [b2]
          show ∃ p, s.listeners.lookup c = some p
          rw [h1]
          exact h.lis c (b5.wired hc)
        · intro c hc
          rw [b5.log] at hc ⊢
          rw [b2]
          show (s.listeners.lookup c = none → _) ∧ ∀ p, s.listeners.lookup c = some p → ∃ mem : List UInt8, mem.length = 260 ∧ (Parser.init env.pol mem).feed (asvReceived c v.asv.log) = .ret (p, msgsOf c s.log)
          show (_ → asvReceived c v.asv.log = [] ∧ msgsOf c s.log = []) ∧ _
          rw [h1, h2, msgsOf_append, (e1 c).1, List.append_nil]
          exact h.frm c hc
    · injection hs with hs; subst hs; exact h
  | complete i r =>
    obtain ⟨a, es, h1, h2, h3, rfl⟩ := net_spec hs
    cases h3 with
    | data k rs c b rest hop => cases hop
    | error k rs c rest hop => cases hop
    | other h4 h5 =>
      refine h.plain h1 h2 (Asv.Adds.plain h5) fun c hc => ?_
      rcases Asv.step_wired h1 hc with hw | ⟨k, rs, hop, -, -⟩
      · exact hw
      · cases hop
  | run k mem =>
    have hother : ∀ u : Svk W, v.net (.run k []) = .ret u → (∀ c, v.asv.queue[k]? ≠ some (.read c none) ∧ v.asv.queue[k]? ≠ some (.written c false) ∧
        (∀ bytes, v.asv.queue[k]? ≠ some (.read c (some bytes))) ∧ (v.asv.queue[k]? = some (.accepted c true) → v.asv.isShutdown = true)) → Ok env w max u := by
      intro u hu hq
      obtain ⟨a, es, h1, h2, h3, rfl⟩ := net_spec hu
      cases h3 with
      | data k rs c b rest hop hk => injection hop with e1 e2; subst e1; exact absurd hk ((hq c).2.2.1 b)
      | error k rs c rest hop hk =>
        injection hop with e1 e2; subst e1
        rcases hk with hk | hk
        · exact absurd hk (hq c).1
        · exact absurd hk (hq c).2.1
      | other h4 h5 =>
        refine h.plain h1 h2 (Asv.Adds.plain h5) fun c hc => ?_
        rcases Asv.step_wired h1 hc with hw | ⟨k', rs, hop, hk, hd⟩
        · exact hw
        · injection hop with e1 e2; subst e1
          rw [(hq c).2.2.2 hk] at hd; cases hd
    have herr : ∀ c, (v.asv.queue[k]? = some (.read c none) ∨ v.asv.queue[k]? = some (.written c false)) →
        (do let w ← v.net (.run k []); w.chan env (.error c)) = .ret v' → Ok env w max v' := by
      intro c hq hs
      cases hn : v.net (.run k []) with
      | ub => rw [hn] at hs; cases hs
      | ret u =>
        rw [hn] at hs
        simp only [CM.ret_bind] at hs
        obtain ⟨a, es, h1, h2, h3, rfl⟩ := net_spec hn
        obtain ⟨s, h4, h5, rfl⟩ := listener_spec (Or.inr ⟨c, rfl⟩) hs
        have h4 : v.srv.step env (.error c) = .ret s := h4
        have h5 : s.log = v.srv.log := h5
        obtain ⟨ops, hops⟩ := h.srv
        have hes : ∃ rest, es = .error c :: rest ∧ ∀ e ∈ rest, Asv.Plain e := by
          cases h3 with
          | data k rs c' b rest hop hk => injection hop with e1 e2; subst e1; rw [hk] at hq; simp at hq
          | error k rs c' rest hop hk he hr =>
            injection hop with e1 e2; subst e1
            have : c' = c := by
              rcases hk with hk | hk <;> rcases hq with hq | hq <;> rw [hk] at hq <;> simp at hq <;> exact hq
            subst this
            exact ⟨rest, he, Asv.quiet_plain hr⟩
          | other h6 h7 =>
            rcases hq with hq | hq
            · exact absurd hq (h6 k [] c rfl).1
            · exact absurd hq (h6 k [] c rfl).2.1
        obtain ⟨rest, rfl, hrest⟩ := hes
        have hlook : ∀ c', (∃ p, v.srv.listeners.lookup c' = some p) → ∃ p, s.listeners.lookup c' = some p := by
          rintro c' ⟨p, hp⟩
          simp only [Srv.step] at h4
          split at h4
          · injection h4 with h4; subst h4; exact ⟨p, hp⟩
          · rename_i q hq
            injection h4 with h4; subst h4
            by_cases hcc : c = c'
            · subst hcc; exact ⟨_, Srv.lookup_setListener_same _ _ q _ hq⟩
            · exact ⟨p, by rw [← hp]; exact Srv.lookup_setListener_other _ _ _ _ hcc⟩
        have hother : ∀ c', c ≠ c' → s.listeners.lookup c' = v.srv.listeners.lookup c' := by
          intro c' hcc
          simp only [Srv.step] at h4
          split at h4
          · injection h4 with h4; subst h4; rfl
          · injection h4 with h4; subst h4; exact Srv.lookup_setListener_other _ _ _ _ hcc
        have hpa : ∀ c', asvAsked c' (AEv.error c :: rest) = [] := fun c' => by
          have := Asv.plain_asked hrest c'
          simpa [asvAsked] using this
        have hpr : ∀ c', asvReceived c' (AEv.error c :: rest) = [] := fun c' => by
          have := Asv.plain_received hrest c'
          simpa [asvReceived] using this
        refine ⟨⟨ops ++ [.error c], Srv.run_snoc hops h4⟩, wf_step h.wf h4, path_step h1 _ _ h.asv, ?_, ?_, fun c' => ?_, fun c' hc => ?_, fun c' hc => ?_⟩
        · show svLog (v.log ++ _) = s.log
          rw [svLog_append, svLog_net, List.append_nil, h.svl, h5]
        · show cnLog (v.log ++ _) = a.log
          rw [cnLog_append, cnLog_net, h.cnl, h2]
        · show asvAsked c' a.log = sendsOf c' s.log
          rw [h2, Asv.asked_append, hpa, List.append_nil, h5]
          exact h.asked c'
        · refine hlook c' (h.lis c' ?_)
          rcases Asv.step_wired h1 hc with hw | ⟨k', rs, hop, hk, -⟩
          · exact hw
          · injection hop with e1 e2; subst e1
            rw [hk] at hq; simp at hq
        · have hc : AEv.error c' ∉ a.log := hc
          show (s.listeners.lookup c' = none → asvReceived c' a.log = [] ∧ msgsOf c' s.log = []) ∧
            ∀ p, s.listeners.lookup c' = some p → ∃ mem : List UInt8, mem.length = 260 ∧ (Parser.init env.pol mem).feed (asvReceived c' a.log) = .ret (p, msgsOf c' s.log)
          have hcc : c ≠ c' := by rintro rfl; exact hc (h2 ▸ by simp)
          rw [hother c' hcc, h2, Asv.received_append, hpr, List.append_nil, h5]
          exact h.frm c' (fun he => hc (h2 ▸ List.mem_append_left _ he))
    simp only [Svk.step] at hs
    split at hs
    · rename_i c hk
      cases hn : v.net (.run k []) with
      | ub => rw [hn] at hs; cases hs
      | ret u =>
        rw [hn] at hs
        simp only [CM.ret_bind, CM.pure_eq] at hs
        split at hs
        · rename_i hd
          injection hs with hs; subst hs
          exact hother u hn (fun c' => by rw [hk]; simp [hd])
        · obtain ⟨a, es, h1, h2, h3, rfl⟩ := net_spec hn
          obtain ⟨s, h4, h5, rfl⟩ := listener_spec (Or.inl ⟨c, mem, rfl⟩) hs
          have h4 : v.srv.step env (.opened c mem) = .ret s := h4
          have h5 : s.log = v.srv.log := h5
          obtain ⟨ops, hops⟩ := h.srv
          have hes : ∀ e ∈ es, Asv.Plain e := by
            cases h3 with
            | data k rs c' b rest hop hk' => injection hop with e1 e2; subst e1; rw [hk] at hk'; simp at hk'
            | error k rs c' rest hop hk' => injection hop with e1 e2; subst e1; rw [hk] at hk'; simp at hk'
            | other h6 h7 => exact Asv.Adds.plain h7
          have hlk : s.listeners.lookup c = (v.srv.listeners.lookup c).or (some (Parser.init env.pol mem.toList)) := by
            simp only [Srv.step] at h4
            split at h4
            · rename_i hsome
              injection h4 with h4; subst h4
              cases hv : v.srv.listeners.lookup c with
              | none => rw [hv] at hsome; cases hsome
              | some p => rfl
            · injection h4 with h4; subst h4
              show List.lookup c (v.srv.listeners ++ _) = _
              rw [Srv.lookup_append_single]
              simp
          have hoth : ∀ c', c ≠ c' → s.listeners.lookup c' = v.srv.listeners.lookup c' := by
            intro c' hcc
            simp only [Srv.step] at h4
            split at h4
            · injection h4 with h4; subst h4; rfl
            · injection h4 with h4; subst h4
              show List.lookup c' (v.srv.listeners ++ _) = _
              rw [Srv.lookup_append_single, if_neg (Ne.symm hcc)]
              simp
          refine ⟨⟨ops ++ [.opened c mem], Srv.run_snoc hops h4⟩, wf_step h.wf h4, path_step h1 _ _ h.asv, ?_, ?_, fun c' => ?_, fun c' hc => ?_, fun c' hc => ?_⟩
          · show svLog (v.log ++ _) = s.log
            rw [svLog_append, svLog_net, List.append_nil, h.svl, h5]
          · show cnLog (v.log ++ _) = a.log
            rw [cnLog_append, cnLog_net, h.cnl, h2]
          · show asvAsked c' a.log = sendsOf c' s.log
            rw [h2, Asv.asked_append, Asv.plain_asked hes, List.append_nil, h5]
            exact h.asked c'
          · show ∃ p, s.listeners.lookup c' = some p
            by_cases hcc : c = c'
            · subst hcc
              rw [hlk]
              cases v.srv.listeners.lookup c with
              | none => exact ⟨_, rfl⟩
              | some p => exact ⟨p, rfl⟩
            · rw [hoth c' hcc]
              refine h.lis c' ?_
              rcases Asv.step_wired h1 hc with hw | ⟨k', rs, hop, hk', -⟩
              · exact hw
              · injection hop with e1 e2; subst e1
                rw [hk] at hk'; simp at hk'; exact absurd hk' hcc
          · have hc : AEv.error c' ∉ a.log := hc
            show (s.listeners.lookup c' = none → asvReceived c' a.log = [] ∧ msgsOf c' s.log = []) ∧
              ∀ p, s.listeners.lookup c' = some p → ∃ mem : List UInt8, mem.length = 260 ∧ (Parser.init env.pol mem).feed (asvReceived c' a.log) = .ret (p, msgsOf c' s.log)
            have hf := h.frm c' (fun he => hc (h2 ▸ List.mem_append_left _ he))
            rw [h2, Asv.received_append, Asv.plain_received hes, List.append_nil, h5]
            by_cases hcc : c = c'
            · subst hcc
              rw [hlk]
              cases hv : v.srv.listeners.lookup c with
              | some p => rw [hv] at hf; exact hf
              | none =>
                rw [hv] at hf
                obtain ⟨e1, e2⟩ := hf.1 rfl
                refine ⟨fun hx => (by cases hx), fun p hp => ?_⟩
                injection hp with hp; subst hp
                exact ⟨mem.toList, by simp, by rw [e1, e2]; rfl⟩
            · rw [hoth c' hcc]; exact hf
    · rename_i c bytes hk
      simp only [receive] at hs
      cases hst : v.srv.step env (.receive c bytes) with
      | ub => rw [hst] at hs; cases hs
      | ret s =>
        rw [hst] at hs
        simp only [CM.ret_bind] at hs
        cases ha : v.asv.step (.run k (answers c (s.log.drop v.srv.log.length))) with
        | ub => rw [ha] at hs; cases hs
        | ret a =>
          rw [ha] at hs
          simp only [CM.ret_bind, CM.pure_eq] at hs
          injection hs with hs; subst hs
          obtain ⟨es, h2, h3⟩ := Asv.step_adds ha
          have hwr : v.asv.Wired c := Or.inr (Or.inr ⟨_, List.mem_of_getElem? hk, rfl⟩)
          obtain ⟨p, hp⟩ := h.lis c hwr
          obtain ⟨-, e1⟩ | ⟨p0, p', ms, new, hp', hparse, hre, hls, hlog⟩ := receive_step hst
          · rw [e1] at hp; cases hp
          rw [hp] at hp'; injection hp' with hp'; subst hp'
          have hnew : s.log.drop v.srv.log.length = new := by rw [hlog, List.drop_left]
          rw [hnew, answers_eq] at h3
          obtain ⟨rest, rfl, hsl⟩ : ∃ rest, es = .receive c bytes :: rest ∧ Asv.SendLog c (sendsOf c new) rest := by
            cases h3 with
            | data k' rs c' b rest hop hk' he hr =>
              injection hop with e1 e2; subst e1 e2
              rw [hk] at hk'; injection hk' with hk'; injection hk' with e3 e4
              injection e4 with e4; subst e3 e4
              exact ⟨rest, he, hr⟩
            | error k' rs c' rest hop hk' => injection hop with e1 e2; subst e1; rw [hk] at hk'; simp at hk'
            | other h6 h7 => exact absurd hk ((h6 k _ c rfl).2.2 bytes)
          obtain ⟨ops, hops⟩ := h.srv
          have hmsgs := fun c' => msgsOf_reacts hre c'
          have hsends : ∀ c', sendsOf c' s.log = sendsOf c' v.srv.log ++ if c = c' then sendsOf c new else [] := by
            intro c'
            rw [hlog, sendsOf_append]
            by_cases hcc : c = c'
            · subst hcc; simp
            · rw [if_neg hcc, sendsOf_reacts hre hcc hlog]
          refine ⟨⟨ops ++ [.receive c bytes], Srv.run_snoc hops hst⟩, wf_step h.wf hst, ?_, ?_, ?_, fun c' => ?_, fun c' hc => ?_, fun c' hc => ?_⟩
          · exact path_step ha _ _ h.asv
          · show svLog (v.log ++ _ ++ _ ++ _) = s.log
            rw [hnew, h2, List.drop_left, hlog]
            simp [svLog_append, h.svl]
            simp [svLog]
          · show cnLog (v.log ++ _ ++ _ ++ _) = a.log
            rw [hnew, h2, List.drop_left]
            simp [cnLog_append, h.cnl]
            simp [cnLog]
          · show asvAsked c' a.log = sendsOf c' s.log
            rw [h2, Asv.asked_append, hsends c', h.asked c']
            have := hsl.asked c'
            congr 1
          · show ∃ q, s.listeners.lookup c' = some q
            rw [hls]
            by_cases hcc : c = c'
            · subst hcc; exact ⟨_, Srv.lookup_setListener_same _ _ p _ hp⟩
            · rw [Srv.lookup_setListener_other _ _ _ _ hcc]
              refine h.lis c' ?_
              rcases Asv.step_wired ha hc with hw | ⟨k', rs, hop, hk', -⟩
              · exact hw
              · injection hop with e1 e2; subst e1
                rw [hk] at hk'; simp at hk'
          · have hc : AEv.error c' ∉ a.log := hc
            show (s.listeners.lookup c' = none → asvReceived c' a.log = [] ∧ msgsOf c' s.log = []) ∧
              ∀ p, s.listeners.lookup c' = some p → ∃ mem : List UInt8, mem.length = 260 ∧ (Parser.init env.pol mem).feed (asvReceived c' a.log) = .ret (p, msgsOf c' s.log)
            have hf := h.frm c' (fun he => hc (h2 ▸ List.mem_append_left _ he))
            have hrec : asvReceived c' a.log = asvReceived c' v.asv.log ++ if c = c' then [bytes] else [] := by
              rw [h2, Asv.received_append]
              have := hsl.received c'
              congr 1
              simp only [asvReceived, List.filterMap_cons] at this ⊢
              rw [this]
              by_cases hcc : c = c' <;> simp [hcc]
            rw [hls, hmsgs c', hrec]
            by_cases hcc : c = c'
            · subst hcc
              rw [Srv.lookup_setListener_same _ _ p _ hp]
              refine ⟨fun hx => (by cases hx), fun q hq => ?_⟩
              injection hq with hq; subst hq
              obtain ⟨mem0, hm, hfd⟩ := hf.2 p hp
              refine ⟨mem0, hm, ?_⟩
              rw [if_pos rfl, if_pos rfl]
              exact feed_snoc _ _ _ hfd hparse
            · rw [Srv.lookup_setListener_other _ _ _ _ hcc, if_neg hcc, if_neg hcc, List.append_nil, List.append_nil]
              exact hf
    · rename_i c hk; exact herr c (Or.inl hk) hs
    · rename_i c hk; exact herr c (Or.inr hk) hs
    · rename_i g1 g2 g3 g4
      exact hother v' hs (fun c => ⟨g3 c, g4 c, fun b => g2 c b, fun hx => absurd hx (g1 c)⟩)

theorem _root_.Modbus.Spec.VReach.ok {env : ServerEnv W} {w : W} {max : UInt32} {v : Svk W} (h : VReach env w max v) : Ok env w max v := by
  induction h with
  | init => exact .init env w max
  | step _ hs ih => exact ih.step hs

end Modbus.Svk
