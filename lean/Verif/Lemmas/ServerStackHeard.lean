import Verif.Lemmas.ServerStackThrowing
import Verif.Lemmas.ServerThrowing
import Verif.Lemmas.ServerStackServe

/-! Helper lemmas: what the channel sees of its connections, when sessions may throw. -/

namespace Modbus.SvkT

open Spec Props Asv Svk

variable {W : Type}

/-- What the channel has seen agrees with what the connections have received and been asked to send. -/
structure Heeds (pol : CopyPolicy) (s : Srv W) (deaf : List ConnId) (a : Asv) : Prop where
  asked : ∀ c, asvAsked c a.log = sendsOf c s.log
  lis : ∀ c, a.Wired c → ∃ p, s.listeners.lookup c = some p
  frm : ∀ c, AEv.error c ∉ a.log → (s.listeners.lookup c = none → asvReceived c a.log = [] ∧ msgsOf c s.log = []) ∧
    ∀ p, s.listeners.lookup c = some p → ∃ (mem : List UInt8) (ms : List Mbap), mem.length = 260 ∧
      (Parser.init pol mem).feed (asvReceived c a.log) = .ret (p, ms) ∧ msgsOf c s.log <+: ms ∧ (c ∉ deaf → msgsOf c s.log = ms)

theorem Heeds.init (pol : CopyPolicy) (w : W) (max : UInt32) : Heeds pol (Srv.init w) [] (Asv.init max) where
  asked := fun _ => rfl
  lis := by
    rintro c (h | ⟨o, h, -⟩ | ⟨t, h, -⟩)
    · simp [Asv.init] at h
    · simp [Asv.init] at h
    · simp [Asv.init] at h
  frm := fun c _ => ⟨fun _ => ⟨rfl, rfl⟩, fun p h => by simp [Srv.init] at h⟩

variable {pol : CopyPolicy} {s s' : Srv W} {deaf : List ConnId} {a b : Asv}

/-- The connections make a step without their listeners being involved. -/
theorem Heeds.plain (h : Heeds pol s deaf a) {es : List AEv} (hl : b.log = a.log ++ es) (hp : ∀ e ∈ es, Asv.Plain e) (hw : ∀ c, b.Wired c → a.Wired c) :
    Heeds pol s deaf b where
  asked := fun c => by rw [hl, Asv.asked_append, Asv.plain_asked hp, List.append_nil]; exact h.asked c
  lis := fun c hc => h.lis c (hw c hc)
  frm := fun c hc => by
    rw [hl] at hc ⊢
    rw [Asv.received_append, Asv.plain_received hp, List.append_nil]
    exact h.frm c (fun he => hc (List.mem_append_left _ he))

/-- The channel makes a step without its listeners being involved. -/
theorem Heeds.quiet (h : Heeds pol s deaf a) {new : List SEv} (hl : s'.listeners = s.listeners) (hg : s'.log = s.log ++ new) (hn : ∀ e ∈ new, e.isTraffic = false) :
    Heeds pol s' deaf a where
  asked := fun c => by rw [hg, sendsOf_append, (noTraffic_msgs hn c).2, List.append_nil]; exact h.asked c
  lis := fun c hc => by rw [hl]; exact h.lis c hc
  frm := fun c hc => by rw [hl, hg, msgsOf_append, (noTraffic_msgs hn c).1, List.append_nil]; exact h.frm c hc

/-- A listener is built for a connection. -/
theorem Heeds.opened (h : Heeds pol s deaf a) {env : ServerEnv W} (hpol : env.pol = pol) {c : ConnId} {mem : Vector UInt8 260} {es : List AEv} (hl : b.log = a.log ++ es)
    (hp : ∀ e ∈ es, Asv.Plain e) (hw : ∀ c', c ≠ c' → b.Wired c' → a.Wired c') (hs : s.step env (.opened c mem) = .ret s') : Heeds pol s' deaf b := by
  have hlog : s'.log = s.log := by
    simp only [Srv.step] at hs
    split at hs <;> (injection hs with hs; subst hs; rfl)
  have hlk : s'.listeners.lookup c = (s.listeners.lookup c).or (some (Parser.init env.pol mem.toList)) := by
    simp only [Srv.step] at hs
    split at hs
    · rename_i hsome
      injection hs with hs; subst hs
      cases hv : s.listeners.lookup c with
      | none => rw [hv] at hsome; cases hsome
      | some p => rfl
    · injection hs with hs; subst hs
      show List.lookup c (s.listeners ++ _) = _
      rw [Srv.lookup_append_single]
      simp
  have hoth : ∀ c', c ≠ c' → s'.listeners.lookup c' = s.listeners.lookup c' := by
    intro c' hcc
    simp only [Srv.step] at hs
    split at hs
    · injection hs with hs; subst hs; rfl
    · injection hs with hs; subst hs
      show List.lookup c' (s.listeners ++ _) = _
      rw [Srv.lookup_append_single, if_neg (Ne.symm hcc)]
      simp
  refine ⟨fun c' => ?_, fun c' hc => ?_, fun c' hc => ?_⟩
  · rw [hl, Asv.asked_append, Asv.plain_asked hp, List.append_nil, hlog]
    exact h.asked c'
  · by_cases hcc : c = c'
    · subst hcc
      rw [hlk]
      cases s.listeners.lookup c with
      | none => exact ⟨_, rfl⟩
      | some p => exact ⟨p, rfl⟩
    · rw [hoth c' hcc]
      exact h.lis c' (hw c' hcc hc)
  · have hf := h.frm c' (fun he => hc (hl ▸ List.mem_append_left _ he))
    rw [hl, Asv.received_append, Asv.plain_received hp, List.append_nil, hlog]
    by_cases hcc : c = c'
    · subst hcc
      rw [hlk]
      cases hv : s.listeners.lookup c with
      | some p => rw [hv] at hf; exact hf
      | none =>
        rw [hv] at hf
        obtain ⟨e1, e2⟩ := hf.1 rfl
        refine ⟨fun hx => (by cases hx), fun p hp => ?_⟩
        injection hp with hp; subst hp
        exact ⟨mem.toList, [], by simp, by rw [e1, hpol]; rfl, by rw [e2]; exact List.nil_prefix, fun _ => e2⟩
    · rw [hoth c' hcc]; exact hf

/-- A listener is told that its connection has failed. -/
theorem Heeds.error (h : Heeds pol s deaf a) {env : ServerEnv W} {c : ConnId} {rest : List AEv} (hl : b.log = a.log ++ .error c :: rest)
    (hp : ∀ e ∈ rest, Asv.Plain e) (hw : ∀ c', b.Wired c' → a.Wired c') (hs : s.step env (.error c) = .ret s') : Heeds pol s' deaf b := by
  have hlog : s'.log = s.log := by
    simp only [Srv.step] at hs
    split at hs <;> (injection hs with hs; subst hs; rfl)
  have hlook : ∀ c', (∃ p, s.listeners.lookup c' = some p) → ∃ p, s'.listeners.lookup c' = some p := by
    rintro c' ⟨p, hp⟩
    simp only [Srv.step] at hs
    split at hs
    · injection hs with hs; subst hs; exact ⟨p, hp⟩
    · rename_i q hq
      injection hs with hs; subst hs
      by_cases hcc : c = c'
      · subst hcc; exact ⟨_, Srv.lookup_setListener_same _ _ q _ hq⟩
      · exact ⟨p, by rw [← hp]; exact Srv.lookup_setListener_other _ _ _ _ hcc⟩
  have hother : ∀ c', c ≠ c' → s'.listeners.lookup c' = s.listeners.lookup c' := by
    intro c' hcc
    simp only [Srv.step] at hs
    split at hs
    · injection hs with hs; subst hs; rfl
    · injection hs with hs; subst hs; exact Srv.lookup_setListener_other _ _ _ _ hcc
  have hpa : ∀ c', asvAsked c' (AEv.error c :: rest) = [] := fun c' => by
    have := Asv.plain_asked hp c'
    simpa [asvAsked] using this
  have hpr : ∀ c', asvReceived c' (AEv.error c :: rest) = [] := fun c' => by
    have := Asv.plain_received hp c'
    simpa [asvReceived] using this
  refine ⟨fun c' => ?_, fun c' hc => hlook c' (h.lis c' (hw c' hc)), fun c' hc => ?_⟩
  · rw [hl, Asv.asked_append, hpa, List.append_nil, hlog]
    exact h.asked c'
  · have hcc : c ≠ c' := by rintro rfl; exact hc (hl ▸ by simp)
    rw [hother c' hcc, hl, Asv.received_append, hpr, List.append_nil, hlog]
    exact h.frm c' (fun he => hc (hl ▸ List.mem_append_left _ he))

/-- What data on connection `c` does to the channel. -/
theorem receive_stepT {env : ServerEnv W} {th : SThrows W} {v v' : SrvT W} {c : ConnId} {bytes : List UInt8} (hc : c ∉ v.deaf) (hs : v.step env th (.receive c bytes) = .ret v') :
    (v' = v ∧ v.srv.listeners.lookup c = none) ∨ ∃ p p' ms n new, v.srv.listeners.lookup c = some p ∧ p.parse bytes = .ret (p', ms) ∧
      Srv.ReactsAll (th.caught env) c { v.srv with listeners := Srv.setListener v.srv.listeners c p' } (ms.take n) v'.srv ∧
      v'.srv.listeners = Srv.setListener v.srv.listeners c p' ∧ v'.srv.log = v.srv.log ++ new ∧ (c ∉ v'.deaf → n = ms.length) ∧ ∀ c', c' ≠ c → (c' ∈ v'.deaf ↔ c' ∈ v.deaf) := by
  simp only [SrvT.step, if_neg hc] at hs
  split at hs
  · rename_i hl; injection hs with hs; exact Or.inl ⟨hs.symm, hl⟩
  · rename_i p hl
    obtain ⟨⟨p', ms⟩, hp, hs⟩ := CM.bind_eq_ret.1 hs
    obtain ⟨⟨y, t⟩, hy, hs⟩ := CM.bind_eq_ret.1 hs
    simp only [CM.pure_eq] at hs
    injection hs with hs; subst hs
    obtain ⟨n, -, n2, -, n4⟩ := Srv.onMbapsT_caught ms hy
    obtain ⟨z, g1, g2⟩ := Srv.onMbaps_reacts (th.caught env) c (ms.take n) { v.srv with listeners := Srv.setListener v.srv.listeners c p' }
    rw [n4] at g1; injection g1 with g1; subst g1
    obtain ⟨bs, h3, -, -⟩ := g2.blocks
    refine Or.inr ⟨p, p', ms, n, bs.flatten, hl, hp, g2, g2.same.listeners, h3, fun hd => n2 ?_, fun c' hcc => ?_⟩
    · cases t with
      | false => rfl
      | true => exact absurd List.mem_cons_self hd
    · cases t with
      | false => exact Iff.rfl
      | true => simp [hcc]

/-- Data arrive on a connection. -/
theorem Heeds.receive {env : ServerEnv W} {th : SThrows W} {v v' : SrvT W} (h : Heeds env.pol v.srv v.deaf a) {c : ConnId} {bytes : List UInt8} {es : List AEv}
    (hc : c ∉ v.deaf) (hw0 : a.Wired c) (hs : v.step env th (.receive c bytes) = .ret v')
    (hl : b.log = a.log ++ .receive c bytes :: es) (hsl : Asv.SendLog c (sendsOf c (v'.srv.log.drop v.srv.log.length)) es) (hw : ∀ c', b.Wired c' → a.Wired c') :
    Heeds env.pol v'.srv v'.deaf b := by
  obtain ⟨p, hp⟩ := h.lis c hw0
  obtain ⟨-, e1⟩ | ⟨p0, p', ms, n, new, hp', hparse, hre, hls, hlog, hn, hdf⟩ := receive_stepT hc hs
  · rw [e1] at hp; cases hp
  rw [hp] at hp'; injection hp' with hp'; subst hp'
  rw [hlog, List.drop_left] at hsl
  have hmsgs := fun c' => msgsOf_reacts hre c'
  have hsends : ∀ c', sendsOf c' v'.srv.log = sendsOf c' v.srv.log ++ if c = c' then sendsOf c new else [] := by
    intro c'
    rw [hlog, sendsOf_append]
    by_cases hcc : c = c'
    · subst hcc; simp
    · rw [if_neg hcc, sendsOf_reacts hre hcc hlog]
  refine ⟨fun c' => ?_, fun c' hc' => ?_, fun c' hc' => ?_⟩
  · rw [hl, Asv.asked_append, hsends c', h.asked c']
    have := hsl.asked c'
    congr 1
  · rw [hls]
    by_cases hcc : c = c'
    · subst hcc; exact ⟨_, Srv.lookup_setListener_same _ _ p _ hp⟩
    · rw [Srv.lookup_setListener_other _ _ _ _ hcc]
      exact h.lis c' (hw c' hc')
  · have hf := h.frm c' (fun he => hc' (hl ▸ List.mem_append_left _ he))
    have hrec : asvReceived c' b.log = asvReceived c' a.log ++ if c = c' then [bytes] else [] := by
      rw [hl, Asv.received_append]
      have := hsl.received c'
      congr 1
      simp only [asvReceived, List.filterMap_cons] at this ⊢
      rw [this]
      by_cases hcc : c = c' <;> simp [hcc]
    rw [hls, hmsgs c', hrec]
    by_cases hcc : c = c'
    · subst hcc
      rw [Srv.lookup_setListener_same _ _ p _ hp]
      refine ⟨fun hx => (by cases hx), fun q hq => ?_⟩
      injection hq with hq; subst hq
      obtain ⟨mem0, ms0, hm, hfd, hpre, heq⟩ := hf.2 p hp
      have heq := heq hc
      refine ⟨mem0, ms0 ++ ms, hm, ?_, ?_, fun hd => ?_⟩
      · rw [if_pos rfl]; exact feed_snoc _ _ _ hfd hparse
      · rw [if_pos rfl, ← heq]
        exact (List.prefix_append_right_inj _).2 (List.take_prefix _ _)
      · rw [if_pos rfl, hn hd, List.take_length, ← heq]
    · rw [Srv.lookup_setListener_other _ _ _ _ hcc, if_neg hcc, if_neg hcc, List.append_nil, List.append_nil, hdf c' (Ne.symm hcc)]
      exact hf

/-- The channel's own steps, when sessions may throw. -/
theorem own_stepT {env : ServerEnv W} {th : SThrows W} {v v' : SrvT W} {op : Srv.Op} (ho : own op = true) (hs : v.step env th op = .ret v') :
    v'.deaf = v.deaf ∧ v'.srv.listeners = v.srv.listeners ∧ ∃ new, v'.srv.log = v.srv.log ++ new ∧ ∀ e ∈ new, e.isTraffic = false := by
  have base : ∀ (h : op ≠ .runTask), (v.srv.step env op >>= fun s => CM.ret ({ v with srv := s } : SrvT W)) = .ret v' →
      v'.deaf = v.deaf ∧ v'.srv.listeners = v.srv.listeners ∧ ∃ new, v'.srv.log = v.srv.log ++ new ∧ ∀ e ∈ new, e.isTraffic = false := by
    intro _ hs
    obtain ⟨x, h1, h2⟩ := CM.bind_eq_ret.1 hs
    injection h2 with h2; subst h2
    exact ⟨rfl, own_step ho h1⟩
  cases op with
  | start => exact base (by simp) hs
  | shutdown => exact base (by simp) hs
  | addSession u x => exact base (by simp) hs
  | opened c mem => cases ho
  | receive c d => cases ho
  | error c => cases ho
  | dropped c => cases ho
  | runTask =>
    simp only [SrvT.step] at hs
    split at hs
    · injection hs with hs; subst hs; exact ⟨rfl, rfl, [], by simp, by simp⟩
    · rename_i t ts ht
      injection hs with hs; subst hs
      refine ⟨rfl, ?_⟩
      cases t with
      | shutdown =>
        simp only [Srv.runTaskT]
        have key : ∀ (x : Srv W) (new : List SEv), x.listeners = v.srv.listeners → x.log = v.srv.log ++ new → (∀ e ∈ new, e.isTraffic = false) →
            (match x.tellSessions th x.sessions with | (y, true) => y | (y, false) => { y with sessions := [] }).listeners = v.srv.listeners ∧
            ∃ new, (match x.tellSessions th x.sessions with | (y, true) => y | (y, false) => { y with sessions := [] }).log = v.srv.log ++ new ∧
              ∀ e ∈ new, e.isTraffic = false := by
          intro x new h1 h2 h3
          obtain ⟨n, -, hx, -⟩ := Srv.tellSessions_spec th x.sessions x
          have hm : ∀ e ∈ new ++ (x.sessions.take n).map (fun y => SEv.sessionShutdown y.2), e.isTraffic = false := by
            intro e he
            rcases List.mem_append.1 he with he | he
            · exact h3 e he
            · obtain ⟨y, -, rfl⟩ := List.mem_map.1 he; rfl
          split
          · rename_i y hy
            rw [hy] at hx
            simp only at hx; subst hx
            exact ⟨h1, _, by simp only [h2, List.append_assoc], hm⟩
          · rename_i y hy
            rw [hy] at hx
            simp only at hx; subst hx
            exact ⟨h1, _, by simp only [h2, List.append_assoc], hm⟩
        by_cases hst : v.srv.isStarted = true
        · simp only [hst, if_true]
          exact key _ [.serverShutdown] rfl rfl (by simp [SEv.isTraffic])
        · simp only [hst]
          exact key _ [] rfl (by simp) (by simp)
      | start =>
        have h1 : Srv.step env { v.srv with tasks := STask.start :: ts } .runTask = .ret (Srv.runTask { v.srv with tasks := ts } .start) := rfl
        exact own_step (v := { v.srv with tasks := STask.start :: ts }) (op := .runTask) rfl h1
      | addSession u x =>
        have h1 : Srv.step env { v.srv with tasks := STask.addSession u x :: ts } .runTask = .ret (Srv.runTask { v.srv with tasks := ts } (.addSession u x)) := rfl
        exact own_step (v := { v.srv with tasks := STask.addSession u x :: ts }) (op := .runTask) rfl h1

theorem act_spec {v v' : SvkT W} {o : Asv.Op} (hs : v.act o = .ret v') : ∃ x, v.net.asv.step o = .ret x ∧
    v' = { srv := v.srv, net := { asv := x, dead := v.net.dead }, steps := v.steps ++ [(v.net, .op o)] } := by
  simp only [SvkT.act] at hs
  obtain ⟨n, h1, hs⟩ := CM.bind_eq_ret.1 hs
  injection hs with hs; subst hs
  simp only [AsvT.step] at h1
  obtain ⟨x, h2, h1⟩ := CM.bind_eq_ret.1 h1
  injection h1 with h1; subst h1
  exact ⟨x, h2, rfl⟩

theorem relay_calm (es : List SEv) : ∀ {v v' : SvkT W}, v.relay es = .ret v' → v'.srv = v.srv ∧ Svk.Calm v.net.asv v'.net.asv := by
  induction es with
  | nil => intro v v' hs; injection hs with hs; subst hs; exact ⟨rfl, .refl _⟩
  | cons e es ih =>
    intro v v' hs
    simp only [SvkT.relay] at hs
    obtain ⟨u, h1, h2⟩ := CM.bind_eq_ret.1 hs
    obtain ⟨i1, i2⟩ := ih h2
    have one : u.srv = v.srv ∧ Svk.Calm v.net.asv u.net.asv := by
      cases e with
      | serverStart =>
        obtain ⟨x, h3, rfl⟩ := act_spec h1
        obtain ⟨y, h4, h5⟩ := calm_start v.net.asv
        rw [h3] at h4; injection h4 with h4; subst h4
        exact ⟨rfl, h5⟩
      | serverShutdown =>
        obtain ⟨x, h3, rfl⟩ := act_spec h1
        obtain ⟨y, h4, h5⟩ := calm_shutdown v.net.asv
        rw [h3] at h4; injection h4 with h4; subst h4
        exact ⟨rfl, h5⟩
      | _ => injection h1 with h1; subst h1; exact ⟨rfl, .refl _⟩
    exact ⟨i1.trans one.1, one.2.trans i2⟩

theorem Heeds.calm (h : Heeds pol s deaf a) (hc : Svk.Calm a b) : Heeds pol s deaf b :=
  h.plain (es := []) (by rw [hc.log]; simp) (by simp) fun _ hw => hc.wired hw

/-- A step of the whole server. -/
theorem heeds_step {env : ServerEnv W} {th : SThrows W} {w : W} {max : UInt32} {v v' : SvkT W} (hok : Ok env th w max v) (h : Heeds env.pol v.srv.srv v.srv.deaf v.net.asv)
    {op : Svk.Op} (hs : v.step env th op = .ret v') : Heeds env.pol v'.srv.srv v'.srv.deaf v'.net.asv := by
  cases op with
  | chan op =>
    simp only [SvkT.step] at hs
    split at hs
    · rename_i ho
      simp only [SvkT.chan] at hs
      obtain ⟨x, h1, hs⟩ := CM.bind_eq_ret.1 hs
      obtain ⟨e1, e2⟩ := relay_calm _ hs
      obtain ⟨g1, g2, new, g3, g4⟩ := own_stepT ho h1
      rw [e1]
      refine Heeds.calm ?_ e2
      show Heeds env.pol x.srv x.deaf v.net.asv
      rw [g1]
      exact h.quiet g2 g3 g4
    · injection hs with hs; subst hs; exact h
  | complete i r =>
    obtain ⟨x, h1, rfl⟩ := act_spec hs
    obtain ⟨es, h2, h3⟩ := Asv.step_adds h1
    cases h3 with
    | data k rs c b rest hop => cases hop
    | error k rs c rest hop => cases hop
    | other h4 h5 =>
      refine h.plain h2 (Asv.Adds.plain h5) fun c hc => ?_
      rcases Asv.step_wired h1 hc with hw | ⟨k, rs, hop, -, -⟩
      · exact hw
      · cases hop
  | run k mem =>
    have herr : ∀ c, (v.net.asv.queue[k]? = some (.read c none) ∨ v.net.asv.queue[k]? = some (.written c false)) →
        (do let w ← v.act (.run k []); w.chan env th (.error c)) = .ret v' → Heeds env.pol v'.srv.srv v'.srv.deaf v'.net.asv := by
      intro c hq hs
      obtain ⟨u, h1, hs⟩ := CM.bind_eq_ret.1 hs
      obtain ⟨x, h2, rfl⟩ := act_spec h1
      simp only [SvkT.chan] at hs
      obtain ⟨y, h3, hs⟩ := CM.bind_eq_ret.1 hs
      obtain ⟨e1, e2⟩ := relay_calm _ hs
      rw [e1]
      refine Heeds.calm ?_ e2
      simp only [SrvT.step] at h3
      obtain ⟨z, h4, h3⟩ := CM.bind_eq_ret.1 h3
      injection h3 with h3; subst h3
      obtain ⟨es, h5, h6⟩ := Asv.step_adds h2
      have hes : ∃ rest, es = .error c :: rest ∧ ∀ e ∈ rest, Asv.Plain e := by
        cases h6 with
        | data k rs c' b rest hop hk => injection hop with e1 e2; subst e1; rw [hk] at hq; simp at hq
        | error k rs c' rest hop hk he hr =>
          injection hop with e1 e2; subst e1
          have : c' = c := by
            rcases hk with hk | hk <;> rcases hq with hq | hq <;> rw [hk] at hq <;> simp at hq <;> exact hq
          subst this
          exact ⟨rest, he, Asv.quiet_plain hr⟩
        | other h6 h7 =>
          rcases hq with hq | hq
          · exact absurd hq (h6 k [] c rfl).1
          · exact absurd hq (h6 k [] c rfl).2.1
      obtain ⟨rest, rfl, hrest⟩ := hes
      refine h.error h5 hrest (fun c' hc => ?_) h4
      rcases Asv.step_wired h2 hc with hw | ⟨k', rs, hop, hk, -⟩
      · exact hw
      · injection hop with e1 e2; subst e1
        rw [hk] at hq; simp at hq
    have hother : ∀ u : SvkT W, v.act (.run k []) = .ret u → (∀ c, v.net.asv.queue[k]? ≠ some (.read c none) ∧ v.net.asv.queue[k]? ≠ some (.written c false) ∧
        (∀ bytes, v.net.asv.queue[k]? ≠ some (.read c (some bytes))) ∧ (v.net.asv.queue[k]? = some (.accepted c true) → v.net.asv.isShutdown = true)) →
        Heeds env.pol u.srv.srv u.srv.deaf u.net.asv := by
      intro u hu hq
      obtain ⟨x, h1, rfl⟩ := act_spec hu
      obtain ⟨es, h2, h3⟩ := Asv.step_adds h1
      cases h3 with
      | data k rs c b rest hop hk => injection hop with e1 e2; subst e1; exact absurd hk ((hq c).2.2.1 b)
      | error k rs c rest hop hk =>
        injection hop with e1 e2; subst e1
        rcases hk with hk | hk
        · exact absurd hk (hq c).1
        · exact absurd hk (hq c).2.1
      | other h4 h5 =>
        refine h.plain h2 (Asv.Adds.plain h5) fun c hc => ?_
        rcases Asv.step_wired h1 hc with hw | ⟨k', rs, hop, hk, hd⟩
        · exact hw
        · injection hop with e1 e2; subst e1
          rw [(hq c).2.2.2 hk] at hd; cases hd
    simp only [SvkT.step] at hs
    split at hs
    · rename_i c hk
      obtain ⟨u, h1, hs⟩ := CM.bind_eq_ret.1 hs
      split at hs
      · rename_i hd
        injection hs with hs; subst hs
        exact hother u h1 (fun c' => by rw [hk]; simp [hd])
      · obtain ⟨x, h2, rfl⟩ := act_spec h1
        simp only [SvkT.chan] at hs
        obtain ⟨y, h3, hs⟩ := CM.bind_eq_ret.1 hs
        obtain ⟨e1, e2⟩ := relay_calm _ hs
        rw [e1]
        refine Heeds.calm ?_ e2
        simp only [SrvT.step] at h3
        obtain ⟨z, h4, h3⟩ := CM.bind_eq_ret.1 h3
        injection h3 with h3; subst h3
        obtain ⟨es, h5, h6⟩ := Asv.step_adds h2
        have hes : ∀ e ∈ es, Asv.Plain e := by
          cases h6 with
          | data k rs c' b rest hop hk' => injection hop with e1 e2; subst e1; rw [hk] at hk'; simp at hk'
          | error k rs c' rest hop hk' => injection hop with e1 e2; subst e1; rw [hk] at hk'; simp at hk'
          | other h6 h7 => exact Asv.Adds.plain h7
        refine h.opened rfl h5 hes (fun c' hcc hc => ?_) h4
        rcases Asv.step_wired h2 hc with hw | ⟨k', rs, hop, hk', -⟩
        · exact hw
        · injection hop with e1 e2; subst e1
          rw [hk] at hk'; simp at hk'; exact absurd hk' hcc
    · rename_i c bytes hk
      have hcd : c ∉ v.srv.deaf := by
        intro hc
        exact (hok.net.stuck c ((hok.deaf c).1 hc)).no_task (List.mem_of_getElem? hk) |>.1 _ rfl
      have hwc : v.net.asv.Wired c := Or.inr (Or.inr ⟨_, List.mem_of_getElem? hk, rfl⟩)
      simp only [SvkT.receive] at hs
      obtain ⟨x, h1, hs⟩ := CM.bind_eq_ret.1 hs
      obtain ⟨n, h2, hs⟩ := CM.bind_eq_ret.1 hs
      injection hs with hs; subst hs
      dsimp only
      split at h2
      · simp only [AsvT.step, hk] at h2
        injection h2 with h2; subst h2
        obtain ⟨es, h5, h6⟩ := Asv.sendAll_log c (answers c (x.srv.log.drop v.srv.srv.log.length)) ({ v.net.asv with queue := v.net.asv.queue.eraseIdx k }.emit (.receive c bytes))
        rw [answers_eq] at h6
        refine h.receive hcd hwc h1 (es := es) ?_ h6 fun c' hc' => ?_
        · show Asv.log _ = _
          rw [h5]
          show (v.net.asv.log ++ [_]) ++ es = _
          simp
        · by_cases hcc : c' = c
          · subst hcc; exact hwc
          · exact (Apart.throws hk hcc _).wired hc'
      · simp only [AsvT.step] at h2
        obtain ⟨y, h3, h2⟩ := CM.bind_eq_ret.1 h2
        injection h2 with h2; subst h2
        obtain ⟨es, h5, h6⟩ := Asv.step_adds h3
        rw [answers_eq] at h6
        obtain ⟨rest, rfl, hsl⟩ : ∃ rest, es = .receive c bytes :: rest ∧ Asv.SendLog c (sendsOf c (x.srv.log.drop v.srv.srv.log.length)) rest := by
          cases h6 with
          | data k' rs c' b rest hop hk' he hr =>
            injection hop with e1 e2; subst e1 e2
            rw [hk] at hk'; injection hk' with hk'; injection hk' with e3 e4
            injection e4 with e4; subst e3 e4
            exact ⟨rest, he, hr⟩
          | error k' rs c' rest hop hk' => injection hop with e1 e2; subst e1; rw [hk] at hk'; simp at hk'
          | other h6 h7 => exact absurd hk ((h6 k _ c rfl).2.2 bytes)
        refine h.receive hcd hwc h1 h5 hsl fun c' hc' => ?_
        rcases Asv.step_wired h3 hc' with hw | ⟨k', rs, hop, hk', -⟩
        · exact hw
        · injection hop with e1 e2; subst e1
          rw [hk] at hk'; simp at hk'
    · rename_i c hk; exact herr c (Or.inl hk) hs
    · rename_i c hk; exact herr c (Or.inr hk) hs
    · rename_i g1 g2 g3 g4
      exact hother v' hs (fun c => ⟨g3 c, g4 c, fun b => g2 c b, fun hx => absurd hx (g1 c)⟩)

theorem _root_.Modbus.Spec.VTReach.heeds {env : ServerEnv W} {th : SThrows W} {w : W} {max : UInt32} {v : SvkT W} (h : VTReach env th w max v) :
    Heeds env.pol v.srv.srv v.srv.deaf v.net.asv := by
  induction h with
  | init => exact .init env.pol w max
  | step h hs ih => exact heeds_step h.ok ih hs

end Modbus.SvkT
