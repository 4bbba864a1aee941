import Verif.Lemmas.PollingInv

/-! Every step of a polling client keeps the invariant; what it means for the channel and for the sessions. -/

namespace Modbus

open Spec

/-- Why a session makes a step. -/
def justified (s : Nat) (new : List LEv) : Sess.Op → Prop
  | .call i t => LEv.api s (.call i t) ∈ new
  | .register i => LEv.api s (.register i) ∈ new
  | .shutdown => LEv.api s .shutdown ∈ new ∨ LEv.ch (.sessionShutdown s) ∈ new
  | .send => False
  | .report _ => False
  | _ => True

theorem justified.left {s : Nat} {a : List LEv} {op : Sess.Op} (h : justified s a op) (b : List LEv) : justified s (a ++ b) op := by
  cases op with
  | call i t => exact List.mem_append_left _ h
  | register i => exact List.mem_append_left _ h
  | shutdown => exact h.imp (List.mem_append_left _) (List.mem_append_left _)
  | _ => exact h

theorem justified.right {s : Nat} {b : List LEv} {op : Sess.Op} (h : justified s b op) (a : List LEv) : justified s (a ++ b) op := by
  cases op with
  | call i t => exact List.mem_append_right _ h
  | register i => exact List.mem_append_right _ h
  | shutdown => exact h.imp (List.mem_append_right _) (List.mem_append_right _)
  | _ => exact h

/-- How a session has changed while the log grew by `new`. -/
structure Moved (s : Nat) (new : List LEv) (p p' : PSess) : Prop where
  unit : p'.unit = p.unit
  reqs : p.reqs <+: p'.reqs
  ops : ∃ sops, p'.sess = p.sess.run sops ∧ (∀ op ∈ sops, justified s new op) ∧
    (LEv.ch (.sessionShutdown s) ∈ new → Sess.Op.shutdown ∈ sops) ∧ (∀ op, LEv.api s op ∈ new → op ∈ sops)

theorem Moved.trans {s : Nat} {a b : List LEv} {p p' p'' : PSess} (h : Moved s a p p') (h' : Moved s b p' p'') : Moved s (a ++ b) p p'' := by
  obtain ⟨o1, a1, a2, a3, a4⟩ := h.ops
  obtain ⟨o2, b1, b2, b3, b4⟩ := h'.ops
  refine ⟨h'.unit.trans h.unit, h.reqs.trans h'.reqs, o1 ++ o2, by rw [b1, a1, Sess.run_append], fun op ho => ?_, fun hm => ?_, fun op hm => ?_⟩
  · rcases List.mem_append.1 ho with ho | ho
    · exact (a2 op ho).left b
    · exact (b2 op ho).right a
  · rcases List.mem_append.1 hm with hm | hm
    · exact List.mem_append_left _ (a3 hm)
    · exact List.mem_append_right _ (b3 hm)
  · rcases List.mem_append.1 hm with hm | hm
    · exact List.mem_append_left _ (a4 op hm)
    · exact List.mem_append_right _ (b4 op hm)

theorem Moved.none {s : Nat} {new : List LEv} {p : PSess} (h1 : LEv.ch (.sessionShutdown s) ∉ new) (h2 : ∀ op, LEv.api s op ∉ new) :
    Moved s new p p :=
  ⟨rfl, List.prefix_rfl, [], rfl, by simp, fun h => absurd h h1, fun op h => absurd h (h2 op)⟩

/-- How the sessions change. -/
structure Follows (v w : Pcl) (new : List LEv) : Prop where
  log : w.log = v.log ++ new
  owner : v.owner <+: w.owner
  sess : ∀ s p, v.sess[s]? = some p → ∃ p', w.sess[s]? = some p' ∧ Moved s new p p'

theorem Follows.trans {u v w : Pcl} {a b : List LEv} (h : Follows u v a) (h' : Follows v w b) : Follows u w (a ++ b) := by
  refine ⟨by rw [h'.log, h.log, List.append_assoc], h.owner.trans h'.owner, fun s p hp => ?_⟩
  obtain ⟨p', h1, h2⟩ := h.sess s p hp
  obtain ⟨p'', h3, h4⟩ := h'.sess s p' h1
  exact ⟨p'', h3, h2.trans h4⟩

/-- Only the log grows, by effects that concern no session. -/
theorem Follows.log_only {v w : Pcl} {new : List LEv} (h1 : w.log = v.log ++ new) (h2 : w.sess = v.sess) (h3 : w.owner = v.owner)
    (h4 : ∀ s, LEv.ch (.sessionShutdown s) ∉ new) (h5 : ∀ s op, LEv.api s op ∉ new) : Follows v w new :=
  ⟨h1, by rw [h3]; exact List.prefix_rfl, fun s p hp => ⟨p, by rw [h2]; exact hp, .none (h4 s) (h5 s)⟩⟩

/-- Session `s` makes the step `op`, logged as `new`. -/
theorem Follows.one {v w : Pcl} {new : List LEv} {s : Nat} {p : PSess} {op : Sess.Op} (hp : v.sess[s]? = some p) (h1 : w.log = v.log ++ new)
    (h2 : w.sess = v.sess.set s { p with sess := p.sess.step op }) (h3 : v.owner <+: w.owner) (hj : justified s new op)
    (h4 : ∀ s', LEv.ch (.sessionShutdown s') ∈ new → s' = s ∧ op = .shutdown) (h5 : ∀ s' op', LEv.api s' op' ∈ new → s' = s ∧ op' = op) :
    Follows v w new := by
  have hs : s < v.sess.length := (List.getElem?_eq_some_iff.1 hp).1
  refine ⟨h1, h3, fun s' q hq => ?_⟩
  by_cases he : s' = s
  · subst he
    rw [hp] at hq; injection hq with hq; subst hq
    refine ⟨{ p with sess := p.sess.step op }, by rw [h2, List.getElem?_set_self hs], rfl, List.prefix_rfl, [op], rfl, fun o ho => ?_, fun hm => ?_, fun o hm => ?_⟩
    · rw [List.mem_singleton.1 ho]; exact hj
    · rw [(h4 _ hm).2]; exact List.mem_singleton.2 rfl
    · rw [(h5 _ _ hm).2]; exact List.mem_singleton.2 rfl
  · refine ⟨q, by rw [h2, List.getElem?_set_ne (Ne.symm he)]; exact hq, .none (fun hm => he (h4 _ hm).1) (fun o hm => he (h5 _ _ hm).1)⟩

theorem not_api_map {s s' : Nat} {op : Sess.Op} (es : List SessEv) : LEv.api s' op ∉ es.map (LEv.sess s) := by simp
theorem not_ch_map {s : Nat} {e : CEv} (es : List SessEv) : LEv.ch e ∉ es.map (LEv.sess s) := by simp

/-- The steps of sessions outside of responses and the passing of time. -/
def Sess.ordinary : Sess.Op → Bool
  | .register _ => true
  | .shutdown => true
  | .call _ _ => true
  | .runTask => true
  | .expire _ _ => true
  | .runTimer _ _ => true
  | _ => false

/-- A session's step as seen by the channel. -/
def ByChannel (env : ClientEnv) (v w : Pcl) : Prop := w.cli = v.cli ∨ ∃ unit q tmo, v.cli.step env (.submit unit q tmo) = .ret w.cli

namespace PInv

/-- More of the log, no effect on anything. -/
theorem logged {env : ClientEnv} {rem : List CEv} {v : Pcl} (h : PInv env rem v) {new : List LEv} (hb : Blocks (v.log ++ new) v.owner)
    {rem' : List CEv} (hc : ofChannel new ++ rem' = rem) (hs : ∀ s, ofSession s new = [] ∧ schedulings s new = []) (ho : openings new = []) :
    PInv env rem' { v with log := v.log ++ new } := by
  refine ⟨h.reach, ?_, hb, fun s p hp => (h.sessions s p hp).more (hs s).1 (hs s).2, fun s hl => ?_, ?_⟩
  · show v.cli.log = ofChannel (v.log ++ new) ++ rem'
    rw [h.chan, ofChannel_append, List.append_assoc, hc]
  · show ofSession s (v.log ++ new) = [] ∧ schedulings s (v.log ++ new) = []
    rw [ofSession_append, schedulings_append, (h.fresh s hl).1, (h.fresh s hl).2, (hs s).1, (hs s).2]; exact ⟨rfl, rfl⟩
  · show openings (v.log ++ new) = _
    rw [openings_append, ho, List.append_nil, h.opened]

/-- A session makes an ordinary step.  `pre`: the call that is the reason, if there is one. -/
theorem sessStep {env : ClientEnv} {v : Pcl} (h : PInv env [] v) {s : Nat} {p : PSess} (hp : v.sess[s]? = some p) {op : Sess.Op}
    (ho : Sess.ordinary op = true) : ∃ w new, v.sessStep env s op = .ret w ∧ PInv env [] w ∧ w.log = v.log ++ new ∧ v.owner <+: w.owner ∧
      w.sess = v.sess.set s { p with sess := p.sess.step op } ∧ ByChannel env v w ∧ w.cli.sessions = v.cli.sessions ∧
      w.cli.nextSession = v.cli.nextSession ∧ w.cli.isShutdown = v.cli.isShutdown ∧ (∀ s' op', LEv.api s' op' ∉ new) ∧
      (∀ e, LEv.ch e ∈ new → ∃ u unit q tmo, e = .call u unit q tmo) := by
  have hok := h.sessions s p hp
  have ho1 : op ≠ .send := by rintro rfl; cases ho
  have ho2 : ∀ f, op ≠ .schedule f := by rintro f rfl; cases ho
  have ho3 : ∀ n, op ≠ .tick n := by rintro n rfl; cases ho
  have hplain : Sess.plainOp op = true := by cases op <;> first | rfl | cases ho
  rcases Sess.step_new p.sess hok.lives.noSend op hplain with ⟨es, hl, hc⟩ | ⟨es, i, pl, hpl, hl, hc⟩
  · refine ⟨_, es.map (.sess s), Pcl.sessStep_mute env hp hl fun e he => SessEv.mute_of_calm (hc e he), h.calm hp ho1 ho2 ho3 hl hc, rfl,
      List.prefix_rfl, rfl, .inl rfl, rfl, rfl, rfl, fun _ _ => not_api_map es, fun e hm => absurd hm (not_ch_map es)⟩
  · have hi : i < p.reqs.length := by rw [hok.reqs]; exact (List.getElem?_eq_some_iff.1 hpl).1
    obtain ⟨r, hr⟩ : ∃ r, p.reqs[i]? = some r := ⟨p.reqs[i], List.getElem?_eq_getElem hi⟩
    have he := Pcl.sessStep_sent env hp hl (fun e he => SessEv.mute_of_calm (hc e he)) hr
    obtain ⟨V, hV⟩ : ∃ V : Pcl, V = { v with
        sess := v.sess.set s { p with sess := p.sess.step op }
        log := v.log ++ es.map (.sess s) ++ [.sess s (.poll i (.sent pl.nextId pl.now))]
        owner := v.owner ++ [(v.cli.nextUid, s, i, pl.nextId)] } := ⟨_, rfl⟩
    rw [← hV] at he
    obtain ⟨c, c1, c2, c3, c4, c5, c6, c7⟩ := Pcl.submit_eq env V p.unit r.1 r.2
    rw [c7] at he
    subst hV
    simp only at c1 c2 c3 c4 c5 c6 he
    obtain ⟨f, hf⟩ := hok.what i r hr
    have hnew : v.log ++ es.map (.sess s) ++ [LEv.sess s (.poll i (.sent pl.nextId pl.now))] ++ [.ch (.call v.cli.nextUid p.unit r.1 r.2)] =
        v.log ++ (es.map (.sess s) ++ [LEv.sess s (.poll i (.sent pl.nextId pl.now)), .ch (.call v.cli.nextUid p.unit r.1 r.2)]) := by simp
    rw [hnew] at he
    refine ⟨_, _, he, ?_, rfl, List.prefix_append _ _, rfl, .inr ⟨_, _, _, c1⟩, c4, c5, c6, fun s' op' hm => ?_, fun e hm => ?_⟩
    · refine h.update hp (h.reach.step c1) c3 ?_ ?_ (fun s' hs' => ?_) ?_ ?_
      · rw [c2, h.chan]
        simp only [ofChannel_append, ofChannel_map, List.append_nil, List.nil_append]
        rfl
      · rw [← List.append_assoc]
        refine (h.blocks.plains _ (plain_of_calm hc)).poll (f := f) ?_ (List.mem_append_left _ hok.unit) (List.mem_append_left _ hf) ?_
        · intro a b c' hm
          rcases List.mem_append.1 hm with hm | hm
          · have h1 : CEv.call v.cli.nextUid a b c' ∈ v.cli.log := by rw [h.chan, List.append_nil]; exact mem_ofChannel.2 hm
            exact Nat.lt_irrefl _ (h.reach.inv.1.callBound h1)
          · exact not_ch_map es hm
        · intro t hm
          rcases List.mem_append.1 hm with hm | hm
          · refine hok.lives.nextId hpl (mem_pollsSent.2 ⟨t, ?_⟩)
            rw [mem_effectsOf, ← hok.log, mem_ofSession]; exact hm
          · obtain ⟨x, hx, he⟩ := List.mem_map.1 hm
            injection he with _ he
            subst he
            exact absurd (hc _ hx) (by simp [SessEv.calm])
      · simp only [ofSession_append, schedulings_append, ofSession_map_ne hs'.symm, schedulings_map]
        simp [ofSession, schedulings, hs'.symm]
      · simp only [openings_append, openings_map]; rfl
      · refine hok.step ho1 ho2 ho3 ?_ ?_
        · rw [hl, ofSession_append, ofSession_map]; simp [ofSession]
        · simp only [schedulings_append, schedulings_map]; rfl
    · rcases List.mem_append.1 hm with hm | hm
      · exact not_api_map es hm
      · simp at hm
    · rcases List.mem_append.1 hm with hm | hm
      · exact absurd hm (not_ch_map es)
      · simp only [List.mem_cons, LEv.ch.injEq, List.not_mem_nil, or_false, reduceCtorEq, false_or] at hm
        exact ⟨_, _, _, _, hm⟩

/-- An effect of the channel is carried out. -/
theorem fromChan1 {env : ClientEnv} {v : Pcl} {e : CEv} {rem : List CEv} (h : PInv env (e :: rem) v) (he : (∀ u unit q tmo, e ≠ .call u unit q tmo))
    (ht : ∀ u x t, e = .handler u x t → t = v.cli.now) (hsd : ∀ s, e = .sessionShutdown s → s < v.sess.length) :
    ∃ w new, v.fromChan1 env e = .ret w ∧ PInv env rem w ∧ Follows v w new ∧ w.cli = v.cli ∧ w.sess.length = v.sess.length ∧ w.owner = v.owner ∧
      (∀ s' op', LEv.api s' op' ∉ new) ∧ ofChannel new = [e] := by
  by_cases h1 : (∃ u x t, e = .handler u x t)
  · obtain ⟨u, x, t, rfl⟩ := h1
    have hnow := ht u x t rfl
    -- the channel calls each handler once
    have hl : v.cli.log = ofChannel v.log ++ .handler u x t :: rem := h.chan
    obtain ⟨hfresh, unit, q, tmo, hcall⟩ := Logged.handler_call (h.reach.inv.1.just) hl
    have hnot : ∀ x t, LEv.ch (.handler u x t) ∉ v.log := fun x t hm => hfresh (mem_handledUids.2 ⟨x, t, mem_ofChannel.2 hm⟩)
    simp only [Pcl.fromChan1]
    rcases hlk : v.owner.lookup u with _ | ⟨s, i, id⟩
    · refine ⟨_, [.ch (.handler u x t)], rfl, ?_, .log_only rfl rfl rfl (by simp) (by simp), rfl, rfl, rfl, by simp, rfl⟩
      exact h.logged (h.blocks.handler hlk ⟨unit, q, tmo, mem_ofChannel.1 hcall⟩ hnot) rfl (fun s => ⟨rfl, rfl⟩) rfl
    · simp only
      have hmem := Poll.lookup_mem _ _ _ hlk
      obtain ⟨a, t0, unit', q', tmo', f', b, hlog, hop, hsch⟩ := h.blocks.owned hmem
      have hsent : LEv.sess s (.poll i (.sent id t0)) ∈ v.log := by rw [hlog]; simp
      have hs : s < v.sess.length := by
        by_contra hge
        have := (h.fresh s (by omega)).1
        rw [← mem_ofSession, this] at hsent; cases hsent
      obtain ⟨p, hp⟩ : ∃ p, v.sess[s]? = some p := ⟨v.sess[s], List.getElem?_eq_getElem hs⟩
      have hok := h.sessions s p hp
      have hsent' : PEv.sent id t0 ∈ effectsOf i p.sess.log := by rw [mem_effectsOf, ← hok.log, mem_ofSession]; exact hsent
      have hi : i < p.sess.polls.length := by
        by_contra hge
        rw [hok.lives.good.fresh i (by omega)] at hsent'; cases hsent'
      obtain ⟨pl, hpl⟩ : ∃ pl, p.sess.polls[i]? = some pl := ⟨p.sess.polls[i], List.getElem?_eq_getElem hi⟩
      have hfl : id ∈ pl.inFlight := by
        rw [hok.lives.inFlight hpl]
        refine ⟨mem_pollsSent.2 ⟨t0, hsent'⟩, fun hm => ?_⟩
        obtain ⟨t', ht'⟩ := mem_pollsHandled.1 hm
        rw [mem_effectsOf, ← hok.log, mem_ofSession] at ht'
        obtain ⟨u', x', hm', hh'⟩ := h.blocks.handled_owner ht'
        have := List.inj_on_of_nodup_map h.blocks.owner_unique.2 hm' hmem rfl
        simp only [Prod.mk.injEq, and_true] at this
        subst this
        exact hnot _ _ hh'
      have htime : pl.now = t := by rw [hok.lives.timed pl (List.mem_of_getElem? hpl), hok.now, hnow]
      have hnew := Sess.respond_new hpl hfl
      rw [htime] at hnew
      have hst := Pcl.sessStep_mute env (v := { v with log := v.log ++ [LEv.ch (.handler u x t)] }) hp (op := .respond i id) hnew (by simp [SessEv.mute])
      simp only [List.map_cons, List.map_nil, List.append_assoc, List.cons_append, List.nil_append] at hst
      refine ⟨_, [.ch (.handler u x t), .sess s (.poll i (.handled id t))], hst, ?_, ?_, rfl, by simp, rfl, by simp, by simp [ofChannel]⟩
      · refine h.update hp h.reach rfl ?_ (h.blocks.answer hlk hnot) (fun s' hs' => ?_) rfl ?_
        · rw [ofChannel_append, hl]; simp [ofChannel]
        · simp [ofSession, schedulings, hs'.symm]
        · exact hok.step (by simp) (by simp) (by simp) (by rw [hnew]; simp [ofSession]) rfl
      · exact .one (op := .respond i id) hp rfl rfl List.prefix_rfl trivial (by simp) (by simp)
  · by_cases h2 : ∃ s, e = .sessionShutdown s
    · obtain ⟨s, rfl⟩ := h2
      have hs := hsd s rfl
      obtain ⟨p, hp⟩ : ∃ p, v.sess[s]? = some p := ⟨v.sess[s], List.getElem?_eq_getElem hs⟩
      have hst := Pcl.sessStep_mute env (v := { v with log := v.log ++ [LEv.ch (.sessionShutdown s)] }) hp (op := .shutdown) (es := [])
        (by simp [Sess.step]) (by simp)
      simp only [List.map_nil, List.append_nil] at hst
      simp only [Pcl.fromChan1]
      refine ⟨_, [.ch (.sessionShutdown s)], hst, ?_, ?_, rfl, by simp, rfl, by simp, rfl⟩
      · have := (h.logged (new := [.ch (.sessionShutdown s)]) (rem' := rem) (h.blocks.plain rfl) rfl (fun s => ⟨rfl, rfl⟩) rfl).calm hp (op := .shutdown)
          (by simp) (by simp) (by simp) (es := []) (by simp [Sess.step]) (by simp)
        simpa using this
      · exact .one (op := .shutdown) hp rfl rfl List.prefix_rfl (.inr (by simp)) (by simp) (by simp)
    · have hst : v.fromChan1 env e = .ret { v with log := v.log ++ [.ch e] } := by
        cases e with
        | handler u x t => exact absurd ⟨u, x, t, rfl⟩ h1
        | sessionShutdown s => exact absurd ⟨s, rfl⟩ h2
        | _ => rfl
      refine ⟨_, [.ch e], hst, ?_, .log_only rfl rfl rfl ?_ (by simp), rfl, rfl, rfl, by simp, rfl⟩
      · refine h.logged (h.blocks.plain ?_) rfl (fun s => ⟨rfl, rfl⟩) rfl
        cases e with
        | handler u x t => exact absurd ⟨u, x, t, rfl⟩ h1
        | call u unit q tmo => exact absurd rfl (he u unit q tmo)
        | _ => rfl
      · intro s hm
        simp only [List.mem_singleton, LEv.ch.injEq] at hm
        exact h2 ⟨s, hm.symm⟩

theorem fromChan {env : ClientEnv} : ∀ (es : List CEv) {v : Pcl}, PInv env es v → (∀ e ∈ es, ∀ u unit q tmo, e ≠ .call u unit q tmo) →
    (∀ u x t, CEv.handler u x t ∈ es → t = v.cli.now) → (∀ s, CEv.sessionShutdown s ∈ es → s < v.sess.length) →
    ∃ w new, v.fromChan env es = .ret w ∧ PInv env [] w ∧ Follows v w new ∧ w.cli = v.cli ∧ w.sess.length = v.sess.length ∧ w.owner = v.owner ∧
      (∀ s' op', LEv.api s' op' ∉ new) ∧ ofChannel new = es := by
  intro es
  induction es with
  | nil => intro v h _ _ _; exact ⟨v, [], rfl, h, .log_only (by simp) rfl rfl (by simp) (by simp), rfl, rfl, rfl, by simp, rfl⟩
  | cons e es ih =>
    intro v h h1 h2 h3
    obtain ⟨w, new, a1, a2, a3, a4, a5, a6, a7, a8⟩ := h.fromChan1 (h1 e (.head _)) (fun u x t he => h2 u x t (by rw [he]; exact .head _))
      (fun s he => h3 s (by rw [he]; exact .head _))
    obtain ⟨w', new', b1, b2, b3, b4, b5, b6, b7, b8⟩ := ih a2 (fun e he => h1 e (.tail _ he)) (fun u x t he => by rw [a4]; exact h2 u x t (.tail _ he))
      (fun s he => by rw [a5]; exact h3 s (.tail _ he))
    refine ⟨w', new ++ new', ?_, b2, a3.trans b3, b4.trans a4, b5.trans a5, b6.trans a6, fun s' op' hm => ?_, by rw [ofChannel_append, a8, b8]; rfl⟩
    · simp only [Pcl.fromChan, a1, CM.ret_bind, b1]
    · rcases List.mem_append.1 hm with hm | hm
      · exact a7 _ _ hm
      · exact b7 _ _ hm

end PInv

/-- How the channel numbers the sessions. -/
structure Numbered (v : Pcl) : Prop where
  next : v.cli.nextSession = v.sess.length
  bound : ∀ s ∈ v.cli.sessions, s < v.sess.length
  all : v.cli.isShutdown = false → v.cli.sessions = List.range v.sess.length

theorem Numbered.keep {v w : Pcl} (h : Numbered v) (h1 : w.cli.sessions = v.cli.sessions) (h2 : w.cli.nextSession = v.cli.nextSession)
    (h3 : w.cli.isShutdown = v.cli.isShutdown) (h4 : w.sess.length = v.sess.length) : Numbered w :=
  ⟨by rw [h2, h4, h.next], by rw [h1, h4]; exact h.bound, by rw [h3, h1, h4]; exact h.all⟩

/-- What a step of the system is for its parts. -/
structure Stepped (env : ClientEnv) (v w : Pcl) (op : Pcl.Op) (new : List LEv) : Prop where
  inv : PInv env [] w
  num : Numbered w
  follows : Follows v w new
  /-- The channel makes a step, its own if it is one (otherwise perhaps the step that does nothing, `tick 0`). -/
  chan : ∃ cop, v.cli.step env cop = .ret w.cli ∧ (∀ c, op = .chan c → Pcl.ownChan c = true → cop = c) ∧ (Pcl.ownChan cop = true → op = .chan cop)
  /-- The sessions' own steps. -/
  sess : ∀ (s : Nat) (o : Sess.Op) (p : PSess), op = .sess s o → Pcl.ownSess o = true → v.sess[s]? = some p → w.sess[s]? = some { p with sess := p.sess.step o }
  /-- New sessions. -/
  opened : ∀ (s : Nat) (p' : PSess), v.sess[s]? = none → w.sess[s]? = some p' → p'.sess = Sess.init.step (.tick w.cli.now) ∧ p'.reqs = []
  /-- The user's calls. -/
  calls : ∀ s o, LEv.api s o ∈ new → op = .api s o ∧ Pcl.userCall o = true

theorem Cli.tick_zero (env : ClientEnv) (v : Cli) : v.step env (.tick 0) = .ret v := rfl

theorem ByChannel.op {env : ClientEnv} {v w : Pcl} (h : ByChannel env v w) : ∃ cop, v.cli.step env cop = .ret w.cli ∧ Pcl.ownChan cop = false := by
  rcases h with h | ⟨unit, q, tmo, h⟩
  · exact ⟨.tick 0, by rw [h]; rfl, rfl⟩
  · exact ⟨_, h, rfl⟩

theorem Stepped.stay {env : ClientEnv} {v : Pcl} {op : Pcl.Op} (h : PInv env [] v) (hn : Numbered v) (h1 : ∀ c, op = .chan c → Pcl.ownChan c = false)
    (h2 : ∀ s o, op = .sess s o → Pcl.ownSess o = true → v.sess[s]? = none) : Stepped env v v op [] := by
  refine ⟨h, hn, .log_only (by simp) rfl rfl (by simp) (by simp), ⟨.tick 0, rfl, fun c hc ho => ?_, by simp [Pcl.ownChan]⟩, fun s o p hc ho hp => ?_, fun s p' a b => ?_, by simp⟩
  · rw [h1 c hc] at ho; cases ho
  · rw [h2 s o hc ho] at hp; cases hp
  · rw [a] at b; cases b

theorem no_new {v w : Pcl} (h : w.sess.length = v.sess.length) {P : Nat → PSess → Prop} : ∀ s p', v.sess[s]? = none → w.sess[s]? = some p' → P s p' := by
  intro s p' a b
  rw [List.getElem?_eq_none_iff] at a
  have := (List.getElem?_eq_some_iff.1 b).1
  omega

/-- Every step. -/
theorem PInv.step {env : ClientEnv} {v : Pcl} (h : PInv env [] v) (hn : Numbered v) (op : Pcl.Op) :
    ∃ w new, v.step env op = .ret w ∧ Stepped env v w op new := by
  cases op with
  | createSession unit =>
    obtain ⟨c, hc⟩ := h.reach.total .createSession
    have hstep : v.chanStep env .createSession = .ret { v with cli := c, log := v.log ++ [.ch (.session (if v.cli.isShutdown then none else some v.sess.length))] } := by
      simp only [Pcl.chanStep, hc, CM.ret_bind]
      simp only [Cli.step] at hc
      cases hd : v.cli.isShutdown <;> simp only [hd, if_true, if_false, Bool.false_eq_true] at hc <;> injection hc with hc <;> subst hc <;>
        simp [Cli.emit, Pcl.fromChan, Pcl.fromChan1, hn.next]
    have hlog : c.log = v.cli.log ++ [.session (if v.cli.isShutdown then none else some v.sess.length)] ∧ c.now = v.cli.now ∧ c.isShutdown = v.cli.isShutdown := by
      simp only [Cli.step] at hc
      cases hd : v.cli.isShutdown <;> simp only [hd, if_true, if_false, Bool.false_eq_true] at hc <;> injection hc with hc <;> subst hc <;>
        simp [Cli.emit, hn.next, hd]
    have hinv : PInv env [] { v with cli := c, log := v.log ++ [.ch (.session (if v.cli.isShutdown then none else some v.sess.length))] } := by
      refine ⟨h.reach.step hc, ?_, h.blocks.plain rfl, fun s p hp => ?_, fun s hs => ?_, ?_⟩
      · simp only [hlog.1, h.chan, ofChannel_append, List.append_nil]; rfl
      · simp only [hlog.2.1]; exact (h.sessions s p hp).more rfl rfl
      · simp only [ofSession_append, schedulings_append, (h.fresh s hs).1, (h.fresh s hs).2]; exact ⟨rfl, rfl⟩
      · simp only [openings_append, h.opened]; simp [openings]
    cases hd : v.cli.isShutdown with
    | true =>
      rw [hd] at hstep hinv hlog
      simp only [if_true] at hstep hinv hlog
      refine ⟨_, [.ch (.session none)], by simp only [Pcl.step, hstep, CM.ret_bind, hd, if_true, CM.pure_eq], hinv, ?_,
        .log_only rfl rfl rfl (by simp) (by simp), ⟨_, hc, by simp, by simp [Pcl.ownChan]⟩, by simp, no_new rfl, by simp⟩
      simp only [Cli.step, hd, if_true] at hc
      injection hc with hc; subst hc
      exact hn.keep rfl rfl rfl rfl
    | false =>
      rw [hd] at hstep hinv hlog
      simp only [if_false, Bool.false_eq_true] at hstep hinv hlog
      refine ⟨_, [.ch (.session (some v.sess.length)), .opened v.sess.length unit],
        by simp only [Pcl.step, hstep, CM.ret_bind, hd, if_false, Bool.false_eq_true, CM.pure_eq]; rfl, ?_, ?_, ?_, ⟨_, hc, by simp, by simp [Pcl.ownChan]⟩, by simp,
        fun s p' hs hp => ?_, by simp⟩
      · refine ⟨hinv.reach, ?_, hinv.blocks.plain rfl, fun s p hp => ?_, fun s hs => ?_, ?_⟩
        · rw [hinv.chan]; simp [ofChannel]
        · rcases Nat.lt_trichotomy s v.sess.length with hs | rfl | hs
          · simp only [List.getElem?_append_left hs] at hp
            exact (hinv.sessions s p hp).more rfl rfl
          · simp only [List.getElem?_concat_length, Option.some.injEq] at hp
            subst hp
            have hf := hinv.fresh v.sess.length (Nat.le_refl _)
            refine ⟨⟨[.tick c.now], rfl, by simp⟩, ?_, rfl, ?_, by simp, by simp, ?_⟩
            · rw [ofSession_append, hf.1]; rfl
            · simp [Sess.step, Sess.init]
            · rw [schedulings_append, hf.2]; rfl
          · simp only at hp
            rw [List.getElem?_eq_none (by simp; omega)] at hp; cases hp
        · simp only [List.length_append, List.length_singleton] at hs
          have hf := hinv.fresh s (by simp only; omega)
          rw [ofSession_append, schedulings_append, hf.1, hf.2]
          exact ⟨rfl, rfl⟩
        · rw [openings_append, hinv.opened]; simp [openings, List.range_succ]
      · simp only [Cli.step, hd, if_false, Bool.false_eq_true] at hc
        injection hc with hc; subst hc
        refine ⟨?_, fun s hs => ?_, fun _ => ?_⟩
        · simp [Cli.emit, hn.next]
        · simp only [Cli.emit, List.mem_append, List.mem_singleton, List.length_append, List.length_singleton] at hs ⊢
          rcases hs with hs | hs
          · have := hn.bound s hs; omega
          · rw [hs, hn.next]; omega
        · simp only [Cli.emit, List.length_append, List.length_singleton, List.range_succ, hn.all hd, hn.next]
      · refine ⟨by simp, List.prefix_rfl, fun s p hp => ⟨p, ?_, .none (by simp) (by simp)⟩⟩
        rw [List.getElem?_append_left (List.getElem?_eq_some_iff.1 hp).1]; exact hp
      · rw [List.getElem?_eq_none_iff] at hs
        rcases Nat.lt_or_ge v.sess.length s with hl | hl
        · simp only at hp
          rw [List.getElem?_eq_none (by simp; omega)] at hp; cases hp
        · obtain rfl : s = v.sess.length := by omega
          simp only [List.getElem?_concat_length, Option.some.injEq] at hp
          subst hp
          exact ⟨rfl, rfl⟩
  | send s q tmo =>
    cases hp : v.sess[s]? with
    | none => exact ⟨v, [], by simp only [Pcl.step, hp], .stay h hn (by simp) (by simp)⟩
    | some p =>
      obtain ⟨c, c1, c2, c3, c4, c5, c6, c7⟩ := Pcl.submit_eq env v p.unit q tmo
      have hst : v.step env (.send s q tmo) = .ret { v with cli := c, log := v.log ++ [.ch (.call v.cli.nextUid p.unit q tmo)] } := by
        simp only [Pcl.step, hp]; exact c7
      refine ⟨_, _, hst, ?_, hn.keep c4 c5 c6 rfl, .log_only rfl rfl rfl (by simp) (by simp), ⟨_, c1, by simp, by simp [Pcl.ownChan]⟩, by simp,
        no_new rfl, by simp⟩
      refine ⟨h.reach.step c1, ?_, h.blocks.call fun a b c' hm => ?_, fun s p hp => ?_, fun s hs => ?_, ?_⟩
      · simp only [c2, h.chan, ofChannel_append, List.append_nil]; rfl
      · have h1 : CEv.call v.cli.nextUid a b c' ∈ v.cli.log := by rw [h.chan, List.append_nil]; exact mem_ofChannel.2 hm
        exact Nat.lt_irrefl _ (h.reach.inv.1.callBound h1)
      · simp only [c3]; exact (h.sessions s p hp).more rfl rfl
      · simp only [ofSession_append, schedulings_append, (h.fresh s hs).1, (h.fresh s hs).2]; exact ⟨rfl, rfl⟩
      · simp only [openings_append, h.opened]; simp [openings]
  | schedule s q tmo f =>
    cases hp : v.sess[s]? with
    | none => exact ⟨v, [], by simp only [Pcl.step, hp], .stay h hn (by simp) (by simp)⟩
    | some p =>
      have hs : s < v.sess.length := (List.getElem?_eq_some_iff.1 hp).1
      have hok := h.sessions s p hp
      have hst := Pcl.sessStep_mute env (v := { v with sess := v.sess.set s { p with reqs := p.reqs ++ [(q, tmo)] }, log := v.log ++ [LEv.scheduled s p.reqs.length q tmo f] })
        (s := s) (p := { p with reqs := p.reqs ++ [(q, tmo)] }) (by simp [hs]) (op := .schedule f) (es := []) (by simp [Sess.step]) (by simp)
      simp only [List.map_nil, List.append_nil, List.set_set] at hst
      have hst' : v.step env (.schedule s q tmo f) = .ret { v with
          sess := v.sess.set s { p with sess := p.sess.step (.schedule f), reqs := p.reqs ++ [(q, tmo)] }
          log := v.log ++ [LEv.scheduled s p.reqs.length q tmo f] } := by
        simp only [Pcl.step, hp]; exact hst
      refine ⟨_, [LEv.scheduled s p.reqs.length q tmo f], hst', ?_, hn.keep rfl rfl rfl (by simp), ?_, ⟨.tick 0, rfl, by simp, by simp [Pcl.ownChan]⟩, by simp,
        no_new (by simp), by simp⟩
      · refine h.update hp h.reach rfl ?_ (h.blocks.plain rfl) (fun s' hs' => ?_) rfl ?_
        · rw [ofChannel_append, h.chan]; simp [ofChannel]
        · simp [ofSession, schedulings, hs'.symm]
        · refine ⟨hok.lives.step (.schedule f) (by simp), ?_, ?_, ?_, List.mem_append_left _ hok.unit, fun i r hr => ?_, ?_⟩
          · rw [ofSession_append, hok.log]; simp [Sess.step, ofSession]
          · simp [Sess.step, hok.reqs]
          · simp [Sess.step, hok.now]
          · simp only at hr
            rcases Nat.lt_or_ge i p.reqs.length with hi | hi
            · rw [List.getElem?_append_left hi] at hr
              obtain ⟨f', hf'⟩ := hok.what i r hr
              exact ⟨f', List.mem_append_left _ hf'⟩
            · have := (List.getElem?_eq_some_iff.1 hr).1
              simp only [List.length_append, List.length_singleton] at this
              obtain rfl : i = p.reqs.length := by omega
              simp only [List.getElem?_concat_length, Option.some.injEq] at hr
              subst hr
              exact ⟨f, by simp⟩
          · rw [schedulings_append, hok.known]; simp [schedulings, List.range_succ]
      · refine ⟨rfl, List.prefix_rfl, fun s' p' hp' => ?_⟩
        by_cases he : s' = s
        · subst he
          rw [hp] at hp'; injection hp' with hp'; subst hp'
          exact ⟨{ p with sess := p.sess.step (.schedule f), reqs := p.reqs ++ [(q, tmo)] }, by simp only [List.getElem?_set_self hs], rfl, List.prefix_append _ _, [.schedule f], rfl, by simp [justified], by simp, by simp⟩
        · exact ⟨p', by simp only [List.getElem?_set_ne (Ne.symm he)]; exact hp', .none (by simp) (by simp)⟩
  | api s o =>
    by_cases hu : Pcl.userCall o = true ∧ s < v.sess.length
    · obtain ⟨p, hp⟩ : ∃ p, v.sess[s]? = some p := ⟨v.sess[s], List.getElem?_eq_getElem hu.2⟩
      have h1 : PInv env [] { v with log := v.log ++ [LEv.api s o] } := h.logged (h.blocks.plain rfl) rfl (fun s => ⟨rfl, rfl⟩) rfl
      have ho : Sess.ordinary o = true := by cases o <;> first | rfl | exact absurd hu.1 (by simp [Pcl.userCall])
      obtain ⟨w, new, a1, a2, a3, a4, a5, a6, a7, a8, a9, a10, a11⟩ := h1.sessStep hp ho
      refine ⟨w, [LEv.api s o] ++ new, by simp only [Pcl.step, hu, and_self, if_true, a1], a2, hn.keep a7 a8 a9 (by rw [a5]; simp), ?_, ?_, by simp,
        no_new (by rw [a5]; simp), fun s' o' hm => ?_⟩
      · refine .one hp (by rw [a3]; simp) a5 a4 ?_ (fun s' hm => ?_) (fun s' o' hm => ?_)
        · cases o with
          | call i t => exact List.mem_append_left _ (List.mem_singleton.2 rfl)
          | register i => exact List.mem_append_left _ (List.mem_singleton.2 rfl)
          | shutdown => exact .inl (List.mem_append_left _ (List.mem_singleton.2 rfl))
          | _ => exact absurd hu.1 (by simp [Pcl.userCall])
        · rcases List.mem_append.1 hm with hm | hm
          · simp at hm
          · obtain ⟨_, _, _, _, he⟩ := a11 _ hm; cases he
        · rcases List.mem_append.1 hm with hm | hm
          · simp only [List.mem_singleton, LEv.api.injEq] at hm; exact hm
          · exact absurd hm (a10 _ _)
      · obtain ⟨cop, hcop, hne⟩ := a6.op
        exact ⟨cop, hcop, by simp, fun he => absurd he (by simp [hne])⟩
      · rcases List.mem_append.1 hm with hm | hm
        · simp only [List.mem_singleton, LEv.api.injEq] at hm
          obtain ⟨rfl, rfl⟩ := hm
          exact ⟨rfl, hu.1⟩
        · exact absurd hm (a10 _ _)
    · exact ⟨v, [], by simp only [Pcl.step, hu, if_false], .stay h hn (by simp) (by simp)⟩
  | sess s o =>
    cases ho : Pcl.ownSess o with
    | false => exact ⟨v, [], by simp [Pcl.step, ho], .stay h hn (by simp) (fun s' o' he h' => by injection he with _ he; subst he; rw [ho] at h'; cases h')⟩
    | true =>
      cases hp : v.sess[s]? with
      | none =>
        refine ⟨v, [], by simp [Pcl.step, ho, Pcl.sessStep, hp], .stay h hn (by simp) (fun s' o' he h' => ?_)⟩
        injection he with he _; subst he; exact hp
      | some p =>
        have ho' : Sess.ordinary o = true := by cases o <;> first | rfl | cases ho
        have hs : s < v.sess.length := (List.getElem?_eq_some_iff.1 hp).1
        obtain ⟨w, new, a1, a2, a3, a4, a5, a6, a7, a8, a9, a10, a11⟩ := h.sessStep hp ho'
        refine ⟨w, new, by simp [Pcl.step, ho, a1], a2, hn.keep a7 a8 a9 (by rw [a5]; simp), ?_, ?_, fun s' o' p' he _ hp' => ?_,
          no_new (by rw [a5]; simp), fun s' o' hm => absurd hm (a10 _ _)⟩
        · refine .one hp a3 a5 a4 ?_ (fun s' hm => ?_) (fun s' o' hm => absurd hm (a10 _ _))
          · cases o <;> first | trivial | cases ho
          · obtain ⟨_, _, _, _, he⟩ := a11 _ hm; cases he
        · obtain ⟨cop, hcop, hne⟩ := a6.op
          exact ⟨cop, hcop, by simp, fun he => absurd he (by simp [hne])⟩
        · injection he with h1 h2; subst h1; subst h2
          rw [hp] at hp'; injection hp' with hp'; subst hp'
          rw [a5, List.getElem?_set_self hs]
  | chan o =>
    cases ho : Pcl.ownChan o with
    | false => exact ⟨v, [], by simp [Pcl.step, ho], .stay h hn (fun c he => by injection he with he; subst he; exact ho) (by simp)⟩
    | true =>
      obtain ⟨c, hc⟩ := h.reach.total o
      have hev : ∃ es, c.log = v.cli.log ++ es ∧ c.now = v.cli.now ∧ (∀ e ∈ es, ∀ u unit q tmo, e ≠ CEv.call u unit q tmo) ∧
          (∀ u x t, CEv.handler u x t ∈ es → t = v.cli.now) ∧ (∀ s, CEv.sessionShutdown s ∈ es → s < v.sess.length) ∧
          c.nextSession = v.cli.nextSession ∧ (∀ s ∈ c.sessions, s ∈ v.cli.sessions) ∧
          (c.isShutdown = false → v.cli.isShutdown = false ∧ c.sessions = v.cli.sessions) := by
        rcases Cli.own_step hc ho with hst | ⟨ts, -, -, h1, h2, h3, h4, h5, h6⟩
        · obtain ⟨es, h1, h2⟩ := hst.log
          refine ⟨es, h1, hst.now, fun e he u unit q tmo heq => ?_, fun u x t he => h2 _ he, fun s he => absurd (h2 _ he) (by simp [CEv.inside]), hst.nextSession,
            by rw [hst.sessions]; exact fun _ => id, fun hd => ⟨by rw [← hst.isShutdown]; exact hd, hst.sessions⟩⟩
          subst heq; exact h2 _ he
        · refine ⟨_, h1, h2, fun e he u unit q tmo heq => ?_, fun u x t he => ?_, fun s he => ?_, h4, by rw [h3]; simp, by rw [h6]; simp⟩
          · subst heq; simp at he
          · simp at he
          · simp at he; exact hn.bound s he
      obtain ⟨es, e1, e2, e3, e4, e5, e6, e7, e8⟩ := hev
      have h1 : PInv env es { v with cli := c } := by
        refine ⟨h.reach.step hc, ?_, h.blocks, fun s p hp => ?_, h.fresh, h.opened⟩
        · rw [e1, h.chan, List.append_nil]
        · rw [e2]; exact h.sessions s p hp
      obtain ⟨w, new, a1, a2, a3, a4, a5, a6, a7, a8⟩ := h1.fromChan es e3 (by rw [e2]; exact e4) e5
      refine ⟨w, new, ?_, a2, ?_, ⟨a3.log, a3.owner, a3.sess⟩, ⟨o, by rw [a4]; exact hc, fun c' he _ => by injection he, fun _ => rfl⟩, by simp, no_new a5,
        fun s' o' hm => absurd hm (a7 _ _)⟩
      · simp only [Pcl.step, ho, if_true, Pcl.chanStep, hc, CM.ret_bind, e1, List.drop_left', a1]
      · refine ⟨by rw [a4, a5]; exact e6.trans hn.next, fun s hs => ?_, fun hd => ?_⟩
        · rw [a5]; rw [a4] at hs; exact hn.bound s (e7 s hs)
        · rw [a4] at hd ⊢; rw [a5]
          exact (e8 hd).2.trans (hn.all (e8 hd).1)
  | tick n =>
    refine ⟨_, [], by simp only [Pcl.step, Pcl.chanStep, Cli.step, CM.ret_bind, List.drop_length, Pcl.fromChan, CM.pure_eq]; rfl, ?_,
      ⟨by simp [hn.next], fun s hs => by simpa using hn.bound s hs, fun hd => by simpa using hn.all hd⟩, ?_,
      ⟨.tick n, rfl, by simp, by simp [Pcl.ownChan]⟩, by simp, no_new (by simp), by simp⟩
    · refine ⟨h.reach.step (op := .tick n) rfl, h.chan, h.blocks, fun s p hp => ?_, fun s hs => h.fresh s (by simpa using hs), by simpa using h.opened⟩
      simp only [List.getElem?_map, Option.map_eq_some_iff] at hp
      obtain ⟨q, hq, rfl⟩ := hp
      have hok := h.sessions s q hq
      refine ⟨hok.lives.step (.tick n) (by simp), ?_, ?_, ?_, hok.unit, hok.what, hok.known⟩
      · rw [hok.log]; simp [Sess.step]
      · simp [Sess.step, hok.reqs]
      · simp [Sess.step, hok.now]
    · refine ⟨by simp, List.prefix_rfl, fun s p hp => ⟨{ p with sess := p.sess.step (.tick n) }, by simp [hp], rfl, List.prefix_rfl, [.tick n], rfl, by simp [justified], by simp, by simp⟩⟩

end Modbus
