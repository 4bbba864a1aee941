import Verif.Lemmas.Polling

/-! The invariant of polling clients. -/

namespace Modbus

open Spec

theorem Logged.handler_call {env : ClientEnv} {l : List CEv} (h : Logged env l) {a b : List CEv} {u t : Nat} {x : Expected (List UInt8)}
    (he : l = a ++ .handler u x t :: b) : u ∉ handledUids a ∧ ∃ unit q tmo, CEv.call u unit q tmo ∈ a := by
  have hs : ∀ u ∈ sentUids a, ∃ unit q tmo, CEv.call u unit q tmo ∈ a := by
    intro u hu
    obtain ⟨bs, t', hm⟩ := mem_sentUids.1 hu
    obtain ⟨a1, a2, rfl⟩ := List.append_of_mem hm
    have := h.at (l1 := a1) (e := .sent u bs t') (by rw [he, List.append_assoc]; rfl)
    obtain ⟨-, -, -, -, -, unit, q, tmo, hc, -⟩ := this
    exact ⟨unit, q, tmo, List.mem_append_left _ hc⟩
  have hj := h.at he
  cases x with
  | ok d => obtain ⟨-, -, h2, l0, m, unit, q, tmo, -, -, hc, -⟩ := hj; exact ⟨h2, unit, q, tmo, hc⟩
  | error e =>
    cases e with
    | connection => obtain ⟨-, h2, ⟨unit, q, tmo, hc, -⟩, -⟩ := hj; exact ⟨h2, unit, q, tmo, hc⟩
    | timeout => obtain ⟨-, h1, h2, -⟩ := hj; exact ⟨h2, hs u h1⟩
    | malformedRequest => obtain ⟨-, h2, unit, q, tmo, hc, -⟩ := hj; exact ⟨h2, unit, q, tmo, hc⟩
    | _ => exact absurd hj (by simp [Just])

/-- Effects of a session that give nothing to the channel. -/
def SessEv.mute : SessEv → Bool
  | .poll _ (.sent _ _) => false
  | _ => true

theorem SessEv.mute_of_calm {e : SessEv} (h : e.calm = true) : e.mute = true := by
  cases e with
  | poll i e => cases e <;> first | rfl | cases h
  | _ => rfl

namespace Pcl

theorem fromSess_append (env : ClientEnv) (s : Nat) (a b : List SessEv) : ∀ v : Pcl, v.fromSess env s (a ++ b) =
    (v.fromSess env s a) >>= fun w => w.fromSess env s b := by
  induction a with
  | nil => intro v; rfl
  | cons e a ih =>
    intro v
    simp only [List.cons_append, fromSess]
    rcases v.fromSess1 env s e with _ | w
    · rfl
    · simp only [CM.ret_bind]; exact ih w

theorem fromSess1_mute (env : ClientEnv) (v : Pcl) (s : Nat) (e : SessEv) (h : e.mute = true) :
    v.fromSess1 env s e = .ret { v with log := v.log ++ [.sess s e] } := by
  cases e with
  | poll i e => cases e <;> first | rfl | cases h
  | _ => rfl

theorem fromSess_mute (env : ClientEnv) (s : Nat) (es : List SessEv) : ∀ v : Pcl, (∀ e ∈ es, e.mute = true) →
    v.fromSess env s es = .ret { v with log := v.log ++ es.map (.sess s) } := by
  induction es with
  | nil => intro v _; simp [fromSess]
  | cons e es ih =>
    intro v h
    simp only [fromSess, fromSess1_mute env v s e (h e (.head _)), CM.ret_bind]
    rw [ih _ fun x hx => h x (.tail _ hx)]
    simp

theorem submit_eq (env : ClientEnv) (v : Pcl) (unit : UInt8) (q : AnyReq) (tmo : Nat) : ∃ c : Cli,
    v.cli.step env (.submit unit q tmo) = .ret c ∧ c.log = v.cli.log ++ [.call v.cli.nextUid unit q tmo] ∧ c.now = v.cli.now ∧
    c.sessions = v.cli.sessions ∧ c.nextSession = v.cli.nextSession ∧ c.isShutdown = v.cli.isShutdown ∧
    v.submit env unit q tmo = .ret { v with cli := c, log := v.log ++ [.ch (.call v.cli.nextUid unit q tmo)] } := by
  obtain ⟨new, -, he⟩ := Cli.step_submit env v.cli unit q tmo
  refine ⟨_, he, rfl, rfl, rfl, rfl, rfl, ?_⟩
  simp only [submit, he, CM.ret_bind, CM.pure_eq]
  simp [Cli.emit]

theorem sessStep_mute (env : ClientEnv) {v : Pcl} {s : Nat} {p : PSess} (hp : v.sess[s]? = some p) {op : Sess.Op} {es : List SessEv}
    (hl : (p.sess.step op).log = p.sess.log ++ es) (hm : ∀ e ∈ es, e.mute = true) : v.sessStep env s op =
    .ret { v with sess := v.sess.set s { p with sess := p.sess.step op }, log := v.log ++ es.map (.sess s) } := by
  simp only [sessStep, hp, hl, List.drop_left']
  rw [fromSess_mute _ _ _ _ hm]

theorem sessStep_sent (env : ClientEnv) {v : Pcl} {s : Nat} {p : PSess} (hp : v.sess[s]? = some p) {op : Sess.Op} {es : List SessEv} {i id t : Nat}
    (hl : (p.sess.step op).log = p.sess.log ++ (es ++ [.poll i (.sent id t)])) (hm : ∀ e ∈ es, e.mute = true) {r : AnyReq × Nat}
    (hr : p.reqs[i]? = some r) : v.sessStep env s op =
    ({ v with sess := v.sess.set s { p with sess := p.sess.step op }, log := v.log ++ es.map (.sess s) ++ [.sess s (.poll i (.sent id t))],
              owner := v.owner ++ [(v.cli.nextUid, s, i, id)] } : Pcl).submit env p.unit r.1 r.2 := by
  have hs : s < v.sess.length := (List.getElem?_eq_some_iff.1 hp).1
  simp only [sessStep, hp, hl, List.drop_left']
  rw [fromSess_append, fromSess_mute _ _ _ _ hm, CM.ret_bind]
  simp only [fromSess, fromSess1, List.getElem?_set_self hs, hr]
  rcases submit env _ p.unit r.1 r.2 with _ | w
  · rfl
  · rfl

end Pcl

/-- A session and its part of the log. -/
structure SessOk (l : List LEv) (tm s : Nat) (p : PSess) : Prop where
  lives : p.sess.Lives
  log : ofSession s l = p.sess.log
  reqs : p.reqs.length = p.sess.polls.length
  now : p.sess.now = tm
  unit : LEv.opened s p.unit ∈ l
  what : ∀ i r, p.reqs[i]? = some r → ∃ f, LEv.scheduled s i r.1 r.2 f ∈ l
  known : schedulings s l = List.range p.reqs.length

theorem SessOk.more {log : List LEv} {now s : Nat} {p : PSess} (h : SessOk log now s p) {new : List LEv} (h1 : ofSession s new = [])
    (h2 : schedulings s new = []) : SessOk (log ++ new) now s p := by
  refine ⟨h.lives, by rw [ofSession_append, h1, List.append_nil, h.log], h.reqs, h.now, List.mem_append_left _ h.unit, fun i r hr => ?_,
    by rw [schedulings_append, h2, List.append_nil, h.known]⟩
  obtain ⟨f, hf⟩ := h.what i r hr
  exact ⟨f, List.mem_append_left _ hf⟩

/-- The session makes a step other than `send`, `schedule`, `tick`. -/
theorem SessOk.step {log : List LEv} {now s : Nat} {p : PSess} (h : SessOk log now s p) {op : Sess.Op} (ho : op ≠ .send)
    (ho1 : ∀ f, op ≠ .schedule f) (ho2 : ∀ n, op ≠ .tick n) {new : List LEv} (h1 : (p.sess.step op).log = p.sess.log ++ ofSession s new)
    (h2 : schedulings s new = []) : SessOk (log ++ new) now s { p with sess := p.sess.step op } := by
  have hlen : (p.sess.step op).polls.length = p.sess.polls.length := by
    rw [Sess.step_length]; cases op <;> first | rfl | exact absurd rfl (ho1 _)
  have hnow : (p.sess.step op).now = p.sess.now := by
    rw [Sess.step_now]; cases op <;> first | rfl | exact absurd rfl (ho2 _)
  refine ⟨h.lives.step op ho, by rw [ofSession_append, h.log]; exact h1.symm, by rw [h.reqs]; exact hlen.symm, hnow.trans h.now,
    List.mem_append_left _ h.unit, fun i r hr => ?_, by rw [schedulings_append, h2, List.append_nil, h.known]⟩
  obtain ⟨f, hf⟩ := h.what i r hr
  exact ⟨f, List.mem_append_left _ hf⟩

/-- The invariant.  `rem`: effects of the channel's present step that still have to be carried out. -/
structure PInv (env : ClientEnv) (rem : List CEv) (v : Pcl) : Prop where
  reach : Props.CReach env v.cli
  chan : v.cli.log = ofChannel v.log ++ rem
  blocks : Blocks v.log v.owner
  sessions : ∀ s p, v.sess[s]? = some p → SessOk v.log v.cli.now s p
  fresh : ∀ s, v.sess.length ≤ s → ofSession s v.log = [] ∧ schedulings s v.log = []
  opened : openings v.log = List.range v.sess.length

namespace PInv

theorem init (env : ClientEnv) : PInv env [] (Pcl.init env) :=
  ⟨⟨[], rfl⟩, rfl, .nil, fun s p h => by simp [Pcl.init] at h, fun s _ => ⟨rfl, rfl⟩, rfl⟩

/-- One session changes, and the channel perhaps. -/
theorem update {env : ClientEnv} {rem : List CEv} {v : Pcl} (h : PInv env rem v) {s : Nat} {p : PSess} (hp : v.sess[s]? = some p)
    {c : Cli} {rem' : List CEv} {new : List LEv} {o : List (Nat × Nat × Nat × Nat)} {p' : PSess} (hc : Props.CReach env c) (hnow : c.now = v.cli.now)
    (hch : c.log = ofChannel (v.log ++ new) ++ rem') (hb : Blocks (v.log ++ new) o)
    (hother : ∀ s', s' ≠ s → ofSession s' new = [] ∧ schedulings s' new = []) (hop : openings new = [])
    (hok : SessOk (v.log ++ new) v.cli.now s p') :
    PInv env rem' { cli := c, sess := v.sess.set s p', owner := o, log := v.log ++ new } := by
  have hs : s < v.sess.length := (List.getElem?_eq_some_iff.1 hp).1
  refine ⟨hc, hch, hb, fun s' q hq => ?_, fun s' hs' => ?_, ?_⟩
  · show SessOk (v.log ++ new) c.now s' q
    rw [hnow]
    by_cases he : s' = s
    · subst he
      simp only [List.getElem?_set_self hs, Option.some.injEq] at hq
      subst hq; exact hok
    · simp only at hq
      rw [List.getElem?_set_ne (Ne.symm he)] at hq
      exact (h.sessions s' q hq).more (hother s' he).1 (hother s' he).2
  · simp only [List.length_set] at hs'
    have he : s' ≠ s := by omega
    show ofSession s' (v.log ++ new) = [] ∧ schedulings s' (v.log ++ new) = []
    rw [ofSession_append, schedulings_append, (h.fresh s' hs').1, (h.fresh s' hs').2, (hother s' he).1, (hother s' he).2]
    exact ⟨rfl, rfl⟩
  · show openings (v.log ++ new) = List.range (v.sess.set s p').length
    rw [openings_append, hop, List.append_nil, h.opened, List.length_set]

end PInv

theorem ofSession_map (s : Nat) (es : List SessEv) : ofSession s (es.map (.sess s)) = es := by
  induction es with
  | nil => rfl
  | cons e es ih => simp only [ofSession] at ih ⊢; simp [ih]

theorem ofSession_map_ne {s s' : Nat} (h : s ≠ s') (es : List SessEv) : ofSession s' (es.map (.sess s)) = [] := by
  induction es with
  | nil => rfl
  | cons e es ih => simp only [ofSession] at ih ⊢; simp [h]

theorem ofChannel_map (s : Nat) (es : List SessEv) : ofChannel (es.map (.sess s)) = [] := by
  induction es with
  | nil => rfl
  | cons e es ih => simp only [ofChannel] at ih ⊢; simp

theorem schedulings_map (s s' : Nat) (es : List SessEv) : schedulings s' (es.map (.sess s)) = [] := by
  induction es with
  | nil => rfl
  | cons e es ih => simp only [schedulings] at ih ⊢; simp

theorem openings_map (s : Nat) (es : List SessEv) : openings (es.map (.sess s)) = [] := by
  induction es with
  | nil => rfl
  | cons e es ih => simp only [openings] at ih ⊢; simp

theorem plain_of_calm {s : Nat} {es : List SessEv} (h : ∀ e ∈ es, e.calm = true) : ∀ e ∈ es.map (LEv.sess s), e.plain = true := by
  intro e he
  obtain ⟨x, hx, rfl⟩ := List.mem_map.1 he
  have := h x hx
  cases x with
  | poll i e => cases e <;> first | rfl | cases this
  | _ => rfl

namespace PInv

/-- A session makes a step that gives nothing to the channel, logged after the call `pre` (if it is one). -/
theorem calm {env : ClientEnv} {rem : List CEv} {v : Pcl} (h : PInv env rem v) {s : Nat} {p : PSess} (hp : v.sess[s]? = some p)
    {op : Sess.Op} (ho : op ≠ .send) (ho1 : ∀ f, op ≠ .schedule f) (ho2 : ∀ n, op ≠ .tick n) {es : List SessEv}
    (hl : (p.sess.step op).log = p.sess.log ++ es) (hc : ∀ e ∈ es, e.calm = true) :
    PInv env rem { v with sess := v.sess.set s { p with sess := p.sess.step op }, log := v.log ++ es.map (.sess s) } := by
  refine h.update hp h.reach rfl ?_ (h.blocks.plains _ (plain_of_calm hc)) (fun s' hs' => ⟨ofSession_map_ne hs'.symm es, schedulings_map _ _ _⟩)
    (openings_map _ _) ?_
  · rw [ofChannel_append, ofChannel_map, List.append_nil]; exact h.chan
  · exact (h.sessions s p hp).step ho ho1 ho2 (by rw [ofSession_map]; exact hl) (schedulings_map _ _ _)

end PInv

end Modbus
