import Verif.Spec.SessionApi
import Verif.Props.Polling
import Verif.Lemmas.WorldParts

/-! The interface of client sessions. -/

namespace Modbus

open Spec Props

/-- Every call of the channel comes right after the sending of a scheduled request, and nothing is scheduled. -/
structure Sourced (l : List LEv) : Prop where
  calls : ∀ m b uid unit q tmo, l = m ++ .ch (.call uid unit q tmo) :: b → ∃ m' s i id t, m = m' ++ [.sess s (.poll i (.sent id t))]
  none : ∀ s i q tmo f, LEv.scheduled s i q tmo f ∉ l

namespace Sourced

theorem quiet {l : List LEv} (h : ∀ e ∈ l, (∀ uid unit q tmo, e ≠ .ch (.call uid unit q tmo)) ∧ ∀ s i q tmo f, e ≠ .scheduled s i q tmo f) : Sourced l := by
  refine ⟨fun m b uid unit q tmo he => ?_, fun s i q tmo f hm => (h _ hm).2 _ _ _ _ _ rfl⟩
  exact absurd rfl ((h _ (by rw [he]; simp)).1 uid unit q tmo)

theorem nil : Sourced [] := quiet (by simp)

theorem append {a b : List LEv} (ha : Sourced a) (hb : Sourced b) : Sourced (a ++ b) := by
  refine ⟨fun m c uid unit q tmo he => ?_, fun s i q tmo f hm => ?_⟩
  · rcases List.append_eq_append_iff.1 he with ⟨x, rfl, h2⟩ | ⟨x, h1, h2⟩
    · obtain ⟨m', s, i, id, t, h3⟩ := hb.calls x c uid unit q tmo h2
      exact ⟨a ++ m', s, i, id, t, by rw [h3, List.append_assoc]⟩
    · cases x with
      | nil =>
        obtain ⟨m', s, i, id, t, h3⟩ := hb.calls [] c uid unit q tmo (by simpa using h2.symm)
        cases m' <;> cases h3
      | cons y x =>
        injection h2 with h2 h3
        subst h2
        exact ha.calls m x uid unit q tmo h1
  · rcases List.mem_append.1 hm with hm | hm
    · exact ha.none _ _ _ _ _ hm
    · exact hb.none _ _ _ _ _ hm

theorem poll (s i id t uid : Nat) (unit : UInt8) (q : AnyReq) (tmo : Nat) : Sourced [.sess s (.poll i (.sent id t)), .ch (.call uid unit q tmo)] := by
  refine ⟨fun m b uid unit q tmo he => ?_, by simp⟩
  cases m with
  | nil => cases he
  | cons x m =>
    injection he with h1 he
    cases m with
    | nil => exact ⟨[], s, i, id, t, by rw [← h1]; rfl⟩
    | cons y m => injection he with h2 he; cases m <;> cases he

end Sourced

namespace Pcl

/-- What happens besides the calls of the interface: as in `Sourced`, and no session is created. -/
def Grown (v w : Pcl) : Prop := (∃ new, w.log = v.log ++ new ∧ Sourced new) ∧ w.sess.length = v.sess.length

theorem Grown.more {u v w : Pcl} {l : List LEv} (h : Grown v w) (hl : v.log = u.log ++ l) (hs : v.sess.length = u.sess.length) (h1 : Sourced l) : Grown u w := by
  obtain ⟨⟨b, h5, h6⟩, h7⟩ := h
  exact ⟨⟨l ++ b, by rw [h5, hl, List.append_assoc], h1.append h6⟩, h7.trans hs⟩

theorem Grown.refl (v : Pcl) : Grown v v := ⟨⟨[], by simp, .nil⟩, rfl⟩

theorem Grown.trans {u v w : Pcl} (h : Grown u v) (h' : Grown v w) : Grown u w := by
  obtain ⟨⟨a, h1, h2⟩, h3⟩ := h
  exact h'.more h1 h3 h2

theorem fromSess1_sourced {env : ClientEnv} {v w : Pcl} {s : Nat} {e : SessEv} (h : v.fromSess1 env s e = .ret w) : Grown v w := by
  have one : Sourced [LEv.sess s e] := .quiet (by simp)
  unfold fromSess1 at h
  simp only at h
  split at h
  · rename_i i id t
    split at h
    · injection h with h; subst h; exact ⟨⟨_, rfl, one⟩, rfl⟩
    · split at h
      · injection h with h; subst h; exact ⟨⟨_, rfl, one⟩, rfl⟩
      · rename_i p hp x r hr
        obtain ⟨c, -, -, -, -, -, -, h7⟩ := submit_eq env
          { v with owner := v.owner ++ [(v.cli.nextUid, s, i, id)], log := v.log ++ [.sess s (.poll i (.sent id t))] } p.unit r.1 r.2
        rw [h7] at h
        injection h with h; subst h
        exact ⟨⟨_, List.append_assoc _ _ _, .poll s i id t _ _ _ _⟩, rfl⟩
  · injection h with h; subst h; exact ⟨⟨_, rfl, one⟩, rfl⟩

theorem fromSess_sourced {env : ClientEnv} {s : Nat} (es : List SessEv) : ∀ {v w : Pcl}, v.fromSess env s es = .ret w → Grown v w := by
  induction es with
  | nil => intro v w h; injection h with h; subst h; exact .refl _
  | cons e es ih =>
    intro v w h
    obtain ⟨u, h1, h2⟩ := CM.bind_eq_ret.1 h
    exact (fromSess1_sourced h1).trans (ih h2)

theorem sessStep_sourced {env : ClientEnv} {v w : Pcl} {s : Nat} {op : Sess.Op} (h : v.sessStep env s op = .ret w) : Grown v w := by
  unfold sessStep at h
  split at h
  · injection h with h; subst h; exact .refl _
  · rename_i p hp
    exact (fromSess_sourced (v := { v with sess := v.sess.set s { p with sess := p.sess.step op } }) _ h).more (l := []) (by simp) (by simp) .nil

theorem fromChan1_sourced {env : ClientEnv} {v w : Pcl} {e : CEv} (he : ∀ u a b c, e ≠ .call u a b c) (h : v.fromChan1 env e = .ret w) : Grown v w := by
  have one : Sourced [LEv.ch e] := .quiet (by simpa using he)
  unfold fromChan1 at h
  simp only at h
  split at h
  · split at h
    · injection h with h; subst h; exact ⟨⟨_, rfl, one⟩, rfl⟩
    · exact (sessStep_sourced h).more rfl rfl one
  · exact (sessStep_sourced h).more rfl rfl one
  · injection h with h; subst h; exact ⟨⟨_, rfl, one⟩, rfl⟩

theorem fromChan_sourced {env : ClientEnv} (es : List CEv) : ∀ {v w : Pcl}, (∀ u a b c, CEv.call u a b c ∉ es) → v.fromChan env es = .ret w → Grown v w := by
  induction es with
  | nil => intro v w _ h; injection h with h; subst h; exact .refl _
  | cons e es ih =>
    intro v w he h
    obtain ⟨u, h1, h2⟩ := CM.bind_eq_ret.1 h
    exact (fromChan1_sourced (fun u a b c hc => he u a b c (by rw [hc]; exact .head _)) h1).trans (ih (fun u a b c hc => he u a b c (.tail _ hc)) h2)

theorem chanStep_sourced {env : ClientEnv} {v w : Pcl} {op : Cli.Op} (ho : ∀ unit q tmo, op ≠ .submit unit q tmo) (h : v.chanStep env op = .ret w) : Grown v w := by
  obtain ⟨c, hc, h⟩ := CM.bind_eq_ret.1 h
  refine (fromChan_sourced (v := { v with cli := c }) _ ?_ h).more (l := []) (by simp) (by simp) .nil
  intro u a b d hm
  have key : ∃ es, c.log = v.cli.log ++ es ∧ CEv.call u a b d ∉ es := by
    by_cases hop : Pcl.ownChan op = true
    · rcases Cli.own_step hc hop with hs | ⟨ts, -, -, hl, -⟩
      · obtain ⟨es, h1, h2⟩ := hs.log
        exact ⟨es, h1, fun hm => h2 _ hm⟩
      · exact ⟨_, hl, by simp⟩
    · cases op with
      | submit unit q tmo => exact absurd rfl (ho _ _ _)
      | createSession =>
        simp only [Cli.step] at hc
        split at hc <;> injection hc with hc <;> subst hc <;> exact ⟨_, rfl, by simp⟩
      | tick n => injection hc with hc; subst hc; exact ⟨[], by simp, by simp⟩
      | _ => exact absurd rfl hop
  obtain ⟨es, h1, h2⟩ := key
  rw [h1, List.drop_left] at hm
  exact h2 hm

/-- Steps that are not calls of `create_session`, `send_request`, `schedule_request`. -/
theorem step_sourced {env : ClientEnv} {v w : Pcl} {op : Pcl.Op} (h0 : ∀ u, op ≠ .createSession u) (h1 : ∀ s q t, op ≠ .send s q t) (h2 : ∀ s q t f, op ≠ .schedule s q t f)
    (h : v.step env op = .ret w) : Grown v w := by
  have stay : v = w → Grown v w := by rintro rfl; exact .refl _
  cases op with
  | send s q t => exact absurd rfl (h1 _ _ _)
  | schedule s q t f => exact absurd rfl (h2 _ _ _ _)
  | createSession unit => exact absurd rfl (h0 _)
  | api s o =>
    simp only [Pcl.step] at h
    split at h
    · exact (sessStep_sourced h).more rfl rfl (.quiet (by simp))
    · injection h with h; exact stay h
  | sess s o =>
    simp only [Pcl.step] at h
    split at h
    · exact sessStep_sourced h
    · injection h with h; exact stay h
  | chan o =>
    simp only [Pcl.step] at h
    split at h
    · rename_i ho
      refine chanStep_sourced ?_ h
      rintro unit q tmo rfl
      cases ho
    · injection h with h; exact stay h
  | tick n =>
    obtain ⟨u, hu, h⟩ := CM.bind_eq_ret.1 h
    obtain ⟨⟨new, h3, h4⟩, h5⟩ := chanStep_sourced (by simp) hu
    injection h with h; subst h
    exact ⟨⟨new, h3, h4⟩, by simpa using h5⟩

theorem step_create {env : ClientEnv} {v w : Pcl} {unit : UInt8} (h : v.step env (.createSession unit) = .ret w) :
    ∃ new, w.log = v.log ++ new ∧ Sourced new ∧ w.sess.length = v.sess.length + (if v.cli.isShutdown then 0 else 1) ∧
      (v.cli.isShutdown = false → ∃ p, w.sess[v.sess.length]? = some p ∧ p.unit = unit) := by
  obtain ⟨u, hu, h⟩ := CM.bind_eq_ret.1 h
  obtain ⟨⟨new, h3, h4⟩, h5⟩ := chanStep_sourced (by simp) hu
  by_cases hs : v.cli.isShutdown = true
  · rw [if_pos hs] at h
    injection h with h; subst h
    exact ⟨new, h3, h4, by rw [if_pos hs, h5]; rfl, by simp [hs]⟩
  · rw [if_neg hs] at h
    injection h with h; subst h
    refine ⟨new ++ [.opened u.sess.length unit], by simp [h3], h4.append (.quiet (by simp)), by simp [h5, hs], 
      fun _ => ⟨{ unit := unit, sess := Sess.init.step (.tick u.cli.now), reqs := [] }, by simp [← h5], rfl⟩⟩

theorem step_send {env : ClientEnv} {v : Pcl} {s : Nat} {p : PSess} (hp : v.sess[s]? = some p) (q : AnyReq) (tmo : Nat) :
    ∃ w, v.step env (.send s q tmo) = .ret w ∧ w.log = v.log ++ [.ch (.call v.cli.nextUid p.unit q tmo)] ∧ w.sess.length = v.sess.length := by
  obtain ⟨c, -, -, -, -, -, -, h7⟩ := submit_eq env v p.unit q tmo
  exact ⟨{ v with cli := c, log := v.log ++ [.ch (.call v.cli.nextUid p.unit q tmo)] }, by simp only [Pcl.step, hp]; exact h7, rfl, rfl⟩

theorem step_schedule {env : ClientEnv} {v : Pcl} {s : Nat} {p : PSess} (hp : v.sess[s]? = some p) (q : AnyReq) (tmo f : Nat) :
    ∃ w, v.step env (.schedule s q tmo f) = .ret w ∧ w.log = v.log ++ [.scheduled s p.reqs.length q tmo f] ∧ w.sess.length = v.sess.length := by
  have hlt : s < v.sess.length := (List.getElem?_eq_some_iff.1 hp).1
  refine ⟨{ v with
      sess := v.sess.set s { p with sess := p.sess.step (.schedule f), reqs := p.reqs ++ [(q, tmo)] }
      log := v.log ++ [LEv.scheduled s p.reqs.length q tmo f] }, ?_, rfl, by simp⟩
  have hst := Pcl.sessStep_mute env (v := { v with sess := v.sess.set s { p with reqs := p.reqs ++ [(q, tmo)] }, log := v.log ++ [LEv.scheduled s p.reqs.length q tmo f] })
    (s := s) (p := { p with reqs := p.reqs ++ [(q, tmo)] }) (by simp [hlt]) (op := .schedule f) (es := []) (by simp [Sess.step]) (by simp)
  simp only [Pcl.step, hp, hst]
  simp

end Pcl

theorem nodup_filterMap_inj {α β : Type} {f : α → Option β} {l : List α} (h : (l.filterMap f).Nodup) {x y : α} {z : β} (hx : x ∈ l) (hy : y ∈ l)
    (hfx : f x = some z) (hfy : f y = some z) : x = y := by
  induction l with
  | nil => cases hx
  | cons a l ih =>
    have mem : ∀ {w}, w ∈ l → f w = some z → z ∈ l.filterMap f := fun hw hf => List.mem_filterMap.2 ⟨_, hw, hf⟩
    rw [List.filterMap_cons] at h
    rcases List.mem_cons.1 hx with rfl | hx' <;> rcases List.mem_cons.1 hy with rfl | hy'
    · rfl
    · rw [hfx] at h; exact absurd (mem hy' hfy) (List.nodup_cons.1 h).1
    · rw [hfy] at h; exact absurd (mem hx' hfx) (List.nodup_cons.1 h).1
    · refine ih ?_ hx' hy'
      cases hfa : f a with
      | none => rw [hfa] at h; exact h
      | some b => rw [hfa] at h; exact (List.nodup_cons.1 h).2

/-- The unit of a session. -/
theorem LReach.unit_of {env : ClientEnv} {v : Pcl} (h : LReach env v) {s : Nat} {u : UInt8} (ho : LEv.opened s u ∈ v.log) : ∃ p, v.sess[s]? = some p ∧ p.unit = u := by
  have hi := h.inv.1
  have hs : s ∈ openings v.log := List.mem_filterMap.2 ⟨_, ho, rfl⟩
  have hlt : s < v.sess.length := by rw [hi.opened] at hs; exact List.mem_range.1 hs
  refine ⟨v.sess[s], List.getElem?_eq_getElem hlt, ?_⟩
  have h1 := (hi.sessions s _ (List.getElem?_eq_getElem hlt)).unit
  have hn : (openings v.log).Nodup := by rw [hi.opened]; exact List.nodup_range
  have := nodup_filterMap_inj hn h1 ho (z := s) rfl rfl
  injection this

@[simp] theorem insideOf_append (a b : List IfEv) : insideOf (a ++ b) = insideOf a ++ insideOf b := by simp [insideOf]

@[simp] theorem insideOf_inner (l : List LEv) : insideOf (l.map .inner) = l := by
  induction l with
  | nil => rfl
  | cons e l ih => simp only [insideOf, List.map_cons, List.filterMap_cons] at ih ⊢; rw [ih]

theorem mem_insideOf {l : List IfEv} {e : LEv} : e ∈ insideOf l ↔ IfEv.inner e ∈ l := by
  simp only [insideOf, List.mem_filterMap]
  constructor
  · rintro ⟨x, hx, h⟩
    cases x <;> simp at h
    subst h; exact hx
  · intro h; exact ⟨_, h, rfl⟩

/-! ### The log of the interface -/

/-- The log may continue with `new` after `past`: requests and schedulings come in pairs, the user's call and what the session does. -/
structure Formed (past new : List IfEv) : Prop where
  asked : ∀ a b s uid q g, new = a ++ .asked s uid q g :: b →
    ∃ unit d b', .created s unit d ∈ past ++ a ∧ b = .inner (.ch (.call uid unit q (g.getD d))) :: b'
  polled : ∀ a b s i q g f, new = a ++ .polled s i q g f :: b →
    ∃ unit d b', .created s unit d ∈ past ++ a ∧ b = .inner (.scheduled s i q (g.getD d) f) :: b'
  sched : ∀ a b s i q t f, new = a ++ .inner (.scheduled s i q t f) :: b → ∃ a' g unit d, a = a' ++ [.polled s i q g f] ∧ .created s unit d ∈ past ++ a' ∧ t = g.getD d
  calls : ∀ a b uid unit q t, new = a ++ .inner (.ch (.call uid unit q t)) :: b →
    (∃ a' s g, a = a' ++ [.asked s uid q g]) ∨ ∃ a' s i id t, a = a' ++ [.inner (.sess s (.poll i (.sent id t)))]

theorem split_two {α : Type} {l m a b : List α} {x : α} (h : l ++ m = a ++ x :: b) : (∃ b', l = a ++ x :: b' ∧ b = b' ++ m) ∨ ∃ a', a = l ++ a' ∧ m = a' ++ x :: b := by
  rcases List.append_eq_append_iff.1 h with ⟨c, h1, h2⟩ | ⟨c, h1, h2⟩
  · exact .inr ⟨c, h1, h2⟩
  · cases c with
    | nil => exact .inr ⟨[], by simpa using h1.symm, by simpa using h2.symm⟩
    | cons y c => injection h2 with h2 h3; subst h2; exact .inl ⟨c, h1, h3⟩

theorem Formed.append {past a b : List IfEv} (ha : Formed past a) (hb : Formed (past ++ a) b) : Formed past (a ++ b) := by
  refine ⟨fun x y s uid q g h => ?_, fun x y s i q g f h => ?_, fun x y s i q t f h => ?_, fun x y uid unit q t h => ?_⟩
  · rcases split_two h with ⟨b', h1, h2⟩ | ⟨a', h1, h2⟩
    · obtain ⟨unit, d, c, h3, h4⟩ := ha.asked _ _ _ _ _ _ h1
      exact ⟨unit, d, c ++ b, h3, by rw [h2, h4]; rfl⟩
    · obtain ⟨unit, d, c, h3, h4⟩ := hb.asked _ _ _ _ _ _ h2
      exact ⟨unit, d, c, by rw [h1, ← List.append_assoc]; exact h3, h4⟩
  · rcases split_two h with ⟨b', h1, h2⟩ | ⟨a', h1, h2⟩
    · obtain ⟨unit, d, c, h3, h4⟩ := ha.polled _ _ _ _ _ _ _ h1
      exact ⟨unit, d, c ++ b, h3, by rw [h2, h4]; rfl⟩
    · obtain ⟨unit, d, c, h3, h4⟩ := hb.polled _ _ _ _ _ _ _ h2
      exact ⟨unit, d, c, by rw [h1, ← List.append_assoc]; exact h3, h4⟩
  · rcases split_two h with ⟨b', h1, h2⟩ | ⟨a', h1, h2⟩
    · exact ha.sched _ _ _ _ _ _ _ h1
    · obtain ⟨c, g, unit, d, h3, h4, h5⟩ := hb.sched _ _ _ _ _ _ _ h2
      exact ⟨a ++ c, g, unit, d, by rw [h1, h3, List.append_assoc], by rw [← List.append_assoc]; exact h4, h5⟩
  · rcases split_two h with ⟨b', h1, h2⟩ | ⟨a', h1, h2⟩
    · exact ha.calls _ _ _ _ _ _ h1
    · rcases hb.calls _ _ _ _ _ _ h2 with ⟨c, s, g, h3⟩ | ⟨c, s, i, id, t, h3⟩
      · exact .inl ⟨a ++ c, s, g, by rw [h1, h3, List.append_assoc]⟩
      · exact .inr ⟨a ++ c, s, i, id, t, by rw [h1, h3, List.append_assoc]⟩

theorem Formed.inner {past : List IfEv} {l : List LEv} (h : Sourced l) : Formed past (l.map .inner) := by
  have no : ∀ {e : IfEv} {a b}, l.map .inner = a ++ e :: b → ∃ x ∈ l, e = .inner x := by
    intro e a b he
    have : e ∈ l.map IfEv.inner := by rw [he]; simp
    obtain ⟨x, h1, h2⟩ := List.mem_map.1 this
    exact ⟨x, h1, h2.symm⟩
  refine ⟨fun x y s uid q g h => ?_, fun x y s i q g f h => ?_, fun x y s i q t f he => ?_, fun x y uid unit q t he => ?_⟩
  · obtain ⟨x, -, h1⟩ := no h; cases h1
  · obtain ⟨x, -, h1⟩ := no h; cases h1
  · obtain ⟨x, h2, h1⟩ := no he
    injection h1 with h1; subst h1
    exact absurd h2 (h.none _ _ _ _ _)
  · obtain ⟨l1, l2, h1, h2, h3⟩ := List.map_eq_append_iff.1 he
    obtain ⟨e, l3, h4, h5, h6⟩ := List.map_eq_cons_iff.1 h3
    injection h5 with h5; subst h5
    obtain ⟨m', s, i, id, t, h7⟩ := h.calls l1 l3 uid unit q t (by rw [h1, h4])
    exact .inr ⟨m'.map .inner, s, i, id, t, by rw [← h2, h7]; simp⟩

theorem one_split {α : Type} {e x : α} {a b : List α} (h : [e] = a ++ x :: b) : a = [] ∧ x = e ∧ b = [] := by
  cases a with
  | nil => injection h with h1 h2; exact ⟨rfl, h1.symm, h2.symm⟩
  | cons y a => injection h with h1 h2; cases a <;> cases h2

theorem two_split {α : Type} {e e' x : α} {a b : List α} (h : [e, e'] = a ++ x :: b) : (a = [] ∧ x = e ∧ b = [e']) ∨ (a = [e] ∧ x = e' ∧ b = []) := by
  cases a with
  | nil => injection h with h1 h2; exact .inl ⟨rfl, h1.symm, h2.symm⟩
  | cons y a =>
    injection h with h1 h2
    obtain ⟨h3, h4, h5⟩ := one_split h2
    exact .inr ⟨by rw [← h1, h3], h4, h5⟩

theorem Formed.created (past : List IfEv) (s : Nat) (unit : UInt8) (d : Nat) : Formed past [.created s unit d] := by
  refine ⟨fun x y s uid q g h => ?_, fun x y s i q g f h => ?_, fun x y s i q t f h => ?_, fun x y uid unit q t h => ?_⟩ <;>
    · have := (one_split h).2.1; cases this

theorem Formed.send {past : List IfEv} {s : Nat} {unit : UInt8} {d : Nat} (h : .created s unit d ∈ past) (uid : Nat) (q : AnyReq) (g : Option Nat) :
    Formed past [.asked s uid q g, .inner (.ch (.call uid unit q (g.getD d)))] := by
  refine ⟨fun x y s uid q g h => ?_, fun x y s i q g f h => ?_, fun x y s i q t f h => ?_, fun x y uid unit q t h => ?_⟩
  · rcases two_split h with ⟨rfl, h2, rfl⟩ | ⟨rfl, h2, rfl⟩
    · injection h2 with h2 h3 h4 h5; subst h2; subst h3; subst h4; subst h5
      exact ⟨unit, d, [], by simpa using ‹_›, rfl⟩
    · cases h2
  · rcases two_split h with ⟨rfl, h2, rfl⟩ | ⟨rfl, h2, rfl⟩ <;> cases h2
  · rcases two_split h with ⟨rfl, h2, rfl⟩ | ⟨rfl, h2, rfl⟩ <;> cases h2
  · rcases two_split h with ⟨rfl, h2, rfl⟩ | ⟨rfl, h2, rfl⟩ <;> cases h2
    exact .inl ⟨[], _, _, rfl⟩

theorem Formed.schedule {past : List IfEv} {s : Nat} {unit : UInt8} {d : Nat} (h : .created s unit d ∈ past) (i : Nat) (q : AnyReq) (g : Option Nat) (f : Nat) :
    Formed past [.polled s i q g f, .inner (.scheduled s i q (g.getD d) f)] := by
  refine ⟨fun x y s uid q g h => ?_, fun x y s i q g f h => ?_, fun x y s i q t f h => ?_, fun x y uid unit q t h => ?_⟩
  · rcases two_split h with ⟨rfl, h2, rfl⟩ | ⟨rfl, h2, rfl⟩ <;> cases h2
  · rcases two_split h with ⟨rfl, h2, rfl⟩ | ⟨rfl, h2, rfl⟩
    · cases h2
      exact ⟨unit, d, [], by simpa using ‹_›, rfl⟩
    · cases h2
  · rcases two_split h with ⟨rfl, h2, rfl⟩ | ⟨rfl, h2, rfl⟩ <;> cases h2
    exact ⟨[], g, unit, d, rfl, by simpa using ‹_›, rfl⟩
  · rcases two_split h with ⟨rfl, h2, rfl⟩ | ⟨rfl, h2, rfl⟩ <;> cases h2

/-- Invariant of the client with its interface. -/
structure CInv (env : ClientEnv) (v : Clt) : Prop where
  reach : LReach env v.pcl
  inside : insideOf v.log = v.pcl.log
  len : v.defaults.length = v.pcl.sess.length
  made : ∀ s u d, .created s u d ∈ v.log ↔ v.defaults[s]? = some d ∧ ∃ p, v.pcl.sess[s]? = some p ∧ p.unit = u
  count : creations v.log = List.range v.defaults.length
  formed : Formed [] v.log

theorem CInv.init (env : ClientEnv) : CInv env (Clt.init env) := by
  refine ⟨⟨[], rfl⟩, rfl, rfl, fun s u d => ⟨fun h => (by cases h), fun h => (by cases h.1)⟩, rfl, ?_⟩
  exact Formed.inner .nil

/-- Nothing but the inside grows. -/
theorem CInv.grow {env : ClientEnv} {v : Clt} (h : CInv env v) {w : Pcl} {op : Pcl.Op} (hs : v.pcl.step env op = .ret w) {pre : List IfEv} {new : List LEv}
    (hl : w.log = v.pcl.log ++ new) (hn : w.sess.length = v.pcl.sess.length) (hp : insideOf pre = []) (hc : ∀ s u d, .created s u d ∉ pre)
    (hf : Formed v.log (pre ++ new.map .inner)) : CInv env { v with pcl := w, log := v.log ++ (pre ++ v.news w) } := by
  have hnews : v.news w = new.map .inner := by simp only [Clt.news, hl, List.drop_left]
  obtain ⟨new', hst⟩ := h.reach.stepped hs
  refine ⟨h.reach.step hs, ?_, h.len.trans hn.symm, fun s u d => ?_, ?_, ?_⟩
  · simp only [insideOf_append, h.inside, hnews, hp, insideOf_inner, hl, List.nil_append]
  · have h1 : IfEv.created s u d ∈ v.log ++ (pre ++ v.news w) ↔ .created s u d ∈ v.log := by simp [hnews, hc s u d]
    rw [h1, h.made]
    refine and_congr Iff.rfl ⟨?_, ?_⟩
    · rintro ⟨p, h2, h3⟩
      obtain ⟨p', h4, h5⟩ := hst.follows.sess s p h2
      exact ⟨p', h4, h5.unit.trans h3⟩
    · rintro ⟨p', h2, h3⟩
      have hlt : s < v.pcl.sess.length := by rw [← hn]; exact (List.getElem?_eq_some_iff.1 h2).1
      obtain ⟨p2, h4, h5⟩ := hst.follows.sess s _ (List.getElem?_eq_getElem hlt)
      rw [h2] at h4; injection h4 with h4; subst h4
      exact ⟨_, List.getElem?_eq_getElem hlt, h5.unit.symm.trans h3⟩
  · have h1 : creations (pre ++ v.news w) = [] := by
      rw [creations, List.filterMap_eq_nil_iff]
      intro e he
      rcases List.mem_append.1 he with he | he
      · cases e with
        | created s u d => exact absurd he (hc _ _ _)
        | _ => rfl
      · rw [hnews] at he
        obtain ⟨x, -, rfl⟩ := List.mem_map.1 he
        rfl
    show creations (v.log ++ (pre ++ v.news w)) = _
    rw [creations, List.filterMap_append]
    exact (congrArg₂ (· ++ ·) h.count h1).trans (List.append_nil _)
  · rw [hnews]; exact h.formed.append hf

/-- What the steps do. -/
theorem CInv.inside_step {env : ClientEnv} {v : Clt} (h : CInv env v) {op : Pcl.Op} (h0 : ∀ u, op ≠ .createSession u) (h1 : ∀ s q t, op ≠ .send s q t)
    (h2 : ∀ s q t f, op ≠ .schedule s q t f) : ∃ w, v.inside env op = .ret w ∧ CInv env w := by
  obtain ⟨w, new, hs, -⟩ := h.reach.inv.1.step h.reach.inv.2 op
  obtain ⟨⟨new, h3, h4⟩, h5⟩ := Pcl.step_sourced h0 h1 h2 hs
  refine ⟨{ v with pcl := w, log := v.log ++ v.news w }, by simp only [Clt.inside, hs, CM.ret_bind, CM.pure_eq], ?_⟩
  exact h.grow (pre := []) hs h3 h5 rfl (by simp) (.inner h4)

theorem CInv.send_step {env : ClientEnv} {v : Clt} (h : CInv env v) {s : Nat} {unit : UInt8} {d : Nat} (hc : .created s unit d ∈ v.log) (q : AnyReq) (g : Option Nat) :
    ∃ w, v.send env s q g (g.getD d) = .ret w ∧ CInv env w ∧
      w.log = v.log ++ [.asked s v.pcl.cli.nextUid q g, .inner (.ch (.call v.pcl.cli.nextUid unit q (g.getD d)))] := by
  obtain ⟨h1, p, hp, rfl⟩ := (h.made s unit d).1 hc
  obtain ⟨w, h2, h3, h4⟩ := Pcl.step_send (env := env) hp q (g.getD d)
  refine ⟨{ v with pcl := w, log := v.log ++ .asked s v.pcl.cli.nextUid q g :: v.news w }, by simp only [Clt.send, hp, h2, CM.ret_bind, CM.pure_eq], ?_, ?_⟩
  · exact h.grow (pre := [.asked s v.pcl.cli.nextUid q g]) h2 h3 h4 rfl (by simp) (.send hc _ _ _)
  · simp [Clt.news, h3]

theorem CInv.schedule_step {env : ClientEnv} {v : Clt} (h : CInv env v) {s : Nat} {unit : UInt8} {d : Nat} (hc : .created s unit d ∈ v.log) (q : AnyReq) (g : Option Nat) (f : Nat) :
    ∃ w i, v.schedule env s q g (g.getD d) f = .ret w ∧ CInv env w ∧ w.log = v.log ++ [.polled s i q g f, .inner (.scheduled s i q (g.getD d) f)] := by
  obtain ⟨h1, p, hp, -⟩ := (h.made s unit d).1 hc
  obtain ⟨w, h2, h3, h4⟩ := Pcl.step_schedule (env := env) hp q (g.getD d) f
  refine ⟨{ v with pcl := w, log := v.log ++ .polled s p.reqs.length q g f :: v.news w }, p.reqs.length, by simp only [Clt.schedule, hp, h2, CM.ret_bind, CM.pure_eq], ?_, ?_⟩
  · exact h.grow (pre := [.polled s p.reqs.length q g f]) h2 h3 h4 rfl (by simp) (.schedule hc _ _ _ _)
  · simp [Clt.news, h3]

theorem CInv.create_step {env : ClientEnv} {v : Clt} (h : CInv env v) (unit : UInt8) (d : Nat) : ∃ w, v.createSession env unit d = .ret w ∧ CInv env w ∧
    (v.pcl.cli.isShutdown = false → .created v.defaults.length unit d ∈ w.log) ∧ (v.pcl.cli.isShutdown = true → w.defaults = v.defaults) := by
  obtain ⟨w, new0, hs, -⟩ := h.reach.inv.1.step h.reach.inv.2 (.createSession unit)
  obtain ⟨new, h3, h4, h5, h6⟩ := Pcl.step_create hs
  by_cases hd : v.pcl.cli.isShutdown = true
  · refine ⟨{ v with pcl := w, log := v.log ++ v.news w }, by simp only [Clt.createSession, hs, CM.ret_bind, CM.pure_eq, hd, if_true], ?_, by simp [hd], by simp⟩
    rw [if_pos hd] at h5
    exact h.grow (pre := []) hs h3 h5 rfl (by simp) (.inner h4)
  · have hnews : v.news w = new.map .inner := by simp only [Clt.news, h3, List.drop_left]
    rw [if_neg hd] at h5
    obtain ⟨new', hst⟩ := h.reach.stepped hs
    obtain ⟨pn, hpn, hun⟩ := h6 (by simpa using hd)
    refine ⟨{ pcl := w, defaults := v.defaults ++ [d], log := v.log ++ v.news w ++ [.created v.defaults.length unit d] },
      by simp only [Clt.createSession, hs, CM.ret_bind, CM.pure_eq, hd]; rfl, ?_, by simp, by simp [hd]⟩
    refine ⟨h.reach.step hs, ?_, by simp [h.len, h5], fun s u d' => ?_, ?_, ?_⟩
    · simp only [insideOf_append, h.inside, hnews, insideOf_inner, h3]
      simp [insideOf]
    · have h1 : IfEv.created s u d' ∈ v.log ++ v.news w ++ [.created v.defaults.length unit d] ↔
          .created s u d' ∈ v.log ∨ (s = v.defaults.length ∧ u = unit ∧ d' = d) := by simp [hnews]
      show IfEv.created s u d' ∈ v.log ++ v.news w ++ [.created v.defaults.length unit d] ↔ (v.defaults ++ [d])[s]? = some d' ∧ ∃ p, w.sess[s]? = some p ∧ p.unit = u
      rw [h1, h.made]
      rcases Nat.lt_trichotomy s v.defaults.length with hlt | heq | hgt
      · have hlt' : s < v.pcl.sess.length := by rw [← h.len]; exact hlt
        obtain ⟨p2, h7, h8⟩ := hst.follows.sess s _ (List.getElem?_eq_getElem hlt')
        rw [List.getElem?_append_left hlt, h7, List.getElem?_eq_getElem hlt']
        simp only [Option.some.injEq, exists_eq_left', h8.unit]
        exact ⟨fun hx => hx.elim (fun hx => hx) fun hx => absurd hx.1 (Nat.ne_of_lt hlt), .inl⟩
      · subst heq
        rw [h.len] at *
        rw [hpn]
        have : v.defaults[v.pcl.sess.length]? = none := List.getElem?_eq_none (Nat.le_of_eq h.len)
        rw [this, ← h.len, List.getElem?_concat_length]
        simp only [reduceCtorEq, false_and, true_and, false_or, Option.some.injEq, exists_eq_left', hun]
        exact ⟨fun ⟨a, b⟩ => ⟨b.symm, a.symm⟩, fun ⟨a, b⟩ => ⟨b.symm, a.symm⟩⟩
      · have e1 : v.defaults[s]? = none := List.getElem?_eq_none (by omega)
        have e2 : (v.defaults ++ [d])[s]? = none := List.getElem?_eq_none (by simp; omega)
        rw [e1, e2]
        simp; omega
    · show creations (v.log ++ v.news w ++ [.created v.defaults.length unit d]) = List.range (v.defaults ++ [d]).length
      have e1 : creations (v.news w) = [] := by
        rw [creations, List.filterMap_eq_nil_iff, hnews]
        intro e he
        obtain ⟨x, -, rfl⟩ := List.mem_map.1 he
        rfl
      have e2 : ∀ a b : List IfEv, creations (a ++ b) = creations a ++ creations b := fun a b => List.filterMap_append
      rw [e2, e2, e1, h.count, List.length_append, List.length_singleton, List.range_succ]
      simp [creations]
    · rw [hnews, List.append_assoc]
      exact h.formed.append ((Formed.inner h4).append (.created _ _ _ _))

end Modbus
