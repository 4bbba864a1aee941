import Verif.Spec.UserCode
import Verif.Lemmas.PollingParts
import Verif.Lemmas.WorldParts
import Verif.Props.ClientTime

/-! Lemmas about the user's code and timers. -/

namespace Modbus

open Spec

@[simp] theorem chanOf_append (a b : List UEv) : chanOf (a ++ b) = chanOf a ++ chanOf b := by simp [chanOf]
@[simp] theorem timersStarted_append (a b : List UEv) : timersStarted (a ++ b) = timersStarted a ++ timersStarted b := by simp [timersStarted]
@[simp] theorem actionsRun_append (a b : List UEv) : actionsRun (a ++ b) = actionsRun a ++ actionsRun b := by simp [actionsRun]
@[simp] theorem repliesRun_append (a b : List UEv) : repliesRun (a ++ b) = repliesRun a ++ repliesRun b := by simp [repliesRun]
@[simp] theorem requestsMade_append (a b : List UEv) : requestsMade (a ++ b) = requestsMade a ++ requestsMade b := by simp [requestsMade]

theorem chanOf_map (es : List CEv) : chanOf (es.map .ch) = es := by
  induction es with
  | nil => rfl
  | cons e es ih => simp only [chanOf] at ih ⊢; simp [ih]

theorem timersStarted_map (es : List CEv) : timersStarted (es.map .ch) = [] := by
  induction es with
  | nil => rfl
  | cons e es ih => simp only [timersStarted] at ih ⊢; simp

theorem actionsRun_map (es : List CEv) : actionsRun (es.map .ch) = [] := by
  induction es with
  | nil => rfl
  | cons e es ih => simp only [actionsRun] at ih ⊢; simp

theorem repliesRun_map (es : List CEv) : repliesRun (es.map .ch) = [] := by
  induction es with
  | nil => rfl
  | cons e es ih => simp only [repliesRun] at ih ⊢; simp

theorem requestsMade_map (es : List CEv) : requestsMade (es.map .ch) = [] := by
  induction es with
  | nil => rfl
  | cons e es ih => simp only [requestsMade] at ih ⊢; simp

theorem mem_chanOf {log : List UEv} {e : CEv} : e ∈ chanOf log ↔ UEv.ch e ∈ log := by
  simp only [chanOf, List.mem_filterMap]
  constructor
  · rintro ⟨x, hx, h⟩
    split at h
    · injection h with h; subst h; exact hx
    · cases h
  · intro h; exact ⟨_, h, rfl⟩

theorem mem_actionsRun {log : List UEv} {k : Nat} : k ∈ actionsRun log ↔ ∃ f t, UEv.action k f t ∈ log := by
  simp only [actionsRun, List.mem_filterMap]
  constructor
  · rintro ⟨x, hx, h⟩
    split at h
    · injection h with h; subst h; exact ⟨_, _, hx⟩
    · cases h
  · rintro ⟨f, t, h⟩; exact ⟨_, h, rfl⟩

theorem mem_timersStarted {log : List UEv} {k : Nat} : k ∈ timersStarted log ↔ ∃ d f t, UEv.started k d f t ∈ log := by
  simp only [timersStarted, List.mem_filterMap]
  constructor
  · rintro ⟨x, hx, h⟩
    split at h
    · injection h with h; subst h; exact ⟨_, _, _, hx⟩
    · cases h
  · rintro ⟨d, f, t, h⟩; exact ⟨_, h, rfl⟩

theorem mem_repliesRun {log : List UEv} {u : Nat} : u ∈ repliesRun log ↔ ∃ f t, UEv.reply u f t ∈ log := by
  simp only [repliesRun, List.mem_filterMap]
  constructor
  · rintro ⟨x, hx, h⟩
    split at h
    · injection h with h; subst h; exact ⟨_, _, hx⟩
    · cases h
  · rintro ⟨f, t, h⟩; exact ⟨_, h, rfl⟩

theorem mem_requestsMade {log : List UEv} {u f : Nat} : (u, f) ∈ requestsMade log ↔ UEv.asked u f ∈ log := by
  simp only [requestsMade, List.mem_filterMap]
  constructor
  · rintro ⟨x, hx, h⟩
    split at h
    · simp only [Option.some.injEq, Prod.mk.injEq] at h
      obtain ⟨rfl, rfl⟩ := h; exact hx
    · cases h
  · intro h; exact ⟨_, h, rfl⟩

namespace Upr

/-- Who makes the call `c` (`td`: what is left to do for the running function). -/
def CalledBy (v : Upr) (op : Op) (c : UCall) (td : List UCall) : Prop := (op = .call c ∧ td = v.todo) ∨ (op = .user ∧ v.todo = c :: td)

/-- What one step can be. -/
inductive Move (env : ClientEnv) (prog : UserCode) (v : Upr) (op : Op) : Upr → List UEv → Prop
  | same : (∀ c, op ≠ .call c) → Move env prog v op v []
  | ask {td : List UCall} {unit : UInt8} {req : AnyReq} {tmo f : Nat} {c : Cli} : v.CalledBy op (.send unit req tmo f) td →
      v.cli.step env (.submit unit req tmo) = .ret c → c.log = v.cli.log ++ [.call v.cli.nextUid unit req tmo] → c.now = v.cli.now →
      c.nextUid = v.cli.nextUid + 1 →
      Move env prog v op { v with cli := c, todo := td, handler := v.handler ++ [(v.cli.nextUid, f)]
                                  log := v.log ++ [.asked v.cli.nextUid f, .ch (.call v.cli.nextUid unit req tmo)] }
        [.asked v.cli.nextUid f, .ch (.call v.cli.nextUid unit req tmo)]
  | start {td : List UCall} {c : UCall} {time f : Nat} : v.CalledBy op c td → (∃ d, c = .start d f ∧ time = v.cli.now + d) ∨ c = .startAt time f →
      Move env prog v op { v with todo := td, armed := v.armed ++ [(v.nextK, time, f)], nextK := v.nextK + 1
                                  log := v.log ++ [.started v.nextK time f v.cli.now] } [.started v.nextK time f v.cli.now]
  | cancel {td : List UCall} {k : Nat} : v.CalledBy op (.cancel k) td → k < v.nextK →
      Move env prog v op { v with todo := td, armed := v.armed.filter (fun x => x.1 ≠ k), log := v.log ++ [.cancelled k v.cli.now] }
        [.cancelled k v.cli.now]
  | skip {td : List UCall} {k : Nat} : v.CalledBy op (.cancel k) td → Move env prog v op { v with todo := td } []
  | shutdown {td : List UCall} : v.CalledBy op .shutdown td →
      Move env prog v op { v with todo := td, cli := { v.cli with tasks := v.cli.tasks ++ [.shutdown] } } []
  | reply {uid f : Nat} {ds : List (Nat × Nat)} : op = .user → v.todo = [] → v.due = (uid, f) :: ds →
      Move env prog v op { v with due := ds, log := v.log ++ [.reply uid f v.cli.now], todo := prog f (v.log ++ [.reply uid f v.cli.now]) }
        [.reply uid f v.cli.now]
  | chan {cop : Cli.Op} {c : Cli} {es : List CEv} : op = .chan cop → (v.idle = true ∧ ownChan cop = true) ∨ (∃ t, cop = .expire t) →
      v.cli.step env cop = .ret c → c.log = v.cli.log ++ es → c.now = v.cli.now → c.nextUid = v.cli.nextUid →
      (∀ u x t, CEv.handler u x t ∈ es → t = v.cli.now) → (∀ u unit q tmo, CEv.call u unit q tmo ∉ es) →
      Move env prog v op { v with cli := c, due := v.due ++ v.replies es, log := v.log ++ es.map .ch } (es.map .ch)
  | expire {k time f : Nat} : op = .expire k → v.armed.lookup k = some (time, f) → time ≤ v.cli.now →
      Move env prog v op { v with armed := v.armed.filter (fun x => x.1 ≠ k), fired := v.fired ++ [(k, f)] } []
  | action {k f : Nat} : op = .runTimer k → v.idle = true → v.fired.lookup k = some f →
      Move env prog v op { v with fired := v.fired.filter (fun x => x.1 ≠ k), log := v.log ++ [.action k f v.cli.now]
                                  todo := prog f (v.log ++ [.action k f v.cli.now]) } [.action k f v.cli.now]
  | tick {n : Nat} : op = .tick n → Move env prog v op { v with cli := { v.cli with now := v.cli.now + n } } []

theorem call_move {env : ClientEnv} {prog : UserCode} {v w : Upr} {op : Op} {c : UCall} {td : List UCall} (hb : v.CalledBy op c td)
    (h : Upr.call env { v with todo := td } c = .ret w) : ∃ new, Move env prog v op w new := by
  cases c with
  | send unit req tmo f =>
    obtain ⟨new, -, he⟩ := Cli.step_submit env v.cli unit req tmo
    simp only [call, he, CM.ret_bind, CM.pure_eq] at h
    injection h with h; subst h
    refine ⟨[.asked v.cli.nextUid f, .ch (.call v.cli.nextUid unit req tmo)], ?_⟩
    have := Move.ask (env := env) (prog := prog) hb he (by simp) rfl rfl
    simpa using this
  | start d f => injection h with h; subst h; exact ⟨_, .start hb (.inl ⟨d, rfl, rfl⟩)⟩
  | startAt t f => injection h with h; subst h; exact ⟨_, .start hb (.inr rfl)⟩
  | cancel k =>
    simp only [call] at h
    split at h
    · injection h with h; subst h; exact ⟨_, .cancel hb (by assumption)⟩
    · injection h with h; subst h; exact ⟨_, .skip hb⟩
  | shutdown => simp only [call, Cli.step, CM.ret_bind, CM.pure_eq] at h; injection h with h; subst h; exact ⟨_, .shutdown hb⟩

theorem chan_move {env : ClientEnv} {prog : UserCode} {v w : Upr} {cop : Cli.Op} (hg : (v.idle = true ∧ ownChan cop = true) ∨ (∃ t, cop = .expire t))
    (h : v.chanStep env cop = .ret w) : ∃ new, Move env prog v (.chan cop) w new := by
  obtain ⟨c, hc, h⟩ := CM.bind_eq_ret.1 h
  injection h with h; subst h
  have hown : Pcl.ownChan cop = true := by
    rcases hg with ⟨-, h⟩ | ⟨t, rfl⟩
    · cases cop <;> first | rfl | cases h
    · rfl
  rcases Cli.own_step hc hown with hs | ⟨ts, -, -, hl, hnow, -, -, huid, -⟩
  · obtain ⟨es, h1, h2⟩ := hs.log
    rw [h1, List.drop_left]
    refine ⟨_, .chan rfl hg hc h1 hs.now hs.nextUid (fun u x t hm => ?_) (fun u unit q tmo hm => ?_)⟩
    · have := h2 _ hm; exact this
    · have := h2 _ hm; exact this
  · rw [hl, List.drop_left]
    refine ⟨_, .chan rfl hg hc hl hnow huid (fun u x t hm => ?_) (fun u unit q tmo hm => ?_)⟩
    · simp at hm
    · simp at hm

theorem step_move {env : ClientEnv} {prog : UserCode} {v w : Upr} {op : Op} (h : v.step env prog op = .ret w) : ∃ new, Move env prog v op w new := by
  cases op with
  | call c => exact call_move (td := v.todo) (.inl ⟨rfl, rfl⟩) h
  | user =>
    simp only [step] at h
    split at h
    · rename_i c cs ds ht
      exact call_move (.inr ⟨rfl, ht⟩) h
    · rename_i u f ds ht hd
      injection h with h; subst h
      exact ⟨_, .reply rfl ht hd⟩
    · injection h with h; subst h; exact ⟨_, .same nofun⟩
  | chan cop =>
    have key : (if v.idle = true ∧ ownChan cop = true then v.chanStep env cop else .ret v) = .ret w → ∃ new, Move env prog v (.chan cop) w new := by
      intro h
      split at h
      · rename_i hg; exact chan_move (.inl hg) h
      · injection h with h; subst h; exact ⟨_, .same nofun⟩
    cases cop with
    | expire t => exact chan_move (.inr ⟨t, rfl⟩) h
    | _ => exact key h
  | expire k =>
    simp only [step] at h
    split at h
    · injection h with h; subst h; exact ⟨_, .same nofun⟩
    · rename_i time f hl
      split at h
      · injection h with h; subst h; exact ⟨_, .expire rfl hl (by assumption)⟩
      · injection h with h; subst h; exact ⟨_, .same nofun⟩
  | runTimer k =>
    simp only [step] at h
    split at h
    · split at h
      · injection h with h; subst h; exact ⟨_, .same nofun⟩
      · injection h with h; subst h; exact ⟨_, .action rfl (by assumption) (by assumption)⟩
    · injection h with h; subst h; exact ⟨_, .same nofun⟩
  | tick n => simp only [step, Cli.step, CM.ret_bind, CM.pure_eq] at h; injection h with h; subst h; exact ⟨_, .tick rfl⟩

theorem Move.log {env : ClientEnv} {prog : UserCode} {v w : Upr} {op : Op} {new : List UEv} (h : Move env prog v op w new) : w.log = v.log ++ new := by
  cases h <;> simp

/-- What must have happened before an event. -/
def Before (a : List UEv) : UEv → Prop
  | .action k f t => ∃ d t0, UEv.started k d f t0 ∈ a ∧ d ≤ t
  | .reply u f _ => UEv.asked u f ∈ a ∧ ∃ x t, UEv.ch (.handler u x t) ∈ a
  | _ => True

/-- Everything in the log was justified when it happened. -/
def Justified (l : List UEv) : Prop := ∀ a e b, l = a ++ e :: b → Before a e

theorem Justified.snoc {l : List UEv} {e : UEv} (h : Justified l) (he : Before l e) : Justified (l ++ [e]) := by
  intro a x b hab
  rcases List.eq_nil_or_concat b with rfl | ⟨b', y, rfl⟩
  · obtain ⟨rfl, h2⟩ := List.append_inj' hab rfl
    injection h2 with h2; subst h2; exact he
  · have : l ++ [e] = (a ++ x :: b') ++ [y] := by rw [hab]; simp
    obtain ⟨rfl, -⟩ := List.append_inj' this rfl
    exact h a x b' rfl

theorem Justified.chans {l : List UEv} (es : List CEv) (h : Justified l) : Justified (l ++ es.map .ch) := by
  induction es generalizing l with
  | nil => simpa using h
  | cons e es ih =>
    have := ih (h.snoc (e := .ch e) trivial)
    simpa using this

/-- The part of the invariant about timers. -/
structure Timers (log : List UEv) (ar : List (Nat × Nat × Nat)) (fi : List (Nat × Nat)) (nextK now : Nat) : Prop where
  started : timersStarted log = List.range nextK
  armed : ∀ k d f, (k, d, f) ∈ ar → (∃ t, UEv.started k d f t ∈ log) ∧ ∀ t, UEv.cancelled k t ∉ log
  fired : ∀ k f, (k, f) ∈ fi → ∃ d t, UEv.started k d f t ∈ log ∧ d ≤ now ∧ ∀ t', UEv.cancelled k t' ∈ log → d ≤ t'
  acted : ∀ k f t, UEv.action k f t ∈ log → t ≤ now ∧ ∃ d t0, UEv.started k d f t0 ∈ log ∧ d ≤ t ∧ ∀ t', UEv.cancelled k t' ∈ log → d ≤ t'
  once : ∀ k, (actionsRun log).count k + (ar.map (·.1)).count k + (fi.map (·.1)).count k ≤ 1
  fresh : ∀ k, nextK ≤ k → k ∉ actionsRun log ∧ k ∉ ar.map (·.1) ∧ k ∉ fi.map (·.1) ∧ ∀ t, UEv.cancelled k t ∉ log
  covered : ∀ k, k < nextK → (∀ t, UEv.cancelled k t ∉ log) →
    1 ≤ (actionsRun log).count k + (ar.map (·.1)).count k + (fi.map (·.1)).count k

/-- The invariant. -/
structure Inv (env : ClientEnv) (v : Upr) : Prop where
  reach : Props.CReach env v.cli
  chan : v.cli.log = chanOf v.log
  timers : Timers v.log v.armed v.fired v.nextK v.cli.now
  just : Justified v.log
  handler : v.handler = requestsMade v.log
  uids : (requestsMade v.log).map (·.1) = List.range v.cli.nextUid
  replies : repliesRun v.log ++ v.due.map (·.1) = handledUids (chanOf v.log)
  due : ∀ u f, (u, f) ∈ v.due → UEv.asked u f ∈ v.log

end Upr

theorem Spec.startedUnique {l : List UEv} {n k d d' f f' t t' : Nat} (h : timersStarted l = List.range n) (h1 : UEv.started k d f t ∈ l)
    (h2 : UEv.started k d' f' t' ∈ l) : d = d' ∧ f = f' ∧ t = t' := by
  have hn : (timersStarted l).Nodup := by rw [h]; exact List.nodup_range
  clear h
  induction l with
  | nil => cases h1
  | cons e l ih =>
    have tail : ∀ {d f t}, UEv.started k d f t ∈ l → k ∈ timersStarted l := fun hm => mem_timersStarted.2 ⟨_, _, _, hm⟩
    rw [show e :: l = [e] ++ l from rfl, timersStarted_append, List.nodup_append] at hn
    have head : ∀ {d f t}, e = UEv.started k d f t → k ∉ timersStarted l := by
      rintro d f t rfl hm
      exact hn.2.2 k (by simp [timersStarted]) k hm rfl
    rcases List.mem_cons.1 h1 with h1 | h1 <;> rcases List.mem_cons.1 h2 with h2 | h2
    · rw [← h1] at h2; injection h2 with _ a b c; exact ⟨a.symm, b.symm, c.symm⟩
    · exact absurd (tail h2) (head h1.symm)
    · exact absurd (tail h1) (head h2.symm)
    · exact ih h1 h2 hn.2.1

namespace Upr

theorem lookup_mem3 {l : List (Nat × Nat × Nat)} {k : Nat} {x : Nat × Nat} (h : l.lookup k = some x) : (k, x) ∈ l := by
  induction l with
  | nil => cases h
  | cons y l ih =>
    rw [List.lookup_cons] at h
    split at h
    · rename_i hk
      injection h with h; subst h
      rw [beq_iff_eq] at hk; subst hk; exact .head _
    · exact .tail _ (ih h)

theorem lookup_mem2 {l : List (Nat × Nat)} {k : Nat} {x : Nat} (h : l.lookup k = some x) : (k, x) ∈ l := by
  induction l with
  | nil => cases h
  | cons y l ih =>
    rw [List.lookup_cons] at h
    split at h
    · rename_i hk
      injection h with h; subst h
      rw [beq_iff_eq] at hk; subst hk; exact .head _
    · exact .tail _ (ih h)

/-- Filtering out `k`. -/
theorem count_filter_key {α : Type} (l : List (Nat × α)) (k j : Nat) :
    ((l.filter fun x => x.1 ≠ k).map (·.1)).count j = if j = k then 0 else (l.map (·.1)).count j := by
  induction l with
  | nil => simp
  | cons x l ih =>
    by_cases hx : x.1 = k
    · rw [List.filter_cons_of_neg (by simpa using hx), ih, List.map_cons, List.count_cons, hx]
      split
      · rfl
      · rename_i hj; simp [Ne.symm hj]
    · rw [List.filter_cons_of_pos (by simpa using hx), List.map_cons, List.count_cons, ih, List.map_cons, List.count_cons]
      split
      · rename_i hj; subst hj; simp [hx]
      · rfl

/-- An event that has nothing to do with timers. -/
def offTimer : UEv → Bool
  | .started _ _ _ _ => false
  | .cancelled _ _ => false
  | .action _ _ _ => false
  | _ => true

theorem Timers.frame {l : List UEv} {ar : List (Nat × Nat × Nat)} {fi : List (Nat × Nat)} {n now : Nat} (h : Timers l ar fi n now) {new : List UEv}
    {now' : Nat} (hn : now ≤ now') (hnew : ∀ e ∈ new, offTimer e = true) : Timers (l ++ new) ar fi n now' := by
  have e1 : timersStarted new = [] := by
    rw [List.eq_nil_iff_forall_not_mem]; intro k hk
    obtain ⟨d, f, t, hm⟩ := mem_timersStarted.1 hk
    cases hnew _ hm
  have e2 : actionsRun new = [] := by
    rw [List.eq_nil_iff_forall_not_mem]; intro k hk
    obtain ⟨f, t, hm⟩ := mem_actionsRun.1 hk
    cases hnew _ hm
  have e3 : ∀ k t, UEv.cancelled k t ∈ l ++ new ↔ UEv.cancelled k t ∈ l := by
    intro k t
    rw [List.mem_append, or_iff_left]
    intro hm; cases hnew _ hm
  have e4 : ∀ k d f t, UEv.started k d f t ∈ l ++ new ↔ UEv.started k d f t ∈ l := by
    intro k d f t
    rw [List.mem_append, or_iff_left]
    intro hm; cases hnew _ hm
  have e5 : ∀ k f t, UEv.action k f t ∈ l ++ new ↔ UEv.action k f t ∈ l := by
    intro k f t
    rw [List.mem_append, or_iff_left]
    intro hm; cases hnew _ hm
  constructor
  · rw [timersStarted_append, e1, List.append_nil, h.started]
  · simp only [e3, e4]; exact h.armed
  · simp only [e3, e4]
    intro k f hm
    obtain ⟨d, t, h1, h2, h3⟩ := h.fired k f hm
    exact ⟨d, t, h1, by omega, h3⟩
  · simp only [e3, e4, e5]
    intro k f t hm
    obtain ⟨h1, h2⟩ := h.acted k f t hm
    exact ⟨by omega, h2⟩
  · simp only [actionsRun_append, e2, List.append_nil]; exact h.once
  · simp only [actionsRun_append, e2, List.append_nil, e3]; exact h.fresh
  · simp only [actionsRun_append, e2, List.append_nil, e3]; exact h.covered

theorem Timers.start {l : List UEv} {ar : List (Nat × Nat × Nat)} {fi : List (Nat × Nat)} {n now : Nat} (h : Timers l ar fi n now) (time f : Nat) :
    Timers (l ++ [.started n time f now]) (ar ++ [(n, time, f)]) fi (n + 1) now := by
  have e3 : ∀ k t, UEv.cancelled k t ∈ l ++ [UEv.started n time f now] ↔ UEv.cancelled k t ∈ l := by simp
  have e5 : ∀ k g t, UEv.action k g t ∈ l ++ [UEv.started n time f now] ↔ UEv.action k g t ∈ l := by simp
  have e2 : actionsRun (l ++ [UEv.started n time f now]) = actionsRun l := by simp [actionsRun]
  constructor
  · rw [timersStarted_append, h.started, List.range_succ]; rfl
  · simp only [e3]
    intro k d g hm
    rcases List.mem_append.1 hm with hm | hm
    · obtain ⟨⟨t, h1⟩, h2⟩ := h.armed k d g hm
      exact ⟨⟨t, List.mem_append_left _ h1⟩, h2⟩
    · simp only [List.mem_singleton, Prod.mk.injEq] at hm
      obtain ⟨rfl, rfl, rfl⟩ := hm
      exact ⟨⟨now, by simp⟩, (h.fresh k (Nat.le_refl _)).2.2.2⟩
  · simp only [e3]
    intro k g hm
    obtain ⟨d, t, h1, h2, h3⟩ := h.fired k g hm
    exact ⟨d, t, List.mem_append_left _ h1, h2, h3⟩
  · simp only [e3, e5]
    intro k g t hm
    obtain ⟨h1, d, t0, h2, h3⟩ := h.acted k g t hm
    exact ⟨h1, d, t0, List.mem_append_left _ h2, h3⟩
  · intro k
    rw [e2, List.map_append, List.count_append]
    have := h.once k
    by_cases hk : k = n
    · subst hk
      obtain ⟨a, b, c, -⟩ := h.fresh k (Nat.le_refl _)
      rw [List.count_eq_zero.2 a, List.count_eq_zero.2 b, List.count_eq_zero.2 c]; simp
    · simp [Ne.symm hk]; omega
  · intro k hk
    obtain ⟨a, b, c, d⟩ := h.fresh k (by omega)
    rw [e2]
    refine ⟨a, ?_, c, by simpa only [e3] using d⟩
    rw [List.map_append, List.mem_append, not_or]
    exact ⟨b, by simp; omega⟩
  · simp only [e3, e2]
    intro k hk hc
    rw [List.map_append, List.count_append]
    by_cases hkn : k = n
    · subst hkn; simp; omega
    · have := h.covered k (by omega) hc
      omega

theorem Timers.cancel {l : List UEv} {ar : List (Nat × Nat × Nat)} {fi : List (Nat × Nat)} {n now : Nat} (h : Timers l ar fi n now) {j : Nat} (hj : j < n) :
    Timers (l ++ [.cancelled j now]) (ar.filter (fun x => x.1 ≠ j)) fi n now := by
  have e4 : ∀ k d f t, UEv.started k d f t ∈ l ++ [UEv.cancelled j now] ↔ UEv.started k d f t ∈ l := by simp
  have e5 : ∀ k g t, UEv.action k g t ∈ l ++ [UEv.cancelled j now] ↔ UEv.action k g t ∈ l := by simp
  have e2 : actionsRun (l ++ [UEv.cancelled j now]) = actionsRun l := by simp [actionsRun]
  have e3 : ∀ k t, UEv.cancelled k t ∈ l ++ [UEv.cancelled j now] ↔ UEv.cancelled k t ∈ l ∨ (k = j ∧ t = now) := by simp
  constructor
  · rw [timersStarted_append, h.started]; simp [timersStarted]
  · simp only [e3, e4]
    intro k d g hm
    obtain ⟨hm, hk⟩ := List.mem_filter.1 hm
    obtain ⟨h1, h2⟩ := h.armed k d g hm
    refine ⟨h1, fun t ht => ?_⟩
    rcases ht with ht | ⟨rfl, -⟩
    · exact h2 t ht
    · simp at hk
  · simp only [e3, e4]
    intro k g hm
    obtain ⟨d, t, h1, h2, h3⟩ := h.fired k g hm
    refine ⟨d, t, h1, h2, fun t' ht => ?_⟩
    rcases ht with ht | ⟨-, rfl⟩
    · exact h3 t' ht
    · exact h2
  · simp only [e3, e4, e5]
    intro k g t hm
    obtain ⟨h1, d, t0, h2, h3, h4⟩ := h.acted k g t hm
    refine ⟨h1, d, t0, h2, h3, fun t' ht => ?_⟩
    rcases ht with ht | ⟨-, rfl⟩
    · exact h4 t' ht
    · omega
  · intro k
    rw [e2, count_filter_key]
    have := h.once k
    split <;> omega
  · intro k hk
    obtain ⟨a, b, c, d⟩ := h.fresh k hk
    rw [e2]
    refine ⟨a, fun hm => ?_, c, fun t ht => ?_⟩
    · obtain ⟨x, hx, rfl⟩ := List.mem_map.1 hm
      exact b (List.mem_map.2 ⟨x, (List.mem_filter.1 hx).1, rfl⟩)
    · rcases (e3 k t).1 ht with ht | ⟨rfl, -⟩
      · exact d t ht
      · omega
  · intro k hk hc
    have hkj : k ≠ j := by rintro rfl; exact hc now ((e3 k now).2 (.inr ⟨rfl, rfl⟩))
    rw [e2, count_filter_key, if_neg hkj]
    exact h.covered k hk fun t ht => hc t ((e3 k t).2 (.inl ht))

theorem Timers.expire {l : List UEv} {ar : List (Nat × Nat × Nat)} {fi : List (Nat × Nat)} {n now : Nat} (h : Timers l ar fi n now) {j time f : Nat}
    (hl : ar.lookup j = some (time, f)) (ht : time ≤ now) : Timers l (ar.filter (fun x => x.1 ≠ j)) (fi ++ [(j, f)]) n now := by
  have hmem := lookup_mem3 hl
  have hin : j ∈ ar.map (·.1) := List.mem_map.2 ⟨_, hmem, rfl⟩
  have hpos : 1 ≤ (ar.map (·.1)).count j := List.count_pos_iff.2 hin
  constructor
  · exact h.started
  · exact fun k d g hm => h.armed k d g (List.mem_filter.1 hm).1
  · intro k g hm
    rcases List.mem_append.1 hm with hm | hm
    · exact h.fired k g hm
    · simp only [List.mem_singleton, Prod.mk.injEq] at hm
      obtain ⟨rfl, rfl⟩ := hm
      obtain ⟨⟨t, h1⟩, h2⟩ := h.armed _ _ _ hmem
      exact ⟨time, t, h1, ht, fun t' h3 => absurd h3 (h2 t')⟩
  · exact h.acted
  · intro k
    have := h.once k
    rw [count_filter_key, List.map_append, List.count_append]
    by_cases hk : k = j
    · subst hk; rw [if_pos rfl]; simp; omega
    · rw [if_neg hk]; simp [Ne.symm hk]; omega
  · intro k hk
    obtain ⟨a, b, c, d⟩ := h.fresh k hk
    have hkj : k ≠ j := by rintro rfl; exact b hin
    refine ⟨a, fun hm => ?_, ?_, d⟩
    · obtain ⟨x, hx, rfl⟩ := List.mem_map.1 hm
      exact b (List.mem_map.2 ⟨x, (List.mem_filter.1 hx).1, rfl⟩)
    · rw [List.map_append, List.mem_append, not_or]
      exact ⟨c, by simpa using hkj⟩
  · intro k hk hc
    have := h.covered k hk hc
    rw [count_filter_key, List.map_append, List.count_append]
    by_cases hkj : k = j
    · subst hkj; rw [if_pos rfl]; simp; omega
    · rw [if_neg hkj]; omega

theorem Timers.action {l : List UEv} {ar : List (Nat × Nat × Nat)} {fi : List (Nat × Nat)} {n now : Nat} (h : Timers l ar fi n now) {j f : Nat}
    (hl : fi.lookup j = some f) : Timers (l ++ [.action j f now]) ar (fi.filter (fun x => x.1 ≠ j)) n now := by
  have hmem := lookup_mem2 hl
  have hin : j ∈ fi.map (·.1) := List.mem_map.2 ⟨_, hmem, rfl⟩
  have hpos : 1 ≤ (fi.map (·.1)).count j := List.count_pos_iff.2 hin
  have e4 : ∀ k d g t, UEv.started k d g t ∈ l ++ [UEv.action j f now] ↔ UEv.started k d g t ∈ l := by simp
  have e3 : ∀ k t, UEv.cancelled k t ∈ l ++ [UEv.action j f now] ↔ UEv.cancelled k t ∈ l := by simp
  have e2 : actionsRun (l ++ [UEv.action j f now]) = actionsRun l ++ [j] := by simp [actionsRun]
  constructor
  · rw [timersStarted_append, h.started]; simp [timersStarted]
  · simp only [e3, e4]; exact h.armed
  · simp only [e3, e4]; exact fun k g hm => h.fired k g (List.mem_filter.1 hm).1
  · simp only [e3, e4]
    intro k g t hm
    rcases List.mem_append.1 hm with hm | hm
    · exact h.acted k g t hm
    · simp only [List.mem_singleton, UEv.action.injEq] at hm
      obtain ⟨rfl, rfl, rfl⟩ := hm
      obtain ⟨d, t0, h1, h2, h3⟩ := h.fired _ _ hmem
      exact ⟨Nat.le_refl _, d, t0, h1, h2, h3⟩
  · intro k
    have := h.once k
    rw [e2, count_filter_key, List.count_append]
    by_cases hk : k = j
    · subst hk; rw [if_pos rfl]; simp; omega
    · rw [if_neg hk]; simp [Ne.symm hk]; omega
  · intro k hk
    obtain ⟨a, b, c, d⟩ := h.fresh k hk
    have hkj : k ≠ j := by rintro rfl; exact c hin
    refine ⟨?_, b, fun hm => ?_, by simpa only [e3] using d⟩
    · rw [e2, List.mem_append, not_or]; exact ⟨a, by simpa using hkj⟩
    · obtain ⟨x, hx, rfl⟩ := List.mem_map.1 hm
      exact c (List.mem_map.2 ⟨x, (List.mem_filter.1 hx).1, rfl⟩)
  · simp only [e3]
    intro k hk hc
    have := h.covered k hk hc
    rw [e2, count_filter_key, List.count_append]
    by_cases hkj : k = j
    · subst hkj; rw [if_pos rfl]; simp; omega
    · rw [if_neg hkj]; omega

theorem Inv.init (env : ClientEnv) : Inv env (Upr.init env) := by
  refine ⟨⟨[], rfl⟩, rfl, ⟨rfl, ?_, ?_, ?_, ?_, ?_, ?_⟩, ?_, rfl, rfl, rfl, ?_⟩ <;> simp [Upr.init, Justified, actionsRun]

/-- The response handlers of a step are those of the requests the channel has called. -/
theorem replies_keys {v : Upr} (hh : v.handler.map (·.1) = List.range v.cli.nextUid) (es : List CEv) (hb : ∀ u x t, CEv.handler u x t ∈ es → u < v.cli.nextUid) :
    (v.replies es).map (·.1) = handledUids es := by
  induction es with
  | nil => rfl
  | cons e es ih =>
    have ih := ih fun u x t hm => hb u x t (.tail _ hm)
    cases e with
    | handler u x t =>
      have hu := hb u x t (.head _)
      have hin : u ∈ v.handler.map (·.1) := by rw [hh]; exact List.mem_range.2 hu
      obtain ⟨y, hy, rfl⟩ := List.mem_map.1 hin
      have hs : ∃ f, v.handler.lookup y.1 = some f := by
        rw [← Option.isSome_iff_exists, List.lookup_isSome_iff]
        exact ⟨y, hy, by simp⟩
      obtain ⟨f, hf⟩ := hs
      simp only [Upr.replies, handledUids, List.filterMap_cons, hf, Option.map_some, List.map_cons, List.cons.injEq, true_and] at ih ⊢
      exact ih
    | _ => simpa only [Upr.replies, handledUids, List.filterMap_cons] using ih

theorem replies_asked {v : Upr} {es : List CEv} {u f : Nat} (hm : (u, f) ∈ v.replies es) : (u, f) ∈ v.handler := by
  simp only [Upr.replies, List.mem_filterMap] at hm
  obtain ⟨e, -, he⟩ := hm
  split at he
  · simp only [Option.map_eq_some_iff, Prod.mk.injEq] at he
    obtain ⟨g, hg, rfl, rfl⟩ := he
    exact lookup_mem2 hg
  · cases he

theorem Inv.step {env : ClientEnv} {prog : UserCode} {v w : Upr} {op : Op} {new : List UEv} (h : Inv env v) (hm : Move env prog v op w new) : Inv env w := by
  cases hm with
  | same => exact h
  | @ask td unit req tmo f c hb hc hl hn hu =>
    refine ⟨h.reach.step hc, ?_, ?_, ?_, ?_, ?_, ?_, ?_⟩
    · show c.log = chanOf _
      rw [hl, chanOf_append, h.chan]; rfl
    · refine h.timers.frame (by show v.cli.now ≤ c.now; omega) ?_
      intro e he
      simp only [List.mem_cons, List.not_mem_nil, or_false] at he
      rcases he with rfl | rfl <;> rfl
    · have := (h.just.snoc (e := .asked v.cli.nextUid f) trivial).snoc (e := .ch (.call v.cli.nextUid unit req tmo)) trivial
      simpa using this
    · simp only [requestsMade_append, ← h.handler]; rfl
    · show (requestsMade _).map _ = List.range c.nextUid
      rw [requestsMade_append, List.map_append, h.uids, hu, List.range_succ]; rfl
    · show repliesRun _ ++ v.due.map _ = _
      rw [repliesRun_append, chanOf_append, handledUids, List.filterMap_append, ← handledUids, ← h.replies]
      simp [repliesRun, chanOf]
    · exact fun u g hm => List.mem_append_left _ (h.due u g hm)
  | @start td c time f hb hc =>
    refine ⟨h.reach, ?_, h.timers.start time f, h.just.snoc trivial, ?_, ?_, ?_, ?_⟩
    · simp only [chanOf_append, ← h.chan]; simp [chanOf]
    · simp only [requestsMade_append, ← h.handler]; simp [requestsMade]
    · simp only [requestsMade_append, List.map_append, h.uids]; simp [requestsMade]
    · simp only [repliesRun_append, chanOf_append, handledUids, List.filterMap_append]
      rw [← handledUids, ← h.replies]; simp [repliesRun, chanOf]
    · exact fun u g hm => List.mem_append_left _ (h.due u g hm)
  | @cancel td k hb hk =>
    refine ⟨h.reach, ?_, h.timers.cancel hk, h.just.snoc trivial, ?_, ?_, ?_, ?_⟩
    · simp only [chanOf_append, ← h.chan]; simp [chanOf]
    · simp only [requestsMade_append, ← h.handler]; simp [requestsMade]
    · simp only [requestsMade_append, List.map_append, h.uids]; simp [requestsMade]
    · simp only [repliesRun_append, chanOf_append, handledUids, List.filterMap_append]
      rw [← handledUids, ← h.replies]; simp [repliesRun, chanOf]
    · exact fun u g hm => List.mem_append_left _ (h.due u g hm)
  | skip hb => exact ⟨h.reach, h.chan, h.timers, h.just, h.handler, h.uids, h.replies, h.due⟩
  | shutdown hb => exact ⟨h.reach.step (op := .shutdown) rfl, h.chan, h.timers, h.just, h.handler, h.uids, h.replies, h.due⟩
  | @reply uid f ds ho ht hd =>
    have hu : uid ∈ handledUids (chanOf v.log) := by rw [← h.replies, hd]; simp
    refine ⟨h.reach, ?_, h.timers.frame (Nat.le_refl _) (by simp [offTimer]), h.just.snoc ?_, ?_, ?_, ?_, ?_⟩
    · simp only [chanOf_append, ← h.chan]; simp [chanOf]
    · obtain ⟨x, t, hx⟩ := mem_handledUids.1 hu
      exact ⟨h.due uid f (by rw [hd]; exact .head _), x, t, mem_chanOf.1 hx⟩
    · simp only [requestsMade_append, ← h.handler]; simp [requestsMade]
    · simp only [requestsMade_append, List.map_append, h.uids]; simp [requestsMade]
    · simp only [repliesRun_append, chanOf_append, handledUids, List.filterMap_append]
      rw [← handledUids, ← h.replies, hd]; simp [repliesRun, chanOf]
    · exact fun u g hm => List.mem_append_left _ (h.due u g (by rw [hd]; exact .tail _ hm))
  | @chan cop c es ho hg hc hl hn hu ht hcall =>
    have hr := h.reach.step hc
    have hlog : c.log = chanOf (v.log ++ es.map .ch) := by rw [hl, chanOf_append, chanOf_map, h.chan]
    refine ⟨hr, hlog, h.timers.frame (by show v.cli.now ≤ c.now; omega) ?_, h.just.chans es, ?_, ?_, ?_, ?_⟩
    · intro e he
      obtain ⟨x, -, rfl⟩ := List.mem_map.1 he
      rfl
    · simp only [requestsMade_append, requestsMade_map, List.append_nil]; exact h.handler
    · simp only [requestsMade_append, requestsMade_map, List.append_nil]; rw [hu]; exact h.uids
    · have hk := replies_keys (v := v) (by rw [h.handler, h.uids]) es fun u x t hm => by
        by_contra hge
        have := (hr.inv.1.bound u (by rw [hu]; omega)).1
        exact this (mem_handledUids.2 ⟨x, t, by rw [hl]; exact List.mem_append_right _ hm⟩)
      show repliesRun (v.log ++ es.map .ch) ++ (v.due ++ v.replies es).map _ = _
      rw [repliesRun_append, repliesRun_map, List.append_nil, List.map_append, hk, ← List.append_assoc, h.replies, chanOf_append, chanOf_map,
        handledUids, handledUids, handledUids, List.filterMap_append]
    · intro u g hm
      refine List.mem_append_left _ ?_
      rcases List.mem_append.1 hm with hm | hm
      · exact h.due u g hm
      · have := replies_asked hm
        rw [h.handler] at this
        exact mem_requestsMade.1 this
  | @expire k time f ho hl ht => exact ⟨h.reach, h.chan, h.timers.expire hl ht, h.just, h.handler, h.uids, h.replies, h.due⟩
  | @action k f ho hi hl =>
    refine ⟨h.reach, ?_, h.timers.action hl, h.just.snoc ?_, ?_, ?_, ?_, ?_⟩
    · simp only [chanOf_append, ← h.chan]; simp [chanOf]
    · obtain ⟨d, t0, h1, h2, -⟩ := h.timers.fired _ _ (lookup_mem2 hl)
      exact ⟨d, t0, h1, h2⟩
    · simp only [requestsMade_append, ← h.handler]; simp [requestsMade]
    · simp only [requestsMade_append, List.map_append, h.uids]; simp [requestsMade]
    · simp only [repliesRun_append, chanOf_append, handledUids, List.filterMap_append]
      rw [← handledUids, ← h.replies]; simp [repliesRun, chanOf]
    · exact fun u g hm => List.mem_append_left _ (h.due u g hm)
  | @tick n ho =>
    have := h.timers.frame (new := []) (now' := v.cli.now + n) (by omega) (by simp)
    rw [List.append_nil] at this
    exact ⟨h.reach.step (op := .tick n) rfl, h.chan, this, h.just, h.handler, h.uids, h.replies, h.due⟩

end Upr

end Modbus
