import Verif.Props.UserLoop
import Batteries.Data.List.Perm

/-! The invariant of polling written by the user (`PollLoop`): there is one poll at a time. -/

namespace Modbus.Props

open Spec

theorem repliesMade_run (l : List UEv) : (repliesMade l).map (·.1) = repliesRun l := by
  induction l with
  | nil => rfl
  | cons e l ih =>
    rw [show e :: l = [e] ++ l from rfl, repliesMade_append, repliesRun_append, List.map_append, ih]
    congr 1
    cases e <;> rfl

theorem mem_repliesMade {log : List UEv} {u f : Nat} : (u, f) ∈ repliesMade log ↔ ∃ t, UEv.reply u f t ∈ log := by
  simp only [repliesMade, List.mem_filterMap]
  constructor
  · rintro ⟨x, hx, h⟩
    split at h
    · injection h with h; injection h with h1 h2; subst h1 h2; exact ⟨_, hx⟩
    · cases h
  · rintro ⟨t, h⟩; exact ⟨_, h, rfl⟩

theorem repliesMade_map (es : List CEv) : repliesMade (es.map .ch) = [] := by
  induction es with
  | nil => rfl
  | cons e es ih => simp only [repliesMade] at ih ⊢; simp

/-- The calls of response handlers and the requests still without one are all among the requests made. -/
theorem replies_among {env : ClientEnv} {v : Upr} (h : Upr.Inv env v) (p : Nat × Nat → Bool) :
    (repliesMade v.log).countP p + (requestsMade v.log).countP (fun x => p x && decide (x.1 ∉ repliesRun v.log)) ≤ (requestsMade v.log).countP p := by
  have hreq : (requestsMade v.log).Nodup := by
    have : ((requestsMade v.log).map (·.1)).Nodup := by rw [h.uids]; exact List.nodup_range
    exact this.of_map
  have hrep : (repliesMade v.log).Nodup := by
    have : ((repliesMade v.log).map (·.1)).Nodup := by
      rw [repliesMade_run]
      have hn := C47_handlers_at_most_once env v.cli h.reach
      rw [h.chan] at hn
      exact hn.sublist (List.IsPrefix.sublist ⟨_, h.replies⟩)
    exact this.of_map
  let rest := (requestsMade v.log).filter (fun x => decide (x.1 ∉ repliesRun v.log))
  have hnod : (repliesMade v.log ++ rest).Nodup := by
    rw [List.nodup_append]
    refine ⟨hrep, hreq.filter _, fun x hx y hy he => ?_⟩
    subst he
    have h2 := (List.mem_filter.1 hy).2
    simp only [decide_eq_true_eq] at h2
    exact h2 (by rw [← repliesMade_run]; exact List.mem_map.2 ⟨x, hx, rfl⟩)
  have hsub : repliesMade v.log ++ rest ⊆ requestsMade v.log := by
    intro x hx
    rcases List.mem_append.1 hx with hx | hx
    · obtain ⟨u, f⟩ := x
      obtain ⟨t, hx⟩ := mem_repliesMade.1 hx
      obtain ⟨a, b, he⟩ := List.append_of_mem hx
      exact mem_requestsMade.2 (by rw [he]; exact List.mem_append_left _ (h.just a _ b he).1)
    · exact (List.mem_filter.1 hx).1
  have := (List.subperm_of_subset hnod hsub).countP_le p
  rw [List.countP_append, List.countP_filter] at this
  exact this

/-- A poll, or a call of its handler, at time `t`. -/
def Mark (l : List UEv) (t : Nat) : Prop := (∃ k, UEv.action k 0 t ∈ l) ∨ ∃ u, UEv.reply u 1 t ∈ l

theorem Mark.append {l new : List UEv} {t : Nat} (h : Mark (l ++ new) t) : Mark l t ∨ Mark new t := by
  rcases h with ⟨k, h⟩ | ⟨u, h⟩
  · rcases List.mem_append.1 h with h | h
    · exact .inl (.inl ⟨k, h⟩)
    · exact .inr (.inl ⟨k, h⟩)
  · rcases List.mem_append.1 h with h | h
    · exact .inl (.inr ⟨u, h⟩)
    · exact .inr (.inr ⟨u, h⟩)

theorem Mark.mono {l new : List UEv} {t : Nat} (h : Mark l t) : Mark (l ++ new) t := by
  rcases h with ⟨k, h⟩ | ⟨u, h⟩
  · exact .inl ⟨k, List.mem_append_left _ h⟩
  · exact .inr ⟨u, List.mem_append_left _ h⟩

/-- The invariant.  `K`: calls from outside that name the functions. -/
structure Loop (unit : UInt8) (req : AnyReq) (tmo period K : Nat) (v : Upr) : Prop where
  todo : ∀ c ∈ v.todo, c.loops = true → c = .send unit req tmo 1 ∨ c = .start period 0
  balance : v.armed.countP (fun x => decide (x.2.2 < 2)) + v.fired.countP (fun x => decide (x.2 < 2)) + v.todo.countP UCall.loops +
    (requestsMade v.log).countP (fun x => decide (x.2 < 2)) ≤ (repliesMade v.log).countP (fun x => decide (x.2 < 2)) + K
  none : K = 0 → ∀ t, ¬ Mark v.log t
  past : ∀ t, Mark v.log t → t ≤ v.cli.now
  armed : ∀ t, Mark v.log t → ∀ x ∈ v.armed, x.2.2 = 0 → t + period ≤ x.2.1
  fired : ∀ t, Mark v.log t → ∀ x ∈ v.fired, x.2 = 0 → t + period ≤ v.cli.now
  split : ∀ a b k t', v.log = a ++ .action k 0 t' :: b → ∀ t, Mark a t → t + period ≤ t'

theorem Loop.init (env : ClientEnv) (unit : UInt8) (req : AnyReq) (tmo period : Nat) : Loop unit req tmo period 0 (Upr.init env) := by
  have hm : ∀ t, ¬ Mark (Upr.init env).log t := by
    rintro t (⟨k, h⟩ | ⟨u, h⟩) <;> cases h
  exact ⟨by simp [Upr.init], by simp [Upr.init, requestsMade], fun _ => hm, fun t h => absurd h (hm t), fun t h => absurd h (hm t), fun t h => absurd h (hm t),
    by intro a b k t' he; simp [Upr.init] at he⟩

theorem countP_remove {α : Type} {p q : α → Bool} {l : List α} {x : α} (hx : x ∈ l) (hq : q x = false) :
    (l.filter q).countP p + (if p x then 1 else 0) ≤ l.countP p := by
  obtain ⟨a, b, rfl⟩ := List.append_of_mem hx
  rw [List.filter_append, List.filter_cons_of_neg (by simp [hq]), List.countP_append, List.countP_append, List.countP_cons]
  have h1 := (List.filter_sublist (p := q) (l := a)).countP_le (p := p)
  have h2 := (List.filter_sublist (p := q) (l := b)).countP_le (p := p)
  omega

/-- What a function leaves to be done. -/
theorem PollLoop.count {prog : UserCode} {unit : UInt8} {req : AnyReq} {tmo period : Nat} (hp : PollLoop prog unit req tmo period) (f : Nat) (l : List UEv) :
    (prog f l).countP UCall.loops = (if f < 2 then 1 else 0) ∧ ∀ c ∈ prog f l, c.loops = true → c = .send unit req tmo 1 ∨ c = .start period 0 := by
  have mid : ∀ (pre post : List UCall) (c : UCall), c.loops = true → (∀ c ∈ pre ++ post, c.loops = false) → (pre ++ c :: post).countP UCall.loops = 1 ∧
      ∀ d ∈ pre ++ c :: post, d.loops = true → d = c := by
    intro pre post c hc hn
    refine ⟨?_, fun d hd hl => ?_⟩
    · rw [List.countP_append, List.countP_cons, List.countP_eq_zero.2, List.countP_eq_zero.2, hc]
      · rfl
      · intro d hd; simp [hn d (List.mem_append_right _ hd)]
      · intro d hd; simp [hn d (List.mem_append_left _ hd)]
    · rcases List.mem_append.1 hd with hd | hd
      · rw [hn d (List.mem_append_left _ hd)] at hl; cases hl
      · rcases List.mem_cons.1 hd with hd | hd
        · exact hd
        · rw [hn d (List.mem_append_right _ hd)] at hl; cases hl
  match f with
  | 0 =>
    obtain ⟨pre, post, h1, h2⟩ := hp.poll l
    obtain ⟨h3, h4⟩ := mid pre post (.send unit req tmo 1) rfl h2
    rw [h1]
    exact ⟨h3, fun c hc hl => .inl (h4 c hc hl)⟩
  | 1 =>
    obtain ⟨pre, post, h1, h2⟩ := hp.again l
    obtain ⟨h3, h4⟩ := mid pre post (.start period 0) rfl h2
    rw [h1]
    exact ⟨h3, fun c hc hl => .inr (h4 c hc hl)⟩
  | f + 2 =>
    have h := hp.other (f + 2) l (by omega)
    refine ⟨?_, fun c hc hl => by rw [h c hc] at hl; cases hl⟩
    rw [if_neg (by omega), List.countP_eq_zero]
    intro c hc
    simp [h c hc]

/-- A call of the API takes a turn of the running function, or comes from outside. -/
theorem Loop.called {unit : UInt8} {req : AnyReq} {tmo period K : Nat} {v : Upr} (h : Loop unit req tmo period K v) {op : Upr.Op} {c : UCall} {td : List UCall}
    (hb : v.CalledBy op c td) (hK : K + (if kicks op then 1 else 0) ≤ 1) :
    td.countP UCall.loops + (if c.loops then 1 else 0) ≤ v.todo.countP UCall.loops + (if kicks op then 1 else 0) ∧ (∀ c ∈ td, c ∈ v.todo) ∧
    (c.loops = true → K = 0 ∨ c = .send unit req tmo 1 ∨ c = .start period 0) := by
  rcases hb with ⟨rfl, rfl⟩ | ⟨rfl, ht⟩
  · refine ⟨Nat.le_refl _, fun c hc => hc, fun hl => .inl ?_⟩
    simp only [kicks, hl, if_true] at hK
    omega
  · refine ⟨?_, fun d hd => by rw [ht]; exact List.mem_cons_of_mem _ hd, fun hl => .inr (h.todo c (by rw [ht]; simp) hl)⟩
    rw [ht, List.countP_cons]
    omega

theorem Loop.step {env : ClientEnv} {prog : UserCode} {unit : UInt8} {req : AnyReq} {tmo period K : Nat} (hp : PollLoop prog unit req tmo period) {v w : Upr}
    {op : Upr.Op} {new : List UEv} (hw : Upr.Inv env w) (h : Loop unit req tmo period K v) (hm : Upr.Move env prog v op w new)
    (hK : K + (if kicks op then 1 else 0) ≤ 1) : Loop unit req tmo period (K + (if kicks op then 1 else 0)) w := by
  have hbal := replies_among hw (fun x => decide (x.2 < 2))
  have nomark : ∀ new : List UEv, (∀ k f t, UEv.action k f t ∉ new) → (∀ u f t, UEv.reply u f t ∉ new) → ∀ t, Mark (v.log ++ new) t → Mark v.log t := by
    intro new h1 h2 t hm
    rcases hm.append with hm | ⟨k, hm⟩ | ⟨u, hm⟩
    · exact hm
    · exact absurd hm (h1 _ _ _)
    · exact absurd hm (h2 _ _ _)
  have nosplit : ∀ new : List UEv, (∀ k f t, UEv.action k f t ∉ new) → ∀ a b k t', v.log ++ new = a ++ .action k 0 t' :: b → ∀ t, Mark a t → t + period ≤ t' := by
    intro new h1 a b k t' he
    rcases split_where he with ⟨z, -, h2⟩ | ⟨b', h2⟩
    · exact absurd (by rw [h2]; simp) (h1 k 0 t')
    · exact h.split a b' k t' h2
  have h0 : ∀ {x : Nat}, K + x = 0 → K = 0 := fun hx => by omega
  cases hm with
  | same =>
    refine ⟨h.todo, ?_, fun hz => h.none (h0 hz), h.past, h.armed, h.fired, h.split⟩
    have := h.balance
    omega
  | ask hb hst hl hnow hnu =>
    rename_i td unit' req' tmo' f c
    obtain ⟨c1, c2, c3⟩ := h.called hb hK
    have hma := nomark [.asked v.cli.nextUid f, .ch (.call v.cli.nextUid unit' req' tmo')] (by simp) (by simp)
    refine ⟨fun c hc => h.todo c (c2 c hc), ?_, fun hz t hm => h.none (h0 hz) t (hma t hm), fun t hm => ?_, fun t hm => h.armed t (hma t hm), fun t hm => ?_,
      nosplit _ (by simp)⟩
    · have hb := h.balance
      have hr1 : requestsMade [UEv.asked v.cli.nextUid f, .ch (.call v.cli.nextUid unit' req' tmo')] = [(v.cli.nextUid, f)] := rfl
      have hr2 : repliesMade [UEv.asked v.cli.nextUid f, .ch (.call v.cli.nextUid unit' req' tmo')] = [] := rfl
      have hr3 : [(v.cli.nextUid, f)].countP (fun x => decide (x.2 < 2)) = (if decide (f < 2) = true then 1 else 0) := by rw [List.countP_cons]; simp
      simp only [requestsMade_append, repliesMade_append, List.countP_append, hr1, hr2, hr3, List.countP_nil]
      have c1' : td.countP UCall.loops + (if decide (f < 2) = true then 1 else 0) ≤ v.todo.countP UCall.loops + (if kicks op then 1 else 0) := c1
      omega
    · show t ≤ c.now
      rw [hnow]; exact h.past t (hma t hm)
    · show ∀ x ∈ v.fired, x.2 = 0 → t + period ≤ c.now
      rw [hnow]; exact h.fired t (hma t hm)
  | start hb hc =>
    rename_i td c time f
    obtain ⟨c1, c2, c3⟩ := h.called hb hK
    have hma := nomark [.started v.nextK time f v.cli.now] (by simp) (by simp)
    have hloops : c.loops = decide (f < 2) := by rcases hc with ⟨d, rfl, -⟩ | rfl <;> rfl
    refine ⟨fun c hc => h.todo c (c2 c hc), ?_, fun hz t hm => h.none (h0 hz) t (hma t hm), fun t hm => h.past t (hma t hm), fun t hm x hx hx0 => ?_,
      fun t hm => h.fired t (hma t hm), nosplit _ (by simp)⟩
    · have hb := h.balance
      have hr1 : requestsMade [UEv.started v.nextK time f v.cli.now] = [] := rfl
      have hr2 : repliesMade [UEv.started v.nextK time f v.cli.now] = [] := rfl
      have hr3 : [(v.nextK, time, f)].countP (fun x => decide (x.2.2 < 2)) = (if decide (f < 2) = true then 1 else 0) := by rw [List.countP_cons]; simp
      rw [hloops] at c1
      simp only [requestsMade_append, repliesMade_append, List.countP_append, hr1, hr2, hr3, List.countP_nil] at c1 ⊢
      omega
    · rcases List.mem_append.1 hx with hx | hx
      · exact h.armed t (hma t hm) x hx hx0
      · rw [List.mem_singleton] at hx
        subst hx
        have hx0 : f = 0 := hx0
        subst hx0
        rcases c3 (by rw [hloops]; rfl) with hz | hz | hz
        · exact absurd (hma t hm) (h.none hz t)
        · rcases hc with ⟨d, hc, -⟩ | hc <;> rw [hz] at hc <;> cases hc
        · rcases hc with ⟨d, hc, he⟩ | hc
          · rw [hz] at hc
            injection hc with hc
            subst hc
            have := h.past t (hma t hm)
            show t + period ≤ time
            omega
          · rw [hz] at hc; cases hc
  | cancel hb hj =>
    rename_i td k
    obtain ⟨c1, c2, c3⟩ := h.called hb hK
    have hma := nomark [.cancelled k v.cli.now] (by simp) (by simp)
    refine ⟨fun c hc => h.todo c (c2 c hc), ?_, fun hz t hm => h.none (h0 hz) t (hma t hm), fun t hm => h.past t (hma t hm),
      fun t hm x hx => h.armed t (hma t hm) x (List.mem_filter.1 hx).1, fun t hm => h.fired t (hma t hm), nosplit _ (by simp)⟩
    have hb := h.balance
    have hr1 : requestsMade [UEv.cancelled k v.cli.now] = [] := rfl
    have hr2 : repliesMade [UEv.cancelled k v.cli.now] = [] := rfl
    have hr3 := (List.filter_sublist (p := fun x : Nat × Nat × Nat => decide (x.1 ≠ k)) (l := v.armed)).countP_le (p := fun x => decide (x.2.2 < 2))
    simp only [requestsMade_append, repliesMade_append, List.countP_append, hr1, hr2, List.countP_nil] at c1 ⊢
    omega
  | skip hb =>
    obtain ⟨c1, c2, c3⟩ := h.called hb hK
    refine ⟨fun c hc => h.todo c (c2 c hc), ?_, fun hz => h.none (h0 hz), h.past, h.armed, h.fired, h.split⟩
    have := h.balance
    simp only
    omega
  | shutdown hb =>
    obtain ⟨c1, c2, c3⟩ := h.called hb hK
    refine ⟨fun c hc => h.todo c (c2 c hc), ?_, fun hz => h.none (h0 hz), h.past, h.armed, h.fired, h.split⟩
    have := h.balance
    simp only
    omega
  | reply ho ht hd =>
    rename_i u f ds
    obtain ⟨p1, p2⟩ := PollLoop.count hp f (v.log ++ [.reply u f v.cli.now])
    have hk : kicks op = false := by rw [ho]; rfl
    have hr1 : requestsMade [UEv.reply u f v.cli.now] = [] := rfl
    have hr2 : repliesMade [UEv.reply u f v.cli.now] = [(u, f)] := rfl
    have hr3 : [(u, f)].countP (fun x => decide (x.2 < 2)) = (if f < 2 then 1 else 0) := by rw [List.countP_cons]; simp
    have hb := h.balance
    rw [ht, List.countP_nil] at hb
    simp only [hk, Bool.false_eq_true, if_false, Nat.add_zero] at hK ⊢
    simp only [requestsMade_append, repliesMade_append, List.countP_append, hr1, hr2, hr3, List.countP_nil] at hbal
    have zero : f = 1 → v.armed.countP (fun x => decide (x.2.2 < 2)) = 0 ∧ v.fired.countP (fun x => decide (x.2 < 2)) = 0 ∧ K ≠ 0 := by
      rintro rfl
      simp only [show (1 : Nat) < 2 by omega, if_true] at hbal
      omega
    have hmark : ∀ t, Mark (v.log ++ [.reply u f v.cli.now]) t → Mark v.log t ∨ (f = 1 ∧ t = v.cli.now) := by
      intro t hm
      rcases hm.append with hm | ⟨k, hm⟩ | ⟨u', hm⟩
      · exact .inl hm
      · simp at hm
      · simp only [List.mem_singleton, UEv.reply.injEq] at hm
        exact .inr ⟨hm.2.1.symm, hm.2.2⟩
    refine ⟨p2, ?_, fun hz t hm => ?_, fun t hm => ?_, fun t hm x hx hx0 => ?_, fun t hm x hx hx0 => ?_, nosplit _ (by simp)⟩
    · simp only [requestsMade_append, repliesMade_append, List.countP_append, hr1, hr2, hr3, List.countP_nil, p1]
      omega
    · rcases hmark t hm with hm | ⟨hf, -⟩
      · exact h.none hz t hm
      · exact (zero hf).2.2 hz
    · rcases hmark t hm with hm | ⟨hf, rfl⟩
      · exact h.past t hm
      · exact Nat.le_refl _
    · rcases hmark t hm with hm | ⟨hf, rfl⟩
      · exact h.armed t hm x hx hx0
      · have := List.countP_eq_zero.1 (zero hf).1 x hx
        simp [hx0] at this
    · rcases hmark t hm with hm | ⟨hf, rfl⟩
      · exact h.fired t hm x hx hx0
      · have := List.countP_eq_zero.1 (zero hf).2.1 x hx
        simp [hx0] at this
  | chan ho hi hst hl hnow hnu hh hcall =>
    rename_i cop c es
    have hma := nomark (es.map .ch) (by simp) (by simp)
    refine ⟨h.todo, ?_, fun hz t hm => h.none (h0 hz) t (hma t hm), fun t hm => ?_, fun t hm => h.armed t (hma t hm), fun t hm => ?_, nosplit _ (by simp)⟩
    · have hb := h.balance
      simp only [requestsMade_append, repliesMade_append, List.countP_append, requestsMade_map, repliesMade_map, List.countP_nil]
      omega
    · show t ≤ c.now
      rw [hnow]; exact h.past t (hma t hm)
    · show ∀ x ∈ v.fired, x.2 = 0 → t + period ≤ c.now
      rw [hnow]; exact h.fired t (hma t hm)
  | expire ho hl ht =>
    rename_i k time f
    have hmem := Upr.lookup_mem3 hl
    refine ⟨h.todo, ?_, fun hz => h.none (h0 hz), h.past, fun t hm x hx => h.armed t hm x (List.mem_filter.1 hx).1, fun t hm x hx hx0 => ?_, h.split⟩
    · have hb := h.balance
      have hr1 := countP_remove (p := fun x : Nat × Nat × Nat => decide (x.2.2 < 2)) (q := fun x => decide (x.1 ≠ k)) hmem (by simp)
      have hr3 : [(k, f)].countP (fun x => decide (x.2 < 2)) = (if decide (f < 2) = true then 1 else 0) := by rw [List.countP_cons]; simp
      simp only [List.countP_append, hr3] at hr1 ⊢
      omega
    · rcases List.mem_append.1 hx with hx | hx
      · exact h.fired t hm x hx hx0
      · rw [List.mem_singleton] at hx
        subst hx
        have hx0 : f = 0 := hx0
        subst hx0
        have := h.armed t hm _ hmem rfl
        exact Nat.le_trans this ht
  | action ho hi hl =>
    rename_i k f
    have hmem := Upr.lookup_mem2 hl
    have ht : v.todo = [] := by
      simp only [Upr.idle, Bool.and_eq_true, List.isEmpty_iff] at hi
      exact hi.2
    obtain ⟨p1, p2⟩ := PollLoop.count hp f (v.log ++ [.action k f v.cli.now])
    have hk : kicks op = false := by rw [ho]; rfl
    have hr1 : requestsMade [UEv.action k f v.cli.now] = [] := rfl
    have hr2 : repliesMade [UEv.action k f v.cli.now] = [] := rfl
    have hr3 := countP_remove (p := fun x : Nat × Nat => decide (x.2 < 2)) (q := fun x => decide (x.1 ≠ k)) hmem (by simp)
    have hb := h.balance
    rw [ht, List.countP_nil] at hb
    simp only [hk, Bool.false_eq_true, if_false, Nat.add_zero] at hK ⊢
    simp only [requestsMade_append, repliesMade_append, List.countP_append, hr1, hr2, List.countP_nil, Nat.add_zero] at hbal
    simp only [decide_eq_true_eq] at hr3
    have zero : f = 0 → v.armed.countP (fun x => decide (x.2.2 < 2)) = 0 ∧
        (v.fired.filter (fun x => decide (x.1 ≠ k))).countP (fun x => decide (x.2 < 2)) = 0 ∧ K ≠ 0 := by
      rintro rfl
      simp only [show (0 : Nat) < 2 by omega, if_true] at hr3
      omega
    have hmark : ∀ t, Mark (v.log ++ [.action k f v.cli.now]) t → Mark v.log t ∨ (f = 0 ∧ t = v.cli.now) := by
      intro t hm
      rcases hm.append with hm | ⟨k', hm⟩ | ⟨u', hm⟩
      · exact .inl hm
      · simp only [List.mem_singleton, UEv.action.injEq] at hm
        exact .inr ⟨hm.2.1.symm, hm.2.2⟩
      · simp at hm
    refine ⟨p2, ?_, fun hz t hm => ?_, fun t hm => ?_, fun t hm x hx hx0 => ?_, fun t hm x hx hx0 => ?_, fun a b k' t' he t hm => ?_⟩
    · simp only [requestsMade_append, repliesMade_append, List.countP_append, hr1, hr2, List.countP_nil, p1]
      omega
    · rcases hmark t hm with hm | ⟨hf, -⟩
      · exact h.none hz t hm
      · exact (zero hf).2.2 hz
    · rcases hmark t hm with hm | ⟨hf, rfl⟩
      · exact h.past t hm
      · exact Nat.le_refl _
    · rcases hmark t hm with hm | ⟨hf, rfl⟩
      · exact h.armed t hm x hx hx0
      · have := List.countP_eq_zero.1 (zero hf).1 x hx
        simp [hx0] at this
    · rcases hmark t hm with hm | ⟨hf, rfl⟩
      · exact h.fired t hm x (List.mem_filter.1 hx).1 hx0
      · have := List.countP_eq_zero.1 (zero hf).2.1 x hx
        simp [hx0] at this
    · rcases split_where he with ⟨z, h1, h2⟩ | ⟨b', h2⟩
      · cases z with
        | nil =>
          injection h2 with h2 h3
          simp only [UEv.action.injEq] at h2
          obtain ⟨rfl, rfl, rfl⟩ := h2
          rw [h1, List.append_nil] at hm
          exact h.fired t hm _ hmem rfl
        | cons z zs =>
          injection h2 with h2 h3
          simp at h3
      · exact h.split a b' k' t' h2 t hm
  | tick ho =>
    rename_i n
    refine ⟨h.todo, ?_, fun hz => h.none (h0 hz), fun t hm => Nat.le_trans (h.past t hm) (Nat.le_add_right _ _), h.armed,
      fun t hm x hx hx0 => Nat.le_trans (h.fired t hm x hx hx0) (Nat.le_add_right _ _), h.split⟩
    have := h.balance
    simp only
    omega

/-- The invariant holds after every history with at most one call from outside that names the functions. -/
theorem Loop.run {env : ClientEnv} {prog : UserCode} {unit : UInt8} {req : AnyReq} {tmo period : Nat} (hp : PollLoop prog unit req tmo period) :
    ∀ (ops : List Upr.Op) (v w : Upr) (K : Nat), UReach env prog v → Loop unit req tmo period K v → v.run env prog ops = .ret w →
      K + ops.countP kicks ≤ 1 → UReach env prog w ∧ Loop unit req tmo period (K + ops.countP kicks) w := by
  intro ops
  induction ops with
  | nil => intro v w K hv h hr _; injection hr with hr; subst hr; exact ⟨hv, h⟩
  | cons op ops ih =>
    intro v w K hv h hr hK
    obtain ⟨x, hx, hr⟩ := CM.bind_eq_ret.1 hr
    obtain ⟨new, hm⟩ := Upr.step_move hx
    rw [List.countP_cons] at hK ⊢
    have h1 := Loop.step hp (hv.step hx).inv h hm (by omega)
    have h2 := ih x w _ (hv.step hx) h1 hr (by omega)
    rw [show K + (ops.countP kicks + if kicks op then 1 else 0) = (K + if kicks op then 1 else 0) + ops.countP kicks by omega]
    exact h2

end Modbus.Props
