import Verif.Lemmas.UserLoop

/-! Property C128: polling written by the user does not pile up, and keeps its period. -/

namespace Modbus.Props

open Spec

/-- C128: when the loop is started once, at most one of its polls is waiting for its response handler at any time. -/
theorem C128_one_at_a_time (env : ClientEnv) (prog : UserCode) (unit : UInt8) (req : AnyReq) (tmo period : Nat) (hp : PollLoop prog unit req tmo period)
    (ops : List Upr.Op) (v : Upr) (hr : (Upr.init env).run env prog ops = .ret v) (hk : ops.countP kicks ≤ 1) :
    (requestsMade v.log).countP (fun x => decide (x.2 = 1) && decide (x.1 ∉ repliesRun v.log)) ≤ 1 := by
  obtain ⟨h1, h2⟩ := Loop.run hp ops _ v 0 ⟨[], rfl⟩ (Loop.init env unit req tmo period) hr (by omega)
  have hb := h2.balance
  have ha := replies_among h1.inv (fun x => decide (x.2 < 2))
  have hm : (requestsMade v.log).countP (fun x => decide (x.2 = 1) && decide (x.1 ∉ repliesRun v.log)) ≤
      (requestsMade v.log).countP (fun x => decide (x.2 < 2) && decide (x.1 ∉ repliesRun v.log)) := by
    refine List.countP_mono_left fun x _ hx => ?_
    simp only [Bool.and_eq_true, decide_eq_true_eq] at hx ⊢
    exact ⟨by omega, hx.2⟩
  omega

/-- C128: when the loop is started once, a poll comes at least `period` after the previous poll and after every earlier call of the response handler. -/
theorem C128_period (env : ClientEnv) (prog : UserCode) (unit : UInt8) (req : AnyReq) (tmo period : Nat) (hp : PollLoop prog unit req tmo period)
    (ops : List Upr.Op) (v : Upr) (hr : (Upr.init env).run env prog ops = .ret v) (hk : ops.countP kicks ≤ 1) (a b : List UEv) (k' t' : Nat)
    (he : v.log = a ++ .action k' 0 t' :: b) : (∀ k t, UEv.action k 0 t ∈ a → t + period ≤ t') ∧ ∀ u t, UEv.reply u 1 t ∈ a → t + period ≤ t' := by
  obtain ⟨h1, h2⟩ := Loop.run hp ops _ v 0 ⟨[], rfl⟩ (Loop.init env unit req tmo period) hr (by omega)
  exact ⟨fun k t hm => h2.split a b k' t' he t (.inl ⟨k, hm⟩), fun u t hm => h2.split a b k' t' he t (.inr ⟨u, hm⟩)⟩

/-- A loop, and a function 2 that sends requests in its own response handler. -/
def loopProg : UserCode := fun f l => match f with
  | 0 => [.send 1 reqA 10 1]
  | 1 => [.start 100 0]
  | 2 => if l.length < 20 then [.send 2 reqA 10 2, .cancel 1] else []
  | _ => []

theorem loopProg_loop : PollLoop loopProg 1 reqA 10 100 where
  poll l := ⟨[], [], rfl, by simp⟩
  again l := ⟨[], [], rfl, by simp⟩
  other f l hf := by
    match f, hf with
    | 2, _ => simp only [loopProg]; split <;> simp [UCall.loops]
    | f + 3, _ => simp [loopProg]

/-- The loop is started once: polls at 5 and 114, the handler called at 14; at the end the second poll is waiting. -/
def uloopOps : List Upr.Op :=
  [.call (.start 5 0), .call (.send 4 reqA 3 2), .chan .runTask, .tick 3, .chan (.expire 0), .chan (.runTimer 0), .user, .user, .user, .chan .runTask, .tick 2,
   .expire 0, .runTimer 0, .user, .chan .runTask, .tick 8, .chan (.expire 1), .chan (.runTimer 1), .user, .user, .user, .chan .runTask, .tick 1,
   .chan (.receive [0, 2, 0, 0, 0, 5, 1, 3, 2, 0, 42]), .user, .user, .tick 100, .expire 1, .runTimer 1, .user, .chan .runTask]

/-- The calls of the polling functions in a history. -/
def loopMarks (l : List UEv) : List (Nat × Nat × Nat) :=
  l.filterMap fun e => match e with
    | .action k 0 t => some (0, k, t)
    | .reply u 1 t => some (1, u, t)
    | _ => none

example : uloopOps.countP kicks = 1 ∧ ((udemoLog (udemo loopProg uloopOps)).map fun l => (loopMarks l, requestsMade l, repliesRun l)) =
    some ([(0, 0, 5), (1, 2, 14), (0, 1, 114)], [(0, 2), (1, 2), (2, 1), (3, 2), (4, 1)], [0, 1, 2]) := by decide +kernel

/-- Started twice, the loop runs twice: two polls wait at the same time. -/
example : ∃ v, UReach demoEnv loopProg v ∧
    (requestsMade v.log).countP (fun x => decide (x.2 = 1) && decide (x.1 ∉ repliesRun v.log)) = 2 := by
  obtain ⟨v, hv, hl⟩ := udemo_reach (prog := loopProg) (ops := [.call (.start 0 0), .call (.start 0 0), .expire 0, .expire 1, .runTimer 0, .user, .runTimer 1, .user])
    (l := [.started 0 0 0 0, .started 1 0 0 0, .action 0 0 0, .asked 0 1, .ch (.call 0 1 reqA 10), .action 1 0 0, .asked 1 1, .ch (.call 1 1 reqA 10)])
    (by decide +kernel)
  exact ⟨v, hv, by rw [hl]; decide⟩

end Modbus.Props
