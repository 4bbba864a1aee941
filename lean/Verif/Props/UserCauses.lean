import Verif.Lemmas.UserCauses

/-! C141: every call of the user's code counts exactly once, and nothing is done in the user's name without a call. -/

namespace Modbus.Props

open Spec

/-- C141: at any moment the requests made, the response handlers given and the timers started, together with what a function that is still running has yet to ask for,
are exactly what the calls of other threads and the calls of the functions begun so far ask for: nothing is lost, nothing is done twice and nothing is made up. -/
theorem C141_accounting {env : ClientEnv} {prog : UserCode} {ops : List Upr.Op} {v : Upr} (h : (Upr.init env).run env prog ops = .ret v) :
    (matterOfLog v.log ++ matterOfCalls v.todo).Perm (matterOfCalls (threadCalls ops) ++ matterOfCalls (functionCalls prog [] v.log)) := (Books.of_run h).balance

/-- C141: whenever no function of the user's is running, every request has been made as often as it has been asked for; likewise for handlers and timers. -/
theorem C141_exactly {env : ClientEnv} {prog : UserCode} {ops : List Upr.Op} {v : Upr} (h : (Upr.init env).run env prog ops = .ret v) (hi : v.todo = []) (m : Matter) :
    (matterOfLog v.log).count m = (matterOfCalls (threadCalls ops)).count m + (matterOfCalls (functionCalls prog [] v.log)).count m := by
  have := (C141_accounting h).count_eq m
  simpa [hi, matterOfCalls] using this

/-- C141: a timer is cancelled only if `cancel` has been called for it, by another thread or by a function that had begun before. -/
theorem C141_cancelled {env : ClientEnv} {prog : UserCode} {ops : List Upr.Op} {v : Upr} (h : (Upr.init env).run env prog ops = .ret v) {a b : List UEv} {k t : Nat}
    (hl : v.log = a ++ .cancelled k t :: b) : CallMade prog ops a (.cancel k) := (Books.of_run h).cancelled a b k t hl

/-- C141: a timer is started only if this has been asked for, with this action and for this time. -/
theorem C141_started {env : ClientEnv} {prog : UserCode} {ops : List Upr.Op} {v : Upr} (h : (Upr.init env).run env prog ops = .ret v) {a b : List UEv} {k due f t : Nat}
    (hl : v.log = a ++ .started k due f t :: b) :
    CallMade prog ops a (.startAt due f) ∨ ∃ d, due = t + d ∧ CallMade prog ops a (.start d f) := (Books.of_run h).started a b k due f t hl

/-- C141: the connection, and a session on it, is shut down only if `shutdown` has been called, by another thread or by a function that had begun before. -/
theorem C141_shutdown {env : ClientEnv} {prog : UserCode} {ops : List Upr.Op} {v : Upr} (h : (Upr.init env).run env prog ops = .ret v) {a b : List UEv}
    (hl : v.log = a ++ .ch .tcpShutdown :: b ∨ ∃ s, v.log = a ++ .ch (.sessionShutdown s) :: b) : CallMade prog ops a .shutdown := (Books.of_run h).down a b hl

/-! ## The hypotheses can be met -/

/-- Three timers and two requests of other threads, a timer and a request of response handlers: the books of the history of `user_demo`. -/
example : (∃ v, (Upr.init demoEnv).run demoEnv userProg userOps = .ret v ∧ v.todo = [] ∧
    matterOfLog v.log = [.timer 0, .timer 1, .timer 0, .handler 3, .request 1 reqA 1, .timer 1, .handler 3, .request 1 reqBad 1, .handler 3, .request 1 reqA 1] ∧
    matterOfCalls (threadCalls userOps) = [.timer 0, .timer 1, .timer 0, .request 1 reqA 1, .handler 3, .request 1 reqBad 1, .handler 3] ∧
    matterOfCalls (functionCalls userProg [] v.log) = [.timer 1, .request 1 reqA 1, .handler 3]) := by
  have e : (match (Upr.init demoEnv).run demoEnv userProg userOps with
    | .ret v => some (v.todo.isEmpty, matterOfLog v.log, matterOfCalls (threadCalls userOps), matterOfCalls (functionCalls userProg [] v.log))
    | .ub => none) = some (true, [.timer 0, .timer 1, .timer 0, .handler 3, .request 1 reqA 1, .timer 1, .handler 3, .request 1 reqBad 1, .handler 3, .request 1 reqA 1],
      [.timer 0, .timer 1, .timer 0, .request 1 reqA 1, .handler 3, .request 1 reqBad 1, .handler 3], [.timer 1, .request 1 reqA 1, .handler 3]) := by decide +kernel
  revert e
  cases (Upr.init demoEnv).run demoEnv userProg userOps with
  | ub => intro e; cases e
  | ret v =>
    intro e
    simp only [Option.some.injEq, Prod.mk.injEq, List.isEmpty_iff] at e
    exact ⟨v, rfl, e⟩

/-- In this history a timer is cancelled, timers are started (one by a response handler) and the connection is shut down. -/
example : ∃ ops v, (Upr.init demoEnv).run demoEnv userProg ops = .ret v ∧ (∃ a b, v.log = a ++ .cancelled 2 2 :: b) ∧ (∃ a b, v.log = a ++ .started 3 10 1 4 :: b) ∧
    (∃ a b, v.log = a ++ .ch .tcpShutdown :: b) := by
  obtain ⟨v, ⟨ops, hr⟩, hl⟩ := user_demo
  exact ⟨ops, v, hr, List.append_of_mem (by rw [hl]; simp), List.append_of_mem (by rw [hl]; simp), List.append_of_mem (by rw [hl]; simp)⟩

/-- While a function is running, what it has still to do is on the books too. -/
example : (match (Upr.init demoEnv).run demoEnv (fun f _ => if f = 0 then [.start 5 1, .send 1 reqA 1 2, .shutdown] else []) [.call (.start 0 0), .expire 0, .runTimer 0, .user] with
    | .ret v => some (matterOfLog v.log, matterOfCalls v.todo)
    | .ub => none) = some ([.timer 0, .timer 1], [.request 1 reqA 1, .handler 2]) := by decide +kernel

end Modbus.Props
