import Verif.Lemmas.ClientCauses
import Verif.Lemmas.WorldParts
import Verif.Lemmas.StackRun
import Verif.Lemmas.PollingFair

/-! Why requests fail with a connection error, and why the client is shut down. -/

namespace Modbus

open Spec

/-- The connection has reported an error, and since then only handlers have been told about it. -/
def Failing (l : List KEv) : Prop :=
  ∃ l0 c cur hs, l = l0 ++ .net (.error c cur) :: .ch .connError :: hs ∧ ∀ e ∈ hs, ∃ u t, e = KEv.ch (.handler u (.error .connection) t)

/-- Every connection error of a request follows an error of the connection. -/
inductive Failures : List KEv → Prop
  | nil : Failures []
  | snoc {l e} : Failures l → (∀ u t, e = KEv.ch (.handler u (.error .connection) t) → Failing l) → Failures (l ++ [e])

namespace Failures

theorem append {l : List KEv} (h : Failures l) : ∀ {es : List KEv}, (∀ e ∈ es, ∀ u t, e ≠ KEv.ch (.handler u (.error .connection) t)) → Failures (l ++ es) := by
  intro es
  induction es generalizing l with
  | nil => intro _; simpa using h
  | cons e es ih =>
    intro hn
    rw [show l ++ e :: es = (l ++ [e]) ++ es by simp]
    exact ih (h.snoc fun u t he => absurd he (hn e (.head _) u t)) (fun e' he' => hn e' (.tail _ he'))

theorem at_ {l : List KEv} (h : Failures l) : ∀ {pre post : List KEv} {u : Nat} {t : Nat}, l = pre ++ .ch (.handler u (.error .connection) t) :: post → Failing pre := by
  induction h with
  | nil => intro pre post u t he; cases pre <;> cases he
  | @snoc l e _ hf ih =>
    intro pre post u t he
    rcases List.eq_nil_or_concat post with rfl | ⟨post', x, rfl⟩
    · obtain ⟨h1, h2⟩ := List.append_inj' he rfl
      subst h1
      exact hf u t (by simpa using h2)
    · have he' : l ++ [e] = (pre ++ .ch (.handler u (.error .connection) t) :: post') ++ [x] := by simpa using he
      exact ih (List.append_inj' he' rfl).1

end Failures

@[simp] theorem tcpAttempted_append (a b : List TEv) : tcpAttempted (a ++ b) = tcpAttempted a ++ tcpAttempted b := by
  simp [tcpAttempted]

theorem tcpAttempted_none {l : List TEv} (h : ∀ c, TEv.attempt c ∉ l) : tcpAttempted l = [] := by
  unfold tcpAttempted
  rw [List.filterMap_eq_nil_iff]
  intro e he
  cases e <;> first | rfl | exact absurd he (h _)

/-- Attempts are numbered consecutively. -/
theorem Spec.TcpReach.attempted {P : Tcp → Tcp.Op → Prop} {v : Tcp} (h : TcpReach P v) : tcpAttempted v.log = (List.range v.conn).map (· + 1) := by
  induction h with
  | init => rfl
  | @step v v' op _ _ hs ih =>
    have other : ∀ {new : List TEv}, v'.log = v.log ++ new → (∀ c, TEv.attempt c ∉ new) → v'.conn = v.conn → tcpAttempted v'.log = (List.range v'.conn).map (· + 1) := by
      intro new h1 h2 h3
      rw [h1, h3, tcpAttempted_append, tcpAttempted_none h2, List.append_nil, ih]
    obtain ⟨new, hl, -⟩ := Tcp.step_log hs
    cases op with
    | send data loc =>
      injection hs with hs; subst hs
      by_cases hd : v.isShutdown = true
      · have : v.send data loc = v := by simp [Tcp.send, hd]
        rw [this]; exact ih
      · have hd' : v.isShutdown = false := by simpa using hd
        cases hst : v.status with
        | notConnected =>
          by_cases hg : v.isOpen = true ∨ loc ≠ .ok
          · obtain ⟨o, e, -⟩ := Tcp.send_gaveUp hd' hst data loc hg
            rw [e] at other ⊢
            exact other (new := [.asked data, .gaveUp]) (by simp [Tcp.emit, Tcp.ask]) (by simp) rfl
          · simp only [not_or, ne_eq, not_not, Bool.not_eq_true] at hg
            obtain ⟨ho, rfl⟩ := hg
            rw [Tcp.send_start hd' hst ho]
            have : tcpAttempted (v.log ++ [TEv.asked data, .attempt (v.conn + 1)]) = (List.range (v.conn + 1)).map (· + 1) := by
              rw [tcpAttempted_append, ih, List.range_succ, List.map_append]; rfl
            simpa [Tcp.emit, Tcp.ask] using this
        | connecting =>
          rw [Tcp.send_connecting hd' hst] at other ⊢
          exact other (new := [.asked data]) (by simp [Tcp.emit, Tcp.ask]) (by simp) rfl
        | connected =>
          rw [Tcp.send_connected hd' hst] at other ⊢
          cases ho : v.isOpen with
          | true =>
            rw [Tcp.sendBuffer_open (v := v.ask data) (b := v.nextBuf) (d := data) hd' ho rfl] at other ⊢
            exact other (new := [.asked data, .submit v.conn data]) (by simp [Tcp.emit, Tcp.ask]) (by simp) rfl
          | false =>
            rw [Tcp.sendBuffer_closed (v := v.ask data) (b := v.nextBuf) (d := data) hd' ho rfl] at other ⊢
            exact other (new := [.asked data, .submit v.conn data]) (by simp [Tcp.emit, Tcp.ask, Tcp.post]) (by simp) rfl
    | shutdown => injection hs with hs; subst hs; exact ih
    | complete i r =>
      refine other hl (Tcp.step_noAttempt (Or.inl ⟨i, r, rfl⟩) hs hl) ?_
      rcases Tcp.complete_cases hs with rfl | ⟨o, t, h1, h2, h3, h4, h5, -⟩
      · rfl
      · exact h5
    | run k =>
      refine other hl (Tcp.step_noAttempt (Or.inr ⟨k, rfl⟩) hs hl) ?_
      simp only [Tcp.step] at hs
      split at hs
      · injection hs with hs; subst hs; rfl
      · injection hs with hs; subst hs; rw [Tcp.runTask_conn]

namespace Micro

variable {env : StkEnv}

theorem failures {log t s ph} (h : Micro env log t s ph) :
    Failures log ∧ (ph = .failed → ∃ l c cur, log = l ++ [.net (.error c cur)]) ∧ (ph = .failing → Failing log) := by
  induction h with
  | init => exact ⟨.nil, by simp, by simp⟩
  | own _ hm _ ih => exact ⟨ih.1.snoc (by rintro u t he; injection he with he; subst he; cases hm), by simp, by simp⟩
  | sent _ hph _ ih =>
    refine ⟨ih.1.append fun e he u t h => ?_, ?_, ?_⟩
    · subst h
      rcases List.mem_cons.1 he with he | he
      · cases he
      · obtain ⟨x, -, hx⟩ := List.mem_map.1 he; cases hx
    · rintro rfl; rcases hph with h | h <;> cases h
    · rintro rfl; rcases hph with h | h <;> cases h
  | down _ ih => exact ⟨ih.1.snoc (by simp), by simp, by simp⟩
  | @step log t s op t' new _ _ _ _ ih =>
    refine ⟨ih.1.append fun e he u t h => ?_, ?_, ?_⟩
    · subst h; obtain ⟨x, -, hx⟩ := List.mem_map.1 he; cases hx
    · intro hr
      unfold KPhase.of at hr
      split at hr
      · cases hr
      · exact ⟨log, _, _, rfl⟩
      · cases hr
    · intro hr
      unfold KPhase.of at hr
      split at hr <;> cases hr
  | data _ ih => exact ⟨ih.1.snoc (by simp), by simp, by simp⟩
  | heard _ hm _ ih => exact ⟨ih.1.snoc (by rintro u t he; injection he with he; subst he; cases hm), by simp, by simp⟩
  | again _ _ _ _ ih => exact ⟨ih.1, by simp, by simp⟩
  | fail _ ih =>
    obtain ⟨l, c, cur, h1⟩ := ih.2.1 rfl
    exact ⟨ih.1.snoc (by simp), by simp, fun _ => ⟨l, c, cur, [], by simp [h1], by simp⟩⟩
  | fails _ _ ih =>
    obtain ⟨l, c, cur, hs, h1, h2⟩ := ih.2.2 rfl
    refine ⟨ih.1.snoc fun _ _ _ => ih.2.2 rfl, by simp, fun _ => ⟨l, c, cur, _, by rw [h1, List.append_assoc, List.cons_append, List.cons_append], fun e he => ?_⟩⟩
    rcases List.mem_append.1 he with he | he
    · exact h2 e he
    · obtain rfl := List.mem_singleton.1 he; exact ⟨_, _, rfl⟩
  | done _ ih => exact ⟨ih.1, by simp, by simp⟩

end Micro

namespace Cli

/-- Nobody has called `shutdown`. -/
structure NoDown (c : Cli) : Prop where
  tasks : CTask.shutdown ∉ c.tasks
  log : ∀ e ∈ c.log, e ≠ .tcpShutdown ∧ ∀ s, e ≠ .sessionShutdown s

theorem NoDown.step {env : ClientEnv} {c c' : Cli} {op : Op} (h : NoDown c) (ho : op ≠ .shutdown) (hs : c.step env op = .ret c') : NoDown c' := by
  refine ⟨step_noShutdown hs ho h.tasks, fun e he => ?_⟩
  obtain ⟨es, h1, h2⟩ := step_log hs h.tasks
  rw [h1] at he
  rcases List.mem_append.1 he with he | he
  · exact h.log e he
  · exact h2 e he

theorem NoDown.run {env : ClientEnv} (ops : List Op) : ∀ {c c' : Cli}, NoDown c → Op.shutdown ∉ ops → c.run env ops = .ret c' → NoDown c' := by
  induction ops with
  | nil => intro c c' h _ hr; injection hr with hr; subst hr; exact h
  | cons op ops ih =>
    intro c c' h hn hr
    obtain ⟨c1, h1, h2⟩ := CM.bind_eq_ret.1 hr
    exact ih (h.step (fun ho => hn (ho ▸ .head _)) h1) (fun hm => hn (.tail _ hm)) h2

end Cli

namespace Stk

variable {env : StkEnv}

theorem net_cli' {v v' : Stk} {op : Tcp.Op} (h : v.net op = .ret v') : v'.cli = v.cli := by
  obtain ⟨t, -, h2⟩ := CM.bind_eq_ret.1 h
  injection h2 with h2; subst h2; rfl

theorem relay_cli' : ∀ (es : List CEv) {v v' : Stk}, v.relay env es = .ret v' → v'.cli = v.cli := by
  intro es
  induction es with
  | nil => intro v v' h; injection h with h; subst h; rfl
  | cons e es ih =>
    intro v v' h
    obtain ⟨w, h1, h2⟩ := CM.bind_eq_ret.1 h
    rw [ih h2]
    unfold relay1 at h1
    split at h1
    · exact net_cli' (v := { v with log := v.log ++ [.ch _] }) h1
    · exact net_cli' (v := { v with log := v.log ++ [.ch _] }) h1
    · injection h1 with h1; subst h1; rfl

theorem chan_noDown {v v' : Stk} {op : Cli.Op} (h : v.cli.NoDown) (ho : op ≠ .shutdown) (hs : v.chan env op = .ret v') : v'.cli.NoDown := by
  obtain ⟨c, h1, h2⟩ := CM.bind_eq_ret.1 hs
  rw [relay_cli' _ h2]
  exact h.step ho h1

theorem deliver_noDown : ∀ (es : List TEv) {v v' : Stk}, v.cli.NoDown → v.deliver env es = .ret v' → v'.cli.NoDown := by
  intro es
  induction es with
  | nil => intro v v' h hr; injection hr with hr; subst hr; exact h
  | cons e es ih =>
    intro v v' h hr
    cases e with
    | receive c d =>
      obtain ⟨w, h1, h2⟩ := CM.bind_eq_ret.1 hr
      exact ih (chan_noDown h (by simp) h1) h2
    | error c cur =>
      obtain ⟨w, h1, h2⟩ := CM.bind_eq_ret.1 hr
      exact ih (chan_noDown h (by simp) h1) h2
    | _ => exact ih h hr

theorem step_noDown {v v' : Stk} {op : Op} (h : v.cli.NoDown) (ho : op ≠ .chan .shutdown) (hs : v.step env op = .ret v') : v'.cli.NoDown := by
  cases op with
  | chan op =>
    simp only [Stk.step] at hs
    split at hs
    · exact chan_noDown h (fun he => ho (by rw [he])) hs
    · injection hs with hs; subst hs; exact h
  | complete i r => rw [net_cli' hs]; exact h
  | run k =>
    obtain ⟨w, h1, h2⟩ := CM.bind_eq_ret.1 hs
    obtain ⟨w', h3, h4⟩ := CM.bind_eq_ret.1 h2
    have hw' := deliver_noDown _ (by rw [net_cli' h1]; exact h) h3
    split at h4
    · split at h4
      · rw [net_cli' h4]; exact hw'
      · injection h4 with h4; subst h4; exact hw'
    · injection h4 with h4; subst h4; exact hw'

theorem run_noDown (ops : List Op) : ∀ {v v' : Stk}, v.cli.NoDown → Op.chan .shutdown ∉ ops → v.run env ops = .ret v' → v'.cli.NoDown := by
  induction ops with
  | nil => intro v v' h _ hr; injection hr with hr; subst hr; exact h
  | cons op ops ih =>
    intro v v' h hn hr
    obtain ⟨c1, h1, h2⟩ := CM.bind_eq_ret.1 hr
    exact ih (step_noDown h (fun ho => hn (ho ▸ .head _)) h1) (fun hm => hn (.tail _ hm)) h2

theorem init_noDown (env : StkEnv) : (Stk.init env).cli.NoDown := ⟨by simp [Stk.init, Cli.init], by simp [Stk.init, Cli.init]⟩

end Stk

end Modbus
