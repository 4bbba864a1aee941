import Verif.Lemmas.ClientFailures
import Verif.Props.Stack

/-! C140: a client gives up a connection, and fails requests with a connection error, only for a reason. -/

namespace Modbus.Props

open Modbus.Spec Modbus.Stk

/-- An operation of connection attempt `c` has failed, or the peer has closed that connection. -/
def Damaged (v : Stk) (c : Nat) : Prop := ∃ x ∈ v.steps, Broke x.1 x.2 c

/-- The current connection attempt is reported as failed, or closed, only after one of its own operations has failed or the peer has
closed that connection. -/
def C140_Statement : Prop := ∀ env v, KReach env v →
  ∀ c cur, TEv.error c cur ∈ netLog v.log ∨ TEv.closed c cur ∈ netLog v.log → Damaged v cur

/-- A write and a read fail at once; both handlers ask for a close; between the two closes the next request starts a new attempt. -/
def goodAttempt : List Stk.Op := ksub ++ kcon ++ [.complete 0 .error, .complete 0 .error, .run 0, .run 0, .run 0] ++ ksub ++ [.run 0]

/-- Decides `Broke`. -/
def brokeChk (v : Tcp) (op : Tcp.Op) (c : Nat) : Bool :=
  match op with
  | .complete i .error => match v.flying[i]? with
    | some (.resolve c') => c' == c
    | some (.connect c') => c' == c
    | some (.read c') => c' == c
    | some (.write c' _ _) => c' == c
    | _ => false
  | .complete i .eof => v.flying[i]? == some (.read c)
  | _ => false

theorem brokeChk_spec {v : Tcp} {op : Tcp.Op} {c : Nat} (h : Broke v op c) : brokeChk v op c = true := by
  rcases h with ⟨i, rfl, h⟩ | ⟨i, rfl, h⟩
  · rcases h with h | h | h | ⟨b, d, h⟩ <;> simp [brokeChk, h]
  · simp [brokeChk, h]

/-- C140 does not hold: the second of two queued closes closes the next attempt, although nothing of that attempt has failed. -/
theorem C140_violated : ¬C140_Statement := by
  intro h
  obtain ⟨v, hr, hq⟩ := any_kdemo (env := kenv) (ops := goodAttempt)
    (Q := fun v => (netLog v.log).contains (.closed 1 2) && v.steps.all fun x => !brokeChk x.1 x.2 2) (by decide +kernel)
  simp only [Bool.and_eq_true, List.contains_iff_mem, List.all_eq_true] at hq
  obtain ⟨x, hx, hb⟩ := h kenv v hr 1 2 (Or.inr hq.1)
  have := hq.2 x hx
  rw [brokeChk_spec hb] at this
  cases this

theorem tcp_both {P : Tcp → Tcp.Op → Prop} {env : StkEnv} {v : Stk} (h : KReach env v) (hf : Throughout P v) :
    TcpReach (fun a op => P a op ∧ (a, op) ∈ v.steps) v.tcp := by
  have mono : ∀ {t : Tcp} {Q : Tcp → Tcp.Op → Prop}, (∀ a op, Q a op → (P a op ∧ (a, op) ∈ v.steps)) → TcpReach Q t → TcpReach (fun a op => P a op ∧ (a, op) ∈ v.steps) t := by
    intro t Q hpq h
    induction h with
    | init => exact .init
    | step _ hp hs ih => exact .step ih (hpq _ _ hp) hs
  exact mono (fun a op hm => ⟨hf (a, op) hm, hm⟩) h.proj.micro.tcp

/-- C140 (part). If every attempt is started only after everything about the earlier connections is over, the current attempt is
reported as failed, or closed, only after one of its own operations has failed or the peer has closed that connection.  And a request
fails with a connection error only right after the current attempt has been reported as failed - for such a reason.
Missing from C140: attempts started while handlers of the last connection are still queued (`C140_violated`). -/
theorem C140_reason_partial (env : StkEnv) (v : Stk) (h : KReach env v) (hf : Throughout FreshStarts v) :
    (∀ c cur, TEv.error c cur ∈ netLog v.log ∨ TEv.closed c cur ∈ netLog v.log → Damaged v cur) ∧
    ∀ pre post u t, v.log = pre ++ .ch (.handler u (.error .connection) t) :: post → ∃ l c hs, Damaged v c ∧
      pre = l ++ .net (.error c c) :: .ch .connError :: hs ∧ ∀ e ∈ hs, ∃ u' t', e = KEv.ch (.handler u' (.error .connection) t') := by
  have ht := tcp_both h hf
  have hc := ht.caused (fun _ _ h => h.1)
  have same := C65_no_leftovers_partial v.tcp (tcp_through h hf)
  rw [← h.proj.micro.net] at same hc
  have key : ∀ c cur, TEv.error c cur ∈ netLog v.log ∨ TEv.closed c cur ∈ netLog v.log → Damaged v cur := by
    intro c cur hm
    obtain rfl := same c cur hm
    rcases hm with hm | hm
    · obtain ⟨a, op, -, h2, h3⟩ := hc.1.1 c c hm; exact ⟨(a, op), h2.2, h3⟩
    · obtain ⟨a, op, -, h2, h3⟩ := hc.1.2 c c hm; exact ⟨(a, op), h2.2, h3⟩
  refine ⟨key, fun pre post u t hl => ?_⟩
  obtain ⟨l, c, cur, hs, h1, h2⟩ := h.proj.micro.failures.1.at_ hl
  have hm : TEv.error c cur ∈ netLog v.log := by rw [hl, h1]; simp
  obtain rfl := same c cur (Or.inl hm)
  exact ⟨l, c, hs, key c c (Or.inl hm), h1, h2⟩

/-- C140 for every history: a request fails with a connection error only right after the connection has reported an error to the
channel. -/
theorem C140_request_fails (env : StkEnv) (v : Stk) (h : KReach env v) (pre post : List KEv) (u t : Nat)
    (hl : v.log = pre ++ .ch (.handler u (.error .connection) t) :: post) : ∃ l c cur hs,
      pre = l ++ .net (.error c cur) :: .ch .connError :: hs ∧ ∀ e ∈ hs, ∃ u' t', e = KEv.ch (.handler u' (.error .connection) t') :=
  h.proj.micro.failures.1.at_ hl

/-- C140 for every history: as long as no operation fails and the peer does not close the connection, nothing is reported as failed,
nothing is closed, no request fails with a connection error and the first connection attempt is the only one. -/
theorem C140_no_failure (env : StkEnv) (v : Stk) (h : KReach env v) (hn : ∀ c, ¬Damaged v c) :
    (∀ c cur, TEv.error c cur ∉ netLog v.log ∧ TEv.closed c cur ∉ netLog v.log) ∧
    (∀ u t, CEv.handler u (.error .connection) t ∉ chLog v.log) ∧ tcpAttempted (netLog v.log) <+: [1] := by
  have hth : Throughout (fun a op => ∀ c, ¬Broke a op c) v := fun x hx c hb => hn c ⟨x, hx, hb⟩
  obtain ⟨hr, -, hle⟩ := (tcp_through h hth).noFailure
  have hc := (hr.caused (fun _ _ h => h.1)).1
  rw [← h.proj.micro.net] at hc
  have none : ∀ c cur, TEv.error c cur ∉ netLog v.log ∧ TEv.closed c cur ∉ netLog v.log := by
    intro c cur
    constructor
    · intro hm; obtain ⟨a, op, -, h2, h3⟩ := hc.1 c cur hm; exact h2.2 c h3
    · intro hm; obtain ⟨a, op, -, h2, h3⟩ := hc.2 c cur hm; exact h2.2 c h3
  refine ⟨none, fun u t hm => ?_, ?_⟩
  · have hm' : KEv.ch (.handler u (.error .connection) t) ∈ v.log := by
      rw [chLog, List.mem_filterMap] at hm
      obtain ⟨e, he, hx⟩ := hm
      cases e with
      | ch e => injection hx with hx; subst hx; exact he
      | net e => cases hx
    obtain ⟨pre, post, hl⟩ := List.append_of_mem hm'
    obtain ⟨l, c, cur, hs, h1, -⟩ := C140_request_fails env v h pre post u t hl
    exact (none c cur).1 (by rw [hl, h1]; simp)
  · rw [h.proj.micro.net, hr.attempted]
    have : v.tcp.conn = 0 ∨ v.tcp.conn = 1 := by omega
    rcases this with h | h <;> rw [h] <;> decide

/-- C140 for every history: the connection and the sessions are shut down only if `shutdown` of the channel has been called. -/
theorem C140_shutdown_called (env : StkEnv) (ops : List Stk.Op) (v : Stk) (h : (Stk.init env).run env ops = .ret v)
    (hd : CEv.tcpShutdown ∈ chLog v.log ∨ (∃ s, CEv.sessionShutdown s ∈ chLog v.log) ∨ v.tcp.isShutdown = true) :
    Stk.Op.chan .shutdown ∈ ops := by
  by_contra hn
  have hr := Stk.run_reach ops .init h
  have hd' : CEv.tcpShutdown ∈ chLog v.log ∨ ∃ s, CEv.sessionShutdown s ∈ chLog v.log := by
    rcases hd with h | h | h
    · exact Or.inl h
    · exact Or.inr h
    · exact Or.inl (hr.proj.micro.down_by (Or.inl h))
  have := (Stk.run_noDown ops (Stk.init_noDown env) hn h).log
  rw [hr.proj.cli] at hd'
  rcases hd' with h | ⟨s, h⟩
  · exact (this _ h).1 rfl
  · exact (this _ h).2 s rfl

/-! ### Concrete cases -/

/-- Writing the first request fails while a second one is waiting: both fail. -/
def bothFail : List Stk.Op := ksub ++ kcon ++ ksub ++ [.complete 0 .error, .run 0]

/-- The hypotheses of `C140_reason_partial` hold where requests do fail. -/
example : ∃ v, KReach kenv v ∧ Throughout FreshStarts v ∧ ((netLog v.log).contains (.error 1 1) &&
    (chLog v.log).contains (.handler 0 (.error .connection) 0) && (chLog v.log).contains (.handler 1 (.error .connection) 0)) = true :=
  fresh_kdemo (ops := bothFail) (by decide +kernel)

/-- ... and a connection closed by the peer is closed, and a second one is made for the next request. -/
example : ∃ v, KReach kenv v ∧ Throughout FreshStarts v ∧ ((netLog v.log).contains (.closed 1 1) && tcpAttempted (netLog v.log) == [1, 2]) = true :=
  fresh_kdemo (ops := kans ++ [.complete 0 .eof, .run 0, .run 0] ++ ksub) (by decide +kernel)

/-- The hypothesis of `C140_no_failure` holds where a request is answered over the only connection. -/
example : ∃ v, KReach kenv v ∧ (∀ c, ¬Damaged v c) ∧ ((chLog v.log).contains (.handler 0 (.ok ((kframe 0).drop 7)) 0) && tcpAttempted (netLog v.log) == [1]) = true := by
  obtain ⟨v, -, h1, h2, h3⟩ := kdemo_run (chk := fun v op => match op with | .complete _ .error => false | .complete _ .eof => false | _ => true)
    (P := fun a op => ∀ c, ¬Broke a op c) (fun v op h c hb => by
      rcases hb with ⟨i, rfl, -⟩ | ⟨i, rfl, -⟩ <;> cases h)
    (env := kenv) (ops := kans)
    (Q := fun v => (chLog v.log).contains (.handler 0 (.ok ((kframe 0).drop 7)) 0) && tcpAttempted (netLog v.log) == [1]) (by decide +kernel)
  exact ⟨v, h1, fun c ⟨x, hx, hb⟩ => h2 x hx c hb, h3⟩

/-- The hypothesis of `C140_shutdown_called` holds once a shutdown has been carried out. -/
example : ∃ v, KReach kenv v ∧ ((chLog v.log).contains .tcpShutdown && v.tcp.isShutdown) = true :=
  any_kdemo (ops := kans ++ [.chan .shutdown, .chan .runTask, .run 0]) (by decide +kernel)

end Modbus.Props
