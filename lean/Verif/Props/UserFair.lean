import Verif.Props.UserPeriod
import Verif.Lemmas.PollingFair

/-! Fair executions of the client with the user's code exist: every history can be continued to one.  So the theorems about fair executions (C126, C128,
C129) say something. -/

namespace Modbus.Props

open Spec

/-- No step is undefined behaviour. -/
theorem UReach.total {env : ClientEnv} {prog : UserCode} {v : Upr} (h : UReach env prog v) (op : Upr.Op) : ∃ w, v.step env prog op = .ret w := by
  have call : ∀ (c : UCall) (td : List UCall), ∃ w, Upr.call env { v with todo := td } c = .ret w := by
    intro c td
    cases c with
    | send unit req tmo f =>
      obtain ⟨c, hc⟩ := h.inv.reach.total (.submit unit req tmo)
      simp only [Upr.call, hc, CM.ret_bind, CM.pure_eq]
      exact ⟨_, rfl⟩
    | start d f => exact ⟨_, rfl⟩
    | startAt d f => exact ⟨_, rfl⟩
    | cancel k => simp only [Upr.call]; split <;> exact ⟨_, rfl⟩
    | shutdown =>
      obtain ⟨c, hc⟩ := h.inv.reach.total .shutdown
      simp only [Upr.call, hc, CM.ret_bind, CM.pure_eq]
      exact ⟨_, rfl⟩
  have chan : ∀ op, ∃ w, v.chanStep env op = .ret w := by
    intro op
    obtain ⟨c, hc⟩ := h.inv.reach.total op
    simp only [Upr.chanStep, hc, CM.ret_bind, CM.pure_eq]
    exact ⟨_, rfl⟩
  cases op with
  | call c => exact call c v.todo
  | user =>
    cases ht : v.todo with
    | cons c cs => simp only [Upr.step, ht]; exact call c cs
    | nil =>
      cases hd : v.due with
      | nil => simp only [Upr.step, ht, hd]; exact ⟨_, rfl⟩
      | cons d ds => simp only [Upr.step, ht, hd]; exact ⟨_, rfl⟩
  | chan op =>
    cases op with
    | expire t => exact chan _
    | _ =>
      simp only [Upr.step]
      split
      · exact chan _
      · exact ⟨_, rfl⟩
  | expire k =>
    simp only [Upr.step]
    split
    · exact ⟨_, rfl⟩
    · split <;> exact ⟨_, rfl⟩
  | runTimer k =>
    simp only [Upr.step]
    split
    · split <;> exact ⟨_, rfl⟩
    · exact ⟨_, rfl⟩
  | tick n => exact ⟨_, rfl⟩

/-- C126: the user's functions, timers and the channel together never cause undefined behaviour. -/
theorem C126_total (env : ClientEnv) (prog : UserCode) (ops : List Upr.Op) : ∃ v, (Upr.init env).run env prog ops = .ret v := by
  have key : ∀ (ops : List Upr.Op) (v : Upr), UReach env prog v → ∃ w, v.run env prog ops = .ret w := by
    intro ops
    induction ops with
    | nil => intro v _; exact ⟨v, rfl⟩
    | cons op ops ih =>
      intro v hv
      obtain ⟨x, hx⟩ := hv.total op
      obtain ⟨w, hw⟩ := ih x (hv.step hx)
      exact ⟨w, by simp only [Upr.run, hx, CM.ret_bind, hw]⟩
  exact key ops _ ⟨[], rfl⟩

/-! The scheduler: the user's functions go first; else it lets so much time pass that all timers are due, then does one of the things it can do, in turns. -/

def uschedOp (c : Nat) : Upr.Op :=
  match c.unpair.1 with
  | 0 => .chan .runTask
  | 1 => .chan (.expire c.unpair.2)
  | 2 => .chan (.runTimer c.unpair.2)
  | 3 => .expire c.unpair.2
  | _ => .runTimer c.unpair.2

/-- All deadlines added up. -/
def ulong (v : Upr) : Nat := (v.cli.armed.map (·.2)).sum + (v.armed.map (·.2.1)).sum

def uchoice (c : Nat) (v : Upr) : Upr.Op :=
  if v.idle then (if c % 2 = 0 then .tick (ulong v) else uschedOp (c / 2).unpair.1) else .user

/-- The state, the rest of the given history, and the number of turns. -/
structure USched where
  v : Upr
  rest : List Upr.Op
  c : Nat

def USched.op (s : USched) : Upr.Op :=
  match s.rest with
  | op :: _ => op
  | [] => uchoice s.c s.v

def USched.next (env : ClientEnv) (prog : UserCode) (s : USched) : USched :=
  match s.v.step env prog s.op with
  | .ret w => ⟨w, s.rest.tail, if s.rest.isEmpty && s.v.idle then s.c + 1 else s.c⟩
  | .ub => s

def usched (env : ClientEnv) (prog : UserCode) (pre : List Upr.Op) : Nat → USched
  | 0 => ⟨Upr.init env, pre, 0⟩
  | n + 1 => (usched env prog pre n).next env prog

section

variable (env : ClientEnv) (prog : UserCode) (pre : List Upr.Op)

theorem usched_execution : UExecution env prog (fun n => (usched env prog pre n).op) (fun n => (usched env prog pre n).v) := by
  have one : ∀ n, UReach env prog (usched env prog pre n).v →
      (usched env prog pre n).v.step env prog (usched env prog pre n).op = .ret (usched env prog pre (n + 1)).v := by
    intro n hr
    obtain ⟨w, hw⟩ := hr.total (usched env prog pre n).op
    simp only [usched, USched.next, hw]
  have reach : ∀ n, UReach env prog (usched env prog pre n).v := by
    intro n
    induction n with
    | zero => exact ⟨[], rfl⟩
    | succ n ih => exact ih.step (one n ih)
  exact ⟨rfl, fun n => one n (reach n)⟩

theorem usched_succ (n : Nat) : (usched env prog pre (n + 1)).rest = (usched env prog pre n).rest.tail ∧
    (usched env prog pre (n + 1)).c = (if (usched env prog pre n).rest.isEmpty && (usched env prog pre n).v.idle then (usched env prog pre n).c + 1
      else (usched env prog pre n).c) := by
  have h := (usched_execution env prog pre).next n
  simp only [usched, USched.next]
  split
  · exact ⟨rfl, rfl⟩
  · rename_i hu; rw [hu] at h; cases h

theorem usched_rest (n : Nat) : (usched env prog pre n).rest = pre.drop n := by
  induction n with
  | zero => rfl
  | succ n ih => rw [(usched_succ env prog pre n).1, ih, List.tail_drop]

theorem usched_pre : (Upr.init env).run env prog pre = .ret (usched env prog pre pre.length).v := by
  have key : ∀ n, n ≤ pre.length → (Upr.init env).run env prog (pre.take n) = .ret (usched env prog pre n).v := by
    intro n
    induction n with
    | zero => intro _; rfl
    | succ n ih =>
      intro hn
      have hlt : n < pre.length := by omega
      rw [List.take_add_one, List.getElem?_eq_getElem hlt, Option.toList_some, Upr.run_append, ih (by omega)]
      have h := (usched_execution env prog pre).next n
      have ho : (usched env prog pre n).op = pre[n] := by
        simp only [USched.op, usched_rest, List.drop_eq_getElem_cons hlt]
      simp only [ho] at h
      simp only [CM.ret_bind, Upr.run, h]
  have := key pre.length (Nat.le_refl _)
  rwa [List.take_length] at this

/-- The strand gets through with the user's functions. -/
theorem usched_idle : ∀ (D T n : Nat), pre.length ≤ n → (usched env prog pre n).v.due.length = D → (usched env prog pre n).v.todo.length = T →
    ∃ m, n ≤ m ∧ (usched env prog pre m).v.idle = true ∧ (usched env prog pre m).c = (usched env prog pre n).c := by
  intro D
  have hx := usched_execution env prog pre
  have busy : ∀ n, pre.length ≤ n → (usched env prog pre n).v.idle = false → (usched env prog pre n).op = .user ∧
      (usched env prog pre (n + 1)).c = (usched env prog pre n).c := by
    intro n hn hb
    have hr : (usched env prog pre n).rest = [] := by rw [usched_rest]; exact List.drop_eq_nil_of_le hn
    refine ⟨by simp [USched.op, hr, uchoice, hb], ?_⟩
    rw [(usched_succ env prog pre n).2, hb]
    simp
  induction D with
  | zero =>
    intro T
    induction T with
    | zero =>
      intro n hn hd ht
      exact ⟨n, Nat.le_refl _, by simp [Upr.idle, List.length_eq_zero_iff.1 hd, List.length_eq_zero_iff.1 ht], rfl⟩
    | succ T ih =>
      intro n hn hd ht
      cases htd : (usched env prog pre n).v.todo with
      | nil => rw [htd] at ht; cases ht
      | cons c cs =>
        obtain ⟨h1, h2⟩ := busy n hn (busy_of_todo htd)
        have hs := hx.next n
        simp only [h1] at hs
        obtain ⟨h3, h4⟩ := user_call hs htd
        rw [htd] at ht
        obtain ⟨m, h5, h6, h7⟩ := ih (n + 1) (by omega) (by rw [h4]; exact hd) (by rw [h3]; simpa using ht)
        exact ⟨m, by omega, h6, h7.trans h2⟩
  | succ D ihD =>
    intro T
    induction T with
    | zero =>
      intro n hn hd ht
      have ht' := List.length_eq_zero_iff.1 ht
      cases hdd : (usched env prog pre n).v.due with
      | nil => rw [hdd] at hd; cases hd
      | cons d ds =>
        obtain ⟨h1, h2⟩ := busy n hn (busy_of_due (d := d) (by rw [hdd]; simp))
        have hs := hx.next n
        simp only [h1] at hs
        obtain ⟨u, f⟩ := d
        obtain ⟨h3, -⟩ := user_reply hs ht' hdd
        rw [hdd] at hd
        obtain ⟨m, h5, h6, h7⟩ := ihD _ (n + 1) (by omega) (by rw [h3]; simpa using hd) rfl
        exact ⟨m, by omega, h6, h7.trans h2⟩
    | succ T ih =>
      intro n hn hd ht
      cases htd : (usched env prog pre n).v.todo with
      | nil => rw [htd] at ht; cases ht
      | cons c cs =>
        obtain ⟨h1, h2⟩ := busy n hn (busy_of_todo htd)
        have hs := hx.next n
        simp only [h1] at hs
        obtain ⟨h3, h4⟩ := user_call hs htd
        rw [htd] at ht
        obtain ⟨m, h5, h6, h7⟩ := ih (n + 1) (by omega) (by rw [h4]; exact hd) (by rw [h3]; simpa using ht)
        exact ⟨m, by omega, h6, h7.trans h2⟩

/-- Every turn comes. -/
theorem usched_reaches (C n : Nat) (hn : pre.length ≤ n) (hC : (usched env prog pre n).c ≤ C) : ∃ m, n ≤ m ∧ (usched env prog pre m).v.idle = true ∧
    (usched env prog pre m).c = C := by
  obtain ⟨e, rfl⟩ := Nat.exists_eq_add_of_le hC
  clear hC
  induction e generalizing n with
  | zero => exact usched_idle env prog pre _ _ n hn rfl rfl
  | succ e ih =>
    obtain ⟨m, h1, h2, h3⟩ := usched_idle env prog pre _ _ n hn rfl rfl
    have hr : (usched env prog pre m).rest = [] := by rw [usched_rest]; exact List.drop_eq_nil_of_le (by omega)
    have hc : (usched env prog pre (m + 1)).c = (usched env prog pre n).c + 1 := by
      rw [(usched_succ env prog pre m).2, hr, h2, h3]; rfl
    obtain ⟨m', h4, h5, h6⟩ := ih (m + 1) (by omega)
    exact ⟨m', by omega, h5, by rw [h6, hc]; omega⟩

theorem usched_turn (c n : Nat) : ∃ m, n ≤ m ∧ (usched env prog pre m).op = .tick (ulong (usched env prog pre m).v) ∧
    (usched env prog pre (m + 1)).op = uschedOp c ∧ (usched env prog pre (m + 1)).v.idle = true := by
  let n' := n + pre.length
  obtain ⟨m, h1, h2, h3⟩ := usched_reaches env prog pre (2 * Nat.pair c (usched env prog pre n').c) n' (by omega)
    (by have := Nat.right_le_pair c (usched env prog pre n').c; omega)
  have hr : ∀ j, n' ≤ j → (usched env prog pre j).rest = [] := fun j hj => by rw [usched_rest]; exact List.drop_eq_nil_of_le (by omega)
  have ho : (usched env prog pre m).op = .tick (ulong (usched env prog pre m).v) := by
    simp only [USched.op, hr m h1, uchoice, h2, h3, if_true]
    simp
  have hs := (usched_execution env prog pre).next m
  simp only [ho, Upr.step, Cli.step, CM.ret_bind, CM.pure_eq] at hs
  injection hs with hs
  have hi : (usched env prog pre (m + 1)).v.idle = true := by rw [← hs]; exact h2
  refine ⟨m, by omega, ho, ?_, hi⟩
  have hc : (usched env prog pre (m + 1)).c = 2 * Nat.pair c (usched env prog pre n').c + 1 := by
    rw [(usched_succ env prog pre m).2, hr m h1, h2, h3]; rfl
  have e1 : (2 * Nat.pair c (usched env prog pre n').c + 1) % 2 = 1 := by omega
  have e2 : (2 * Nat.pair c (usched env prog pre n').c + 1) / 2 = Nat.pair c (usched env prog pre n').c := by omega
  simp only [USched.op, hr (m + 1) (by omega), uchoice, hi, hc, if_true, e1, e2]
  simp

theorem lookup_none3 (l : List (Nat × Nat × Nat)) (t : Nat) (h : l.lookup t = none) : t ∉ l.map (·.1) := by
  intro hm
  obtain ⟨x, hx, rfl⟩ := List.mem_map.1 hm
  have := List.lookup_eq_none_iff.1 h x hx
  simp at this

theorem usched_fair : UFair (fun n => (usched env prog pre n).op) (fun n => (usched env prog pre n).v) := by
  have hx := usched_execution env prog pre
  have time : ∀ m, (usched env prog pre m).op = .tick (ulong (usched env prog pre m).v) →
      (∀ t d, (t, d) ∈ (usched env prog pre (m + 1)).v.cli.armed → d ≤ (usched env prog pre (m + 1)).v.cli.now) ∧
      ∀ k d f, (k, d, f) ∈ (usched env prog pre (m + 1)).v.armed → d ≤ (usched env prog pre (m + 1)).v.cli.now := by
    intro m ho
    have hs := hx.next m
    simp only [ho, Upr.step, Cli.step, CM.ret_bind, CM.pure_eq] at hs
    injection hs with hs
    rw [← hs]
    refine ⟨fun t d hm => ?_, fun k d f hm => ?_⟩
    · have := le_sum_of_mem (List.mem_map_of_mem (f := (·.2)) hm)
      simp only [ulong] at this ⊢
      omega
    · have := le_sum_of_mem (List.mem_map_of_mem (f := (·.2.1)) hm)
      simp only [ulong] at this ⊢
      omega
  refine ⟨fun n hb => ?_, fun n _ => ?_, fun n t _ => ?_, fun n t _ => ?_, fun n k _ => ?_, fun n k _ => ?_⟩
  · by_contra hcon
    have stays : ∀ j, (usched env prog pre (n + j)).v.idle = false := by
      intro j
      induction j with
      | zero => exact hb
      | succ j ih =>
        obtain ⟨new, hm⟩ := hx.move (n + j)
        obtain ⟨h1, h2⟩ := busy_keep hm ih (fun he => hcon ⟨n + j, by omega, he⟩)
        exact busy_more ih h1 h2
    refine hcon ⟨n + pre.length, by omega, ?_⟩
    have hr : (usched env prog pre (n + pre.length)).rest = [] := by rw [usched_rest]; exact List.drop_eq_nil_of_le (by omega)
    simp [USched.op, hr, uchoice, stays pre.length]
  · obtain ⟨m, h1, -, h2, h3⟩ := usched_turn env prog pre (Nat.pair 0 0) n
    exact ⟨m + 1, by omega, by simp only [h2]; simp [uschedOp], h3⟩
  · obtain ⟨m, h1, h2, h3, h4⟩ := usched_turn env prog pre (Nat.pair 1 t) n
    refine ⟨m + 2, by omega, ?_⟩
    have hc := step_chan (hx.next (m + 1))
    have hop : uschedOp (Nat.pair 1 t) = .chan (.expire t) := by simp [uschedOp]
    simp only [h3, hop, Upr.chanOp, Cli.step] at hc
    split at hc
    · rename_i hl
      injection hc with hc
      rw [← hc]
      exact lookup_none_iff _ _ hl
    · rename_i d hl
      rw [if_pos ((time m h2).1 t d (Poll.lookup_mem _ _ _ hl))] at hc
      injection hc with hc
      rw [← hc]
      exact not_mem_filter_fst _ t
  · obtain ⟨m, h1, h2, h3, h4⟩ := usched_turn env prog pre (Nat.pair 2 t) n
    refine ⟨m + 2, by omega, ?_⟩
    have hc := step_chan (hx.next (m + 1))
    have hop : uschedOp (Nat.pair 2 t) = .chan (.runTimer t) := by simp [uschedOp]
    simp only [h3, hop, Upr.chanOp, h4, Upr.ownChan, and_self, if_true, Cli.step] at hc
    split at hc
    · injection hc with hc
      rw [← hc, (Cli.Still.onTimer env _).fired]
      simp
    · injection hc with hc
      rw [← hc]; assumption
  · obtain ⟨m, h1, h2, h3, h4⟩ := usched_turn env prog pre (Nat.pair 3 k) n
    refine ⟨m + 2, by omega, ?_⟩
    have hc := hx.next (m + 1)
    have hop : uschedOp (Nat.pair 3 k) = .expire k := by simp [uschedOp]
    simp only [h3, hop, Upr.step] at hc
    split at hc
    · rename_i hl
      injection hc with hc
      rw [← hc]
      exact lookup_none3 _ _ hl
    · rename_i d f hl
      rw [if_pos ((time m h2).2 k d f (Upr.lookup_mem3 hl))] at hc
      injection hc with hc
      rw [← hc]
      intro h
      obtain ⟨x, hx, rfl⟩ := List.mem_map.1 h
      simp at hx
  · obtain ⟨m, h1, h2, h3, h4⟩ := usched_turn env prog pre (Nat.pair 4 k) n
    refine ⟨m + 2, by omega, ?_⟩
    have hc := hx.next (m + 1)
    have hop : uschedOp (Nat.pair 4 k) = .runTimer k := by simp [uschedOp]
    simp only [h3, hop, Upr.step, h4, if_true] at hc
    split at hc
    · rename_i hl
      injection hc with hc
      rw [← hc]
      exact lookup_none_iff _ _ hl
    · injection hc with hc
      rw [← hc]
      exact not_mem_filter_fst _ k

end

/-- Not a call that shuts down or cancels something. -/
def calm : UCall → Bool
  | .shutdown => false
  | .cancel _ => false
  | _ => true

def calmOp : Upr.Op → Bool
  | .call c => calm c
  | _ => true

/-- Nothing has been shut down or cancelled, or is going to be. -/
structure Calm (v : Upr) : Prop where
  tasks : CTask.shutdown ∉ v.cli.tasks
  todo : ∀ c ∈ v.todo, calm c = true
  log : UEv.ch .tcpShutdown ∉ v.log
  cancelled : ∀ k t, UEv.cancelled k t ∉ v.log

theorem Calm.step {env : ClientEnv} {prog : UserCode} (hp : ∀ f l c, c ∈ prog f l → calm c = true) {v w : Upr} {op : Upr.Op} {new : List UEv} (h : Calm v)
    (hm : Upr.Move env prog v op w new) (hst : v.cli.step env (Upr.chanOp v op) = .ret w.cli) (ho : calmOp op = true) (hi : Upr.Inv env w) (hv : Upr.Inv env v) :
    Calm w := by
  have hcb : ∀ {c td}, v.CalledBy op c td → calm c = true ∧ ∀ c ∈ td, calm c = true := by
    rintro c td (⟨rfl, rfl⟩ | ⟨-, ht⟩)
    · exact ⟨ho, h.todo⟩
    · exact ⟨h.todo c (by rw [ht]; simp), fun d hd => h.todo d (by rw [ht]; simp [hd])⟩
  have hop : Upr.chanOp v op ≠ .shutdown := by
    intro hc
    cases op with
    | call c => cases c <;> simp [Upr.chanOp, calmOp, calm] at hc ho
    | user =>
      simp only [Upr.chanOp] at hc
      split at hc
      · cases hc
      · rename_i ht
        have := h.todo .shutdown (by rw [ht]; simp)
        cases this
      · cases hc
    | chan op =>
      cases op <;> simp [Upr.chanOp, Upr.ownChan] at hc <;> (split at hc <;> cases hc)
    | tick n => cases hc
    | expire k => cases hc
    | runTimer k => cases hc
  have htasks := Cli.step_noShutdown hst hop h.tasks
  have hlog : UEv.ch .tcpShutdown ∉ w.log := by
    intro hm
    obtain ⟨es, h1, h2⟩ := Cli.step_log hst h.tasks
    rw [← mem_chanOf, ← hi.chan, h1] at hm
    rcases List.mem_append.1 hm with hm | hm
    · rw [hv.chan, mem_chanOf] at hm; exact h.log hm
    · exact (h2 _ hm).1 rfl
  have hcan : ∀ k t, UEv.cancelled k t ∉ new := by
    intro k t hin
    cases hm with
    | cancel hb => have := (hcb hb).1; cases this
    | ask => simp at hin
    | start => simp at hin
    | reply => simp at hin
    | action => simp at hin
    | chan => simp at hin
    | _ => cases hin
  have hcan' : ∀ k t, UEv.cancelled k t ∉ w.log := by
    intro k t hin
    rw [hm.log] at hin
    rcases List.mem_append.1 hin with hin | hin
    · exact h.cancelled k t hin
    · exact hcan k t hin
  refine ⟨htasks, ?_, hlog, hcan'⟩
  clear htasks hlog hcan hcan' hop hst hi
  cases hm with
  | ask hb => exact (hcb hb).2
  | start hb => exact (hcb hb).2
  | cancel hb => exact (hcb hb).2
  | skip hb => exact (hcb hb).2
  | shutdown hb => exact (hcb hb).2
  | reply => exact hp _ _
  | action => exact hp _ _
  | _ => exact h.todo

/-- Every history in which nobody shuts down or cancels anything, with functions that do not either, can be continued to an infinite fair execution in
which nobody does. -/
theorem ufair_execution_exists (env : ClientEnv) (prog : UserCode) (hp : ∀ f l c, c ∈ prog f l → calm c = true) (pre : List Upr.Op)
    (hg : ∀ op ∈ pre, calmOp op = true) : ∃ ops σ, UExecution env prog ops σ ∧ UFair ops σ ∧ (Upr.init env).run env prog pre = .ret (σ pre.length) ∧
      (∀ n, UEv.ch .tcpShutdown ∉ (σ n).log) ∧ ∀ n k t, UEv.cancelled k t ∉ (σ n).log := by
  have hx := usched_execution env prog pre
  have hcalm : ∀ n, calmOp (usched env prog pre n).op = true := by
    intro n
    simp only [USched.op, usched_rest]
    split
    · rename_i op l hd
      exact hg op (List.mem_of_mem_drop (i := n) (by rw [hd]; simp))
    · simp only [uchoice]
      split
      · split
        · rfl
        · simp only [uschedOp]; split <;> rfl
      · rfl
  have hall : ∀ n, Calm (usched env prog pre n).v := by
    intro n
    induction n with
    | zero => exact ⟨by simp [usched, Upr.init, Cli.init], by simp [usched, Upr.init], by simp [usched, Upr.init], by simp [usched, Upr.init]⟩
    | succ n ih =>
      obtain ⟨new, hm⟩ := hx.move n
      exact ih.step hp hm (step_chan (hx.next n)) (hcalm n) (hx.reach (n + 1)).inv (hx.reach n).inv
  exact ⟨_, _, hx, usched_fair env prog pre, usched_pre env prog pre, fun n => (hall n).log, fun n => (hall n).cancelled⟩

/-- A loop as in C128, and a function 2 that sends requests in its own response handler. -/
def loopProg' : UserCode := fun f l => match f with
  | 0 => [.send 1 reqA 10 1]
  | 1 => [.send 3 reqBad 10 7, .start 100 0]
  | 2 => if l.length < 20 then [.send 2 reqA 10 2, .startAt 5 8] else []
  | _ => []

theorem loopProg'_loop : PollLoop loopProg' 1 reqA 10 100 where
  poll l := ⟨[], [], rfl, by simp⟩
  again l := ⟨[.send 3 reqBad 10 7], [], rfl, by simp [UCall.loops]⟩
  other f l hf := by
    match f, hf with
    | 2, _ => simp only [loopProg']; split <;> simp [UCall.loops]
    | f + 3, _ => simp [loopProg']

/-- The loop goes on for ever in some execution (C128), and every request gets its handler called (C129). -/
example : ∃ ops σ n, UExecution demoEnv loopProg' ops σ ∧ UFair ops σ ∧ (∀ n, UEv.ch .tcpShutdown ∉ (σ n).log) ∧
    (∀ n k d t0 t, UEv.started k d 0 t0 ∈ (σ n).log → UEv.cancelled k t ∉ (σ n).log) ∧ UEv.started 0 5 0 0 ∈ (σ n).log ∧ UEv.asked 0 2 ∈ (σ n).log := by
  obtain ⟨ops, σ, h1, h2, h3, h4, h5⟩ := ufair_execution_exists demoEnv loopProg' (by
    intro f l c hc
    match f, hc with
    | 0, hc => simp only [loopProg', List.mem_singleton] at hc; subst hc; rfl
    | 1, hc => simp only [loopProg', List.mem_cons, List.not_mem_nil, or_false] at hc; rcases hc with rfl | rfl <;> rfl
    | 2, hc =>
      simp only [loopProg'] at hc
      split at hc
      · simp only [List.mem_cons, List.not_mem_nil, or_false] at hc; rcases hc with rfl | rfl <;> rfl
      · cases hc
    | f + 3, hc => simp [loopProg'] at hc) [.call (.start 5 0), .call (.send 4 reqA 3 2)] (by decide)
  refine ⟨ops, σ, 2, h1, h2, h4, fun n k d t0 t _ => h5 n k t, ?_⟩
  have : udemoLog (.ret (σ 2)) = some [.started 0 5 0 0, .asked 0 2, .ch (.call 0 4 reqA 3)] := by
    have h3 : (Upr.init demoEnv).run demoEnv loopProg' [.call (.start 5 0), .call (.send 4 reqA 3 2)] = .ret (σ 2) := h3
    rw [← h3]
    decide +kernel
  injection this with this
  rw [this]
  decide

end Modbus.Props
