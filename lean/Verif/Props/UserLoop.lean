import Verif.Props.UserCode

/-! Properties C128 and C129: response handlers, and polling written by the user. -/

namespace Modbus.Props

open Spec

/-- What a step does to the channel. -/
def Upr.chanOp (v : Upr) : Upr.Op → Cli.Op
  | .call (.send unit req tmo _) => .submit unit req tmo
  | .call .shutdown => .shutdown
  | .user => match v.todo with
    | .send unit req tmo _ :: _ => .submit unit req tmo
    | .shutdown :: _ => .shutdown
    | _ => .tick 0
  | .chan (.expire t) => .expire t
  | .chan op => if v.idle ∧ Upr.ownChan op then op else .tick 0
  | .tick n => .tick n
  | _ => .tick 0

theorem call_chan {env : ClientEnv} {v w : Upr} {c : UCall} (h : Upr.call env v c = .ret w) :
    v.cli.step env (match c with | .send unit req tmo _ => .submit unit req tmo | .shutdown => .shutdown | _ => .tick 0) = .ret w.cli := by
  cases c with
  | send unit req tmo f =>
    obtain ⟨x, hx, h⟩ := CM.bind_eq_ret.1 h
    injection h with h; subst h; exact hx
  | start d f => injection h with h; subst h; rfl
  | startAt d f => injection h with h; subst h; rfl
  | cancel k => simp only [Upr.call] at h; split at h <;> injection h with h <;> subst h <;> rfl
  | shutdown =>
    obtain ⟨x, hx, h⟩ := CM.bind_eq_ret.1 h
    injection h with h; subst h; exact hx

theorem step_chan {env : ClientEnv} {prog : UserCode} {v w : Upr} {op : Upr.Op} (h : v.step env prog op = .ret w) :
    v.cli.step env (Upr.chanOp v op) = .ret w.cli := by
  cases op with
  | call c =>
    have := call_chan (v := v) (w := w) h
    cases c <;> exact this
  | user =>
    cases ht : v.todo with
    | cons c cs =>
      simp only [Upr.step, ht] at h
      have := call_chan h
      simp only [Upr.chanOp, ht]
      cases c <;> exact this
    | nil =>
      simp only [Upr.chanOp, ht]
      cases hd : v.due with
      | nil => simp only [Upr.step, ht, hd] at h; injection h with h; subst h; rfl
      | cons d ds => simp only [Upr.step, ht, hd] at h; injection h with h; subst h; rfl
  | chan op =>
    have chan : ∀ op, v.chanStep env op = .ret w → v.cli.step env op = .ret w.cli := by
      intro op h
      obtain ⟨x, hx, h⟩ := CM.bind_eq_ret.1 h
      injection h with h; subst h; exact hx
    cases op with
    | expire t => exact chan _ h
    | _ =>
      simp only [Upr.step] at h
      simp only [Upr.chanOp]
      split at h
      · rename_i hc; rw [if_pos hc]; exact chan _ h
      · rename_i hc; rw [if_neg hc]; injection h with h; subst h; rfl
  | expire k =>
    simp only [Upr.step] at h
    split at h
    · injection h with h; subst h; rfl
    · split at h <;> injection h with h <;> subst h <;> rfl
  | runTimer k =>
    simp only [Upr.step] at h
    split at h
    · split at h <;> injection h with h <;> subst h <;> rfl
    · injection h with h; subst h; rfl
  | tick n =>
    obtain ⟨x, hx, h⟩ := CM.bind_eq_ret.1 h
    injection h with h; subst h; exact hx

theorem UExecution.channel {env : ClientEnv} {prog : UserCode} {ops : Nat → Upr.Op} {σ : Nat → Upr} (hx : UExecution env prog ops σ) :
    Execution env (fun n => Upr.chanOp (σ n) (ops n)) (fun n => (σ n).cli) :=
  ⟨by simp only [hx.start]; rfl, fun n => step_chan (hx.next n)⟩

theorem UFair.channel {ops : Nat → Upr.Op} {σ : Nat → Upr} (hf : UFair ops σ) :
    Fair (fun n => Upr.chanOp (σ n) (ops n)) (fun n => (σ n).cli) where
  tasks n h := by
    obtain ⟨m, h1, h2, h3⟩ := hf.tasks n h
    exact ⟨m, h1, by simp only [h2, Upr.chanOp]; rw [if_pos ⟨h3, rfl⟩]⟩
  timers := hf.chanTimers
  callbacks := hf.chanCallbacks

theorem exists_least {P : Nat → Prop} (h : ∃ m, P m) : ∃ m, P m ∧ ∀ j, j < m → ¬ P j := by
  obtain ⟨m, hm⟩ := h
  induction m using Nat.strongRecOn with
  | ind m ih =>
    by_cases hex : ∃ j, j < m ∧ P j
    · obtain ⟨j, hj, hp⟩ := hex
      exact ih j hj hp
    · exact ⟨m, hm, fun j hj hp => hex ⟨j, hj, hp⟩⟩

theorem busy_more {v w : Upr} (hb : v.idle = false) (h1 : w.todo = v.todo) (h2 : v.due <+: w.due) : w.idle = false := by
  simp only [Upr.idle, Bool.and_eq_false_iff] at hb ⊢
  rcases hb with hb | hb
  · left
    obtain ⟨z, hz⟩ := h2
    rw [← hz]
    cases hd : v.due with
    | nil => rw [hd] at hb; cases hb
    | cons => rfl
  · right; rw [h1]; exact hb

/-- Until the user's code gets its turn what it is going to do stays. -/
theorem busy_keep {env : ClientEnv} {prog : UserCode} {v w : Upr} {op : Upr.Op} {new : List UEv} (hmv : Upr.Move env prog v op w new) (hb : v.idle = false)
    (hne : op ≠ .user) : w.todo = v.todo ∧ v.due <+: w.due := by
  have hcb : ∀ {c td}, v.CalledBy op c td → td = v.todo := by
    rintro c td (⟨-, h⟩ | ⟨h, -⟩)
    · exact h
    · exact absurd h hne
  cases hmv with
  | ask hb => exact ⟨hcb hb, List.prefix_rfl⟩
  | start hb => exact ⟨hcb hb, List.prefix_rfl⟩
  | cancel hb => exact ⟨hcb hb, List.prefix_rfl⟩
  | skip hb => exact ⟨hcb hb, List.prefix_rfl⟩
  | shutdown hb => exact ⟨hcb hb, List.prefix_rfl⟩
  | reply he => exact absurd he hne
  | action _ hi => rw [hb] at hi; cases hi
  | chan => exact ⟨rfl, List.prefix_append _ _⟩
  | _ => exact ⟨rfl, List.prefix_rfl⟩

/-- The user's code gets its turn; until then what it is going to do stays. -/
theorem user_turn {env : ClientEnv} {prog : UserCode} {ops : Nat → Upr.Op} {σ : Nat → Upr} (hx : UExecution env prog ops σ) (hf : UFair ops σ) {n : Nat}
    (hb : (σ n).idle = false) : ∃ m, n ≤ m ∧ ops m = .user ∧ (σ m).todo = (σ n).todo ∧ (σ n).due <+: (σ m).due := by
  obtain ⟨m, ⟨hm, hop⟩, hmin⟩ := exists_least (hf.user n hb)
  have key : ∀ j, n ≤ j → j ≤ m → (σ j).todo = (σ n).todo ∧ (σ n).due <+: (σ j).due := by
    intro j hj
    induction hj with
    | refl => intro _; exact ⟨rfl, List.prefix_rfl⟩
    | @step j hj ih =>
      intro hjm
      have hj' : n ≤ j := hj
      obtain ⟨h1, h2⟩ := ih (by omega)
      have hne : ops j ≠ .user := fun he => hmin j (by omega) ⟨hj', he⟩
      have hbusy : (σ j).idle = false := busy_more hb h1 h2
      obtain ⟨new, hmv⟩ := hx.move j
      obtain ⟨h3, h4⟩ := busy_keep hmv hbusy hne
      exact ⟨h3.trans h1, h2.trans h4⟩
  obtain ⟨h1, h2⟩ := key m hm (Nat.le_refl _)
  exact ⟨m, hm, hop, h1, h2⟩

theorem call_frame {env : ClientEnv} {v w : Upr} {c : UCall} (h : Upr.call env v c = .ret w) : w.todo = v.todo ∧ w.due = v.due := by
  cases c with
  | send unit req tmo f =>
    obtain ⟨x, hx, h⟩ := CM.bind_eq_ret.1 h
    injection h with h; subst h; exact ⟨rfl, rfl⟩
  | start d f => injection h with h; subst h; exact ⟨rfl, rfl⟩
  | startAt d f => injection h with h; subst h; exact ⟨rfl, rfl⟩
  | cancel k => simp only [Upr.call] at h; split at h <;> injection h with h <;> subst h <;> exact ⟨rfl, rfl⟩
  | shutdown =>
    obtain ⟨x, hx, h⟩ := CM.bind_eq_ret.1 h
    injection h with h; subst h; exact ⟨rfl, rfl⟩

theorem user_call {env : ClientEnv} {prog : UserCode} {v w : Upr} {c : UCall} {cs : List UCall} (h : v.step env prog .user = .ret w) (ht : v.todo = c :: cs) :
    w.todo = cs ∧ w.due = v.due := by
  simp only [Upr.step, ht] at h
  exact call_frame h

theorem user_reply {env : ClientEnv} {prog : UserCode} {v w : Upr} {u f : Nat} {ds : List (Nat × Nat)} (h : v.step env prog .user = .ret w) (ht : v.todo = [])
    (hd : v.due = (u, f) :: ds) : w.due = ds ∧ w.log = v.log ++ [.reply u f v.cli.now] ∧ w.todo = prog f w.log := by
  simp only [Upr.step, ht, hd] at h
  injection h with h; subst h
  exact ⟨rfl, rfl, rfl⟩

theorem busy_of_todo {v : Upr} {c : UCall} {cs : List UCall} (h : v.todo = c :: cs) : v.idle = false := by simp [Upr.idle, h]

theorem busy_of_due {v : Upr} {d : Nat × Nat} (h : d ∈ v.due) : v.idle = false := by
  simp only [Upr.idle, Bool.and_eq_false_iff]
  left
  cases hd : v.due with
  | nil => rw [hd] at h; cases h
  | cons => rfl

/-- A running function of the user's gets to each of its calls. -/
theorem todo_done {env : ClientEnv} {prog : UserCode} {ops : Nat → Upr.Op} {σ : Nat → Upr} (hx : UExecution env prog ops σ) (hf : UFair ops σ) (c : UCall)
    (cs : List UCall) : ∀ (pre : List UCall) (n : Nat), (σ n).todo = pre ++ c :: cs → ∃ m, n ≤ m ∧ ops m = .user ∧ (σ m).todo = c :: cs := by
  intro pre
  induction pre with
  | nil =>
    intro n h
    obtain ⟨m, h1, h2, h3, -⟩ := user_turn hx hf (busy_of_todo h)
    exact ⟨m, h1, h2, h3.trans h⟩
  | cons p pre ih =>
    intro n h
    obtain ⟨m, h1, h2, h3, -⟩ := user_turn hx hf (busy_of_todo h)
    have hs := hx.next m
    rw [h2] at hs
    obtain ⟨h4, -⟩ := user_call hs (h3.trans h)
    obtain ⟨m', h5, h6, h7⟩ := ih (m + 1) h4
    exact ⟨m', by omega, h6, h7⟩

/-- A response handler that is due begins. -/
theorem due_done {env : ClientEnv} {prog : UserCode} {ops : Nat → Upr.Op} {σ : Nat → Upr} (hx : UExecution env prog ops σ) (hf : UFair ops σ) (d : Nat × Nat) :
    ∀ (i L n : Nat), (σ n).due[i]? = some d → (σ n).todo.length = L → ∃ m ds, n ≤ m ∧ ops m = .user ∧ (σ m).todo = [] ∧ (σ m).due = d :: ds := by
  intro i
  induction i with
  | zero =>
    intro L
    induction L with
    | zero =>
      intro n hd hl
      obtain ⟨m, h1, h2, h3, z, h4⟩ := user_turn hx hf (busy_of_due (List.mem_of_getElem? hd))
      have ht : (σ m).todo = [] := by rw [h3]; exact List.length_eq_zero_iff.1 hl
      cases hdn : (σ n).due with
      | nil => rw [hdn] at hd; cases hd
      | cons e es =>
        rw [hdn] at hd h4
        injection hd with hd; subst hd
        exact ⟨m, es ++ z, h1, h2, ht, h4.symm⟩
    | succ L ih =>
      intro n hd hl
      obtain ⟨m, h1, h2, h3, z, h4⟩ := user_turn hx hf (busy_of_due (List.mem_of_getElem? hd))
      cases ht : (σ m).todo with
      | nil => rw [h3] at ht; rw [ht] at hl; cases hl
      | cons c cs =>
        have hs := hx.next m
        rw [h2] at hs
        obtain ⟨h5, h6⟩ := user_call hs ht
        obtain ⟨m', ds, h7, h8⟩ := ih (m + 1) (by rw [h6, ← h4, List.getElem?_append_left (List.getElem?_eq_some_iff.1 hd).1]; exact hd)
          (by rw [h5]; rw [← h3, ht] at hl; simpa using hl)
        exact ⟨m', ds, by omega, h8⟩
  | succ i ihi =>
    intro L
    induction L with
    | zero =>
      intro n hd hl
      obtain ⟨m, h1, h2, h3, z, h4⟩ := user_turn hx hf (busy_of_due (List.mem_of_getElem? hd))
      have ht : (σ m).todo = [] := by rw [h3]; exact List.length_eq_zero_iff.1 hl
      cases hdn : (σ n).due with
      | nil => rw [hdn] at hd; cases hd
      | cons e es =>
        rw [hdn] at hd h4
        have hs := hx.next m
        rw [h2] at hs
        obtain ⟨u, f⟩ := e
        obtain ⟨h5, -⟩ := user_reply (ds := es ++ z) hs ht h4.symm
        have hd' : es[i]? = some d := by simpa using hd
        obtain ⟨m', ds, h7, h8⟩ := ihi _ (m + 1) (by rw [h5, List.getElem?_append_left (List.getElem?_eq_some_iff.1 hd').1]; exact hd') rfl
        exact ⟨m', ds, by omega, h8⟩
    | succ L ih =>
      intro n hd hl
      obtain ⟨m, h1, h2, h3, z, h4⟩ := user_turn hx hf (busy_of_due (List.mem_of_getElem? hd))
      cases ht : (σ m).todo with
      | nil => rw [h3] at ht; rw [ht] at hl; cases hl
      | cons c cs =>
        have hs := hx.next m
        rw [h2] at hs
        obtain ⟨h5, h6⟩ := user_call hs ht
        obtain ⟨m', ds, h7, h8⟩ := ih (m + 1) (by rw [h6, ← h4, List.getElem?_append_left (List.getElem?_eq_some_iff.1 hd).1]; exact hd)
          (by rw [h5]; rw [← h3, ht] at hl; simpa using hl)
        exact ⟨m', ds, by omega, h8⟩

/-- A request that has been made has a call of `send_request`. -/
theorem asked_call {env : ClientEnv} {v : Upr} (h : Upr.Inv env v) {u f : Nat} (ha : UEv.asked u f ∈ v.log) : ∃ unit q tmo, CEv.call u unit q tmo ∈ v.cli.log := by
  have h1 : u ∈ (requestsMade v.log).map (·.1) := List.mem_map.2 ⟨(u, f), mem_requestsMade.2 ha, rfl⟩
  rw [h.uids, ← h.reach.inv.1.calls] at h1
  obtain ⟨x, hx, rfl⟩ := List.mem_map.1 h1
  exact ⟨x.2.1, x.2.2.1, x.2.2.2, mem_submissions.1 hx⟩

theorem asked_unique {env : ClientEnv} {v : Upr} (h : Upr.Inv env v) {u f g : Nat} (h1 : UEv.asked u f ∈ v.log) (h2 : UEv.asked u g ∈ v.log) : f = g := by
  have hn : ((requestsMade v.log).map (·.1)).Nodup := by rw [h.uids]; exact List.nodup_range
  have := List.inj_on_of_nodup_map hn (mem_requestsMade.2 h1) (mem_requestsMade.2 h2) rfl
  injection this

/-! ### C129 -/

/-- C129: response handlers are called at most once, in the order in which the channel reports results; the function called is the one given with the request, and
the result has been reported. -/
theorem C129_own_handler (env : ClientEnv) (prog : UserCode) (v : Upr) (h : UReach env prog v) : (repliesRun v.log).Nodup ∧
    repliesRun v.log <+: handledUids (chanOf v.log) ∧
    ∀ a b u f t, v.log = a ++ .reply u f t :: b → UEv.asked u f ∈ a ∧ ∃ x t', UEv.ch (.handler u x t') ∈ a := by
  have hi := h.inv
  have hn := C47_handlers_at_most_once env v.cli hi.reach
  have hp : repliesRun v.log <+: handledUids (chanOf v.log) := ⟨_, hi.replies⟩
  rw [hi.chan] at hn
  exact ⟨hn.sublist hp.sublist, hp, fun a b u f t he => hi.just a _ b he⟩

/-- C129: in every fair execution in which the channel is not shut down, the handler of every request is called, whatever the user's functions do. -/
theorem C129_answered (env : ClientEnv) (prog : UserCode) (ops : Nat → Upr.Op) (σ : Nat → Upr) (hx : UExecution env prog ops σ) (hf : UFair ops σ)
    (hs : ∀ n, UEv.ch .tcpShutdown ∉ (σ n).log) (n u f : Nat) (ha : UEv.asked u f ∈ (σ n).log) : ∃ m t, UEv.reply u f t ∈ (σ m).log := by
  obtain ⟨unit, q, tmo, hc⟩ := asked_call (hx.reach n).inv ha
  obtain ⟨m, hm⟩ := C52_every_request_completes env _ _ hx.channel hf.channel
    (fun j hj => hs j (mem_chanOf.1 (by rw [← (hx.reach j).inv.chan]; exact hj))) n u unit q tmo hc
  have hi := (hx.reach m).inv
  have hi' := (hx.reach (n + m)).inv
  have ha' : UEv.asked u f ∈ (σ (n + m)).log := (hx.log_mono (Nat.le_add_right n m)).subset ha
  have hmono := hx.log_mono (Nat.le_add_left m n)
  simp only [hi.chan, ← hi.replies] at hm
  rcases List.mem_append.1 hm with hm | hm
  · obtain ⟨g, t, hr⟩ := mem_repliesRun.1 hm
    obtain ⟨a, b, he⟩ := List.append_of_mem hr
    have hg : UEv.asked u g ∈ (σ m).log := by rw [he]; exact List.mem_append_left _ (hi.just a _ b he).1
    obtain rfl := asked_unique hi' ha' (hmono.subset hg)
    exact ⟨m, t, hr⟩
  · obtain ⟨⟨u', g⟩, hd, rfl⟩ := List.mem_map.1 hm
    obtain rfl := asked_unique hi' ha' (hmono.subset (hi.due _ _ hd))
    obtain ⟨i, hi2⟩ := List.mem_iff_getElem?.1 hd
    obtain ⟨m', ds, -, h2, h3, h4⟩ := due_done hx hf _ i _ m hi2 rfl
    have hst := hx.next m'
    rw [h2] at hst
    obtain ⟨-, h5, -⟩ := user_reply hst h3 h4
    exact ⟨m' + 1, (σ m').cli.now, by rw [h5]; simp⟩

/-! ### C128: going on for ever -/

theorem user_send {env : ClientEnv} {prog : UserCode} {v w : Upr} {unit : UInt8} {req : AnyReq} {tmo f : Nat} {cs : List UCall}
    (h : v.step env prog .user = .ret w) (ht : v.todo = .send unit req tmo f :: cs) :
    w.log = v.log ++ [.asked v.cli.nextUid f, .ch (.call v.cli.nextUid unit req tmo)] := by
  simp only [Upr.step, ht, Upr.call] at h
  obtain ⟨ts, -, he⟩ := Cli.step_submit env v.cli unit req tmo
  rw [he] at h
  simp only [CM.ret_bind, CM.pure_eq] at h
  injection h with h; subst h
  simp

theorem user_start {env : ClientEnv} {prog : UserCode} {v w : Upr} {d f : Nat} {cs : List UCall} (h : v.step env prog .user = .ret w)
    (ht : v.todo = .start d f :: cs) : w.log = v.log ++ [.started v.nextK (v.cli.now + d) f v.cli.now] ∧ v.nextK ∈ w.armed.map (·.1) := by
  simp only [Upr.step, ht, Upr.call, Upr.startTimer] at h
  injection h with h; subst h
  simp

/-- The moment a response handler begins. -/
theorem reply_moment {env : ClientEnv} {prog : UserCode} {ops : Nat → Upr.Op} {σ : Nat → Upr} (hx : UExecution env prog ops σ) {u f : Nat}
    (h : ∃ m t, UEv.reply u f t ∈ (σ m).log) : ∃ m, (σ (m + 1)).log = (σ m).log ++ [.reply u f (σ m).cli.now] ∧ (σ (m + 1)).todo = prog f (σ (m + 1)).log := by
  obtain ⟨m, ⟨t, hm⟩, hmin⟩ := exists_least h
  cases m with
  | zero => rw [hx.start] at hm; cases hm
  | succ m =>
    have hno : UEv.reply u f t ∉ (σ m).log := fun h => hmin m (by omega) ⟨t, h⟩
    obtain ⟨new, hmv⟩ := hx.move m
    have hin : UEv.reply u f t ∈ new := by
      rw [hmv.log] at hm
      rcases List.mem_append.1 hm with h | h
      · exact absurd h hno
      · exact h
    generalize hw : σ (m + 1) = w at hmv
    have hmv' := hmv
    cases hmv with
    | reply ho ht hd =>
      simp only [List.mem_singleton, UEv.reply.injEq] at hin
      obtain ⟨rfl, rfl, rfl⟩ := hin
      exact ⟨m, by rw [hw], by rw [hw]⟩
    | ask => simp at hin
    | start => simp at hin
    | cancel => simp at hin
    | action => simp at hin
    | chan => simp at hin
    | _ => cases hin

/-- The moment a timer is started. -/
theorem start_moment {env : ClientEnv} {prog : UserCode} {ops : Nat → Upr.Op} {σ : Nat → Upr} (hx : UExecution env prog ops σ) {k d f t0 : Nat}
    (h : ∃ m, UEv.started k d f t0 ∈ (σ m).log) : ∃ m, UEv.started k d f t0 ∈ (σ m).log ∧ k ∈ (σ m).armed.map (·.1) := by
  obtain ⟨m, hm, hmin⟩ := exists_least h
  cases m with
  | zero => rw [hx.start] at hm; cases hm
  | succ m =>
    have hno : UEv.started k d f t0 ∉ (σ m).log := fun h => hmin m (by omega) h
    obtain ⟨new, hmv⟩ := hx.move m
    have hin : UEv.started k d f t0 ∈ new := by
      rw [hmv.log] at hm
      rcases List.mem_append.1 hm with h | h
      · exact absurd h hno
      · exact h
    refine ⟨m + 1, hm, ?_⟩
    generalize hw : σ (m + 1) = w at hmv
    cases hmv with
    | start =>
      simp only [List.mem_singleton, UEv.started.injEq] at hin
      obtain ⟨rfl, rfl, rfl, rfl⟩ := hin
      simp
    | ask => simp at hin
    | reply => simp at hin
    | cancel => simp at hin
    | action => simp at hin
    | chan => simp at hin
    | _ => cases hin

@[simp] theorem repliesMade_append (a b : List UEv) : repliesMade (a ++ b) = repliesMade a ++ repliesMade b := by simp [repliesMade]

theorem count_mono {p : Nat × Nat → Bool} {f : List UEv → List (Nat × Nat)} (hf : ∀ a b, f (a ++ b) = f a ++ f b) {a b : List UEv} (h : a <+: b) :
    (f a).countP p ≤ (f b).countP p := by
  obtain ⟨z, rfl⟩ := h
  rw [hf, List.countP_append]
  omega

/-- C128: polling written by the user goes on for ever: in every fair execution in which the channel is not shut down and the timers of function 0 are not
cancelled, once a timer for function 0 has been started any number of requests is made, and response handlers called. -/
theorem C128_polls_for_ever (env : ClientEnv) (prog : UserCode) (unit : UInt8) (req : AnyReq) (tmo period : Nat) (hp : PollLoop prog unit req tmo period)
    (ops : Nat → Upr.Op) (σ : Nat → Upr) (hx : UExecution env prog ops σ) (hf : UFair ops σ) (hs : ∀ n, UEv.ch .tcpShutdown ∉ (σ n).log)
    (hc : ∀ n k d t0 t, UEv.started k d 0 t0 ∈ (σ n).log → UEv.cancelled k t ∉ (σ n).log) (n k d t0 : Nat) (hk : UEv.started k d 0 t0 ∈ (σ n).log)
    (N : Nat) : ∃ m, N ≤ (requestsMade (σ m).log).countP (·.2 == 1) ∧ N ≤ (repliesMade (σ m).log).countP (·.2 == 1) := by
  have round : ∀ n k d t0, UEv.started k d 0 t0 ∈ (σ n).log → k ∈ (σ n).armed.map (·.1) → ∃ m k' d' t0', UEv.started k' d' 0 t0' ∈ (σ m).log ∧
      k' ∈ (σ m).armed.map (·.1) ∧ (requestsMade (σ n).log).countP (·.2 == 1) + 1 ≤ (requestsMade (σ m).log).countP (·.2 == 1) ∧
      (repliesMade (σ n).log).countP (·.2 == 1) + 1 ≤ (repliesMade (σ m).log).countP (·.2 == 1) := by
    intro n k d t0 hk ha
    have hcan : ∀ m t, UEv.cancelled k t ∉ (σ m).log := by
      intro m t hm
      exact hc (n + m) k d t0 t ((hx.log_mono (Nat.le_add_right n m)).subset hk) ((hx.log_mono (Nat.le_add_left m n)).subset hm)
    obtain ⟨m1, f, a1, a2, a3, a4⟩ := armed_runs hx hf (.inl ha) hcan
    have hf0 : f = 0 := by
      obtain ⟨d', t', h4, -⟩ := (hx.reach m1).inv.timers.fired k f a4
      exact (startedUnique (hx.reach m1).inv.timers.started h4 ((hx.log_mono a1).subset hk)).2.1
    subst hf0
    obtain ⟨pre, post, b1, -⟩ := hp.poll (σ (m1 + 1)).log
    obtain ⟨m2, c1, c2, c3⟩ := todo_done hx hf _ _ pre (m1 + 1) (a3.trans b1)
    have hst := hx.next m2
    rw [c2] at hst
    have hl2 := user_send hst c3
    have hask : UEv.asked (σ m2).cli.nextUid 1 ∈ (σ (m2 + 1)).log := by rw [hl2]; simp
    obtain ⟨m3, e1, e2⟩ := reply_moment hx (C129_answered env prog ops σ hx hf hs (m2 + 1) _ 1 hask)
    have hm3 : m2 < m3 + 1 := by
      by_contra hlt
      have hin : UEv.reply (σ m2).cli.nextUid 1 (σ m3).cli.now ∈ (σ m2).log :=
        (hx.log_mono (show m3 + 1 ≤ m2 by omega)).subset (by rw [e1]; simp)
      obtain ⟨a, b, he⟩ := List.append_of_mem hin
      have hi := (hx.reach m2).inv
      have hin2 := (hi.just a _ b he).1
      have : (σ m2).cli.nextUid ∈ (requestsMade (σ m2).log).map (·.1) :=
        List.mem_map.2 ⟨(_, 1), mem_requestsMade.2 (by rw [he]; exact List.mem_append_left _ hin2), rfl⟩
      rw [hi.uids] at this
      exact absurd (List.mem_range.1 this) (by omega)
    obtain ⟨pre', post', g1, -⟩ := hp.again (σ (m3 + 1)).log
    obtain ⟨m4, i1, i2, i3⟩ := todo_done hx hf _ _ pre' (m3 + 1) (e2.trans g1)
    have hst4 := hx.next m4
    rw [i2] at hst4
    obtain ⟨j1, j2⟩ := user_start hst4 i3
    refine ⟨m4 + 1, (σ m4).nextK, (σ m4).cli.now + period, (σ m4).cli.now, by rw [j1]; simp, j2, ?_, ?_⟩
    · have q1 := count_mono (p := (·.2 == 1)) requestsMade_append (hx.log_mono (show n ≤ m2 by omega))
      have q2 := count_mono (p := (·.2 == 1)) requestsMade_append (hx.log_mono (show m2 + 1 ≤ m4 + 1 by omega))
      rw [hl2, requestsMade_append, List.countP_append] at q2
      have q3 : (requestsMade [UEv.asked (σ m2).cli.nextUid 1, .ch (.call (σ m2).cli.nextUid unit req tmo)]).countP (·.2 == 1) = 1 := rfl
      omega
    · have q1 := count_mono (p := (·.2 == 1)) repliesMade_append (hx.log_mono (show n ≤ m3 by omega))
      have q2 := count_mono (p := (·.2 == 1)) repliesMade_append (hx.log_mono (show m3 + 1 ≤ m4 + 1 by omega))
      rw [e1, repliesMade_append, List.countP_append] at q2
      have q3 : (repliesMade [UEv.reply (σ m2).cli.nextUid 1 (σ m3).cli.now]).countP (·.2 == 1) = 1 := rfl
      omega
  obtain ⟨m0, h0, h1⟩ := start_moment hx ⟨n, hk⟩
  have all : ∀ N, ∃ m k d t0, UEv.started k d 0 t0 ∈ (σ m).log ∧ k ∈ (σ m).armed.map (·.1) ∧ N ≤ (requestsMade (σ m).log).countP (·.2 == 1) ∧
      N ≤ (repliesMade (σ m).log).countP (·.2 == 1) := by
    intro N
    induction N with
    | zero => exact ⟨m0, k, d, t0, h0, h1, by omega, by omega⟩
    | succ N ih =>
      obtain ⟨m, k, d, t0, a, b, c, e⟩ := ih
      obtain ⟨m', k', d', t0', a', b', c', e'⟩ := round m k d t0 a b
      exact ⟨m', k', d', t0', a', b', by omega, by omega⟩
  obtain ⟨m, -, -, -, -, -, h2, h3⟩ := all N
  exact ⟨m, h2, h3⟩

end Modbus.Props
