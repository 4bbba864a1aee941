import Verif.Spec.Rest
import Verif.Lemmas.PollingTime

/-! After the channel's shutdown everything comes to rest. -/

namespace Modbus

open Spec

/-! A measure of the work left. -/

def PTask.weight : PTask → Nat := fun _ => 1

def SessTask.weight : SessTask → Nat
  | .register _ => 2
  | _ => 1

def CTask.weight : CTask → Nat
  | .malformed _ => 3
  | _ => 1

def Poll.weight (q : Poll) : Nat := 2 * q.armed.length + q.fired.length

def Sess.weight (v : Sess) : Nat := (v.tasks.map SessTask.weight).sum + v.registered.length + (v.polls.map Poll.weight).sum

def Cli.weight (v : Cli) : Nat := (v.tasks.map CTask.weight).sum + 2 * v.armed.length + v.fired.length

def Pcl.weight (v : Pcl) : Nat := v.cli.weight + (v.sess.map fun p => p.sess.weight).sum

/-- What is left. -/
def Sess.work (v : Sess) : List SessTask × List (List (Nat × Nat) × List Nat) := (v.tasks, v.polls.map fun q => (q.armed, q.fired))

def Cli.work (v : Cli) : List CTask × List (Nat × Nat) × List Nat := (v.tasks, v.armed, v.fired)

def Pcl.work (v : Pcl) : (List CTask × List (Nat × Nat) × List Nat) × List (List SessTask × List (List (Nat × Nat) × List Nat)) :=
  (v.cli.work, v.sess.map fun p => p.sess.work)

theorem sum_set {l : List Nat} {i x y : Nat} (h : l[i]? = some x) : (l.set i y).sum + x = l.sum + y := by
  induction l generalizing i with
  | nil => simp at h
  | cons a l ih =>
    cases i with
    | zero => simp at h; subst h; simp; omega
    | succ i =>
      simp only [List.getElem?_cons_succ] at h
      have := ih h
      simp only [List.set_cons_succ, List.sum_cons]
      omega

theorem filter_shorter {α : Type} {l : List α} {p : α → Bool} {x : α} (hx : x ∈ l) (hp : p x = false) : (l.filter p).length < l.length := by
  have h1 : (l.filter p).length ≤ l.length := List.length_filter_le _ _
  rcases Nat.lt_or_ge (l.filter p).length l.length with h2 | h2
  · exact h2
  · have h3 := List.length_filter_eq_length_iff.1 (Nat.le_antisymm h1 h2) x hx
    rw [hp] at h3; cases h3

namespace Poll

theorem weight_cancelTimer (q : Poll) : q.cancelTimer.weight ≤ q.weight := by
  unfold cancelTimer
  split
  · exact Nat.le_refl _
  · simp only [weight]
    have := List.length_filter_le (fun x => decide (x.1 ≠ ‹Nat›)) q.armed
    omega

theorem weight_runTask (q : Poll) (t : PTask) : (q.runTask t).weight ≤ q.weight := by
  cases t with
  | start => cases hr : q.running <;> simp [runTask, hr, execute, emit, weight]
  | stop =>
    cases hr : q.running
    · simp [runTask, hr, emit, weight]
    · simp only [runTask, hr, if_true]
      exact Nat.le_trans (weight_cancelTimer _) (by simp [emit, weight])
  | setFrequency f => simp [runTask, emit, weight]

theorem weight_respond (q : Poll) (id : Nat) : (q.step (.respond id)).weight ≤ q.weight + 2 := by
  simp only [step]
  split
  · cases hr : q.running <;> simp [onResponse, hr, emit, weight]; omega
  · omega

theorem weight_expire (q : Poll) (t : Nat) :
    match q.armed.lookup t with
    | some d => if d ≤ q.now then (q.step (.expire t)).weight < q.weight else q.step (.expire t) = q
    | none => q.step (.expire t) = q := by
  cases hl : q.armed.lookup t with
  | none => simp [step, hl]
  | some d =>
    simp only
    split
    · rename_i hd
      simp only [step, hl, hd, if_true, weight, List.length_append, List.length_singleton]
      have := filter_shorter (p := fun x : Nat × Nat => decide (x.1 ≠ t)) (Cli.lookup_mem hl) (by simp)
      omega
    · rename_i hd
      simp [step, hl, hd]

theorem weight_runTimer (q : Poll) (t : Nat) : if t ∈ q.fired then (q.step (.runTimer t)).weight < q.weight else q.step (.runTimer t) = q := by
  split
  · rename_i h
    simp only [step, h, if_true, weight, execute, emit]
    have := filter_shorter (p := fun x => decide (x ≠ t)) h (by simp)
    omega
  · rename_i h; simp [step, h]

end Poll

namespace Sess

theorem onPoll_none {v : Sess} {i : Nat} (h : v.polls[i]? = none) (f : Poll → Poll) : v.onPoll i f = v := by
  simp [onPoll, h]

theorem onPoll_same {v : Sess} {i : Nat} {q : Poll} (h : v.polls[i]? = some q) {f : Poll → Poll} (hf : f q = q) : v.onPoll i f = v := by
  have hs : v.polls.set i q = v.polls := by
    apply List.ext_getElem?
    intro j
    by_cases hj : i = j
    · subst hj; rw [List.getElem?_set_self (List.getElem?_eq_some_iff.1 h).1, h]
    · rw [List.getElem?_set_ne hj]
  simp [onPoll, h, hf, emit, hs]

theorem weight_onPoll {v : Sess} {i : Nat} {q : Poll} (h : v.polls[i]? = some q) (f : Poll → Poll) :
    (v.onPoll i f).weight + q.weight = v.weight + (f q).weight := by
  have h1 : (v.polls.map Poll.weight)[i]? = some q.weight := by simp [h]
  have h2 := sum_set (y := (f q).weight) h1
  simp only [onPoll, h, emit, weight, List.map_set]
  omega

theorem weight_onPoll_le {v : Sess} (i : Nat) (f : Poll → Poll) (c : Nat) (hf : ∀ q, (f q).weight ≤ q.weight + c) : (v.onPoll i f).weight ≤ v.weight + c := by
  cases h : v.polls[i]? with
  | none => rw [onPoll_none h]; omega
  | some q =>
    have := weight_onPoll h f
    have := hf q
    omega

theorem weight_runTask (v : Sess) (t : SessTask) : (v.runTask t).weight < v.weight + t.weight := by
  cases t with
  | send id => simp [runTask, emit, weight, SessTask.weight]
  | poll i t =>
    have := weight_onPoll_le (v := v) i (fun p => p.runTask t) 0 (fun q => Poll.weight_runTask q t)
    simp only [runTask, SessTask.weight]
    omega
  | register i => simp [runTask, weight, SessTask.weight]; omega
  | shutdown =>
    have h1 : (List.map SessTask.weight (List.map (fun i => SessTask.poll i .stop) v.registered)).sum = v.registered.length := by
      rw [List.map_map]
      induction v.registered with
      | nil => rfl
      | cons a l ih =>
        simp only [List.map_cons, List.sum_cons, ih, List.length_cons, Function.comp, SessTask.weight]; omega
    simp only [runTask, emit, weight, SessTask.weight, List.map_append, List.sum_append, h1, List.length_nil]
    omega

/-- A step the executor makes for a session. -/
theorem weight_own (v : Sess) (op : Op) (ho : Pcl.ownSess op = true) :
    match op with
    | .runTask => if v.tasks = [] then v.step op = v else (v.step op).weight < v.weight
    | .expire i t => match v.polls[i]? with
      | some q => match q.armed.lookup t with
        | some d => if d ≤ q.now then (v.step op).weight < v.weight else v.step op = v
        | none => v.step op = v
      | none => v.step op = v
    | .runTimer i t => match v.polls[i]? with
      | some q => if t ∈ q.fired then (v.step op).weight < v.weight else v.step op = v
      | none => v.step op = v
    | _ => True := by
  cases op with
  | runTask =>
    simp only
    cases ht : v.tasks with
    | nil => simp [step, ht]
    | cons t ts =>
      rw [if_neg (by simp)]
      have := weight_runTask { v with tasks := ts } t
      have hw : v.weight = ({ v with tasks := ts } : Sess).weight + t.weight := by simp only [weight, ht, List.map_cons, List.sum_cons]; omega
      simp only [step, ht]
      omega
  | expire i t =>
    simp only
    cases hq : v.polls[i]? with
    | none => simp only; exact onPoll_none hq _
    | some q =>
      have h1 := Poll.weight_expire q t
      simp only
      cases hl : q.armed.lookup t with
      | none => rw [hl] at h1; exact onPoll_same hq h1
      | some d =>
        rw [hl] at h1
        simp only at h1 ⊢
        split
        · rename_i hd
          rw [if_pos hd] at h1
          have := weight_onPoll hq (fun p => p.step (.expire t))
          simp only [step]; omega
        · rename_i hd
          rw [if_neg hd] at h1
          exact onPoll_same hq h1
  | runTimer i t =>
    simp only
    cases hq : v.polls[i]? with
    | none => simp only; exact onPoll_none hq _
    | some q =>
      have h1 := Poll.weight_runTimer q t
      simp only
      split
      · rename_i hd
        rw [if_pos hd] at h1
        have := weight_onPoll hq (fun p => p.step (.runTimer t))
        simp only [step]; omega
      · rename_i hd
        rw [if_neg hd] at h1
        exact onPoll_same hq h1
  | _ => cases ho

theorem weight_respond (v : Sess) (i id : Nat) : (v.step (.respond i id)).weight ≤ v.weight + 2 :=
  weight_onPoll_le i _ 2 fun q => Poll.weight_respond q id

theorem tick_work (v : Sess) (n : Nat) : (v.step (.tick n)).work = v.work ∧ (v.step (.tick n)).weight = v.weight := by
  constructor
  · simp only [step, work, List.map_map]
    congr 1
  · simp only [step, weight, List.map_map]
    congr 1

end Sess

/-! Steps after the shutdown. -/

namespace Pcl

theorem submit_down {env : ClientEnv} {v w : Pcl} (hd : v.cli.isShutdown = true) {unit : UInt8} {q : AnyReq} {tmo : Nat} (h : v.submit env unit q tmo = .ret w) :
    w.cli.isShutdown = true ∧ w.cli.work = v.cli.work ∧ w.cli.weight = v.cli.weight ∧ w.sess = v.sess ∧ w.cli.sessions = v.cli.sessions := by
  simp only [submit, Cli.step, Cli.emit, hd, if_true, CM.ret_bind, CM.pure_eq] at h
  injection h with h; subst h
  exact ⟨rfl, rfl, rfl, rfl, rfl⟩

theorem fromSess1_down {env : ClientEnv} {v w : Pcl} (hd : v.cli.isShutdown = true) {s : Nat} {e : SessEv} (h : v.fromSess1 env s e = .ret w) :
    w.cli.isShutdown = true ∧ w.cli.work = v.cli.work ∧ w.cli.weight = v.cli.weight ∧ w.sess = v.sess ∧ w.cli.sessions = v.cli.sessions := by
  have hsame : ∀ {u : Pcl}, (.ret { v with log := v.log ++ [.sess s e] } : CM Pcl) = .ret u → u.cli.isShutdown = true ∧ u.cli.work = v.cli.work ∧
      u.cli.weight = v.cli.weight ∧ u.sess = v.sess ∧ u.cli.sessions = v.cli.sessions := by
    intro u hu; injection hu with hu; subst hu; exact ⟨hd, rfl, rfl, rfl, rfl⟩
  cases e with
  | poll i e =>
    cases e with
    | sent id t =>
      simp only [fromSess1] at h
      cases hp : v.sess[s]? with
      | none => rw [hp] at h; exact hsame h
      | some p =>
        rw [hp] at h
        simp only at h
        cases hr : p.reqs[i]? with
        | none => rw [hr] at h; exact hsame h
        | some r =>
          rw [hr] at h
          simp only at h
          obtain ⟨h1, h2, h3, h4, h5⟩ := submit_down (v := { v with log := v.log ++ [.sess s (.poll i (.sent id t))], owner := v.owner ++ [(v.cli.nextUid, s, i, id)] }) hd h
          exact ⟨h1, h2, h3, h4, h5⟩
    | _ => exact hsame h
  | _ => exact hsame h

theorem fromSess_down {env : ClientEnv} {s : Nat} (es : List SessEv) : ∀ {v w : Pcl}, v.cli.isShutdown = true → v.fromSess env s es = .ret w →
    w.cli.isShutdown = true ∧ w.cli.work = v.cli.work ∧ w.cli.weight = v.cli.weight ∧ w.sess = v.sess ∧ w.cli.sessions = v.cli.sessions := by
  induction es with
  | nil => intro v w hd h; injection h with h; subst h; exact ⟨hd, rfl, rfl, rfl, rfl⟩
  | cons e es ih =>
    intro v w hd h
    simp only [fromSess] at h
    cases h1 : v.fromSess1 env s e with
    | ub => rw [h1] at h; cases h
    | ret u =>
      rw [h1, CM.ret_bind] at h
      obtain ⟨a1, a2, a3, a4, a5⟩ := fromSess1_down hd h1
      obtain ⟨b1, b2, b3, b4, b5⟩ := ih a1 h
      exact ⟨b1, b2.trans a2, b3.trans a3, b4.trans a4, b5.trans a5⟩

theorem sessStep_down {env : ClientEnv} {v w : Pcl} (hd : v.cli.isShutdown = true) {s : Nat} {op : Sess.Op} (h : v.sessStep env s op = .ret w) :
    w.cli.isShutdown = true ∧ w.cli.work = v.cli.work ∧ w.cli.weight = v.cli.weight ∧ w.cli.sessions = v.cli.sessions ∧
    w.sess = (match v.sess[s]? with
      | none => v.sess
      | some p => v.sess.set s { p with sess := p.sess.step op }) := by
  simp only [sessStep] at h
  cases hp : v.sess[s]? with
  | none => rw [hp] at h; injection h with h; subst h; exact ⟨hd, rfl, rfl, rfl, rfl⟩
  | some p =>
    rw [hp] at h
    simp only at h ⊢
    obtain ⟨b1, b2, b3, b4, b5⟩ := fromSess_down _ (v := { v with sess := v.sess.set s { p with sess := p.sess.step op } }) hd h
    exact ⟨b1, b2, b3, b5, b4⟩

theorem sess_same {l : List PSess} {s : Nat} {p : PSess} (hp : l[s]? = some p) {q : Sess} (hq : q = p.sess) : l.set s { p with sess := q } = l := by
  subst hq
  apply List.ext_getElem?
  intro j
  by_cases hj : s = j
  · subst hj; rw [List.getElem?_set_self (List.getElem?_eq_some_iff.1 hp).1, hp]
  · rw [List.getElem?_set_ne hj]

theorem sess_weight {l : List PSess} {s : Nat} {p : PSess} (hp : l[s]? = some p) (q : Sess) :
    ((l.set s { p with sess := q }).map fun p => p.sess.weight).sum + p.sess.weight = (l.map fun p => p.sess.weight).sum + q.weight := by
  have h1 : (l.map fun p => p.sess.weight)[s]? = some p.sess.weight := by simp [hp]
  have h2 := sum_set (y := q.weight) h1
  rw [List.map_set]
  exact h2

/-- The result of a request is given to a scheduled request. -/
theorem fromChan1_down {env : ClientEnv} {v w : Pcl} (hd : v.cli.isShutdown = true) {e : CEv} (he : ∀ s, e ≠ .sessionShutdown s)
    (h : v.fromChan1 env e = .ret w) : w.cli.isShutdown = true ∧ w.cli.work = v.cli.work ∧ w.cli.sessions = v.cli.sessions ∧
    ((∀ u x t, e ≠ .handler u x t) → w.sess = v.sess ∧ w.weight = v.weight) ∧ w.weight ≤ v.weight + 2 := by
  have hsame : ∀ {u : Pcl}, (.ret { v with log := v.log ++ [.ch e] } : CM Pcl) = .ret u → u.cli.isShutdown = true ∧ u.cli.work = v.cli.work ∧
      u.cli.sessions = v.cli.sessions ∧ ((∀ u x t, e ≠ .handler u x t) → u.sess = v.sess ∧ u.weight = v.weight) ∧ u.weight ≤ v.weight + 2 := by
    intro u hu; injection hu with hu; subst hu
    exact ⟨hd, rfl, rfl, fun _ => ⟨rfl, rfl⟩, Nat.le_add_right _ _⟩
  cases e with
  | handler uid x t =>
    simp only [fromChan1] at h
    cases ho : v.owner.lookup uid with
    | none => rw [ho] at h; exact hsame h
    | some o =>
      rw [ho] at h
      obtain ⟨s, i, id⟩ := o
      simp only at h
      obtain ⟨b1, b2, b3, b4, b5⟩ := sessStep_down (v := { v with log := v.log ++ [.ch (.handler uid x t)] }) hd h
      refine ⟨b1, b2, b4, fun hn => absurd rfl (hn uid x t), ?_⟩
      simp only at b5
      have b3' : w.cli.weight = v.cli.weight := b3
      cases hp : v.sess[s]? with
      | none =>
        rw [hp] at b5
        simp only [weight, b3', b5]; omega
      | some p =>
        rw [hp] at b5
        have := sess_weight hp (p.sess.step (.respond i id))
        have := Sess.weight_respond p.sess i id
        simp only [weight, b3', b5]; omega
  | sessionShutdown s => exact absurd rfl (he s)
  | _ => exact hsame h

end Pcl

namespace Cli

theorem cancelTimer_work (v : Cli) : v.cancelTimer.tasks = v.tasks ∧ v.cancelTimer.fired = v.fired ∧ v.cancelTimer.armed.length ≤ v.armed.length ∧
    v.cancelTimer.isShutdown = v.isShutdown ∧ v.cancelTimer.sessions = v.sessions ∧ v.cancelTimer.log = v.log := by
  unfold cancelTimer
  split
  · exact ⟨rfl, rfl, Nat.le_refl _, rfl, rfl, rfl⟩
  · exact ⟨rfl, rfl, List.length_filter_le _ _, rfl, rfl, rfl⟩

/-- A step of the channel after its shutdown: what it does to the queues, and its effects. -/
theorem step_down {env : ClientEnv} {v c : Cli} (hd : v.isShutdown = true) (hs : v.sessions = []) {op : Op} (ho : Pcl.ownChan op = true) (hnu : op ≠ .shutdown)
    (h : v.step env op = .ret c) : c.isShutdown = true ∧ c.sessions = [] ∧ ∃ es, c.log = v.log ++ es ∧
    (match op with
      | .runTask => if v.tasks = [] then c = v ∧ es = [] else (c.weight < v.weight ∧ (es = [] ∨ es = [.tcpShutdown])) ∨
          (c.weight + 3 ≤ v.weight ∧ ∃ u t, es = [.handler u (.error .malformedRequest) t])
      | .expire t => match v.armed.lookup t with
        | some d => if d ≤ v.now then c.weight < v.weight ∧ es = [] else c = v ∧ es = []
        | none => c = v ∧ es = []
      | .runTimer t => if t ∈ v.fired then c.weight < v.weight ∧ es = [] else c = v ∧ es = []
      | _ => c.work = v.work ∧ c.weight = v.weight ∧ (es = [.connError] ∨ ∃ d, es = [.data d])) := by
  cases op with
  | submit _ _ _ => cases ho
  | shutdown => exact absurd rfl hnu
  | createSession => cases ho
  | tick n => cases ho
  | receive data =>
    simp only [step, onReceive, emit, hd, if_true] at h
    injection h with h; subst h
    exact ⟨rfl, hs, _, rfl, rfl, rfl, .inr ⟨data, rfl⟩⟩
  | error =>
    simp only [step, onError, emit, hd, if_true] at h
    injection h with h; subst h
    exact ⟨rfl, hs, _, rfl, rfl, rfl, .inl rfl⟩
  | expire t =>
    simp only [step] at h
    cases hl : v.armed.lookup t with
    | none => rw [hl] at h; injection h with h; subst h; exact ⟨hd, hs, [], by simp, by simp [hl]⟩
    | some d =>
      rw [hl] at h
      simp only at h ⊢
      split at h
      · rename_i hdl
        injection h with h; subst h
        refine ⟨hd, hs, [], by simp, ?_⟩
        simp only [hl]
        rw [if_pos hdl]
        have := filter_shorter (p := fun x : Nat × Nat => decide (x.1 ≠ t)) (Cli.lookup_mem hl) (by simp)
        refine ⟨?_, trivial⟩
        simp only [weight, List.length_append, List.length_singleton]
        omega
      · rename_i hdl
        injection h with h; subst h
        exact ⟨hd, hs, [], by simp, by simp only [hl]; rw [if_neg hdl]; exact ⟨trivial, trivial⟩⟩
  | runTimer t =>
    simp only [step] at h
    split at h
    · rename_i ht
      simp only [onTimer, hd, if_true] at h
      injection h with h; subst h
      refine ⟨rfl, hs, [], by simp, ?_⟩
      simp only
      rw [if_pos ht]
      have := filter_shorter (p := fun x => decide (x ≠ t)) ht (by simp)
      refine ⟨?_, trivial⟩
      simp only [weight]
      omega
    · rename_i ht
      injection h with h; subst h
      exact ⟨hd, hs, [], by simp, by simp only; rw [if_neg ht]; exact ⟨trivial, trivial⟩⟩
  | runTask =>
    simp only [step] at h
    cases ht : v.tasks with
    | nil => rw [ht] at h; injection h with h; subst h; exact ⟨hd, hs, [], by simp, by simp⟩
    | cons t ts =>
      rw [ht] at h
      simp only at h
      injection h with h
      cases t with
      | request uid unit q tmo =>
        simp only [runTask, hd, if_true] at h
        subst h
        refine ⟨rfl, hs, [], by simp, ?_⟩
        simp only
        rw [if_neg (by simp)]
        exact .inl ⟨by simp [weight, ht, CTask.weight], .inl trivial⟩
      | malformed uid =>
        simp only [runTask, emit] at h
        subst h
        refine ⟨hd, hs, _, rfl, ?_⟩
        simp only
        rw [if_neg (by simp)]
        exact .inr ⟨by simp only [weight, ht, CTask.weight, List.map_cons, List.sum_cons]; omega, uid, v.now, rfl⟩
      | shutdown =>
        subst h
        simp only [runTask]
        generalize hx : ({ v with
          tasks := ts, isShutdown := true, log := v.log ++ v.sessions.map CEv.sessionShutdown, sessions := [], pending := [], current := none } : Cli) = x
        obtain ⟨c1, c2, c3, c4, c5, c6⟩ := cancelTimer_work x
        refine ⟨by simp only [emit, c4]; rw [← hx], by simp only [emit, c5]; rw [← hx], [.tcpShutdown], by simp only [emit, c6]; rw [← hx]; simp [hs], ?_⟩
        rw [if_neg (by simp)]
        refine .inl ⟨?_, .inr rfl⟩
        simp only [weight, emit, c1, c2, ht, List.map_cons, List.sum_cons, CTask.weight]
        have h1 : x.tasks = ts := by rw [← hx]
        have h2 : x.fired = v.fired := by rw [← hx]
        have h3 : x.armed = v.armed := by rw [← hx]
        rw [h3] at c3
        rw [h1, h2]
        omega

end Cli

namespace Pcl

theorem chanStep_eq {env : ClientEnv} {v w : Pcl} {op : Cli.Op} {c : Cli} {es : List CEv} (hc : v.cli.step env op = .ret c) (hl : c.log = v.cli.log ++ es)
    (h : v.chanStep env op = .ret w) : ({ v with cli := c } : Pcl).fromChan env es = .ret w := by
  simp only [chanStep, hc, CM.ret_bind, hl, List.drop_left'] at h
  exact h

/-- A step of the executor after the shutdown leaves less to do, or exactly as much when there was nothing to do. -/
theorem step_down {env : ClientEnv} {v w : Pcl} (hd : v.cli.isShutdown = true) (hs : v.cli.sessions = []) {op : Op} (ho : byUser op = false)
    (h : v.step env op = .ret w) : w.cli.isShutdown = true ∧ w.cli.sessions = [] ∧
    (if atWork v op then w.weight < v.weight else w.work = v.work ∧ w.weight = v.weight) := by
  cases op with
  | createSession _ => cases ho
  | send _ _ _ => cases ho
  | schedule _ _ _ _ => cases ho
  | api _ _ => cases ho
  | tick n =>
    simp only [step] at h
    cases hc : v.chanStep env (.tick n) with
    | ub => rw [hc] at h; cases h
    | ret u =>
      rw [hc, CM.ret_bind, CM.pure_eq] at h
      injection h with h; subst h
      simp only [chanStep, Cli.step, CM.ret_bind, List.drop_length, fromChan] at hc
      injection hc with hc; subst hc
      refine ⟨hd, hs, ?_⟩
      simp only [atWork, Bool.false_eq_true, if_false]
      constructor
      · simp only [work, List.map_map]
        congr 1
        exact List.map_congr_left fun p _ => (Sess.tick_work p.sess n).1
      · simp only [weight, List.map_map]
        congr 1
        congr 1
        exact List.map_congr_left fun p _ => (Sess.tick_work p.sess n).2
  | sess s op =>
    simp only [step] at h
    split at h
    · rename_i hown
      obtain ⟨b1, b2, b3, b4, b5⟩ := sessStep_down hd h
      refine ⟨b1, b4.trans hs, ?_⟩
      have hw : ∀ {b : Bool}, b = atWork v (.sess s op) → (∀ p, v.sess[s]? = some p → if b then (p.sess.step op).weight < p.sess.weight else p.sess.step op = p.sess) →
          (v.sess[s]? = none → b = false) → if atWork v (.sess s op) then w.weight < v.weight else w.work = v.work ∧ w.weight = v.weight := by
        intro b hb h1 h2
        rw [← hb]
        cases hp : v.sess[s]? with
        | none =>
          rw [hp] at b5
          rw [h2 hp]
          simp only [Bool.false_eq_true, if_false, work, weight, b2, b3, b5]
          exact ⟨trivial, trivial⟩
        | some p =>
          rw [hp] at b5
          simp only at b5
          have h3 := h1 p hp
          cases b with
          | true =>
            simp only [if_true] at h3 ⊢
            have := sess_weight hp (p.sess.step op)
            simp only [weight, b3, b5]; omega
          | false =>
            simp only [Bool.false_eq_true, if_false] at h3 ⊢
            rw [sess_same hp h3] at b5
            simp only [work, weight, b2, b3, b5]
            exact ⟨trivial, trivial⟩
      refine hw rfl (fun p hp => ?_) fun hp => ?_
      · have h1 := Sess.weight_own p.sess op hown
        cases op with
        | runTask =>
          simp only [atWork, hp]
          simp only at h1
          cases ht : p.sess.tasks with
          | nil => rw [ht] at h1; simpa using h1
          | cons t ts => rw [ht] at h1; simpa using h1
        | expire i t =>
          simp only [atWork, hp, Option.bind_some]
          simp only at h1
          cases hq : p.sess.polls[i]? with
          | none => rw [hq] at h1; simpa using h1
          | some q =>
            rw [hq] at h1
            simp only at h1 ⊢
            split at h1
            · rename_i d hl; simpa [hl] using h1
            · rename_i hl; simpa [hl] using h1
        | runTimer i t =>
          simp only [atWork, hp, Option.bind_some]
          simp only at h1
          cases hq : p.sess.polls[i]? with
          | none => rw [hq] at h1; simpa using h1
          | some q => rw [hq] at h1; simpa using h1
        | _ => cases hown
      · cases op with
        | runTask => simp [atWork, hp]
        | expire i t => simp [atWork, hp]
        | runTimer i t => simp [atWork, hp]
        | _ => cases hown
    · rename_i hown
      injection h with h; subst h
      refine ⟨hd, hs, ?_⟩
      have : atWork v (.sess s op) = false := by
        cases op <;> first | rfl | exact absurd rfl hown
      rw [this]
      exact ⟨rfl, rfl⟩
  | chan op =>
    simp only [step] at h
    split at h
    · rename_i hown
      have hnu : op ≠ .shutdown := by intro he; subst he; cases ho
      cases hc : v.cli.step env op with
      | ub => simp [chanStep, hc] at h
      | ret c =>
        obtain ⟨c1, c2, es, hl, hm⟩ := Cli.step_down hd hs hown hnu hc
        have hf := chanStep_eq hc hl h
        have hone : ∀ e : CEv, es = [e] → (∀ s, e ≠ .sessionShutdown s) → w.cli.isShutdown = true ∧ w.cli.sessions = [] ∧ w.cli.work = c.work ∧
            ((∀ u x t, e ≠ .handler u x t) → w.sess = v.sess ∧ w.weight + v.cli.weight = v.weight + c.weight) ∧ w.weight + v.cli.weight ≤ v.weight + c.weight + 2 := by
          intro e he hne
          rw [he] at hf
          simp only [fromChan] at hf
          cases h1 : ({ v with cli := c } : Pcl).fromChan1 env e with
          | ub => rw [h1] at hf; cases hf
          | ret u =>
            rw [h1, CM.ret_bind] at hf
            injection hf with hf; subst hf
            obtain ⟨d1, d2, d3, d4, d5⟩ := fromChan1_down (v := { v with cli := c }) c1 hne h1
            refine ⟨d1, d3.trans c2, d2, fun hn => ?_, ?_⟩
            · obtain ⟨e1, e2⟩ := d4 hn
              refine ⟨e1, ?_⟩
              rw [e2]; simp only [weight]; omega
            · simp only [weight] at d5 ⊢; omega
        have hnil : es = [] → w = { v with cli := c } := by
          intro he; rw [he] at hf; injection hf with hf; exact hf.symm
        have hlow : c.weight < v.cli.weight → es = [] → w.cli.isShutdown = true ∧ w.cli.sessions = [] ∧ w.weight < v.weight := by
          intro h1 h2
          rw [hnil h2]
          exact ⟨c1, c2, by simp only [weight]; omega⟩
        have hsame : c = v.cli → es = [] → w.cli.isShutdown = true ∧ w.cli.sessions = [] ∧ w.work = v.work ∧ w.weight = v.weight := by
          intro h1 h2
          rw [hnil h2]
          subst h1
          exact ⟨c1, c2, rfl, rfl⟩
        cases op with
        | submit _ _ _ => cases hown
        | shutdown => exact absurd rfl hnu
        | createSession => cases hown
        | tick n => cases hown
        | runTask =>
          simp only at hm
          by_cases ht : v.cli.tasks = []
          · rw [if_pos ht] at hm
            simpa [atWork, ht] using hsame hm.1 hm.2
          · rw [if_neg ht] at hm
            have hw : atWork v (.chan .runTask) = true := by simpa [atWork] using ht
            rw [hw, if_pos rfl]
            rcases hm with ⟨h1, h2 | h2⟩ | ⟨h1, u, t, h2⟩
            · exact hlow h1 h2
            · obtain ⟨d1, d2, -, d4, -⟩ := hone _ h2 (by simp)
              have := (d4 (by simp)).2
              exact ⟨d1, d2, by omega⟩
            · obtain ⟨d1, d2, -, -, d5⟩ := hone _ h2 (by simp)
              exact ⟨d1, d2, by omega⟩
        | expire t =>
          simp only at hm
          cases hlk : v.cli.armed.lookup t with
          | none =>
            rw [hlk] at hm
            simpa [atWork, hlk] using hsame hm.1 hm.2
          | some d =>
            rw [hlk] at hm
            simp only at hm
            by_cases hdl : d ≤ v.cli.now
            · rw [if_pos hdl] at hm
              simpa [atWork, hlk, hdl] using hlow hm.1 hm.2
            · rw [if_neg hdl] at hm
              simpa [atWork, hlk, hdl] using hsame hm.1 hm.2
        | runTimer t =>
          simp only at hm
          by_cases ht : t ∈ v.cli.fired
          · rw [if_pos ht] at hm
            simpa [atWork, ht] using hlow hm.1 hm.2
          · rw [if_neg ht] at hm
            simpa [atWork, ht] using hsame hm.1 hm.2
        | receive d =>
          obtain ⟨h1, h2, h3⟩ := hm
          obtain ⟨e, he, hx⟩ : ∃ e, es = [e] ∧ (e = .connError ∨ ∃ d, e = .data d) := by
            rcases h3 with h3 | ⟨d, h3⟩
            · exact ⟨_, h3, .inl rfl⟩
            · exact ⟨_, h3, .inr ⟨d, rfl⟩⟩
          obtain ⟨d1, d2, d3, d4, -⟩ := hone e he (by rcases hx with rfl | ⟨d, rfl⟩ <;> simp)
          have h4 := d4 (by rcases hx with rfl | ⟨d, rfl⟩ <;> simp)
          refine ⟨d1, d2, ?_⟩
          simp only [atWork, Bool.false_eq_true, if_false]
          refine ⟨by simp only [work, d3, h1, h4.1], by omega⟩
        | error =>
          obtain ⟨h1, h2, h3⟩ := hm
          obtain ⟨e, he, hx⟩ : ∃ e, es = [e] ∧ (e = .connError ∨ ∃ d, e = .data d) := by
            rcases h3 with h3 | ⟨d, h3⟩
            · exact ⟨_, h3, .inl rfl⟩
            · exact ⟨_, h3, .inr ⟨d, rfl⟩⟩
          obtain ⟨d1, d2, d3, d4, -⟩ := hone e he (by rcases hx with rfl | ⟨d, rfl⟩ <;> simp)
          have h4 := d4 (by rcases hx with rfl | ⟨d, rfl⟩ <;> simp)
          refine ⟨d1, d2, ?_⟩
          simp only [atWork, Bool.false_eq_true, if_false]
          refine ⟨by simp only [work, d3, h1, h4.1], by omega⟩
    · rename_i hown
      injection h with h; subst h
      refine ⟨hd, hs, ?_⟩
      have : atWork v (.chan op) = false := by
        cases op <;> first | rfl | exact absurd rfl hown
      rw [this]
      exact ⟨rfl, rfl⟩

theorem run_down {env : ClientEnv} (ops : List Op) : ∀ {v w : Pcl}, v.cli.isShutdown = true → v.cli.sessions = [] → (∀ op ∈ ops, byUser op = false) →
    v.run env ops = .ret w → workSteps env v ops ≤ v.weight := by
  induction ops with
  | nil => intro v w _ _ _ _; exact Nat.zero_le _
  | cons op ops ih =>
    intro v w hd hs ho hr
    simp only [run] at hr
    simp only [workSteps]
    cases h1 : v.step env op with
    | ub => rw [h1] at hr; cases hr
    | ret u =>
      rw [h1, CM.ret_bind] at hr
      obtain ⟨d1, d2, d3⟩ := step_down hd hs (ho op (.head _)) h1
      have := ih d1 d2 (fun x hx => ho x (.tail _ hx)) hr
      simp only
      split
      · rename_i hw; rw [if_pos hw] at d3; omega
      · rename_i hw; rw [if_neg hw] at d3; omega

end Pcl

end Modbus
