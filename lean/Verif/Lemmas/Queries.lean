import Verif.Spec.Queries
import Verif.Lemmas.Scheduled

/-! Lemmas on the answers of `is_running` and `get_frequency`. -/

namespace Modbus

open Spec

theorem callsMade_append (a b : List QEv) : callsMade (a ++ b) = callsMade a ++ callsMade b := by simp [callsMade]

theorem callsDone_append (a b : List QEv) : callsDone (a ++ b) = callsDone a ++ callsDone b := by simp [callsDone]

theorem pollEffects_append (a b : List QEv) : pollEffects (a ++ b) = pollEffects a ++ pollEffects b := by simp [pollEffects]

theorem callsMade_eff (es : List PEv) : callsMade (es.map .eff) = [] := by simp [callsMade]

theorem callsDone_eff (es : List PEv) : callsDone (es.map .eff) = [] := by simp [callsDone]

theorem pollEffects_eff (es : List PEv) : pollEffects (es.map .eff) = es := by induction es <;> simp_all [pollEffects]

theorem wantsPolling_snoc (a : List PTask) (t : PTask) : wantsPolling (a ++ [t]) = (match t with
    | .start => true
    | .stop => false
    | .setFrequency _ => wantsPolling a) := by
  simp only [wantsPolling, List.foldl_append, List.foldl_cons, List.foldl_nil]
  cases t <;> rfl

theorem wantsTime_snoc (f : Nat) (a : List PTask) (t : PTask) : wantsTime f (a ++ [t]) = (match t with
    | .setFrequency g => g
    | _ => wantsTime f a) := by
  simp only [wantsTime, List.foldl_append, List.foldl_cons, List.foldl_nil]
  cases t <;> rfl

namespace Poll

/-- The log only grows. -/
theorem step_log (v : Poll) (op : Op) : ∃ es, (v.step op).log = v.log ++ es := by
  have ct : ∀ w : Poll, w.cancelTimer.log = w.log := cancelTimer_log
  cases op with
  | runTask =>
    simp only [step]
    split
    · exact ⟨[], by simp⟩
    · rename_i t ts _
      cases t <;> simp only [runTask] <;> (try split) <;> simp [execute, emit, ct]
  | respond id =>
    simp only [step]
    split
    · by_cases hr : v.running = true <;> simp [onResponse, emit, hr]
    · exact ⟨[], by simp⟩
  | expire t =>
    simp only [step]
    split
    · exact ⟨[], by simp⟩
    · split <;> exact ⟨[], by simp⟩
  | runTimer t =>
    simp only [step]
    split
    · simp [execute, emit]
    · exact ⟨[], by simp⟩
  | _ => exact ⟨[], by simp [step]⟩

theorem cancelTimer_freq (v : Poll) : v.cancelTimer.freq = v.freq := by unfold cancelTimer; split <;> rfl

theorem cancelTimer_tasks (v : Poll) : v.cancelTimer.tasks = v.tasks := by unfold cancelTimer; split <;> rfl

/-- Only carrying out a call changes the two members. -/
theorem step_members (v : Poll) (op : Op) : op ≠ .runTask → (v.step op).running = v.running ∧ (v.step op).freq = v.freq := by
  intro h
  cases op with
  | runTask => exact absurd rfl h
  | respond id => simp only [step]; split <;> (try simp); by_cases hr : v.running = true <;> simp [onResponse, emit, hr]
  | expire t => simp only [step]; split <;> (try split) <;> simp
  | runTimer t => simp only [step, execute, emit]; split <;> simp
  | _ => simp [step]

theorem step_tasks (v : Poll) (op : Op) : (v.step op).tasks = match op with
    | .start => v.tasks ++ [.start]
    | .stop => v.tasks ++ [.stop]
    | .setFrequency f => v.tasks ++ [.setFrequency f]
    | .runTask => v.tasks.drop 1
    | _ => v.tasks := by
  cases op with
  | runTask =>
    simp only [step]
    split
    · rename_i h; simp [h]
    · rename_i t ts h
      rw [h]
      cases t <;> simp only [runTask] <;> (try split) <;> simp [execute, emit, cancelTimer_tasks]
  | respond id => simp only [step]; split <;> (try simp); by_cases hr : v.running = true <;> simp [onResponse, emit, hr]
  | expire t => simp only [step]; split <;> (try split) <;> simp
  | runTimer t => simp only [step, execute, emit]; split <;> simp
  | _ => simp [step]

theorem runTask_members (v : Poll) (t : PTask) : (v.runTask t).running = (match t with
      | .start => true
      | .stop => false
      | .setFrequency _ => v.running) ∧ (v.runTask t).freq = (match t with
      | .setFrequency f => f
      | _ => v.freq) := by
  cases t with
  | start => simp only [runTask]; split <;> simp_all [execute, emit]
  | stop => simp only [runTask]; split <;> simp_all [emit, cancelTimer_running, cancelTimer_freq]
  | setFrequency f => simp [runTask, emit]

end Poll

/-- What always holds. -/
structure QInv (f : Nat) (v : Qry) : Prop where
  reach : ∃ ops, v.poll = (Poll.init f).run ops
  effects : pollEffects v.log = v.poll.log
  calls : callsMade v.log = callsDone v.log ++ v.poll.tasks
  on : v.poll.running = wantsPolling (callsDone v.log)
  time : v.poll.freq = wantsTime f (callsDone v.log)

theorem QInv.init (f : Nat) : QInv f (Qry.init f) := ⟨⟨[], rfl⟩, rfl, rfl, rfl, rfl⟩

theorem QInv.inside {f : Nat} {v : Qry} (h : QInv f v) (op : Poll.Op) : QInv f (v.inside op) := by
  obtain ⟨⟨ops, h1⟩, h2, h3, h4, h5⟩ := h
  obtain ⟨es, he⟩ := v.poll.step_log op
  have hd : (v.poll.step op).log.drop v.poll.log.length = es := by rw [he]; simp
  have hdone : callsDone (v.inside op).log = callsDone v.log ++ callsDone (v.header op) := by
    simp only [Qry.inside, callsDone_append, hd, callsDone_eff, List.append_nil]
  have hmade : callsMade (v.inside op).log = callsMade v.log ++ callsMade (v.header op) := by
    simp only [Qry.inside, callsMade_append, hd, callsMade_eff, List.append_nil]
  refine ⟨⟨ops ++ [op], by rw [Poll.run_snoc, ← h1]; rfl⟩, ?_, ?_, ?_, ?_⟩
  · simp only [Qry.inside, pollEffects_append, hd, pollEffects_eff, h2, he]
    have : pollEffects (v.header op) = [] := by
      cases op <;> simp [Qry.header, pollEffects]
      cases v.poll.tasks <;> simp
    rw [this]; simp
  · rw [hmade, hdone, h3]
    simp only [Qry.inside, Poll.step_tasks]
    cases op <;> simp [Qry.header, callsMade, callsDone]
    cases v.poll.tasks <;> simp
  · rw [hdone]
    by_cases ho : op = .runTask
    · subst ho
      simp only [Qry.inside, Qry.header, Poll.step]
      cases ht : v.poll.tasks with
      | nil => simpa [callsDone] using h4
      | cons t ts =>
        have := (({ v.poll with tasks := ts } : Poll).runTask_members t).1
        simp only [List.take_succ_cons, List.take_zero, List.map_cons, List.map_nil]
        rw [this, show callsDone [QEv.done t] = [t] from rfl, wantsPolling_snoc]
        cases t <;> simp [h4]
    · rw [show (v.inside op).poll = v.poll.step op from rfl, (v.poll.step_members op ho).1, h4]
      have : callsDone (v.header op) = [] := by cases op <;> first | rfl | exact absurd rfl ho
      rw [this]; simp
  · rw [hdone]
    by_cases ho : op = .runTask
    · subst ho
      simp only [Qry.inside, Qry.header, Poll.step]
      cases ht : v.poll.tasks with
      | nil => simpa [callsDone] using h5
      | cons t ts =>
        have := (({ v.poll with tasks := ts } : Poll).runTask_members t).2
        simp only [List.take_succ_cons, List.take_zero, List.map_cons, List.map_nil]
        rw [this, show callsDone [QEv.done t] = [t] from rfl, wantsTime_snoc]
        cases t <;> simp [h5]
    · rw [show (v.inside op).poll = v.poll.step op from rfl, (v.poll.step_members op ho).2, h5]
      have : callsDone (v.header op) = [] := by cases op <;> first | rfl | exact absurd rfl ho
      rw [this]; simp

theorem QInv.askRunning {f : Nat} {v : Qry} (h : QInv f v) : QInv f v.askRunning := by
  obtain ⟨h1, h2, h3, h4, h5⟩ := h
  have e1 : pollEffects v.askRunning.log = pollEffects v.log := by rw [Qry.askRunning, pollEffects_append]; simp [pollEffects]
  have e2 : callsMade v.askRunning.log = callsMade v.log := by rw [Qry.askRunning, callsMade_append]; simp [callsMade]
  have e3 : callsDone v.askRunning.log = callsDone v.log := by rw [Qry.askRunning, callsDone_append]; simp [callsDone]
  exact ⟨h1, e1.trans h2, by rw [e2, e3]; exact h3, by rw [e3]; exact h4, by rw [e3]; exact h5⟩

theorem QInv.askFrequency {f : Nat} {v : Qry} (h : QInv f v) : QInv f v.askFrequency := by
  obtain ⟨h1, h2, h3, h4, h5⟩ := h
  have e1 : pollEffects v.askFrequency.log = pollEffects v.log := by rw [Qry.askFrequency, pollEffects_append]; simp [pollEffects]
  have e2 : callsMade v.askFrequency.log = callsMade v.log := by rw [Qry.askFrequency, callsMade_append]; simp [callsMade]
  have e3 : callsDone v.askFrequency.log = callsDone v.log := by rw [Qry.askFrequency, callsDone_append]; simp [callsDone]
  exact ⟨h1, e1.trans h2, by rw [e2, e3]; exact h3, by rw [e3]; exact h4, by rw [e3]; exact h5⟩

theorem QInv.step {f : Nat} {v : Qry} (h : QInv f v) (op : Qry.Op) : QInv f (v.step op) := by
  cases op with
  | step op => exact h.inside op
  | isRunning => exact h.askRunning
  | getFrequency => exact h.askFrequency
  | keyS => simp only [Qry.step]; split <;> exact h.askRunning.inside _
  | keyF a b => simp only [Qry.step]; split <;> exact h.askFrequency.inside _

theorem Qry.run_snoc (v : Qry) (ops : List Qry.Op) (op : Qry.Op) : v.run (ops ++ [op]) = (v.run ops).step op := by simp [Qry.run]

theorem Qry.run_append (v : Qry) (a b : List Qry.Op) : v.run (a ++ b) = (v.run a).run b := by simp [Qry.run]

theorem QInv.run {f : Nat} (ops : List Qry.Op) : ∀ {v : Qry}, QInv f v → QInv f (v.run ops) := by
  induction ops with
  | nil => intro v h; exact h
  | cons op ops ih => intro v h; exact ih (h.step op)

/-- The answers given are right at the time. -/
def Answers (f : Nat) (log : List QEv) : Prop := ∀ a e c, log = a ++ e :: c →
  (∀ b, e = .running b → b = wantsPolling (callsDone a) ∧ b = pollOn (pollEffects a)) ∧
  (∀ g, e = .frequency g → g = wantsTime f (callsDone a) ∧ g = pollTime f (pollEffects a)) ∧
  callsDone a <+: callsMade a

theorem Answers.snoc {f : Nat} {log : List QEv} (h : Answers f log) (e : QEv)
    (h1 : ∀ b, e = .running b → b = wantsPolling (callsDone log) ∧ b = pollOn (pollEffects log))
    (h2 : ∀ g, e = .frequency g → g = wantsTime f (callsDone log) ∧ g = pollTime f (pollEffects log))
    (h3 : callsDone log <+: callsMade log) : Answers f (log ++ [e]) := by
  intro a e' c he
  rcases List.eq_nil_or_concat c with rfl | ⟨c', x, rfl⟩
  · obtain ⟨hl, hx⟩ := List.append_inj' he rfl
    simp only [List.cons.injEq, and_true] at hx
    subst hl; subst hx
    exact ⟨h1, h2, h3⟩
  · rw [List.concat_eq_append, ← List.cons_append, ← List.append_assoc] at he
    obtain ⟨hl, -⟩ := List.append_inj' he rfl
    exact h a e' c' hl

theorem Answers.more {f : Nat} (es : List QEv) : ∀ {log : List QEv}, Answers f log → (∀ e ∈ es, (∀ b, e ≠ .running b) ∧ ∀ g, e ≠ .frequency g) →
    (∀ p, p <+: es → callsDone (log ++ p) <+: callsMade (log ++ p)) → Answers f (log ++ es) := by
  induction es with
  | nil => intro log h _ _; simpa using h
  | cons e es ih =>
    intro log h hn hp
    have h1 : Answers f (log ++ [e]) := by
      refine h.snoc e (fun b hb => absurd hb ((hn e (by simp)).1 b)) (fun g hg => absurd hg ((hn e (by simp)).2 g)) ?_
      simpa using hp [] (by simp)
    have := ih h1 (fun x hx => hn x (by simp [hx])) (fun p hp' => by
      have := hp (e :: p) (by simpa using hp')
      simpa using this)
    simpa using this

end Modbus
