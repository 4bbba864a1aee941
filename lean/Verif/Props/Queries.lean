import Verif.Lemmas.Queries
import Verif.Props.Scheduled

/-!
Property C144: what the answers of `is_running` and `get_frequency` mean.

`QReach f v`: a request scheduled with polling time `f` can be in state `v` after some history of calls, questions, tasks, timers and responses.  Properties are
stated on the log.
-/

namespace Modbus.Props

open Spec

/-- States reachable by any history. -/
def QReach (f : Nat) (v : Qry) : Prop := ∃ ops : List Qry.Op, v = (Qry.init f).run ops

theorem QReach.inv {f : Nat} {v : Qry} (h : QReach f v) : QInv f v := by
  obtain ⟨ops, rfl⟩ := h
  exact QInv.run ops (QInv.init f)

theorem _root_.Modbus.QInv.prefix {f : Nat} {v : Qry} (h : QInv f v) : callsDone v.log <+: callsMade v.log := ⟨_, h.calls.symm⟩

theorem Answers.inside {f : Nat} {v : Qry} (h : QInv f v) (ha : Answers f v.log) (op : Poll.Op) : Answers f (v.inside op).log := by
  have hh : ∀ e ∈ v.header op, (∀ b, e ≠ .running b) ∧ ∀ g, e ≠ .frequency g := by
    intro e he
    cases op with
    | runTask =>
      simp only [Qry.header, List.mem_map] at he
      obtain ⟨a, -, rfl⟩ := he
      simp
    | _ => simp_all [Qry.header]
  have h1 : Answers f (v.log ++ v.header op) := by
    refine ha.more _ hh fun p hp => ?_
    obtain ⟨q, hq⟩ := hp
    rcases p with _ | ⟨x, p⟩
    · simpa using h.prefix
    · have hlen : (v.header op).length ≤ 1 := by cases op <;> simp [Qry.header]; omega
      have : p = [] ∧ q = [] := by
        rw [← hq] at hlen
        simp only [List.cons_append, List.length_cons, List.length_append] at hlen
        exact ⟨List.length_eq_zero_iff.1 (by omega), List.length_eq_zero_iff.1 (by omega)⟩
      obtain ⟨rfl, rfl⟩ := this
      rw [show ([x] : List QEv) = v.header op by simpa using hq]
      have := (h.inside op).prefix
      simpa [Qry.inside, callsDone_append, callsMade_append, callsDone_eff, callsMade_eff, ← List.map_drop] using this
  have h2 := h1.more (((v.poll.step op).log.drop v.poll.log.length).map .eff) (by
    intro e he
    simp only [List.mem_map] at he
    obtain ⟨a, -, rfl⟩ := he
    simp) (by
    intro p hp
    have hpe : ∃ es : List PEv, p = es.map QEv.eff := by
      obtain ⟨q, hq⟩ := hp
      obtain ⟨a, b, -, h1, -⟩ := List.map_eq_append_iff.1 hq.symm
      exact ⟨a, h1.symm⟩
    obtain ⟨es, rfl⟩ := hpe
    have := (h.inside op).prefix
    rw [Qry.inside, callsDone_append, callsMade_append, callsDone_eff, callsMade_eff] at this
    rw [callsDone_append, callsMade_append, callsDone_eff, callsMade_eff]
    exact this)
  exact h2

theorem Answers.askRunning {f : Nat} {v : Qry} (h : QInv f v) (ha : Answers f v.log) : Answers f v.askRunning.log := by
  obtain ⟨ops, ho⟩ := h.reach
  refine ha.snoc _ (fun b hb => ?_) (fun g hg => by simp at hg) h.prefix
  injection hb with hb
  rw [← hb, h.effects]
  exact ⟨h.on, by rw [Qry.isRunning, ho]; exact Poll.running_run f ops⟩

theorem Answers.askFrequency {f : Nat} {v : Qry} (h : QInv f v) (ha : Answers f v.log) : Answers f v.askFrequency.log := by
  obtain ⟨ops, ho⟩ := h.reach
  refine ha.snoc _ (fun b hb => by simp at hb) (fun g hg => ?_) h.prefix
  injection hg with hg
  rw [← hg, h.effects]
  exact ⟨h.time, by rw [Qry.getFrequency, ho]; exact (Poll.core_run f ops).1.freq⟩

theorem QReach.answers {f : Nat} {v : Qry} (h : QReach f v) : Answers f v.log := by
  obtain ⟨ops, rfl⟩ := h
  induction ops using List.reverseRecOn with
  | nil => intro a e c he; simp [Qry.run, Qry.init] at he
  | append_singleton ops op ih =>
    have hi : QInv f ((Qry.init f).run ops) := QInv.run ops (QInv.init f)
    rw [Qry.run_snoc]
    cases op with
    | step op => exact Answers.inside hi ih op
    | isRunning => exact Answers.askRunning hi ih
    | getFrequency => exact Answers.askFrequency hi ih
    | keyS => simp only [Qry.step]; split <;> exact Answers.inside hi.askRunning (Answers.askRunning hi ih) _
    | keyF x y => simp only [Qry.step]; split <;> exact Answers.inside hi.askFrequency (Answers.askFrequency hi ih) _

/-! A request scheduled with 2; the first answers come before the start has been carried out; the time is changed to 5 and polling stopped. -/

def qdemoOps : List Qry.Op :=
  [.step .start, .isRunning, .step .runTask, .isRunning, .step (.setFrequency 5), .getFrequency, .step (.tick 1), .step (.respond 0), .step .stop, .isRunning,
   .step .runTask, .getFrequency, .isRunning, .step .runTask, .isRunning]

def qdemo : Qry := (Qry.init 2).run qdemoOps

theorem qdemo_reach : QReach 2 qdemo := ⟨qdemoOps, rfl⟩

example : qdemo.log = [.called .start, .running false, .done .start, .eff .started, .eff (.sent 0 0), .running true, .called (.setFrequency 5), .frequency 2,
    .eff (.handled 0 1), .called .stop, .running true, .done (.setFrequency 5), .eff (.frequency 5), .frequency 5, .running true, .done .stop, .eff .stopped,
    .running false] := by decide +kernel

/-! ### C144 -/

/-- C144: the calls are carried out in the order in which they were made, each once. -/
theorem C144_in_order (f : Nat) (v : Qry) (h : QReach f v) : callsDone v.log <+: callsMade v.log := h.inv.prefix

/-- C144: `is_running` answers what the calls carried out so far ask for, and what is the case: whether polling is on. -/
theorem C144_is_running (f : Nat) (v : Qry) (h : QReach f v) (a c : List QEv) (b : Bool) (hl : v.log = a ++ .running b :: c) :
    b = wantsPolling (callsDone a) ∧ b = pollOn (pollEffects a) ∧ callsDone a <+: callsMade a :=
  let x := h.answers a _ c hl
  ⟨(x.1 b rfl).1, (x.1 b rfl).2, x.2.2⟩

/-- C144: `get_frequency` answers the polling time the calls carried out so far ask for, which is the one in force. -/
theorem C144_get_frequency (f : Nat) (v : Qry) (h : QReach f v) (a c : List QEv) (g : Nat) (hl : v.log = a ++ .frequency g :: c) :
    g = wantsTime f (callsDone a) ∧ g = pollTime f (pollEffects a) ∧ callsDone a <+: callsMade a :=
  let x := h.answers a _ c hl
  ⟨(x.2.1 g rfl).1, (x.2.1 g rfl).2, x.2.2⟩

example : true = wantsPolling [.start, .setFrequency 5] ∧ true = pollOn [.started, .sent 0 0, .handled 0 1, .frequency 5] :=
  let x := C144_is_running 2 qdemo qdemo_reach
    [.called .start, .running false, .done .start, .eff .started, .eff (.sent 0 0), .running true, .called (.setFrequency 5), .frequency 2,
     .eff (.handled 0 1), .called .stop, .running true, .done (.setFrequency 5), .eff (.frequency 5), .frequency 5]
    [.done .stop, .eff .stopped, .running false] true (by decide +kernel)
  ⟨x.1, x.2.1⟩

example : (5 : Nat) = wantsTime 2 [.start, .setFrequency 5] :=
  (C144_get_frequency 2 qdemo qdemo_reach
    [.called .start, .running false, .done .start, .eff .started, .eff (.sent 0 0), .running true, .called (.setFrequency 5), .frequency 2,
     .eff (.handled 0 1), .called .stop, .running true, .done (.setFrequency 5), .eff (.frequency 5)]
    [.running true, .done .stop, .eff .stopped, .running false] 5 (by decide +kernel)).1

/-- Steps that run the next task of the strand. -/
def taskSteps (ops : List Qry.Op) : Nat := (ops.filter fun op => match op with
  | .step .runTask => true
  | _ => false).length

theorem done_le (f : Nat) (ops : List Qry.Op) : ∀ v : Qry, QInv f v →
    min (callsMade v.log).length ((callsDone v.log).length + taskSteps ops) ≤ (callsDone (v.run ops).log).length := by
  induction ops with
  | nil => intro v h; simp only [Qry.run, List.foldl_nil, taskSteps, List.filter_nil, List.length_nil]; omega
  | cons op ops ih =>
    intro v h
    have hi := ih (v.step op) (h.step op)
    have hr : v.run (op :: ops) = (v.step op).run ops := rfl
    rw [hr]
    have hin : ∀ o, (v.inside o).log = v.log ++ v.header o ++ ((v.poll.step o).log.drop v.poll.log.length).map .eff := fun _ => rfl
    have hm : (callsMade v.log).length ≤ (callsMade (v.step op).log).length := by
      cases op with
      | step o => simp [Qry.step, Qry.inside, callsMade_append]
      | isRunning => simp [Qry.step, Qry.askRunning, callsMade_append]
      | getFrequency => simp [Qry.step, Qry.askFrequency, callsMade_append]
      | keyS => simp only [Qry.step]; split <;> simp [Qry.inside, Qry.askRunning, callsMade_append] <;> omega
      | keyF x y => simp only [Qry.step]; split <;> simp [Qry.inside, Qry.askFrequency, callsMade_append] <;> omega
    have hd : (callsDone v.log).length ≤ (callsDone (v.step op).log).length := by
      cases op with
      | step o => simp [Qry.step, Qry.inside, callsDone_append]
      | isRunning => simp [Qry.step, Qry.askRunning, callsDone_append]
      | getFrequency => simp [Qry.step, Qry.askFrequency, callsDone_append]
      | keyS => simp only [Qry.step]; split <;> simp [Qry.inside, Qry.askRunning, callsDone_append] <;> omega
      | keyF x y => simp only [Qry.step]; split <;> simp [Qry.inside, Qry.askFrequency, callsDone_append] <;> omega
    by_cases ho : op = .step .runTask
    · subst ho
      have ht : taskSteps (.step .runTask :: ops) = taskSteps ops + 1 := by simp [taskSteps]
      rw [ht]
      cases hq : v.poll.tasks with
      | nil =>
        have hc := h.calls
        rw [hq, List.append_nil] at hc
        rw [hc] at hm ⊢
        have := (h.step (.step .runTask)).calls
        have := congrArg List.length this
        rw [List.length_append] at this
        omega
      | cons t ts =>
        have : (callsDone (v.step (.step .runTask)).log).length = (callsDone v.log).length + 1 := by
          simp only [Qry.step, Qry.inside, Qry.header, hq, callsDone_append, callsDone_eff]
          simp [callsDone]
        omega
    · have ht : taskSteps (op :: ops) = taskSteps ops := by
        simp only [taskSteps]
        rw [List.filter_cons_of_neg]
        rcases op with o | _ | _ | _ | _ <;> (try simp) <;> cases o <;> simp at ho ⊢
      rw [ht]; omega

/-- C144: once the strand has run as many tasks as calls were waiting, all these calls have been carried out, whatever else happened in between. -/
theorem C144_catches_up (f : Nat) (v : Qry) (h : QReach f v) (ops : List Qry.Op)
    (hn : (callsMade v.log).length ≤ (callsDone v.log).length + taskSteps ops) : callsMade v.log <+: callsDone (v.run ops).log := by
  have hi := h.inv
  have h1 := done_le f ops v hi
  have hi' := QInv.run ops hi
  have hg : ∀ (ops : List Qry.Op) (v : Qry), v.log <+: (v.run ops).log := by
    intro ops
    induction ops with
    | nil => intro v; exact List.prefix_refl _
    | cons op ops ih =>
      intro v
      refine List.IsPrefix.trans ?_ (ih (v.step op))
      cases op with
      | step o => simp [Qry.step, Qry.inside]
      | isRunning => simp [Qry.step, Qry.askRunning]
      | getFrequency => simp [Qry.step, Qry.askFrequency]
      | keyS => simp only [Qry.step]; split <;> simp [Qry.inside, Qry.askRunning]
      | keyF x y => simp only [Qry.step]; split <;> simp [Qry.inside, Qry.askFrequency]
  obtain ⟨l, hl⟩ := hg ops v
  have hm : callsMade v.log <+: callsMade (v.run ops).log := by rw [← hl, callsMade_append]; exact List.prefix_append _ _
  refine List.prefix_of_prefix_length_le hm hi'.prefix ?_
  omega

example : [PTask.start, .setFrequency 5, .stop] <+: callsDone ((Qry.init 2).run [.step .start, .step (.setFrequency 5), .step .stop, .step .runTask, .isRunning,
    .step .runTask, .step .start, .step .runTask]).log :=
  C144_catches_up 2 ((Qry.init 2).run [.step .start, .step (.setFrequency 5), .step .stop]) ⟨_, rfl⟩
    [.step .runTask, .isRunning, .step .runTask, .step .start, .step .runTask] (by decide +kernel)

/-- C144: when all calls have been carried out, the answers are those the last calls ask for. -/
theorem C144_up_to_date (f : Nat) (v : Qry) (h : QReach f v) (hd : callsMade v.log = callsDone v.log) :
    (v.step .isRunning).log = v.log ++ [.running (wantsPolling (callsMade v.log))] ∧
    (v.step .getFrequency).log = v.log ++ [.frequency (wantsTime f (callsMade v.log))] := by
  have hi := h.inv
  exact ⟨by rw [hd, ← hi.on]; rfl, by rw [hd, ← hi.time]; rfl⟩

example : callsMade qdemo.log = callsDone qdemo.log ∧ wantsPolling (callsMade qdemo.log) = false ∧ wantsTime 2 (callsMade qdemo.log) = 5 := by decide +kernel

/-- C144: if `is_running` answers yes, polling goes on: a request is in flight or a timer is set or has expired. -/
theorem C144_yes_means_polling (f : Nat) (v : Qry) (h : QReach f v) (hy : (v.step .isRunning).log = v.log ++ [.running true]) :
    v.poll.inFlight ≠ [] ∨ v.poll.armed ≠ [] ∨ v.poll.fired ≠ [] := by
  obtain ⟨ops, ho⟩ := h.inv.reach
  have : v.poll.running = true := by
    simpa [Qry.step, Qry.askRunning, Qry.isRunning] using hy
  rw [ho] at this ⊢
  exact (Poll.core_run f ops).2 this

/-- C144: if `is_running` answers no, then until a `start` takes effect at most the polls whose timers were already set are sent. -/
theorem C144_no_means_silence (f : Nat) (v : Qry) (h : QReach f v) (hy : (v.step .isRunning).log = v.log ++ [.running false]) (ops : List Qry.Op)
    (new : List QEv) (hl : (v.run ops).log = v.log ++ new) (hs : PEv.started ∉ pollEffects new) :
    (pollsSent (pollEffects new)).length ≤ v.poll.armed.length + v.poll.fired.length := by
  have hi := h.inv
  have hr : v.poll.running = false := by simpa [Qry.step, Qry.askRunning, Qry.isRunning] using hy
  have key : ∀ (ops : List Qry.Op) (v : Qry), ∃ ps, (v.run ops).poll = v.poll.run ps := by
    intro ops
    induction ops with
    | nil => intro v; exact ⟨[], rfl⟩
    | cons op ops ih =>
      intro v
      obtain ⟨ps, hp⟩ := ih (v.step op)
      have : ∃ qs, (v.step op).poll = v.poll.run qs := by
        cases op with
        | step o => exact ⟨[o], rfl⟩
        | isRunning => exact ⟨[], rfl⟩
        | getFrequency => exact ⟨[], rfl⟩
        | keyS => simp only [Qry.step]; split <;> [exact ⟨[.stop], rfl⟩; exact ⟨[.start], rfl⟩]
        | keyF x y => simp only [Qry.step]; split <;> [exact ⟨[.setFrequency y], rfl⟩; exact ⟨[.setFrequency x], rfl⟩]
      obtain ⟨qs, hq⟩ := this
      refine ⟨qs ++ ps, ?_⟩
      have hrr : v.run (op :: ops) = (v.step op).run ops := rfl
      rw [hrr, hp, hq]; simp [Poll.run]
  obtain ⟨ps, hp⟩ := key ops v
  obtain ⟨os, ho⟩ := hi.reach
  have e1 : (v.run ops).poll.log = v.poll.log ++ pollEffects new := by
    rw [← (QInv.run ops hi).effects, hl, pollEffects_append, hi.effects]
  refine (C60_after_stop_bounded_partial f v.poll ⟨os, ho⟩ ?_ ps (pollEffects new) (by rw [← hp]; exact e1) hs).1
  rw [ho, ← Poll.running_run f os, ← ho]; exact hr

example : (qdemo.step .isRunning).log = qdemo.log ++ [.running false] ∧ qdemo.poll.armed = [] ∧ qdemo.poll.fired = [] := by decide +kernel

example : let v := (Qry.init 2).run [.step .start, .step .runTask, .step (.respond 0)]
    QReach 2 v ∧ (v.step .isRunning).log = v.log ++ [.running true] ∧ v.poll.armed ≠ [] := ⟨⟨_, rfl⟩, by decide +kernel⟩

/-! ### C145 -/

/-- How many times the key `s` was typed. -/
def typedS (ops : List Qry.Op) : Nat := (ops.filter fun op => match op with
  | .keyS => true
  | _ => false).length

/-- How many times the key `f` was typed. -/
def typedF (ops : List Qry.Op) : Nat := (ops.filter fun op => match op with
  | .keyF _ _ => true
  | _ => false).length

/-- The example client: its request is scheduled with time `f` and started; afterwards only the keys `s` and `f` (switching between `f` and `g`) make calls. -/
def KeysOnly (f g : Nat) (ops : List Qry.Op) : Prop := ∀ op ∈ ops, op ≠ .step .start ∧ op ≠ .step .stop ∧ (∀ t, op ≠ .step (.setFrequency t)) ∧
  ∀ x y, op = .keyF x y → x = f ∧ y = g

/-- Each key is typed when the calls made before have been carried out. -/
def Unhurried (f : Nat) (ops : List Qry.Op) : Prop := ∀ pre op post, ops = pre ++ op :: post → (op = .keyS ∨ ∃ x y, op = .keyF x y) →
  callsMade ((Qry.init f).run (.step .start :: pre)).log = callsDone ((Qry.init f).run (.step .start :: pre)).log

/-- C145, full statement: when all calls have been carried out, polling is on if and only if `s` was typed an even number of times, and the polling time is the
first one if and only if `f` was typed an even number of times. -/
def C145_Statement : Prop := ∀ f g ops, f ≠ g → KeysOnly f g ops → let v := (Qry.init f).run (.step .start :: ops)
  callsMade v.log = callsDone v.log →
  (v.step .isRunning).log = v.log ++ [.running (typedS ops % 2 == 0)] ∧
  (v.step .getFrequency).log = v.log ++ [.frequency (if typedF ops % 2 = 0 then f else g)]

/-- C145 fails: two quick `s` are two calls of `stop`, and polling stays off. -/
theorem C145_violated : ¬ C145_Statement := by
  intro h
  have := (h 2 5 [.step .runTask, .keyS, .keyS, .step .runTask, .step .runTask] (by decide) (by intro op ho; simp at ho; rcases ho with rfl | rfl | rfl <;> simp)
    (by decide +kernel)).1
  revert this
  decide +kernel

/-- Two quick `f` are lost likewise: the polling time is 5 as after one. -/
theorem C145_time_violated : let v := (Qry.init 2).run (.step .start :: [.step .runTask, .keyF 2 5, .keyF 2 5, .step .runTask, .step .runTask])
    callsMade v.log = callsDone v.log ∧ (v.step .getFrequency).log = v.log ++ [.frequency 5] := by decide +kernel

theorem keys_wanted (f g : Nat) (hfg : f ≠ g) (ops : List Qry.Op) (hk : KeysOnly f g ops) (hu : Unhurried f ops) :
    wantsPolling (callsMade ((Qry.init f).run (.step .start :: ops)).log) = (typedS ops % 2 == 0) ∧
    wantsTime f (callsMade ((Qry.init f).run (.step .start :: ops)).log) = (if typedF ops % 2 = 0 then f else g) := by
  induction ops using List.reverseRecOn with
  | nil => exact ⟨rfl, rfl⟩
  | append_singleton ops op ih =>
    have hk' : KeysOnly f g ops := fun o ho => hk o (by simp [ho])
    have hu' : Unhurried f ops := fun pre o post he hkey => hu pre o (post ++ [op]) (by simp [he]) hkey
    have hx := hu ops op [] rfl
    obtain ⟨i1, i2⟩ := ih hk' hu'
    have hinv : QInv f ((Qry.init f).run (.step .start :: ops)) := QInv.run _ (QInv.init f)
    rw [← List.cons_append, Qry.run_snoc]
    generalize hv : (Qry.init f).run (.step .start :: ops) = v at *
    have hin : ∀ (w : Qry) o, callsMade (w.inside o).log = callsMade w.log ++ callsMade (w.header o) := by
      intro w o
      rw [Qry.inside, callsMade_append, callsMade_eff, callsMade_append, List.append_nil]
    have hask1 : callsMade v.askRunning.log = callsMade v.log := by rw [Qry.askRunning, callsMade_append]; simp [callsMade]
    have hask2 : callsMade v.askFrequency.log = callsMade v.log := by rw [Qry.askFrequency, callsMade_append]; simp [callsMade]
    obtain ⟨k1, k2, k3, k4⟩ := hk op (by simp)
    cases op with
    | step o =>
      have : callsMade (v.header o) = [] := by
        cases o with
        | start => exact absurd rfl k1
        | stop => exact absurd rfl k2
        | setFrequency t => exact absurd rfl (k3 t)
        | runTask => simp only [Qry.header, callsMade, List.filterMap_map]; cases v.poll.tasks <;> simp
        | _ => rfl
      have e1 : typedS (ops ++ [.step o]) = typedS ops := by simp [typedS]
      have e2 : typedF (ops ++ [.step o]) = typedF ops := by simp [typedF]
      rw [e1, e2]
      simp only [Qry.step, hin, this, List.append_nil]
      exact ⟨i1, i2⟩
    | isRunning =>
      have e1 : typedS (ops ++ [.isRunning]) = typedS ops := by simp [typedS]
      have e2 : typedF (ops ++ [.isRunning]) = typedF ops := by simp [typedF]
      rw [e1, e2]
      simp only [Qry.step, hask1]
      exact ⟨i1, i2⟩
    | getFrequency =>
      have e1 : typedS (ops ++ [.getFrequency]) = typedS ops := by simp [typedS]
      have e2 : typedF (ops ++ [.getFrequency]) = typedF ops := by simp [typedF]
      rw [e1, e2]
      simp only [Qry.step, hask2]
      exact ⟨i1, i2⟩
    | keyS =>
      have hd := hx (Or.inl rfl)
      have hr : v.isRunning = (typedS ops % 2 == 0) := by rw [← i1, hd]; exact hinv.on
      have ht : typedS (ops ++ [.keyS]) = typedS ops + 1 := by simp [typedS]
      have hf : typedF (ops ++ [.keyS]) = typedF ops := by simp [typedF]
      rw [ht, hf]
      by_cases hm : typedS ops % 2 = 0
      · rw [hm] at hr
        simp only [Qry.step, hr, beq_self_eq_true, ↓reduceIte, hin, hask1]
        refine ⟨?_, ?_⟩
        · rw [show callsMade (v.askRunning.header .stop) = [PTask.stop] from rfl, wantsPolling_snoc]
          simp; omega
        · rw [show callsMade (v.askRunning.header .stop) = [PTask.stop] from rfl, wantsTime_snoc]; exact i2
      · have hr' : v.isRunning = false := by rw [hr]; simpa using hm
        simp only [Qry.step, hr', Bool.false_eq_true, ↓reduceIte, hin, hask1]
        refine ⟨?_, ?_⟩
        · rw [show callsMade (v.askRunning.header .start) = [PTask.start] from rfl, wantsPolling_snoc]
          simp; omega
        · rw [show callsMade (v.askRunning.header .start) = [PTask.start] from rfl, wantsTime_snoc]; exact i2
    | keyF x y =>
      obtain ⟨rfl, rfl⟩ := k4 x y rfl
      have hd := hx (Or.inr ⟨_, _, rfl⟩)
      have hr : v.getFrequency = (if typedF ops % 2 = 0 then x else y) := by rw [← i2, hd]; exact hinv.time
      have ht : typedF (ops ++ [.keyF x y]) = typedF ops + 1 := by simp [typedF]
      have hf : typedS (ops ++ [.keyF x y]) = typedS ops := by simp [typedS]
      rw [ht, hf]
      by_cases hm : typedF ops % 2 = 0
      · rw [if_pos hm] at hr
        simp only [Qry.step, hr, ↓reduceIte, hin, hask2]
        rw [show callsMade (v.askFrequency.header (.setFrequency y)) = [PTask.setFrequency y] from rfl, wantsTime_snoc, wantsPolling_snoc]
        exact ⟨i1, by rw [if_neg (by omega)]⟩
      · rw [if_neg hm] at hr
        simp only [Qry.step, hr, if_neg (Ne.symm hfg), hin, hask2]
        rw [show callsMade (v.askFrequency.header (.setFrequency x)) = [PTask.setFrequency x] from rfl, wantsTime_snoc, wantsPolling_snoc]
        exact ⟨i1, by rw [if_pos (by omega)]⟩

/-- C145 (partial: each key is typed when the calls made before have been carried out). -/
theorem C145_keys_switch_partial (f g : Nat) (ops : List Qry.Op) (hfg : f ≠ g) (hk : KeysOnly f g ops) (hu : Unhurried f ops)
    (hd : callsMade ((Qry.init f).run (.step .start :: ops)).log = callsDone ((Qry.init f).run (.step .start :: ops)).log) :
    (((Qry.init f).run (.step .start :: ops)).step .isRunning).log =
      ((Qry.init f).run (.step .start :: ops)).log ++ [.running (typedS ops % 2 == 0)] ∧
    (((Qry.init f).run (.step .start :: ops)).step .getFrequency).log =
      ((Qry.init f).run (.step .start :: ops)).log ++ [.frequency (if typedF ops % 2 = 0 then f else g)] := by
  obtain ⟨h1, h2⟩ := keys_wanted f g hfg ops hk hu
  obtain ⟨h3, h4⟩ := C144_up_to_date f _ ⟨_, rfl⟩ hd
  exact ⟨by rw [h3, h1], by rw [h4, h2]⟩

/-- The keys `s`, `f`, `s`, `f`, `f`, each after the strand has caught up. -/
def keyDemo : List Qry.Op :=
  [.step .runTask, .keyS, .step .runTask, .step (.respond 0), .keyF 2 5, .step .runTask, .keyS, .step .runTask, .keyF 2 5, .step .runTask, .keyF 2 5, .step .runTask]

theorem keyDemo_keys : KeysOnly 2 5 keyDemo := by
  intro op ho
  simp only [keyDemo, List.mem_cons, List.not_mem_nil, or_false] at ho
  rcases ho with rfl | rfl | rfl | rfl | rfl | rfl | rfl | rfl | rfl | rfl | rfl | rfl <;> simp

/-- Checks at each key that nothing is waiting. -/
def unhurriedCheck (v : Qry) : List Qry.Op → Bool
  | [] => true
  | op :: ops => (match op with
    | .keyS => decide (callsMade v.log = callsDone v.log)
    | .keyF _ _ => decide (callsMade v.log = callsDone v.log)
    | _ => true) && unhurriedCheck (v.step op) ops

theorem unhurriedCheck_spec (ops : List Qry.Op) : ∀ v : Qry, unhurriedCheck v ops = true → ∀ pre op post, ops = pre ++ op :: post →
    (op = .keyS ∨ ∃ x y, op = .keyF x y) → callsMade (v.run pre).log = callsDone (v.run pre).log := by
  induction ops with
  | nil => intro v _ pre op post he; simp at he
  | cons o ops ih =>
    intro v h pre op post he hkey
    simp only [unhurriedCheck, Bool.and_eq_true] at h
    cases pre with
    | nil =>
      simp only [List.nil_append, List.cons.injEq] at he
      obtain ⟨rfl, rfl⟩ := he
      rcases hkey with rfl | ⟨x, y, rfl⟩ <;> simpa [Qry.run] using h.1
    | cons p pre =>
      simp only [List.cons_append, List.cons.injEq] at he
      obtain ⟨rfl, rfl⟩ := he
      exact ih _ h.2 pre op post rfl hkey

theorem keyDemo_unhurried : Unhurried 2 keyDemo := fun pre op post he hkey =>
  unhurriedCheck_spec keyDemo ((Qry.init 2).step (.step .start)) (by decide +kernel) pre op post he hkey

example : typedS keyDemo = 2 ∧ typedF keyDemo = 3 ∧
    callsMade ((Qry.init 2).run (.step .start :: keyDemo)).log = callsDone ((Qry.init 2).run (.step .start :: keyDemo)).log := by decide +kernel

example := C145_keys_switch_partial 2 5 keyDemo (by decide) keyDemo_keys keyDemo_unhurried (by decide +kernel)

end Modbus.Props
