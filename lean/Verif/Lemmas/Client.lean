import Verif.Props.ServerLife
import Verif.Spec.Client
import Mathlib.Data.List.Nodup

/-! Helper lemmas about the client channel: one invariant, kept by every step. -/

namespace Modbus

open Spec

theorem allowed_iff (q : AnyReq) : isValid q.1 q.2 = true ↔ Allowed q := Props.C04_valid_iff_in_range q.1 q.2

@[simp] theorem submissions_append (l1 l2 : List CEv) : submissions (l1 ++ l2) = submissions l1 ++ submissions l2 := by simp [submissions]
@[simp] theorem sentUids_append (l1 l2 : List CEv) : sentUids (l1 ++ l2) = sentUids l1 ++ sentUids l2 := by simp [sentUids]
@[simp] theorem handledUids_append (l1 l2 : List CEv) : handledUids (l1 ++ l2) = handledUids l1 ++ handledUids l2 := by
  simp [handledUids]
@[simp] theorem allowedUids_append (l1 l2 : List CEv) : allowedUids (l1 ++ l2) = allowedUids l1 ++ allowedUids l2 := by
  simp [allowedUids]

theorem chunksSince_snoc (l : List CEv) (e : CEv) : chunksSince (l ++ [e]) = (match e with
    | .data d => chunksSince l ++ [d]
    | .connError => []
    | _ => chunksSince l) := by
  cases e <;> simp [chunksSince]

theorem messagesSince_snoc (l : List CEv) (e : CEv) : messagesSince (l ++ [e]) = (match e with
    | .mbap m => messagesSince l ++ [m]
    | .connError => []
    | _ => messagesSince l) := by
  cases e <;> simp [messagesSince]

theorem beforeShutdown_self {l : List CEv} (h : CEv.tcpShutdown ∉ l) : beforeShutdown l = l := by
  unfold beforeShutdown
  induction l with
  | nil => rfl
  | cons x l ih =>
    simp only [List.mem_cons, not_or] at h
    rw [List.takeWhile_cons, if_pos (by simpa using fun hh => h.1 hh.symm), ih h.2]

theorem beforeShutdown_clean (l : List CEv) : CEv.tcpShutdown ∉ beforeShutdown l := by
  unfold beforeShutdown
  induction l with
  | nil => simp
  | cons x l ih =>
    rw [List.takeWhile_cons]
    split
    · rename_i hx
      simp only [List.mem_cons, not_or]
      exact ⟨fun hh => by simp [← hh] at hx, ih⟩
    · simp

theorem beforeShutdown_snoc (l : List CEv) (e : CEv) : beforeShutdown (l ++ [e]) =
    if CEv.tcpShutdown ∈ l then beforeShutdown l else if e = .tcpShutdown then l else l ++ [e] := by
  induction l with
  | nil =>
    simp only [List.nil_append, List.not_mem_nil, if_false, beforeShutdown, List.takeWhile_cons, List.takeWhile_nil]
    by_cases h : e = .tcpShutdown <;> simp [h]
  | cons x l ih =>
    by_cases hx : x = .tcpShutdown
    · subst hx
      simp [beforeShutdown]
    · have e1 : ∀ l', beforeShutdown (x :: l') = x :: beforeShutdown l' := by
        intro l'; simp [beforeShutdown, hx]
      rw [List.cons_append, e1, ih]
      by_cases h1 : CEv.tcpShutdown ∈ l
      · rw [if_pos h1, if_pos (List.mem_cons_of_mem _ h1), e1]
      · have h2 : CEv.tcpShutdown ∉ x :: l := fun hm => by
          rcases List.mem_cons.1 hm with hm | hm
          · exact hx hm.symm
          · exact h1 hm
        simp only [if_neg h1, if_neg h2]
        split <;> rfl

theorem call_early {l : List CEv} {e : CEv} (h : ∀ u unit q t, e ≠ .call u unit q t) {u : Nat} {unit : UInt8} {q : AnyReq} {t : Nat}
    (hm : CEv.call u unit q t ∈ beforeShutdown (l ++ [e])) : CEv.call u unit q t ∈ beforeShutdown l := by
  rw [beforeShutdown_snoc] at hm
  split at hm
  · exact hm
  · rename_i hl
    have h1 : beforeShutdown l = l := beforeShutdown_self hl
    rw [h1]
    split at hm
    · exact hm
    · rcases List.mem_append.1 hm with hm | hm
      · exact hm
      · exact absurd (List.mem_singleton.1 hm).symm (h u unit q t)

/-- Events that are neither calls, nor sends, nor handler calls. -/
def CEv.plain : CEv → Bool
  | .call .. => false
  | .sent .. => false
  | .handler .. => false
  | _ => true

theorem submissions_one {e : CEv} (h : ∀ u unit q t, e ≠ .call u unit q t) : submissions [e] = [] := by
  cases e with
  | call u unit q t => exact absurd rfl (h u unit q t)
  | _ => rfl

theorem sentUids_one {e : CEv} (h : ∀ u b t, e ≠ .sent u b t) : sentUids [e] = [] := by
  cases e with
  | sent u b t => exact absurd rfl (h u b t)
  | _ => rfl

theorem handledUids_one {e : CEv} (h : ∀ u x t, e ≠ .handler u x t) : handledUids [e] = [] := by
  cases e with
  | handler u x t => exact absurd rfl (h u x t)
  | _ => rfl

theorem allowedUids_one {e : CEv} (h : ∀ u unit q t, e ≠ .call u unit q t) : allowedUids [e] = [] := by
  simp [allowedUids, submissions_one h]

theorem mem_sentUids {l : List CEv} {u : Nat} : u ∈ sentUids l ↔ ∃ b t, CEv.sent u b t ∈ l := by
  simp only [sentUids, List.mem_filterMap]
  constructor
  · rintro ⟨e, he, h⟩
    cases e <;> simp at h
    subst h; exact ⟨_, _, he⟩
  · rintro ⟨b, t, h⟩; exact ⟨_, h, rfl⟩

theorem mem_handledUids {l : List CEv} {u : Nat} : u ∈ handledUids l ↔ ∃ x t, CEv.handler u x t ∈ l := by
  simp only [handledUids, List.mem_filterMap]
  constructor
  · rintro ⟨e, he, h⟩
    cases e <;> simp at h
    subst h; exact ⟨_, _, he⟩
  · rintro ⟨b, t, h⟩; exact ⟨_, h, rfl⟩

theorem mem_submissions {l : List CEv} {u : Nat} {unit : UInt8} {q : AnyReq} {t : Nat} :
    (u, unit, q, t) ∈ submissions l ↔ CEv.call u unit q t ∈ l := by
  simp only [submissions, List.mem_filterMap]
  constructor
  · rintro ⟨e, he, h⟩
    cases e with
    | call u' unit' q' t' =>
      simp only [Option.some.injEq, Prod.mk.injEq] at h
      obtain ⟨rfl, rfl, rfl, rfl⟩ := h; exact he
    | _ => cases h
  · intro h; exact ⟨_, h, rfl⟩

/-- What justifies an event, given what happened before. -/
def Just (env : ClientEnv) (l : List CEv) : CEv → Prop
  | .sent u bytes _ => .tcpShutdown ∉ l ∧ u ∉ sentUids l ∧ u ∉ handledUids l ∧ (∀ u' ∈ sentUids l, u' ∈ handledUids l) ∧
      (∀ u' ∈ allowedUids l, u' < u → u' ∈ handledUids l) ∧
      ∃ unit q tmo, CEv.call u unit q tmo ∈ l ∧ Allowed q ∧
        ∃ mem : List UInt8, mem.length = 260 ∧
          bytes = buildMbap unit (UInt16.ofNat (rank l u)) (reqMsg q.1 q.2) ⟨[], mem⟩
  | .handler u (.ok d) _ => .tcpShutdown ∉ l ∧ u ∈ sentUids l ∧ u ∉ handledUids l ∧
      ∃ l0 m unit q tmo, l = l0 ++ [.mbap m] ∧ d = m.data ∧ CEv.call u unit q tmo ∈ l ∧ Allowed q ∧ m.unit = unit ∧
        m.tid = UInt16.ofNat (rank l u)
  | .handler u (.error .connection) _ => .tcpShutdown ∉ l ∧ u ∉ handledUids l ∧
      (∃ unit q tmo, CEv.call u unit q tmo ∈ l ∧ Allowed q) ∧
      ∃ l0 l1, l = l0 ++ .connError :: l1 ∧ ∀ e ∈ l1, ∃ u' t', e = .handler u' (.error .connection) t'
  | .handler u (.error .timeout) t => .tcpShutdown ∉ l ∧ u ∈ sentUids l ∧ u ∉ handledUids l ∧
      ∃ u' b' t' unit' q' tmo', CEv.sent u' b' t' ∈ l ∧ CEv.call u' unit' q' tmo' ∈ l ∧ t' + tmo' ≤ t
  | .handler u (.error .malformedRequest) _ => u ∉ sentUids l ∧ u ∉ handledUids l ∧
      ∃ unit q tmo, CEv.call u unit q tmo ∈ l ∧ ¬ Allowed q
  | .handler _ _ _ => False
  | .mbap m => .tcpShutdown ∉ l ∧ ∃ out, Props.FramedAs env.pol (chunksSince l) out ∧ (messagesSince l ++ [m]) <+: out
  | .session (some _) => .tcpShutdown ∉ l
  | .sessionShutdown _ => .tcpShutdown ∉ l
  | _ => True

/-- Every event of the log was justified when it happened. -/
inductive Logged (env : ClientEnv) : List CEv → Prop where
  | nil : Logged env []
  | snoc {l : List CEv} {e : CEv} : Logged env l → Just env l e → Logged env (l ++ [e])

theorem Logged.at {env : ClientEnv} {l : List CEv} (h : Logged env l) :
    ∀ {l1 l2 : List CEv} {e : CEv}, l = l1 ++ e :: l2 → Just env l1 e := by
  induction h with
  | nil => intro l1 l2 e h; simp at h
  | @snoc l e' hl hj ih =>
    intro l1 l2 e h
    rcases List.eq_nil_or_concat l2 with rfl | ⟨l3, x, rfl⟩
    · obtain ⟨rfl, h2⟩ := List.append_inj' h rfl
      injection h2 with h2; subst h2; exact hj
    · have h' : l ++ [e'] = (l1 ++ e :: l3) ++ [x] := by rw [h]; simp
      obtain ⟨h1, -⟩ := List.append_inj' h' rfl
      exact ih h1

namespace Cli

/-- The request a posted task is about. -/
def _root_.Modbus.CTask.uid? : CTask → Option Nat
  | .request u _ _ _ => some u
  | .malformed u => some u
  | .shutdown => none

/-- The allowed request a posted task is about. -/
def _root_.Modbus.CTask.req? : CTask → Option Nat
  | .request u _ _ _ => some u
  | _ => none

def taskUids (ts : List CTask) : List Nat := ts.filterMap CTask.uid?
def reqTaskUids (ts : List CTask) : List Nat := ts.filterMap CTask.req?
def curUids (v : Cli) : List Nat := v.current.toList.map (·.uid)
def pendUids (v : Cli) : List Nat := v.pending.map (·.uid)

/-- The invariant.  `rem`: messages the parser has handed over that still have to be processed. -/
structure Inv (env : ClientEnv) (rem : List Mbap) (v : Cli) : Prop where
  parser : v.parser.pol = env.pol ∧ ∃ pend, Rep v.parser pend
  framed : v.isShutdown = false → ∃ mem : List UInt8, mem.length = 260 ∧
    (Parser.init env.pol mem).feed (chunksSince v.log) = .ret (v.parser, messagesSince v.log ++ rem)
  calls : (submissions v.log).map (·.1) = List.range v.nextUid
  once : ∀ u, (handledUids v.log).count u + v.curUids.count u + v.pendUids.count u + (taskUids v.tasks).count u ≤ 1
  covered : v.isShutdown = false → ∀ u, u < v.nextUid →
    1 ≤ (handledUids v.log).count u + v.curUids.count u + v.pendUids.count u + (taskUids v.tasks).count u
  bad : ∀ u unit q tmo, CEv.call u unit q tmo ∈ beforeShutdown v.log → ¬ Allowed q → u ∈ handledUids v.log ∨ CTask.malformed u ∈ v.tasks
  bound : ∀ u, v.nextUid ≤ u → u ∉ handledUids v.log ∧ u ∉ v.curUids ∧ u ∉ v.pendUids ∧ u ∉ taskUids v.tasks
  order : (sentUids v.log ++ (v.pendUids ++ reqTaskUids v.tasks)).Pairwise (· < ·)
  sentBound : ∀ u ∈ sentUids v.log, u < v.nextUid
  outstanding : ∃ o : Option Nat, (∀ u ∈ sentUids v.log, u ∉ handledUids v.log → o = some u) ∧
    (v.isShutdown = false → o = v.current.map (·.uid))
  known : ∀ r ∈ v.current.toList ++ v.pending, CEv.call r.uid r.unit r.req r.timeout ∈ v.log ∧ Allowed r.req ∧
    r.tid = UInt16.ofNat (rank v.log r.uid)
  tasksKnown : (∀ u unit q tmo, CTask.request u unit q tmo ∈ v.tasks → CEv.call u unit q tmo ∈ v.log ∧ Allowed q) ∧
    ∀ u, CTask.malformed u ∈ v.tasks → ∃ unit q tmo, CEv.call u unit q tmo ∈ v.log ∧ ¬ Allowed q
  tids : v.isShutdown = false → ∃ acc, allowedUids v.log = acc ++ reqTaskUids v.tasks ∧ v.nextTid = UInt16.ofNat acc.length
  sentAllowed : ∀ u ∈ sentUids v.log, ∃ unit q tmo, CEv.call u unit q tmo ∈ v.log ∧ Allowed q
  curSent : ∀ r, v.current = some r → ∃ bytes t0, CEv.sent r.uid bytes t0 ∈ v.log ∧ ∃ t, v.timer = some t ∧
    ((t, t0 + r.timeout) ∈ v.armed ∨ (t ∈ v.fired ∧ t0 + r.timeout ≤ v.now))
  timerIds : (v.armed.map (·.1) ++ v.fired).Nodup ∧ ∀ t ∈ v.armed.map (·.1) ++ v.fired, t < v.nextTimer
  armedOrigin : ∀ x ∈ v.armed, ∃ u b t unit q tmo, CEv.sent u b t ∈ v.log ∧ CEv.call u unit q tmo ∈ v.log ∧ x.2 = t + tmo
  firedOrigin : ∀ x ∈ v.fired, ∃ u b t unit q tmo, CEv.sent u b t ∈ v.log ∧ CEv.call u unit q tmo ∈ v.log ∧ t + tmo ≤ v.now
  down : v.isShutdown = true → v.current = none ∧ v.pending = [] ∧ v.sessions = []
  downLog : CEv.tcpShutdown ∈ v.log ↔ v.isShutdown = true
  just : Logged env v.log

/-- Nothing is queued while nothing is outstanding. -/
def Settled (v : Cli) : Prop := v.current = none → v.pending = []

/-! ### Numbers of calls -/

theorem allowed_sublist (l : List CEv) : List.Sublist (allowedUids l) ((submissions l).map (·.1)) := by
  simp only [allowedUids]
  induction submissions l with
  | nil => exact .slnil
  | cons c cs ih =>
    rw [List.filterMap_cons, List.map_cons]
    split
    · exact ih.cons _
    · rename_i h
      split at h
      · injection h with h; subst h; exact ih.cons_cons _
      · cases h

theorem Inv.allowedSorted {env : ClientEnv} {rem : List Mbap} {v : Cli} (h : Inv env rem v) :
    (allowedUids v.log).Pairwise (· < ·) := by
  refine List.Pairwise.sublist (allowed_sublist v.log) ?_
  rw [h.calls]
  exact List.pairwise_lt_range

theorem Inv.callUnique {env : ClientEnv} {rem : List Mbap} {v : Cli} (h : Inv env rem v) {u : Nat} {a b : UInt8} {p q : AnyReq}
    {s t : Nat} (h1 : CEv.call u a p s ∈ v.log) (h2 : CEv.call u b q t ∈ v.log) : a = b ∧ p = q ∧ s = t := by
  have hn : ((submissions v.log).map (·.1)).Nodup := by rw [h.calls]; exact List.nodup_range
  have := List.inj_on_of_nodup_map hn (mem_submissions.2 h1) (mem_submissions.2 h2) rfl
  simpa using this

theorem Inv.callBound {env : ClientEnv} {rem : List Mbap} {v : Cli} (h : Inv env rem v) {u : Nat} {a : UInt8} {p : AnyReq}
    {s : Nat} (h1 : CEv.call u a p s ∈ v.log) : u < v.nextUid := by
  have : u ∈ (submissions v.log).map (·.1) := List.mem_map.2 ⟨_, mem_submissions.2 h1, rfl⟩
  rw [h.calls] at this
  exact List.mem_range.1 this

theorem rank_snoc {l : List CEv} {e : CEv} (h : ∀ u unit q t, e ≠ .call u unit q t) (u : Nat) : rank (l ++ [e]) u = rank l u := by
  simp [rank, allowedUids_one h]

theorem rank_call {l : List CEv} {u0 : Nat} {unit : UInt8} {q : AnyReq} {t u : Nat} (h : u ≤ u0) :
    rank (l ++ [.call u0 unit q t]) u = rank l u := by
  have : (allowedUids [CEv.call u0 unit q t]).filter (· < u) = [] := by
    simp only [allowedUids, submissions, List.filterMap_cons, List.filterMap_nil]
    split
    · rfl
    · rename_i h'
      split at h'
      · injection h' with h'; subst h'; simp; omega
      · cases h'
  simp [rank, this]

theorem rank_of_split {l : List CEv} {acc rest : List Nat} {u : Nat} (hs : (allowedUids l).Pairwise (· < ·))
    (h : allowedUids l = acc ++ u :: rest) : rank l u = acc.length := by
  rw [rank, h]
  rw [h] at hs
  obtain ⟨h1, h2, h3⟩ := List.pairwise_append.1 hs
  have e1 : acc.filter (· < u) = acc := List.filter_eq_self.2 (fun a ha => by simpa using h3 a ha u (by simp))
  have e2 : (u :: rest).filter (· < u) = [] := by
    apply List.filter_eq_nil_iff.2
    intro a ha
    rcases List.mem_cons.1 ha with rfl | ha
    · simp
    · have := (List.pairwise_cons.1 h2).1 a ha; simp; omega
  rw [List.filter_append, e1, e2, List.append_nil]

/-! ### Plain events -/

theorem Inv.emit {env : ClientEnv} {rem rem' : List Mbap} {v : Cli} (h : Inv env rem v) (e : CEv) (hp : e.plain = true)
    (hs : e ≠ .tcpShutdown) (hj : Just env v.log e)
    (hf : v.isShutdown = false → ∃ mem : List UInt8, mem.length = 260 ∧
      (Parser.init env.pol mem).feed (chunksSince (v.log ++ [e])) = .ret (v.parser, messagesSince (v.log ++ [e]) ++ rem')) :
    Inv env rem' (v.emit e) := by
  have n1 : ∀ u unit q t, e ≠ .call u unit q t := by rintro u unit q t rfl; cases hp
  have n2 : ∀ u b t, e ≠ .sent u b t := by rintro u b t rfl; cases hp
  have n3 : ∀ u x t, e ≠ .handler u x t := by rintro u x t rfl; cases hp
  have c1 := submissions_one n1
  have c2 := sentUids_one n2
  have c3 := handledUids_one n3
  have c4 := allowedUids_one n1
  constructor
  · exact h.parser
  · exact hf
  · simpa [Cli.emit, c1] using h.calls
  · simpa [Cli.emit, c3, curUids, pendUids] using h.once
  · simpa [Cli.emit, c3, curUids, pendUids] using h.covered
  · intro u unit q tmo hm hq
    show u ∈ handledUids (v.log ++ [e]) ∨ _
    rw [handledUids_append, c3, List.append_nil]
    exact h.bad u unit q tmo (call_early n1 hm) hq
  · simpa [Cli.emit, c3, curUids, pendUids] using h.bound
  · simpa [Cli.emit, c2, pendUids] using h.order
  · simpa [Cli.emit, c2] using h.sentBound
  · simpa [Cli.emit, c2, c3] using h.outstanding
  · intro r hr
    obtain ⟨a, b, c⟩ := h.known r hr
    exact ⟨List.mem_append_left _ a, b, by simp only [Cli.emit]; rw [rank_snoc n1]; exact c⟩
  · refine ⟨fun u unit q t ht => ?_, fun u hu => ?_⟩
    · obtain ⟨a, b⟩ := h.tasksKnown.1 u unit q t ht
      exact ⟨List.mem_append_left _ a, b⟩
    · obtain ⟨a, b, c, d, f⟩ := h.tasksKnown.2 u hu
      exact ⟨a, b, c, List.mem_append_left _ d, f⟩
  · simpa [Cli.emit, c4] using h.tids
  · intro u hu
    simp only [Cli.emit, sentUids_append, c2, List.append_nil] at hu
    obtain ⟨a, b, c, d, f⟩ := h.sentAllowed u hu
    exact ⟨a, b, c, List.mem_append_left _ d, f⟩
  · intro r hr
    obtain ⟨a, b, c, d⟩ := h.curSent r hr
    exact ⟨a, b, List.mem_append_left _ c, d⟩
  · exact h.timerIds
  · intro x hx
    obtain ⟨a, b, c, d, f, g, h1, h2, h3⟩ := h.armedOrigin x hx
    exact ⟨a, b, c, d, f, g, List.mem_append_left _ h1, List.mem_append_left _ h2, h3⟩
  · intro x hx
    obtain ⟨a, b, c, d, f, g, h1, h2, h3⟩ := h.firedOrigin x hx
    exact ⟨a, b, c, d, f, g, List.mem_append_left _ h1, List.mem_append_left _ h2, h3⟩
  · exact h.down
  · simp only [Cli.emit, List.mem_append, List.mem_singleton]
    rw [h.downLog]
    constructor
    · rintro (h | h)
      · exact h
      · exact absurd h.symm hs
    · exact Or.inl
  · exact .snoc h.just hj

/-! ### Finishing the outstanding request -/

/-- The outstanding request's handler is called. -/
def finish (v : Cli) (r : PendingReq) (x : Expected (List UInt8)) : Cli :=
  { v.emit (.handler r.uid x v.now) with current := none }.cancelTimer

theorem cancelTimer_eq (v : Cli) : ∃ f : (Nat × Nat) → Bool, v.cancelTimer = { v with armed := v.armed.filter f } := by
  cases h : v.timer with
  | none => exact ⟨fun _ => true, by simp only [cancelTimer, h, List.filter_true]; rw [← h]⟩
  | some t => exact ⟨fun x => x.1 ≠ t, by simp [cancelTimer, h]⟩

theorem finish_isShutdown (v : Cli) (r : PendingReq) (x : Expected (List UInt8)) : (v.finish r x).isShutdown = v.isShutdown := by
  obtain ⟨f, hf⟩ := cancelTimer_eq { v.emit (.handler r.uid x v.now) with current := none }
  rw [finish, hf]; rfl

/-- Removing armed timers when nothing is outstanding. -/
theorem Inv.filterArmed {env : ClientEnv} {rem : List Mbap} {v : Cli} (h : Inv env rem v) (hc : v.current = none)
    (f : (Nat × Nat) → Bool) : Inv env rem { v with armed := v.armed.filter f } where
  parser := h.parser
  framed := h.framed
  calls := h.calls
  once := h.once
  covered := h.covered
  bad := h.bad
  bound := h.bound
  order := h.order
  sentBound := h.sentBound
  outstanding := h.outstanding
  known := h.known
  tasksKnown := h.tasksKnown
  tids := h.tids
  sentAllowed := h.sentAllowed
  curSent := fun r hr => by simp only at hr; rw [hc] at hr; cases hr
  timerIds := by
    have hsub : (((v.armed.filter f).map (·.1)) ++ v.fired).Sublist (v.armed.map (·.1) ++ v.fired) :=
      List.Sublist.append ((List.filter_sublist).map _) (List.Sublist.refl _)
    exact ⟨h.timerIds.1.sublist hsub, fun t ht => h.timerIds.2 t (hsub.subset ht)⟩
  armedOrigin := fun x hx => h.armedOrigin x (List.mem_filter.1 hx).1
  firedOrigin := h.firedOrigin
  down := h.down
  downLog := h.downLog
  just := h.just

theorem Inv.cancelTimer {env : ClientEnv} {rem : List Mbap} {v : Cli} (h : Inv env rem v) (hc : v.current = none) :
    Inv env rem v.cancelTimer := by
  obtain ⟨f, hf⟩ := cancelTimer_eq v
  rw [hf]; exact h.filterArmed hc f

theorem chunksSince_handler (l : List CEv) (u : Nat) (x : Expected (List UInt8)) (t : Nat) :
    chunksSince (l ++ [.handler u x t]) = chunksSince l := chunksSince_snoc _ _
theorem messagesSince_handler (l : List CEv) (u : Nat) (x : Expected (List UInt8)) (t : Nat) :
    messagesSince (l ++ [.handler u x t]) = messagesSince l := messagesSince_snoc _ _

theorem handledUids_handler (l : List CEv) (u : Nat) (x : Expected (List UInt8)) (t : Nat) :
    handledUids (l ++ [.handler u x t]) = handledUids l ++ [u] := by simp [handledUids]
theorem sentUids_handler (l : List CEv) (u : Nat) (x : Expected (List UInt8)) (t : Nat) :
    sentUids (l ++ [.handler u x t]) = sentUids l := by simp [sentUids]
theorem submissions_handler (l : List CEv) (u : Nat) (x : Expected (List UInt8)) (t : Nat) :
    submissions (l ++ [.handler u x t]) = submissions l := by simp [submissions]
theorem allowedUids_handler (l : List CEv) (u : Nat) (x : Expected (List UInt8)) (t : Nat) :
    allowedUids (l ++ [.handler u x t]) = allowedUids l := by rw [allowedUids, submissions_handler]; rfl
theorem rank_handler (l : List CEv) (u' : Nat) (x : Expected (List UInt8)) (t : Nat) (u : Nat) :
    rank (l ++ [.handler u' x t]) u = rank l u := by rw [rank, allowedUids_handler]; rfl

/-- Calling the handler of a request that leaves the channel. -/
theorem Inv.handled {env : ClientEnv} {rem : List Mbap} {v : Cli} (h : Inv env rem v) (u : Nat) (x : Expected (List UInt8))
    (cur : Option PendingReq) (pend : List PendingReq) (tasks : List CTask)
    (hcur : cur = v.current ∨ (cur = none ∧ v.current.map (·.uid) = some u)) (hpend : pend.Sublist v.pending) (htasks : tasks.Sublist v.tasks)
    (htids : reqTaskUids tasks = reqTaskUids v.tasks)
    (htm : ∀ a, CTask.malformed a ∈ v.tasks → a = u ∨ CTask.malformed a ∈ tasks)
    (hcount : ∀ a, [u].count a + (cur.toList.map (·.uid)).count a + (pend.map (·.uid)).count a + (taskUids tasks).count a =
      v.curUids.count a + v.pendUids.count a + (taskUids v.tasks).count a)
    (hj : Just env v.log (.handler u x v.now)) :
    Inv env rem { v.emit (.handler u x v.now) with current := cur, pending := pend, tasks := tasks } where
  parser := h.parser
  framed := by
    intro hs
    simp only [Cli.emit, chunksSince_handler, messagesSince_handler]
    exact h.framed hs
  calls := by simp only [Cli.emit, submissions_handler]; exact h.calls
  once := by
    intro a
    simp only [Cli.emit, handledUids_handler, List.count_append, curUids, pendUids]
    have := h.once a
    have := hcount a
    omega
  covered := by
    intro hs a ha
    simp only [Cli.emit, handledUids_handler, List.count_append, curUids, pendUids]
    have h1 := h.covered hs a ha
    have := hcount a
    omega
  bad := by
    intro a unit q tmo hm hq
    simp only [Cli.emit, handledUids_handler] at hm ⊢
    rcases h.bad a unit q tmo (call_early (by intros; simp) hm) hq with h1 | h1
    · exact Or.inl (List.mem_append_left _ h1)
    · rcases htm a h1 with rfl | h1
      · exact Or.inl (by simp)
      · exact Or.inr h1
  bound := by
    intro a ha
    obtain ⟨h1, h2, h3, h4⟩ := h.bound a ha
    have h5 := hcount a
    simp only [← List.count_pos_iff, Nat.not_lt, Nat.le_zero] at h1 h2 h3 h4
    simp only [Cli.emit, handledUids_handler, curUids, pendUids]
    rw [← List.count_pos_iff, ← List.count_pos_iff, ← List.count_pos_iff, ← List.count_pos_iff, List.count_append]
    simp only [curUids, pendUids] at h2 h3 h5
    omega
  order := by
    simp only [Cli.emit, sentUids_handler, pendUids, htids]
    exact h.order.sublist (List.Sublist.append (List.Sublist.refl _) (List.Sublist.append (hpend.map _) (List.Sublist.refl _)))
  sentBound := by simp only [Cli.emit, sentUids_handler]; exact h.sentBound
  outstanding := by
    obtain ⟨o, h1, h2⟩ := h.outstanding
    simp only [Cli.emit, sentUids_handler, handledUids_handler]
    rcases hcur with rfl | ⟨rfl, hc⟩
    · exact ⟨o, fun a ha hn => h1 a ha (fun hm => hn (List.mem_append_left _ hm)), h2⟩
    · cases hd : v.isShutdown with
      | true => exact ⟨o, fun a ha hn => h1 a ha (fun hm => hn (List.mem_append_left _ hm)), fun hh => by cases hh⟩
      | false =>
        refine ⟨none, fun a ha hn => ?_, fun _ => rfl⟩
        have e1 := h1 a ha (fun hm => hn (List.mem_append_left _ hm))
        have e2 := h2 hd
        rw [e2, hc] at e1
        injection e1 with e1
        subst e1
        exact absurd (List.mem_append_right _ (by simp)) hn
  known := by
    intro r hr
    have hr' : r ∈ v.current.toList ++ v.pending := by
      rcases List.mem_append.1 hr with hr | hr
      · rcases hcur with rfl | ⟨rfl, -⟩
        · exact List.mem_append_left _ hr
        · cases hr
      · exact List.mem_append_right _ (hpend.subset hr)
    obtain ⟨a, b, c⟩ := h.known r hr'
    exact ⟨List.mem_append_left _ a, b, by simp only [Cli.emit, rank_handler]; exact c⟩
  tasksKnown := by
    refine ⟨fun u unit q t ht => ?_, fun u hu => ?_⟩
    · obtain ⟨a, b⟩ := h.tasksKnown.1 u unit q t (htasks.subset ht)
      exact ⟨List.mem_append_left _ a, b⟩
    · obtain ⟨a, b, c, d, f⟩ := h.tasksKnown.2 u (htasks.subset hu)
      exact ⟨a, b, c, List.mem_append_left _ d, f⟩
  tids := by
    intro hs
    simp only [Cli.emit, allowedUids_handler, htids]
    exact h.tids hs
  sentAllowed := by
    intro a ha
    simp only [Cli.emit, sentUids_handler] at ha
    obtain ⟨x1, x2, x3, x4, x5⟩ := h.sentAllowed a ha
    exact ⟨x1, x2, x3, List.mem_append_left _ x4, x5⟩
  curSent := by
    intro r hr
    rcases hcur with rfl | ⟨rfl, -⟩
    · obtain ⟨a, b, c, d⟩ := h.curSent r hr
      exact ⟨a, b, List.mem_append_left _ c, d⟩
    · cases hr
  timerIds := h.timerIds
  armedOrigin := by
    intro x hx
    obtain ⟨a, b, c, d, f, g, h1, h2, h3⟩ := h.armedOrigin x hx
    exact ⟨a, b, c, d, f, g, List.mem_append_left _ h1, List.mem_append_left _ h2, h3⟩
  firedOrigin := by
    intro x hx
    obtain ⟨a, b, c, d, f, g, h1, h2, h3⟩ := h.firedOrigin x hx
    exact ⟨a, b, c, d, f, g, List.mem_append_left _ h1, List.mem_append_left _ h2, h3⟩
  down := by
    intro hs
    obtain ⟨h1, h2, h3⟩ := h.down hs
    refine ⟨?_, ?_, h3⟩
    · rcases hcur with rfl | ⟨rfl, -⟩
      · exact h1
      · rfl
    · rw [h2] at hpend; exact List.sublist_nil.1 hpend
  downLog := by
    simp only [Cli.emit, List.mem_append, List.mem_singleton, reduceCtorEq, or_false]
    exact h.downLog
  just := .snoc h.just hj

theorem Inv.finish {env : ClientEnv} {rem : List Mbap} {v : Cli} (h : Inv env rem v) {r : PendingReq} (hc : v.current = some r)
    {x : Expected (List UInt8)} (hj : Just env v.log (.handler r.uid x v.now)) : Inv env rem (v.finish r x) := by
  refine Inv.cancelTimer (v := { v.emit (.handler r.uid x v.now) with current := none }) ?_ rfl
  exact h.handled r.uid x none v.pending v.tasks (Or.inr ⟨rfl, by simp [hc]⟩) (List.Sublist.refl _) (List.Sublist.refl _) rfl
    (fun a ha => Or.inr ha) (by intro a; simp [curUids, pendUids, hc]) hj

/-- Facts about the outstanding request. -/
theorem Inv.current {env : ClientEnv} {rem : List Mbap} {v : Cli} (h : Inv env rem v) {r : PendingReq} (hc : v.current = some r) :
    v.isShutdown = false ∧ CEv.tcpShutdown ∉ v.log ∧ r.uid ∈ sentUids v.log ∧ r.uid ∉ handledUids v.log ∧
      CEv.call r.uid r.unit r.req r.timeout ∈ v.log ∧ Allowed r.req ∧ r.tid = UInt16.ofNat (rank v.log r.uid) := by
  have hs : v.isShutdown = false := by
    cases hd : v.isShutdown with
    | false => rfl
    | true => have := (h.down hd).1; rw [hc] at this; cases this
  refine ⟨hs, fun hm => ?_, ?_, ?_, ?_⟩
  · have := h.downLog.1 hm; rw [hs] at this; cases this
  · obtain ⟨b, t, h1, -⟩ := h.curSent r hc
    exact mem_sentUids.2 ⟨b, t, h1⟩
  · intro hm
    have h1 := h.once r.uid
    have h2 : v.curUids.count r.uid = 1 := by simp [curUids, hc]
    have h3 := List.count_pos_iff.2 hm
    omega
  · exact h.known r (by simp [hc])

/-! ### Sending -/

theorem mem_allowedUids {l : List CEv} {u : Nat} : u ∈ allowedUids l ↔ ∃ unit q tmo, CEv.call u unit q tmo ∈ l ∧ Allowed q := by
  simp only [allowedUids, List.mem_filterMap]
  constructor
  · rintro ⟨⟨a, b, c, d⟩, h1, h2⟩
    split at h2
    · rename_i hq
      injection h2 with h2
      simp only at h2; subst h2
      exact ⟨b, c, d, mem_submissions.1 h1, hq⟩
    · cases h2
  · rintro ⟨b, c, d, h1, h2⟩
    exact ⟨_, mem_submissions.2 h1, by simp [h2]⟩

theorem mem_taskUids {ts : List CTask} {u : Nat} (h : u ∈ taskUids ts) : u ∈ reqTaskUids ts ∨ CTask.malformed u ∈ ts := by
  simp only [taskUids, List.mem_filterMap] at h
  obtain ⟨t, h1, h2⟩ := h
  cases t with
  | request u' unit q tmo =>
    injection h2 with h2; subst h2
    exact Or.inl (List.mem_filterMap.2 ⟨_, h1, rfl⟩)
  | malformed u' => injection h2 with h2; subst h2; exact Or.inr h1
  | shutdown => cases h2

/-- When the first queued request is about to be sent, all earlier ones are done. -/
theorem Inv.earlier {env : ClientEnv} {rem : List Mbap} {v : Cli} (h : Inv env rem v) (hs : v.isShutdown = false)
    (hc : v.current = none) {r : PendingReq} {rest : List PendingReq} (hp : v.pending = r :: rest) {u' : Nat}
    (hu' : u' ∈ allowedUids v.log) (hlt : u' < r.uid) : u' ∈ handledUids v.log := by
  obtain ⟨unit, q, tmo, a1, a2⟩ := mem_allowedUids.1 hu'
  have h1 := h.covered hs u' (h.callBound a1)
  have hord := (List.pairwise_append.1 h.order).2.1
  simp only [pendUids, hp, List.map_cons, List.cons_append] at hord
  have hfirst := (List.pairwise_cons.1 hord).1
  have n1 : v.curUids.count u' = 0 := by simp [curUids, hc]
  have n2 : v.pendUids.count u' = 0 := by
    rw [List.count_eq_zero]
    intro hm
    simp only [pendUids, hp, List.map_cons, List.mem_cons] at hm
    rcases hm with rfl | hm
    · omega
    · have := hfirst u' (List.mem_append_left _ hm); omega
  have n3 : (taskUids v.tasks).count u' = 0 := by
    rw [List.count_eq_zero]
    intro hm
    rcases mem_taskUids hm with hm | hm
    · have := hfirst u' (List.mem_append_right _ hm); omega
    · obtain ⟨unit', q', tmo', b1, b2⟩ := h.tasksKnown.2 u' hm
      obtain ⟨-, rfl, -⟩ := h.callUnique a1 b1
      exact b2 a2
  exact List.count_pos_iff.1 (by omega)

theorem Inv.checkPending {env : ClientEnv} {rem : List Mbap} {v : Cli} (h : Inv env rem v) : Inv env rem (v.checkPending env) := by
  cases hs : v.isShutdown with
  | true => simp only [Cli.checkPending, hs, if_true]; exact h
  | false =>
    rcases hc : v.current with _ | r0
    · rcases hp : v.pending with _ | ⟨r, rest⟩
      · simp only [Cli.checkPending, hs, hc, hp, Bool.false_eq_true, if_false]; exact h
      · simp only [Cli.checkPending, hs, hc, hp, Bool.false_eq_true, if_false]
        obtain ⟨k1, k2, k3⟩ := h.known r (by simp [hp])
        have hns : r.uid ∉ sentUids v.log := by
          intro hm
          have := (List.pairwise_append.1 h.order).2.2 r.uid hm r.uid (by simp [pendUids, hp])
          omega
        have hnh : r.uid ∉ handledUids v.log := by
          intro hm
          have h1 := h.once r.uid
          have h2 : 0 < v.pendUids.count r.uid := List.count_pos_iff.2 (by simp [pendUids, hp])
          have h3 := List.count_pos_iff.2 hm
          omega
        have hlog : ∀ bytes t, submissions [CEv.sent r.uid bytes t] = [] ∧ handledUids [CEv.sent r.uid bytes t] = [] ∧
          allowedUids [CEv.sent r.uid bytes t] = [] := fun bytes t => ⟨rfl, rfl, rfl⟩
        set bytes := buildMbap r.unit r.tid (reqMsg r.req.1 r.req.2) ⟨[], (env.junk v.nsend).toList⟩ with hbytes
        constructor
        · exact h.parser
        · intro _
          simp only [Cli.emit, chunksSince_snoc, messagesSince_snoc]
          exact h.framed hs
        · simpa [Cli.emit, hlog] using h.calls
        · intro a
          have := h.once a
          simp only [curUids, pendUids, hc, hp, Option.toList, List.map_nil, List.count_nil, List.map_cons, List.count_cons] at this
          simp only [Cli.emit, handledUids_append, hlog, List.append_nil, curUids, pendUids, Option.toList, List.map_nil, List.count_nil, List.map_cons, List.count_cons]
          omega
        · intro _ a ha
          have := h.covered hs a ha
          simp only [curUids, pendUids, hc, hp, Option.toList, List.map_nil, List.count_nil, List.map_cons, List.count_cons] at this
          simp only [Cli.emit, handledUids_append, hlog, List.append_nil, curUids, pendUids, Option.toList, List.map_nil, List.count_nil, List.map_cons, List.count_cons]
          omega
        · intro u unit q tmo hm hq
          have := h.bad u unit q tmo (call_early (by intros; simp) hm) hq
          simpa [Cli.emit, handledUids] using this
        · intro a ha
          have := h.bound a ha
          simpa [Cli.emit, hlog, curUids, pendUids, hc, hp, and_assoc] using this
        · have := h.order
          simpa [Cli.emit, sentUids, pendUids, hp] using this
        · intro a ha
          simp only [Cli.emit, sentUids_append, List.mem_append] at ha
          rcases ha with ha | ha
          · exact h.sentBound a ha
          · simp only [sentUids, List.filterMap_cons, List.filterMap_nil, List.mem_singleton] at ha
            subst ha; exact h.callBound k1
        · obtain ⟨o, h1, h2⟩ := h.outstanding
          have h2 := h2 hs
          rw [hc] at h2
          subst h2
          refine ⟨some r.uid, fun a ha hn => ?_, fun _ => rfl⟩
          simp only [Cli.emit, sentUids_append, handledUids_append, hlog, List.append_nil, List.mem_append] at ha hn
          rcases ha with ha | ha
          · cases h1 a ha hn
          · simp only [sentUids, List.filterMap_cons, List.filterMap_nil, List.mem_singleton] at ha
            rw [ha]
        · intro r' hr'
          obtain ⟨a, b, c⟩ := h.known r' (by simpa [Cli.emit, hc, hp, eq_comm] using hr')
          exact ⟨List.mem_append_left _ a, b, by simp only [Cli.emit]; rw [rank_snoc (by intros; simp)]; exact c⟩
        · refine ⟨fun u unit q t ht => ?_, fun u hu => ?_⟩
          · obtain ⟨a, b⟩ := h.tasksKnown.1 u unit q t ht
            exact ⟨List.mem_append_left _ a, b⟩
          · obtain ⟨a, b, c, d, f⟩ := h.tasksKnown.2 u hu
            exact ⟨a, b, c, List.mem_append_left _ d, f⟩
        · intro _
          simpa [Cli.emit, hlog] using h.tids hs
        · intro a ha
          simp only [Cli.emit, sentUids_append, List.mem_append] at ha
          rcases ha with ha | ha
          · obtain ⟨x1, x2, x3, x4, x5⟩ := h.sentAllowed a ha
            exact ⟨x1, x2, x3, List.mem_append_left _ x4, x5⟩
          · simp only [sentUids, List.filterMap_cons, List.filterMap_nil, List.mem_singleton] at ha
            subst ha
            exact ⟨_, _, _, List.mem_append_left _ k1, k2⟩
        · intro r' hr'
          injection hr' with hr'; subst hr'
          exact ⟨bytes, v.now, by simp [Cli.emit], v.nextTimer, rfl, Or.inl (by simp [Cli.emit])⟩
        · obtain ⟨t1, t2⟩ := h.timerIds
          have hn : v.nextTimer ∉ v.armed.map (·.1) ++ v.fired := fun hm => Nat.lt_irrefl _ (t2 _ hm)
          refine ⟨?_, ?_⟩
          · rw [List.nodup_iff_count_le_one] at t1 ⊢
            intro a
            have := t1 a
            have hz : (v.armed.map (·.1)).count v.nextTimer = 0 ∧ v.fired.count v.nextTimer = 0 := by
              simp only [List.mem_append, not_or] at hn
              exact ⟨List.count_eq_zero.2 hn.1, List.count_eq_zero.2 hn.2⟩
            simp only [Cli.emit, List.map_append, List.map_cons, List.map_nil, List.count_append, List.count_cons, List.count_nil] at this ⊢
            by_cases ha : v.nextTimer = a
            · subst ha; simp [hz.1, hz.2]
            · simp only [beq_iff_eq, ha, if_false]; omega
          · intro a ha
            simp only [Cli.emit, List.map_append, List.map_cons, List.map_nil, List.mem_append, List.mem_singleton] at ha
            show a < v.nextTimer + 1
            rcases ha with (ha | rfl) | ha
            · have := t2 a (List.mem_append_left _ ha); omega
            · omega
            · have := t2 a (List.mem_append_right _ ha); omega
        · intro x hx
          simp only [Cli.emit, List.mem_append, List.mem_singleton] at hx
          rcases hx with hx | rfl
          · obtain ⟨a, b, c, d, f, g, h1, h2, h3⟩ := h.armedOrigin x hx
            exact ⟨a, b, c, d, f, g, List.mem_append_left _ h1, List.mem_append_left _ h2, h3⟩
          · exact ⟨r.uid, bytes, v.now, r.unit, r.req, r.timeout, by simp [Cli.emit], List.mem_append_left _ k1, rfl⟩
        · intro x hx
          obtain ⟨a, b, c, d, f, g, h1, h2, h3⟩ := h.firedOrigin x hx
          exact ⟨a, b, c, d, f, g, List.mem_append_left _ h1, List.mem_append_left _ h2, h3⟩
        · intro hd; cases hd
        · simp only [Cli.emit, List.mem_append, List.mem_singleton, reduceCtorEq, or_false]
          rw [h.downLog, hs]; simp
        · refine .snoc h.just ⟨fun hm => ?_, hns, hnh, ?_, ?_, r.unit, r.req, r.timeout, k1, k2, (env.junk v.nsend).toList, by simp, ?_⟩
          · have := h.downLog.1 hm; rw [hs] at this; cases this
          · intro u' hu'
            obtain ⟨o, o1, o2⟩ := h.outstanding
            by_contra hn
            have := o1 u' hu' hn
            rw [o2 hs, hc] at this
            cases this
          · intro u' hu' hlt
            exact h.earlier hs hc hp hu' hlt
          · rw [hbytes, k3]
    · simp only [Cli.checkPending, hs, hc, Bool.false_eq_true, if_false]; exact h

theorem checkPending_settled (env : ClientEnv) (v : Cli) : v.isShutdown = false → Settled (v.checkPending env) := by
  intro hs
  rcases hc : v.current with _ | r0
  · rcases hp : v.pending with _ | ⟨r, rest⟩
    · simp [Cli.checkPending, hs, hc, hp, Settled]
    · simp [Cli.checkPending, hs, hc, hp, Settled, Cli.emit]
  · simp [Cli.checkPending, hs, hc, Settled]

theorem checkPending_isShutdown (env : ClientEnv) (v : Cli) : (v.checkPending env).isShutdown = v.isShutdown := by
  cases hs : v.isShutdown with
  | true => simp [Cli.checkPending, hs]
  | false =>
    rcases hc : v.current with _ | r0
    · rcases hp : v.pending with _ | ⟨r, rest⟩ <;> simp [Cli.checkPending, hs, hc, hp, Cli.emit]
    · simp [Cli.checkPending, hs, hc]

/-! ### The handlers of events -/

theorem cancelCurrent_eq (env : ClientEnv) (v : Cli) (r : PendingReq) (x : Expected (List UInt8)) (hc : v.current = some r) :
    (v.emit (.handler r.uid x v.now)).cancelCurrent env = (v.finish r x).checkPending env := by
  have : (v.emit (.handler r.uid x v.now)).current = some r := hc
  simp only [cancelCurrent, this]
  rfl

theorem finish_eq (v : Cli) (r : PendingReq) (x : Expected (List UInt8)) :
    { v.cancelTimer.emit (.handler r.uid x v.cancelTimer.now) with current := none } = v.finish r x := by
  unfold finish cancelTimer
  simp only [Cli.emit]
  split <;> rename_i h <;> simp_all

/-- The reaction to a message. -/
theorem onMbap_eq (env : ClientEnv) (v : Cli) (m : Mbap) :
    (v.onMbap env m = v.emit (.mbap m) ∧ (v.isShutdown = true ∨ ∀ r, v.current = some r → ¬ (m.tid = r.tid ∧ m.unit = r.unit))) ∨
    ∃ r, v.isShutdown = false ∧ v.current = some r ∧ m.tid = r.tid ∧ m.unit = r.unit ∧
      v.onMbap env m = ((v.emit (.mbap m)).finish r (.ok m.data)).checkPending env := by
  have e1 : (v.emit (.mbap m)).isShutdown = v.isShutdown := rfl
  have e2 : (v.emit (.mbap m)).current = v.current := rfl
  cases hs : v.isShutdown with
  | true => left; simp [onMbap, e1, hs]
  | false =>
    rcases hc : v.current with _ | r
    · left; simp [onMbap, e1, e2, hs, hc]
    · by_cases hm : m.tid = r.tid ∧ m.unit = r.unit
      · right
        refine ⟨r, rfl, rfl, hm.1, hm.2, ?_⟩
        rw [← finish_eq]
        simp only [onMbap, e1, e2, hs, hc, Bool.false_eq_true, if_false, if_pos hm]
      · left
        simp only [onMbap, e1, e2, hs, hc, Bool.false_eq_true, if_false, if_neg hm, false_or, true_and]
        intro r' hr'
        injection hr' with hr'; subst hr'; exact hm

theorem Inv.onMbap {env : ClientEnv} {rem : List Mbap} {v : Cli} {m : Mbap} (h : Inv env (m :: rem) v) (hs : v.isShutdown = false) :
    Inv env rem (v.onMbap env m) := by
  have hnd : CEv.tcpShutdown ∉ v.log := fun hm => by have := h.downLog.1 hm; rw [hs] at this; cases this
  obtain ⟨mem, f1, f2⟩ := h.framed hs
  have h1 : Inv env rem (v.emit (.mbap m)) := by
    refine h.emit _ rfl (by simp) ⟨hnd, messagesSince v.log ++ m :: rem, ⟨mem, f1, _, f2⟩, ⟨rem, by simp⟩⟩ (fun _ => ⟨mem, f1, ?_⟩)
    simp only [chunksSince_snoc, messagesSince_snoc]
    rw [f2]; simp
  rcases onMbap_eq env v m with ⟨h2, -⟩ | ⟨r, -, hc, ht, hu, h2⟩
  · rw [h2]; exact h1
  · rw [h2]
    obtain ⟨c1, c2, c3, c4, c5, c6, c7⟩ := h1.current (r := r) hc
    exact (h1.finish (r := r) (x := .ok m.data) hc ⟨c2, c3, c4, v.log, m, r.unit, r.req, r.timeout, rfl, rfl, c5, c6, hu, by rw [ht, c7]⟩).checkPending

theorem onMbap_isShutdown (env : ClientEnv) (v : Cli) (m : Mbap) : (v.onMbap env m).isShutdown = v.isShutdown := by
  rcases onMbap_eq env v m with ⟨h2, -⟩ | ⟨r, -, hc, ht, hu, h2⟩
  · rw [h2]; rfl
  · rw [h2, checkPending_isShutdown, finish_isShutdown]; rfl

theorem onMbap_settled (env : ClientEnv) (v : Cli) (m : Mbap) (h : Settled v) : Settled (v.onMbap env m) := by
  rcases onMbap_eq env v m with ⟨h2, -⟩ | ⟨r, hs, hc, ht, hu, h2⟩
  · rw [h2]; exact h
  · rw [h2]; exact checkPending_settled _ _ (by rw [finish_isShutdown]; exact hs)

theorem Inv.onMbaps {env : ClientEnv} (ms : List Mbap) : ∀ {v : Cli}, Inv env ms v → v.isShutdown = false → Settled v →
    Inv env [] (v.onMbaps env ms) ∧ Settled (v.onMbaps env ms) ∧ (v.onMbaps env ms).isShutdown = false := by
  induction ms with
  | nil => exact fun h hs ht => ⟨h, ht, hs⟩
  | cons m ms ih =>
    intro v h hs ht
    exact ih (h.onMbap hs) (by rw [onMbap_isShutdown]; exact hs) (onMbap_settled _ _ _ ht)

/-- Data has been split into messages. -/
theorem Inv.received {env : ClientEnv} {v : Cli} (h : Inv env [] v) (hs : v.isShutdown = false) {d : List UInt8} {p' : Parser} {ms : List Mbap}
    {pend' : List UInt8} (hparse : v.parser.parse d = .ret (p', ms)) (hrep' : Rep p' pend') (hpol' : p'.pol = v.parser.pol) :
    Inv env ms { v.emit (.data d) with parser := p' } := by
  obtain ⟨hpol, pend, hrep⟩ := h.parser
  obtain ⟨mem, f1, f2⟩ := h.framed hs
  rw [List.append_nil] at f2
  constructor
  · exact ⟨by rw [hpol', hpol], pend', hrep'⟩
  · intro _
    refine ⟨mem, f1, ?_⟩
    simp only [Cli.emit, chunksSince_snoc, messagesSince_snoc]
    exact Props.feed_snoc _ _ _ f2 hparse
  · simpa [Cli.emit, submissions] using h.calls
  · simpa [Cli.emit, handledUids, curUids, pendUids] using h.once
  · simpa [Cli.emit, handledUids, curUids, pendUids] using h.covered
  · intro u unit q tmo hm hq
    have := h.bad u unit q tmo (call_early (by intros; simp) hm) hq
    simpa [Cli.emit, handledUids] using this
  · simpa [Cli.emit, handledUids, curUids, pendUids] using h.bound
  · simpa [Cli.emit, sentUids, pendUids] using h.order
  · simpa [Cli.emit, sentUids] using h.sentBound
  · simpa [Cli.emit, sentUids, handledUids] using h.outstanding
  · intro r hr
    obtain ⟨a, b, c⟩ := h.known r hr
    exact ⟨List.mem_append_left _ a, b, by simp only [Cli.emit]; rw [rank_snoc (by intros; simp)]; exact c⟩
  · refine ⟨fun u unit q t ht => ?_, fun u hu => ?_⟩
    · obtain ⟨a, b⟩ := h.tasksKnown.1 u unit q t ht
      exact ⟨List.mem_append_left _ a, b⟩
    · obtain ⟨a, b, c, d, f⟩ := h.tasksKnown.2 u hu
      exact ⟨a, b, c, List.mem_append_left _ d, f⟩
  · intro _
    have := h.tids hs
    simpa [Cli.emit, allowedUids_one (e := .data d) (by intros; simp)] using this
  · intro u hu
    simp only [Cli.emit, sentUids_append, sentUids_one (e := .data d) (by intros; simp), List.append_nil] at hu
    obtain ⟨a, b, c, d, f⟩ := h.sentAllowed u hu
    exact ⟨a, b, c, List.mem_append_left _ d, f⟩
  · intro r hr
    obtain ⟨a, b, c, d⟩ := h.curSent r hr
    exact ⟨a, b, List.mem_append_left _ c, d⟩
  · exact h.timerIds
  · intro x hx
    obtain ⟨a, b, c, d, f, g, h1, h2, h3⟩ := h.armedOrigin x hx
    exact ⟨a, b, c, d, f, g, List.mem_append_left _ h1, List.mem_append_left _ h2, h3⟩
  · intro x hx
    obtain ⟨a, b, c, d, f, g, h1, h2, h3⟩ := h.firedOrigin x hx
    exact ⟨a, b, c, d, f, g, List.mem_append_left _ h1, List.mem_append_left _ h2, h3⟩
  · exact h.down
  · simp only [Cli.emit, List.mem_append, List.mem_singleton, reduceCtorEq, or_false]
    exact h.downLog
  · exact .snoc h.just trivial

/-- Data is received. -/
theorem Inv.onReceive {env : ClientEnv} {v : Cli} (h : Inv env [] v) (ht : Settled v) (d : List UInt8) :
    ∃ v', v.onReceive env d = .ret v' ∧ Inv env [] v' ∧ Settled v' ∧ v'.isShutdown = v.isShutdown := by
  cases hs : v.isShutdown with
  | true =>
    refine ⟨v.emit (.data d), by simp [Cli.onReceive, Cli.emit, hs], ?_, ht, hs⟩
    exact h.emit _ rfl (by simp) trivial (fun hh => by rw [hs] at hh; cases hh)
  | false =>
    obtain ⟨hpol, pend, hrep⟩ := h.parser
    obtain ⟨p', ms, pend', hparse, hrep', hpol'⟩ := Srv.parse_total hrep d
    obtain ⟨mem, f1, f2⟩ := h.framed hs
    rw [List.append_nil] at f2
    have hi : Inv env ms { v.emit (.data d) with parser := p' } := h.received hs hparse hrep' hpol'
    obtain ⟨a, b, c⟩ := hi.onMbaps ms (v := { v.emit (.data d) with parser := p' }) hs ht
    refine ⟨_, ?_, a, b, c⟩
    have e1 : (v.emit (.data d)).isShutdown = false := hs
    have e2 : (v.emit (.data d)).parser.parse d = .ret (p', ms) := hparse
    simp only [Cli.onReceive, e1, e2, Bool.false_eq_true, if_false, CM.ret_bind]
    rfl

/-- A timer's callback. -/
theorem Inv.onTimer {env : ClientEnv} {v : Cli} (h : Inv env [] v) (ht : Settled v)
    (hj : v.isShutdown = false → ∀ r, v.current = some r → ∃ u' b' t' unit' q' tmo', CEv.sent u' b' t' ∈ v.log ∧
      CEv.call u' unit' q' tmo' ∈ v.log ∧ t' + tmo' ≤ v.now) :
    Inv env [] (v.onTimer env) ∧ Settled (v.onTimer env) ∧ (v.onTimer env).isShutdown = v.isShutdown := by
  cases hs : v.isShutdown with
  | true => simp only [Cli.onTimer, hs, if_true]; exact ⟨h, ht, trivial⟩
  | false =>
    rcases hc : v.current with _ | r
    · simp only [Cli.onTimer, hs, hc, Bool.false_eq_true, if_false]; exact ⟨h, ht, trivial⟩
    · simp only [Cli.onTimer, hs, hc, Bool.false_eq_true, if_false]
      rw [cancelCurrent_eq env v r _ hc]
      obtain ⟨c1, c2, c3, c4, c5, c6, c7⟩ := h.current hc
      refine ⟨(h.finish (x := .error .timeout) hc ⟨c2, c3, c4, hj hs r hc⟩).checkPending, checkPending_settled _ _ (by rw [finish_isShutdown]; exact hs), ?_⟩
      rw [checkPending_isShutdown, finish_isShutdown]; exact hs

theorem cancelPending_cons (v : Cli) (r : PendingReq) (rest : List PendingReq) (h : v.pending = r :: rest) :
    v.cancelPending = ({ v.emit (.handler r.uid (.error .connection) v.now) with pending := rest } : Cli).cancelPending := by
  simp [cancelPending, h, Cli.emit]

theorem Inv.cancelPending {env : ClientEnv} (n : Nat) : ∀ {v : Cli}, v.pending.length = n → Inv env [] v → v.isShutdown = false →
    (∃ l0 l1, v.log = l0 ++ .connError :: l1 ∧ ∀ e ∈ l1, ∃ u' t', e = .handler u' (.error .connection) t') →
    Inv env [] v.cancelPending ∧
    (∃ l0 l1, v.cancelPending.log = l0 ++ .connError :: l1 ∧ ∀ e ∈ l1, ∃ u' t', e = .handler u' (.error .connection) t') := by
  induction n with
  | zero =>
    intro v hn h hs hl
    have hp : v.pending = [] := List.length_eq_zero_iff.1 hn
    have : v.cancelPending = v := by
      rcases v with ⟨⟩
      simp only at hp; subst hp
      simp [Cli.cancelPending]
    rw [this]; exact ⟨h, hl⟩
  | succ n ih =>
    intro v hn h hs hl
    rcases hp : v.pending with _ | ⟨r, rest⟩
    · rw [hp] at hn; cases hn
    · rw [cancelPending_cons v r rest hp]
      obtain ⟨k1, k2, k3⟩ := h.known r (by simp [hp])
      have hnd : CEv.tcpShutdown ∉ v.log := fun hm => by have := h.downLog.1 hm; rw [hs] at this; cases this
      have hnh : r.uid ∉ handledUids v.log := by
        intro hm
        have h1 := h.once r.uid
        have h2 : 0 < v.pendUids.count r.uid := List.count_pos_iff.2 (by simp [pendUids, hp])
        have h3 := List.count_pos_iff.2 hm
        omega
      refine ih (by simpa [hp] using hn) ?_ hs ?_
      · refine h.handled r.uid _ v.current rest v.tasks (Or.inl rfl) (by rw [hp]; exact List.sublist_cons_self _ _) (List.Sublist.refl _) rfl (fun a ha => Or.inr ha) ?_
          ⟨hnd, hnh, ⟨_, _, _, k1, k2⟩, hl⟩
        intro a
        simp only [curUids, pendUids, hp, List.map_cons, List.count_cons, List.count_nil]
        omega
      · obtain ⟨l0, l1, h1, h2⟩ := hl
        refine ⟨l0, l1 ++ [.handler r.uid (.error .connection) v.now], by simp [Cli.emit, h1], ?_⟩
        intro e he
        rcases List.mem_append.1 he with he | he
        · exact h2 e he
        · exact ⟨_, _, List.mem_singleton.1 he⟩

/-- State after everything queued has failed. -/
def failed (v : Cli) : Cli := ({ v.emit .connError with parser := v.parser.reset } : Cli).cancelPending

theorem onError_eq (env : ClientEnv) (v : Cli) : v.onError env =
    if v.isShutdown = true then v.emit .connError
    else match v.current with
      | none => v.failed
      | some r => (v.failed.finish r (.error .connection)).checkPending env := by
  unfold onError
  have e1 : (v.emit .connError).isShutdown = v.isShutdown := rfl
  simp only [e1]
  split
  · rfl
  · show (match v.failed.current with
      | none => v.failed
      | some r => (v.failed.emit (.handler r.uid (.error .connection) v.failed.now)).cancelCurrent env) = _
    have e3 : v.failed.current = v.current := rfl
    rcases hc : v.current with _ | r
    · simp only [e3, hc]
    · simp only [e3, hc]
      rw [cancelCurrent_eq env v.failed r _ (by rw [e3, hc])]

theorem Inv.onError {env : ClientEnv} {v : Cli} (h : Inv env [] v) (ht : Settled v) :
    Inv env [] (v.onError env) ∧ Settled (v.onError env) ∧ (v.onError env).isShutdown = v.isShutdown := by
  cases hs : v.isShutdown with
  | true =>
    rw [onError_eq, if_pos hs]
    exact ⟨h.emit _ rfl (by simp) trivial (fun hh => by rw [hs] at hh; cases hh), ht, hs⟩
  | false =>
    have e1 : (v.emit .connError).isShutdown = false := hs
    obtain ⟨hpol, pend, hrep⟩ := h.parser
    have hi : Inv env [] { v.emit .connError with parser := v.parser.reset } := by
      constructor
      · exact ⟨hpol, [], rep_reset _ hrep.mem_length⟩
      · intro _
        refine ⟨v.parser.view.mem, hrep.mem_length, ?_⟩
        simp only [Cli.emit, chunksSince_snoc, messagesSince_snoc]
        rw [← hpol]; rfl
      · simpa [Cli.emit, submissions] using h.calls
      · simpa [Cli.emit, handledUids, curUids, pendUids] using h.once
      · simpa [Cli.emit, handledUids, curUids, pendUids] using h.covered
      · intro u unit q tmo hm hq
        have := h.bad u unit q tmo (call_early (by intros; simp) hm) hq
        simpa [Cli.emit, handledUids] using this
      · simpa [Cli.emit, handledUids, curUids, pendUids] using h.bound
      · simpa [Cli.emit, sentUids, pendUids] using h.order
      · simpa [Cli.emit, sentUids] using h.sentBound
      · simpa [Cli.emit, sentUids, handledUids] using h.outstanding
      · intro r hr
        obtain ⟨a, b, c⟩ := h.known r hr
        exact ⟨List.mem_append_left _ a, b, by simp only [Cli.emit]; rw [rank_snoc (by intros; simp)]; exact c⟩
      · refine ⟨fun u unit q t ht => ?_, fun u hu => ?_⟩
        · obtain ⟨a, b⟩ := h.tasksKnown.1 u unit q t ht
          exact ⟨List.mem_append_left _ a, b⟩
        · obtain ⟨a, b, c, d, f⟩ := h.tasksKnown.2 u hu
          exact ⟨a, b, c, List.mem_append_left _ d, f⟩
      · intro _
        have := h.tids hs
        simpa [Cli.emit, allowedUids_one (e := .connError) (by intros; simp)] using this
      · intro u hu
        simp only [Cli.emit, sentUids_append, sentUids_one (e := .connError) (by intros; simp), List.append_nil] at hu
        obtain ⟨a, b, c, d, f⟩ := h.sentAllowed u hu
        exact ⟨a, b, c, List.mem_append_left _ d, f⟩
      · intro r hr
        obtain ⟨a, b, c, d⟩ := h.curSent r hr
        exact ⟨a, b, List.mem_append_left _ c, d⟩
      · exact h.timerIds
      · intro x hx
        obtain ⟨a, b, c, d, f, g, h1, h2, h3⟩ := h.armedOrigin x hx
        exact ⟨a, b, c, d, f, g, List.mem_append_left _ h1, List.mem_append_left _ h2, h3⟩
      · intro x hx
        obtain ⟨a, b, c, d, f, g, h1, h2, h3⟩ := h.firedOrigin x hx
        exact ⟨a, b, c, d, f, g, List.mem_append_left _ h1, List.mem_append_left _ h2, h3⟩
      · exact h.down
      · simp only [Cli.emit, List.mem_append, List.mem_singleton, reduceCtorEq, or_false]
        exact h.downLog
      · exact .snoc h.just trivial
    obtain ⟨h2, hl⟩ := Inv.cancelPending _ rfl hi hs ⟨v.log, [], rfl, by simp⟩
    have e3 : v.failed.current = v.current := rfl
    have e4 : v.failed.isShutdown = v.isShutdown := rfl
    have e5 : v.failed.pending = [] := rfl
    rw [onError_eq, if_neg (by rw [hs]; simp)]
    rcases hc : v.current with _ | r
    · exact ⟨h2, fun _ => e5, hs⟩
    · obtain ⟨c1, c2, c3, c4, c5, c6, c7⟩ := Inv.current (v := v.failed) h2 (by rw [e3, hc])
      refine ⟨(Inv.finish (v := v.failed) (x := .error .connection) h2 (by rw [e3, hc]) ⟨c2, c4, ⟨_, _, _, c5, c6⟩, hl⟩).checkPending, ?_, ?_⟩
      · exact checkPending_settled _ _ (by rw [finish_isShutdown, e4, hs])
      · rw [checkPending_isShutdown, finish_isShutdown, e4, hs]

/-! ### Posted tasks -/

theorem taskUids_cons (t : CTask) (ts : List CTask) : taskUids (t :: ts) = t.uid?.toList ++ taskUids ts := by
  cases h : t.uid? <;> simp [taskUids, h]

theorem reqTaskUids_cons (t : CTask) (ts : List CTask) : reqTaskUids (t :: ts) = t.req?.toList ++ reqTaskUids ts := by
  cases h : t.req? <;> simp [reqTaskUids, h]

/-- Dropping the first task: after shutdown, or one that is not a request. -/
theorem Inv.dropTask {env : ClientEnv} {rem : List Mbap} {v : Cli} (h : Inv env rem v) {t : CTask} {ts : List CTask} (ht : v.tasks = t :: ts)
    (hd : (v.isShutdown = true ∧ ∀ u, t ≠ .malformed u) ∨ t = .shutdown) : Inv env rem { v with tasks := ts } where
  parser := h.parser
  framed := h.framed
  calls := h.calls
  once := by
    intro a
    have := h.once a
    rw [ht, taskUids_cons, List.count_append] at this
    show (handledUids v.log).count a + v.curUids.count a + v.pendUids.count a + (taskUids ts).count a ≤ 1
    omega
  covered := by
    intro hs a ha
    rcases hd with ⟨hd, -⟩ | hd
    · simp only at hs; rw [hs] at hd; cases hd
    · have := h.covered hs a ha
      rw [ht, taskUids_cons, hd] at this
      exact this
  bad := by
    intro a unit q tmo hm hq
    rcases h.bad a unit q tmo hm hq with h1 | h1
    · exact Or.inl h1
    · rw [ht] at h1
      rcases List.mem_cons.1 h1 with h1 | h1
      · rcases hd with ⟨-, hd⟩ | hd
        · exact absurd h1.symm (hd a)
        · rw [hd] at h1; cases h1
      · exact Or.inr h1
  bound := by
    intro a ha
    obtain ⟨h1, h2, h3, h4⟩ := h.bound a ha
    rw [ht, taskUids_cons] at h4
    exact ⟨h1, h2, h3, fun hm => h4 (List.mem_append_right _ hm)⟩
  order := by
    have := h.order
    rw [ht, reqTaskUids_cons] at this
    refine this.sublist ?_
    exact List.Sublist.append (List.Sublist.refl _) (List.Sublist.append (List.Sublist.refl _) (List.sublist_append_right _ _))
  sentBound := h.sentBound
  outstanding := h.outstanding
  known := h.known
  tasksKnown := ⟨fun u unit q t' hm => h.tasksKnown.1 u unit q t' (by rw [ht]; exact List.mem_cons_of_mem _ hm),
    fun u hm => h.tasksKnown.2 u (by rw [ht]; exact List.mem_cons_of_mem _ hm)⟩
  tids := by
    intro hs
    rcases hd with ⟨hd, -⟩ | hd
    · simp only at hs; rw [hs] at hd; cases hd
    · have := h.tids hs
      rwa [ht, reqTaskUids_cons, hd] at this
  sentAllowed := h.sentAllowed
  curSent := h.curSent
  timerIds := h.timerIds
  armedOrigin := h.armedOrigin
  firedOrigin := h.firedOrigin
  down := h.down
  downLog := h.downLog
  just := h.just

/-- Accepting a request. -/
theorem Inv.accept {env : ClientEnv} {rem : List Mbap} {v : Cli} (h : Inv env rem v) {u : Nat} {unit : UInt8} {q : AnyReq} {tmo : Nat}
    {ts : List CTask} (ht : v.tasks = .request u unit q tmo :: ts) (hs : v.isShutdown = false) :
    Inv env rem { v with tasks := ts, pending := v.pending ++ [PendingReq.mk u unit v.nextTid q tmo], nextTid := v.nextTid + 1 } := by
  obtain ⟨k1, k2⟩ := h.tasksKnown.1 u unit q tmo (by rw [ht]; exact List.mem_cons_self)
  obtain ⟨acc, t1, t2⟩ := h.tids hs
  rw [ht, reqTaskUids_cons] at t1
  constructor
  · exact h.parser
  · exact h.framed
  · exact h.calls
  · intro a
    have := h.once a
    rw [ht, taskUids_cons, List.count_append] at this
    simp only [curUids, pendUids, List.map_append, List.map_cons, List.map_nil, List.count_append, CTask.uid?, Option.toList] at this ⊢
    omega
  · intro _ a ha
    have := h.covered hs a ha
    rw [ht, taskUids_cons, List.count_append] at this
    simp only [curUids, pendUids, List.map_append, List.map_cons, List.map_nil, List.count_append, CTask.uid?, Option.toList] at this ⊢
    omega
  · intro a unit' q' tmo' hm hq
    rcases h.bad a unit' q' tmo' hm hq with h1 | h1
    · exact Or.inl h1
    · rw [ht] at h1
      rcases List.mem_cons.1 h1 with h1 | h1
      · cases h1
      · exact Or.inr h1
  · intro a ha
    obtain ⟨h1, h2, h3, h4⟩ := h.bound a ha
    rw [ht, taskUids_cons] at h4
    refine ⟨h1, h2, ?_, fun hm => h4 (List.mem_append_right _ hm)⟩
    simp only [pendUids, List.map_append, List.map_cons, List.map_nil, List.mem_append, List.mem_singleton, not_or]
    refine ⟨h3, fun hm => h4 ?_⟩
    subst hm; simp [CTask.uid?]
  · have := h.order
    rw [ht, reqTaskUids_cons] at this
    simpa [pendUids, CTask.req?] using this
  · exact h.sentBound
  · exact h.outstanding
  · intro r hr
    simp only [List.mem_append, List.mem_singleton] at hr
    rcases hr with hr | hr | rfl
    · exact h.known r (List.mem_append_left _ hr)
    · exact h.known r (List.mem_append_right _ hr)
    · refine ⟨k1, k2, ?_⟩
      show v.nextTid = _
      rw [t2, rank_of_split h.allowedSorted t1]
  · exact ⟨fun u unit q t' hm => h.tasksKnown.1 u unit q t' (by rw [ht]; exact List.mem_cons_of_mem _ hm),
      fun u hm => h.tasksKnown.2 u (by rw [ht]; exact List.mem_cons_of_mem _ hm)⟩
  · intro _
    refine ⟨acc ++ [u], by rw [t1]; simp [CTask.req?], ?_⟩
    simp only [t2, List.length_append, List.length_singleton]
    rw [UInt16.ofNat_add]; rfl
  · exact h.sentAllowed
  · exact h.curSent
  · exact h.timerIds
  · exact h.armedOrigin
  · exact h.firedOrigin
  · intro hd; simp only at hd; rw [hs] at hd; cases hd
  · exact h.downLog
  · exact h.just

/-- Announcing the shutdown to the sessions. -/
theorem Inv.sessionShutdowns {env : ClientEnv} (ss : List Nat) : ∀ {v : Cli}, Inv env [] v → v.isShutdown = false →
    Inv env [] { v with log := v.log ++ ss.map CEv.sessionShutdown } := by
  induction ss with
  | nil => intro v h _; simpa using h
  | cons x ss ih =>
    intro v h hs
    have hnd : CEv.tcpShutdown ∉ v.log := fun hm => by have := h.downLog.1 hm; rw [hs] at this; cases this
    have h1 : Inv env [] (v.emit (.sessionShutdown x)) := by
      refine h.emit _ rfl (by simp) hnd (fun _ => ?_)
      simp only [chunksSince_snoc, messagesSince_snoc]
      exact h.framed hs
    have := ih h1 hs
    simpa [Cli.emit] using this

/-- Shutting down. -/
theorem Inv.shutdown {env : ClientEnv} {v : Cli} (h : Inv env [] v) :
    Inv env [] ({ v with isShutdown := true, sessions := [], pending := [], current := none }.cancelTimer.emit .tcpShutdown) := by
  obtain ⟨f, hf⟩ := cancelTimer_eq { v with isShutdown := true, sessions := [], pending := [], current := none }
  rw [hf]
  constructor
  · exact h.parser
  · intro hs; cases hs
  · simpa [Cli.emit, submissions] using h.calls
  · intro a
    have := h.once a
    simp only [Cli.emit, curUids, pendUids, handledUids_append, List.count_append, Option.toList, List.map_nil, List.count_nil] at this ⊢
    have : (handledUids [CEv.tcpShutdown]).count a = 0 := rfl
    omega
  · intro hs; cases hs
  · intro u unit q tmo hm hq
    have := h.bad u unit q tmo (call_early (by intros; simp) hm) hq
    simpa [Cli.emit, handledUids] using this
  · intro a ha
    obtain ⟨h1, h2, h3, h4⟩ := h.bound a ha
    exact ⟨by simpa [Cli.emit, handledUids] using h1, by simp [Cli.emit, curUids], by simp [Cli.emit, pendUids], h4⟩
  · have := h.order
    have e : sentUids [CEv.tcpShutdown] = [] := rfl
    simp only [Cli.emit, sentUids_append, e, List.append_nil, pendUids, List.map_nil, List.nil_append]
    exact this.sublist (List.Sublist.append (List.Sublist.refl _) (List.sublist_append_right _ _))
  · simpa [Cli.emit, sentUids] using h.sentBound
  · obtain ⟨o, h1, -⟩ := h.outstanding
    exact ⟨o, by simpa [Cli.emit, sentUids, handledUids] using h1, fun hs => by cases hs⟩
  · intro r hr; simp [Cli.emit] at hr
  · refine ⟨fun u unit q t ht => ?_, fun u hu => ?_⟩
    · obtain ⟨a, b⟩ := h.tasksKnown.1 u unit q t ht
      exact ⟨List.mem_append_left _ a, b⟩
    · obtain ⟨a, b, c, d, f⟩ := h.tasksKnown.2 u hu
      exact ⟨a, b, c, List.mem_append_left _ d, f⟩
  · intro hs; cases hs
  · intro u hu
    simp only [Cli.emit, sentUids_append, sentUids_one (e := .tcpShutdown) (by intros; simp), List.append_nil] at hu
    obtain ⟨a, b, c, d, f⟩ := h.sentAllowed u hu
    exact ⟨a, b, c, List.mem_append_left _ d, f⟩
  · intro r hr; cases hr
  · have hsub : (((v.armed.filter f).map (·.1)) ++ v.fired).Sublist (v.armed.map (·.1) ++ v.fired) :=
      List.Sublist.append ((List.filter_sublist).map _) (List.Sublist.refl _)
    exact ⟨h.timerIds.1.sublist hsub, fun t ht => h.timerIds.2 t (hsub.subset ht)⟩
  · intro x hx
    obtain ⟨a, b, c, d, f, g, h1, h2, h3⟩ := h.armedOrigin x (List.mem_filter.1 hx).1
    exact ⟨a, b, c, d, f, g, List.mem_append_left _ h1, List.mem_append_left _ h2, h3⟩
  · intro x hx
    obtain ⟨a, b, c, d, f, g, h1, h2, h3⟩ := h.firedOrigin x hx
    exact ⟨a, b, c, d, f, g, List.mem_append_left _ h1, List.mem_append_left _ h2, h3⟩
  · intro _; exact ⟨rfl, rfl, rfl⟩
  · simp [Cli.emit]
  · exact .snoc h.just trivial

theorem Inv.runTask {env : ClientEnv} {v : Cli} (h : Inv env [] v) (hset : Settled v) {t : CTask} {ts : List CTask}
    (ht : v.tasks = t :: ts) : Inv env [] ({ v with tasks := ts }.runTask env t) ∧ Settled ({ v with tasks := ts }.runTask env t) := by
  cases t with
  | request u unit q tmo =>
    cases hs : v.isShutdown with
    | true =>
      simp only [Cli.runTask, if_true]
      have := h.dropTask ht (Or.inl ⟨hs, by simp⟩)
      exact ⟨by simpa [hs] using this, hset⟩
    | false =>
      simp only [Cli.runTask, Bool.false_eq_true, if_false]
      have := h.accept ht hs
      rw [show v.isShutdown = false from hs] at this
      exact ⟨this.checkPending, checkPending_settled _ _ rfl⟩
  | malformed u =>
    obtain ⟨unit, q, tmo, k1, k2⟩ := h.tasksKnown.2 u (by rw [ht]; exact List.mem_cons_self)
    have hns : u ∉ sentUids v.log := by
      intro hm
      obtain ⟨a, b, c, d, f⟩ := h.sentAllowed u hm
      obtain ⟨-, rfl, -⟩ := h.callUnique d k1
      exact k2 f
    have hnh : u ∉ handledUids v.log := by
      intro hm
      have h1 := h.once u
      have h2 : 0 < (taskUids v.tasks).count u := List.count_pos_iff.2 (by rw [ht, taskUids_cons]; simp [CTask.uid?])
      have h3 := List.count_pos_iff.2 hm
      omega
    refine ⟨?_, hset⟩
    refine h.handled u (.error .malformedRequest) v.current v.pending ts (Or.inl rfl) (List.Sublist.refl _) (by rw [ht]; exact List.sublist_cons_self _ _)
      (by rw [ht, reqTaskUids_cons]; rfl) (by
        intro a ha
        rw [ht] at ha
        rcases List.mem_cons.1 ha with ha | ha
        · injection ha with ha; exact Or.inl ha
        · exact Or.inr ha) ?_ ⟨hns, hnh, unit, q, tmo, k1, k2⟩
    intro a
    rw [ht, taskUids_cons, List.count_append]
    simp only [CTask.uid?, Option.toList, curUids, pendUids]
    omega
  | shutdown =>
    have h1 := h.dropTask ht (Or.inr rfl)
    cases hs : v.isShutdown with
    | true =>
      obtain ⟨d1, d2, d3⟩ := h.down hs
      have h2 := h1.shutdown
      simp only [Cli.runTask, d3, List.map_nil, List.append_nil]
      refine ⟨h2, fun _ => ?_⟩
      obtain ⟨f, hf⟩ := cancelTimer_eq { v with isShutdown := true, sessions := [], pending := [], current := none, tasks := ts }
      rw [hf]; rfl
    | false =>
      have h2 := (Inv.sessionShutdowns v.sessions (v := { v with tasks := ts }) h1 hs).shutdown
      refine ⟨h2, fun _ => ?_⟩
      simp only [Cli.runTask]
      obtain ⟨f, hf⟩ := cancelTimer_eq { v with isShutdown := true, sessions := [], pending := [], current := none, tasks := ts, log := v.log ++ v.sessions.map CEv.sessionShutdown }
      rw [hf]; rfl

/-! ### API calls, time -/

theorem taskUids_append (a b : List CTask) : taskUids (a ++ b) = taskUids a ++ taskUids b := by simp [taskUids]
theorem reqTaskUids_append (a b : List CTask) : reqTaskUids (a ++ b) = reqTaskUids a ++ reqTaskUids b := by simp [reqTaskUids]

/-- The request tasks come from allowed calls. -/
theorem Inv.reqTask_bound {env : ClientEnv} {rem : List Mbap} {v : Cli} (h : Inv env rem v) {u : Nat} (hu : u ∈ reqTaskUids v.tasks) :
    u < v.nextUid := by
  simp only [reqTaskUids, List.mem_filterMap] at hu
  obtain ⟨t, h1, h2⟩ := hu
  cases t with
  | request u' unit q tmo =>
    injection h2 with h2; subst h2
    exact h.callBound (h.tasksKnown.1 _ _ _ _ h1).1
  | _ => cases h2

theorem Inv.submit {env : ClientEnv} {v : Cli} (h : Inv env [] v) (unit : UInt8) (q : AnyReq) (tmo : Nat) (new : List CTask)
    (hnew : (v.isShutdown = true ∧ new = []) ∨ (v.isShutdown = false ∧ Allowed q ∧ new = [.request v.nextUid unit q tmo]) ∨
      (v.isShutdown = false ∧ ¬ Allowed q ∧ new = [.malformed v.nextUid])) :
    Inv env [] { v.emit (.call v.nextUid unit q tmo) with nextUid := v.nextUid + 1, tasks := v.tasks ++ new } := by
  have c2 : sentUids [CEv.call v.nextUid unit q tmo] = [] := rfl
  have c3 : handledUids [CEv.call v.nextUid unit q tmo] = [] := rfl
  have hnewu : ∀ t ∈ new, t = .request v.nextUid unit q tmo ∧ Allowed q ∨ t = .malformed v.nextUid ∧ ¬ Allowed q := by
    intro t ht
    rcases hnew with ⟨-, rfl⟩ | ⟨-, h1, rfl⟩ | ⟨-, h1, rfl⟩
    · cases ht
    · exact Or.inl ⟨List.mem_singleton.1 ht, h1⟩
    · exact Or.inr ⟨List.mem_singleton.1 ht, h1⟩
  have hcnt : ∀ a, (taskUids new).count a ≤ [v.nextUid].count a := by
    intro a
    rcases hnew with ⟨-, rfl⟩ | ⟨-, h1, rfl⟩ | ⟨-, h1, rfl⟩
    · simp [taskUids]
    · exact Nat.le_refl _
    · exact Nat.le_refl _
  constructor
  · exact h.parser
  · intro hs
    simp only [Cli.emit, chunksSince_snoc, messagesSince_snoc]
    exact h.framed hs
  · simp only [Cli.emit, submissions_append, List.map_append, h.calls]
    rw [List.range_succ]; rfl
  · intro a
    have h1 := h.once a
    have h2 := hcnt a
    simp only [Cli.emit, handledUids_append, c3, List.append_nil, taskUids_append, List.count_append]
    show (handledUids v.log).count a + v.curUids.count a + v.pendUids.count a + _ ≤ 1
    by_cases ha : v.nextUid ≤ a
    · obtain ⟨b1, b2, b3, b4⟩ := h.bound a ha
      simp only [← List.count_pos_iff, Nat.not_lt, Nat.le_zero] at b1 b2 b3 b4
      have : [v.nextUid].count a ≤ 1 := List.count_le_length
      omega
    · have : [v.nextUid].count a = 0 := List.count_eq_zero.2 (by simp; omega)
      omega
  · intro hs a ha
    simp only [Cli.emit, handledUids_append, c3, List.append_nil, taskUids_append, List.count_append]
    show 1 ≤ (handledUids v.log).count a + v.curUids.count a + v.pendUids.count a + _
    have ha : a < v.nextUid + 1 := ha
    have hsd : v.isShutdown = false := hs
    by_cases haa : a < v.nextUid
    · have := h.covered hsd a haa
      omega
    · have : a = v.nextUid := by omega
      subst this
      have : 0 < (taskUids new).count v.nextUid := by
        rw [List.count_pos_iff]
        rcases hnew with ⟨hd, rfl⟩ | ⟨-, h1, rfl⟩ | ⟨-, h1, rfl⟩
        · rw [hsd] at hd; cases hd
        · simp [taskUids, CTask.uid?]
        · simp [taskUids, CTask.uid?]
      omega
  · intro u unit' q' tmo' hm hq
    rw [show ({ v.emit (.call v.nextUid unit q tmo) with nextUid := v.nextUid + 1, tasks := v.tasks ++ new } : Cli).log =
      v.log ++ [.call v.nextUid unit q tmo] from rfl] at hm ⊢
    rw [handledUids_append, c3, List.append_nil]
    rw [beforeShutdown_snoc] at hm
    split at hm
    · rcases h.bad u unit' q' tmo' hm hq with h1 | h1
      · exact Or.inl h1
      · exact Or.inr (List.mem_append_left _ h1)
    · rename_i hnd
      rw [if_neg (by simp)] at hm
      have hs : v.isShutdown = false := by
        cases hs : v.isShutdown with
        | false => rfl
        | true => exact absurd (h.downLog.2 hs) hnd
      rcases List.mem_append.1 hm with hm | hm
      · have hb : beforeShutdown v.log = v.log := beforeShutdown_self hnd
        rcases h.bad u unit' q' tmo' (by rw [hb]; exact hm) hq with h1 | h1
        · exact Or.inl h1
        · exact Or.inr (List.mem_append_left _ h1)
      · have hm := List.mem_singleton.1 hm
        injection hm with e1 e2 e3 e4
        subst e1; subst e3
        rcases hnew with ⟨hd, rfl⟩ | ⟨-, h1, rfl⟩ | ⟨-, h1, rfl⟩
        · rw [hs] at hd; cases hd
        · exact absurd h1 hq
        · exact Or.inr (List.mem_append_right _ (List.mem_singleton.2 rfl))
  · intro a ha
    have ha' : v.nextUid + 1 ≤ a := ha
    obtain ⟨b1, b2, b3, b4⟩ := h.bound a (Nat.le_of_succ_le ha)
    refine ⟨by simpa [Cli.emit, c3] using b1, b2, b3, ?_⟩
    simp only [taskUids_append, List.mem_append, not_or]
    refine ⟨b4, fun hm => ?_⟩
    have := hcnt a
    have h3 := List.count_pos_iff.2 hm
    have : [v.nextUid].count a = 0 := List.count_eq_zero.2 (by simp only [List.mem_singleton]; omega)
    omega
  · simp only [Cli.emit, sentUids_append, c2, List.append_nil, reqTaskUids_append]
    have hr : reqTaskUids new = [] ∨ reqTaskUids new = [v.nextUid] := by
      rcases hnew with ⟨-, rfl⟩ | ⟨-, h1, rfl⟩ | ⟨-, h1, rfl⟩
      · exact Or.inl rfl
      · exact Or.inr rfl
      · exact Or.inl rfl
    rw [← List.append_assoc, ← List.append_assoc]
    rcases hr with hr | hr
    · rw [hr, List.append_nil, List.append_assoc]; exact h.order
    · rw [hr]
      refine List.pairwise_append.2 ⟨by rw [List.append_assoc]; exact h.order, by simp, ?_⟩
      intro a ha b hb
      rw [List.mem_singleton] at hb; subst hb
      rw [List.append_assoc, List.mem_append, List.mem_append] at ha
      rcases ha with ha | ha | ha
      · exact h.sentBound a ha
      · by_contra hlt
        exact (h.bound a (by omega)).2.2.1 ha
      · exact h.reqTask_bound ha
  · intro a ha
    simp only [Cli.emit, sentUids_append, c2, List.append_nil] at ha
    have := h.sentBound a ha
    show a < v.nextUid + 1
    omega
  · simpa [Cli.emit, c2, c3] using h.outstanding
  · intro r hr
    obtain ⟨a, b, c⟩ := h.known r hr
    refine ⟨List.mem_append_left _ a, b, ?_⟩
    simp only [Cli.emit]
    rw [rank_call (Nat.le_of_lt (h.callBound a))]; exact c
  · refine ⟨fun u unit' q' t ht => ?_, fun u hu => ?_⟩
    · rcases List.mem_append.1 ht with ht | ht
      · obtain ⟨a, b⟩ := h.tasksKnown.1 u unit' q' t ht
        exact ⟨List.mem_append_left _ a, b⟩
      · rcases hnewu _ ht with ⟨h1, h2⟩ | ⟨h1, h2⟩
        · injection h1 with e1 e2 e3 e4
          subst e1; subst e2; subst e3; subst e4
          exact ⟨List.mem_append_right _ (List.mem_singleton.2 rfl), h2⟩
        · cases h1
    · rcases List.mem_append.1 hu with hu | hu
      · obtain ⟨a, b, c, d, f⟩ := h.tasksKnown.2 u hu
        exact ⟨a, b, c, List.mem_append_left _ d, f⟩
      · rcases hnewu _ hu with ⟨h1, h2⟩ | ⟨h1, h2⟩
        · cases h1
        · injection h1 with h1; subst h1
          exact ⟨unit, q, tmo, List.mem_append_right _ (List.mem_singleton.2 rfl), h2⟩
  · intro hs
    obtain ⟨acc, t1, t2⟩ := h.tids hs
    refine ⟨acc, ?_, t2⟩
    simp only [Cli.emit, allowedUids_append, t1, reqTaskUids_append, List.append_assoc]
    congr 2
    rcases hnew with ⟨hd, rfl⟩ | ⟨-, h1, rfl⟩ | ⟨-, h1, rfl⟩
    · simp only [Cli.emit] at hs; rw [hs] at hd; cases hd
    · simp [allowedUids, submissions, h1, reqTaskUids, CTask.req?]
    · simp [allowedUids, submissions, h1, reqTaskUids, CTask.req?]
  · intro u hu
    simp only [Cli.emit, sentUids_append, c2, List.append_nil] at hu
    obtain ⟨a, b, c, d, f⟩ := h.sentAllowed u hu
    exact ⟨a, b, c, List.mem_append_left _ d, f⟩
  · intro r hr
    obtain ⟨a, b, c, d⟩ := h.curSent r hr
    exact ⟨a, b, List.mem_append_left _ c, d⟩
  · exact h.timerIds
  · intro x hx
    obtain ⟨a, b, c, d, f, g, h1, h2, h3⟩ := h.armedOrigin x hx
    exact ⟨a, b, c, d, f, g, List.mem_append_left _ h1, List.mem_append_left _ h2, h3⟩
  · intro x hx
    obtain ⟨a, b, c, d, f, g, h1, h2, h3⟩ := h.firedOrigin x hx
    exact ⟨a, b, c, d, f, g, List.mem_append_left _ h1, List.mem_append_left _ h2, h3⟩
  · exact h.down
  · simp only [Cli.emit, List.mem_append, List.mem_singleton, reduceCtorEq, or_false]
    exact h.downLog
  · exact .snoc h.just trivial

/-- Posting the shutdown. -/
theorem Inv.postShutdown {env : ClientEnv} {v : Cli} (h : Inv env [] v) : Inv env [] { v with tasks := v.tasks ++ [.shutdown] } where
  parser := h.parser
  framed := h.framed
  calls := h.calls
  once := by
    intro a
    rw [taskUids_append, show taskUids [.shutdown] = [] from rfl, List.append_nil]; exact h.once a
  covered := by
    intro hs a ha
    rw [taskUids_append, show taskUids [.shutdown] = [] from rfl, List.append_nil]; exact h.covered hs a ha
  bad := by
    intro u unit q tmo hm hq
    rcases h.bad u unit q tmo hm hq with h1 | h1
    · exact Or.inl h1
    · exact Or.inr (List.mem_append_left _ h1)
  bound := by
    intro a ha
    rw [taskUids_append, show taskUids [.shutdown] = [] from rfl, List.append_nil]; exact h.bound a ha
  order := by
    rw [reqTaskUids_append, show reqTaskUids [.shutdown] = [] from rfl, List.append_nil]; exact h.order
  sentBound := h.sentBound
  outstanding := h.outstanding
  known := h.known
  tasksKnown := by
    refine ⟨fun u unit' q' t ht => ?_, fun u hu => ?_⟩
    · rcases List.mem_append.1 ht with ht | ht
      · exact h.tasksKnown.1 u unit' q' t ht
      · simp at ht
    · rcases List.mem_append.1 hu with hu | hu
      · exact h.tasksKnown.2 u hu
      · simp at hu
  tids := by
    rw [reqTaskUids_append, show reqTaskUids [.shutdown] = [] from rfl, List.append_nil]; exact h.tids
  sentAllowed := h.sentAllowed
  curSent := h.curSent
  timerIds := h.timerIds
  armedOrigin := h.armedOrigin
  firedOrigin := h.firedOrigin
  down := h.down
  downLog := h.downLog
  just := h.just

/-- A session is created. -/
theorem Inv.newSession {env : ClientEnv} {v : Cli} (h : Inv env [] v) (hs : v.isShutdown = false) (ss : List Nat) (n : Nat) :
    Inv env [] { v with sessions := ss, nextSession := n } where
  parser := h.parser
  framed := h.framed
  calls := h.calls
  once := h.once
  covered := h.covered
  bad := h.bad
  bound := h.bound
  order := h.order
  sentBound := h.sentBound
  outstanding := h.outstanding
  known := h.known
  tasksKnown := h.tasksKnown
  tids := h.tids
  sentAllowed := h.sentAllowed
  curSent := h.curSent
  timerIds := h.timerIds
  armedOrigin := h.armedOrigin
  firedOrigin := h.firedOrigin
  down := by intro hd; simp only at hd; rw [hs] at hd; cases hd
  downLog := h.downLog
  just := h.just

/-- Time passes. -/
theorem Inv.tick {env : ClientEnv} {v : Cli} (h : Inv env [] v) (n : Nat) : Inv env [] { v with now := v.now + n } where
  parser := h.parser
  framed := h.framed
  calls := h.calls
  once := h.once
  covered := h.covered
  bad := h.bad
  bound := h.bound
  order := h.order
  sentBound := h.sentBound
  outstanding := h.outstanding
  known := h.known
  tasksKnown := h.tasksKnown
  tids := h.tids
  sentAllowed := h.sentAllowed
  curSent := by
    intro r hr
    obtain ⟨b, t0, h1, t, h2, h3⟩ := h.curSent r hr
    refine ⟨b, t0, h1, t, h2, ?_⟩
    rcases h3 with h3 | ⟨h3, h4⟩
    · exact Or.inl h3
    · exact Or.inr ⟨h3, Nat.le_trans h4 (Nat.le_add_right _ _)⟩
  timerIds := h.timerIds
  armedOrigin := h.armedOrigin
  firedOrigin := by
    intro x hx
    obtain ⟨a, b, c, d, f, g, h1, h2, h3⟩ := h.firedOrigin x hx
    exact ⟨a, b, c, d, f, g, h1, h2, Nat.le_trans h3 (Nat.le_add_right _ _)⟩
  down := h.down
  downLog := h.downLog
  just := h.just

theorem lookup_mem {t d : Nat} : ∀ {l : List (Nat × Nat)}, l.lookup t = some d → (t, d) ∈ l := by
  intro l
  induction l with
  | nil => simp
  | cons x l ih =>
    rcases x with ⟨a, b⟩
    intro h
    simp only [List.lookup_cons] at h
    split at h
    · rename_i hb
      injection h with h; subst h
      simp [beq_iff_eq.1 hb]
    · exact List.mem_cons_of_mem _ (ih h)

theorem mem_unique_of_nodup {l : List (Nat × Nat)} (h : (l.map (·.1)).Nodup) {t a b : Nat} (h1 : (t, a) ∈ l) (h2 : (t, b) ∈ l) : a = b := by
  have := List.inj_on_of_nodup_map h h1 h2 rfl
  simpa using this

/-- A timer expires. -/
theorem Inv.expire {env : ClientEnv} {v : Cli} (h : Inv env [] v) {t d : Nat} (hl : v.armed.lookup t = some d) (hd : d ≤ v.now) :
    Inv env [] { v with armed := v.armed.filter (fun x => x.1 ≠ t), fired := v.fired ++ [t] } := by
  have hm := lookup_mem hl
  obtain ⟨i1, i2⟩ := h.timerIds
  constructor
  · exact h.parser
  · exact h.framed
  · exact h.calls
  · exact h.once
  · exact h.covered
  · exact h.bad
  · exact h.bound
  · exact h.order
  · exact h.sentBound
  · exact h.outstanding
  · exact h.known
  · exact h.tasksKnown
  · exact h.tids
  · exact h.sentAllowed
  · intro r hr
    obtain ⟨b, t0, h1, t', h2, h3⟩ := h.curSent r hr
    refine ⟨b, t0, h1, t', h2, ?_⟩
    by_cases ht : t' = t
    · subst ht
      right
      refine ⟨by simp, ?_⟩
      rcases h3 with h3 | ⟨h3, h4⟩
      · have := mem_unique_of_nodup (List.nodup_append.1 i1).1 h3 hm
        show t0 + r.timeout ≤ v.now
        omega
      · exact h4
    · rcases h3 with h3 | ⟨h3, h4⟩
      · exact Or.inl (List.mem_filter.2 ⟨h3, by simpa using ht⟩)
      · exact Or.inr ⟨List.mem_append_left _ h3, h4⟩
  · refine ⟨?_, ?_⟩
    · obtain ⟨a1, a2, a3⟩ := List.nodup_append.1 i1
      refine List.nodup_append.2 ⟨a1.sublist ((List.filter_sublist).map _), ?_, ?_⟩
      · refine List.nodup_append.2 ⟨a2, by simp, ?_⟩
        rintro x hx y hy rfl
        rw [List.mem_singleton] at hy; subst hy
        exact a3 x (List.mem_map.2 ⟨_, hm, rfl⟩) x hx rfl
      · rintro x hx y hy rfl
        obtain ⟨z, hz, rfl⟩ := List.mem_map.1 hx
        obtain ⟨z1, z2⟩ := List.mem_filter.1 hz
        rcases List.mem_append.1 hy with hy | hy
        · exact a3 z.1 (List.mem_map.2 ⟨z, z1, rfl⟩) z.1 hy rfl
        · rw [List.mem_singleton] at hy
          simp [hy] at z2
    · intro x hx
      rcases List.mem_append.1 hx with hx | hx
      · obtain ⟨z, hz, rfl⟩ := List.mem_map.1 hx
        exact i2 _ (List.mem_append_left _ (List.mem_map.2 ⟨z, (List.mem_filter.1 hz).1, rfl⟩))
      · rcases List.mem_append.1 hx with hx | hx
        · exact i2 _ (List.mem_append_right _ hx)
        · rw [List.mem_singleton] at hx; subst hx
          exact i2 _ (List.mem_append_left _ (List.mem_map.2 ⟨_, hm, rfl⟩))
  · intro x hx
    exact h.armedOrigin x (List.mem_filter.1 hx).1
  · intro x hx
    rcases List.mem_append.1 hx with hx | hx
    · exact h.firedOrigin x hx
    · obtain ⟨a, b, c, d', f, g, h1, h2, h3⟩ := h.armedOrigin _ hm
      simp only at h3
      exact ⟨a, b, c, d', f, g, h1, h2, by show c + g ≤ v.now; omega⟩
  · exact h.down
  · exact h.downLog
  · exact h.just

/-- The callback of a timer that is not the outstanding request's leaves the queue. -/
theorem Inv.unqueue {env : ClientEnv} {v : Cli} (h : Inv env [] v) (t : Nat) (hc : v.current = none ∨ v.timer ≠ some t) :
    Inv env [] { v with fired := v.fired.filter fun x => x ≠ t } where
  parser := h.parser
  framed := h.framed
  calls := h.calls
  once := h.once
  covered := h.covered
  bad := h.bad
  bound := h.bound
  order := h.order
  sentBound := h.sentBound
  outstanding := h.outstanding
  known := h.known
  tasksKnown := h.tasksKnown
  tids := h.tids
  sentAllowed := h.sentAllowed
  curSent := by
    intro r hr
    obtain ⟨b, t0, h1, t', h2, h3⟩ := h.curSent r hr
    refine ⟨b, t0, h1, t', h2, ?_⟩
    rcases h3 with h3 | ⟨h3, h4⟩
    · exact Or.inl h3
    · refine Or.inr ⟨List.mem_filter.2 ⟨h3, ?_⟩, h4⟩
      rcases hc with hc | hc
      · simp only at hr; rw [hc] at hr; cases hr
      · rw [h2] at hc; simpa using hc
  timerIds := by
    have hsub : (v.armed.map (·.1) ++ v.fired.filter fun x => x ≠ t).Sublist (v.armed.map (·.1) ++ v.fired) :=
      List.Sublist.append (List.Sublist.refl _) List.filter_sublist
    exact ⟨h.timerIds.1.sublist hsub, fun x hx => h.timerIds.2 x (hsub.subset hx)⟩
  armedOrigin := h.armedOrigin
  firedOrigin := fun x hx => h.firedOrigin x (List.mem_filter.1 hx).1
  down := h.down
  downLog := h.downLog
  just := h.just

/-- Taking callbacks off the queue commutes with the rest. -/
theorem onTimer_unqueue (env : ClientEnv) (v : Cli) (f : Nat → Bool) :
    { v with fired := v.fired.filter f }.onTimer env = { v.onTimer env with fired := (v.onTimer env).fired.filter f } := by
  unfold onTimer
  simp only
  split
  · rfl
  · split
    · rfl
    · rename_i r hc
      have e1 := cancelCurrent_eq env v r (.error .timeout) hc
      have e2 := cancelCurrent_eq env { v with fired := v.fired.filter f } r (.error .timeout) hc
      simp only at e2
      rw [e1]
      refine Eq.trans e2 ?_
      have e3 : ({ v with fired := v.fired.filter f } : Cli).finish r (.error .timeout) =
          { v.finish r (.error .timeout) with fired := (v.finish r (.error .timeout)).fired.filter f } := by
        unfold finish cancelTimer
        simp only [Cli.emit]
        split <;> rfl
      rw [e3]
      unfold checkPending
      simp only
      split
      · rfl
      · split <;> rfl

theorem onTimer_current (env : ClientEnv) (v : Cli) (h : Inv env [] v) (hs : v.isShutdown = false) (r : PendingReq) (hc : v.current = some r) (t : Nat)
    (ht : v.timer = some t) : (v.onTimer env).current = none ∨ (v.onTimer env).timer ≠ some t := by
  simp only [onTimer, hs, hc, Bool.false_eq_true, if_false]
  rw [cancelCurrent_eq env v r _ hc]
  obtain ⟨f, hf⟩ := cancelTimer_eq { v.emit (.handler r.uid (.error .timeout) v.now) with current := none }
  rw [finish, hf]
  unfold checkPending
  simp only [Cli.emit, hs, Bool.false_eq_true, if_false]
  cases hp : v.pending with
  | nil => exact Or.inl rfl
  | cons x rest =>
    right
    show some v.nextTimer ≠ some t
    obtain ⟨b, t0, h1, t', h2, h3⟩ := h.curSent r hc
    rw [ht] at h2; injection h2 with h2; subst h2
    have : t < v.nextTimer := by
      apply h.timerIds.2
      rcases h3 with h3 | ⟨h3, -⟩
      · exact List.mem_append_left _ (List.mem_map.2 ⟨_, h3, rfl⟩)
      · exact List.mem_append_right _ h3
    simp; omega

theorem Inv.runTimer {env : ClientEnv} {v : Cli} (h : Inv env [] v) (hset : Settled v) {t : Nat} (ht : t ∈ v.fired) :
    Inv env [] ({ v with fired := v.fired.filter fun x => x ≠ t }.onTimer env) ∧
    Settled ({ v with fired := v.fired.filter fun x => x ≠ t }.onTimer env) := by
  have hor := h.firedOrigin t ht
  have h1 := h.onTimer hset (fun _ _ _ => hor)
  rw [onTimer_unqueue]
  refine ⟨?_, h1.2.1⟩
  by_cases hc : v.current = none ∨ v.timer ≠ some t
  · -- the callback finds another request outstanding, or none
    by_cases hs : v.isShutdown = true
    · have : v.onTimer env = v := by simp [Cli.onTimer, hs]
      rw [this]; exact h.unqueue t hc
    · have hs : v.isShutdown = false := by simpa using hs
      rcases hcc : v.current with _ | r
      · have : v.onTimer env = v := by simp [Cli.onTimer, hs, hcc]
        rw [this]; exact h.unqueue t hc
      · have h2 := h.unqueue t hc
        have h3 := h2.onTimer (by exact hset) (fun _ _ _ => by
          obtain ⟨a, b, c, d, f, g, x1, x2, x3⟩ := hor
          exact ⟨a, b, c, d, f, g, x1, x2, x3⟩)
        rw [← onTimer_unqueue]
        exact h3.1
  · have hc' : ∃ r, v.current = some r := by
      rcases hcc : v.current with _ | r
      · exact absurd (Or.inl hcc) hc
      · exact ⟨r, rfl⟩
    obtain ⟨r, hr⟩ := hc'
    have htt : v.timer = some t := by
      by_contra hn; exact hc (Or.inr hn)
    exact h1.1.unqueue t (onTimer_current env v h (h.current hr).1 r hr t htt)

/-- Every step is defined and keeps the invariant. -/
theorem Inv.step {env : ClientEnv} {v : Cli} (h : Inv env [] v) (hset : Settled v) (op : Op) :
    ∃ v', v.step env op = .ret v' ∧ Inv env [] v' ∧ Settled v' := by
  cases op with
  | submit unit q tmo =>
    have e1 : (v.emit (.call v.nextUid unit q tmo)).isShutdown = v.isShutdown := rfl
    simp only [Cli.step]
    cases hs : v.isShutdown with
    | true =>
      have := h.submit unit q tmo [] (Or.inl ⟨hs, rfl⟩)
      refine ⟨{ v.emit (.call v.nextUid unit q tmo) with nextUid := v.nextUid + 1 }, by simp [Cli.emit, hs], by simpa [Cli.emit] using this, hset⟩
    | false =>
      by_cases hv : isValid q.1 q.2 = true
      · have := h.submit unit q tmo _ (Or.inr (Or.inl ⟨hs, (allowed_iff q).1 hv, rfl⟩))
        exact ⟨_, by rw [if_neg (by rw [e1, hs]; simp), if_pos hv]; rfl, this, hset⟩
      · have := h.submit unit q tmo _ (Or.inr (Or.inr ⟨hs, fun ha => hv ((allowed_iff q).2 ha), rfl⟩))
        exact ⟨_, by rw [if_neg (by rw [e1, hs]; simp), if_neg hv]; rfl, this, hset⟩
  | shutdown => exact ⟨_, rfl, h.postShutdown, hset⟩
  | createSession =>
    cases hs : v.isShutdown with
    | true =>
      refine ⟨v.emit (.session none), by simp [Cli.step, hs], h.emit _ rfl (by simp) trivial (fun hh => by rw [hs] at hh; cases hh), hset⟩
    | false =>
      have hnd : CEv.tcpShutdown ∉ v.log := fun hm => by have := h.downLog.1 hm; rw [hs] at this; cases this
      have h1 : Inv env [] (v.emit (.session (some v.nextSession))) := by
        refine h.emit _ rfl (by simp) hnd (fun _ => ?_)
        simp only [chunksSince_snoc, messagesSince_snoc]
        exact h.framed hs
      refine ⟨{ v.emit (.session (some v.nextSession)) with
        sessions := v.sessions ++ [v.nextSession], nextSession := v.nextSession + 1 }, by simp [Cli.step, hs], ?_, hset⟩
      exact h1.newSession hs _ _
  | runTask =>
    rcases ht : v.tasks with _ | ⟨t, ts⟩
    · exact ⟨v, by simp [Cli.step, ht], h, hset⟩
    · obtain ⟨a, b⟩ := h.runTask hset ht
      exact ⟨_, by simp only [Cli.step, ht], a, b⟩
  | receive d =>
    obtain ⟨v', a, b, c, -⟩ := h.onReceive hset d
    exact ⟨v', a, b, c⟩
  | error =>
    obtain ⟨a, b, -⟩ := h.onError hset
    exact ⟨_, rfl, a, b⟩
  | tick n => exact ⟨_, rfl, h.tick n, hset⟩
  | expire t =>
    rcases hl : v.armed.lookup t with _ | d
    · exact ⟨v, by simp [Cli.step, hl], h, hset⟩
    · by_cases hd : d ≤ v.now
      · exact ⟨_, by simp only [Cli.step, hl, if_pos hd], h.expire hl hd, hset⟩
      · exact ⟨v, by simp [Cli.step, hl, hd], h, hset⟩
  | runTimer t =>
    by_cases ht : t ∈ v.fired
    · obtain ⟨a, b⟩ := h.runTimer hset ht
      exact ⟨_, by simp only [Cli.step, if_pos ht], a, b⟩
    · exact ⟨v, by simp [Cli.step, ht], h, hset⟩

theorem Inv.init (env : ClientEnv) : Inv env [] (Cli.init env) := by
  constructor
  · exact ⟨rfl, [], rep_init _ _ (by simp)⟩
  · intro _; exact ⟨env.mem.toList, by simp, rfl⟩
  · rfl
  · intro a; simp [Cli.init, handledUids, curUids, pendUids, taskUids]
  · intro _ a ha; simp [Cli.init] at ha
  · intro u unit q tmo hm; simp [Cli.init, beforeShutdown] at hm
  · intro a _; simp [Cli.init, handledUids, curUids, pendUids, taskUids]
  · exact .nil
  · intro u hu; cases hu
  · exact ⟨none, fun u hu => (by cases hu), fun _ => rfl⟩
  · intro r hr; cases hr
  · exact ⟨fun u unit q t hm => (by cases hm), fun u hm => (by cases hm)⟩
  · intro _; exact ⟨[], rfl, rfl⟩
  · intro u hu; cases hu
  · intro r hr; cases hr
  · exact ⟨.nil, fun t hm => (by cases hm)⟩
  · intro x hx; cases hx
  · intro x hx; cases hx
  · intro hs; cases hs
  · simp [Cli.init]
  · exact .nil

theorem Inv.run {env : ClientEnv} (ops : List Op) : ∀ {v : Cli}, Inv env [] v → Settled v →
    ∃ v', v.run env ops = .ret v' ∧ Inv env [] v' ∧ Settled v' := by
  induction ops with
  | nil => exact fun h ht => ⟨_, rfl, h, ht⟩
  | cons op ops ih =>
    intro v h ht
    obtain ⟨v1, h1, h2, h3⟩ := h.step ht op
    obtain ⟨v', h4, h5⟩ := ih h2 h3
    exact ⟨v', by simp [Cli.run, h1, h4], h5⟩

end Cli

end Modbus
