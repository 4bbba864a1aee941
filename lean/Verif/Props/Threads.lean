import Verif.Spec.Threads

/-! Property C118: calls from several threads. -/

namespace Modbus.Props

open Spec

/-- The strand a location belongs to; the manager's lists belong to none. -/
def home : Loc → Option Strand
  | .down c | .sessions c | .requests c | .conn c | .scheduled c _ | .running c _ _ | .frequency c _ _ | .timer c _ _ => some (.client c)
  | .sDown c | .sStarted c | .sSessions c | .asio c => some (.server c)
  | .clientList | .serverList => none

/-- The functions of the API that touch memory of a strand on the caller's thread: `create_session`, `send_request`, `get_frequency`, `is_running`, and the
server channel's `start` and `add_session`. -/
def offStrand : ApiCall → Option Strand
  | .createSession c | .send c _ | .getFrequency c _ _ | .isRunning c _ _ => some (.client c)
  | .serverStart c | .addSession c => some (.server c)
  | _ => none

/-- Whatever touches a location of a strand runs on that strand, unless it is a call of one of these functions from elsewhere. -/
theorem touches_home {x : List MEvent} (hx : Lawful x) {i : Nat} {e : MEvent} (he : x[i]? = some e) {l : Loc} {w : Bool} (ht : Act.touches e.act l w)
    {st : Strand} (hl : home l = some st) : e.ctx = .strand st ∨ ∃ c, e.act = .call c ∧ offStrand c = some st := by
  have h1 := hx i e he
  cases ha : e.act with
  | call c =>
    rw [ha] at ht
    refine .inr ⟨c, rfl, ?_⟩
    cases c <;> simp only [Act.touches, ApiCall.touches] at ht
    case createSession => rcases ht with ⟨rfl, -⟩ | rfl <;> simpa [home, offStrand] using hl
    case managerShutdown => rcases ht with rfl | rfl <;> simp [home] at hl
    case createClient => subst ht; simp [home] at hl
    case createServer => subst ht; simp [home] at hl
    all_goals first | (obtain ⟨rfl, -⟩ := ht; simpa [home, offStrand] using hl) | exact ht.elim
  | task t =>
    rw [ha] at ht h1
    left
    rw [h1.1]
    congr 1
    cases t <;> simp only [Act.touches, PostedTask.touches, pollTouches] at ht <;> simp only [PostedTask.strand]
    case malformed =>
      obtain ⟨s, i, ⟨rfl, -⟩ | ⟨rfl, -⟩ | rfl⟩ := ht <;> simpa [home] using hl
    all_goals
      first
        | (rcases ht with ⟨rfl, -⟩ | rfl | rfl <;> simpa [home] using hl)
        | (rcases ht with rfl | rfl | rfl | rfl <;> simpa [home] using hl)
        | (rcases ht with rfl | ⟨rfl, -⟩ <;> simpa [home] using hl)
        | (rcases ht with ⟨rfl, -⟩ | rfl <;> simpa [home] using hl)
        | (rcases ht with rfl | rfl <;> simpa [home] using hl)
        | (subst ht; simpa [home] using hl)
  | callback s =>
    rw [ha] at ht h1
    left
    have h2 : e.ctx = .strand s := h1
    rw [h2]
    congr 1
    cases s with
    | client c =>
      simp only [Act.touches, callbackTouches, pollTouches] at ht
      rcases ht with ⟨rfl, -⟩ | rfl | rfl | ⟨s, i, ⟨rfl, -⟩ | ⟨rfl, -⟩ | rfl⟩ <;> simpa [home] using hl
    | server c =>
      simp only [Act.touches, callbackTouches] at ht
      rcases ht with ⟨rfl, -⟩ | ⟨rfl, -⟩ | rfl <;> simpa [home] using hl

/-- The manager's lists are touched with the mutex locked. -/
theorem touches_locked {a : Act} {l : Loc} {w : Bool} (ht : Act.touches a l w) (hl : home l = none) : Act.locks a = true := by
  cases a with
  | call c =>
    cases c <;> simp only [Act.touches, ApiCall.touches] at ht <;> try rfl
    case createSession => rcases ht with ⟨rfl, -⟩ | rfl <;> simp [home] at hl
    all_goals first | (obtain ⟨rfl, -⟩ := ht; simp [home] at hl) | exact ht.elim
  | task t =>
    exfalso
    cases t <;> simp only [Act.touches, PostedTask.touches, pollTouches] at ht
    case malformed => obtain ⟨s, i, ⟨rfl, -⟩ | ⟨rfl, -⟩ | rfl⟩ := ht <;> simp [home] at hl
    all_goals
      first
        | (rcases ht with ⟨rfl, -⟩ | rfl | rfl <;> simp [home] at hl; done)
        | (rcases ht with rfl | rfl | rfl | rfl <;> simp [home] at hl; done)
        | (rcases ht with rfl | ⟨rfl, -⟩ <;> simp [home] at hl; done)
        | (rcases ht with ⟨rfl, -⟩ | rfl <;> simp [home] at hl; done)
        | (rcases ht with rfl | rfl <;> simp [home] at hl; done)
        | (subst ht; simp [home] at hl; done)
  | callback s =>
    exfalso
    cases s with
    | client c =>
      simp only [Act.touches, callbackTouches, pollTouches] at ht
      rcases ht with ⟨rfl, -⟩ | rfl | rfl | ⟨s, i, ⟨rfl, -⟩ | ⟨rfl, -⟩ | rfl⟩ <;> simp [home] at hl
    | server c =>
      simp only [Act.touches, callbackTouches] at ht
      rcases ht with ⟨rfl, -⟩ | ⟨rfl, -⟩ | rfl <;> simp [home] at hl

/-- Who writes the locations that are read elsewhere. -/
theorem writes_down {a : Act} {c : Nat} (h : Act.touches a (.down c) true) : a = .task (.shutdown c) := by
  cases a with
  | call k => cases k <;> simp [Act.touches, ApiCall.touches] at h
  | task t => cases t <;> simp_all [Act.touches, PostedTask.touches, pollTouches]
  | callback st => cases st <;> simp [Act.touches, callbackTouches, pollTouches] at h

theorem writes_sDown {a : Act} {c : Nat} (h : Act.touches a (.sDown c) true) : a = .task (.serverShutdown c) := by
  cases a with
  | call k => cases k <;> simp [Act.touches, ApiCall.touches] at h
  | task t => cases t <;> simp_all [Act.touches, PostedTask.touches, pollTouches]
  | callback st => cases st <;> simp [Act.touches, callbackTouches, pollTouches] at h

theorem writes_frequency {a : Act} {c s i : Nat} (h : Act.touches a (.frequency c s i) true) : a = .task (.setFrequency c s i) := by
  cases a with
  | call k => cases k <;> simp [Act.touches, ApiCall.touches] at h
  | task t => cases t <;> simp_all [Act.touches, PostedTask.touches, pollTouches]
  | callback st => cases st <;> simp [Act.touches, callbackTouches, pollTouches] at h

theorem touches_sessions {a : Act} {c : Nat} {w : Bool} (h : Act.touches a (.sessions c) w) : a = .call (.createSession c) ∨ a = .task (.shutdown c) := by
  cases a with
  | call k => cases k <;> simp_all [Act.touches, ApiCall.touches]
  | task t => cases t <;> simp_all [Act.touches, PostedTask.touches, pollTouches]
  | callback st => cases st <;> simp [Act.touches, callbackTouches, pollTouches] at h

/-- Only calls post these tasks. -/
theorem posts_shutdown {a : Act} {t : PostedTask} (h : Act.posts a t) (ht : (∃ c, t = .shutdown c) ∨ (∃ c, t = .serverShutdown c) ∨ ∃ c s i, t = .setFrequency c s i) :
    ∃ k, a = .call k ∧ ApiCall.posts k t := by
  cases a with
  | call k => exact ⟨k, rfl, h⟩
  | task t' =>
    exfalso
    rcases ht with ⟨c, rfl⟩ | ⟨c, rfl⟩ | ⟨c, s, i, rfl⟩ <;> cases t' <;> simp [Act.posts] at h
  | callback st =>
    exfalso
    rcases ht with ⟨c, rfl⟩ | ⟨c, rfl⟩ | ⟨c, s, i, rfl⟩ <;> cases st <;> simp [Act.posts] at h

/-- Happens-before goes forward. -/
theorem HB.lt {x : List MEvent} {sync : Nat → Nat → Prop} (hx : Lawful x) {i j : Nat} (h : HB x sync i j) : i < j := by
  induction h with
  | order h => exact h
  | @post j e t he ha =>
    have := hx j e he
    rw [ha] at this
    exact this.2.1
  | lock h => exact h
  | sync h => exact h
  | trans _ _ h1 h2 => exact Nat.lt_trans h1 h2

/-- C118, full statement: all functions of the API may be called from any thread at any time; there are no data races. -/
def C118_Statement : Prop := ∀ (x : List MEvent) (sync : Nat → Nat → Prop), Lawful x → ∀ i j l, ¬ Race x sync i j l

/-- C118 (partial: says where the races are).  Every data race involves a call of `create_session`, `send_request`, `get_frequency`, `is_running` or the server
channel's `start` or `add_session` that is made off the channel's strand.  All other functions of the API can be called from any thread at
any time; and so can these from handlers, which run on the strand. -/
theorem C118_races_partial (x : List MEvent) (sync : Nat → Nat → Prop) (hx : Lawful x) (i j : Nat) (l : Loc) (h : Race x sync i j l) :
    ∃ k e c st, (k = i ∨ k = j) ∧ x[k]? = some e ∧ e.act = .call c ∧ offStrand c = some st ∧ home l = some st ∧ e.ctx ≠ .strand st := by
  obtain ⟨hij, hn, e, e', w, w', he, he', ht, ht', hw⟩ := h
  cases hl : home l with
  | none => exact absurd (.lock hij he he' (touches_locked ht hl) (touches_locked ht' hl)) hn
  | some st =>
    by_cases h1 : e.ctx = .strand st
    · by_cases h2 : e'.ctx = .strand st
      · exact absurd (.order hij he he' (h1.trans h2.symm)) hn
      · rcases touches_home hx he' ht' hl with h3 | ⟨c, h3, h4⟩
        · exact absurd h3 h2
        · exact ⟨j, e', c, st, .inr rfl, he', h3, h4, rfl, h2⟩
    · rcases touches_home hx he ht hl with h3 | ⟨c, h3, h4⟩
      · exact absurd h3 h1
      · exact ⟨i, e, c, st, .inl rfl, he, h3, h4, rfl, h1⟩

/-- What the user has to do: calls of `create_session` on one channel are ordered; calls of `create_session` and `send_request` on a channel (`start`
and `add_session` on a server channel) from elsewhere than its handlers happen before the calls that shut it down; `is_running` is called in handlers
only; `get_frequency` in handlers, or before all calls of `set_frequency`. -/
structure Disciplined (x : List MEvent) (sync : Nat → Nat → Prop) : Prop where
  sessions : ∀ (i j : Nat) (e e' : MEvent) (c : Nat), i < j → x[i]? = some e → x[j]? = some e' → e.act = .call (.createSession c) → e'.act = .call (.createSession c) → HB x sync i j
  shutdown : ∀ (i k : Nat) (e e' : MEvent) (c s : Nat) (d : ApiCall), x[i]? = some e → x[k]? = some e' → (e.act = .call (.createSession c) ∨ e.act = .call (.send c s)) → e.ctx ≠ .strand (.client c) →
    e'.act = .call d → (d = .shutdown c ∨ d = .managerShutdown) → HB x sync i k
  server : ∀ (i k : Nat) (e e' : MEvent) (c : Nat) (d : ApiCall), x[i]? = some e → x[k]? = some e' → (e.act = .call (.serverStart c) ∨ e.act = .call (.addSession c)) → e.ctx ≠ .strand (.server c) →
    e'.act = .call d → (d = .serverShutdown c ∨ d = .managerShutdown) → HB x sync i k
  running : ∀ (i : Nat) (e : MEvent) (c s n : Nat), x[i]? = some e → e.act = .call (.isRunning c s n) → e.ctx = .strand (.client c)
  frequency : ∀ (i k : Nat) (e e' : MEvent) (c s n : Nat), x[i]? = some e → x[k]? = some e' → e.act = .call (.getFrequency c s n) → e.ctx ≠ .strand (.client c) →
    e'.act = .call (.setFrequency c s n) → HB x sync i k

/-- A call from elsewhere, and a conflicting access. -/
theorem Disciplined.ordered {x : List MEvent} {sync : Nat → Nat → Prop} (hx : Lawful x) (hd : Disciplined x sync) {p q : Nat} {e e' : MEvent} {c : ApiCall} {st : Strand}
    {l : Loc} {w w' : Bool} (hp : x[p]? = some e) (hq : x[q]? = some e') (ha : e.act = .call c) (ho : offStrand c = some st) (hc : e.ctx ≠ .strand st)
    (hne : p ≠ q) (ht : Act.touches e.act l w) (ht' : Act.touches e'.act l w') (hw : w = true ∨ w' = true) : HB x sync p q ∨ HB x sync q p := by
  -- the other is a task posted by a call
  have task : ∀ t : PostedTask, ((∃ c, t = .shutdown c) ∨ (∃ c, t = .serverShutdown c) ∨ ∃ c s i, t = .setFrequency c s i) → e'.act = .task t →
      (∀ (k : Nat) (e'' : MEvent) (d : ApiCall), x[k]? = some e'' → e''.act = .call d → ApiCall.posts d t → HB x sync p k) → HB x sync p q := by
    intro t h1 h2 h3
    have h4 := hx q e' hq
    rw [h2] at h4
    obtain ⟨-, -, e'', h5, h6⟩ := h4
    obtain ⟨d, h7, h8⟩ := posts_shutdown h6 h1
    exact .trans (h3 _ e'' d h5 h7 h8) (.post hq h2)
  have down : ∀ n s, (e.act = .call (.createSession n) ∨ e.act = .call (.send n s)) → e.ctx ≠ .strand (.client n) → e'.act = .task (.shutdown n) → HB x sync p q := by
    intro n s h1 h2 h3
    refine task _ (.inl ⟨n, rfl⟩) h3 fun k e'' d h4 h5 h6 => hd.shutdown p k e e'' n s d hp h4 h1 h2 h5 ?_
    cases d <;> simp_all [ApiCall.posts]
  have sdown : ∀ n, (e.act = .call (.serverStart n) ∨ e.act = .call (.addSession n)) → e.ctx ≠ .strand (.server n) → e'.act = .task (.serverShutdown n) → HB x sync p q := by
    intro n h1 h2 h3
    refine task _ (.inr (.inl ⟨n, rfl⟩)) h3 fun k e'' d h4 h5 h6 => hd.server p k e e'' n d hp h4 h1 h2 h5 ?_
    cases d <;> simp_all [ApiCall.posts]
  rw [ha] at ht
  cases c <;> simp only [offStrand, Option.some.injEq, reduceCtorEq] at ho
  case createSession n =>
    subst ho
    rcases ht with ⟨rfl, rfl⟩ | rfl
    · rcases hw with hw | rfl
      · cases hw
      · exact .inl (down n 0 (.inl ha) hc (writes_down ht'))
    · rcases touches_sessions ht' with h1 | h1
      · rcases Nat.lt_or_gt_of_ne hne with h2 | h2
        · exact .inl (hd.sessions p q e e' n h2 hp hq ha h1)
        · exact .inr (hd.sessions q p e' e n h2 hq hp h1 ha)
      · exact .inl (down n 0 (.inl ha) hc h1)
  case send n s =>
    subst ho
    obtain ⟨rfl, rfl⟩ := ht
    rcases hw with hw | rfl
    · cases hw
    · exact .inl (down n s (.inr ha) hc (writes_down ht'))
  case getFrequency n s i =>
    subst ho
    obtain ⟨rfl, rfl⟩ := ht
    rcases hw with hw | rfl
    · cases hw
    · refine .inl (task _ (.inr (.inr ⟨n, s, i, rfl⟩)) (writes_frequency ht') fun k e'' d h4 h5 h6 => hd.frequency p k e e'' n s i hp h4 ha hc ?_)
      rw [h5]
      cases d <;> simp_all [ApiCall.posts]
  case isRunning n s i =>
    subst ho
    exact absurd (hd.running p e n s i hp ha) hc
  case serverStart n =>
    subst ho
    obtain ⟨rfl, rfl⟩ := ht
    rcases hw with hw | rfl
    · cases hw
    · exact .inl (sdown n (.inl ha) hc (writes_sDown ht'))
  case addSession n =>
    subst ho
    obtain ⟨rfl, rfl⟩ := ht
    rcases hw with hw | rfl
    · cases hw
    · exact .inl (sdown n (.inr ha) hc (writes_sDown ht'))

/-- C118 (partial: for users who follow the rules of `Disciplined`).  There are no data races, whatever the number of threads, channels, sessions and calls. -/
theorem C118_disciplined_partial (x : List MEvent) (sync : Nat → Nat → Prop) (hx : Lawful x) (hd : Disciplined x sync) (i j : Nat) (l : Loc) : ¬ Race x sync i j l := by
  intro h
  obtain ⟨k, ek, c, st, hk, hek, hc, ho, hl, hctx⟩ := C118_races_partial x sync hx i j l h
  obtain ⟨hij, hn, e, e', w, w', he, he', ht, ht', hw⟩ := h
  rcases hk with rfl | rfl
  · rw [he] at hek; injection hek with hek; subst hek
    rcases hd.ordered hx he he' hc ho hctx (by omega) ht ht' hw with h1 | h1
    · exact hn h1
    · have := HB.lt hx h1; omega
  · rw [he'] at hek; injection hek with hek; subst hek
    rcases hd.ordered hx he' he hc ho hctx (by omega) ht' ht hw.symm with h1 | h1
    · have := HB.lt hx h1; omega
    · exact hn h1

/-! Two threads use a client within the rules; the second one's request is ordered by the user after the session's creation and before the shutdown. -/

def disciplinedHistory : List MEvent :=
  [⟨.thread 0, .call (.createSession 0), 0⟩, ⟨.thread 1, .call (.send 0 0), 0⟩, ⟨.thread 0, .call (.schedule 0 0 0), 0⟩, ⟨.strand (.client 0), .task (.start 0 0 0), 2⟩,
   ⟨.strand (.client 0), .task (.request 0), 1⟩, ⟨.strand (.client 0), .callback (.client 0), 0⟩, ⟨.strand (.client 0), .call (.isRunning 0 0 0), 0⟩,
   ⟨.thread 0, .call (.shutdown 0), 0⟩, ⟨.strand (.client 0), .task (.shutdown 0), 7⟩]

def disciplinedSync : Nat → Nat → Prop := fun i j => (i = 0 ∧ j = 1) ∨ (i = 1 ∧ j = 7)

theorem disciplined_at (i : Nat) (e : MEvent) (h : disciplinedHistory[i]? = some e) : i < 9 := by
  have := (List.getElem?_eq_some_iff.1 h).1
  exact this

theorem disciplined_lawful : Lawful disciplinedHistory := by
  intro j e he
  have hj := disciplined_at j e he
  match j, hj with
  | 0, _ | 1, _ | 2, _ | 6, _ | 7, _ => injection he with he; subst he; trivial
  | 3, _ => injection he with he; subst he; exact ⟨rfl, by decide, _, rfl, .inl rfl⟩
  | 4, _ => injection he with he; subst he; exact ⟨rfl, by decide, _, rfl, .inl rfl⟩
  | 5, _ => injection he with he; subst he; exact rfl
  | 8, _ => injection he with he; subst he; exact ⟨rfl, by decide, _, rfl, rfl⟩

theorem disciplined_calls (i : Nat) (e : MEvent) (c : ApiCall) (h : disciplinedHistory[i]? = some e) (ha : e.act = .call c) :
    (i, c) ∈ [(0, ApiCall.createSession 0), (1, .send 0 0), (2, .schedule 0 0 0), (6, .isRunning 0 0 0), (7, .shutdown 0)] ∧ (i = 6 → e.ctx = .strand (.client 0)) := by
  have hj := disciplined_at i e h
  match i, hj with
  | 0, _ | 1, _ | 2, _ | 7, _ => injection h with h; subst h; injection ha with ha; subst ha; simp
  | 6, _ => injection h with h; subst h; injection ha with ha; subst ha; simp
  | 3, _ | 4, _ | 5, _ | 8, _ => injection h with h; subst h; cases ha

theorem disciplined_demo : Disciplined disciplinedHistory disciplinedSync := by
  have shut : ∀ (k : Nat) (e : MEvent) (d : ApiCall), disciplinedHistory[k]? = some e → e.act = .call d → d ≠ .managerShutdown ∧ d ≠ .serverShutdown 0 := by
    intro k e d h1 h2
    have := (disciplined_calls k e d h1 h2).1
    simp only [List.mem_cons, Prod.mk.injEq, List.not_mem_nil, or_false] at this
    rcases this with ⟨-, rfl⟩ | ⟨-, rfl⟩ | ⟨-, rfl⟩ | ⟨-, rfl⟩ | ⟨-, rfl⟩ <;> simp
  refine ⟨fun i j e e' c hij h1 h2 h3 h4 => ?_, fun i k e e' c s d h1 h2 h3 _ h4 h5 => ?_, fun i k e e' c d h1 h2 h3 _ h4 h5 => ?_, fun i e c s n h1 h2 => ?_,
    fun i k e e' c s n h1 h2 h3 _ h4 => ?_⟩
  · have a1 := (disciplined_calls i e _ h1 h3).1
    have a2 := (disciplined_calls j e' _ h2 h4).1
    simp at a1 a2
    omega
  · have a2 := (disciplined_calls k e' _ h2 h4).1
    rcases h5 with rfl | rfl
    · simp only [List.mem_cons, Prod.mk.injEq, reduceCtorEq, and_false, false_or, ApiCall.shutdown.injEq, List.not_mem_nil, or_false] at a2
      obtain ⟨rfl, rfl⟩ := a2
      rcases h3 with h3 | h3
      · have a1 := (disciplined_calls i e _ h1 h3).1
        simp at a1
        subst a1
        exact .order (by decide) h1 h2 (by injection h1 with h1; injection h2 with h2; subst h1; subst h2; rfl)
      · have a1 := (disciplined_calls i e _ h1 h3).1
        simp at a1
        obtain ⟨rfl, -⟩ := a1
        exact .sync (by decide) (.inr ⟨rfl, rfl⟩)
    · exact absurd rfl (shut k e' _ h2 h4).1
  · exfalso
    rcases h3 with h3 | h3
    · have a1 := (disciplined_calls i e _ h1 h3).1
      simp at a1
    · have a1 := (disciplined_calls i e _ h1 h3).1
      simp at a1
  · have a1 := disciplined_calls i e _ h1 h2
    have a2 := a1.1
    simp at a2
    obtain ⟨rfl, rfl, rfl, rfl⟩ := a2
    exact a1.2 rfl
  · have a1 := (disciplined_calls i e _ h1 h3).1
    simp at a1

example (i j : Nat) (l : Loc) : ¬ Race disciplinedHistory disciplinedSync i j l := C118_disciplined_partial _ _ disciplined_lawful disciplined_demo i j l

/-! Each of these functions races.  A history: a call from a thread, its task on the strand, and then another call from a thread. -/

/-- No synchronisation by the user. -/
def unsynced : Nat → Nat → Prop := fun _ _ => False

def threeEvents (t t' : Nat) (k k' : ApiCall) (τ : PostedTask) : List MEvent := [⟨.thread t, .call k, 0⟩, ⟨.strand τ.strand, .task τ, 0⟩, ⟨.thread t', .call k', 0⟩]

theorem three_lawful (t t' : Nat) (k k' : ApiCall) (τ : PostedTask) (h : ApiCall.posts k τ) : Lawful (threeEvents t t' k k' τ) := by
  intro j e he
  match j with
  | 0 => injection he with he; subst he; trivial
  | 1 => injection he with he; subst he; exact ⟨rfl, Nat.zero_lt_one, _, rfl, h⟩
  | 2 => injection he with he; subst he; trivial
  | n + 3 => cases he

/-- The task's run does not happen before the second call, even if both calls are made by the same thread. -/
theorem three_unordered (t t' : Nat) (k k' : ApiCall) (τ : PostedTask) : ¬ HB (threeEvents t t' k k' τ) unsynced 1 2 := by
  have key : ∀ i j, HB (threeEvents t t' k k' τ) unsynced i j → i ≠ 1 := by
    intro i j h
    induction h with
    | @order i j e e' hij he he' hc =>
      rintro rfl
      match j, hij with
      | 2, _ =>
        injection he with he; injection he' with he'
        subst he; subst he'
        cases hc
      | n + 3, _ => cases he'
    | @post j e τ' he ha =>
      match j with
      | 0 => injection he with he; subst he; cases ha
      | 1 => injection he with he; subst he; exact Nat.zero_ne_one
      | 2 => injection he with he; subst he; cases ha
      | n + 3 => cases he
    | @lock i j e e' _ he he' hl =>
      rintro rfl
      injection he with he
      subst he
      cases hl
    | sync _ h => exact h.elim
    | trans _ _ h1 _ => exact h1
  intro h
  exact key 1 2 h rfl

theorem three_race (t t' : Nat) (k k' : ApiCall) (τ : PostedTask) (l : Loc) (h1 : PostedTask.touches τ l true) (h2 : ApiCall.touches k' l false) :
    Race (threeEvents t t' k k' τ) unsynced 1 2 l :=
  ⟨by decide, three_unordered t t' k k' τ, _, _, true, false, rfl, rfl, h1, h2, .inl rfl⟩

/-- C118 fails: two threads call `create_session` at the same time; both push to the same vector. -/
theorem C118_violated : ¬ C118_Statement := by
  intro h
  let x : List MEvent := [⟨.thread 0, .call (.createSession 0), 0⟩, ⟨.thread 1, .call (.createSession 0), 0⟩]
  have hx : Lawful x := by
    intro j e he
    match j with
    | 0 => injection he with he; subst he; trivial
    | 1 => injection he with he; subst he; trivial
    | n + 2 => cases he
  have key : ∀ i j, HB x unsynced i j → i ≠ 0 := by
    intro i j h
    induction h with
    | @order i j e e' hij he he' hc =>
      rintro rfl
      match j, hij with
      | 1, _ =>
        injection he with he; injection he' with he'
        subst he; subst he'
        cases hc
      | n + 2, _ => cases he'
    | @post j e τ' he ha =>
      match j with
      | 0 => injection he with he; subst he; cases ha
      | 1 => injection he with he; subst he; cases ha
      | n + 2 => cases he
    | @lock i j e e' _ he he' hl =>
      rintro rfl
      injection he with he
      subst he
      cases hl
    | sync _ h => exact h.elim
    | trans _ _ h1 _ => exact h1
  exact h x unsynced hx 0 1 (.sessions 0) ⟨by decide, fun h => key 0 1 h rfl, _, _, true, true, rfl, rfl, .inr rfl, .inr rfl, .inl rfl⟩

/-- C118: the races are real for every one of these functions; a single thread is enough (`t = t'`): `create_session` and `send_request` after
`shutdown`, `is_running` after `schedule_request`, `get_frequency` after `set_frequency`, and `start` and `add_session` of a server channel after
`shutdown`. -/
theorem C118_races_real (t t' : Nat) :
    (Lawful (threeEvents t t' (.shutdown 0) (.createSession 0) (.shutdown 0)) ∧ Race (threeEvents t t' (.shutdown 0) (.createSession 0) (.shutdown 0)) unsynced 1 2 (.down 0)) ∧
    (Lawful (threeEvents t t' (.shutdown 0) (.send 0 0) (.shutdown 0)) ∧ Race (threeEvents t t' (.shutdown 0) (.send 0 0) (.shutdown 0)) unsynced 1 2 (.down 0)) ∧
    (Lawful (threeEvents t t' (.schedule 0 0 0) (.isRunning 0 0 0) (.start 0 0 0)) ∧
      Race (threeEvents t t' (.schedule 0 0 0) (.isRunning 0 0 0) (.start 0 0 0)) unsynced 1 2 (.running 0 0 0)) ∧
    (Lawful (threeEvents t t' (.setFrequency 0 0 0) (.getFrequency 0 0 0) (.setFrequency 0 0 0)) ∧
      Race (threeEvents t t' (.setFrequency 0 0 0) (.getFrequency 0 0 0) (.setFrequency 0 0 0)) unsynced 1 2 (.frequency 0 0 0)) ∧
    (Lawful (threeEvents t t' (.serverShutdown 0) (.serverStart 0) (.serverShutdown 0)) ∧
      Race (threeEvents t t' (.serverShutdown 0) (.serverStart 0) (.serverShutdown 0)) unsynced 1 2 (.sDown 0)) ∧
    (Lawful (threeEvents t t' (.serverShutdown 0) (.addSession 0) (.serverShutdown 0)) ∧
      Race (threeEvents t t' (.serverShutdown 0) (.addSession 0) (.serverShutdown 0)) unsynced 1 2 (.sDown 0)) :=
  ⟨⟨three_lawful _ _ _ _ _ rfl, three_race _ _ _ _ _ _ (.inl rfl) (.inl ⟨rfl, rfl⟩)⟩,
   ⟨three_lawful _ _ _ _ _ rfl, three_race _ _ _ _ _ _ (.inl rfl) ⟨rfl, rfl⟩⟩,
   ⟨three_lawful _ _ _ _ _ (.inl rfl), three_race _ _ _ _ _ _ (.inl rfl) ⟨rfl, rfl⟩⟩,
   ⟨three_lawful _ _ _ _ _ rfl, three_race _ _ _ _ _ _ rfl ⟨rfl, rfl⟩⟩,
   ⟨three_lawful _ _ _ _ _ rfl, three_race _ _ _ _ _ _ (.inl rfl) ⟨rfl, rfl⟩⟩,
   ⟨three_lawful _ _ _ _ _ rfl, three_race _ _ _ _ _ _ (.inl rfl) ⟨rfl, rfl⟩⟩⟩

end Modbus.Props
