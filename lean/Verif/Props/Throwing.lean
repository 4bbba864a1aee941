import Verif.Lemmas.ThrowingRun
import Verif.Lemmas.StackTalk
import Verif.Props.Client

/-!
C132: response handlers that throw.

The library catches nothing.  A handler that throws (for instance because it calls `get` on a result that is no response) keeps the channel from finishing what it
was doing: the request it belongs to stays the current one, no timer runs for it any more, and if the exception came while received data were processed the
connection is not read any more.
-/

namespace Modbus.Props

open Modbus Spec Cli

/-- What one would like: whatever handlers throw, no handler is called twice, and when the channel has nothing left to do (no posted task, no timer that runs or
whose callback is queued) every request has been told the result. -/
def C132_Statement : Prop := ∀ (env : ClientEnv) (th : Throws) (ops : List Cli.Op) (v : CliT), (CliT.init env).run env th ops = .ret v →
  (handledUids v.cli.log).Nodup ∧
  (v.cli.isShutdown = false → v.cli.tasks = [] → v.cli.armed = [] → v.cli.fired = [] →
    ∀ u unit q tmo, CEv.call u unit q tmo ∈ v.cli.log → u ∈ handledUids v.cli.log)

/-- A result that is defined and satisfies `p`. -/
def holdsOf {α : Type} (x : CM α) (p : α → Bool) : Bool :=
  match x with
  | .ub => false
  | .ret v => p v

/-- Two requests are submitted; there is no answer in time to the first, and its handler does not expect that. -/
def noAnswer : List Cli.Op := [.submit 1 reqA 5, .submit 2 reqA 5, .runTask, .runTask, .tick 5, .expire 0, .runTimer 0]

/-- The log, and whether anything is left to do. -/
def glance : CM CliT → Option (List Nat × List Nat × Bool)
  | .ub => none
  | .ret v => some (sentUids v.cli.log, handledUids v.cli.log, v.cli.tasks = [] ∧ v.cli.armed = [] ∧ v.cli.fired = [] ∧ v.cli.isShutdown = false)

/-- C132 does not hold: after a handler that throws the next request is never sent and its handler never called. -/
theorem C132_violated : ¬ C132_Statement := by
  intro h
  obtain ⟨v, hv, -⟩ := (CliT.TS.init (th := justGet) demoEnv).run demoEnv noAnswer
  have hg : glance ((CliT.init demoEnv).run demoEnv justGet noAnswer) = some ([0], [0], true) := by decide +kernel
  rw [hv] at hg
  simp only [glance, Option.some.injEq, Prod.mk.injEq, decide_eq_true_eq] at hg
  obtain ⟨-, g2, g3, g4, g5, g6⟩ := hg
  have hc : holdsOf ((CliT.init demoEnv).run demoEnv justGet noAnswer) (fun v => CEv.call 1 2 reqA 5 ∈ v.cli.log) = true := by decide +kernel
  rw [hv] at hc
  simp only [holdsOf, decide_eq_true_eq] at hc
  have := (h demoEnv justGet noAnswer v hv).2 g6 g3 g4 g5 1 2 reqA 5 hc
  rw [g2] at this
  simp at this

/-- C132, the other half: the handler that threw is called again, here with the answer that came late. -/
theorem C132_called_twice : ∃ (env : ClientEnv) (ops : List Cli.Op) (v : CliT), (CliT.init env).run env justGet ops = .ret v ∧
    handledUids v.cli.log = [0, 0] ∧ thrown justGet v.cli.log = 1 := by
  obtain ⟨v, hv, -⟩ := (CliT.TS.init (th := justGet) demoEnv).run demoEnv (noAnswer ++ [.receive [0, 0, 0, 0, 0, 5, 1, 3, 2, 0, 42]])
  refine ⟨demoEnv, _, v, hv, ?_⟩
  have hg : holdsOf ((CliT.init demoEnv).run demoEnv justGet (noAnswer ++ [.receive [0, 0, 0, 0, 0, 5, 1, 3, 2, 0, 42]]))
      (fun v => handledUids v.cli.log = [0, 0] ∧ thrown justGet v.cli.log = 1) = true := by decide +kernel
  rw [hv] at hg
  simpa [holdsOf] using hg

/-- A waiting request whose handler did not throw is called twice as well: here a connection error is reported to requests 1 and 2, the handler of the
second throws, and both stay in the queue; at the next error they are told again. -/
theorem C132_others_called_twice : ∃ (env : ClientEnv) (th : Throws) (ops : List Cli.Op) (v : CliT), (CliT.init env).run env th ops = .ret v ∧
    (∀ l x, th l 1 x = false) ∧ (handledUids v.cli.log).count 1 = 2 := by
  obtain ⟨v, hv, -⟩ := (CliT.TS.init (th := fun _ u _ => u == 2) demoEnv).run demoEnv
    [.submit 1 reqA 5, .submit 1 reqA 5, .submit 1 reqA 5, .runTask, .runTask, .runTask, .error, .error]
  refine ⟨demoEnv, _, _, v, hv, fun _ _ => rfl, ?_⟩
  have hg : holdsOf ((CliT.init demoEnv).run demoEnv (fun _ u _ => u == 2)
      [.submit 1 reqA 5, .submit 1 reqA 5, .submit 1 reqA 5, .runTask, .runTask, .runTask, .error, .error])
      (fun v => (handledUids v.cli.log).count 1 = 2) = true := by decide +kernel
  rw [hv] at hg
  simpa [holdsOf] using hg

/-- C132, how bad it is: if a handler throws while received data are processed, and no timer is left, then as long as the connection does not fail nothing is ever sent
again, and no handler is ever called again but those of requests that are not allowed – whatever is received, however long one waits. -/
theorem C132_deaf (env : ClientEnv) (th : Throws) (v v1 v2 : CliT) (h : TReach env th v) (d : List UInt8) (h1 : v.step env th (.receive d) = .ret v1)
    (hthrow : thrown th v.cli.log < thrown th v1.cli.log) (ha : v1.cli.armed = []) (hf : v1.cli.fired = []) (ops : List Cli.Op) (he : Cli.Op.error ∉ ops)
    (h2 : v1.run env th ops = .ret v2) :
    sentUids v2.cli.log = sentUids v1.cli.log ∧ ∃ es, v2.cli.log = v1.cli.log ++ es ∧ ∀ u x t, CEv.handler u x t ∈ es → x = .error .malformedRequest := by
  have hst : CliT.Stuck v1 ∧ v1.reading = false := by
    have hts := CliT.TS.reach h
    cases hr : v.reading with
    | false =>
      simp only [CliT.step, hr, Bool.false_eq_true, if_false] at h1
      injection h1 with h1; subst h1; omega
    | true =>
      have h0 : thrown th (v.cli.emit (.data d)).log = thrown th v.cli.log := thrown_plain _ _ (by simp)
      simp only [CliT.step, hr, if_true, Cli.onReceiveT] at h1
      cases hs : v.cli.isShutdown with
      | true =>
        rw [if_pos (by exact hs)] at h1
        injection h1 with h1; subst h1
        exact absurd hthrow (by simp only; omega)
      | false =>
        rw [if_neg (by simp [Cli.emit, hs])] at h1
        obtain ⟨pend, hrep⟩ := hts.rep hr hs
        obtain ⟨p', ms, pend', hparse, -, -⟩ := Srv.parse_total hrep d
        have key := parseT_eq env th v.cli.parser d (v.cli.emit (.data d)) p' ms rfl hparse
        have thr := onMbapsT_threw (th := th) env ms (v.cli.emit (.data d))
        cases hb : ((v.cli.emit (.data d)).onMbapsT env th ms).2 with
        | false =>
          rw [key.1 hb] at h1
          injection h1 with h1; subst h1
          have := thr.1 hb
          exact absurd hthrow (by simp only; omega)
        | true =>
          obtain ⟨p'', -, hp⟩ := key.2 hb
          rw [hp] at h1
          injection h1 with h1; subst h1
          exact ⟨⟨.inr (thr.2 hb), ha, hf⟩, rfl⟩
  obtain ⟨-, es, e1, e2⟩ := hst.1.run ops (.inl hst.2) he h2
  have hs0 : sentUids es = [] := by
    refine List.eq_nil_iff_forall_not_mem.2 fun u hu => ?_
    obtain ⟨b, t, hm⟩ := mem_sentUids.1 hu
    exact (e2 _ hm).1 u b t rfl
  exact ⟨by rw [e1]; simp [hs0], es, e1, fun u x t hm => (e2 _ hm).2 u x t rfl⟩

/-- The log, whether it grew by a throw, and the timers. -/
def deafDemo : Throws := fun _ u _ => u == 0

example : holdsOf ((CliT.init demoEnv).run demoEnv deafDemo [.submit 1 reqA 5, .runTask])
    (fun v => holdsOf (v.step demoEnv deafDemo (.receive [0, 0, 0, 0, 0, 5, 1, 3, 2, 0, 42]))
      (fun v1 => thrown deafDemo v.cli.log < thrown deafDemo v1.cli.log ∧ v1.cli.armed = [] ∧ v1.cli.fired = [])) = true := by decide +kernel

/-- C132, how bad it is: if a handler throws when it is told that there was no answer in time, and no timer is left, then as long as nothing is received and the
connection does not fail nothing is ever sent again, and no handler is ever called again but those of requests that are not allowed. -/
theorem C132_silent (env : ClientEnv) (th : Throws) (v v1 v2 : CliT) (t : Nat) (h1 : v.step env th (.runTimer t) = .ret v1)
    (hthrow : thrown th v.cli.log < thrown th v1.cli.log) (ha : v1.cli.armed = []) (hf : v1.cli.fired = []) (ops : List Cli.Op) (he : Cli.Op.error ∉ ops)
    (hr : ∀ d, Cli.Op.receive d ∉ ops) (h2 : v1.run env th ops = .ret v2) :
    sentUids v2.cli.log = sentUids v1.cli.log ∧ ∃ es, v2.cli.log = v1.cli.log ++ es ∧ ∀ u x t, CEv.handler u x t ∈ es → x = .error .malformedRequest := by
  have hst : CliT.Stuck v1 := by
    simp only [CliT.step] at h1
    split at h1
    · injection h1 with h1; subst h1
      obtain ⟨r, k1, k2⟩ := onTimerT_threw env { v.cli with fired := v.cli.fired.filter fun x => x ≠ t } hthrow
      refine ⟨.inr ⟨r, ?_⟩, ha, hf⟩
      rw [k2]; exact k1
    · injection h1 with h1; subst h1; omega
  obtain ⟨-, es, e1, e2⟩ := hst.run ops (.inr hr) he h2
  have hs0 : sentUids es = [] := by
    refine List.eq_nil_iff_forall_not_mem.2 fun u hu => ?_
    obtain ⟨b, t, hm⟩ := mem_sentUids.1 hu
    exact (e2 _ hm).1 u b t rfl
  exact ⟨by rw [e1]; simp [hs0], es, e1, fun u x t hm => (e2 _ hm).2 u x t rfl⟩

example : holdsOf ((CliT.init demoEnv).run demoEnv justGet (noAnswer.take 6))
    (fun v => holdsOf (v.step demoEnv justGet (.runTimer 0))
      (fun v1 => thrown justGet v.cli.log < thrown justGet v1.cli.log ∧ v1.cli.armed = [] ∧ v1.cli.fired = [])) = true := by decide +kernel

/-- C132, what holds: as long as no handler has thrown, everything is as it is without exceptions (Model/Client). -/
theorem C132_no_exception_partial (env : ClientEnv) (th : Throws) (ops : List Cli.Op) (c : Cli) (h : (Cli.init env).run env ops = .ret c) (h0 : thrown th c.log = 0) :
    (CliT.init env).run env th ops = .ret ⟨c, true⟩ := CliT.run_calm ops h h0

example : holdsOf ((Cli.init demoEnv).run demoEnv clientOps)
    (fun c => thrown deafDemo c.log = 1 ∧ thrown (fun _ u _ => u == 7) c.log = 0 ∧ thrown justGet c.log = 4) = true := by decide +kernel

/-- C132, what holds: whatever handlers throw, every behaviour is defined; requests are sent in the order they were submitted and at most once; at any moment at most one
request that was sent has not been told a result. -/
theorem C132_requests_partial (env : ClientEnv) (th : Throws) (ops : List Cli.Op) : ∃ v, (CliT.init env).run env th ops = .ret v ∧
    (sentUids v.cli.log).Pairwise (· < ·) ∧
    ∀ u1 u2, u1 ∈ sentUids v.cli.log → u1 ∉ handledUids v.cli.log → u2 ∈ sentUids v.cli.log → u2 ∉ handledUids v.cli.log → u1 = u2 := by
  obtain ⟨v, hv, hi⟩ := (CliT.TS.init (th := th) env).run env ops
  refine ⟨v, hv, (List.pairwise_append.1 hi.inv.order).1, fun u1 u2 a1 a2 b1 b2 => ?_⟩
  obtain ⟨o, h1, -⟩ := hi.inv.out
  have e1 := h1 u1 a1 a2
  have e2 := h1 u2 b1 b2
  rw [e1] at e2
  exact Option.some.inj e2

/-- C132, what holds: a handler is called at most once more than exceptions were thrown. -/
theorem C132_calls_partial (env : ClientEnv) (th : Throws) (ops : List Cli.Op) (v : CliT) (h : (CliT.init env).run env th ops = .ret v) (u : Nat) :
    (handledUids v.cli.log).count u ≤ 1 + thrown th v.cli.log := by
  obtain ⟨v', hv, hi⟩ := (CliT.TS.init (th := th) env).run env ops
  rw [h] at hv
  injection hv with hv; subst hv
  have := hi.inv.count u
  omega

/-- The channel after a request was sent. -/
def afterSend (env : ClientEnv) (c : Cli) (unit : UInt8) (q : AnyReq) (tmo : Nat) : Cli :=
  { c with
    log := c.log ++ [.call c.nextUid unit q tmo, .sent c.nextUid (buildMbap unit c.nextTid (reqMsg q.1 q.2) ⟨[], (env.junk c.nsend).toList⟩) c.now]
    nextUid := c.nextUid + 1
    current := some (PendingReq.mk c.nextUid unit c.nextTid q tmo)
    nextTid := c.nextTid + 1
    nsend := c.nsend + 1
    armed := c.armed ++ [(c.nextTimer, c.now + tmo)]
    timer := some c.nextTimer
    nextTimer := c.nextTimer + 1 }

/-- C132, what holds: when the connection fails and no handler throws because of that, the channel works again: the next request is sent at once, and its answer is
delivered. -/
theorem C132_recovers_partial (env : ClientEnv) (th : Throws) (v v1 : CliT) (h : TReach env th v) (hs : v.cli.isShutdown = false) (ht : v.cli.tasks = [])
    (h1 : v.step env th .error = .ret v1) (hcalm : thrown th v1.cli.log = thrown th v.cli.log) (unit : UInt8) (q : AnyReq) (tmo : Nat) (hq : Allowed q) :
    ∃ v2 tid bytes, v1.run env th [.submit unit q tmo, .runTask] = .ret v2 ∧ IsRequestFrame unit tid q bytes ∧
      v2.cli.log = v1.cli.log ++ [.call v1.cli.nextUid unit q tmo, .sent v1.cli.nextUid bytes v1.cli.now] ∧
      ∀ pdu, Ordinary ⟨unit, tid, pdu⟩ → ∃ v3, v2.step env th (.receive (frameOf ⟨unit, tid, pdu⟩).bytes) = .ret v3 ∧
        v3.cli.log = v2.cli.log ++ [.data (frameOf ⟨unit, tid, pdu⟩).bytes, .mbap ⟨unit, tid, pdu⟩, .handler v1.cli.nextUid (.ok pdu) v1.cli.now] := by
  have hts := CliT.TS.reach h
  simp only [CliT.step] at h1
  injection h1 with h1
  have hu : thrown th (v.cli.emit .connError).log = thrown th v.cli.log := thrown_plain _ _ (by simp)
  rw [onErrorT_up env v.cli hs] at h1
  have hc : thrown th (failT env th { v.cli.emit .connError with parser := v.cli.parser.reset }).1.log =
      thrown th ({ v.cli.emit .connError with parser := v.cli.parser.reset } : Cli).log := by
    have : (failT env th { v.cli.emit .connError with parser := v.cli.parser.reset }).1 = v1.cli := by rw [← h1]
    rw [this, hcalm]; exact hu.symm
  obtain ⟨k1, k2, k3, k4⟩ := failT_calm env _ hc
  have k5 := (failT_leaves (th := th) env { v.cli.emit .connError with parser := v.cli.parser.reset }).1
  have hrd : v1.reading = true := by rw [← h1]
  obtain ⟨c, rd⟩ := v1
  injection h1 with h1 _
  rw [h1] at k1 k2 k3 k4 k5
  subst hrd
  have k3 : c.tasks = [] := k3.trans ht
  have k4 : c.isShutdown = false := k4.trans hs
  have k5 : Rep c.parser [] := by rw [k5]; exact rep_reset _ hts.mem
  have hv : isValid q.1 q.2 = true := (allowed_iff q).2 hq
  refine ⟨⟨afterSend env c unit q tmo, true⟩,
    c.nextTid, _, ?_, request_frame (mem := (env.junk c.nsend).toList) (by simp) hq, rfl, fun pdu ho => ?_⟩
  · have e1 : (CliT.mk c true).step env th (.submit unit q tmo) =
        .ret ⟨{ c.emit (.call c.nextUid unit q tmo) with nextUid := c.nextUid + 1, tasks := [.request c.nextUid unit q tmo] }, true⟩ := by
      simp only [CliT.step, Cli.step]
      rw [if_neg (by simp [emit, k4]), if_pos hv]
      simp [emit, k3]
    have e2 : ∀ w : Cli, w.tasks = [.request c.nextUid unit q tmo] → (CliT.mk w true).step env th .runTask =
        .ret ⟨({ w with tasks := [] } : Cli).runTask env (.request c.nextUid unit q tmo), true⟩ := by
      intro w hw
      simp only [CliT.step, Cli.step, hw]
      rfl
    simp only [CliT.run, e1, CM.ret_bind]
    rw [e2 _ rfl]
    simp only [CM.ret_bind, Cli.runTask, Cli.checkPending, emit, k1, k2, k4, Bool.false_eq_true, if_false, List.nil_append, afterSend, List.append_assoc, List.cons_append, k3]
  · obtain ⟨d, hd⟩ : ∃ d, d = (frameOf ⟨unit, c.nextTid, pdu⟩).bytes := ⟨_, rfl⟩
    have hm : ∀ m ∈ ([⟨unit, c.nextTid, pdu⟩] : List Mbap), Ordinary m := fun m hm => by rw [List.mem_singleton.1 hm]; exact ho
    obtain ⟨p2, ns, ns', pend2, b1, -, b3, b4, b5⟩ := parse_stream k5 [⟨unit, c.nextTid, pdu⟩] hm d [] (by rw [hd]; simp [streamOf])
    have hns' : ns' = [] := rep_whole b3 (fun m hm' => hm m (by rw [b4]; exact List.mem_append_right _ hm')) (by simpa using b5)
    subst hns'
    rw [List.append_nil] at b4
    subst b4
    rw [← hd]
    obtain ⟨w, hw⟩ : ∃ w, w = afterSend env c unit q tmo := ⟨_, rfl⟩
    rw [← hw]
    have key := parseT_eq env th w.parser d (w.emit (.data d)) p2 _ rfl (by rw [hw]; exact b1)
    have hlog : ((w.emit (.data d)).onMbapsT env th [⟨unit, c.nextTid, pdu⟩]).1.log =
        w.log ++ [.data d, .mbap ⟨unit, c.nextTid, pdu⟩, .handler c.nextUid (.ok pdu) c.now] := by
      rw [onMbapsT_answer env th (w.emit (.data d)) ⟨c.nextUid, unit, c.nextTid, q, tmo⟩ (by rw [hw]; exact k4) (by rw [hw]; rfl) (by rw [hw]; exact k2) _ ⟨rfl, rfl⟩]
      rw [hw]
      simp [afterSend, emit]
    have hstep : ∀ x b, (w.emit (.data d)).parseT env th d = .ret (x, b) → (CliT.mk w true).step env th (.receive d) = .ret ⟨x, !b⟩ := by
      intro x b hx
      simp only [CliT.step, Cli.onReceiveT, if_true]
      rw [if_neg (by simp [Cli.emit, hw, afterSend, k4]), hx]
      rfl
    cases hb : ((w.emit (.data d)).onMbapsT env th [⟨unit, c.nextTid, pdu⟩]).2 with
    | false => exact ⟨_, hstep _ _ (key.1 hb), hlog⟩
    | true =>
      obtain ⟨p'', -, hp⟩ := key.2 hb
      exact ⟨_, hstep _ _ hp, hlog⟩

example : holdsOf ((CliT.init demoEnv).run demoEnv deafDemo [.submit 1 reqA 5, .runTask, .receive [0, 0, 0, 0, 0, 5, 1, 3, 2, 0, 42]])
    (fun v => v.cli.isShutdown = false ∧ v.cli.tasks = [] ∧ v.reading = false) = true := by decide +kernel

example : holdsOf ((CliT.init demoEnv).run demoEnv justGet (noAnswer ++ [.error]))
    (fun v => thrown justGet v.cli.log = 2 ∧ handledUids v.cli.log = [0, 1]) = true := by decide +kernel

end Modbus.Props
