import Verif.Lemmas.SessionApi
import Verif.Props.ClientTime

/-!
Property C142: the interface of client sessions (`create_session`, the overloads of `send_request` and `schedule_request`).

`IReach env v`: the client can be in state `v` after some history of API calls, tasks, timers and events of the connection.  Properties are stated on the log.
-/

namespace Modbus.Props

open Spec

/-- States reachable by any history. -/
def IReach (env : ClientEnv) (v : Clt) : Prop := ∃ ops : List Clt.Op, (Clt.init env).run env ops = .ret v

theorem Clt.send_other (env : ClientEnv) {v : Clt} (h : CInv env v) {s : Nat} (hn : v.pcl.sess[s]? = none) (q : AnyReq) (g : Option Nat) (t f : Nat) :
    v.send env s q g t = .ret v ∧ v.sendDefault env s q = .ret v ∧ v.schedule env s q g t f = .ret v ∧ v.scheduleDefault env s q f = .ret v := by
  have hd : v.defaults[s]? = none := by
    rw [List.getElem?_eq_none_iff] at hn ⊢
    rw [h.len]; exact hn
  simp [Clt.send, Clt.sendDefault, Clt.schedule, Clt.scheduleDefault, hn, hd]

theorem _root_.Modbus.CInv.of_some {env : ClientEnv} {v : Clt} (h : CInv env v) {s : Nat} {p : PSess} (hp : v.pcl.sess[s]? = some p) :
    ∃ d, v.defaults[s]? = some d ∧ IfEv.created s p.unit d ∈ v.log := by
  have hlt : s < v.defaults.length := by rw [h.len]; exact (List.getElem?_eq_some_iff.1 hp).1
  exact ⟨v.defaults[s], List.getElem?_eq_getElem hlt, (h.made _ _ _).2 ⟨List.getElem?_eq_getElem hlt, p, hp, rfl⟩⟩

theorem _root_.Modbus.CInv.step {env : ClientEnv} {v : Clt} (h : CInv env v) (op : Clt.Op) : ∃ w, v.step env op = .ret w ∧ CInv env w := by
  cases op with
  | createSession unit d => obtain ⟨w, h1, h2, -⟩ := h.create_step unit d; exact ⟨w, h1, h2⟩
  | send s q =>
    cases hp : v.pcl.sess[s]? with
    | none => exact ⟨v, (Clt.send_other env h hp q none 0 0).2.1, h⟩
    | some p =>
      obtain ⟨d, h1, h2⟩ := h.of_some hp
      obtain ⟨w, h3, h4, -⟩ := h.send_step h2 q none
      exact ⟨w, by simp only [Clt.step, Clt.sendDefault, h1]; exact h3, h4⟩
  | sendWithin s q t =>
    cases hp : v.pcl.sess[s]? with
    | none => exact ⟨v, (Clt.send_other env h hp q (some t) t 0).1, h⟩
    | some p =>
      obtain ⟨d, h1, h2⟩ := h.of_some hp
      obtain ⟨w, h3, h4, -⟩ := h.send_step h2 q (some t)
      exact ⟨w, h3, h4⟩
  | schedule s q f =>
    cases hp : v.pcl.sess[s]? with
    | none => exact ⟨v, (Clt.send_other env h hp q none 0 f).2.2.2, h⟩
    | some p =>
      obtain ⟨d, h1, h2⟩ := h.of_some hp
      obtain ⟨w, i, h3, h4, -⟩ := h.schedule_step h2 q none f
      exact ⟨w, by simp only [Clt.step, Clt.scheduleDefault, h1]; exact h3, h4⟩
  | scheduleWithin s q t f =>
    cases hp : v.pcl.sess[s]? with
    | none => exact ⟨v, (Clt.send_other env h hp q (some t) t f).2.2.1, h⟩
    | some p =>
      obtain ⟨d, h1, h2⟩ := h.of_some hp
      obtain ⟨w, i, h3, h4, -⟩ := h.schedule_step h2 q (some t) f
      exact ⟨w, h3, h4⟩
  | api s o => exact h.inside_step (by simp) (by simp) (by simp)
  | sess s o => exact h.inside_step (by simp) (by simp) (by simp)
  | chan o => exact h.inside_step (by simp) (by simp) (by simp)
  | tick n => exact h.inside_step (by simp) (by simp) (by simp)

theorem _root_.Modbus.CInv.run {env : ClientEnv} (ops : List Clt.Op) : ∀ {v : Clt}, CInv env v → ∃ w, v.run env ops = .ret w ∧ CInv env w := by
  induction ops with
  | nil => intro v h; exact ⟨v, rfl, h⟩
  | cons op ops ih =>
    intro v h
    obtain ⟨w, h1, h2⟩ := h.step op
    obtain ⟨x, h3, h4⟩ := ih h2
    exact ⟨x, by simp only [Clt.run, h1, CM.ret_bind, h3], h4⟩

theorem IReach.inv {env : ClientEnv} {v : Clt} (h : IReach env v) : CInv env v := by
  obtain ⟨ops, h⟩ := h
  obtain ⟨w, h1, h2⟩ := CInv.run ops (CInv.init env)
  rw [h] at h1; injection h1 with h1; subst h1
  exact h2

/-- No history leads to undefined behaviour. -/
theorem interface_total (env : ClientEnv) (ops : List Clt.Op) : ∃ v, (Clt.init env).run env ops = .ret v := by
  obtain ⟨w, h1, -⟩ := CInv.run ops (CInv.init env)
  exact ⟨w, h1⟩

/-! A client with two sessions: unit 1 with default 10, unit 2 with default 20.  Each sends with and without a timeout and schedules with and without one; the first
request is answered by a timeout. -/

def idemoOps : List Clt.Op :=
  [.createSession 1 10, .createSession 2 20, .send 1 reqA, .sendWithin 1 reqA 5, .send 0 reqA, .schedule 1 reqA 50, .scheduleWithin 0 reqA 7 60,
   .sess 1 .runTask, .sess 0 .runTask, .chan .runTask, .chan .runTask, .tick 20, .chan (.expire 0), .chan (.runTimer 0)]

def idemo : Clt :=
  match (Clt.init demoEnv).run demoEnv idemoOps with
  | .ret v => v
  | .ub => Clt.init demoEnv

theorem idemo_reach : IReach demoEnv idemo := by
  obtain ⟨v, hv⟩ := interface_total demoEnv idemoOps
  refine ⟨idemoOps, ?_⟩
  simp only [idemo, hv]

/-! ### C142 -/

/-- C142: `create_session` creates a session until the channel has shut down, and none afterwards. -/
theorem C142_created (env : ClientEnv) (v : Clt) (h : IReach env v) (unit : UInt8) (default : Nat) : ∃ w, v.step env (.createSession unit default) = .ret w ∧
    (IfEv.inner (.ch .tcpShutdown) ∉ v.log → ∃ s, IfEv.created s unit default ∈ w.log ∧ s ∉ creations v.log) ∧
    (IfEv.inner (.ch .tcpShutdown) ∈ v.log → creations w.log = creations v.log) := by
  have hi := h.inv
  obtain ⟨w, h1, h2, h3, h4⟩ := hi.create_step unit default
  have hdown : IfEv.inner (.ch .tcpShutdown) ∈ v.log ↔ v.pcl.cli.isShutdown = true := by
    rw [← hi.reach.chan.1.inv.1.downLog, hi.reach.chan.2, ← mem_insideOf, hi.inside]
    simp only [ofChannel, List.mem_filterMap]
    constructor
    · intro hm; exact ⟨_, hm, rfl⟩
    · rintro ⟨x, hx, he⟩
      cases x <;> simp at he
      subst he; exact hx
  refine ⟨w, h1, fun hn => ⟨_, h3 (by simpa [hdown] using hn), ?_⟩, fun hm => ?_⟩
  · rw [hi.count]; simp
  · rw [h2.count, h4 (hdown.1 hm), hi.count]

/-- C142: sessions are told apart: each number is given once, with one unit and one default. -/
theorem C142_identities (env : ClientEnv) (v : Clt) (h : IReach env v) : (creations v.log).Nodup ∧
    ∀ s unit unit' d d', IfEv.created s unit d ∈ v.log → IfEv.created s unit' d' ∈ v.log → unit = unit' ∧ d = d' := by
  have hi := h.inv
  refine ⟨by rw [hi.count]; exact List.nodup_range, fun s unit unit' d d' h1 h2 => ?_⟩
  obtain ⟨a1, p, a2, a3⟩ := (hi.made _ _ _).1 h1
  obtain ⟨b1, q, b2, b3⟩ := (hi.made _ _ _).1 h2
  rw [a1] at b1; injection b1 with b1
  rw [a2] at b2; injection b2 with b2
  subst b2
  exact ⟨a3.symm.trans b3, b1⟩

/-- Two sessions; a third one is created, and after the shutdown of the channel no more. -/
example : creations idemo.log = [0, 1] ∧ IfEv.created 0 1 10 ∈ idemo.log ∧ IfEv.created 1 2 20 ∈ idemo.log ∧ IfEv.inner (.ch .tcpShutdown) ∉ idemo.log := by decide +kernel

example : ∃ v, IReach demoEnv v ∧ IfEv.inner (.ch .tcpShutdown) ∈ v.log ∧ creations v.log = [0] := by
  obtain ⟨v, hv⟩ := interface_total demoEnv [.createSession 1 10, .chan .shutdown, .chan .runTask]
  refine ⟨v, ⟨_, hv⟩, ?_⟩
  have : (match (Clt.init demoEnv).run demoEnv [.createSession 1 10, .chan .shutdown, .chan .runTask] with
    | .ret v => decide (IfEv.inner (.ch .tcpShutdown) ∈ v.log ∧ creations v.log = [0])
    | .ub => false) = true := by decide +kernel
  rw [hv] at this
  exact of_decide_eq_true this

example := C142_created demoEnv idemo idemo_reach 3 30

/-- C142: `send_request` without a timeout makes one request of the channel: for the unit of the session, as asked, with the default timeout of the session. -/
theorem C142_send (env : ClientEnv) (v : Clt) (h : IReach env v) (s : Nat) (unit : UInt8) (default : Nat) (hc : IfEv.created s unit default ∈ v.log) (q : AnyReq) :
    ∃ w u, v.step env (.send s q) = .ret w ∧ w.log = v.log ++ [.asked s u q none, .inner (.ch (.call u unit q default))] := by
  have hi := h.inv
  obtain ⟨w, h1, -, h2⟩ := hi.send_step hc q none
  exact ⟨w, _, by simp only [Clt.step, Clt.sendDefault, ((hi.made _ _ _).1 hc).1]; exact h1, h2⟩

/-- C142: with a timeout, the same with this timeout. -/
theorem C142_send_within (env : ClientEnv) (v : Clt) (h : IReach env v) (s : Nat) (unit : UInt8) (default : Nat) (hc : IfEv.created s unit default ∈ v.log) (q : AnyReq)
    (timeout : Nat) :
    ∃ w u, v.step env (.sendWithin s q timeout) = .ret w ∧ w.log = v.log ++ [.asked s u q (some timeout), .inner (.ch (.call u unit q timeout))] := by
  obtain ⟨w, h1, -, h2⟩ := h.inv.send_step hc q (some timeout)
  exact ⟨w, _, h1, h2⟩

/-- C142: `schedule_request` without a timeout schedules the request on the session, to be polled with the default timeout of the session. -/
theorem C142_schedule (env : ClientEnv) (v : Clt) (h : IReach env v) (s : Nat) (unit : UInt8) (default : Nat) (hc : IfEv.created s unit default ∈ v.log) (q : AnyReq)
    (freq : Nat) :
    ∃ w i, v.step env (.schedule s q freq) = .ret w ∧ w.log = v.log ++ [.polled s i q none freq, .inner (.scheduled s i q default freq)] := by
  have hi := h.inv
  obtain ⟨w, i, h1, -, h2⟩ := hi.schedule_step hc q none freq
  exact ⟨w, i, by simp only [Clt.step, Clt.scheduleDefault, ((hi.made _ _ _).1 hc).1]; exact h1, h2⟩

/-- C142: with a timeout, the same with this timeout. -/
theorem C142_schedule_within (env : ClientEnv) (v : Clt) (h : IReach env v) (s : Nat) (unit : UInt8) (default : Nat) (hc : IfEv.created s unit default ∈ v.log) (q : AnyReq)
    (timeout freq : Nat) :
    ∃ w i, v.step env (.scheduleWithin s q timeout freq) = .ret w ∧
      w.log = v.log ++ [.polled s i q (some timeout) freq, .inner (.scheduled s i q timeout freq)] := by
  obtain ⟨w, i, h1, -, h2⟩ := h.inv.schedule_step hc q (some timeout) freq
  exact ⟨w, i, h1, h2⟩

/-- On either session of the demonstration. -/
example := C142_send demoEnv idemo idemo_reach 1 2 20 (by decide +kernel) reqA
example := C142_send_within demoEnv idemo idemo_reach 0 1 10 (by decide +kernel) reqA 99
example := C142_schedule demoEnv idemo idemo_reach 0 1 10 (by decide +kernel) reqA 99
example := C142_schedule_within demoEnv idemo idemo_reach 1 2 20 (by decide +kernel) reqA 98 99

theorem _root_.Modbus.Spec.AsCalled.more {l m : List IfEv} {u : Nat} {unit : UInt8} {q : AnyReq} {d : Nat} (h : AsCalled l u unit q d) : AsCalled (l ++ m) u unit q d := by
  obtain ⟨s, dflt, g, h1, h2, h3⟩ := h
  refine ⟨s, dflt, g, List.mem_append_left _ h1, h2, ?_⟩
  rcases h3 with h3 | ⟨i, id, t, f, a, b, h3, h4⟩
  · exact .inl (List.mem_append_left _ h3)
  · exact .inr ⟨i, id, t, f, a, b ++ m, by rw [h3]; simp, h4⟩

theorem mem_ofChannel {l : List LEv} {e : CEv} : e ∈ ofChannel l ↔ LEv.ch e ∈ l := by
  simp only [ofChannel, List.mem_filterMap]
  constructor
  · rintro ⟨x, hx, he⟩
    cases x <;> simp at he
    subst he; exact hx
  · intro hm; exact ⟨_, hm, rfl⟩

/-- C142: every request the channel is given is one the user's calls ask for: made by `send_request`, or a poll of a request scheduled earlier, on a session created
for its unit, with the timeout given or else the default of the session. -/
theorem C142_origin (env : ClientEnv) (v : Clt) (h : IReach env v) (a b : List IfEv) (u : Nat) (unit : UInt8) (q : AnyReq) (d : Nat)
    (hl : v.log = a ++ .inner (.ch (.call u unit q d)) :: b) : AsCalled (a ++ [.inner (.ch (.call u unit q d))]) u unit q d := by
  have hi := h.inv
  rcases hi.formed.calls _ _ _ _ _ _ hl with ⟨a', s, g, h1⟩ | ⟨a', s, i, id, t, h1⟩
  · have h2 : v.log = a' ++ .asked s u q g :: (.inner (.ch (.call u unit q d)) :: b) := by rw [hl, h1]; simp
    obtain ⟨unit', d', b', h3, h4⟩ := hi.formed.asked _ _ _ _ _ _ h2
    injection h4 with h4 h5
    injection h4 with h4
    injection h4 with h4
    injection h4 with h6 h7 h8 h9
    subst h7; subst h9
    refine ⟨s, d', g, ?_, rfl, .inl ?_⟩
    · rw [h1]; exact List.mem_append_left _ (List.mem_append_left _ (by simpa using h3))
    · rw [h1]; simp
  · have h2 : v.log = a' ++ .inner (.sess s (.poll i (.sent id t))) :: (.inner (.ch (.call u unit q d)) :: b) := by rw [hl, h1]; simp
    have h3 : v.pcl.log = insideOf a' ++ .sess s (.poll i (.sent id t)) :: .ch (.call u unit q d) :: insideOf b := by
      rw [← hi.inside, h2, insideOf_append]; rfl
    obtain ⟨uid, unit', q', tmo, f, b', h4, h5, h6⟩ := C111_poll_is_request env v.pcl hi.reach _ _ _ _ _ _ h3
    injection h4 with h4 h7
    injection h4 with h4
    injection h4 with h8 h9 h10 h11
    subst h9; subst h10; subst h11
    obtain ⟨a1, a2, h12⟩ := List.append_of_mem (mem_insideOf.1 h6)
    obtain ⟨a3, g, unit2, d2, h13, h14, h15⟩ := hi.formed.sched a1 (a2 ++ [.inner (.sess s (.poll i (.sent id t)))] ++ .inner (.ch (.call u unit q d)) :: b) s i q d f (by
      rw [hl, h1, h12]; simp)
    have h16 : IfEv.created s unit2 d2 ∈ a' := by rw [h12, h13]; exact List.mem_append_left _ (List.mem_append_left _ (by simpa using h14))
    have h17 : unit2 = unit := by
      obtain ⟨-, p, h18, h19⟩ := (hi.made s unit2 d2).1 (by rw [h2]; exact List.mem_append_left _ h16)
      obtain ⟨p', h20, h21⟩ := LReach.unit_of hi.reach (s := s) (u := unit) (by rw [h3]; exact List.mem_append_left _ h5)
      rw [h18] at h20; injection h20 with h20; subst h20
      exact h19.symm.trans h21
    subst h17
    refine ⟨s, d2, g, ?_, h15, .inr ⟨i, id, t, f, a', [], by rw [h1]; simp, ?_⟩⟩
    · rw [h1]; exact List.mem_append_left _ (List.mem_append_left _ h16)
    · rw [h12, h13]; simp

theorem C142_origin_mem {env : ClientEnv} {v : Clt} (h : IReach env v) {past future : List IfEv} (hl : v.log = past ++ future) {u : Nat} {unit : UInt8} {q : AnyReq} {d : Nat}
    (hm : LEv.ch (.call u unit q d) ∈ insideOf past) : AsCalled past u unit q d := by
  obtain ⟨a, b, h1⟩ := List.append_of_mem (mem_insideOf.1 hm)
  have h2 := C142_origin env v h a (b ++ future) u unit q d (by rw [hl, h1]; simp)
  rw [h1, List.append_cons]
  exact h2.more

/-- A request of each kind: with the default of the second session, with a timeout, with the default of the first session, polls with and without a timeout. -/
example : IfEv.inner (.ch (.call 0 2 reqA 20)) ∈ idemo.log ∧ IfEv.inner (.ch (.call 1 2 reqA 5)) ∈ idemo.log ∧ IfEv.inner (.ch (.call 2 1 reqA 10)) ∈ idemo.log ∧
    IfEv.inner (.ch (.call 3 2 reqA 20)) ∈ idemo.log ∧ IfEv.inner (.ch (.call 4 1 reqA 7)) ∈ idemo.log := by decide +kernel

/-- C142: every frame a client puts on the wire carries the request of a call of the user, addressed to the unit of the session it was made on. -/
theorem C142_wire (env : ClientEnv) (v : Clt) (h : IReach env v) (u : Nat) (bytes : List UInt8) (t : Nat) (hs : IfEv.inner (.ch (.sent u bytes t)) ∈ v.log) :
    ∃ unit q d tid, AsCalled v.log u unit q d ∧ Allowed q ∧ IsRequestFrame unit tid q bytes := by
  have hi := h.inv
  have hs' : CEv.sent u bytes t ∈ v.pcl.cli.log := by rw [hi.reach.chan.2, mem_ofChannel, ← hi.inside, mem_insideOf]; exact hs
  obtain ⟨unit, q, d, tid, h1, h2, h3⟩ := C55_only_valid_requests_sent env v.pcl.cli hi.reach.chan.1 u bytes t hs'
  rw [hi.reach.chan.2, mem_ofChannel, ← hi.inside] at h1
  exact ⟨unit, q, d, tid, C142_origin_mem h (future := []) (by simp) h1, h2, h3⟩

/-- C142: a handler is called with a timeout only when the time allowed for some request sent, the timeout given with the user's call or else the default of the
session, is up (that it need not be its own request is C51). -/
theorem C142_timeout (env : ClientEnv) (v : Clt) (h : IReach env v) (past future : List IfEv) (u now : Nat)
    (hl : v.log = past ++ .inner (.ch (.handler u (.error .timeout) now)) :: future) :
    ∃ u' unit q d bytes t, AsCalled past u' unit q d ∧ IfEv.inner (.ch (.sent u' bytes t)) ∈ past ∧ t + d ≤ now := by
  have hi := h.inv
  have h1 : v.pcl.cli.log = ofChannel (insideOf past) ++ .handler u (.error .timeout) now :: ofChannel (insideOf future) := by
    rw [hi.reach.chan.2, ← hi.inside, hl, insideOf_append]
    simp only [ofChannel, List.filterMap_append]
    rfl
  obtain ⟨-, -, u', unit, q, d, bytes, t, h2, h3, h4⟩ := C51_some_timeout env v.pcl.cli hi.reach.chan.1 _ _ u now h1
  exact ⟨u', unit, q, d, bytes, t, C142_origin_mem h hl (mem_ofChannel.1 h2), mem_insideOf.1 (mem_ofChannel.1 h3), h4⟩

/-- C142: if no timer's callback comes late, the time allowed for the request itself is up. -/
theorem C142_own_timeout (env : ClientEnv) (v : Clt) (h : IReach env v) (hn : NoLateTimer env v.pcl.cli) (u now : Nat)
    (hm : IfEv.inner (.ch (.handler u (.error .timeout) now)) ∈ v.log) :
    ∃ unit q d bytes t, AsCalled v.log u unit q d ∧ IfEv.inner (.ch (.sent u bytes t)) ∈ v.log ∧ t + d ≤ now := by
  have hi := h.inv
  have back : ∀ {e}, e ∈ v.pcl.cli.log ↔ IfEv.inner (.ch e) ∈ v.log := by
    intro e; rw [hi.reach.chan.2, mem_ofChannel, ← hi.inside, mem_insideOf]
  obtain ⟨unit, q, d, bytes, t, h2, h3, h4⟩ := C51_own_timeout_partial env v.pcl.cli hn u now (back.2 hm)
  exact ⟨unit, q, d, bytes, t, C142_origin_mem h (future := []) (by simp) (mem_insideOf.2 (back.1 h2)), back.1 h3, h4⟩

/-- Request 0 of the demonstration was sent and timed out at its default of 20. -/
example : IfEv.inner (.ch (.sent 0 [0, 0, 0, 0, 0, 6, 2, 3, 0, 0, 0, 1] 0)) ∈ idemo.log ∧ IfEv.inner (.ch (.handler 0 (.error .timeout) 20)) ∈ idemo.log := by decide +kernel

example := C142_wire demoEnv idemo idemo_reach 0 [0, 0, 0, 0, 0, 6, 2, 3, 0, 0, 0, 1] 0 (by decide +kernel)

/-- The history has no late callback of a timer: none that runs while another timer is set for the request being waited for. -/
def punctual (env : ClientEnv) : Clt → List Clt.Op → Bool
  | _, [] => true
  | v, op :: ops =>
    (match op with
      | .chan (.runTimer t) => v.pcl.cli.current.isNone || v.pcl.cli.timer == some t
      | _ => true) &&
    match v.step env op with
    | .ret w => punctual env w ops
    | .ub => false

theorem Clt.step_inner {env : ClientEnv} {v w : Clt} {op : Clt.Op} (h : v.step env op = .ret w) : w.pcl = v.pcl ∨ ∃ pop, v.pcl.step env pop = .ret w.pcl ∧
    ∀ c, pop = .chan c → op = .chan c := by
  have send : ∀ {s q g t}, v.send env s q g t = .ret w → w.pcl = v.pcl ∨ ∃ pop, v.pcl.step env pop = .ret w.pcl ∧ ∀ c, pop = .chan c → op = .chan c := by
    intro s q g t h
    unfold Clt.send at h
    split at h
    · injection h with h; subst h; exact .inl rfl
    · obtain ⟨x, h1, h2⟩ := CM.bind_eq_ret.1 h
      injection h2 with h2; subst h2
      exact .inr ⟨_, h1, by simp⟩
  have sched : ∀ {s q g t f}, v.schedule env s q g t f = .ret w → w.pcl = v.pcl ∨ ∃ pop, v.pcl.step env pop = .ret w.pcl ∧ ∀ c, pop = .chan c → op = .chan c := by
    intro s q g t f h
    unfold Clt.schedule at h
    split at h
    · injection h with h; subst h; exact .inl rfl
    · obtain ⟨x, h1, h2⟩ := CM.bind_eq_ret.1 h
      injection h2 with h2; subst h2
      exact .inr ⟨_, h1, by simp⟩
  cases op with
  | createSession unit d =>
    obtain ⟨x, h1, h2⟩ := CM.bind_eq_ret.1 h
    have hx : w.pcl = x := by
      split at h2 <;> injection h2 with h2 <;> subst h2 <;> rfl
    exact .inr ⟨.createSession unit, by rw [hx]; exact h1, by simp⟩
  | send s q =>
    simp only [Clt.step, Clt.sendDefault] at h
    split at h
    · injection h with h; subst h; exact .inl rfl
    · exact send h
  | sendWithin s q t => exact send h
  | schedule s q f =>
    simp only [Clt.step, Clt.scheduleDefault] at h
    split at h
    · injection h with h; subst h; exact .inl rfl
    · exact sched h
  | scheduleWithin s q t f => exact sched h
  | api s o => obtain ⟨x, h1, h2⟩ := CM.bind_eq_ret.1 h; injection h2 with h2; subst h2; exact .inr ⟨_, h1, by simp⟩
  | sess s o => obtain ⟨x, h1, h2⟩ := CM.bind_eq_ret.1 h; injection h2 with h2; subst h2; exact .inr ⟨_, h1, by simp⟩
  | chan o => obtain ⟨x, h1, h2⟩ := CM.bind_eq_ret.1 h; injection h2 with h2; subst h2; exact .inr ⟨_, h1, by simp⟩
  | tick n => obtain ⟨x, h1, h2⟩ := CM.bind_eq_ret.1 h; injection h2 with h2; subst h2; exact .inr ⟨_, h1, by simp⟩

theorem noLate_of_punctual {env : ClientEnv} (ops : List Clt.Op) : ∀ {v w : Clt}, CInv env v → NoLateTimer env v.pcl.cli → punctual env v ops = true →
    v.run env ops = .ret w → NoLateTimer env w.pcl.cli := by
  induction ops with
  | nil => intro v w _ h _ hr; injection hr with hr; subst hr; exact h
  | cons op ops ih =>
    intro v w hi h hp hr
    obtain ⟨x, h1, hr⟩ := CM.bind_eq_ret.1 hr
    have hx : CInv env x := by
      obtain ⟨y, h2, h3⟩ := hi.step op
      rw [h1] at h2; injection h2 with h2; subst h2; exact h3
    simp only [punctual, h1, Bool.and_eq_true] at hp
    refine ih hx ?_ hp.2 hr
    rcases Clt.step_inner h1 with he | ⟨pop, h2, h3⟩
    · rw [he]; exact h
    · obtain ⟨new, hst⟩ := hi.reach.stepped h2
      obtain ⟨cop, h4, -, h5⟩ := hst.chan
      refine h.step h4 ?_
      rintro t rfl
      have h6 := h3 _ (h5 rfl)
      subst h6
      have h7 := hp.1
      simp only [Bool.or_eq_true, Option.isNone_iff_eq_none, beq_iff_eq] at h7
      exact h7

/-- A request timing out at its default, with no late timer. -/
example : ∃ v, IReach demoEnv v ∧ NoLateTimer demoEnv v.pcl.cli ∧ IfEv.inner (.ch (.handler 0 (.error .timeout) 20)) ∈ v.log := by
  refine ⟨idemo, idemo_reach, ?_, by decide +kernel⟩
  obtain ⟨v, hv⟩ := interface_total demoEnv idemoOps
  have he : idemo = v := by simp only [idemo, hv]
  rw [he]
  exact noLate_of_punctual idemoOps (CInv.init demoEnv) .init (by decide +kernel) hv

end Modbus.Props
