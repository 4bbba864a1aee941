import Verif.Lemmas.ExampleClient

/-!
Property C146: what the example client (examples/client/main.cpp) asks for.

`ExReach env v`: the program can be in state `v` after some keys and some background activity, in any order.
-/

namespace Modbus

open Spec ExClient

namespace Props

/-- States reachable by any keys and background activity. -/
def ExReach (env : ClientEnv) (v : ExClient) : Prop := ∃ ops, (ExClient.init env >>= fun w => w.run env ops) = .ret v

theorem ExReach.inv {env : ClientEnv} {v : ExClient} (h : ExReach env v) : ExInv env v := by
  obtain ⟨ops, h⟩ := h
  obtain ⟨w, h1, h2, -⟩ := ExInv.init env
  rw [h1, CM.ret_bind] at h
  obtain ⟨x, h3, h4⟩ := ExInv.run ops h2
  rw [h] at h3; injection h3 with h3; subst h3
  exact h4

/-! A history: the poll is sent and times out, then each key is typed, one of them without meaning; the requests of `r` and `w` are sent. -/

def xdemoOps : List ExClient.Op :=
  [.main, .main, .background (.sess 0 .runTask), .background (.sess 0 .runTask), .background (.chan .runTask), .key 'r', .key 'x', .key 's', .background (.tick 3000),
   .background (.chan (.expire 0)), .background (.chan (.runTimer 0)), .background (.chan .runTask), .key 'w', .key 'f', .background (.chan .runTask),
   .background (.tick 3000), .background (.chan (.expire 1)), .background (.chan (.runTimer 1)), .key 'q', .background (.chan .runTask)]

def xdemo : ExClient :=
  match ExClient.init demoEnv >>= fun w => w.run demoEnv xdemoOps with
  | .ret v => v
  | .ub => ⟨Clt.init demoEnv, .schedule, []⟩

/-- C146: no keys and no background activity lead to undefined behaviour; in particular `scheduled_req` exists when the keys use it. -/
theorem C146_runs (env : ClientEnv) (ops : List ExClient.Op) : ∃ v, (ExClient.init env >>= fun w => w.run env ops) = .ret v := by
  obtain ⟨w, h1, h2, -⟩ := ExInv.init env
  obtain ⟨x, h3, -⟩ := ExInv.run ops h2
  exact ⟨x, by rw [h1, CM.ret_bind]; exact h3⟩

theorem xdemo_reach : ExReach demoEnv xdemo := by
  obtain ⟨v, hv⟩ := C146_runs demoEnv xdemoOps
  refine ⟨xdemoOps, ?_⟩
  simp only [xdemo, hv]

/-! ### C146 -/

/-- C146: the requests made are exactly those of the keys typed: one coil for each `r`, the three registers for each `w`, in order. -/
theorem C146_keys_ask (env : ClientEnv) (v : ExClient) (h : ExReach env v) : sendCalls v.clt.log = v.keys.filterMap keyRequest := h.inv.asked

example : xdemo.keys = ['r', 'x', 's', 'w', 'f', 'q'] ∧ xdemo.place = .over ∧
    sendCalls xdemo.clt.log = [(0, ⟨.readCoils, ⟨36, 1⟩⟩, some 3000), (0, ⟨.writeMultipleRegisters, ⟨36, [11, 22, 33]⟩⟩, none)] := by decide +kernel

/-- C146: one request is scheduled, once, every two seconds. -/
theorem C146_one_schedule (env : ClientEnv) (v : ExClient) (h : ExReach env v) :
    requestsScheduled v.clt.log = if v.place = .schedule then [] else [(0, 0, ⟨.readHoldingRegisters, ⟨36, 59⟩⟩, none, 2000)] := h.inv.polled

example := C146_one_schedule demoEnv xdemo xdemo_reach

/-- C146: the other calls are the end of `schedule_request` and then one for each `s` (`start` or `stop` of the scheduled request) and each `f` (`set_frequency` to two or
five seconds), in order. -/
theorem C146_other_calls (env : ClientEnv) (v : ExClient) (h : ExReach env v) : (otherCalls v.clt.log).map callKey =
    (if v.place = .schedule ∨ v.place = .register then [] else [some 'p']) ++ (v.keys.filter fun c => c = 's' ∨ c = 'f').map some := h.inv.calls

example : otherCalls xdemo.clt.log = [(0, .register 0), (0, .call 0 .stop), (0, .call 0 (.setFrequency 5000))] := by decide +kernel

theorem _root_.Modbus.ExInv.poll {env : ClientEnv} {v : ExClient} (h : ExInv env v) (hl : v.place = .loop) : ∃ p, pollOf v.clt.pcl 0 0 = some p ∧
    p.running = pollOn (ofPoll 0 0 (insideOf v.clt.log)) := by
  obtain ⟨p, hp⟩ := h.exists_poll hl
  obtain ⟨q, -, h2, h3, h4⟩ := h.reach.inv.reach.poll hp
  exact ⟨p, hp, by rw [h.reach.inv.inside, h4]; exact h3.running h2⟩

/-- C146: key `s` stops the polling if it is on and starts it if it is off, judging by what has taken effect. -/
theorem C146_toggle (env : ClientEnv) (v : ExClient) (h : ExReach env v) (hl : v.place = .loop) : ∃ w, v.step env (.key 's') = .ret w ∧
    w.clt.log = v.clt.log ++ [.inner (.api 0 (.call 0 (if pollOn (ofPoll 0 0 (insideOf v.clt.log)) then .stop else .start)))] := by
  obtain ⟨p, h1, h2⟩ := h.inv.poll hl
  obtain ⟨-, q, hq, -⟩ := (h.inv.reach.inv.made 0 1 3000).1 h.inv.made
  obtain ⟨x, h3, h4⟩ := Clt.step_call (env := env) hq (.inr ⟨0, if p.running then .stop else .start, rfl⟩)
  refine ⟨⟨x, v.place, v.keys ++ ['s']⟩, ?_, by rw [← h2]; exact h4⟩
  have h5 : ({ v with keys := v.keys ++ ['s'] } : ExClient).scheduled = some p := h1
  have h6 : ({ v with keys := v.keys ++ ['s'] } : ExClient).obey env 's' = .ret ⟨x, v.place, v.keys ++ ['s']⟩ := by
    simp [ExClient.obey, h5, ExClient.call, h3]
  show (if v.place = .loop then _ else _) = _
  rw [if_pos hl]; exact h6

/-- C146: key `f` asks for two or five seconds, and not for what `get_frequency` just answered. -/
theorem C146_frequency (env : ClientEnv) (v : ExClient) (h : ExReach env v) (hl : v.place = .loop) : ∃ w g p, v.step env (.key 'f') = .ret w ∧
    pollOf v.clt.pcl 0 0 = some p ∧ (g = 2000 ∨ g = 5000) ∧ g ≠ p.freq ∧ w.clt.log = v.clt.log ++ [.inner (.api 0 (.call 0 (.setFrequency g)))] := by
  obtain ⟨p, h1, h2⟩ := h.inv.poll hl
  obtain ⟨-, q, hq, -⟩ := (h.inv.reach.inv.made 0 1 3000).1 h.inv.made
  obtain ⟨x, h3, h4⟩ := Clt.step_call (env := env) hq (.inr ⟨0, .setFrequency (if p.freq = 2000 then 5000 else 2000), rfl⟩)
  refine ⟨⟨x, v.place, v.keys ++ ['f']⟩, _, p, ?_, h1, ?_, ?_, h4⟩
  · have h5 : ({ v with keys := v.keys ++ ['f'] } : ExClient).scheduled = some p := h1
    have h6 : ({ v with keys := v.keys ++ ['f'] } : ExClient).obey env 'f' = .ret ⟨x, v.place, v.keys ++ ['f']⟩ := by
      simp [ExClient.obey, h5, ExClient.call, h3]
    show (if v.place = .loop then _ else _) = _
    rw [if_pos hl]; exact h6
  · split <;> simp
  · split <;> omega

/-- In the loop with polling on. -/
example : ∃ v, ExReach demoEnv v ∧ v.place = .loop ∧ pollOn (ofPoll 0 0 (insideOf v.clt.log)) = true := by
  obtain ⟨v, hv⟩ := C146_runs demoEnv (xdemoOps.take 5)
  refine ⟨v, ⟨_, hv⟩, ?_⟩
  have : (match ExClient.init demoEnv >>= fun w => w.run demoEnv (xdemoOps.take 5) with
    | .ret v => decide (v.place = .loop ∧ pollOn (ofPoll 0 0 (insideOf v.clt.log)) = true)
    | .ub => false) = true := by decide +kernel
  rw [hv] at this
  exact of_decide_eq_true this

/-- C146: `q` ends the program; no key is obeyed afterwards. -/
theorem C146_after_quit (env : ClientEnv) (v : ExClient) (h : ExReach env v) (hq : 'q' ∈ v.keys) : v.place = .over ∧ (∃ ks, 'q' ∉ ks ∧ v.keys = ks ++ ['q']) ∧
    ∀ c, v.step env (.key c) = .ret v := by
  have h0 := h
  obtain ⟨ops, h⟩ := h
  obtain ⟨w, h1, h2, -, h4⟩ := ExInv.init env
  rw [h1, CM.ret_bind] at h
  obtain ⟨h5, h6⟩ := ExInv.quit_run ops h2 h (by rw [h4]; simp) hq
  refine ⟨h5, h6, fun c => ?_⟩
  simp only [ExClient.step]
  rw [if_neg (by rw [h5]; simp)]

example := C146_after_quit demoEnv xdemo xdemo_reach (by decide +kernel)

/-- C146: everything the channel is asked for is for unit 1, allows three seconds, and is one of the three requests. -/
theorem C146_only_these (env : ClientEnv) (v : ExClient) (h : ExReach env v) (u : Nat) (unit : UInt8) (q : AnyReq) (d : Nat)
    (hc : IfEv.inner (.ch (.call u unit q d)) ∈ v.clt.log) : unit = 1 ∧ d = 3000 ∧
    (q = ⟨.readHoldingRegisters, ⟨36, 59⟩⟩ ∨ q = ⟨.readCoils, ⟨36, 1⟩⟩ ∨ q = ⟨.writeMultipleRegisters, ⟨36, [11, 22, 33]⟩⟩) := by
  have hi := h.inv
  obtain ⟨s, dflt, g, h1, h2, h3⟩ := C142_origin_mem hi.reach (past := v.clt.log) (future := []) (by simp) (mem_insideOf.2 hc)
  obtain ⟨rfl, rfl, rfl⟩ := hi.only _ _ _ h1
  have hsch : ∀ i f, IfEv.polled 0 i q g f ∈ v.clt.log → q = pollReq ∧ g = none := by
    intro i f hm
    have : (0, i, q, g, f) ∈ requestsScheduled v.clt.log := by
      simp only [requestsScheduled, List.mem_filterMap]; exact ⟨_, hm, rfl⟩
    rw [hi.polled] at this
    split at this
    · cases this
    · simp only [List.mem_singleton, Prod.mk.injEq] at this
      exact ⟨this.2.2.1, this.2.2.2.1⟩
  rcases h3 with h3 | ⟨i, id, t, freq, a, b, h3, h4⟩
  · have : (0, q, g) ∈ sendCalls v.clt.log := by
      simp only [sendCalls, List.mem_filterMap]; exact ⟨_, h3, rfl⟩
    rw [hi.asked, List.mem_filterMap] at this
    obtain ⟨c, -, hk⟩ := this
    simp only [keyRequest] at hk
    split at hk
    · simp only [Option.some.injEq, Prod.mk.injEq] at hk
      obtain ⟨-, rfl, rfl⟩ := hk
      exact ⟨rfl, h2, Or.inr (Or.inl rfl)⟩
    · split at hk
      · simp only [Option.some.injEq, Prod.mk.injEq] at hk
        obtain ⟨-, rfl, rfl⟩ := hk
        exact ⟨rfl, h2, Or.inr (Or.inr rfl)⟩
      · cases hk
  · obtain ⟨rfl, rfl⟩ := hsch i freq (by rw [h3]; exact List.mem_append_left _ h4)
    exact ⟨rfl, h2, Or.inl rfl⟩

/-- C146: every frame put on the wire is, after its transaction id, one of three fixed byte strings. -/
theorem C146_wire (env : ClientEnv) (v : ExClient) (h : ExReach env v) (u : Nat) (bytes : List UInt8) (t : Nat)
    (hs : IfEv.inner (.ch (.sent u bytes t)) ∈ v.clt.log) : ∃ a b rest, bytes = a :: b :: rest ∧ rest ∈ exampleFrames := by
  have hi := h.inv
  have hr := hi.reach.inv
  have hs' : CEv.sent u bytes t ∈ v.clt.pcl.cli.log := by rw [hr.reach.chan.2, mem_ofChannel, ← hr.inside, mem_insideOf]; exact hs
  obtain ⟨unit, q, d, tid, h1, -, pdu, h3, -, h5⟩ := C55_only_valid_requests_sent env v.clt.pcl.cli hr.reach.chan.1 u bytes t hs'
  rw [hr.reach.chan.2, mem_ofChannel, ← hr.inside, mem_insideOf] at h1
  obtain ⟨rfl, -, hq⟩ := C146_only_these env v h u unit q d h1
  rcases hq with rfl | rfl | rfl
  · obtain rfl : pdu = 3 :: (be 36 ++ be 59) := h3
    exact ⟨UInt8.ofNat (tid.toNat / 256), UInt8.ofNat (tid.toNat % 256), [0, 0, 0, 6, 1, 3, 0, 36, 0, 59], h5.trans (by simp [Frame.bytes, frameOf, be, regBytes]), by decide⟩
  · obtain rfl : pdu = 1 :: (be 36 ++ be 1) := h3
    exact ⟨UInt8.ofNat (tid.toNat / 256), UInt8.ofNat (tid.toNat % 256), [0, 0, 0, 6, 1, 1, 0, 36, 0, 1], h5.trans (by simp [Frame.bytes, frameOf, be, regBytes]), by decide⟩
  · obtain rfl : pdu = 16 :: (be 36 ++ be 3 ++ UInt8.ofNat 6 :: regBytes [11, 22, 33]) := h3
    exact ⟨UInt8.ofNat (tid.toNat / 256), UInt8.ofNat (tid.toNat % 256), [0, 0, 0, 13, 1, 16, 0, 36, 0, 3, 6, 0, 11, 0, 22, 0, 33], h5.trans (by simp [Frame.bytes, frameOf, be, regBytes]), by decide⟩

/-- The poll and both requests are sent. -/
example : [.inner (.ch (.sent 0 ([0, 0] ++ [0, 0, 0, 6, 1, 3, 0, 36, 0, 59]) 0)), .inner (.ch (.sent 1 ([0, 1] ++ [0, 0, 0, 6, 1, 1, 0, 36, 0, 1]) 3000)),
    .inner (.ch (.sent 2 ([0, 2] ++ [0, 0, 0, 13, 1, 16, 0, 36, 0, 3, 6, 0, 11, 0, 22, 0, 33]) 6000))] ⊆ xdemo.clt.log := by decide +kernel

example := C146_wire demoEnv xdemo xdemo_reach 1 [0, 1, 0, 0, 0, 6, 1, 1, 0, 36, 0, 1] 3000 (by decide +kernel)

end Props

end Modbus
