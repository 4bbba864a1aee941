import Verif.Lemmas.Client

/-!
Properties C45-C50 and C53-C57 of the client channel (C51, C52 and the liveness part of C48 are in `Verif.Props.ClientTime`).

`CReach env v`: the channel can be in state `v` after some history of API calls, received bytes, timer expirations,
connection errors and shutdowns.  Properties are stated on the log of observable effects (`v.log`).
-/

namespace Modbus.Props

open Spec
open Cli (Op)

/-- States reachable by any history. -/
def CReach (env : ClientEnv) (v : Cli) : Prop := ∃ ops : List Op, (Cli.init env).run env ops = .ret v

theorem CReach.inv {env : ClientEnv} {v : Cli} (h : CReach env v) : Cli.Inv env [] v ∧ Cli.Settled v := by
  obtain ⟨ops, h⟩ := h
  obtain ⟨v', h1, h2, h3⟩ := Cli.Inv.run ops (Cli.Inv.init env) (fun _ => rfl)
  rw [h] at h1
  injection h1 with h1; subst h1
  exact ⟨h2, h3⟩

/-- No history leads to undefined behaviour. -/
theorem client_total (env : ClientEnv) (ops : List Op) : ∃ v, (Cli.init env).run env ops = .ret v := by
  obtain ⟨v', h1, -⟩ := Cli.Inv.run ops (Cli.Inv.init env) (fun _ => rfl)
  exact ⟨v', h1⟩

/-- The log of a result, for examples. -/
def clientLog : CM Cli → Option (List CEv)
  | .ub => none
  | .ret v => some v.log

theorem reach_of_log {env : ClientEnv} {ops : List Op} {l : List CEv} (h : clientLog ((Cli.init env).run env ops) = some l) :
    ∃ v, CReach env v ∧ v.log = l := by
  obtain ⟨v, hv⟩ := client_total env ops
  rw [hv] at h
  exact ⟨v, ⟨ops, hv⟩, by simpa [clientLog] using h⟩

/-! ### A history used to show that hypotheses can be met -/

def demoEnv : ClientEnv := ⟨.reject, fun _ => Vector.replicate 260 0, Vector.replicate 260 0⟩
def reqA : AnyReq := ⟨.readHoldingRegisters, ⟨0, 1⟩⟩
def reqBad : AnyReq := ⟨.readHoldingRegisters, ⟨0, 0⟩⟩

/-- An answered request, an invalid one, one that times out, two hit by a connection error, and shutdown. -/
def clientOps : List Op :=
  [.submit 1 reqA 10, .submit 1 reqBad 10, .runTask, .runTask, .submit 2 reqA 5, .runTask,
   .receive [0, 0, 0, 0, 0, 5, 1], .receive [3, 2, 0, 42], .tick 5, .expire 1, .runTimer 1,
   .submit 3 reqA 7, .submit 4 reqA 7, .runTask, .runTask, .error, .createSession, .shutdown, .runTask]

def clientDemo : List CEv :=
  [.call 0 1 reqA 10, .call 1 1 reqBad 10, .sent 0 [0, 0, 0, 0, 0, 6, 1, 3, 0, 0, 0, 1] 0,
   .handler 1 (.error .malformedRequest) 0, .call 2 2 reqA 5, .data [0, 0, 0, 0, 0, 5, 1], .data [3, 2, 0, 42],
   .mbap ⟨1, 0, [3, 2, 0, 42]⟩, .handler 0 (.ok [3, 2, 0, 42]) 0, .sent 2 [0, 1, 0, 0, 0, 6, 2, 3, 0, 0, 0, 1] 0,
   .handler 2 (.error .timeout) 5, .call 3 3 reqA 7, .call 4 4 reqA 7, .sent 3 [0, 2, 0, 0, 0, 6, 3, 3, 0, 0, 0, 1] 5,
   .connError, .handler 4 (.error .connection) 5, .handler 3 (.error .connection) 5, .session (some 0),
   .sessionShutdown 0, .tcpShutdown]

theorem demo_reach : ∃ v, CReach demoEnv v ∧ v.log = clientDemo :=
  reach_of_log (ops := clientOps) (by decide +kernel)

/-! ### C45 -/

theorem outstanding_prefix {env : ClientEnv} {l : List CEv} (h : Logged env l) : ∀ l1, l1 <+: l →
    ∀ u1 u2, u1 ∈ sentUids l1 → u1 ∉ handledUids l1 → u2 ∈ sentUids l1 → u2 ∉ handledUids l1 → u1 = u2 := by
  induction h with
  | nil =>
    intro l1 hl u1 u2 h1
    rw [List.prefix_nil.1 hl] at h1; cases h1
  | @snoc l e hl hj ih =>
    intro l1 hp u1 u2 a1 a2 b1 b2
    rcases List.prefix_concat_iff.1 hp with rfl | hp
    · rw [sentUids_append, List.mem_append] at a1 b1
      rw [handledUids_append, List.mem_append, not_or] at a2 b2
      rcases mem_or_not : e.plain with _ | _
      · cases e with
        | sent u b t =>
          obtain ⟨-, -, -, h4, -⟩ := hj
          have key : ∀ x, x ∈ sentUids l ∨ x ∈ sentUids [CEv.sent u b t] → x ∉ handledUids l → x = u := by
            intro x hx hn
            rcases hx with hx | hx
            · exact absurd (h4 x hx) hn
            · exact List.mem_singleton.1 hx
          rw [key u1 a1 a2.1, key u2 b1 b2.1]
        | call u unit q t =>
          exact ih l (List.prefix_refl l) u1 u2 (by simpa [sentUids] using a1) a2.1 (by simpa [sentUids] using b1) b2.1
        | handler u x t =>
          exact ih l (List.prefix_refl l) u1 u2 (by simpa [sentUids] using a1) a2.1 (by simpa [sentUids] using b1) b2.1
        | _ => cases mem_or_not
      · have : sentUids [e] = [] := sentUids_one (by rintro u b t rfl; cases mem_or_not)
        rw [this] at a1 b1
        exact ih l (List.prefix_refl l) u1 u2 (by simpa using a1) a2.1 (by simpa using b1) b2.1
    · exact ih l1 hp u1 u2 a1 a2 b1 b2

/-- C45. At every moment (after every prefix of the log), two requests that have been put on the wire and whose handlers
have not been called are the same request. -/
theorem C45_one_outstanding (env : ClientEnv) (v : Cli) (h : CReach env v) (past : List CEv) (hp : past <+: v.log) (u1 u2 : Nat)
    (s1 : u1 ∈ sentUids past) (n1 : u1 ∉ handledUids past) (s2 : u2 ∈ sentUids past) (n2 : u2 ∉ handledUids past) : u1 = u2 :=
  outstanding_prefix h.inv.1.just past hp u1 u2 s1 n1 s2 n2

/-- In the demonstration, request 3 is outstanding while request 4 waits. -/
example : clientDemo.take 14 <+: clientDemo ∧ 3 ∈ sentUids (clientDemo.take 14) ∧ 3 ∉ handledUids (clientDemo.take 14) :=
  ⟨List.take_prefix _ _, by decide +kernel, by decide +kernel⟩

/-! ### C46 -/

/-- C46. Calls are numbered in order; the numbers of the requests on the wire are strictly increasing (so none is sent
twice and none overtakes another); and when a request goes on the wire, every allowed request submitted before it has
already been completed. -/
theorem C46_submission_order (env : ClientEnv) (v : Cli) (h : CReach env v) :
    (submissions v.log).map (·.1) = List.range (submissions v.log).length ∧
    (sentUids v.log).Pairwise (· < ·) ∧
    ∀ past future u bytes t, v.log = past ++ .sent u bytes t :: future →
      ∀ u' unit q tmo, CEv.call u' unit q tmo ∈ past → Allowed q → u' < u → u' ∈ handledUids past := by
  refine ⟨?_, ?_, ?_⟩
  · have := h.inv.1.calls
    have hl := congrArg List.length this
    simp only [List.length_map, List.length_range] at hl
    rw [this, hl]
  · exact (List.pairwise_append.1 h.inv.1.order).1
  · intro past future u bytes t he u' unit q tmo hc hq hlt
    obtain ⟨-, -, -, -, h5, -⟩ := h.inv.1.just.at he
    exact h5 u' (Cli.mem_allowedUids.2 ⟨unit, q, tmo, hc, hq⟩) hlt

example : ∃ past future u bytes t, clientDemo = past ++ .sent u bytes t :: future ∧ CEv.call 0 1 reqA 10 ∈ past ∧ Allowed reqA ∧ 0 < u :=
  ⟨clientDemo.take 13, clientDemo.drop 14, 3, [0, 2, 0, 0, 0, 6, 3, 3, 0, 0, 0, 1], 5, by decide +kernel, by decide +kernel,
    by decide, by decide⟩

/-! ### C47 -/

/-- C47. No handler is called twice. -/
theorem C47_handlers_at_most_once (env : ClientEnv) (v : Cli) (h : CReach env v) : (handledUids v.log).Nodup := by
  rw [List.nodup_iff_count]
  intro u
  have := h.inv.1.once u
  omega

example : handledUids clientDemo = [1, 0, 2, 4, 3] := by decide +kernel

/-! ### C49 -/

theorem calls_prefix {env : ClientEnv} {v : Cli} (h : CReach env v) {l1 l2 : List CEv} (he : v.log = l1 ++ l2) {u : Nat} {unit : UInt8}
    {q : AnyReq} {tmo : Nat} (hc : CEv.call u unit q tmo ∈ l1) : rank v.log u = rank l1 u := by
  have hcalls := h.inv.1.calls
  rw [he, submissions_append, List.map_append] at hcalls
  have hs : ((submissions l1).map (·.1) ++ (submissions l2).map (·.1)).Pairwise (· < ·) := by
    rw [hcalls]; exact List.pairwise_lt_range
  have h1 := (List.pairwise_append.1 hs).2.2
  have hu : u ∈ (submissions l1).map (·.1) := List.mem_map.2 ⟨_, mem_submissions.2 hc, rfl⟩
  have : (allowedUids l2).filter (· < u) = [] := by
    apply List.filter_eq_nil_iff.2
    intro a ha
    have := h1 u hu a ((Cli.allowed_sublist l2).subset ha)
    simp; omega
  rw [he, rank, allowedUids_append, List.filter_append, this, List.append_nil]
  rfl

/-- A frame built for an allowed request is that request's frame. -/
theorem request_frame {unit : UInt8} {tid : UInt16} {q : AnyReq} {mem : List UInt8} (hm : mem.length = 260) (hq : Allowed q) :
    IsRequestFrame unit tid q (buildMbap unit tid (reqMsg q.1 q.2) ⟨[], mem⟩) := by
  obtain ⟨pdu, h1, h2, h3⟩ := C05_request_conformant q.1 q.2 ((C04_valid_iff_in_range q.1 q.2).2 hq)
  exact ⟨pdu, h2, h3, buildMbap_writes _ _ _ pdu ⟨h1.1, fun w hw => h1.2 w hw⟩ h3 _ hm⟩

theorem requestFrame_inj {unit unit' : UInt8} {tid tid' : UInt16} {q q' : AnyReq} {bytes : List UInt8}
    (h : IsRequestFrame unit tid q bytes) (h' : IsRequestFrame unit' tid' q' bytes) : unit = unit' ∧ tid = tid' := by
  obtain ⟨pdu, -, -, h1⟩ := h
  obtain ⟨pdu', -, -, h2⟩ := h'
  rw [h1, frame_bytes, frame_bytes] at h2
  have := hdr_append_inj h2
  exact ⟨this.2.2.2.1, this.1⟩

/-- C49. When a handler is called with a response, then: the last thing that happened is that a message was taken from the
received bytes; the handler gets exactly that message's PDU; and the handler's request had been put on the wire before,
was not completed, and the frame it was sent in carried exactly the message's unit and transaction ids. -/
theorem C49_response_matches_request (env : ClientEnv) (v : Cli) (h : CReach env v) (past future : List CEv) (u : Nat)
    (pdu : List UInt8) (now : Nat) (he : v.log = past ++ .handler u (.ok pdu) now :: future) :
    ∃ before m, past = before ++ [.mbap m] ∧ pdu = m.data ∧ u ∉ handledUids past ∧
      ∃ bytes t unit q tmo, CEv.sent u bytes t ∈ before ∧ CEv.call u unit q tmo ∈ before ∧ IsRequestFrame m.unit m.tid q bytes := by
  obtain ⟨hj1, hj2, hj3, l0, m, unit, q, tmo, h1, h2, h3, h4, h5, h6⟩ := h.inv.1.just.at he
  refine ⟨l0, m, h1, h2, hj3, ?_⟩
  obtain ⟨bytes, t, hs⟩ := mem_sentUids.1 hj2
  have hs0 : CEv.sent u bytes t ∈ l0 := by
    rw [h1] at hs; rcases List.mem_append.1 hs with hs | hs
    · exact hs
    · simp at hs
  have hc0 : CEv.call u unit q tmo ∈ l0 := by
    rw [h1] at h3; rcases List.mem_append.1 h3 with h3 | h3
    · exact h3
    · simp at h3
  refine ⟨bytes, t, unit, q, tmo, hs0, hc0, ?_⟩
  obtain ⟨a, b, hab⟩ := List.append_of_mem hs
  have he' : v.log = a ++ .sent u bytes t :: (b ++ .handler u (.ok pdu) now :: future) := by rw [he, hab]; simp
  obtain ⟨-, -, -, -, -, unit', q', tmo', c1, c2, mem, c3, c4⟩ := h.inv.1.just.at he'
  have hcl : CEv.call u unit' q' tmo' ∈ v.log := by rw [he']; exact List.mem_append_left _ c1
  have hcl' : CEv.call u unit q tmo ∈ v.log := by rw [he]; exact List.mem_append_left _ h3
  obtain ⟨rfl, rfl, rfl⟩ := h.inv.1.callUnique hcl hcl'
  have r1 := calls_prefix h he' c1
  have r2 := calls_prefix h he h3
  rw [h5, h6, ← r2, r1, c4]
  exact request_frame c3 c2

/-- C49, continued: the messages taken from the received bytes are, at every moment, those that a fresh receiver would have
taken (or the first ones of those) from the bytes received since the last connection error.  By C15-C17 these are the
complete frames received, in order. -/
theorem C49_messages_are_received_frames (env : ClientEnv) (v : Cli) (h : CReach env v) (past future : List CEv) (m : Mbap)
    (he : v.log = past ++ .mbap m :: future) :
    ∃ out, FramedAs env.pol (chunksSince past) out ∧ (messagesSince past ++ [m]) <+: out :=
  (h.inv.1.just.at he).2

/-- ... and once all events have been processed, all of them have been taken (unless the channel is shut down). -/
theorem C49_all_frames_taken (env : ClientEnv) (v : Cli) (h : CReach env v) (hs : CEv.tcpShutdown ∉ v.log) :
    FramedAs env.pol (chunksSince v.log) (messagesSince v.log) := by
  have hs' : v.isShutdown = false := by
    cases hd : v.isShutdown with
    | false => rfl
    | true => exact absurd (h.inv.1.downLog.2 hd) hs
  obtain ⟨mem, h1, h2⟩ := h.inv.1.framed hs'
  exact ⟨mem, h1, _, by rw [List.append_nil] at h2; exact h2⟩

example : clientDemo = clientDemo.take 8 ++ .handler 0 (.ok [3, 2, 0, 42]) 0 :: clientDemo.drop 9 ∧
    clientDemo = clientDemo.take 7 ++ .mbap ⟨1, 0, [3, 2, 0, 42]⟩ :: clientDemo.drop 8 ∧ CEv.tcpShutdown ∉ clientDemo.take 8 := by
  decide +kernel

/-! ### C54 -/

/-- C54. The request that is the `n`-th allowed one submitted (counting from 0) goes on the wire in the frame with
transaction id `n` modulo 65536 (and its own unit id and contents). -/
theorem C54_transaction_ids (env : ClientEnv) (v : Cli) (h : CReach env v) (u : Nat) (bytes : List UInt8) (t : Nat)
    (hs : CEv.sent u bytes t ∈ v.log) :
    ∃ unit q tmo, CEv.call u unit q tmo ∈ v.log ∧ Allowed q ∧
      ∃ tid : UInt16, tid.toNat = rank v.log u % 65536 ∧ IsRequestFrame unit tid q bytes := by
  obtain ⟨a, b, hab⟩ := List.append_of_mem hs
  obtain ⟨-, -, -, -, -, unit, q, tmo, c1, c2, mem, c3, c4⟩ := h.inv.1.just.at hab
  refine ⟨unit, q, tmo, by rw [hab]; exact List.mem_append_left _ c1, c2, UInt16.ofNat (rank a u), ?_, ?_⟩
  · rw [calls_prefix h hab c1]; simp
  · rw [c4]; exact request_frame c3 c2

/-- Two different allowed requests have different ranks; the rank counts submissions. -/
theorem rank_strict {v : Cli} {u u' : Nat} (hu : u ∈ allowedUids v.log) (hlt : u < u') :
    rank v.log u < rank v.log u' := by
  have hsub : ((allowedUids v.log).filter (· < u)).Sublist ((allowedUids v.log).filter (· < u')) := by
    apply List.monotone_filter_right
    intro a ha
    simp only [decide_eq_true_eq] at ha ⊢
    omega
  have hle := hsub.length_le
  rcases Nat.lt_or_ge (rank v.log u) (rank v.log u') with h1 | h1
  · exact h1
  · exfalso
    have heq := hsub.eq_of_length (Nat.le_antisymm hle h1)
    have : u ∈ (allowedUids v.log).filter (· < u') := List.mem_filter.2 ⟨hu, by simpa using hlt⟩
    rw [← heq] at this
    have := (List.mem_filter.1 this).2
    simp at this

/-- C54, consequence: two requests on the wire whose submissions are fewer than 65536 allowed requests apart carry
different transaction ids. -/
theorem C54_close_requests_differ (env : ClientEnv) (v : Cli) (h : CReach env v) (u u' : Nat) (bytes bytes' : List UInt8) (t t' : Nat)
    (hs : CEv.sent u bytes t ∈ v.log) (hs' : CEv.sent u' bytes' t' ∈ v.log) (hlt : u < u')
    (hclose : rank v.log u' < rank v.log u + 65536) (unit unit' : UInt8) (tid tid' : UInt16) (q q' : AnyReq)
    (hf : IsRequestFrame unit tid q bytes) (hf' : IsRequestFrame unit' tid' q' bytes') : tid ≠ tid' := by
  obtain ⟨a1, a2, a3, a4, a5, a6, a7, a8⟩ := C54_transaction_ids env v h u bytes t hs
  obtain ⟨b1, b2, b3, b4, b5, b6, b7, b8⟩ := C54_transaction_ids env v h u' bytes' t' hs'
  rw [(requestFrame_inj hf a8).2, (requestFrame_inj hf' b8).2]
  have hr := rank_strict (Cli.mem_allowedUids.2 ⟨_, _, _, a4, a5⟩) hlt
  intro heq
  have := congrArg UInt16.toNat heq
  rw [a7, b7] at this
  omega

example : CEv.sent 2 [0, 1, 0, 0, 0, 6, 2, 3, 0, 0, 0, 1] 0 ∈ clientDemo ∧ CEv.sent 3 [0, 2, 0, 0, 0, 6, 3, 3, 0, 0, 0, 1] 5 ∈ clientDemo ∧
    rank clientDemo 2 = 1 ∧ rank clientDemo 3 = 2 := by decide +kernel

/-! ### C50 -/

/-- C50. In any state whatsoever, a message that does not carry both the transaction id and the unit id of the outstanding
request (in particular any message when there is none) changes nothing. -/
theorem C50_mismatch_ignored (env : ClientEnv) (v : Cli) (m : Mbap)
    (hm : ∀ r, v.current = some r → ¬ (m.tid = r.tid ∧ m.unit = r.unit)) : v.onMbap env m = { v with log := v.log ++ [.mbap m] } := by
  rcases Cli.onMbap_eq env v m with ⟨h, -⟩ | ⟨r, -, hc, ht, hu, -⟩
  · exact h
  · exact absurd ⟨ht, hu⟩ (hm r hc)

/-- C50, late answers: if a message is taken as the answer to request `u`, its transaction id is not that of any other
request that was put on the wire, unless that one was submitted 65536 or more allowed requests before. -/
theorem C50_late_answer_not_taken (env : ClientEnv) (v : Cli) (h : CReach env v) (past future : List CEv) (u : Nat) (pdu : List UInt8)
    (now : Nat) (m : Mbap) (he : v.log = past ++ .mbap m :: .handler u (.ok pdu) now :: future)
    (u' : Nat) (hne : u' ≠ u) (bytes' : List UInt8) (t' : Nat) (hs' : CEv.sent u' bytes' t' ∈ past)
    (hclose : rank v.log u < rank v.log u' + 65536) (unit' : UInt8) (tid' : UInt16) (q' : AnyReq)
    (hf' : IsRequestFrame unit' tid' q' bytes') : m.tid ≠ tid' := by
  have he' : v.log = (past ++ [.mbap m]) ++ .handler u (.ok pdu) now :: future := by rw [he]; simp
  obtain ⟨before, m', h1, h2, h3, bytes, t, unit, q, tmo, h4, h5, h6⟩ := C49_response_matches_request env v h _ _ u pdu now he'
  obtain ⟨rfl, h1⟩ := List.append_inj' h1 rfl
  have h1 : m = m' := by simpa using h1
  subst h1
  have hu : CEv.sent u bytes t ∈ v.log := by rw [he]; exact List.mem_append_left _ h4
  have hu' : CEv.sent u' bytes' t' ∈ v.log := by rw [he]; exact List.mem_append_left _ hs'
  -- the other request was sent before, hence submitted before
  have hlt : u' < u := by
    by_contra hge
    have hgt : u < u' := by omega
    obtain ⟨a, b, hab⟩ := List.append_of_mem hs'
    have e2 : v.log = a ++ .sent u' bytes' t' :: (b ++ .mbap m :: .handler u (.ok pdu) now :: future) := by rw [he, hab]; simp
    obtain ⟨-, -, -, c4, -⟩ := h.inv.1.just.at e2
    -- `u` was not handled before, so it was not sent before `u'`; but sends are in increasing order
    have hua : u ∉ sentUids a := fun hh => h3 (by rw [hab]; simp [c4 u hh])
    have hub : CEv.sent u bytes t ∈ b := by
      rw [hab] at h4
      rcases List.mem_append.1 h4 with h4 | h4
      · exact absurd (mem_sentUids.2 ⟨_, _, h4⟩) hua
      · rcases List.mem_cons.1 h4 with h4 | h4
        · injection h4 with h4; omega
        · exact h4
    have hord := (C46_submission_order env v h).2.1
    rw [e2, sentUids_append] at hord
    have e3 : sentUids (.sent u' bytes' t' :: (b ++ .mbap m :: .handler u (.ok pdu) now :: future)) =
        u' :: sentUids (b ++ .mbap m :: .handler u (.ok pdu) now :: future) := rfl
    rw [e3] at hord
    have := (List.pairwise_cons.1 (List.pairwise_append.1 hord).2.1).1 u (mem_sentUids.2 ⟨bytes, t, List.mem_append_left _ hub⟩)
    omega
  exact fun hh => C54_close_requests_differ env v h u' u bytes' bytes t' t hu' hu hlt hclose unit' m.unit tid' m.tid q' q hf' h6 hh.symm

/-- A late answer to request 0 while request 2 is outstanding is ignored. -/
example : clientLog ((Cli.init demoEnv).run demoEnv [.submit 1 reqA 10, .runTask, .tick 10, .expire 0, .runTimer 0, .submit 1 reqA 10, .runTask,
      .receive [0, 0, 0, 0, 0, 5, 1, 3, 2, 0, 42], .receive [0, 1, 0, 0, 0, 5, 1, 3, 2, 0, 43]]) =
    some [.call 0 1 reqA 10, .sent 0 [0, 0, 0, 0, 0, 6, 1, 3, 0, 0, 0, 1] 0, .handler 0 (.error .timeout) 10, .call 1 1 reqA 10,
      .sent 1 [0, 1, 0, 0, 0, 6, 1, 3, 0, 0, 0, 1] 10, .data [0, 0, 0, 0, 0, 5, 1, 3, 2, 0, 42], .mbap ⟨1, 0, [3, 2, 0, 42]⟩,
      .data [0, 1, 0, 0, 0, 5, 1, 3, 2, 0, 43], .mbap ⟨1, 1, [3, 2, 0, 43]⟩, .handler 1 (.ok [3, 2, 0, 43]) 10] := by
  decide +kernel

/-! ### C53 -/

/-- The requests a channel has accepted and not completed. -/
def waiting (v : Cli) : List Nat := v.pending.map (·.uid) ++ v.current.toList.map (·.uid)

/-- C53. When the connection reports an error (before shutdown), the handlers of exactly the accepted and uncompleted
requests (queued or outstanding) are called, each once, with a connection error, nothing else happens, and nothing is
left queued or outstanding. -/
theorem C53_error_fails_everything (env : ClientEnv) (v : Cli) (h : CReach env v) (hs : CEv.tcpShutdown ∉ v.log) :
    ∃ v', v.step env .error = .ret v' ∧ CEv.tcpShutdown ∉ v'.log ∧
      v'.log = v.log ++ .connError :: (waiting v).map (fun u => .handler u (.error .connection) v.now) ∧
      (waiting v).Nodup ∧ waiting v' = [] ∧
      ∀ u, u ∈ waiting v ↔ u ∈ (submissions v.log).map (·.1) ∧ u ∉ handledUids v.log ∧ u ∉ Cli.taskUids v.tasks := by
  have hinv := h.inv.1
  have hs' : v.isShutdown = false := by
    cases hd : v.isShutdown with
    | false => rfl
    | true => exact absurd (hinv.downLog.2 hd) hs
  obtain ⟨i1, i2, i3⟩ := hinv.onError h.inv.2
  have hlog : (v.onError env).log = v.log ++ .connError :: (waiting v).map (fun u => .handler u (.error .connection) v.now) ∧
      waiting (v.onError env) = [] := by
    rw [Cli.onError_eq, if_neg (by rw [hs']; simp)]
    rcases hc : v.current with _ | r
    · simp [Cli.failed, Cli.cancelPending, Cli.emit, waiting, hc]
    · have hp : (v.failed.finish r (.error .connection)).pending = [] ∧ (v.failed.finish r (.error .connection)).current = none ∧
          (v.failed.finish r (.error .connection)).isShutdown = false ∧
          (v.failed.finish r (.error .connection)).log = v.failed.log ++ [.handler r.uid (.error .connection) v.now] := by
        obtain ⟨f, hf⟩ := Cli.cancelTimer_eq { v.failed.emit (.handler r.uid (.error .connection) v.failed.now) with current := none }
        rw [Cli.finish, hf]
        exact ⟨rfl, rfl, hs', rfl⟩
      have he : (v.failed.finish r (.error .connection)).checkPending env = v.failed.finish r (.error .connection) := by
        simp [Cli.checkPending, hp.1, hp.2.1, hp.2.2.1]
      simp only [he, waiting, hp.1, hp.2.1, hp.2.2.2]
      simp [Cli.failed, Cli.cancelPending, Cli.emit, hc]
  refine ⟨_, rfl, ?_, hlog.1, ?_, hlog.2, ?_⟩
  · rw [i1.downLog, i3, hs']; simp
  · rw [List.nodup_iff_count]
    intro u
    have := hinv.once u
    simp only [waiting, List.count_append, Cli.curUids, Cli.pendUids] at this ⊢
    omega
  · intro u
    rw [hinv.calls, List.mem_range]
    have h1 := hinv.once u
    have h2 := hinv.covered hs' u
    have h3 := hinv.bound u
    simp only [Cli.curUids, Cli.pendUids] at h1 h2 h3
    rw [waiting, List.mem_append]
    simp only [← List.count_pos_iff] at h3 ⊢
    constructor
    · intro hm
      refine ⟨?_, by omega, by omega⟩
      by_contra hlt
      have := h3 (by omega)
      omega
    · rintro ⟨hlt, a, b⟩
      have := h2 hlt
      omega

/-- C53, continued: afterwards the channel works normally: as soon as a newly submitted request is processed it goes on the
wire at once, with its full timeout. -/
theorem C53_works_after_error (env : ClientEnv) (v : Cli) (h : CReach env v) (hs : CEv.tcpShutdown ∉ v.log) (hw : waiting v = [])
    (ht : v.tasks = []) (unit : UInt8) (q : AnyReq) (tmo : Nat) (hq : Allowed q) :
    ∃ v' tid bytes, v.run env [.submit unit q tmo, .runTask] = .ret v' ∧ IsRequestFrame unit tid q bytes ∧
      v'.log = v.log ++ [.call v.nextUid unit q tmo, .sent v.nextUid bytes v.now] ∧
      ∃ timer, v'.timer = some timer ∧ (timer, v.now + tmo) ∈ v'.armed := by
  have hinv := h.inv.1
  have hs' : v.isShutdown = false := by
    cases hd : v.isShutdown with
    | false => rfl
    | true => exact absurd (hinv.downLog.2 hd) hs
  have hp : v.pending = [] ∧ v.current = none := by
    simp only [waiting, List.append_eq_nil_iff, List.map_eq_nil_iff] at hw
    exact ⟨hw.1, by simpa using hw.2⟩
  have hv : isValid q.1 q.2 = true := (allowed_iff q).2 hq
  simp only [Cli.run, Cli.step, Cli.emit, hs', hv, ht, Bool.false_eq_true, if_false, if_true, CM.ret_bind, List.nil_append,
    Cli.runTask, Cli.checkPending, hp.1, hp.2]
  exact ⟨_, v.nextTid, _, rfl, request_frame (mem := (env.junk v.nsend).toList) (by simp) hq, by simp, v.nextTimer, rfl, by simp⟩

/-- The demonstration up to just before the error: requests 3 and 4 are waiting. -/
example : (match (Cli.init demoEnv).run demoEnv (clientOps.take 15) with
    | .ub => false
    | .ret v => decide (waiting v = [4, 3] ∧ CEv.tcpShutdown ∉ v.log)) = true := by decide +kernel

/-! ### C55 -/

/-- C55. Every frame on the wire is the frame of an allowed request that was submitted. -/
theorem C55_only_valid_requests_sent (env : ClientEnv) (v : Cli) (h : CReach env v) (u : Nat) (bytes : List UInt8) (t : Nat)
    (hs : CEv.sent u bytes t ∈ v.log) :
    ∃ unit q tmo tid, CEv.call u unit q tmo ∈ v.log ∧ Allowed q ∧ IsRequestFrame unit tid q bytes := by
  obtain ⟨unit, q, tmo, a, b, tid, -, c⟩ := C54_transaction_ids env v h u bytes t hs
  exact ⟨unit, q, tmo, tid, a, b, c⟩

/-- C55. An invalid request is never sent, does not count for transaction ids, and its handler is called with nothing but
a malformed-request error. -/
theorem C55_invalid_request (env : ClientEnv) (v : Cli) (h : CReach env v) (u : Nat) (unit : UInt8) (q : AnyReq) (tmo : Nat)
    (hc : CEv.call u unit q tmo ∈ v.log) (hq : ¬ Allowed q) :
    u ∉ sentUids v.log ∧ u ∉ allowedUids v.log ∧ ∀ x t, CEv.handler u x t ∈ v.log → x = .error .malformedRequest := by
  have key : ∀ unit' q' tmo', CEv.call u unit' q' tmo' ∈ v.log → ¬ Allowed q' := by
    intro unit' q' tmo' hc'
    obtain ⟨-, rfl, -⟩ := h.inv.1.callUnique hc hc'
    exact hq
  have hns : u ∉ sentUids v.log := by
    intro hm
    obtain ⟨a, b, c, d, e⟩ := h.inv.1.sentAllowed u hm
    exact key a b c d e
  refine ⟨hns, ?_, ?_⟩
  · intro hm
    obtain ⟨a, b, c, d, e⟩ := Cli.mem_allowedUids.1 hm
    exact key a b c d e
  · intro x t hm
    obtain ⟨a, b, hab⟩ := List.append_of_mem hm
    have hj := h.inv.1.just.at hab
    have up : ∀ {e : CEv}, e ∈ a → e ∈ v.log := fun he => by rw [hab]; exact List.mem_append_left _ he
    rcases x with e | d
    · cases e with
      | malformedRequest => rfl
      | connection =>
        obtain ⟨-, -, ⟨unit', q', tmo', c1, c2⟩, -⟩ := hj
        exact absurd c2 (key _ _ _ (up c1))
      | timeout =>
        obtain ⟨-, c1, -⟩ := hj
        obtain ⟨b', t', c1⟩ := mem_sentUids.1 c1
        exact absurd (mem_sentUids.2 ⟨_, _, up c1⟩) hns
      | _ => exact absurd hj (by simp [Just])
    · obtain ⟨-, -, -, l0, m, unit', q', tmo', c1, c2, c3, c4, -⟩ := hj
      exact absurd c4 (key _ _ _ (up c3))

/-- C55. The handler of an invalid request submitted before shutdown took effect is called exactly once, as soon as the
strand has run its posted tasks. -/
theorem C55_invalid_request_reported (env : ClientEnv) (v : Cli) (h : CReach env v) (u : Nat) (unit : UInt8) (q : AnyReq) (tmo : Nat)
    (hc : CEv.call u unit q tmo ∈ beforeShutdown v.log) (hq : ¬ Allowed q) (ht : v.tasks = []) :
    (∃ t, CEv.handler u (.error .malformedRequest) t ∈ v.log) ∧ (handledUids v.log).count u = 1 := by
  have hc' : CEv.call u unit q tmo ∈ v.log := (List.takeWhile_sublist _).subset hc
  rcases h.inv.1.bad u unit q tmo hc hq with h1 | h1
  · obtain ⟨x, t, h2⟩ := mem_handledUids.1 h1
    have := (C55_invalid_request env v h u unit q tmo hc' hq).2.2 x t h2
    subst this
    refine ⟨⟨t, h2⟩, ?_⟩
    have h3 := List.count_pos_iff.2 h1
    have h4 := h.inv.1.once u
    omega
  · rw [ht] at h1; cases h1

example : CEv.call 1 1 reqBad 10 ∈ beforeShutdown clientDemo ∧ ¬ Allowed reqBad := by decide +kernel

example : (match (Cli.init demoEnv).run demoEnv clientOps with
    | .ub => false
    | .ret v => v.tasks.isEmpty) = true := by decide +kernel

/-! ### C56 -/

/-- C56. After shutdown took effect: nothing is sent, no session is created, and no handler is called except with the
malformed-request error of an invalid request. -/
theorem C56_shutdown_final (env : ClientEnv) (v : Cli) (h : CReach env v) (past future : List CEv)
    (he : v.log = past ++ .tcpShutdown :: future) (e : CEv) (hm : e ∈ future) :
    (∀ u bytes t, e ≠ .sent u bytes t) ∧ (∀ s, e ≠ .session (some s)) ∧
    ∀ u x t, e = .handler u x t → x = .error .malformedRequest ∧ ∃ unit q tmo, CEv.call u unit q tmo ∈ v.log ∧ ¬ Allowed q := by
  obtain ⟨a, b, hab⟩ := List.append_of_mem hm
  have he' : v.log = (past ++ .tcpShutdown :: a) ++ e :: b := by rw [he, hab]; simp
  have hj := h.inv.1.just.at he'
  have hin : CEv.tcpShutdown ∈ past ++ .tcpShutdown :: a := by simp
  refine ⟨?_, ?_, ?_⟩
  · rintro u bytes t rfl; exact hj.1 hin
  · rintro s rfl; exact hj hin
  · rintro u x t rfl
    rcases x with x | d
    · cases x with
      | malformedRequest =>
        obtain ⟨-, -, unit, q, tmo, c1, c2⟩ := hj
        exact ⟨rfl, unit, q, tmo, by rw [he']; exact List.mem_append_left _ c1, c2⟩
      | connection => exact absurd hin hj.1
      | timeout => exact absurd hin hj.1
      | _ => exact absurd hj (by simp [Just])
    · exact absurd hin hj.1

/-- A history in which things still happen after shutdown: the handler of an invalid request is called, data arrives, a
session is refused, a timer runs. -/
example : clientLog ((Cli.init demoEnv).run demoEnv [.submit 1 reqA 10, .runTask, .shutdown, .submit 1 reqBad 10, .runTask, .runTask,
      .receive [0, 0, 0, 0, 0, 5, 1, 3, 2, 0, 42], .createSession, .tick 10, .expire 0, .runTimer 0, .error, .submit 1 reqA 5, .runTask]) =
    some [.call 0 1 reqA 10, .sent 0 [0, 0, 0, 0, 0, 6, 1, 3, 0, 0, 0, 1] 0, .call 1 1 reqBad 10, .tcpShutdown,
      .handler 1 (.error .malformedRequest) 0, .data [0, 0, 0, 0, 0, 5, 1, 3, 2, 0, 42], .session none, .connError, .call 2 1 reqA 5] := by
  decide +kernel

end Modbus.Props
