import Verif.Lemmas.StackRun
import Verif.Props.ClientConn

/-! C82 – C92: the whole client, that is a channel together with its own TCP connection. -/

namespace Modbus.Props

open Modbus.Spec Modbus.Stk

/-! ### Concrete histories -/

/-- Runs a history, checking every step of the connection. -/
def kdemo (chk : Tcp → Tcp.Op → Bool) (env : StkEnv) (ops : List Stk.Op) (Q : Stk → Bool) : Bool :=
  match (Stk.init env).run env ops with
  | .ub => false
  | .ret v => v.steps.all (fun x => chk x.1 x.2) && Q v

theorem kdemo_run {chk : Tcp → Tcp.Op → Bool} {P : Tcp → Tcp.Op → Prop} (hc : ∀ v op, chk v op = true → P v op) {env : StkEnv} {ops : List Stk.Op}
    {Q : Stk → Bool} (h : kdemo chk env ops Q = true) : ∃ v, (Stk.init env).run env ops = .ret v ∧ KReach env v ∧ Throughout P v ∧ Q v = true := by
  unfold kdemo at h
  cases hr : (Stk.init env).run env ops with
  | ub => rw [hr] at h; cases h
  | ret v =>
    rw [hr] at h
    simp only [Bool.and_eq_true, List.all_eq_true] at h
    exact ⟨v, rfl, Stk.run_reach ops .init hr, fun x hx => hc _ _ (h.1 x hx), h.2⟩

theorem any_kdemo {env : StkEnv} {ops : List Stk.Op} {Q : Stk → Bool} (h : kdemo (fun _ _ => true) env ops Q = true) : ∃ v, KReach env v ∧ Q v = true := by
  obtain ⟨v, -, h1, -, h2⟩ := kdemo_run (P := fun _ _ => True) (fun _ _ _ => trivial) h
  exact ⟨v, h1, h2⟩

theorem fresh_kdemo {env : StkEnv} {ops : List Stk.Op} {Q : Stk → Bool} (h : kdemo freshChk env ops Q = true) :
    ∃ v, KReach env v ∧ Throughout FreshStarts v ∧ Q v = true := by
  obtain ⟨v, -, h⟩ := kdemo_run freshChk_spec h
  exact ⟨v, h⟩

/-- A channel with a local socket that works. -/
def kenv : StkEnv := ⟨demoEnv, fun _ => .ok⟩

/-- "Write coil 5". -/
def kreq : AnyReq := ⟨.writeSingleCoil, ⟨5, true⟩⟩

/-- The frame of the `i`-th request (it is also the frame of its answer). -/
def kframe (i : UInt8) : List UInt8 := [0, i, 0, 0, 0, 6, 1, 5, 0, 5, 255, 0]

/-- A request is submitted and handed to the channel. -/
def ksub : List Stk.Op := [.chan (.submit 1 kreq 10), .chan .runTask]

/-- The connection attempt succeeds. -/
def kcon : List Stk.Op := [.complete 0 .ok, .run 0, .complete 0 .ok, .run 0]

/-- Request `i` runs into its timeout. -/
def kexp (i : Nat) : List Stk.Op := [.chan (.tick 10), .chan (.expire i), .chan (.runTimer i)]

/-- A request is answered. -/
def kans : List Stk.Op := ksub ++ kcon ++ [.complete 0 (.sent 12), .run 0, .complete 0 (.data (kframe 0)), .run 0]

/-! ### C82 -/

/-- Each submitted request is given to the network at most once, and in the order of submission: the frames given to the network are
the frames of submitted requests with strictly increasing numbers (each with the transaction id belonging to that request). -/
def C82_Statement : Prop := ∀ env v, KReach env v → ∃ ps : List (Nat × List UInt8), ps.map (·.2) = tcpAllSubmits (netLog v.log) ∧
  (ps.map (·.1)).Pairwise (· < ·) ∧ ∀ p ∈ ps, ∃ unit q tmo tid, CEv.call p.1 unit q tmo ∈ chLog v.log ∧ Allowed q ∧
    tid.toNat = rank (chLog v.log) p.1 % 65536 ∧ IsRequestFrame unit tid q p.2

/-- Two errors on one connection, with a request in between: the second close cuts off the next connection attempt, whose completion is
then taken for that of a third attempt. -/
def sentTwice : List Stk.Op := ksub ++ kcon ++ [.complete 0 .error, .complete 0 .error, .run 0, .run 0, .run 0] ++ ksub ++ [.run 0] ++ ksub ++ kexp 1 ++
  [.complete 0 .ok, .run 0, .complete 0 .ok, .complete 0 .ok, .run 0, .run 0, .complete 0 .ok, .run 0, .complete 0 (.sent 12), .complete 1 (.sent 12)]

/-- C82 is false: the frame of request 2 is given to the network twice, and both copies go out on the same connection. -/
theorem C82_frame_sent_twice : ∃ v, KReach kenv v ∧
    (tcpAllSubmits (netLog v.log) == [kframe 0, kframe 2, kframe 2] && tcpWires 3 (netLog v.log) == [kframe 2, kframe 2] &&
      submissions (chLog v.log) == [(0, 1, kreq, 10), (1, 1, kreq, 10), (2, 1, kreq, 10)]) = true :=
  any_kdemo (ops := sentTwice) (by decide +kernel)

theorem C82_violated : ¬C82_Statement := by
  intro hall
  obtain ⟨v, hr, hq⟩ := C82_frame_sent_twice
  simp only [Bool.and_eq_true, beq_iff_eq] at hq
  obtain ⟨⟨h1, -⟩, h3⟩ := hq
  obtain ⟨ps, a1, a2, a3⟩ := hall kenv v hr
  rw [h1] at a1
  have hrank : ∀ u, u < 3 → rank (chLog v.log) u = u := by
    intro u hu
    have : allowedUids (chLog v.log) = [0, 1, 2] := by rw [allowedUids, h3]; decide +kernel
    rw [rank, this]
    rcases u with _ | _ | _ | u
    · rfl
    · rfl
    · rfl
    · omega
  have key : ∀ p ∈ ps, p.2 = kframe 2 → p.1 = 2 := by
    intro p hp hf
    obtain ⟨unit, q, tmo, tid, b1, -, b2, pdu, -, -, b3⟩ := a3 p hp
    have hlt : p.1 < 3 := by
      have := mem_submissions.2 b1
      rw [h3] at this
      simp at this
      omega
    rw [hrank _ hlt, Nat.mod_eq_of_lt (by omega)] at b2
    rw [hf, frame_bytes] at b3
    have := hdr_append_inj (t := 2) (p := 0) (l := 6) (u := 1) (x := [5, 0, 5, 255, 0]) b3
    have ht : (2 : UInt16) = tid := this.1
    rw [← ht] at b2
    exact b2.symm
  rcases ps with _ | ⟨p, _ | ⟨q, _ | ⟨r, _ | ⟨x, ps⟩⟩⟩⟩
  all_goals try simp at a1
  have e1 := key q (by simp) a1.2.1
  have e2 := key r (by simp) a1.2.2
  simp [e1, e2] at a2

theorem frames_called {env : StkEnv} {v : Stk} (h : KReach env v) (p : Nat × List UInt8) (hp : p ∈ sentFrames (chLog v.log)) :
    ∃ unit q tmo tid, CEv.call p.1 unit q tmo ∈ chLog v.log ∧ Allowed q ∧ tid.toNat = rank (chLog v.log) p.1 % 65536 ∧ IsRequestFrame unit tid q p.2 := by
  obtain ⟨now, hs⟩ := mem_sentFrames.1 hp
  rw [h.proj.cli] at hs ⊢
  obtain ⟨unit, q, tmo, a, b, tid, c, d⟩ := C54_transaction_ids env.client v.cli h.proj.reach p.1 p.2 now hs
  exact ⟨unit, q, tmo, tid, a, b, c, d⟩

theorem tcp_through {P : Tcp → Tcp.Op → Prop} {env : StkEnv} {v : Stk} (h : KReach env v) (hf : Throughout P v) : TcpReach P v.tcp := by
  have mono : ∀ {t : Tcp} {Q : Tcp → Tcp.Op → Prop}, (∀ a op, Q a op → P a op) → TcpReach Q t → TcpReach P t := by
    intro t Q hpq h
    induction h with
    | init => exact .init
    | step _ hp hs ih => exact .step ih (hpq _ _ hp) hs
  exact mono (fun a op hm => hf (a, op) hm) h.proj.micro.tcp

/-- C82 (part). If no connection attempt is started before everything about the earlier connections is over, each request is given to the
network at most once, in the order of submission.
Missing from C82: histories in which left-over events of an earlier connection arrive during the next one (`C82_frame_sent_twice`). -/
theorem C82_at_most_once_partial (env : StkEnv) (v : Stk) (h : KReach env v) (hf : Throughout FreshStarts v) :
    ∃ ps : List (Nat × List UInt8), ps.map (·.2) = tcpAllSubmits (netLog v.log) ∧ (ps.map (·.1)).Pairwise (· < ·) ∧
      ∀ p ∈ ps, ∃ unit q tmo tid, CEv.call p.1 unit q tmo ∈ chLog v.log ∧ Allowed q ∧ tid.toNat = rank (chLog v.log) p.1 % 65536 ∧
        IsRequestFrame unit tid q p.2 := by
  have hsub := ((tcp_through h hf).once (fun _ _ h => h)).2
  rw [← h.proj.micro.net, h.proj.micro.asked] at hsub
  obtain ⟨ps, h1, h2⟩ := List.sublist_map_iff.1 hsub
  refine ⟨ps, h2.symm, ?_, fun p hp => frames_called h p (h1.subset hp)⟩
  have := (C46_submission_order env.client v.cli h.proj.reach).2.1
  rw [← h.proj.cli, ← sentFrames_uids] at this
  exact this.sublist (h1.map _)

/-- C91. In every history, the requests whose frames are given to the network come in the order of submission; a frame may be
repeated (`C82_frame_sent_twice`), but never after the frame of a later request. -/
theorem C91_in_order (env : StkEnv) (v : Stk) (h : KReach env v) :
    ∃ ps : List (Nat × List UInt8), ps.map (·.2) = tcpAllSubmits (netLog v.log) ∧ (ps.map (·.1)).Pairwise (· ≤ ·) ∧
      ∀ p ∈ ps, ∃ unit q tmo tid, CEv.call p.1 unit q tmo ∈ chLog v.log ∧ Allowed q ∧ tid.toNat = rank (chLog v.log) p.1 % 65536 ∧
        IsRequestFrame unit tid q p.2 := by
  obtain ⟨is, h1, h2, h3⟩ := newest_index v.tcp.log h.proj.micro.tcp.newest.submits
  rw [← h.proj.micro.net, h.proj.micro.asked] at h3
  have hs := (C46_submission_order env.client v.cli h.proj.reach).2.1
  rw [← h.proj.cli, ← sentFrames_uids] at hs
  generalize hF : sentFrames (chLog v.log) = F at h3 hs
  refine ⟨is.filterMap (F[·]?), ?_, ?_, fun p hp => ?_⟩
  · have := congrArg (List.filterMap id) h3
    simp only [List.filterMap_map, List.getElem?_map] at this
    rw [List.map_filterMap]
    refine Eq.trans ?_ (this.trans ?_)
    · rfl
    · rw [Function.id_comp, List.filterMap_some]
  · rw [List.map_filterMap, List.pairwise_filterMap]
    refine h1.imp fun {i j} hij a ha b hb => ?_
    rcases Nat.lt_or_eq_of_le hij with hlt | rfl
    · rw [← List.getElem?_map] at ha hb
      obtain ⟨hi, rfl⟩ := List.getElem?_eq_some_iff.1 ha
      obtain ⟨hj, rfl⟩ := List.getElem?_eq_some_iff.1 hb
      exact Nat.le_of_lt (List.pairwise_iff_getElem.1 hs i j hi hj hlt)
    · rw [ha] at hb; injection hb with hb; exact Nat.le_of_eq hb
  · obtain ⟨i, -, hi⟩ := List.mem_filterMap.1 hp
    exact frames_called h p (by rw [hF]; exact List.mem_of_getElem? hi)

/-- Two requests on one connection, and one on the next connection after an error. -/
def threeRequests : List Stk.Op := kans ++ ksub ++ [.complete 1 (.sent 12), .run 0, .complete 0 (.data (kframe 1)), .run 0, .complete 0 .error, .run 0, .run 0] ++
  ksub ++ kcon

example : ∃ v, KReach kenv v ∧ Throughout FreshStarts v ∧
    (tcpAllSubmits (netLog v.log) == [kframe 0, kframe 1, kframe 2] && v.tcp.conn == 2) = true :=
  fresh_kdemo (ops := threeRequests) (by decide +kernel)

example : ∃ v, KReach kenv v ∧ (tcpAllSubmits (netLog v.log) == [kframe 0, kframe 2, kframe 2]) = true := any_kdemo (ops := sentTwice) (by decide +kernel)

/-! ### C83 -/

/-- Whenever a frame is given to the network, it is the frame of a submitted request that is still waiting for its answer. -/
def C83_Statement : Prop := ∀ env v, KReach env v → ∀ pre c d post, v.log = pre ++ .net (.submit c d) :: post →
  ∃ u unit q tmo tid, CEv.call u unit q tmo ∈ chLog pre ∧ Allowed q ∧ tid.toNat = rank (chLog pre) u % 65536 ∧ IsRequestFrame unit tid q d ∧
    u ∉ handledUids (chLog pre)

/-- A request runs into its timeout while the connection is being established. -/
def lateSend : List Stk.Op := ksub ++ kexp 0 ++ kcon

/-- What happens in `lateSend`. -/
def latePre : List KEv := [.ch (.call 0 1 kreq 10), .ch (.sent 0 (kframe 0) 0), .net (.asked (kframe 0)), .net (.attempt 1), .ch (.handler 0 (.error .timeout) 10)]

/-- C83 is false: the request has been reported as timed out (the caller may have repeated it, or done something else), and goes out when
the connection is established, however much later that is. -/
theorem C83_sent_after_timeout : ∃ v, KReach kenv v ∧ decide (v.log = latePre ++ [.net (.submit 1 (kframe 0))]) = true :=
  any_kdemo (ops := lateSend) (by decide +kernel)

theorem C83_violated : ¬C83_Statement := by
  intro hall
  obtain ⟨v, hr, hq⟩ := C83_sent_after_timeout
  obtain ⟨u, unit, q, tmo, tid, h1, -, -, -, h2⟩ := hall kenv v hr latePre 1 (kframe 0) [] (of_decide_eq_true hq)
  have h1 := mem_submissions.2 h1
  have e : submissions (chLog latePre) = [(0, 1, kreq, 10)] := by decide +kernel
  rw [e] at h1
  simp at h1
  rw [h1.1] at h2
  exact h2 (by decide +kernel)

/-- C83 (part). If no connection attempt is started before everything about the earlier connections is over: whenever a frame is given to
the network, it is the frame of a submitted request which is waiting for its answer or has been reported as timed out, and in no other
way.
Missing from C83: requests that ran into their timeout (`C83_sent_after_timeout`), and left-over events. -/
theorem C83_on_behalf_partial (env : StkEnv) (v : Stk) (h : KReach env v) (hf : Throughout FreshStarts v) (pre : List KEv) (c : Nat) (d : List UInt8)
    (post : List KEv) (hl : v.log = pre ++ .net (.submit c d) :: post) :
    ∃ u unit q tmo tid, CEv.call u unit q tmo ∈ chLog pre ∧ Allowed q ∧ tid.toNat = rank (chLog pre) u % 65536 ∧ IsRequestFrame unit tid q d ∧
      ∀ x now, CEv.handler u x now ∈ chLog pre → x = .error .timeout := by
  obtain ⟨u, now, h1, h2⟩ := h.proj.micro.onBehalf hf pre c d post hl
  obtain ⟨a, b, hab⟩ := List.append_of_mem h1
  have hlog : v.cli.log = a ++ .sent u d now :: (b ++ chLog post) := by
    rw [← h.proj.cli, hl]
    simp only [chLog_append, chLog_net, hab]
    simp
  obtain ⟨-, -, -, -, -, unit, q, tmo, c1, c2, mem, c3, c4⟩ := h.proj.reach.inv.1.just.at hlog
  refine ⟨u, unit, q, tmo, UInt16.ofNat (rank a u), by rw [hab]; exact List.mem_append_left _ c1, c2, ?_, by rw [c4]; exact request_frame c3 c2, h2⟩
  have e1 := calls_prefix h.proj.reach hlog c1
  have e2 := calls_prefix h.proj.reach (l1 := chLog pre) (l2 := chLog post) (by rw [hlog, hab]; simp) (u := u) (unit := unit) (q := q) (tmo := tmo)
    (by rw [hab]; exact List.mem_append_left _ c1)
  rw [← e2, e1]
  simp

example : ∃ v, KReach kenv v ∧ Throughout FreshStarts v ∧ decide (v.log = latePre ++ [.net (.submit 1 (kframe 0))]) = true :=
  fresh_kdemo (ops := lateSend) (by decide +kernel)

/-! ### C84 -/

/-- The connection, or the attempt to establish it, has ended. -/
def LossTask (x : TTask) : Prop := ∃ c, x = .resolved c false ∨ x = .connected c false ∨ x = .read c .eof ∨ x = .read c .error ∨ x = .written c false

/-- When the connection or the connection attempt ends (before shutdown), every request handed to the channel has been reported to its
caller afterwards. -/
def C84_Statement : Prop := ∀ env v k x v', KReach env v → CEv.tcpShutdown ∉ chLog v.log → v.tcp.queue[k]? = some x → LossTask x →
  v.step env (.run k) = .ret v' → ∀ u ∈ (submissions (chLog v.log)).map (·.1), u ∉ Cli.taskUids v.cli.tasks → u ∈ handledUids (chLog v'.log)

/-- The server closes the connection instead of answering. -/
def serverCloses : List Stk.Op := ksub ++ kcon ++ [.complete 0 (.sent 12), .run 0, .complete 0 .eof]

/-- C84 is false: when the server closes the connection in an orderly way, the channel is not told; the request stays outstanding until
its timeout. -/
theorem C84_violated : ¬C84_Statement := by
  intro hall
  obtain ⟨v, h1, hr, -, hq⟩ := kdemo_run (P := fun _ _ => True) (chk := fun _ _ => true) (fun _ _ _ => trivial) (env := kenv) (ops := serverCloses)
    (Q := fun v => decide (CEv.tcpShutdown ∉ chLog v.log) && v.tcp.queue == [.read 1 .eof] && (submissions (chLog v.log)).map (·.1) == [0] &&
      Cli.taskUids v.cli.tasks == [] && (match v.step kenv (.run 0) with
        | .ub => false
        | .ret v' => handledUids (chLog v'.log) == [])) (by decide +kernel)
  simp only [Bool.and_eq_true, beq_iff_eq, decide_eq_true_eq] at hq
  obtain ⟨⟨⟨⟨a1, a2⟩, a3⟩, a4⟩, a5⟩ := hq
  cases hs : v.step kenv (.run 0) with
  | ub => rw [hs] at a5; cases a5
  | ret v' =>
    rw [hs] at a5
    have := hall kenv v 0 (.read 1 .eof) v' hr a1 (by rw [a2]; rfl) ⟨1, by simp⟩ hs 0 (by rw [a3]; simp) (by rw [a4]; simp)
    rw [beq_iff_eq.1 a5] at this
    cases this

/-- C84, how it goes wrong: the end of the stream is never told to the channel. -/
theorem C84_eof_not_reported (env : StkEnv) (v v' : Stk) (k c : Nat) (h : KReach env v) (hk : v.tcp.queue[k]? = some (.read c .eof))
    (hs : v.step env (.run k) = .ret v') : v'.cli = v.cli ∧ chLog v'.log = chLog v.log := by
  obtain ⟨t', new, h1, h2, h3⟩ := Stk.step_run_cli h.proj hs
  have hnew : new = [] := by
    simp only [Tcp.step, hk, Tcp.runTask] at h1
    injection h1 with h1; subst h1
    cases hd : v.tcp.isShutdown with
    | true => simpa [Tcp.onRead, hd] using h2
    | false =>
      rw [Tcp.onRead_eof (v := { v.tcp with queue := v.tcp.queue.eraseIdx k }) hd] at h2
      simpa [Tcp.post] using h2
  subst hnew
  rcases h3 with ⟨-, a1, -, a2⟩ | ⟨c', d, -, -, h, -⟩ | ⟨c', cur, -, h, -⟩
  · exact ⟨a1, by rw [a2]; simp⟩
  · cases h
  · cases h

/-- C84 (part). When the connection or the attempt ends in any other way than by an orderly close, every request handed to the channel
has been reported to its caller afterwards, nothing is waiting, and those that were waiting are reported with a connection error.
Missing from C84: the orderly close by the server (`C84_violated`, `C84_eof_not_reported`). -/
theorem C84_loss_reported_partial (env : StkEnv) (v v' : Stk) (k : Nat) (x : TTask) (h : KReach env v) (hs : CEv.tcpShutdown ∉ chLog v.log)
    (hk : v.tcp.queue[k]? = some x) (hx : LossTask x) (he : ∀ c, x ≠ .read c .eof) (hstep : v.step env (.run k) = .ret v') :
    waiting v'.cli = [] ∧ chLog v'.log = chLog v.log ++ .connError :: (waiting v.cli).map (fun u => .handler u (.error .connection) v.cli.now) ∧
    ∀ u ∈ (submissions (chLog v.log)).map (·.1), u ∉ Cli.taskUids v.cli.tasks → u ∈ handledUids (chLog v'.log) := by
  have hd : v.tcp.isShutdown = false := by
    cases hd : v.tcp.isShutdown with
    | false => rfl
    | true => exact absurd (h.proj.micro.down_by (Or.inl hd)) hs
  obtain ⟨t', new, h1, h2, h3⟩ := Stk.step_run_cli h.proj hstep
  have hnew : ∃ c, new = [.error c v.tcp.conn] := by
    simp only [Tcp.step, hk] at h1
    injection h1 with h1; subst h1
    obtain ⟨c, rfl | rfl | rfl | rfl | rfl⟩ := hx <;> simp only [Tcp.runTask] at h2
    · rw [Tcp.onResolved_err (v := { v.tcp with queue := v.tcp.queue.eraseIdx k }) hd] at h2
      exact ⟨c, (List.append_cancel_left h2).symm⟩
    · rw [Tcp.onConnected_err (v := { v.tcp with queue := v.tcp.queue.eraseIdx k }) hd] at h2
      exact ⟨c, (List.append_cancel_left h2).symm⟩
    · exact absurd rfl (he c)
    · rw [Tcp.onRead_error (v := { v.tcp with queue := v.tcp.queue.eraseIdx k }) hd] at h2
      exact ⟨c, (List.append_cancel_left h2).symm⟩
    · rw [Tcp.onWritten_err (v := { v.tcp with queue := v.tcp.queue.eraseIdx k }) hd] at h2
      exact ⟨c, (List.append_cancel_left h2).symm⟩
  obtain ⟨c, rfl⟩ := hnew
  rcases h3 with ⟨a, -⟩ | ⟨c', d, -, -, h, -⟩ | ⟨c', cur, -, -, a1, -⟩
  · exact absurd rfl ((a _ (List.mem_singleton.2 rfl)).2 _ _)
  · cases h
  · rw [h.proj.cli] at hs
    obtain ⟨w, b1, -, b2, -, b4, b5⟩ := C53_error_fails_everything env.client v.cli h.proj.reach hs
    rw [a1] at b1
    injection b1 with b1; subst b1
    have hl : chLog v'.log = v'.cli.log := (h.step hstep).proj.cli
    refine ⟨b4, by rw [hl, b2, h.proj.cli], fun u hu ht => ?_⟩
    rw [hl, b2]
    by_cases hh : u ∈ handledUids v.cli.log
    · rw [handledUids_append]; exact List.mem_append_left _ hh
    · have := (b5 u).2 ⟨by rw [← h.proj.cli]; exact hu, hh, ht⟩
      exact mem_handledUids.2 ⟨.error .connection, v.cli.now, by simp [this]⟩

example : ∃ v, KReach kenv v ∧ (decide (CEv.tcpShutdown ∉ chLog v.log) && v.tcp.queue == [.read 1 .error] && waiting v.cli == [1, 0]) = true :=
  any_kdemo (ops := ksub ++ kcon ++ ksub ++ [.complete 0 (.sent 12), .run 0, .complete 0 .error]) (by decide +kernel)

example : ∃ v, KReach kenv v ∧ (v.tcp.queue == [.read 1 .eof]) = true := any_kdemo (ops := serverCloses) (by decide +kernel)

/-! ### C85 -/

/-- The client never has undefined behaviour. -/
def C85_Statement : Prop := ∀ env v op, KReach env v → ∃ v', v.step env op = .ret v'

/-- A request runs into its timeout while it is being written, and the next one is handed over. -/
def writeOverlap : List Stk.Op := ksub ++ kcon ++ kexp 0 ++ ksub

/-- C85 is false: the buffer being written is replaced by the next request; the operation in progress then reads freed memory. -/
theorem C85_violated : ¬C85_Statement := by
  intro hall
  obtain ⟨v, hr, hq⟩ := any_kdemo (env := kenv) (ops := writeOverlap) (Q := fun v => match v.step kenv (.complete 0 (.sent 12)) with
    | .ub => true
    | .ret _ => false) (by decide +kernel)
  obtain ⟨v', hv⟩ := hall kenv v (.complete 0 (.sent 12)) hr
  rw [hv] at hq
  cases hq

/-- C85 (part). If requests are handed to the connection only while nothing is being written, writes are never partial, and no connection
attempt is started before everything about the earlier connections is over, then the client never has undefined behaviour, whatever
happens next.
Missing from C85: a request handed over while another is being written (`C85_violated`). -/
theorem C85_memory_safe_partial (env : StkEnv) (v : Stk) (h : KReach env v) (hf : Throughout (fun t op => FreshStarts t op ∧ Patient t op) v) (op : Stk.Op) :
    ∃ v', v.step env op = .ret v' :=
  Stk.step_total h op fun i r _ => Tcp.step_noUB ((tcp_through h hf).writes fun _ _ h => h).1 (.complete i r)

/-- C85 (part). In every history: only the completion of a write can be undefined; API calls, timers, tasks, incoming data and errors,
and all other completions never are. -/
theorem C85_only_writes_partial (env : StkEnv) (v : Stk) (h : KReach env v) (op : Stk.Op)
    (hop : ∀ i n, op = .complete i (.sent n) → ∀ c b d, v.tcp.flying[i]? ≠ some (.write c b d)) : ∃ v', v.step env op = .ret v' := by
  refine Stk.step_total h op fun i r hr => ?_
  simp only [Tcp.step, Tcp.complete]
  repeat' split
  all_goals first
    | exact ⟨_, rfl⟩
    | skip
  rename_i hw _ _ _ _
  exact absurd hw (hop i _ hr _ _ _)

example : ∃ v, KReach kenv v ∧ Throughout (fun t op => FreshStarts t op ∧ Patient t op) v ∧
    (v.tcp.flying == [.read 1, .write 1 1 (kframe 1)]) = true := by
  obtain ⟨v, -, h⟩ := kdemo_run (P := fun t op => FreshStarts t op ∧ Patient t op) (chk := fun t op => freshChk t op && patientChk t op) (env := kenv)
    (ops := kans ++ ksub) (Q := fun v => v.tcp.flying == [.read 1, .write 1 1 (kframe 1)]) (fun t op h => by
      simp only [Bool.and_eq_true] at h
      exact ⟨freshChk_spec t op h.1, patientChk_spec t op h.2⟩) (by decide +kernel)
  exact ⟨v, h⟩

/-! ### C86 -/

/-- The first answer that arrives on a new connection is delivered: if everything received since the connection attempt (together with
the bytes now read) is the frame that answers the outstanding request, that request's handler is called with it. -/
def C86_Statement : Prop := ∀ env v, KReach env v → CEv.tcpShutdown ∉ chLog v.log → ∀ pre c post, v.log = pre ++ .net (.attempt c) :: post →
  (∀ c' cur, KEv.net (.error c' cur) ∉ post) → (∀ c' d, KEv.net (.receive c' d) ∈ post → c' = c) →
  ∀ u bytes t unit tid q tmo pdu d k, CEv.sent u bytes t ∈ chLog v.log → u ∉ handledUids (chLog v.log) → CEv.call u unit q tmo ∈ chLog v.log →
    IsRequestFrame unit tid q bytes → Ordinary ⟨unit, tid, pdu⟩ → d ≠ [] →
    (tcpReceived c (netLog post)).flatten ++ d = (frameOf ⟨unit, tid, pdu⟩).bytes → v.tcp.queue[k]? = some (.read c (.data d)) →
    ∃ v', v.step env (.run k) = .ret v' ∧ CEv.handler u (.ok pdu) v.cli.now ∈ chLog v'.log

/-- The server sends the beginning of an answer and closes the connection; the client connects again. -/
def cutAnswer : List Stk.Op := ksub ++ kcon ++ [.complete 0 (.sent 12), .run 0, .complete 0 (.data [0, 0, 0]), .run 0, .complete 0 .eof, .run 0, .run 0] ++ kexp 0 ++
  ksub ++ kcon ++ [.complete 0 (.sent 12), .run 0, .complete 0 (.data (kframe 1))]

/-- What happens in `cutAnswer`, up to the second attempt. -/
def cutAnswerPre : List KEv := [.ch (.call 0 1 kreq 10), .ch (.sent 0 (kframe 0) 0), .net (.asked (kframe 0)), .net (.attempt 1), .net (.submit 1 (kframe 0)),
  .net (.wire 1 (kframe 0)), .net .writeDone, .net (.receive 1 [0, 0, 0]), .ch (.data [0, 0, 0]), .net (.closed 1 1), .ch (.handler 0 (.error .timeout) 10),
  .ch (.call 1 1 kreq 10), .ch (.sent 1 (kframe 1) 10), .net (.asked (kframe 1))]

/-- And after it. -/
def cutAnswerPost : List KEv := [.net (.submit 2 (kframe 1)), .net (.wire 2 (kframe 1)), .net .writeDone]

/-- C86 is false: the beginning of the old answer is still in the receiver; the complete and correct answer on the new connection is
swallowed. -/
theorem C86_violated : ¬C86_Statement := by
  intro hall
  obtain ⟨v, hr, hq⟩ := any_kdemo (env := kenv) (ops := cutAnswer) (Q := fun v =>
    decide (v.log = cutAnswerPre ++ .net (.attempt 2) :: cutAnswerPost) && v.tcp.queue == [.read 2 (.data (kframe 1))] &&
      (match v.step kenv (.run 0) with
        | .ub => false
        | .ret v' => handledUids (chLog v'.log) == [0])) (by decide +kernel)
  simp only [Bool.and_eq_true, beq_iff_eq, decide_eq_true_eq] at hq
  obtain ⟨⟨h1, h2⟩, h3⟩ := hq
  have hl : chLog v.log = [.call 0 1 kreq 10, .sent 0 (kframe 0) 0, .data [0, 0, 0], .handler 0 (.error .timeout) 10, .call 1 1 kreq 10, .sent 1 (kframe 1) 10] := by
    rw [h1]; rfl
  have hfr : IsRequestFrame 1 1 kreq (kframe 1) := by
    have := request_frame (unit := 1) (tid := 1) (q := kreq) (mem := List.replicate 260 0) List.length_replicate (by decide +kernel)
    have e : buildMbap 1 1 (reqMsg kreq.1 kreq.2) ⟨[], List.replicate 260 0⟩ = kframe 1 := by decide +kernel
    rw [e] at this; exact this
  obtain ⟨v', a1, a2⟩ := hall kenv v hr (by rw [hl]; simp) cutAnswerPre 2 cutAnswerPost h1 (by simp [cutAnswerPost]) (by simp [cutAnswerPost])
    1 (kframe 1) 10 1 1 kreq 10 [5, 0, 5, 255, 0] (kframe 1) 0 (by rw [hl]; simp) (by rw [hl]; decide +kernel) (by rw [hl]; simp) hfr
    ⟨by decide, by decide⟩ (by decide) (by decide +kernel) (by rw [h2]; rfl)
  rw [a1] at h3
  have h3 := beq_iff_eq.1 h3
  have := mem_handledUids.2 ⟨_, _, a2⟩
  rw [h3] at this
  simp at this

theorem rx_since {env : StkEnv} {v : Stk} (h : KReach env v) (hf : Throughout (fun t op => FreshStarts t op ∧ NoEof t op) v) {pre post : List KEv} {c : Nat}
    (hl : v.log = pre ++ .net (.attempt c) :: post) : rxChunks (netLog pre) = [] := by
  have hx := (tcp_through h hf).rx (fun _ _ h => h) (netLog pre) c (netLog post) (by rw [← h.proj.micro.net, hl]; simp)
  exact (rxDirty_chunks _).1 hx

/-- C86 (part). If no connection ever ends in an orderly way (only by errors) and no connection attempt is started before everything about
the earlier connections is over, then the first answer that arrives on a new connection, in whatever pieces, is delivered.
Missing from C86: connections closed by the server in an orderly way (`C86_violated`), and left-over events. -/
theorem C86_first_answer_partial (env : StkEnv) (v : Stk) (h : KReach env v) (hf : Throughout (fun t op => FreshStarts t op ∧ NoEof t op) v)
    (hs : CEv.tcpShutdown ∉ chLog v.log) (pre : List KEv) (c : Nat) (post : List KEv) (hl : v.log = pre ++ .net (.attempt c) :: post)
    (he : ∀ c' cur, KEv.net (.error c' cur) ∉ post) (hr : ∀ c' d, KEv.net (.receive c' d) ∈ post → c' = c)
    (u : Nat) (bytes : List UInt8) (t : Nat) (unit : UInt8) (tid : UInt16) (q : AnyReq) (tmo : Nat) (pdu d : List UInt8) (k : Nat)
    (h1 : CEv.sent u bytes t ∈ chLog v.log) (h2 : u ∉ handledUids (chLog v.log)) (h3 : CEv.call u unit q tmo ∈ chLog v.log)
    (h4 : IsRequestFrame unit tid q bytes) (ho : Ordinary ⟨unit, tid, pdu⟩) (hne : d ≠ [])
    (hd : (tcpReceived c (netLog post)).flatten ++ d = (frameOf ⟨unit, tid, pdu⟩).bytes) (hk : v.tcp.queue[k]? = some (.read c (.data d))) :
    ∃ v', v.step env (.run k) = .ret v' ∧ CEv.handler u (.ok pdu) v.cli.now ∈ chLog v'.log := by
  refine Stk.run_answer h hs h1 h2 h3 h4 ho hne ?_ hk
  have mem : ∀ {e : TEv}, e ∈ netLog post → KEv.net e ∈ post := by
    intro e hm
    simp only [netLog, List.mem_filterMap] at hm
    obtain ⟨x, hx, hx'⟩ := hm
    cases x with
    | ch => cases hx'
    | net e' => injection hx' with hx'; rw [← hx']; exact hx
  have : netLog v.log = (netLog pre ++ [.attempt c]) ++ netLog post := by rw [hl]; simp
  rw [this, rxChunks_since (c := c) _ _ (fun c' cur hm => he c' cur (mem hm)) (fun c' d hm => hr c' d (mem hm)), rxChunks_quiet (by simp),
    rx_since h hf hl]
  exact hd

/-- The second connection of the client, after the first one was cut by an error in the middle of an answer; the answer comes in two
pieces. -/
def cutByError : List Stk.Op := ksub ++ kcon ++ [.complete 0 (.sent 12), .run 0, .complete 0 (.data [0, 0, 0]), .run 0, .complete 0 .error, .run 0, .run 0] ++
  ksub ++ kcon ++ [.complete 0 (.sent 12), .run 0, .complete 0 (.data [0, 1, 0, 0]), .run 0, .complete 0 (.data [0, 6, 1, 5, 0, 5, 255, 0])]

example : ∃ v, KReach kenv v ∧ Throughout (fun t op => FreshStarts t op ∧ NoEof t op) v ∧
    (decide (v.log.drop 13 = [.ch (.call 1 1 kreq 10), .ch (.sent 1 (kframe 1) 0), .net (.asked (kframe 1)), .net (.attempt 2), .net (.submit 2 (kframe 1)),
      .net (.wire 2 (kframe 1)), .net .writeDone, .net (.receive 2 [0, 1, 0, 0]), .ch (.data [0, 1, 0, 0])]) &&
      decide (CEv.tcpShutdown ∉ chLog v.log) && handledUids (chLog v.log) == [0] && v.tcp.queue == [.read 2 (.data [0, 6, 1, 5, 0, 5, 255, 0])]) = true := by
  obtain ⟨v, -, h⟩ := kdemo_run (P := fun t op => FreshStarts t op ∧ NoEof t op) (chk := fun t op => freshChk t op && noEofChk op) (env := kenv)
    (ops := cutByError) (Q := fun v => decide (v.log.drop 13 = [.ch (.call 1 1 kreq 10), .ch (.sent 1 (kframe 1) 0), .net (.asked (kframe 1)), .net (.attempt 2),
      .net (.submit 2 (kframe 1)), .net (.wire 2 (kframe 1)), .net .writeDone, .net (.receive 2 [0, 1, 0, 0]), .ch (.data [0, 1, 0, 0])]) &&
      decide (CEv.tcpShutdown ∉ chLog v.log) && handledUids (chLog v.log) == [0] && v.tcp.queue == [.read 2 (.data [0, 6, 1, 5, 0, 5, 255, 0])])
    (fun t op h => by
      simp only [Bool.and_eq_true] at h
      exact ⟨freshChk_spec t op h.1, noEofChk_spec t op h.2⟩) (by decide +kernel)
  exact ⟨v, h⟩

/-! ### C87 -/

/-- Nothing is in progress, queued or waiting. -/
def AtRest (v : Stk) : Prop := v.tcp.queue = [] ∧ v.tcp.flying = [] ∧ v.cli.tasks = [] ∧ waiting v.cli = []

/-- When the client is at rest (and the local socket works), a submitted request makes it attempt a new connection. -/
def C87_Statement : Prop := ∀ env v, KReach env v → CEv.tcpShutdown ∉ chLog v.log → AtRest v → env.loc v.tcp.nextBuf = .ok →
  ∀ unit q tmo, Allowed q → ∃ v' bytes c, v.run env [.chan (.submit unit q tmo), .chan .runTask] = .ret v' ∧
    netLog v'.log = netLog v.log ++ [.asked bytes, .attempt c]

/-- The server's name could not be resolved, once. -/
def unresolved : List Stk.Op := ksub ++ [.complete 0 .error, .run 0]

theorem unresolved_dead : ∃ v, KReach kenv v ∧ CEv.tcpShutdown ∉ chLog v.log ∧ AtRest v ∧ Tcp.Dead v.tcp := by
  obtain ⟨v, hr, hq⟩ := any_kdemo (env := kenv) (ops := unresolved) (Q := fun v => decide (CEv.tcpShutdown ∉ chLog v.log) &&
    (v.tcp.queue == [] && v.tcp.flying == [] && decide (v.cli.tasks = []) && waiting v.cli == []) && (v.tcp.status == .notConnected && v.tcp.isOpen))
    (by decide +kernel)
  simp only [Bool.and_eq_true, beq_iff_eq, decide_eq_true_eq] at hq
  obtain ⟨⟨h1, ⟨⟨h2, h3⟩, h4⟩, h5⟩, h6, h7⟩ := hq
  exact ⟨v, hr, h1, ⟨h2, h3, h4, h5⟩, h6, h7, h3, by rw [h2]; simp⟩

/-- What happens from then on. -/
theorem dead_run {env : StkEnv} {v : Stk} (hr : KReach env v) (hd : Tcp.Dead v.tcp) (ops : List Stk.Op) :
    ∃ v' es, v.run env ops = .ret v' ∧ netLog v'.log = netLog v.log ++ es ∧ ∀ e ∈ es, (∃ d, e = .asked d) ∨ e = .gaveUp := by
  obtain ⟨v', hv⟩ := Stk.run_total Tcp.Dead (fun t op h => by obtain ⟨t', a, b, -⟩ := h.step op; exact ⟨t', a, b⟩) ops hr hd
  obtain ⟨tops, ht⟩ := Stk.run_tcp ops hv
  obtain ⟨t', a1, -, es, a2, a3⟩ := hd.run tops
  rw [ht] at a1; injection a1 with a1; subst a1
  exact ⟨v', es, hv, by rw [hr.proj.micro.net, (Stk.run_reach ops hr hv).proj.micro.net, a2], a3⟩

/-- C87 is false: after one failure to resolve the server's name, the next request does not cause a connection attempt. -/
theorem C87_violated : ¬C87_Statement := by
  intro hall
  obtain ⟨v, hr, h1, h2, h3⟩ := unresolved_dead
  obtain ⟨v', bytes, c, h4, h5⟩ := hall kenv v hr h1 h2 rfl 1 kreq 10 (by decide +kernel)
  obtain ⟨v2, es, a1, a2, a3⟩ := dead_run hr h3 [.chan (.submit 1 kreq 10), .chan .runTask]
  rw [h4] at a1; injection a1 with a1; subst a1
  rw [h5] at a2
  have := List.append_cancel_left a2
  subst this
  rcases a3 (.attempt c) (by simp) with ⟨d, h⟩ | h <;> cases h

/-- C87, how bad it is: after one failure to resolve the name, no request is ever given to the network again, whatever happens, and no
connection is ever attempted again; every request can only run into its timeout. -/
theorem C87_dead_forever : ∃ v, (Stk.init kenv).run kenv unresolved = .ret v ∧ CEv.tcpShutdown ∉ chLog v.log ∧
    ∀ ops, ∃ v' es, v.run kenv ops = .ret v' ∧ netLog v'.log = netLog v.log ++ es ∧ ∀ e ∈ es, (∃ d, e = .asked d) ∨ e = .gaveUp := by
  obtain ⟨v, h0, hr, -, hq⟩ := kdemo_run (P := fun _ _ => True) (chk := fun _ _ => true) (fun _ _ _ => trivial) (env := kenv) (ops := unresolved)
    (Q := fun v => decide (CEv.tcpShutdown ∉ chLog v.log) &&
      (v.tcp.queue == [] && v.tcp.flying == [] && v.tcp.status == .notConnected && v.tcp.isOpen)) (by decide +kernel)
  simp only [Bool.and_eq_true, beq_iff_eq, decide_eq_true_eq] at hq
  obtain ⟨h1, ⟨⟨h2, h3⟩, h6⟩, h7⟩ := hq
  exact ⟨v, h0, h1, dead_run hr ⟨h6, h7, h3, by rw [h2]; simp⟩⟩

theorem rest_state {v : Stk} {env : StkEnv} (h : KReach env v) (hf : Throughout NoLocalFailure v) (hs : CEv.tcpShutdown ∉ chLog v.log) (hr : AtRest v) :
    v.tcp.isShutdown = false ∧ v.tcp.status = .notConnected ∧ v.tcp.isOpen = false := by
  obtain ⟨hq, hfl, -, -⟩ := hr
  have hd : v.tcp.isShutdown = false := by
    cases hd : v.tcp.isShutdown with
    | false => rfl
    | true => exact absurd (h.proj.micro.down_by (Or.inl hd)) hs
  have hl := ((tcp_through h hf).live (fun _ _ h => h)).resolve_left (by simp [hd])
  have hng : ¬Tcp.Going v.tcp := by
    rintro (⟨c, h⟩ | ⟨c, h⟩ | ⟨c, h⟩ | ⟨c, ok, h⟩ | ⟨c, h⟩) <;> simp [hfl, hq] at h
  have hst : v.tcp.status = .notConnected := by
    cases hs : v.tcp.status with
    | notConnected => rfl
    | connecting => exact absurd (hl.connecting hs) hng
    | connected => rcases hl.connected hs with ⟨c, h⟩ | ⟨c, r, h⟩ | ⟨c, h⟩ <;> simp [hfl, hq] at h
  refine ⟨hd, hst, ?_⟩
  cases ho : v.tcp.isOpen with
  | false => rfl
  | true => exact absurd (hl.closing hst ho) hng

/-- C87 (part). Unless the local socket fails or the address cannot be resolved: when the client is at rest, a submitted request makes it
attempt a new connection, with that request's frame to be sent on it.
Missing from C87: failures to resolve and failures of the local socket (`C87_violated`, `C87_dead_forever`). -/
theorem C87_reconnects_partial (env : StkEnv) (v : Stk) (h : KReach env v) (hf : Throughout NoLocalFailure v) (hs : CEv.tcpShutdown ∉ chLog v.log)
    (hr : AtRest v) (hloc : env.loc v.tcp.nextBuf = .ok) (unit : UInt8) (q : AnyReq) (tmo : Nat) (hq : Allowed q) :
    ∃ v' tid bytes, v.run env [.chan (.submit unit q tmo), .chan .runTask] = .ret v' ∧ IsRequestFrame unit tid q bytes ∧
      netLog v'.log = netLog v.log ++ [.asked bytes, .attempt (v.tcp.conn + 1)] := by
  obtain ⟨a1, a2, a3⟩ := rest_state h hf hs hr
  obtain ⟨v', tid, bytes, b1, b2, b3, -⟩ := Stk.submit_steps v h hs hr.2.2.2 hr.2.2.1 unit q tmo hq
  refine ⟨v', tid, bytes, b1, b2, ?_⟩
  rw [(Stk.run_reach _ h b1).proj.micro.net, h.proj.micro.net, b3, hloc, Tcp.send_start a1 a2 a3]
  simp [Tcp.ask, Tcp.emit]

/-- At rest, before anything was sent and after a connection was closed by an error. -/
def restAgain : List Stk.Op := ksub ++ kcon ++ [.complete 0 (.sent 12), .run 0, .complete 0 (.data (kframe 0)), .run 0, .complete 0 .error, .run 0, .run 0]

example : ∃ v, KReach kenv v ∧ Throughout NoLocalFailure v ∧ (decide (CEv.tcpShutdown ∉ chLog v.log) && v.tcp.conn == 1 && v.tcp.queue == [] &&
    v.tcp.flying == [] && decide (v.cli.tasks = []) && waiting v.cli == []) = true := by
  obtain ⟨v, -, h⟩ := kdemo_run localChk_spec (env := kenv) (ops := restAgain) (Q := fun v => decide (CEv.tcpShutdown ∉ chLog v.log) && v.tcp.conn == 1 &&
    v.tcp.queue == [] && v.tcp.flying == [] && decide (v.cli.tasks = []) && waiting v.cli == []) (by decide +kernel)
  exact ⟨v, h⟩

/-! ### C88 -/

/-- A request is submitted; the name is resolved, the connection is established, the frame is written, and `d` is received. -/
def stackExchange (unit : UInt8) (q : AnyReq) (tmo n : Nat) (d : List UInt8) : List Stk.Op :=
  [.chan (.submit unit q tmo), .chan .runTask, .complete 0 .ok, .run 0, .complete 0 .ok, .run 0, .complete 0 (.sent n), .run 0, .complete 0 (.data d), .run 0]

/-- When the client is at rest (and the local socket works), and then everything goes well, a submitted request is transmitted and its
answer delivered. -/
def C88_Statement : Prop := ∀ env v, KReach env v → CEv.tcpShutdown ∉ chLog v.log → AtRest v → env.loc v.tcp.nextBuf = .ok →
  ∀ unit q tmo, Allowed q → ∃ tid bytes, IsRequestFrame unit tid q bytes ∧ ∀ pdu : List UInt8, 1 ≤ pdu.length → pdu.length ≤ 253 →
    ∃ v', v.run env (stackExchange unit q tmo bytes.length (frameOf ⟨unit, tid, pdu⟩).bytes) = .ret v' ∧
      tcpAllSubmits (netLog v.log) ++ [bytes] <+: tcpAllSubmits (netLog v'.log) ∧
      ∃ now, CEv.handler v.cli.nextUid (.ok pdu) now ∈ chLog v'.log

/-- C88 is false (after a failure to resolve the name nothing is ever transmitted again). -/
theorem C88_violated : ¬C88_Statement := by
  intro hall
  obtain ⟨v, hr, h1, h2, h3⟩ := unresolved_dead
  obtain ⟨tid, bytes, -, h⟩ := hall kenv v hr h1 h2 rfl 1 kreq 10 (by decide +kernel)
  obtain ⟨v', b1, b2, -⟩ := h [1] (by decide) (by decide)
  obtain ⟨v2, es, a1, a2, a3⟩ := dead_run hr h3 (stackExchange 1 kreq 10 bytes.length (frameOf ⟨1, tid, [1]⟩).bytes)
  rw [b1] at a1; injection a1 with a1; subst a1
  have : tcpAllSubmits es = [] := by
    simp only [tcpAllSubmits, List.filterMap_eq_nil_iff]
    intro e he
    rcases a3 e he with ⟨d, rfl⟩ | rfl <;> rfl
  rw [a2, Tcp.tcpAllSubmits_append, this] at b2
  have := b2.length_le
  simp at this
  omega

/-- C88 (part). If no connection ended in an orderly way, no attempt was started before everything about the earlier connections was over, and
there was no failure of the local socket or of resolving the name: when the client is at rest, and then everything goes well, a submitted
request is transmitted and its answer delivered.
Missing from C88: histories with such failures, orderly closes and left-over events (`C87_violated`, `C86_violated`). -/
theorem C88_exchange_partial (env : StkEnv) (v : Stk) (h : KReach env v)
    (hf : Throughout (fun t op => NoLocalFailure t op ∧ FreshStarts t op ∧ NoEof t op) v) (hs : CEv.tcpShutdown ∉ chLog v.log)
    (hr : AtRest v) (hloc : env.loc v.tcp.nextBuf = .ok) (unit : UInt8) (q : AnyReq) (tmo : Nat) (hq : Allowed q) :
    ∃ tid bytes, IsRequestFrame unit tid q bytes ∧ ∀ pdu : List UInt8, 1 ≤ pdu.length → pdu.length ≤ 253 →
      ∃ v', v.run env (stackExchange unit q tmo bytes.length (frameOf ⟨unit, tid, pdu⟩).bytes) = .ret v' ∧
        tcpAllSubmits (netLog v.log) ++ [bytes] <+: tcpAllSubmits (netLog v'.log) ∧
        CEv.handler v.cli.nextUid (.ok pdu) v.cli.now ∈ chLog v'.log := by
  obtain ⟨a1, a2, a3⟩ := rest_state h (fun x hx => (hf x hx).1) hs hr
  obtain ⟨v1, tid, bytes, b1, b2, b3, b4, b5, b6, -⟩ := Stk.submit_steps v h hs hr.2.2.2 hr.2.2.1 unit q tmo hq
  refine ⟨tid, bytes, b2, fun pdu hp1 hp2 => ?_⟩
  have r1 := Stk.run_reach _ h b1
  rw [hloc] at b3 b4
  obtain ⟨d, hdd⟩ : ∃ d, d = (frameOf ⟨unit, tid, pdu⟩).bytes := ⟨_, rfl⟩
  have hlen : d.length = 7 + pdu.length := by rw [hdd, frame_bytes]; simp [hdr, frameOf]; omega
  have hbne : bytes ≠ [] := by
    obtain ⟨p, -, -, hb⟩ := b2
    rw [hb, frame_bytes]; simp [hdr]
  obtain ⟨t2, t3, t4, t5, t6, t7, t8, e1, s2, l2, s3, l3, s4, l4, s5, l5, s6, l6, s7, l7, s8, l8, hq8⟩ :=
    Tcp.dialogue v.tcp a1 a2 a3 hr.2.1 hr.1 bytes d hbne ⟨by omega, by omega⟩
  rw [← b3] at s2 l2 e1
  obtain ⟨v2, k2, r2, c2, y2, z2⟩ := Stk.quiet_step r1 _ _ (Or.inl ⟨0, .ok, rfl, rfl⟩) s2 l2 (by simp)
  rw [← y2] at s3 l3
  obtain ⟨v3, k3, r3, c3, y3, z3⟩ := Stk.quiet_step r2 _ _ (Or.inr ⟨0, rfl, rfl⟩) s3 l3 (by simp)
  rw [← y3] at s4 l4
  obtain ⟨v4, k4, r4, c4, y4, z4⟩ := Stk.quiet_step r3 _ _ (Or.inl ⟨0, .ok, rfl, rfl⟩) s4 l4 (by simp)
  rw [← y4] at s5 l5
  obtain ⟨v5, k5, r5, c5, y5, z5⟩ := Stk.quiet_step r4 _ _ (Or.inr ⟨0, rfl, rfl⟩) s5 l5 (by simp)
  rw [← y5] at s6 l6
  obtain ⟨v6, k6, r6, c6, y6, z6⟩ := Stk.quiet_step r5 _ _ (Or.inl ⟨0, .sent bytes.length, rfl, rfl⟩) s6 l6 (by simp)
  rw [← y6] at s7 l7
  obtain ⟨v7, k7, r7, c7, y7, z7⟩ := Stk.quiet_step r6 _ _ (Or.inr ⟨0, rfl, rfl⟩) s7 l7 (by simp)
  rw [← y7] at s8 l8
  obtain ⟨v8, k8, r8, c8, y8, z8⟩ := Stk.quiet_step r7 _ _ (Or.inl ⟨0, .data d, rfl, rfl⟩) s8 l8 (by simp)
  rw [← y8] at hq8
  have hch : chLog v8.log = chLog v.log ++ [.call v.cli.nextUid unit q tmo, .sent v.cli.nextUid bytes v.cli.now] := by
    rw [z8, z7, z6, z5, z4, z3, z2]; simp only [chLog_append, chLog_nets]; rw [b5]; simp
  have hnet : netLog v8.log = netLog v.log ++ [.asked bytes] ++ [.attempt (v.tcp.conn + 1), .submit (v.tcp.conn + 1) bytes, .wire (v.tcp.conn + 1) bytes, .writeDone] := by
    rw [r8.proj.micro.net, y8, l8, y7, l7, y6, l6, y5, l5, y4, l4, y3, l3, y2, l2, e1, h.proj.micro.net]; simp
  have hclean : rxChunks (netLog v.log ++ [.asked bytes]) = [] := by
    have ht1 : TcpReach (fun t op => FreshStarts t op ∧ NoEof t op) v1.tcp := by
      rw [b3]
      refine TcpReach.step (op := .send bytes .ok) (tcp_through h (fun x hx => (hf x hx).2)) ⟨?_, by intro i hi; cases hi⟩ rfl
      intro _ _ _ _ _
      refine ⟨?_, ?_⟩
      · rw [hr.2.1]; simp
      · rw [hr.1]; simp
    have := ht1.rx (fun _ _ h => h) (v.tcp.log ++ [.asked bytes]) (v.tcp.conn + 1) [] (by rw [e1]; simp)
    rw [h.proj.micro.net]
    exact (rxDirty_chunks _).1 this
  have hu : v.cli.nextUid ∉ handledUids (chLog v8.log) := by
    rw [hch, handledUids_append]
    have := (h.proj.reach.inv.1.bound v.cli.nextUid (Nat.le_refl _)).1
    rw [← h.proj.cli] at this
    simpa [handledUids] using this
  have hcli : v8.cli.now = v.cli.now := by
    have : v8.cli = v1.cli := by rw [c8, c7, c6, c5, c4, c3, c2]
    rw [this, b6]
  have hrx : rxChunks (netLog v8.log) = [] := by
    rw [hnet, rxChunks_quiet (b := [.attempt (v.tcp.conn + 1), .submit (v.tcp.conn + 1) bytes, .wire (v.tcp.conn + 1) bytes, .writeDone]) (by simp)]
    exact hclean
  obtain ⟨v9, k9, hh⟩ := Stk.run_answer r8 (by rw [hch]; simpa using hs) (u := v.cli.nextUid) (bytes := bytes) (t := v.cli.now) (pdu := pdu) (tmo := tmo) (by rw [hch]; simp) hu
    (by rw [hch]; simp) b2 ⟨hp1, hp2⟩ (d := d) (by intro hd; rw [hd] at hlen; simp at hlen; omega)
    (by rw [hrx, ← hdd]; rfl) hq8
  refine ⟨v9, ?_, ?_, ?_⟩
  · rw [← hdd]
    have : stackExchange unit q tmo bytes.length d = [.chan (.submit unit q tmo), .chan .runTask] ++ [.complete 0 .ok, .run 0, .complete 0 .ok, .run 0,
      .complete 0 (.sent bytes.length), .run 0, .complete 0 (.data d), .run 0] := rfl
    rw [this, Stk.run_append, b1]
    simp only [CM.bind, Stk.run, k2, k3, k4, k5, k6, k7, k8, k9, CM.ret_bind]
  · obtain ⟨tops, ht⟩ := Stk.step_tcp k9
    have hp := Tcp.run_log tops ht
    rw [← r8.proj.micro.net, ← (r8.step k9).proj.micro.net, hnet] at hp
    obtain ⟨es, hp⟩ := hp
    rw [← hp]
    exact ⟨tcpAllSubmits es, by simp [tcpAllSubmits]⟩
  · rw [hcli] at hh; exact hh

example : ∃ v, KReach kenv v ∧ Throughout (fun t op => NoLocalFailure t op ∧ FreshStarts t op ∧ NoEof t op) v ∧
    (decide (CEv.tcpShutdown ∉ chLog v.log) && v.tcp.conn == 1 && v.tcp.queue == [] && v.tcp.flying == [] && decide (v.cli.tasks = []) &&
      waiting v.cli == []) = true := by
  obtain ⟨v, -, h⟩ := kdemo_run (P := fun t op => NoLocalFailure t op ∧ FreshStarts t op ∧ NoEof t op)
    (chk := fun t op => localChk t op && (freshChk t op && noEofChk op)) (fun t op h => by
      simp only [Bool.and_eq_true] at h
      exact ⟨localChk_spec t op h.1, freshChk_spec t op h.2.1, noEofChk_spec t op h.2.2⟩) (env := kenv) (ops := restAgain)
    (Q := fun v => decide (CEv.tcpShutdown ∉ chLog v.log) && v.tcp.conn == 1 && v.tcp.queue == [] && v.tcp.flying == [] && decide (v.cli.tasks = []) &&
      waiting v.cli == []) (by decide +kernel)
  exact ⟨v, h⟩

/-! ### C89 -/

/-- Once the channel's shutdown has been carried out, nothing is given to the network any more. -/
def C89_Statement : Prop := ∀ env v, KReach env v → ∀ pre post, v.log = pre ++ .ch .tcpShutdown :: post → ∀ c d, KEv.net (.submit c d) ∉ post

/-- The channel is shut down just when the connection is established. -/
def lateShutdown : List Stk.Op := ksub ++ [.complete 0 .ok, .run 0, .chan .shutdown, .complete 0 .ok, .chan .runTask, .run 0]

/-- What happens in `lateShutdown` up to the shutdown. -/
def lateShutdownPre : List KEv := [.ch (.call 0 1 kreq 10), .ch (.sent 0 (kframe 0) 0), .net (.asked (kframe 0)), .net (.attempt 1)]

/-- C89 is false: the connection's shutdown is posted behind what is already queued; the handler that is queued before it sends the
request, after its handler was called with "shutdown". -/
theorem C89_violated : ¬C89_Statement := by
  intro hall
  obtain ⟨v, hr, hq⟩ := any_kdemo (env := kenv) (ops := lateShutdown) (Q := fun v =>
    decide (v.log.take 5 = lateShutdownPre ++ [.ch .tcpShutdown] ∧ .net (.submit 1 (kframe 0)) ∈ v.log.drop 5)) (by decide +kernel)
  have hq := of_decide_eq_true hq
  exact hall kenv v hr lateShutdownPre (v.log.drop 5) (by
    have e := List.take_append_drop 5 v.log
    rw [hq.1, List.append_assoc] at e
    exact e.symm) 1 (kframe 0) hq.2

/-- C89 (part). Once the channel's shutdown has been carried out, the channel hands nothing more to the connection and no connection
attempt is begun; and once the connection's own shutdown task has run, which the channel's shutdown queues, nothing at all is given to or
taken from the network any more, whatever happens.
Missing from C89: what is already queued between the two (`C89_violated`). -/
theorem C89_shutdown_partial (env : StkEnv) (v : Stk) (h : KReach env v) :
    (∀ pre post, v.log = pre ++ .ch .tcpShutdown :: post → (∀ d, KEv.net (.asked d) ∉ post) ∧ ∀ c, KEv.net (.attempt c) ∉ post) ∧
    (v.tcp.isShutdown = true → ∀ ops, ∃ v', v.run env ops = .ret v' ∧ netLog v'.log = netLog v.log) := by
  refine ⟨fun pre post hl => h.proj.micro.downQuiet pre post hl, fun hd ops => ?_⟩
  obtain ⟨v', hv⟩ := Stk.run_total (fun t => t.isShutdown = true ∧ Tcp.Quiet t) (fun t op ht => by
    obtain ⟨t', a, b, -⟩ := Tcp.shut_step ht.1 ht.2 op
    exact ⟨t', a, b, ht.2.step op a⟩) ops h ⟨hd, h.proj.micro.tcp.quiet⟩
  obtain ⟨tops, ht⟩ := Stk.run_tcp ops hv
  obtain ⟨t', a1, -, a2, -⟩ := Tcp.shut_run hd h.proj.micro.tcp.quiet tops
  rw [ht] at a1; injection a1 with a1; subst a1
  exact ⟨v', hv, by rw [h.proj.micro.net, (Stk.run_reach ops h hv).proj.micro.net, a2]⟩

theorem queued_down {env : StkEnv} {v : Stk} (h : KReach env v) : CEv.tcpShutdown ∈ chLog v.log → v.tcp.isShutdown = true ∨ TTask.shutdown ∈ v.tcp.queue :=
  h.proj.micro.down_queued

/-- C92. The channel's shutdown always leads to the connection's: it has been carried out, or it is queued and carrying it out
takes effect. -/
theorem C92_shutdown_queued (env : StkEnv) (v : Stk) (h : KReach env v) (hs : CEv.tcpShutdown ∈ chLog v.log) :
    v.tcp.isShutdown = true ∨ ∃ k v', v.step env (.run k) = .ret v' ∧ v'.tcp.isShutdown = true := by
  refine (queued_down h hs).imp id fun hq => ?_
  obtain ⟨k, hk⟩ := List.getElem?_of_mem hq
  have h1 : v.tcp.step (.run k) = .ret ({ v.tcp with queue := v.tcp.queue.eraseIdx k }.runShutdown) := by simp only [Tcp.step, hk]; rfl
  obtain ⟨v', a1, -, -, a2, -⟩ := Stk.quiet_step h _ _ (Or.inr ⟨k, rfl, rfl⟩) h1 (new := []) (by simp [Tcp.runShutdown, Tcp.abortAll]) (by simp)
  exact ⟨k, v', a1, by rw [a2]; rfl⟩

/-- C92. Shutting a channel down winds its connection down: from then on no frame is handed over and no connection attempt is begun, and
one task, which has been carried out or is queued, ends all activity on the network for good, whatever happens afterwards. -/
theorem C92_winds_down (env : StkEnv) (v : Stk) (h : KReach env v) (pre post : List KEv) (hl : v.log = pre ++ .ch .tcpShutdown :: post) :
    (∀ d, KEv.net (.asked d) ∉ post) ∧ (∀ c, KEv.net (.attempt c) ∉ post) ∧
      ∃ first, first.length ≤ 1 ∧ ∃ v', v.run env first = .ret v' ∧ ∀ ops, ∃ v'', v'.run env ops = .ret v'' ∧ netLog v''.log = netLog v'.log := by
  have h0 := (C89_shutdown_partial env v h).1 pre post hl
  refine ⟨h0.1, h0.2, ?_⟩
  rcases C92_shutdown_queued env v h (by rw [hl]; simp [chLog]) with hd | ⟨k, v', h1, h2⟩
  · exact ⟨[], by simp, v, rfl, (C89_shutdown_partial env v h).2 hd⟩
  · exact ⟨[.run k], by simp, v', by simp [Stk.run, h1], (C89_shutdown_partial env v' (.step h h1)).2 h2⟩

example : ∃ v, KReach kenv v ∧ (decide (v.log.take 5 = lateShutdownPre ++ [.ch .tcpShutdown]) && !v.tcp.isShutdown) = true :=
  any_kdemo (ops := lateShutdown) (by decide +kernel)

example : ∃ v, KReach kenv v ∧ (v.tcp.isShutdown && v.tcp.flying == [] && v.tcp.queue == [.written 1 false, .read 1 .error]) = true :=
  any_kdemo (ops := lateShutdown ++ [.run 0]) (by decide +kernel)

/-! ### C90 -/

/-- A request is answered only by bytes that were received after its frame had been given to the network, on the same connection. -/
def C90_Statement : Prop := ∀ env v, KReach env v → ∀ pre u pdu now post, v.log = pre ++ .ch (.handler u (.ok pdu) now) :: post →
  ∃ c b n x1 d x2, CEv.sent u b n ∈ chLog pre ∧ pre = x1 ++ .net (.receive c d) :: x2 ∧ (∀ c' d', KEv.net (.receive c' d') ∉ x2) ∧ KEv.net (.submit c b) ∈ x1

/-- A server that answers the first request and, in the same packet, a second one it has not received yet. -/
def earlyAnswer : List Stk.Op := [.chan (.submit 1 kreq 10)] ++ ksub ++ [.chan .runTask] ++ kcon ++
  [.complete 0 (.sent 12), .run 0, .complete 0 (.data (kframe 0 ++ kframe 1)), .run 0]

/-- What happens in `earlyAnswer` before the packet. -/
def earlyPre : List KEv := [.ch (.call 0 1 kreq 10), .ch (.call 1 1 kreq 10), .ch (.sent 0 (kframe 0) 0), .net (.asked (kframe 0)), .net (.attempt 1),
  .net (.submit 1 (kframe 0)), .net (.wire 1 (kframe 0)), .net .writeDone]

/-- And after it, up to the second answer. -/
def earlyMid : List KEv := [.ch (.data (kframe 0 ++ kframe 1)), .ch (.mbap ⟨1, 0, [5, 0, 5, 255, 0]⟩), .ch (.handler 0 (.ok [5, 0, 5, 255, 0]) 0),
  .ch (.sent 1 (kframe 1) 0), .net (.asked (kframe 1)), .net (.submit 1 (kframe 1)), .ch (.mbap ⟨1, 1, [5, 0, 5, 255, 0]⟩)]

/-- C90 is false: the rest of a packet that was received earlier answers a request that is only sent while the packet is processed. -/
theorem C90_violated : ¬C90_Statement := by
  intro hall
  obtain ⟨v, hr, hq⟩ := any_kdemo (env := kenv) (ops := earlyAnswer) (Q := fun v =>
    decide (v.log = (earlyPre ++ .net (.receive 1 (kframe 0 ++ kframe 1)) :: earlyMid) ++ [.ch (.handler 1 (.ok [5, 0, 5, 255, 0]) 0)])) (by decide +kernel)
  have hq := of_decide_eq_true hq
  obtain ⟨c, b, n, x1, d, x2, h1, h2, h3, h4⟩ := hall kenv v hr _ 1 [5, 0, 5, 255, 0] 0 [] hq
  have hb : b = kframe 1 := by
    have : chLog (earlyPre ++ .net (.receive 1 (kframe 0 ++ kframe 1)) :: earlyMid) = [.call 0 1 kreq 10, .call 1 1 kreq 10, .sent 0 (kframe 0) 0,
      .data (kframe 0 ++ kframe 1), .mbap ⟨1, 0, [5, 0, 5, 255, 0]⟩, .handler 0 (.ok [5, 0, 5, 255, 0]) 0, .sent 1 (kframe 1) 0,
      .mbap ⟨1, 1, [5, 0, 5, 255, 0]⟩] := rfl
    rw [this] at h1
    simp at h1
    exact h1.1
  have hx : x1 = earlyPre := by
    rcases List.append_eq_append_iff.1 h2 with ⟨m, e1, e2⟩ | ⟨m, e1, e2⟩
    · cases m with
      | nil => simpa using e1
      | cons y m =>
        rw [List.cons_append] at e2
        injection e2 with _ e2
        have : KEv.net (.receive c d) ∈ earlyMid := by rw [e2]; simp
        simp [earlyMid] at this
    · cases m with
      | nil => simpa using e1.symm
      | cons y m =>
        rw [List.cons_append] at e2
        injection e2 with _ e2
        exact absurd (by rw [e2]; simp) (h3 1 (kframe 0 ++ kframe 1))
  rw [hx, hb] at h4
  revert h4
  simp [earlyPre, kframe]

/-- C90 (part). If no connection attempt is started before everything about the earlier connections is over: when a request is answered,
its frame has been given to the network before, on the very connection from which the bytes being processed were received.
Missing from C90: that the frame was given to the network before those bytes were received (`C90_violated`), and left-over events. -/
theorem C90_answers_transmitted_partial (env : StkEnv) (v : Stk) (h : KReach env v) (hf : Throughout FreshStarts v) (pre : List KEv) (u : Nat)
    (pdu : List UInt8) (now : Nat) (post : List KEv) (hl : v.log = pre ++ .ch (.handler u (.ok pdu) now) :: post) :
    ∃ c b n x1 d x2, CEv.sent u b n ∈ chLog pre ∧ pre = x1 ++ .net (.receive c d) :: x2 ∧ (∀ c' d', KEv.net (.receive c' d') ∉ x2) ∧
      KEv.net (.submit c b) ∈ pre := by
  obtain ⟨c, b, n, x1, d, x2, h1, h2, h3, h4⟩ := h.proj.micro.answered hf pre u pdu now post hl
  exact ⟨c, b, n, x1, d, x2, h1, h3, h4, h2⟩

example : ∃ v, KReach kenv v ∧ Throughout FreshStarts v ∧
    decide (v.log = (earlyPre ++ .net (.receive 1 (kframe 0 ++ kframe 1)) :: earlyMid) ++ [.ch (.handler 1 (.ok [5, 0, 5, 255, 0]) 0)]) = true :=
  fresh_kdemo (ops := earlyAnswer) (by decide +kernel)

end Modbus.Props
