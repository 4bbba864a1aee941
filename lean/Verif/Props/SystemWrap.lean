import Verif.Props.SystemDb

/-!
Transaction ids repeat after 65536 requests: a late answer may be taken for the answer to another request.
-/

namespace Modbus.Props

open Spec

namespace Wrap

/-- The first request, the others, and the first one's bytes. -/
def readThree : AnyReq := ⟨.readHoldingRegisters, ⟨3, 1⟩⟩
def readFour : AnyReq := ⟨.readHoldingRegisters, ⟨4, 1⟩⟩
def frame0 : List UInt8 := [0, 0, 0, 0, 0, 6, 1, 3, 0, 3, 0, 1]

/-- The server, which nothing has reached yet. -/
def srv0 : Srv UInt16 :=
  { isShutdown := false, isStarted := false, sessions := [(1, 7)], tasks := [], listeners := [(0, Parser.init .reject (Vector.replicate 260 0).toList)],
    world := 0, nsend := 0, log := [] }

/-- A new parser. -/
def parser0 : Parser := Parser.init .reject (Vector.replicate 260 0).toList

/-- The client after `n` requests that all timed out at once. -/
def cli (n : Nat) (log : List CEv) (armed : List (Nat × Nat)) (fired : List Nat) (current : Option PendingReq) (timer : Option Nat) : Cli :=
  { isShutdown := false, sessions := [], parser := parser0, pending := [], current := current,
    timer := timer, nextTid := UInt16.ofNat n, tasks := [], armed := armed, fired := fired, now := 0, nextTimer := n, nextUid := n,
    nextSession := 0, nsend := n, log := log }

/-- The bytes of request number `n`. -/
def bytesOf (n : Nat) (q : AnyReq) : List UInt8 := buildMbap 1 (UInt16.ofNat n) (reqMsg q.1 q.2) ⟨[], (Vector.replicate 260 0).toList⟩

/-- The client in some state, and nothing sent has reached the server. -/
structure Mid (c : Cli) (up : List UInt8) (v : Sys UInt16) : Prop where
  reach : XReach sysDemoEnv 0 v
  cli : v.cli = c
  srv : v.srv = srv0
  conn : v.conn = 0
  up : v.up 0 = up
  down : v.down 0 = []

theorem Mid.step {c c' : Cli} {up : List UInt8} {v : Sys UInt16} (h : Mid c up v) (op : Cli.Op) (ho : Sys.ownClient op = true)
    (hs : c.step demoEnv op = .ret c') (new : List CEv) (hl : c'.log = c.log ++ new) : ∃ v', Mid c' (up ++ Sys.sentBytes new) v' := by
  have hc := h.cli
  have hr : v.run sysDemoEnv [.client op] = .ret { v with
      cli := c'
      up := fun i => if i = v.conn then v.up i ++ Sys.sentBytes new else v.up i
      log := v.log ++ new.map (.cli v.conn) } := by
    have hs' : v.cli.step sysDemoEnv.client op = .ret c' := by rw [hc]; exact hs
    simp only [Sys.run, Sys.step, ho, if_true, Sys.clientStep, hs', CM.ret_bind, CM.pure_eq]
    rw [hl, hc, List.drop_left]
  exact ⟨_, h.reach.run hr, rfl, h.srv, h.conn, by simp only [h.conn, if_true, h.up], h.down⟩

theorem Mid.asked {n : Nat} {log : List CEv} {timer : Option Nat} {up : List UInt8} {v : Sys UInt16} (h : Mid (Wrap.cli n log [] [] none timer) up v)
    (q : AnyReq) (hq : isValid q.1 q.2 = true) :
    ∃ v', Mid { Wrap.cli (n + 1) (log ++ [.call n 1 q 0] ++ [.sent n (bytesOf n q) 0]) [(n, 0)] [] (some ⟨n, 1, UInt16.ofNat n, q, 0⟩) (some n) with
      nextTid := UInt16.ofNat n + 1 } (up ++ bytesOf n q) v' := by
  obtain ⟨v1, h1⟩ := h.step (.submit 1 q 0) rfl (c' := { Wrap.cli n (log ++ [.call n 1 q 0]) [] [] none timer with
    nextUid := n + 1, tasks := [.request n 1 q 0] }) (by simp [Cli.step, Wrap.cli, hq, Cli.emit]) [.call n 1 q 0] rfl
  obtain ⟨v2, h2⟩ := h1.step .runTask rfl (c' := { Wrap.cli (n + 1) (log ++ [.call n 1 q 0] ++ [.sent n (bytesOf n q) 0]) [(n, 0)] []
    (some ⟨n, 1, UInt16.ofNat n, q, 0⟩) (some n) with nextTid := UInt16.ofNat n + 1 }) rfl [.sent n (bytesOf n q) 0] rfl
  exact ⟨v2, by simpa [Sys.sentBytes] using h2⟩

theorem Mid.round {n : Nat} {log : List CEv} {timer : Option Nat} {up : List UInt8} {v : Sys UInt16} (h : Mid (Wrap.cli n log [] [] none timer) up v)
    (q : AnyReq) (hq : isValid q.1 q.2 = true) :
    ∃ log' timer' v', Mid (Wrap.cli (n + 1) log' [] [] none timer') (up ++ bytesOf n q) v' := by
  obtain ⟨v1, h1⟩ := h.asked q hq
  have ht : UInt16.ofNat n + 1 = UInt16.ofNat (n + 1) := by simp
  rw [ht] at h1
  obtain ⟨v2, h2⟩ := h1.step (.expire n) rfl (c' := Wrap.cli (n + 1) (log ++ [.call n 1 q 0] ++ [.sent n (bytesOf n q) 0]) [] [n]
    (some ⟨n, 1, UInt16.ofNat n, q, 0⟩) (some n)) (by simp [Cli.step, Wrap.cli]) [] (by simp [Wrap.cli])
  obtain ⟨v3, h3⟩ := h2.step (.runTimer n) rfl (c' := Wrap.cli (n + 1) (log ++ [.call n 1 q 0] ++ [.sent n (bytesOf n q) 0] ++
    [.handler n (.error .timeout) 0]) [] [] none (some n))
    (by simp [Cli.step, Wrap.cli, Cli.onTimer, Cli.emit, Cli.cancelCurrent, Cli.cancelTimer, Cli.checkPending]) [.handler n (.error .timeout) 0]
    (by simp [Wrap.cli])
  exact ⟨_, _, v3, by simpa [Sys.sentBytes] using h3⟩

/-- Any number of requests can time out. -/
theorem many (n : Nat) : ∃ log timer up v, Mid (Wrap.cli (n + 1) log [] [] none timer) (frame0 ++ up) v := by
  induction n with
  | zero =>
    have h0 : ∃ v, Mid (Wrap.cli 0 [] [] [] none none) [] v :=
      ⟨{ Sys.init sysDemoEnv 0 (Vector.replicate 260 0) with srv := srv0 }, ⟨Vector.replicate 260 0, [.server (.addSession 1 7), .server .runTask], rfl⟩,
        rfl, rfl, rfl, rfl, rfl⟩
    obtain ⟨v, hv⟩ := h0
    obtain ⟨log, timer, v', h⟩ := hv.round readThree rfl
    exact ⟨log, timer, [], v', by rw [List.append_nil]; exact h⟩
  | succ n ih =>
    obtain ⟨log, timer, up, v, h⟩ := ih
    obtain ⟨log', timer', v', h'⟩ := h.round readFour rfl
    exact ⟨log', timer', _, v', by rw [← List.append_assoc]; exact h'⟩

/-- The server's answer to the first request. -/
def reply0 : List UInt8 := [0, 0, 0, 0, 0, 5, 1, 3, 2, 0, 0]

/-- The server's log afterwards. -/
def log1 : List SEv := [.mbap 0 ⟨1, 0, [3, 0, 3, 0, 1]⟩, .request 7 .readHoldingRegisters ⟨3, 1⟩, .send 0 reply0]

theorem served : ∃ s, srv0.step oneRegister (.receive 0 frame0) = .ret s ∧ s.log = log1 := by
  have h : (match srv0.step oneRegister (.receive 0 frame0) with
    | .ub => none
    | .ret s => some s.log) = some log1 := by decide +kernel
  cases hs : srv0.step oneRegister (.receive 0 frame0) with
  | ub => rw [hs] at h; cases h
  | ret s => rw [hs] at h; exact ⟨s, rfl, by simpa using h⟩

theorem heard : ∃ p, parser0.parse reply0 = .ret (p, [⟨1, 0, [3, 2, 0, 0]⟩]) := by
  have h : (match parser0.parse reply0 with
    | .ub => none
    | .ret x => some x.2) = some [⟨1, 0, [3, 2, 0, 0]⟩] := by decide +kernel
  cases hs : parser0.parse reply0 with
  | ub => rw [hs] at h; cases h
  | ret x => rw [hs] at h; exact ⟨x.1, by cases x; simp at h; rw [h]⟩

end Wrap

open Wrap in
/-- A late answer taken for another: request number 65536 reads register 4, the only request the server has executed reads register 3,
and the handler of number 65536 is given its answer, which decodes as the value of register 4. -/
theorem C77_late_answer_taken : ∃ v, XReach sysDemoEnv 0 v ∧ CEv.call 65536 1 ⟨.readHoldingRegisters, ⟨4, 1⟩⟩ 0 ∈ cliLog v.log ∧
    executed v.log = [⟨.readHoldingRegisters, ⟨3, 1⟩⟩] ∧ CEv.handler 65536 (.ok [3, 2, 0, 0]) 0 ∈ cliLog v.log ∧
    typedResult .readHoldingRegisters ⟨4, 1⟩ (.ok [3, 2, 0, 0]) = .ret (.ok [⟨4, 0⟩]) := by
  obtain ⟨log, timer, up, v0, h0⟩ := many 65535
  obtain ⟨v, h⟩ := h0.asked readFour rfl
  obtain ⟨s, hs1, hs2⟩ := served
  obtain ⟨p, hp⟩ := heard
  -- the first request arrives
  have hrun : v.run sysDemoEnv [.arrive 0 12] = .ret { v with
      srv := s
      up := fun j => if j = 0 then (v.up 0).drop 12 else v.up j
      down := fun i => v.down i ++ Sys.repliedBytes (2 * i) log1
      log := v.log ++ log1.map .srv } := by
    have e1 : (v.up 0).take 12 = frame0 := by rw [h.up]; rfl
    have e2 : v.srv.step sysDemoEnv.server (.receive (2 * 0) ((v.up 0).take 12)) = .ret s := by rw [e1, h.srv]; exact hs1
    simp only [Sys.run, Sys.step, Sys.serverStep, e2, CM.ret_bind, CM.pure_eq]
    rw [hs2, h.srv]
    rfl
  have hr1 := h.reach.run hrun
  generalize hv1 : ({ v with
      srv := s
      up := fun j => if j = 0 then (v.up 0).drop 12 else v.up j
      down := fun i => v.down i ++ Sys.repliedBytes (2 * i) log1
      log := v.log ++ log1.map .srv } : Sys UInt16) = v1 at hr1
  have c1 : v1.cli = v.cli := by rw [← hv1]
  have c2 : v1.down v1.conn = reply0 := by
    rw [← hv1]
    show v.down v.conn ++ _ = _
    rw [h.conn, h.down]
    rfl
  have c3 : v1.srv.log = log1 := by rw [← hv1]; exact hs2
  -- its answer reaches the client
  obtain ⟨v2, hr2, hi2⟩ : ∃ v2, v1.run sysDemoEnv [.hear 100] = .ret v2 ∧ v2.srv = v1.srv ∧
      ∃ l, v2.cli.log = v.cli.log ++ l ∧ CEv.handler 65536 (.ok [3, 2, 0, 0]) 0 ∈ l := by
    have e1 : (v1.down v1.conn).take 100 = reply0 := by rw [c2]; rfl
    have e2 : ∃ c, v1.cli.step sysDemoEnv.client (.receive ((v1.down v1.conn).take 100)) = .ret c ∧
        ∃ l, c.log = v.cli.log ++ l ∧ CEv.handler 65536 (.ok [3, 2, 0, 0]) 0 ∈ l := by
      rw [e1, c1, h.cli]
      refine ⟨_, by simp only [Cli.step, Cli.onReceive, Cli.emit, Wrap.cli, Bool.false_eq_true, if_false, hp, CM.ret_bind, CM.pure_eq]; rfl, ?_⟩
      refine ⟨[.data reply0, .mbap ⟨1, 0, [3, 2, 0, 0]⟩, .handler 65536 (.ok [3, 2, 0, 0]) 0], ?_, by simp⟩
      simp [Cli.onMbaps, Cli.onMbap, Cli.emit, Cli.cancelTimer, Cli.checkPending, Wrap.cli]
    obtain ⟨c, g1, l, g2, g3⟩ := e2
    refine ⟨{ v1 with
      cli := c
      up := fun i => if i = v1.conn then v1.up i ++ Sys.sentBytes (c.log.drop v1.cli.log.length) else v1.up i
      down := fun j => if j = v1.conn then (v1.down v1.conn).drop 100 else v1.down j
      log := v1.log ++ (c.log.drop v1.cli.log.length).map (.cli v1.conn) },
      by simp only [Sys.run, Sys.step, Sys.clientStep, g1, CM.ret_bind, CM.pure_eq], rfl, l, g2, g3⟩
  obtain ⟨e1, l, e2, e3⟩ := hi2
  have hr3 := hr1.run hr2
  refine ⟨v2, hr3, ?_, ?_, ?_, by decide +kernel⟩
  · rw [hr3.inv.cliLog, e2, h.cli]
    simp [Wrap.cli, readFour]
  · have : executed v2.log = (srvLog v2.log).filterMap fun e => match e with
        | .request _ k q => some (⟨k, q⟩ : AnyReq)
        | _ => none := by
      simp only [executed, srvLog, List.filterMap_filterMap]
      congr 1
      funext e
      cases e with
      | cli i e => rfl
      | srv e => cases e <;> rfl
    rw [this, hr3.inv.srvLog, e1, c3]
    rfl
  · rw [hr3.inv.cliLog, e2]
    exact List.mem_append_right _ e3

/-- **C77** does not hold in general: after 65536 requests on one connection, transaction ids repeat. -/
theorem C77_violated : ¬ C77_Statement := by
  intro hall
  obtain ⟨v, hr, hcall, hex, hh, -⟩ := C77_late_answer_taken
  obtain ⟨i, hm⟩ := mem_cliLog.1 hh
  obtain ⟨past, future, he⟩ := List.append_of_mem hm
  obtain ⟨before, between, m, s, k, q, tmo, h1, -, h3, -⟩ := hall UInt16 sysDemoEnv 0 v hr past future i 65536 _ 0 he
  have hq : (⟨k, q⟩ : AnyReq) ∈ executed v.log := by
    rw [he, h1]; simp [executed]
  rw [hex, List.mem_singleton] at hq
  rw [hq] at h3
  have hc3 : CEv.call 65536 m.unit ⟨.readHoldingRegisters, ⟨3, 1⟩⟩ tmo ∈ cliLog v.log := by
    rw [he, h1, cliLog_append, cliLog_append]; exact List.mem_append_left _ (List.mem_append_left _ h3)
  rw [hr.inv.cliLog] at hcall hc3
  have := (Cli.calls_unique hr.inv.creach.inv.1 hcall hc3).2.1
  revert this
  decide +kernel

end Modbus.Props
