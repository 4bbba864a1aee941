import Verif.Spec.ConnLogging
import Verif.Props.Logging
import Verif.Props.Reading

/-! C122 (which lines are shown) and C131 (what the connections write). -/

namespace Modbus.Props

open Spec

/-! ### C122 -/

theorem shows_client (level : LogLevel) (l : CLine) : admits level l.level = shows level (CLine.weight l) := by cases level <;> cases l <;> rfl
theorem shows_conn (level : LogLevel) (l : TLine) : admits level l.level = shows level (TLine.weight l) := by cases level <;> cases l <;> rfl
theorem shows_server (level : LogLevel) (l : SLine) : admits level l.level = shows level (SLine.weight l) := by cases level <;> cases l <;> rfl
theorem shows_served (level : LogLevel) (l : ALine) : admits level l.level = shows level (ALine.weight l) := by cases level <;> cases l <;> rfl

/-- C122. Which lines a client channel shows: at level error only failures, at level warning also what is odd (timeouts, unexpected messages), at level info
everything but the numbers of bytes, at lower levels everything; at level critical nothing. -/
theorem C122_client_shows (pre post : List Logs.Op) (m i : Nat) (g : SpdLogger) (name : String) (level : LogLevel)
    (hm : (Logs.init.run pre).mgrs[m]? = some i) (hg : (Logs.init.run pre).heap[i]? = some g) (hs : g.sinks ≠ []) (v : Logs)
    (hv : v = Logs.init.run (pre ++ .client m name level :: post)) (c : Nat) (hc : c = (Logs.init.run pre).chans.length) :
    (∀ l : CLine, (v.step (.write c (.channel l))).out ≠ v.out ↔ shows level (CLine.weight l) = true) ∧
    (∀ l : TLine, (v.step (.write c (.connection l))).out ≠ v.out ↔ shows level (TLine.weight l) = true) := by
  obtain ⟨h1, h2⟩ := C122_client_level pre post m i g name level hm hg v hv c hc
  constructor
  · intro l
    rw [h1 l, ← shows_client]
    cases admits level l.level <;> simp [hs]
  · intro l
    rw [h2 l, ← shows_conn]
    cases admits level l.level <;> simp [hs]

/-- C122. Which lines a server channel shows: at level error only failures, at level warning also what is wrong with messages, at level info everything but the
numbers of bytes, at lower levels everything; at level critical nothing. -/
theorem C122_server_shows (pre post : List Logs.Op) (m i : Nat) (g : SpdLogger) (name : String) (level : LogLevel)
    (hm : (Logs.init.run pre).mgrs[m]? = some i) (hg : (Logs.init.run pre).heap[i]? = some g) (hs : g.sinks ≠ []) (v : Logs)
    (hv : v = Logs.init.run (pre ++ .server m name level :: post)) (c : Nat) (hc : c = (Logs.init.run pre).chans.length) :
    (∀ l : SLine, (v.step (.write c (.server l))).out ≠ v.out ↔ shows level (SLine.weight l) = true) ∧
    (∀ l : ALine, (v.step (.write c (.served l))).out ≠ v.out ↔ shows level (ALine.weight l) = true) := by
  obtain ⟨h1, h2⟩ := C122_server_level pre post m i g name level hm hg v hv c hc
  constructor
  · intro l
    rw [h1 l, ← shows_server]
    cases admits level l.level <;> simp [hs]
  · intro l
    rw [h2 l, ← shows_served]
    cases admits level l.level <;> simp [hs]

example : (Logs.init.run logOps).mgrs[0]? = some 0 ∧ (Logs.init.run logOps).heap[0]? = some ⟨"app", .warn, [7, 8], true⟩ := by decide +kernel

/-! ### C131: a client's connection -/

theorem tcp_step_account {v v' : Tcp} {op : Tcp.Op} (hs : v.step op = .ret v') :
    ∃ es, v'.log = v.log ++ es ∧ (v.stepLines op).filter TLine.reports = es.flatMap tcpAccount := by
  cases op with
  | send data loc =>
    injection hs with hs; subst hs
    cases hd : v.isShutdown with
    | true => exact ⟨[], by simp [Tcp.send, hd], by simp [Tcp.stepLines, Tcp.sendLines, hd]⟩
    | false =>
      cases hst : v.status with
      | notConnected =>
        by_cases hg : v.isOpen = true ∨ loc ≠ .ok
        · obtain ⟨o, h1, -⟩ := Tcp.send_gaveUp hd hst data loc hg
          refine ⟨[.asked data, .gaveUp], by rw [h1]; simp [Tcp.ask, Tcp.emit], ?_⟩
          have : v.sendLines loc = [.establishing, .localError] := by
            simp only [Tcp.sendLines, hd, hst]
            rcases hg with hg | hg
            · cases loc <;> simp [hg]
            · cases loc <;> simp_all
          simp only [Tcp.stepLines, this]
          rfl
        · simp only [not_or, not_not, Bool.not_eq_true] at hg
          obtain ⟨ho, rfl⟩ := hg
          rw [Tcp.send_start hd hst ho]
          exact ⟨[.asked data, .attempt (v.conn + 1)], by simp [Tcp.ask, Tcp.emit], by simp [Tcp.stepLines, Tcp.sendLines, hd, hst, ho, TLine.reports, tcpAccount]⟩
      | connecting =>
        rw [Tcp.send_connecting hd hst]
        exact ⟨[.asked data], by simp [Tcp.ask, Tcp.emit], by simp [Tcp.stepLines, Tcp.sendLines, hd, hst, tcpAccount]⟩
      | connected =>
        rw [Tcp.send_connected hd hst, Tcp.sendBuffer_log (by exact hd)]
        exact ⟨[.asked data, .submit v.conn data], by simp [Tcp.ask, Tcp.emit], by simp [Tcp.stepLines, Tcp.sendLines, hd, hst, tcpAccount]⟩
  | shutdown => injection hs with hs; subst hs; exact ⟨[], by simp [Tcp.post], rfl⟩
  | complete i r =>
    simp only [Tcp.step, Tcp.complete] at hs
    have key : ∀ u : Tcp, u.log = v.log → ∃ es, u.log = v.log ++ es ∧ (v.stepLines (.complete i r)).filter TLine.reports = es.flatMap tcpAccount :=
      fun u hu => ⟨[], by simp [hu], rfl⟩
    split at hs
    · injection hs with hs; subst hs; exact key _ rfl
    · split at hs <;> (injection hs with hs; subst hs; exact key _ rfl)
    · split at hs <;> (injection hs with hs; subst hs; exact key _ rfl)
    · split at hs
      · split at hs <;> (injection hs with hs; subst hs; exact key _ rfl)
      all_goals (injection hs with hs; subst hs; exact key _ rfl)
    · rename_i c b data _
      split at hs
      · rename_i n
        split at hs
        · split at hs
          · injection hs with hs; subst hs; exact ⟨[.wire c (data.take n)], rfl, rfl⟩
          · cases hs
        · injection hs with hs; subst hs; exact key _ rfl
      · injection hs with hs; subst hs; exact key _ rfl
      · injection hs with hs; subst hs; exact key _ rfl
  | run k =>
    simp only [Tcp.step] at hs
    simp only [Tcp.stepLines]
    cases hk : v.queue[k]? with
    | none => rw [hk] at hs; injection hs with hs; subst hs; exact ⟨[], by simp, rfl⟩
    | some t =>
      rw [hk] at hs
      injection hs with hs; subst hs
      cases t with
      | close c =>
        cases hd : v.isShutdown with
        | true => exact ⟨[], by simp [Tcp.runTask, Tcp.runClose, hd], by simp [Tcp.taskLines, hd]⟩
        | false =>
          simp only [Tcp.runTask]
          cases ho : v.isOpen with
          | true => rw [Tcp.runClose_open (by first | rfl | exact hd) (by first | rfl | exact ho)]; exact ⟨[.closed c v.conn], rfl, by simp [Tcp.taskLines, hd, ho, TLine.reports, tcpAccount]⟩
          | false => rw [Tcp.runClose_closed (by first | rfl | exact hd) (by first | rfl | exact ho)]; exact ⟨[.closed c v.conn], rfl, by simp [Tcp.taskLines, hd, ho, tcpAccount]⟩
      | shutdown => exact ⟨[], by simp [Tcp.runTask, Tcp.runShutdown, Tcp.abortAll], rfl⟩
      | resolved c ok =>
        simp only [Tcp.runTask, Tcp.onResolved, Tcp.taskLines]
        split
        · exact ⟨[], by simp, rfl⟩
        · rename_i hd
          split
          · exact ⟨[], by simp [Tcp.abortAll], rfl⟩
          · simp only [Tcp.sendError, if_neg hd]
            exact ⟨[.error c v.conn], rfl, rfl⟩
      | connected c ok =>
        simp only [Tcp.runTask, Tcp.onConnected, Tcp.taskLines]
        split
        · exact ⟨[], by simp, rfl⟩
        · rename_i hd
          split
          · have h2 : ∀ u : Tcp, u.beginRead.log = u.log := fun u => by unfold Tcp.beginRead; repeat' split
                                                                        all_goals rfl
            rw [h2, Tcp.sendBuffer_log (by simpa using hd)]
            refine ⟨_, rfl, ?_⟩
            show [] = _
            cases v.wbuf <;> rfl
          · simp only [Tcp.sendError, Tcp.close, if_neg hd]
            exact ⟨[.error c v.conn], by simp [Tcp.post, Tcp.emit, hd], rfl⟩
      | read c r =>
        simp only [Tcp.runTask, Tcp.onRead, Tcp.taskLines]
        split
        · exact ⟨[], by simp, rfl⟩
        · rename_i hd
          cases r with
          | eof => exact ⟨[], by simp [Tcp.close, Tcp.post, hd], rfl⟩
          | error =>
            simp only [Tcp.sendError, Tcp.close, if_neg hd]
            exact ⟨[.error c v.conn], by simp [Tcp.post, Tcp.emit, hd], rfl⟩
          | data bs => exact ⟨[.receive c bs], rfl, rfl⟩
          | again => exact ⟨[], by simp only [Tcp.beginRead, List.append_nil]; repeat' split
                                   all_goals rfl, rfl⟩
      | written c ok =>
        simp only [Tcp.runTask, Tcp.onWritten, Tcp.taskLines]
        split
        · exact ⟨[], by simp, rfl⟩
        · rename_i hd
          split
          · exact ⟨[.writeDone], rfl, rfl⟩
          · simp only [Tcp.sendError, Tcp.close, if_neg hd]
            exact ⟨[.error c v.conn], by simp [Tcp.post, Tcp.emit, hd], rfl⟩

theorem tcp_runLines_account (ops : List Tcp.Op) : ∀ (v v' : Tcp) (ls : List TLine), v.runLines ops = .ret (v', ls) →
    ∃ es, v'.log = v.log ++ es ∧ ls.filter TLine.reports = es.flatMap tcpAccount := by
  induction ops with
  | nil =>
    intro v v' ls h
    injection h with h
    injection h with h1 h2
    subst h1; subst h2
    exact ⟨[], by simp, rfl⟩
  | cons op ops ih =>
    intro v v' ls h
    simp only [Tcp.runLines] at h
    cases hs : v.step op with
    | ub => rw [hs] at h; cases h
    | ret u =>
      rw [hs] at h
      simp only [CM.ret_bind] at h
      cases hr : u.runLines ops with
      | ub => rw [hr] at h; cases h
      | ret p =>
        obtain ⟨u', ls'⟩ := p
        rw [hr] at h
        simp only [CM.ret_bind] at h
        injection h with h
        injection h with h1 h2
        subst h1; subst h2
        obtain ⟨e1, a1, a2⟩ := tcp_step_account hs
        obtain ⟨e2, b1, b2⟩ := ih u u' ls' hr
        exact ⟨e1 ++ e2, by rw [b1, a1, List.append_assoc], by rw [List.filter_append, List.flatMap_append, a2, b2]⟩

/-- C131, clients. In every history, a client's connection writes exactly one line for every attempt to connect, every chunk received (with its length), every
completed write and every failure reported to the channel, in the order in which these happen, and a second one if an attempt cannot even be started; apart from
these it writes only that a connection is established, ended by the peer, or being closed. -/
theorem C131_client_lines (ops : List Tcp.Op) (v : Tcp) (ls : List TLine) (h : Tcp.init.runLines ops = .ret (v, ls)) :
    ls.filter TLine.reports = v.log.flatMap tcpAccount := by
  obtain ⟨es, h1, h2⟩ := tcp_runLines_account ops _ _ _ h
  rw [h2, h1]
  rfl

example : (match Tcp.init.runLines twoConnections with
    | .ub => false
    | .ret (_, ls) => ls == [.establishing, .established, .sent, .bytes 3, .error, .closing, .establishing, .established, .sent, .bytes 1]) = true := by decide +kernel

/-- C131, clients. "Closing connection" is written exactly when an open socket is closed; "connection established" is written whenever the client becomes
connected, and only then or when it is connected anew; "closed by peer" only if the connection is going to be closed; and nothing at all is written once a shutdown
has taken effect. -/
theorem C131_client_state_lines (v v' : Tcp) (op : Tcp.Op) (hs : v.step op = .ret v') :
    (TLine.closing ∈ v.stepLines op ↔ v.isOpen = true ∧ v'.isOpen = false) ∧
    (v.status ≠ .connected → v'.status = .connected → TLine.established ∈ v.stepLines op) ∧
    (TLine.established ∈ v.stepLines op → v'.status = .connected) ∧
    (TLine.eof ∈ v.stepLines op → ∃ c, TTask.close c ∈ v'.queue) ∧
    (v.isShutdown = true → v.stepLines op = []) := by
  cases op with
  | send data loc =>
    injection hs with hs; subst hs
    cases hd : v.isShutdown with
    | true => simp [Tcp.send, Tcp.stepLines, Tcp.sendLines, hd]
    | false =>
      have hl : TLine.closing ∉ v.sendLines loc ∧ TLine.established ∉ v.sendLines loc ∧ TLine.eof ∉ v.sendLines loc := by
        unfold Tcp.sendLines
        repeat' split
        all_goals simp
      simp only [Tcp.stepLines, hl, false_iff, false_implies, not_and, Bool.not_eq_false, true_and, Bool.false_eq_true, implies_true, and_true]
      cases hst : v.status with
      | notConnected =>
        by_cases hg : v.isOpen = true ∨ loc ≠ .ok
        · obtain ⟨o, h1, h2⟩ := Tcp.send_gaveUp hd hst data loc hg
          rw [h1]
          exact ⟨h2, by simp [Tcp.ask, Tcp.emit, hst]⟩
        · simp only [not_or, not_not, Bool.not_eq_true] at hg
          obtain ⟨ho, rfl⟩ := hg
          rw [Tcp.send_start hd hst ho]
          simp
      | connecting =>
        rw [Tcp.send_connecting hd hst]
        exact ⟨fun h => h, by simp [Tcp.ask, Tcp.emit, hst]⟩
      | connected =>
        rw [Tcp.send_connected hd hst, (Tcp.sendBuffer_same _).2.2.1]
        exact ⟨fun h => h, by simp⟩
  | shutdown => injection hs with hs; subst hs; simp [Tcp.stepLines, Tcp.post]
  | complete i r =>
    have key : v'.isOpen = v.isOpen ∧ v'.status = v.status := by
      simp only [Tcp.step, Tcp.complete] at hs
      repeat' split at hs
      all_goals first | cases hs | skip
      all_goals exact ⟨rfl, rfl⟩
    simp [Tcp.stepLines, key]
  | run k =>
    simp only [Tcp.step] at hs
    simp only [Tcp.stepLines]
    cases hk : v.queue[k]? with
    | none => rw [hk] at hs; injection hs with hs; subst hs; simp
    | some t =>
      rw [hk] at hs
      injection hs with hs; subst hs
      by_cases hd : v.isShutdown = true
      · cases t <;> simp [Tcp.runTask, Tcp.taskLines, Tcp.runClose, Tcp.runShutdown, Tcp.abortAll, Tcp.onResolved, Tcp.onConnected, Tcp.onRead, Tcp.onWritten, hd]
      · have hb : ∀ u : Tcp, u.beginRead.isOpen = u.isOpen ∧ u.beginRead.status = u.status := fun u => ⟨(Tcp.beginRead_same u).2.2.1, (Tcp.beginRead_same u).2.1⟩
        cases t with
        | close c =>
          simp only [Bool.not_eq_true] at hd
          simp only [Tcp.runTask]
          cases ho : v.isOpen with
          | true => rw [Tcp.runClose_open (by first | rfl | exact hd) (by first | rfl | exact ho)]; simp [Tcp.taskLines, hd, ho, Tcp.abortAll]
          | false => rw [Tcp.runClose_closed (by first | rfl | exact hd) (by first | rfl | exact ho)]; simp [Tcp.taskLines, hd, ho, Tcp.emit]
        | shutdown => simp [Tcp.runTask, Tcp.taskLines, Tcp.runShutdown, Tcp.abortAll]
        | resolved c ok =>
          cases ok <;> simp [Tcp.runTask, Tcp.taskLines, Tcp.onResolved, Tcp.sendError, Tcp.abortAll, Tcp.emit, hd]
        | connected c ok =>
          cases ok with
          | false => simp [Tcp.runTask, Tcp.taskLines, Tcp.onConnected, Tcp.sendError, Tcp.close, Tcp.post, Tcp.emit, hd]
          | true => simp [Tcp.runTask, Tcp.taskLines, Tcp.onConnected, hb, Tcp.sendBuffer_same, hd]
        | read c r =>
          cases r with
          | eof => simp [Tcp.runTask, Tcp.taskLines, Tcp.onRead, Tcp.close, Tcp.post, hd]
          | error => simp [Tcp.runTask, Tcp.taskLines, Tcp.onRead, Tcp.sendError, Tcp.close, Tcp.post, Tcp.emit, hd]
          | data bs => simp [Tcp.runTask, Tcp.taskLines, Tcp.onRead, Tcp.post, Tcp.emit, hd]
          | again => simp [Tcp.runTask, Tcp.taskLines, Tcp.onRead, hb, hd]
        | written c ok =>
          cases ok <;> simp [Tcp.runTask, Tcp.taskLines, Tcp.onWritten, Tcp.sendError, Tcp.close, Tcp.post, Tcp.emit, hd]

/- An open connection is closed; this is written. -/
/-- C131, clients. "Closed by peer" is written exactly when the end of the stream is read and the connection has not been shut down. -/
theorem C131_client_eof_line (v : Tcp) (op : Tcp.Op) :
    TLine.eof ∈ v.stepLines op ↔ v.isShutdown = false ∧ ∃ k c, op = .run k ∧ v.queue[k]? = some (.read c .eof) := by
  cases op with
  | send data loc =>
    simp only [Tcp.stepLines, Tcp.sendLines]
    repeat' split
    all_goals simp
  | shutdown => simp [Tcp.stepLines]
  | complete i r => simp [Tcp.stepLines]
  | run k =>
    simp only [Tcp.stepLines]
    cases hq : v.queue[k]? with
    | none => simp [hq]
    | some t =>
      cases hd : v.isShutdown <;> cases t <;> simp [Tcp.taskLines, hd, hq]
      case read c r => cases r <;> simp
      all_goals (repeat' split) <;> simp

example : (match Tcp.init.runLines [.send [1, 2] .ok, .complete 0 .ok, .run 0, .complete 0 .ok, .run 0, .complete 1 .eof, .run 0, .run 0] with
    | .ub => false
    | .ret (_, ls) => ls == [.establishing, .established, .eof, .closing]) = true := by decide +kernel

example : ∃ v v', TcpReach anyTcp v ∧ v.step (.run 0) = .ret v' ∧ (v.isOpen && !v'.isOpen && v.stepLines (.run 0) == [.closing]) = true := by
  obtain ⟨v, hr, hq⟩ := any_demo (twoConnections.take 12) (fun v => match v.step (.run 0) with
    | .ret v' => v.isOpen && !v'.isOpen && v.stepLines (.run 0) == [.closing]
    | .ub => false) (by decide +kernel)
  cases hs : v.step (.run 0) with
  | ub => rw [hs] at hq; cases hq
  | ret v' => rw [hs] at hq; exact ⟨v, v', hr, hs, hq⟩

/-! ### C131: a server's connections -/

theorem asv_sendBuffer_log (v : Asv) (c : Nat) : ∃ es, (v.sendBuffer c).log = v.log ++ es ∧ es.flatMap asvAccount = [] := by
  unfold Asv.sendBuffer
  split
  · exact ⟨[], by simp, rfl⟩
  · rename_i b data _
    split
    · dsimp only
      split
      · exact ⟨[.submit c data], rfl, rfl⟩
      · exact ⟨[.submit c data], rfl, rfl⟩
    · exact ⟨[], by simp, rfl⟩

theorem asv_beginRead_log (v : Asv) (c : Nat) : (v.beginRead c).log = v.log := by
  unfold Asv.beginRead
  repeat' split
  all_goals rfl

theorem asv_remove_log (v : Asv) (c : Nat) : ∃ es, (v.removeConnection c).log = v.log ++ es ∧ es.flatMap asvAccount = [] := by
  unfold Asv.removeConnection
  split
  · exact ⟨[.left c], rfl, rfl⟩
  · exact ⟨[], by simp, rfl⟩

theorem asv_sendAll_log (ds : List (List UInt8)) : ∀ (v : Asv) (c : Nat), ∃ es, (v.sendAll c ds).log = v.log ++ es ∧ es.flatMap asvAccount = [] := by
  induction ds with
  | nil => intro v c; exact ⟨[], by simp [Asv.sendAll], rfl⟩
  | cons d ds ih =>
    intro v c
    obtain ⟨e1, a1, a2⟩ := asv_sendBuffer_log ({ v.emit (.asked c d) with nextBuf := v.nextBuf + 1 }.setConn c { v.conns c with wbuf := some (v.nextBuf, d) }) c
    obtain ⟨e2, b1, b2⟩ := ih (v.send c d) c
    refine ⟨.asked c d :: e1 ++ e2, ?_, ?_⟩
    · show ((v.send c d).sendAll c ds).log = _
      rw [b1]
      unfold Asv.send
      rw [a1]
      simp [Asv.setConn, Asv.emit]
    · simp [List.flatMap_append, a2, b2, asvAccount]

theorem asv_startConn_log (v : Asv) (c : Nat) : ∃ es, (v.startConn c).log = v.log ++ es ∧ es.flatMap asvAccount = [] := by
  unfold Asv.startConn
  rw [asv_beginRead_log]
  exact asv_sendBuffer_log _ c

theorem asv_fail_log (v : Asv) (c : Nat) : ∃ es, (v.fail c).log = v.log ++ es ∧ es.flatMap asvAccount = [.error] := by
  unfold Asv.fail
  obtain ⟨es, h1, h2⟩ := asv_remove_log ((v.post (.close c)).emit (.error c)) c
  exact ⟨.error c :: es, by rw [h1]; simp [Asv.emit, Asv.post], by simp [h2, asvAccount]⟩

theorem asv_step_account {v v' : Asv} {op : Asv.Op} (hs : v.step op = .ret v') :
    ∃ es, v'.log = v.log ++ es ∧ v.stepLines op = es.flatMap asvAccount := by
  have hacc : ∀ u : Asv, u.startAccept.log = u.log := fun u => by unfold Asv.startAccept; split <;> rfl
  cases op with
  | start => injection hs with hs; subst hs; exact ⟨[], by simp [hacc], rfl⟩
  | shutdown => injection hs with hs; subst hs; exact ⟨[], by simp [Asv.post], rfl⟩
  | complete i r =>
    simp only [Asv.step, Asv.complete] at hs
    have key : ∀ u : Asv, u.log = v.log → ∃ es, u.log = v.log ++ es ∧ v.stepLines (.complete i r) = es.flatMap asvAccount :=
      fun u hu => ⟨[], by simp [hu], rfl⟩
    split at hs
    · injection hs with hs; subst hs; exact key _ rfl
    · split at hs <;> (injection hs with hs; subst hs; exact key _ rfl)
    · split at hs
      · split at hs <;> (injection hs with hs; subst hs; exact key _ rfl)
      all_goals (injection hs with hs; subst hs; exact key _ rfl)
    · rename_i c b data _
      split at hs
      · rename_i n
        split at hs
        · split at hs
          · injection hs with hs; subst hs; exact ⟨[.wire c (data.take n)], rfl, rfl⟩
          · cases hs
        · injection hs with hs; subst hs; exact key _ rfl
      · injection hs with hs; subst hs; exact key _ rfl
      · injection hs with hs; subst hs; exact key _ rfl
  | run k rs =>
    simp only [Asv.step] at hs
    simp only [Asv.stepLines]
    cases hk : v.queue[k]? with
    | none => rw [hk] at hs; injection hs with hs; subst hs; exact ⟨[], by simp, rfl⟩
    | some t =>
      rw [hk] at hs
      dsimp only at hs ⊢
      obtain ⟨w, hw⟩ : ∃ w : Asv, w = { v with queue := v.queue.eraseIdx k } := ⟨_, rfl⟩
      have hwl : w.log = v.log := by rw [hw]
      have hwc : w.conns = v.conns := by rw [hw]
      have hwd : w.isShutdown = v.isShutdown := by rw [hw]
      rw [← hw] at hs
      cases t with
      | startAccept =>
        injection hs with hs; subst hs
        refine ⟨[], ?_, rfl⟩
        unfold Asv.runStartAccept
        split <;> simp [hwl]
      | shutdown =>
        injection hs with hs; subst hs
        refine ⟨w.list.map .left, ?_, ?_⟩
        · simp [Asv.runShutdown, Asv.abort, hwl]
        · simp only [Asv.taskLines]
          induction w.list with
          | nil => rfl
          | cons x l ih => simpa [asvAccount] using ih
      | close c =>
        injection hs with hs; subst hs
        simp only [Asv.runClose, Asv.taskLines, hwc]
        split
        · obtain ⟨es, h1, h2⟩ := asv_remove_log (((w.setConn c { v.conns c with connected := false, isOpen := false }).abort (Asv.onSocket c)).emit (.closed c)) c
          refine ⟨.closed c :: es, ?_, by simp [h2, asvAccount]⟩
          rw [h1]; simp [Asv.emit, Asv.abort, Asv.setConn, hwl]
        · exact ⟨[], by simp [Asv.setConn, hwl], rfl⟩
      | accepted c ok =>
        simp only [Asv.runTask, Asv.onAccepted, hwd] at hs
        simp only [Asv.taskLines]
        split at hs
        · rename_i hd
          injection hs with hs; subst hs
          exact ⟨[], by simp [hwl], by simp [hd]⟩
        · rename_i hd
          rw [if_neg hd]
          split at hs
          · rename_i hok
            rw [if_pos hok]
            split at hs
            · split at hs
              · cases hs
              · rename_i front rest _
                injection hs with hs; subst hs
                rw [hacc]
                obtain ⟨e1, a1, a2⟩ := asv_remove_log { w.emit (.joined c) with num := w.num + 1 } front
                obtain ⟨e2, b1, b2⟩ := asv_startConn_log (Asv.removeConnection { w.emit (.joined c) with num := w.num + 1 } front) c
                refine ⟨.joined c :: e1 ++ e2, ?_, by simp [List.flatMap_append, a2, b2, asvAccount]⟩
                rw [b1, a1]; simp [Asv.emit, hwl]
            · injection hs with hs; subst hs
              rw [hacc]
              obtain ⟨e2, b1, b2⟩ := asv_startConn_log { w.emit (.joined c) with num := w.num + 1 } c
              refine ⟨.joined c :: e2, ?_, by simp [b2, asvAccount]⟩
              rw [b1]; simp [Asv.emit, hwl]
          · rename_i hok
            rw [if_neg hok]
            injection hs with hs; subst hs
            obtain ⟨e1, a1, a2⟩ := asv_remove_log w c
            exact ⟨e1, by rw [a1, hwl], a2.symm⟩
      | read c r =>
        injection hs with hs; subst hs
        cases r with
        | none =>
          obtain ⟨es, h1, h2⟩ := asv_fail_log w c
          exact ⟨es, by rw [← hwl]; exact h1, h2.symm⟩
        | some bytes =>
          obtain ⟨es, h1, h2⟩ := asv_sendAll_log rs (w.emit (.receive c bytes)) c
          refine ⟨.receive c bytes :: es, ?_, by simp [h2, asvAccount, Asv.taskLines]⟩
          simp only [Asv.onRead, asv_beginRead_log, h1]
          simp [Asv.emit, hwl]
      | written c ok =>
        injection hs with hs; subst hs
        cases ok with
        | true => exact ⟨[.writeDone c], by simp [Asv.onWritten, Asv.emit, Asv.setConn, hwl], rfl⟩
        | false =>
          obtain ⟨es, h1, h2⟩ := asv_fail_log w c
          exact ⟨es, by rw [← hwl]; exact h1, h2.symm⟩

theorem asv_runLines_account (ops : List Asv.Op) : ∀ (v v' : Asv) (ls : List ALine), v.runLines ops = .ret (v', ls) →
    ∃ es, v'.log = v.log ++ es ∧ ls = es.flatMap asvAccount := by
  induction ops with
  | nil =>
    intro v v' ls h
    injection h with h
    injection h with h1 h2
    subst h1; subst h2
    exact ⟨[], by simp, rfl⟩
  | cons op ops ih =>
    intro v v' ls h
    simp only [Asv.runLines] at h
    cases hs : v.step op with
    | ub => rw [hs] at h; cases h
    | ret u =>
      rw [hs] at h
      simp only [CM.ret_bind] at h
      cases hr : u.runLines ops with
      | ub => rw [hr] at h; cases h
      | ret p =>
        obtain ⟨u', ls'⟩ := p
        rw [hr] at h
        simp only [CM.ret_bind] at h
        injection h with h
        injection h with h1 h2
        subst h1; subst h2
        obtain ⟨e1, a1, a2⟩ := asv_step_account hs
        obtain ⟨e2, b1, b2⟩ := ih u u' ls' hr
        exact ⟨e1 ++ e2, by rw [b1, a1, List.append_assoc], by rw [List.flatMap_append, a2, b2]⟩

/-- C131, servers. In every history, the connections of a server write exactly one line for every connection accepted, every chunk received (with its length),
every completed write, every failure reported and every socket closed, in the order in which these happen, and nothing else. -/
theorem C131_server_lines (max : UInt32) (ops : List Asv.Op) (v : Asv) (ls : List ALine) (h : (Asv.init max).runLines ops = .ret (v, ls)) :
    ls = v.log.flatMap asvAccount := by
  obtain ⟨es, h1, h2⟩ := asv_runLines_account ops _ _ _ h
  rw [h2, h1]
  rfl

/- Two clients are accepted where one is allowed; the older is closed, the other one sends something, is answered and disconnects. -/
example : (match (Asv.init 1).runLines [.start, .run 0 [], .complete 0 .ok, .run 0 [], .run 0 [], .complete 1 .ok, .run 0 [], .complete 0 .error, .run 0 [], .run 0 [],
      .complete 0 (.data [1, 2, 3]), .run 0 [], .run 0 [[9]], .complete 1 (.sent 1), .run 0 [], .run 0 []] with
    | .ub => false
    | .ret (_, ls) => ls == [.established, .established, .closing, .error, .bytes 3, .sent]) = true := by decide +kernel

end Modbus.Props
