import Verif.Props.Stack
import Verif.Props.ClientTight
import Verif.Lemmas.StackTalk

/-! The connection and the whole client, continued: statements that say what must happen (not only what must not).  C66, C67, C86, C88. -/

namespace Modbus.Props

open Modbus.Spec Modbus.Stk

/-! ### C67 -/

theorem Tcp_shutdown_stays {v v' : Tcp} {op : Tcp.Op} (h : v.isShutdown = true ∨ TTask.shutdown ∈ v.queue) (hs : v.step op = .ret v') :
    v'.isShutdown = true ∨ TTask.shutdown ∈ v'.queue := by
  cases op with
  | send data loc =>
    injection hs with hs; subst hs
    cases hd : v.isShutdown with
    | true => left; simp [Tcp.send, hd]
    | false =>
      have h := h.resolve_left (by simp [hd])
      right
      cases hst : v.status with
      | notConnected =>
        by_cases hc : v.isOpen = true ∨ loc ≠ .ok
        · obtain ⟨o, e, -⟩ := Tcp.send_gaveUp hd hst data loc hc
          rw [e]; exact h
        · simp only [not_or, Bool.not_eq_true, not_not] at hc
          obtain ⟨h1, rfl⟩ := hc
          rw [Tcp.send_start hd hst h1]; exact h
      | connecting => rw [Tcp.send_connecting hd hst]; exact h
      | connected =>
        rw [Tcp.send_connected hd hst]
        exact (Tcp.Grows.sendBuffer (v.ask data)).queue _ h
  | shutdown => injection hs with hs; subst hs; right; simp [Tcp.post]
  | complete i r => exact Tcp.step_keeps (Or.inl ⟨i, r, rfl⟩) hs h
  | run k => exact Tcp.step_keeps (Or.inr ⟨k, rfl⟩) hs h

theorem Tcp_run_down (ops : List Tcp.Op) : ∀ (v v' : Tcp), (v.isShutdown = true ∨ TTask.shutdown ∈ v.queue) ∨ Tcp.Op.shutdown ∈ ops → v.run ops = .ret v' →
    v'.isShutdown = true ∨ TTask.shutdown ∈ v'.queue := by
  induction ops with
  | nil => intro v v' h hr; injection hr with hr; subst hr; exact h.resolve_right (by simp)
  | cons op ops ih =>
    intro v v' h hr
    simp only [Tcp.run] at hr
    obtain ⟨w, h1, h2⟩ := CM.bind_eq_ret.1 hr
    refine ih w v' ?_ h2
    rcases h with h | h
    · exact Or.inl (Tcp_shutdown_stays h h1)
    · rcases List.mem_cons.1 h with h | h
      · subst h
        injection h1 with h1; subst h1
        left; right; simp [Tcp.post]
      · exact Or.inr h

theorem Tcp_run_reach {P : Tcp → Tcp.Op → Prop} (hP : ∀ v op, P v op) (ops : List Tcp.Op) : ∀ (v v' : Tcp), TcpReach P v → v.run ops = .ret v' → TcpReach P v' := by
  induction ops with
  | nil => intro v v' h hr; injection hr with hr; subst hr; exact h
  | cons op ops ih =>
    intro v v' h hr
    simp only [Tcp.run] at hr
    obtain ⟨w, h1, h2⟩ := CM.bind_eq_ret.1 hr
    exact ih w v' (.step h (hP _ _) h1) h2

/-- C67. In every history in which `shutdown` was called, at any time: when everything queued on the strand has run, the connection is silent for good; and before that,
one queued function is enough to make it so. -/
theorem C67_call_takes_effect (ops : List Tcp.Op) (v : Tcp) (hr : Tcp.init.run ops = .ret v) (hs : Tcp.Op.shutdown ∈ ops) :
    (v.queue = [] → ∀ more, ∃ v', v.run more = .ret v' ∧ v'.log = v.log) ∧
    ∃ first, first.length ≤ 1 ∧ ∃ v1, v.run first = .ret v1 ∧ v1.log = v.log ∧ ∀ more, ∃ v', v1.run more = .ret v' ∧ v'.log = v.log := by
  have hreach := Tcp_run_reach (P := anyTcp) (fun _ _ => trivial) ops _ v .init hr
  have quiet : ∀ w : Tcp, TcpReach anyTcp w → w.isShutdown = true → ∀ more, ∃ v', w.run more = .ret v' ∧ v'.log = w.log := fun w h1 h2 more => by
    obtain ⟨v', a, b, -⟩ := C67_silent_after_shutdown w h1 h2 more
    exact ⟨v', a, b⟩
  rcases Tcp_run_down ops _ v (Or.inr hs) hr with h | h
  · exact ⟨fun _ => quiet v hreach h, [], by simp, v, rfl, rfl, quiet v hreach h⟩
  · refine ⟨fun hq => absurd h (by simp [hq]), ?_⟩
    obtain ⟨k, hk⟩ := List.getElem?_of_mem h
    obtain ⟨v1, a1, a2, a3⟩ := C67_shutdown_takes_effect v k hk
    exact ⟨[.run k], by simp, v1, by simp [Tcp.run, a1], a3, fun more => by rw [← a3]; exact quiet v1 (.step hreach trivial a1) a2 more⟩

/-- While the connection is being established, `shutdown` is called, and the connect completes before it runs. -/
def shutWhileConnecting : List Tcp.Op := [.send [1] .ok, .complete 0 .ok, .run 0, .shutdown, .complete 0 .ok]

example : (match Tcp.init.run shutWhileConnecting with
    | .ret v => v.queue == [.shutdown, .connected 1 true] && !v.isShutdown
    | .ub => false) = true := by decide +kernel

/-! ### C66: an open connection is used -/

/-- A socket that is open although the client is not connected is not used for data. -/
def IdleSocket (v : Tcp) : Prop := v.isShutdown = true ∨ (v.status = .notConnected → v.isOpen = true → Tcp.dataOps v = 0)

theorem IdleSocket.step {v v' : Tcp} (h : IdleSocket v) (hn : (v.isShutdown = true ∧ Tcp.TagLog v) ∨ Tcp.Neat v) (op : Tcp.Op) (hp : FreshStarts v op)
    (hs : v.step op = .ret v') (hq : Tcp.Quiet v) : IdleSocket v' := by
  cases hd : v.isShutdown with
  | true =>
    obtain ⟨v2, e1, e2, -⟩ := Tcp.shut_step hd hq op
    rw [hs] at e1; injection e1 with e1; subst e1
    exact Or.inl e2
  | false =>
    have hn := hn.resolve_left (by simp [hd])
    have h := h.resolve_left (by simp [hd])
    cases op with
    | send data loc =>
      injection hs with hs; subst hs
      right
      cases hst : v.status with
      | notConnected =>
        by_cases hc : v.isOpen = true ∨ loc ≠ .ok
        · obtain ⟨o, e, -⟩ := Tcp.send_gaveUp hd hst data loc hc
          rw [e]
          intro _ _
          show Tcp.dataOps v = 0
          cases ho : v.isOpen with
          | true => exact h hst ho
          | false => exact (Tcp.settled_counts (hp data loc rfl hst ho)).1
        · simp only [not_or, Bool.not_eq_true, not_not] at hc
          obtain ⟨h1, rfl⟩ := hc
          rw [Tcp.send_start hd hst h1]; intro h2; cases h2
      | connecting => rw [Tcp.send_connecting hd hst]; intro h2; exact absurd (show v.status = .notConnected from h2) (by simp [hst])
      | connected =>
        rw [Tcp.send_connected hd hst]; intro h2
        rw [(Tcp.sendBuffer_same _).2.1] at h2
        exact absurd (show v.status = .notConnected from h2) (by simp [hst])
    | shutdown =>
      injection hs with hs; subst hs
      right; intro h1 h2
      have := h h1 h2
      simpa [Tcp.dataOps, Tcp.post, Tcp.isDataTask] using this
    | complete i r =>
      rcases Tcp.complete_cases hs with rfl | ⟨o, t, h0, -, h2, h3, -, -, -, h4, h5, -, -, h6, -⟩
      · exact Or.inr h
      · right; intro a1 a2
        have := h (h2 ▸ a1) (h3 ▸ a2)
        simp only [Tcp.dataOps, h4, h5, List.countP_append, Nat.add_eq_zero_iff, List.countP_eq_zero] at this ⊢
        refine ⟨fun x hx => this.1 x (List.mem_of_mem_eraseIdx hx), this.2, ?_⟩
        intro x hx
        rw [List.mem_singleton.1 hx, h6]
        exact this.1 o (List.mem_of_getElem? h0)
    | run k =>
      simp only [Tcp.step] at hs
      split at hs
      · injection hs with hs; subst hs; exact Or.inr h
      · rename_i t ht
        injection hs with hs; subst hs
        obtain ⟨w, hw⟩ : ∃ w, w = { v with queue := v.queue.eraseIdx k } := ⟨_, rfl⟩
        have hwd : w.isShutdown = false := by rw [hw]; exact hd
        rw [← hw]
        have hmem := List.mem_of_getElem? ht
        have att : isAttemptTask t = true → v.status = .connecting := by
          intro hat
          by_contra hst
          have := hn.other hst
          simp only [tcpAttempts, Nat.add_eq_zero_iff, List.countP_eq_zero] at this
          exact this.2 _ hmem hat
        have dat : Tcp.isDataTask t = true → v.status = .notConnected → v.isOpen = true → False := by
          intro hat h1 h2
          have := h h1 h2
          simp only [Tcp.dataOps, Nat.add_eq_zero_iff, List.countP_eq_zero] at this
          exact this.2 _ hmem hat
        have hws : w.status = v.status := by rw [hw]
        have hwo : w.isOpen = v.isOpen := by rw [hw]
        cases t with
        | close c =>
          right
          simp only [Tcp.runTask]
          cases ho : w.isOpen with
          | true => rw [Tcp.runClose_open hwd ho]; intro _ h2; cases h2
          | false => rw [Tcp.runClose_closed hwd ho]; intro _ h2; rw [show w.isOpen = true from h2] at ho; cases ho
        | shutdown => exact Or.inl rfl
        | resolved c ok =>
          have hst := att rfl
          right
          simp only [Tcp.runTask]
          cases ok with
          | true => rw [Tcp.onResolved_ok hwd]; intro h1; have h1 : w.status = .notConnected := h1; rw [hws, hst] at h1; cases h1
          | false =>
            rw [Tcp.onResolved_err hwd]; intro _ _
            have := (hn.connecting hst).1
            simp only [Tcp.dataOps, Tcp.emit, hw, Nat.add_eq_zero_iff, List.countP_eq_zero] at this ⊢
            exact ⟨this.1, fun x hx => this.2 x (List.mem_of_mem_eraseIdx hx)⟩
        | connected c ok =>
          have hst := att rfl
          right
          simp only [Tcp.runTask]
          cases ok with
          | true => rw [Tcp.onConnected_ok hwd, (Tcp.beginRead_same _).2.1, (Tcp.sendBuffer_same _).2.1]; intro h1; cases h1
          | false => rw [Tcp.onConnected_err hwd]; intro h1; have h1 : w.status = .notConnected := h1; rw [hws, hst] at h1; cases h1
        | read c r =>
          right
          simp only [Tcp.runTask]
          cases r with
          | data bs => rw [Tcp.onRead_data hwd]; intro h1 h2; exact absurd (hws ▸ h1) fun h1 => dat rfl h1 (hwo ▸ h2)
          | eof => rw [Tcp.onRead_eof hwd]; intro h1 h2; exact absurd (hws ▸ h1) fun h1 => dat rfl h1 (hwo ▸ h2)
          | error => rw [Tcp.onRead_error hwd]; intro h1 h2; exact absurd (hws ▸ h1) fun h1 => dat rfl h1 (hwo ▸ h2)
          | again =>
            rw [Tcp.onRead_again hwd, (Tcp.beginRead_same _).2.1, (Tcp.beginRead_same _).2.2.1]
            intro h1 h2; exact absurd (hws ▸ h1) fun h1 => dat rfl h1 (hwo ▸ h2)
        | written c ok =>
          right
          simp only [Tcp.runTask]
          cases ok with
          | true => rw [Tcp.onWritten_ok hwd]; intro h1 h2; exact absurd (hws ▸ h1) fun h1 => dat rfl h1 (hwo ▸ h2)
          | false => rw [Tcp.onWritten_err hwd]; intro h1 h2; exact absurd (hws ▸ h1) fun h1 => dat rfl h1 (hwo ▸ h2)

theorem TcpReach_idleSocket {P : Tcp → Tcp.Op → Prop} (hP : ∀ v op, P v op → FreshStarts v op) {v : Tcp} (h : TcpReach P v) : IdleSocket v := by
  induction h with
  | init => right; intro _ h; cases h
  | step hr hp hs ih => exact ih.step (hr.neat hP) _ (hP _ _ hp) hs hr.quiet

/-- While something is being read or written, the client is connected and that is its current connection. -/
theorem reading_connected {P : Tcp → Tcp.Op → Prop} (hP : ∀ v op, P v op → FreshStarts v op) {v : Tcp} (h : TcpReach P v) (hd : v.isShutdown = false) {c : Nat}
    (hr : TOp.read c ∈ v.flying) : v.status = .connected ∧ v.isOpen = true ∧ v.conn = c := by
  have hn := (h.neat hP).resolve_left (by simp [hd])
  have ho : v.isOpen = true := by
    cases ho : v.isOpen with
    | true => rfl
    | false => exact absurd (h.quiet (Or.inr ho) _ hr) (by simp [Tcp.TOp.isResolve])
  have hdata : Tcp.dataOps v ≠ 0 := by
    simp only [Tcp.dataOps, ne_eq, Nat.add_eq_zero_iff, List.countP_eq_zero, not_and]
    intro h; exact absurd (h _ hr) (by simp [Tcp.isDataOp])
  refine ⟨?_, ho, (hn.tags.1 _ hr).symm⟩
  cases hst : v.status with
  | notConnected => exact absurd (((TcpReach_idleSocket hP h).resolve_left (by simp [hd])) hst ho) hdata
  | connecting => exact absurd (hn.connecting hst).1 hdata
  | connected => rfl

/-- C66 (part). If every attempt is started only after everything about the earlier connections is over: while a connection is listened to (a read is in progress on it),
what the channel wants to send is given to that connection at once. -/
theorem C66_open_submits_partial (v : Tcp) (h : TcpReach FreshStarts v) (hd : v.isShutdown = false) (c : Nat) (hr : TOp.read c ∈ v.flying) (data : List UInt8) (loc : TLocal) :
    ∃ v', v.step (.send data loc) = .ret v' ∧ v'.log = v.log ++ [.asked data, .submit c data] ∧ ∃ b, TOp.write c b data ∈ v'.flying := by
  obtain ⟨h1, h2, h3⟩ := reading_connected (fun _ _ h => h) h hd hr
  refine ⟨_, rfl, ?_, v.nextBuf, ?_⟩
  · rw [Tcp.send_connected hd h1, Tcp.sendBuffer_open (by exact hd) (by exact h2) (b := v.nextBuf) (d := data) rfl]
    simp [Tcp.ask, Tcp.emit, h3]
  · rw [Tcp.send_connected hd h1, Tcp.sendBuffer_open (by exact hd) (by exact h2) (b := v.nextBuf) (d := data) rfl]
    simp [Tcp.ask, Tcp.emit, h3]

example : ∃ v, TcpReach FreshStarts v ∧ (!v.isShutdown && v.flying == [.read 2] && v.queue == []) = true :=
  chk_demo freshChk_spec twoConnections _ (by decide +kernel)

/-! ### C62: without local trouble, sending is never given up -/

/-- A client that is not connected has no open socket, and `send` never gave up. -/
def NeverGaveUp (v : Tcp) : Prop := TEv.gaveUp ∉ v.log ∧ (v.isShutdown = true ∨ (v.status = .notConnected → v.isOpen = false))

theorem NeverGaveUp.step {v v' : Tcp} (h : NeverGaveUp v) (hn : (v.isShutdown = true ∧ Tcp.TagLog v) ∨ Tcp.Neat v) (hl : ∀ c, v.isShutdown = false → TTask.resolved c false ∉ v.queue)
    (op : Tcp.Op) (hp : NoLocalFailure v op) (hs : v.step op = .ret v') (hq : Tcp.Quiet v) : NeverGaveUp v' := by
  obtain ⟨h0, h⟩ := h
  cases hd : v.isShutdown with
  | true =>
    obtain ⟨v2, e1, e2, e3, -⟩ := Tcp.shut_step hd hq op
    rw [hs] at e1; injection e1 with e1; subst e1
    exact ⟨by rw [e3]; exact h0, Or.inl e2⟩
  | false =>
    have hn := hn.resolve_left (by simp [hd])
    have h := h.resolve_left (by simp [hd])
    cases op with
    | send data loc =>
      injection hs with hs; subst hs
      obtain rfl := hp.1 data loc rfl
      cases hst : v.status with
      | notConnected =>
        rw [Tcp.send_start hd hst (h hst)]
        exact ⟨by simpa [Tcp.ask, Tcp.emit] using h0, Or.inr fun h2 => by cases h2⟩
      | connecting =>
        rw [Tcp.send_connecting hd hst]
        exact ⟨by simpa [Tcp.ask, Tcp.emit] using h0, Or.inr fun h2 => absurd (show v.status = .notConnected from h2) (by simp [hst])⟩
      | connected =>
        rw [Tcp.send_connected hd hst]
        refine ⟨?_, Or.inr fun h2 => ?_⟩
        · rw [Tcp.sendBuffer_log (by exact hd)]
          simpa [Tcp.ask, Tcp.emit] using h0
        · rw [(Tcp.sendBuffer_same _).2.1] at h2
          exact absurd (show v.status = .notConnected from h2) (by simp [hst])
    | shutdown =>
      injection hs with hs; subst hs
      exact ⟨h0, Or.inr h⟩
    | complete i r =>
      have hlog : TEv.gaveUp ∉ v'.log := by
        simp only [Tcp.step, Tcp.complete] at hs
        repeat' split at hs
        all_goals cases hs
        all_goals simpa [Tcp.emit, Tcp.post] using h0
      rcases Tcp.complete_cases hs with rfl | ⟨o, t, h0, -, h2, h3, -, -, -, h4, h5, -, -, h6, -⟩
      · exact ⟨hlog, Or.inr h⟩
      · exact ⟨hlog, Or.inr (by rw [h2, h3]; exact h)⟩
    | run k =>
      simp only [Tcp.step] at hs
      split at hs
      · injection hs with hs; subst hs; exact ⟨h0, Or.inr h⟩
      · rename_i t ht
        injection hs with hs; subst hs
        obtain ⟨w, hw⟩ : ∃ w, w = { v with queue := v.queue.eraseIdx k } := ⟨_, rfl⟩
        have hwd : w.isShutdown = false := by rw [hw]; exact hd
        rw [← hw]
        have hmem := List.mem_of_getElem? ht
        have att : isAttemptTask t = true → v.status = .connecting := by
          intro hat
          by_contra hst
          have := hn.other hst
          simp only [tcpAttempts, Nat.add_eq_zero_iff, List.countP_eq_zero] at this
          exact this.2 _ hmem hat
        have hws : w.status = v.status := by rw [hw]
        have hw0 : TEv.gaveUp ∉ w.log := by rw [hw]; exact h0
        have hwh : w.status = .notConnected → w.isOpen = false := by rw [hw]; exact h
        cases t with
        | close c =>
          simp only [Tcp.runTask]
          cases ho : w.isOpen with
          | true => rw [Tcp.runClose_open hwd ho]; exact ⟨by simpa [Tcp.emit, Tcp.abortAll] using hw0, Or.inr fun _ => rfl⟩
          | false => rw [Tcp.runClose_closed hwd ho]; exact ⟨by simpa [Tcp.emit] using hw0, Or.inr fun _ => ho⟩
        | shutdown => exact ⟨hw0, Or.inl rfl⟩
        | resolved c ok =>
          have hst := att rfl
          simp only [Tcp.runTask]
          cases ok with
          | true =>
            rw [Tcp.onResolved_ok hwd]
            exact ⟨hw0, Or.inr fun h1 => by have h1 : w.status = .notConnected := h1; rw [hws, hst] at h1; cases h1⟩
          | false => exact absurd hmem (hl c hd)
        | connected c ok =>
          have hst := att rfl
          simp only [Tcp.runTask]
          cases ok with
          | true =>
            rw [Tcp.onConnected_ok hwd]
            refine ⟨?_, Or.inr fun h1 => ?_⟩
            · rw [(Tcp.beginRead_same _).2.2.2.2.2, Tcp.sendBuffer_log (by exact hwd)]
              simpa using hw0
            · rw [(Tcp.beginRead_same _).2.1, (Tcp.sendBuffer_same _).2.1] at h1; cases h1
          | false => rw [Tcp.onConnected_err hwd]; exact ⟨by simpa [Tcp.emit, Tcp.post] using hw0, Or.inr hwh⟩
        | read c r =>
          simp only [Tcp.runTask]
          cases r with
          | data bs => rw [Tcp.onRead_data hwd]; exact ⟨by simpa [Tcp.emit, Tcp.post] using hw0, Or.inr hwh⟩
          | eof => rw [Tcp.onRead_eof hwd]; exact ⟨hw0, Or.inr hwh⟩
          | error => rw [Tcp.onRead_error hwd]; exact ⟨by simpa [Tcp.emit, Tcp.post] using hw0, Or.inr hwh⟩
          | again =>
            rw [Tcp.onRead_again hwd]
            exact ⟨by rw [(Tcp.beginRead_same _).2.2.2.2.2]; exact hw0, Or.inr (by rw [(Tcp.beginRead_same _).2.1, (Tcp.beginRead_same _).2.2.1]; exact hwh)⟩
        | written c ok =>
          simp only [Tcp.runTask]
          cases ok with
          | true => rw [Tcp.onWritten_ok hwd]; exact ⟨by simpa [Tcp.emit, Tcp.post] using hw0, Or.inr hwh⟩
          | false => rw [Tcp.onWritten_err hwd]; exact ⟨by simpa [Tcp.emit, Tcp.post] using hw0, Or.inr hwh⟩

/-- C62 (part). If nothing goes wrong locally and attempts are started only after everything about the earlier connections is over: `send` never gives up. Each `send`
before the shutdown gives the data to the connection, or starts an attempt, or finds one on its way. -/
theorem C62_never_gives_up_partial (v : Tcp) (h : TcpReach (fun v op => NoLocalFailure v op ∧ FreshStarts v op) v) :
    TEv.gaveUp ∉ v.log ∧ ∀ data, v.isShutdown = false →
      (v.send data .ok).log = v.log ++ [.asked data, .attempt (v.conn + 1)] ∨
      (∃ c, (v.send data .ok).log = v.log ++ [.asked data, .submit c data]) ∨
      ((v.send data .ok).log = v.log ++ [.asked data] ∧
        ((∃ o ∈ v.flying, isAttemptOp o = true) ∨ (∃ t ∈ v.queue, isAttemptTask t = true) ∨ ∃ c, TTask.close c ∈ v.queue)) := by
  have key : NeverGaveUp v := by
    induction h with
    | init => exact ⟨by simp [Tcp.init], Or.inr fun _ => rfl⟩
    | step hr hp hs ih =>
      exact ih.step (hr.neat fun _ _ h => h.2) (fun c hd => ((hr.live fun _ _ h => h.1).resolve_left (by simp [hd])).noFail c) _ hp.1 hs hr.quiet
  refine ⟨key.1, fun data hd => ?_⟩
  have h1 := key.2.resolve_left (by simp [hd])
  have hl := (h.live fun _ _ h => h.1).resolve_left (by simp [hd])
  cases hst : v.status with
  | notConnected => left; rw [Tcp.send_start hd hst (h1 hst)]; simp [Tcp.ask, Tcp.emit]
  | connecting =>
    right; right
    rw [Tcp.send_connecting hd hst]
    refine ⟨by simp [Tcp.ask, Tcp.emit], ?_⟩
    rcases hl.connecting hst with ⟨c, h⟩ | ⟨c, h⟩ | ⟨c, h⟩ | ⟨c, ok, h⟩ | ⟨c, h⟩
    · exact Or.inl ⟨_, h, rfl⟩
    · exact Or.inl ⟨_, h, rfl⟩
    · exact Or.inr (Or.inl ⟨_, h, rfl⟩)
    · exact Or.inr (Or.inl ⟨_, h, rfl⟩)
    · exact Or.inr (Or.inr ⟨_, h⟩)
  | connected =>
    right; left
    rw [Tcp.send_connected hd hst, Tcp.sendBuffer_log (by exact hd)]
    exact ⟨v.conn, by simp [Tcp.ask, Tcp.emit]⟩

theorem localFresh_spec (v : Tcp) (op : Tcp.Op) (h : (localChk v op && freshChk v op) = true) : NoLocalFailure v op ∧ FreshStarts v op := by
  simp only [Bool.and_eq_true] at h
  exact ⟨localChk_spec v op h.1, freshChk_spec v op h.2⟩

example : ∃ v, TcpReach (fun v op => NoLocalFailure v op ∧ FreshStarts v op) v ∧ (!v.isShutdown && v.status == .connected && v.conn == 2) = true :=
  chk_demo localFresh_spec twoConnections _ (by decide +kernel)

example : ∃ v, TcpReach (fun v op => NoLocalFailure v op ∧ FreshStarts v op) v ∧ (!v.isShutdown && v.status == .connecting && v.conn == 1) = true :=
  chk_demo localFresh_spec [.send [1] .ok, .send [2] .ok] _ (by decide +kernel)
/-! ### C86: answers are delivered wherever they lie in the stream -/

/-- The first message for the outstanding request is followed by the call of its handler. -/
theorem onMbaps_deliver {env : ClientEnv} (r : PendingReq) (before : List Mbap) : ∀ (v : Cli) (m : Mbap) (after : List Mbap), v.isShutdown = false → v.current = some r →
    (∀ n ∈ before, ¬ (n.tid = r.tid ∧ n.unit = r.unit)) → m.tid = r.tid → m.unit = r.unit →
    CEv.handler r.uid (.ok m.data) v.now ∈ (v.onMbaps env (before ++ m :: after)).log := by
  induction before with
  | nil =>
    intro v m after hd hc _ h1 h2
    rcases Cli.onMbap_eq env v m with ⟨-, e⟩ | ⟨r', -, hc', -, -, e⟩
    · rcases e with e | e
      · rw [hd] at e; cases e
      · exact absurd ⟨h1, h2⟩ (e r hc)
    · rw [hc] at hc'; injection hc' with hc'; subst hc'
      obtain ⟨es, hes⟩ := onMbaps_first.checkPending_grows env ((v.emit (.mbap m)).finish r (.ok m.data))
      obtain ⟨es', hes'⟩ := onMbaps_first.onMbaps_grows env after (v.onMbap env m)
      show _ ∈ ((v.onMbap env m).onMbaps env after).log
      rw [hes', e, hes, Cli.finish_log]
      simp [Cli.emit]
  | cons n ns ih =>
    intro v m after hd hc hn h1 h2
    rcases Cli.onMbap_eq env v n with ⟨e, -⟩ | ⟨r', -, hc', ht, hu, -⟩
    · show _ ∈ ((v.onMbap env n).onMbaps env (ns ++ m :: after)).log
      rw [e]
      exact ih (v.emit (.mbap n)) m after hd hc (fun x hx => hn x (List.mem_cons_of_mem _ hx)) h1 h2
    · rw [hc] at hc'; injection hc' with hc'; subst hc'
      exact absurd ⟨ht, hu⟩ (hn n (by simp))

/-- The receiver never keeps a whole frame. -/
theorem rep_no_frame {p : Parser} {pend : List UInt8} (h : Rep p pend) {m : Mbap} (hm : Ordinary m) : ¬ (frameOf m).bytes <+: pend := by
  rintro ⟨r, hr⟩
  rcases h.incomplete with hi | ⟨f, hf1, hf2, hf3⟩
  · exact hi _ hm.complete ⟨r, hr⟩
  · have e : f.bytes ++ [] = (frameOf m).bytes ++ r := by rw [List.append_nil, ← hf3, hr]
    obtain ⟨rfl, -⟩ := frame_prefix_unique hf1 hm.complete e
    have := hm.len; have := hm.1
    omega

theorem streamOf_app (a b : List Mbap) : streamOf ((a ++ b).map frameOf) = streamOf (a.map frameOf) ++ streamOf (b.map frameOf) := by
  simp [streamOf]

theorem prefix_of_le {α : Type} {a b x y : List α} (h : a ++ x = b ++ y) (hl : a.length ≤ b.length) : ∃ c, b = a ++ c ∧ x = c ++ y := by
  rcases List.append_eq_append_iff.1 h with ⟨c, h1, h2⟩ | ⟨c, h1, h2⟩
  · exact ⟨c, h1, h2⟩
  · have : c = [] := by
      have := congrArg List.length h1
      simp only [List.length_append] at this
      exact List.eq_nil_of_length_eq_zero (by omega)
    subst this
    exact ⟨[], by simpa using h1.symm, by simpa using h2.symm⟩

/-- The receiver hands over a message when its last byte arrives. -/
theorem parse_completes {p : Parser} {pend : List UInt8} (hp : Rep p pend) (before : List Mbap) (m : Mbap) (after : List Mbap)
    (hm : ∀ n ∈ before ++ m :: after, Ordinary n) (d rest : List UInt8) (h : pend ++ (d ++ rest) = streamOf ((before ++ m :: after).map frameOf))
    (hl : (streamOf ((before ++ [m]).map frameOf)).length ≤ (pend ++ d).length) :
    ∃ p' after1, p.parse d = .ret (p', before ++ m :: after1) := by
  obtain ⟨p', ns, ns', pend', h1, -, h3, h4, h5⟩ := parse_stream hp _ hm d rest h
  refine ⟨p', ?_⟩
  by_cases hlen : before.length < ns.length
  · have e : (before ++ [m]) ++ after = ns ++ ns' := by rw [← h4]; simp
    obtain ⟨c, hc, -⟩ := prefix_of_le e (by simp; omega)
    exact ⟨c, by rw [h1, hc]; simp⟩
  · exfalso
    have e : ns ++ ns' = before ++ m :: after := h4.symm
    obtain ⟨c, hc, hc'⟩ := prefix_of_le e (by omega)
    have hs : streamOf ((before ++ m :: after).map frameOf) = streamOf (ns.map frameOf) ++ (pend' ++ rest) := by rw [h4, streamOf_app, h5]
    have e2 : pend ++ d = streamOf (ns.map frameOf) ++ pend' := by
      have : (pend ++ d) ++ rest = (streamOf (ns.map frameOf) ++ pend') ++ rest := by rw [List.append_assoc, h, hs, List.append_assoc]
      exact List.append_cancel_right this
    rw [e2, hc, List.append_assoc, streamOf_app] at hl
    simp only [List.length_append] at hl
    have hl : (streamOf ((c ++ [m]).map frameOf)).length ≤ pend'.length := by omega
    have h6 : pend' ++ rest = streamOf ((c ++ [m]).map frameOf) ++ streamOf (after.map frameOf) := by
      rw [h5, hc', ← streamOf_app]; simp
    obtain ⟨x, hx, -⟩ := prefix_of_le h6.symm hl
    cases c with
    | nil =>
      refine rep_no_frame h3 (hm m (by simp)) ⟨x, ?_⟩
      rw [hx]; simp [streamOf]
    | cons n c =>
      refine rep_no_frame h3 (hm n (by rw [hc]; simp)) ⟨streamOf ((c ++ [m]).map frameOf) ++ x, ?_⟩
      rw [hx]; simp [streamOf]

theorem Cli_receive_in_stream {env : ClientEnv} {v v' : Cli} (h : CReach env v) (hs : CEv.tcpShutdown ∉ v.log) {u : Nat} {bytes : List UInt8} {t : Nat}
    {q : AnyReq} {tmo : Nat} {before after : List Mbap} {m : Mbap} (h1 : CEv.sent u bytes t ∈ v.log) (h2 : u ∉ handledUids v.log)
    (h3 : CEv.call u m.unit q tmo ∈ v.log) (h4 : IsRequestFrame m.unit m.tid q bytes) (ho : ∀ n ∈ before ++ m :: after, Ordinary n) {d rest : List UInt8}
    (hd : (chunksSince v.log).flatten ++ (d ++ rest) = streamOf ((before ++ m :: after).map frameOf))
    (hl1 : (chunksSince v.log).flatten.length < (streamOf ((before ++ [m]).map frameOf)).length)
    (hl2 : (streamOf ((before ++ [m]).map frameOf)).length ≤ ((chunksSince v.log).flatten ++ d).length)
    (hfirst : ∀ n ∈ before, ¬ (n.tid = m.tid ∧ n.unit = m.unit)) (hstep : v.step env (.receive d) = .ret v') :
    CEv.handler u (.ok m.data) v.now ∈ v'.log := by
  obtain ⟨hsd, r, hr, rfl, hru, hrt⟩ := Cli.outstanding_current h hs h1 h2 h3 h4
  obtain ⟨mem, hmem, hfeed⟩ := h.inv.1.framed hsd
  obtain ⟨p', ms, ms', pend', a1, a2, a3, a4⟩ := feed_stream (chunksSince v.log) (rep_init env.pol mem hmem) _ ho (d ++ rest) (by simpa using hd)
  rw [hfeed] at a1
  injection a1 with a1
  injection a1 with a1 _; subst a1
  have e1 : (chunksSince v.log).flatten = streamOf (ms.map frameOf) ++ pend' := by
    have : (chunksSince v.log).flatten ++ (d ++ rest) = (streamOf (ms.map frameOf) ++ pend') ++ (d ++ rest) := by
      rw [hd, a3, streamOf_app, List.append_assoc, a4]
    exact List.append_cancel_right this
  have hlen : ms.length ≤ before.length := by
    by_contra hc
    have e : (before ++ [m]) ++ after = ms ++ ms' := by rw [← a3]; simp
    obtain ⟨c, hc, -⟩ := prefix_of_le e (by simp; omega)
    rw [e1, hc, streamOf_app] at hl1
    simp only [List.length_append] at hl1
    omega
  obtain ⟨c, hc, hc'⟩ := prefix_of_le a3.symm hlen
  obtain ⟨p2, after1, hparse⟩ := parse_completes a2 c m after (fun n hn => ho n (by rw [a3, hc']; exact List.mem_append_right _ hn)) d rest (by rw [a4, hc']) (by
    rw [e1, hc, List.append_assoc, streamOf_app] at hl2
    simp only [List.length_append] at hl2 ⊢
    omega)
  have hst : v.step env (.receive d) = .ret (Cli.onMbaps env { v with parser := p2, log := v.log ++ [.data d] } (c ++ m :: after1)) := by
    simp only [Cli.step, Cli.onReceive]
    rw [if_neg (show ¬ (v.emit (.data d)).isShutdown = true by simp [Cli.emit, hsd])]
    have b1' : (v.emit (.data d)).parser.parse d = .ret (p2, c ++ m :: after1) := hparse
    rw [b1']
    rfl
  rw [hst] at hstep
  injection hstep with hstep; subst hstep
  exact onMbaps_deliver r c { v with parser := p2, log := v.log ++ [.data d] } m after1 hsd hr
    (fun n hn => by rw [← hru, ← hrt] at hfirst; exact hfirst n (by rw [hc]; exact List.mem_append_right _ hn)) hrt.symm hru.symm

/-- The same for the whole client. -/
theorem Stk_run_in_stream {env : StkEnv} {v : Stk} (h : KReach env v) (hs : CEv.tcpShutdown ∉ chLog v.log) {u : Nat} {bytes : List UInt8} {t : Nat}
    {q : AnyReq} {tmo : Nat} {before after : List Mbap} {m : Mbap} (h1 : CEv.sent u bytes t ∈ chLog v.log) (h2 : u ∉ handledUids (chLog v.log))
    (h3 : CEv.call u m.unit q tmo ∈ chLog v.log) (h4 : IsRequestFrame m.unit m.tid q bytes) (ho : ∀ n ∈ before ++ m :: after, Ordinary n)
    {d rest : List UInt8} (hd : (rxChunks (netLog v.log)).flatten ++ (d ++ rest) = streamOf ((before ++ m :: after).map frameOf))
    (hl1 : (rxChunks (netLog v.log)).flatten.length < (streamOf ((before ++ [m]).map frameOf)).length)
    (hl2 : (streamOf ((before ++ [m]).map frameOf)).length ≤ ((rxChunks (netLog v.log)).flatten ++ d).length)
    (hfirst : ∀ n ∈ before, ¬ (n.tid = m.tid ∧ n.unit = m.unit)) {k c : Nat} (hk : v.tcp.queue[k]? = some (.read c (.data d))) :
    ∃ v', v.step env (.run k) = .ret v' ∧ CEv.handler u (.ok m.data) v.cli.now ∈ chLog v'.log := by
  obtain ⟨v', hstep⟩ := Stk.step_total h (.run k) (by simp)
  have hd' : v.tcp.isShutdown = false := by
    cases hd : v.tcp.isShutdown with
    | false => rfl
    | true => exact absurd (h.proj.micro.down_by (Or.inl hd)) hs
  refine ⟨v', hstep, ?_⟩
  have hp := h.proj
  have hch := hp.micro.chunks.1 (by simp)
  simp only [Micro.owed, List.append_nil] at hch
  rw [(h.step hstep).proj.cli]
  obtain ⟨t', new, a1, a2, a3⟩ := Stk.step_run_cli hp hstep
  have hnew : new = [.receive c d] := by
    simp only [Tcp.step, hk, Tcp.runTask] at a1
    injection a1 with a1; subst a1
    rw [Tcp.onRead_data (v := { v.tcp with queue := v.tcp.queue.eraseIdx k }) hd'] at a2
    exact (List.append_cancel_left a2).symm
  subst hnew
  rw [hp.cli] at hs h1 h2 h3 hch
  rcases a3 with ⟨a, -⟩ | ⟨c', d', -, -, h, b⟩ | ⟨c', cur, -, h, -⟩
  · exact absurd rfl ((a _ (List.mem_singleton.2 rfl)).1 _ _)
  · injection h with h
    injection h with _ h; subst h
    rw [← hch] at hd hl1 hl2
    exact Cli_receive_in_stream hp.reach hs h1 h2 h3 h4 ho hd hl1 hl2 hfirst b
  · cases h

theorem rx_of_connection {env : StkEnv} {v : Stk} (h : KReach env v) (hf : Throughout (fun t op => FreshStarts t op ∧ NoEof t op) v)
    {pre : List KEv} {c : Nat} {post : List KEv} (hl : v.log = pre ++ .net (.attempt c) :: post)
    (he : ∀ c' cur, KEv.net (.error c' cur) ∉ post) (hr : ∀ c' d, KEv.net (.receive c' d) ∈ post → c' = c) :
    rxChunks (netLog v.log) = tcpReceived c (netLog post) := by
  have mem : ∀ {e : TEv}, e ∈ netLog post → KEv.net e ∈ post := by
    intro e hm
    simp only [netLog, List.mem_filterMap] at hm
    obtain ⟨x, hx, hx'⟩ := hm
    cases x with
    | ch => cases hx'
    | net e' => injection hx' with hx'; rw [← hx']; exact hx
  have : netLog v.log = (netLog pre ++ [.attempt c]) ++ netLog post := by rw [hl]; simp
  rw [this, rxChunks_since (c := c) _ _ (fun c' cur hm => he c' cur (mem hm)) (fun c' d hm => hr c' d (mem hm)), rxChunks_quiet (by simp),
    rx_since h hf hl, List.nil_append]

/-- C86 (part). If no connection ever ends in an orderly way (only by errors) and no connection attempt is started before everything about the
earlier connections is over: let the bytes that the server sends on a connection be the frames of some messages (any number, in whatever
pieces); the first of them that has the unit and the transaction identifier of the outstanding request is delivered when its last byte is
received.
Missing from C86: connections closed by the server in an orderly way (`C86_violated`), and left-over events. -/
theorem C86_answers_partial (env : StkEnv) (v : Stk) (h : KReach env v) (hf : Throughout (fun t op => FreshStarts t op ∧ NoEof t op) v)
    (hs : CEv.tcpShutdown ∉ chLog v.log) (pre : List KEv) (c : Nat) (post : List KEv) (hl : v.log = pre ++ .net (.attempt c) :: post)
    (he : ∀ c' cur, KEv.net (.error c' cur) ∉ post) (hr : ∀ c' d, KEv.net (.receive c' d) ∈ post → c' = c)
    (u : Nat) (bytes : List UInt8) (t : Nat) (unit : UInt8) (tid : UInt16) (q : AnyReq) (tmo : Nat) (pdu d rest : List UInt8) (k : Nat)
    (h1 : CEv.sent u bytes t ∈ chLog v.log) (h2 : u ∉ handledUids (chLog v.log)) (h3 : CEv.call u unit q tmo ∈ chLog v.log)
    (h4 : IsRequestFrame unit tid q bytes) (before after : List Mbap) (ho : ∀ n ∈ before ++ ⟨unit, tid, pdu⟩ :: after, Ordinary n)
    (hfirst : ∀ n ∈ before, ¬ (n.tid = tid ∧ n.unit = unit))
    (hd : (tcpReceived c (netLog post)).flatten ++ (d ++ rest) = streamOf ((before ++ (⟨unit, tid, pdu⟩ : Mbap) :: after).map frameOf))
    (hl1 : (tcpReceived c (netLog post)).flatten.length < (streamOf ((before ++ [(⟨unit, tid, pdu⟩ : Mbap)]).map frameOf)).length)
    (hl2 : (streamOf ((before ++ [(⟨unit, tid, pdu⟩ : Mbap)]).map frameOf)).length ≤ ((tcpReceived c (netLog post)).flatten ++ d).length)
    (hk : v.tcp.queue[k]? = some (.read c (.data d))) :
    ∃ v', v.step env (.run k) = .ret v' ∧ CEv.handler u (.ok pdu) v.cli.now ∈ chLog v'.log := by
  rw [← rx_of_connection h hf hl he hr] at hd hl1 hl2
  exact Stk_run_in_stream (m := ⟨unit, tid, pdu⟩) h hs h1 h2 h3 h4 ho hd hl1 hl2 hfirst hk

/-- A message for another unit and the beginning of the answer have been received on the first connection; the rest of the answer and the
beginning of a further message have arrived. -/
def strayFirst : List Stk.Op := ksub ++ kcon ++ [.complete 0 (.sent 12), .run 0, .complete 0 (.data ([0, 0, 0, 0, 0, 6, 2, 5, 0, 5, 255, 0] ++ [0, 0, 0])), .run 0,
  .complete 0 (.data ([0, 0, 6, 1, 5, 0, 5, 255, 0] ++ [0, 7]))]

example : ∃ v, KReach kenv v ∧ Throughout (fun t op => FreshStarts t op ∧ NoEof t op) v ∧
    (decide (v.log = [.ch (.call 0 1 kreq 10), .ch (.sent 0 (kframe 0) 0), .net (.asked (kframe 0)), .net (.attempt 1)] ++ [.net (.submit 1 (kframe 0)),
      .net (.wire 1 (kframe 0)), .net .writeDone, .net (.receive 1 ([0, 0, 0, 0, 0, 6, 2, 5, 0, 5, 255, 0] ++ [0, 0, 0])),
      .ch (.data ([0, 0, 0, 0, 0, 6, 2, 5, 0, 5, 255, 0] ++ [0, 0, 0])), .ch (.mbap ⟨2, 0, [5, 0, 5, 255, 0]⟩)]) &&
      v.tcp.queue == [.read 1 (.data ([0, 0, 6, 1, 5, 0, 5, 255, 0] ++ [0, 7]))]) = true := by
  obtain ⟨v, -, h⟩ := kdemo_run (P := fun t op => FreshStarts t op ∧ NoEof t op) (chk := fun t op => freshChk t op && noEofChk op) (env := kenv)
    (ops := strayFirst) (Q := fun v => decide (v.log = [.ch (.call 0 1 kreq 10), .ch (.sent 0 (kframe 0) 0), .net (.asked (kframe 0)), .net (.attempt 1)] ++
      [.net (.submit 1 (kframe 0)),
      .net (.wire 1 (kframe 0)), .net .writeDone, .net (.receive 1 ([0, 0, 0, 0, 0, 6, 2, 5, 0, 5, 255, 0] ++ [0, 0, 0])),
      .ch (.data ([0, 0, 0, 0, 0, 6, 2, 5, 0, 5, 255, 0] ++ [0, 0, 0])), .ch (.mbap ⟨2, 0, [5, 0, 5, 255, 0]⟩)]) &&
      v.tcp.queue == [.read 1 (.data ([0, 0, 6, 1, 5, 0, 5, 255, 0] ++ [0, 7]))])
    (fun t op h => by
      simp only [Bool.and_eq_true] at h
      exact ⟨freshChk_spec t op h.1, noEofChk_spec t op h.2⟩) (by decide +kernel)
  exact ⟨v, h⟩

/-- The bytes in the example are the frames of three messages, cut in the third. -/
example : ([0, 0, 0, 0, 0, 6, 2, 5, 0, 5, 255, 0] ++ [0, 0, 0]) ++ (([0, 0, 6, 1, 5, 0, 5, 255, 0] ++ [0, 7]) ++ [0, 0, 0, 2, 1, 9]) =
    streamOf (([⟨2, 0, [5, 0, 5, 255, 0]⟩] ++ ⟨1, 0, [5, 0, 5, 255, 0]⟩ :: [⟨1, 7, [9]⟩] : List Mbap).map frameOf) := by decide +kernel

/-! ### C88 on an open connection -/

/-- On the open connection: a request is submitted, its frame is written, and `d` is received. -/
def openExchange (unit : UInt8) (q : AnyReq) (tmo n : Nat) (d : List UInt8) : List Stk.Op :=
  [.chan (.submit unit q tmo), .chan .runTask, .complete 1 (.sent n), .run 0] ++ [.complete 0 (.data d), .run 0]

/-- C88 (part). If no connection ended in an orderly way and no attempt was started before everything about the earlier connections was over:
when nothing is to be done but to read from the connection, on which only whole messages were received, and then everything goes well, a
submitted request is transmitted on that connection and its answer delivered.
Missing from C88: histories with orderly closes and left-over events (`C86_violated`). -/
theorem C88_next_exchange_partial (env : StkEnv) (v : Stk) (h : KReach env v) (hf : Throughout (fun t op => FreshStarts t op ∧ NoEof t op) v)
    (hs : CEv.tcpShutdown ∉ chLog v.log) (pre : List KEv) (c : Nat) (post : List KEv) (hl : v.log = pre ++ .net (.attempt c) :: post)
    (he : ∀ c' cur, KEv.net (.error c' cur) ∉ post) (hr : ∀ c' d, KEv.net (.receive c' d) ∈ post → c' = c)
    (hq : v.tcp.queue = []) (hfl : v.tcp.flying = [.read c]) (ht : v.cli.tasks = []) (hw : waiting v.cli = [])
    (msgs : List Mbap) (hm : ∀ m ∈ msgs, Ordinary m) (hrx : (tcpReceived c (netLog post)).flatten = streamOf (msgs.map frameOf))
    (unit : UInt8) (q : AnyReq) (tmo : Nat) (ha : Allowed q) :
    ∃ tid bytes, IsRequestFrame unit tid q bytes ∧ ∀ pdu : List UInt8, 1 ≤ pdu.length → pdu.length ≤ 253 →
      ∃ v', v.run env (openExchange unit q tmo bytes.length (frameOf ⟨unit, tid, pdu⟩).bytes) = .ret v' ∧
        netLog v'.log = netLog v.log ++ [.asked bytes, .submit c bytes, .wire c bytes, .writeDone, .receive c (frameOf ⟨unit, tid, pdu⟩).bytes] ∧
        CEv.handler v.cli.nextUid (.ok pdu) v.cli.now ∈ chLog v'.log ∧
        v'.tcp.queue = [] ∧ v'.tcp.flying = [.read c] ∧ v'.cli.tasks = [] ∧ waiting v'.cli = [] := by
  have hp := h.proj
  have hd' : v.tcp.isShutdown = false := by
    cases hd : v.tcp.isShutdown with
    | false => rfl
    | true => exact absurd (hp.micro.down_by (Or.inl hd)) hs
  obtain ⟨c1, c2, c3⟩ := reading_connected (fun _ _ h => h.1) (tcp_through h hf) hd' (c := c) (by rw [hfl]; simp)
  have hch := hp.micro.chunks.1 (by simp)
  simp only [Micro.owed, List.append_nil] at hch
  have htalk : v.Talks c := ⟨hs, ht, hw, ⟨hd', c1, c2, c3, hfl, hq⟩, msgs, hm, by rw [hch, rx_of_connection h hf hl he hr]; exact hrx⟩
  obtain ⟨tid, bytes, v1, b1, b2, b3, b4, b5, b6, b7⟩ := htalk.asks h unit q tmo ha
  have r1 := Stk.run_reach _ h b2
  refine ⟨tid, bytes, b1, fun pdu hp1 hp2 => ?_⟩
  obtain ⟨v2, v3, e1, e2, e3, e4, e5, -, -⟩ := b5.hears r1 (pdu := pdu) ⟨hp1, hp2⟩
  refine ⟨v3, ?_, ?_, ?_, e3.on.queue, e3.on.flying, e3.tasks, e3.idle⟩
  · rw [openExchange, Stk.run_append, b2]
    simp only [CM.bind, Stk.run, e1, e2, CM.ret_bind]
  · rw [e5, b4]; simp
  · rw [e4, b6]; simp

example : ∃ v, KReach kenv v ∧ Throughout (fun t op => FreshStarts t op ∧ NoEof t op) v ∧
    (decide (v.log = [.ch (.call 0 1 kreq 10), .ch (.sent 0 (kframe 0) 0), .net (.asked (kframe 0)), .net (.attempt 1)] ++ [.net (.submit 1 (kframe 0)),
      .net (.wire 1 (kframe 0)), .net .writeDone, .net (.receive 1 (frameOf ⟨1, 0, [5, 0, 5, 255, 0]⟩).bytes),
      .ch (.data (frameOf ⟨1, 0, [5, 0, 5, 255, 0]⟩).bytes), .ch (.mbap ⟨1, 0, [5, 0, 5, 255, 0]⟩), .ch (.handler 0 (.ok [5, 0, 5, 255, 0]) 0)]) &&
      v.tcp.queue == [] && v.tcp.flying == [.read 1] && decide (v.cli.tasks = []) && waiting v.cli == []) = true := by
  obtain ⟨v, -, h⟩ := kdemo_run (P := fun t op => FreshStarts t op ∧ NoEof t op) (chk := fun t op => freshChk t op && noEofChk op) (env := kenv)
    (ops := ksub ++ kcon ++ [.complete 0 (.sent 12), .run 0, .complete 0 (.data (frameOf ⟨1, 0, [5, 0, 5, 255, 0]⟩).bytes), .run 0])
    (Q := fun v => decide (v.log = [.ch (.call 0 1 kreq 10), .ch (.sent 0 (kframe 0) 0), .net (.asked (kframe 0)), .net (.attempt 1)] ++
      [.net (.submit 1 (kframe 0)),
      .net (.wire 1 (kframe 0)), .net .writeDone, .net (.receive 1 (frameOf ⟨1, 0, [5, 0, 5, 255, 0]⟩).bytes),
      .ch (.data (frameOf ⟨1, 0, [5, 0, 5, 255, 0]⟩).bytes), .ch (.mbap ⟨1, 0, [5, 0, 5, 255, 0]⟩), .ch (.handler 0 (.ok [5, 0, 5, 255, 0]) 0)]) &&
      v.tcp.queue == [] && v.tcp.flying == [.read 1] && decide (v.cli.tasks = []) && waiting v.cli == [])
    (fun t op h => by
      simp only [Bool.and_eq_true] at h
      exact ⟨freshChk_spec t op h.1, noEofChk_spec t op h.2⟩) (by decide +kernel)
  exact ⟨v, h⟩

end Modbus.Props
