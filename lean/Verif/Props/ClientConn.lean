import Verif.Lemmas.ClientConn
import Verif.Props.Mbap

/-! C62 – C67: the client's TCP connection (reconnecting, framing across connections, writes, left-over events, shutdown). -/

namespace Modbus.Props

open Modbus.Spec Modbus.Tcp

/-! ### Concrete histories -/

/-- Runs a history, checking every step. -/
def runChk (chk : Tcp → Tcp.Op → Bool) (v : Tcp) : List Tcp.Op → Option Tcp
  | [] => some v
  | op :: ops =>
    if chk v op then
      match v.step op with
      | .ub => none
      | .ret v' => runChk chk v' ops
    else none

theorem runChk_reach {P : Tcp → Tcp.Op → Prop} {chk : Tcp → Tcp.Op → Bool} (hc : ∀ v op, chk v op = true → P v op) {v v' : Tcp} {ops : List Tcp.Op}
    (h : runChk chk v ops = some v') (hr : TcpReach P v) : TcpReach P v' := by
  induction ops generalizing v with
  | nil => injection h with h; subst h; exact hr
  | cons op ops ih =>
    simp only [runChk] at h
    split at h
    · rename_i hch
      cases hs : v.step op with
      | ub => rw [hs] at h; cases h
      | ret v1 => rw [hs] at h; exact ih h (hr.step (hc _ _ hch) hs)
    · cases h

theorem chk_demo {P : Tcp → Tcp.Op → Prop} {chk : Tcp → Tcp.Op → Bool} (hc : ∀ v op, chk v op = true → P v op) (ops : List Tcp.Op) (Q : Tcp → Bool)
    (h : (runChk chk Tcp.init ops).any Q = true) : ∃ v, TcpReach P v ∧ Q v = true := by
  cases hr : runChk chk Tcp.init ops with
  | none => rw [hr] at h; cases h
  | some v => rw [hr] at h; exact ⟨v, runChk_reach hc hr .init, h⟩

theorem any_demo (ops : List Tcp.Op) (Q : Tcp → Bool) (h : (runChk (fun _ _ => true) Tcp.init ops).any Q = true) : ∃ v, TcpReach anyTcp v ∧ Q v = true :=
  chk_demo (fun _ _ _ => trivial) ops Q h

def freshChk (v : Tcp) : Tcp.Op → Bool
  | .send _ _ => v.status != .notConnected || v.isOpen ||
      (v.flying.all isAttemptOp && v.queue.all fun t => t == .shutdown || isAttemptTask t)
  | _ => true

theorem freshChk_spec (v : Tcp) (op : Tcp.Op) (h : freshChk v op = true) : FreshStarts v op := by
  intro data loc hop hst ho
  subst hop
  simp only [freshChk, hst, ho, bne_self_eq_false, Bool.false_or, Bool.or_self, Bool.and_eq_true, List.all_eq_true] at h
  refine ⟨fun o hm => ?_, fun t hm => ?_⟩
  · have := h.1 o hm
    cases o <;> simp [isAttemptOp] at this
    · exact ⟨_, Or.inl rfl⟩
    · exact ⟨_, Or.inr rfl⟩
  · have := h.2 t hm
    cases t <;> simp [isAttemptTask] at this
    · exact Or.inl rfl
    · exact Or.inr (Or.inl ⟨_, _, rfl⟩)
    · exact Or.inr (Or.inr ⟨_, _, rfl⟩)

def patientChk (v : Tcp) : Tcp.Op → Bool
  | .send _ _ => !(v.flying.any isWriteOp) && !(v.queue.any isWrittenTask)
  | .complete i (.sent n) =>
    match v.flying[i]? with
    | some (.write _ _ d) => n == d.length
    | _ => true
  | _ => true

theorem patientChk_spec (v : Tcp) (op : Tcp.Op) (h : patientChk v op = true) : Patient v op := by
  refine ⟨fun data loc hop => ?_, fun i n c b d hop hf => ?_⟩
  · subst hop
    simp only [patientChk, Bool.and_eq_true, Bool.not_eq_true', List.any_eq_false] at h
    rintro (⟨c, b, d, hm⟩ | ⟨c, ok, hm⟩)
    · exact absurd rfl (h.1 _ hm)
    · exact absurd rfl (h.2 _ hm)
  · subst hop
    simpa [patientChk, hf] using h

def noEofChk : Tcp.Op → Bool
  | .complete _ .eof => false
  | _ => true

theorem noEofChk_spec (v : Tcp) (op : Tcp.Op) (h : noEofChk op = true) : NoEof v op := by
  intro i hop; subst hop; cases h

def localChk (v : Tcp) : Tcp.Op → Bool
  | .send _ loc => loc == .ok
  | .complete i .error =>
    match v.flying[i]? with
    | some (.resolve _) => false
    | _ => true
  | _ => true

theorem localChk_spec (v : Tcp) (op : Tcp.Op) (h : localChk v op = true) : NoLocalFailure v op := by
  refine ⟨fun data loc hop => ?_, fun i c hop hf => ?_⟩
  · subst hop; simpa [localChk] using h
  · subst hop; simp [localChk, hf] at h

/-- A connection is opened, data goes out and comes in, the connection breaks (the pending read fails), everything settles, and a
second connection is opened. -/
def twoConnections : List Tcp.Op :=
  [.send [1, 2] .ok, .complete 0 .ok, .run 0, .complete 0 .ok, .run 0, .complete 0 (.sent 2), .run 0,
   .complete 0 (.data [0, 1, 0]), .run 0, .run 0, .complete 0 .error, .run 0, .run 0,
   .send [3, 4] .ok, .complete 0 .ok, .run 0, .complete 0 .ok, .run 0, .complete 0 (.sent 2), .run 0,
   .complete 0 (.data [7]), .run 0, .run 0]

/-! ### C62 -/

/-- When nothing is in progress and every event has been handled, a request makes the client attempt a new connection. -/
def C62_Statement : Prop := ∀ v, TcpReach anyTcp v → v.isShutdown = false → v.queue = [] → v.flying = [] →
  ∀ data, ∃ c, (v.send data .ok).log = v.log ++ [.asked data, .attempt c]

/-- C62 does not hold: after a failure to resolve the address the socket stays open, and every later attempt to open it fails. -/
theorem C62_violated : ¬C62_Statement := by
  intro h
  obtain ⟨v, hr, hq⟩ := any_demo [.send [1] .ok, .complete 0 .error, .run 0]
    (fun v => !v.isShutdown && v.queue == [] && v.flying == [] && (v.send [2] .ok).log == [.asked [1], .attempt 1, .error 1 1, .asked [2], .gaveUp] &&
      v.log == [.asked [1], .attempt 1, .error 1 1]) (by decide +kernel)
  simp only [Bool.and_eq_true, Bool.not_eq_true', beq_iff_eq] at hq
  obtain ⟨⟨⟨⟨h1, h2⟩, h3⟩, h4⟩, h5⟩ := hq
  obtain ⟨c, hc⟩ := h v hr h1 h2 h3 [2]
  rw [h4, h5] at hc
  simp at hc

/-- C62, how bad it is: once a resolve or a bind has failed, no history whatsoever makes the client attempt a connection or send
anything again. -/
theorem C62_stuck_forever : ∀ first ∈ [[Tcp.Op.send [1] .ok, .complete 0 .error, .run 0], [Tcp.Op.send [1] .bindFails]],
    ∃ v, Tcp.init.run first = .ret v ∧ v.isShutdown = false ∧
      ∀ ops, ∃ v' es, v.run ops = .ret v' ∧ v'.log = v.log ++ es ∧ ∀ e ∈ es, (∃ d, e = .asked d) ∨ e = .gaveUp := by
  intro first hf
  have key : ∀ v : Tcp, Dead v → ∀ ops, ∃ v' es, v.run ops = .ret v' ∧ v'.log = v.log ++ es ∧ ∀ e ∈ es, (∃ d, e = .asked d) ∨ e = .gaveUp := by
    intro v hv ops
    obtain ⟨v', h1, -, es, h2, h3⟩ := hv.run ops
    exact ⟨v', es, h1, h2, h3⟩
  simp only [List.mem_cons, List.not_mem_nil, or_false] at hf
  rcases hf with rfl | rfl
  · exact ⟨_, rfl, rfl, key _ ⟨rfl, rfl, rfl, fun t ht => nomatch ht⟩⟩
  · exact ⟨_, rfl, rfl, key _ ⟨rfl, rfl, rfl, fun t ht => nomatch ht⟩⟩

/-- C62 (part). Unless the local socket fails or the address cannot be resolved: when nothing is in progress any more, the next
request attempts a new connection; and an established connection is always listened to.
Missing from C62: failures to resolve, and failures of the local socket (both leave the client dead, `C62_stuck_forever`). -/
theorem C62_reconnects_partial (v : Tcp) (h : TcpReach NoLocalFailure v) (hd : v.isShutdown = false) (hq : v.queue = []) :
    (v.flying = [] → ∀ data, (v.send data .ok).log = v.log ++ [.asked data, .attempt (v.conn + 1)]) ∧
    (v.status = .connected → ∃ c, TOp.read c ∈ v.flying) ∧
    (v.status = .connecting → (∃ c, TOp.resolve c ∈ v.flying) ∨ ∃ c, TOp.connect c ∈ v.flying) := by
  have hl := (h.live (fun _ _ h => h)).resolve_left (by simp [hd])
  refine ⟨fun hf data => ?_, fun hst => ?_, fun hst => ?_⟩
  · have hng : ¬Going v := by
      rintro (⟨c, h⟩ | ⟨c, h⟩ | ⟨c, h⟩ | ⟨c, ok, h⟩ | ⟨c, h⟩) <;> simp [hf, hq] at h
    have hst : v.status = .notConnected := by
      cases hs : v.status with
      | notConnected => rfl
      | connecting => exact absurd (hl.connecting hs) hng
      | connected => rcases hl.connected hs with ⟨c, h⟩ | ⟨c, r, h⟩ | ⟨c, h⟩ <;> simp [hf, hq] at h
    have ho : v.isOpen = false := by
      cases ho : v.isOpen with
      | false => rfl
      | true => exact absurd (hl.closing hst ho) hng
    rw [send_start hd hst ho]
    simp [Tcp.ask, Tcp.emit]
  · rcases hl.connected hst with ⟨c, h⟩ | ⟨c, r, h⟩ | ⟨c, h⟩
    · exact ⟨c, h⟩
    · simp [hq] at h
    · simp [hq] at h
  · rcases hl.connecting hst with ⟨c, h⟩ | ⟨c, h⟩ | ⟨c, h⟩ | ⟨c, ok, h⟩ | ⟨c, h⟩
    · exact Or.inl ⟨c, h⟩
    · exact Or.inr ⟨c, h⟩
    all_goals simp [hq] at h

example : ∃ v, TcpReach NoLocalFailure v ∧ (!v.isShutdown && v.queue == [] && v.flying == [] && v.conn == 1) = true :=
  chk_demo localChk_spec (twoConnections.take 13) _ (by decide +kernel)

example : ∃ v, TcpReach NoLocalFailure v ∧ (!v.isShutdown && v.queue == [] && v.status == .connected && v.conn == 2) = true :=
  chk_demo localChk_spec twoConnections _ (by decide +kernel)

/-- C62 (part). In every history: a failed connect, a failed or ended read and a failed write each make the client close the
connection; and as soon as a close has been carried out, the next request attempts a new connection. -/
theorem C62_failure_leads_to_reconnect_partial (v : Tcp) (hd : v.isShutdown = false) :
    (∀ k c t, v.queue[k]? = some t → t = .connected c false ∨ t = .read c .eof ∨ t = .read c .error ∨ t = .written c false →
      ∃ v', v.step (.run k) = .ret v' ∧ TTask.close c ∈ v'.queue) ∧
    (∀ k c, v.queue[k]? = some (.close c) → ∃ v', v.step (.run k) = .ret v' ∧
      ∀ data, (v'.send data .ok).log = v'.log ++ [.asked data, .attempt (v'.conn + 1)]) := by
  refine ⟨fun k c t hk ht => ?_, fun k c hk => ?_⟩
  · refine ⟨_, by simp only [Tcp.step, hk]; rfl, ?_⟩
    rcases ht with rfl | rfl | rfl | rfl <;> simp only [Tcp.runTask]
    · rw [onConnected_err (v := { v with queue := v.queue.eraseIdx k }) hd]; simp [Tcp.post, Tcp.emit]
    · rw [onRead_eof (v := { v with queue := v.queue.eraseIdx k }) hd]; simp [Tcp.post]
    · rw [onRead_error (v := { v with queue := v.queue.eraseIdx k }) hd]; simp [Tcp.post, Tcp.emit]
    · rw [onWritten_err (v := { v with queue := v.queue.eraseIdx k }) hd]; simp [Tcp.post, Tcp.emit]
  · refine ⟨_, by simp only [Tcp.step, hk]; rfl, fun data => ?_⟩
    simp only [Tcp.runTask]
    obtain ⟨w, hw⟩ : ∃ w, w = { v with queue := v.queue.eraseIdx k } := ⟨_, rfl⟩
    have hwd : w.isShutdown = false := by rw [hw]; exact hd
    rw [← hw]
    cases ho : w.isOpen with
    | true =>
      rw [runClose_open hwd ho, send_start (by exact hwd) rfl rfl]
      simp [Tcp.ask, Tcp.emit]
    | false =>
      rw [runClose_closed hwd ho, send_start (by exact hwd) rfl (by exact ho)]
      simp [Tcp.ask, Tcp.emit]

example : ∃ v, TcpReach anyTcp v ∧ (!v.isShutdown && v.queue == [.read 1 .error]) = true := any_demo (twoConnections.take 11) _ (by decide +kernel)

example : ∃ v, TcpReach anyTcp v ∧ (!v.isShutdown && v.queue == [.close 1] && v.isOpen) = true := any_demo (twoConnections.take 12) _ (by decide +kernel)

/-! ### C63 -/

/-- Whatever the receiver contained before, the messages delivered after the start of a connection attempt are those a new receiver
would deliver. -/
def C63_Statement (pol : CopyPolicy) : Prop := ∀ v, TcpReach anyTcp v → ∀ pre c post, v.log = pre ++ .attempt c :: post →
  ∀ mem mem' : List UInt8, mem.length = 260 → mem'.length = 260 →
    ∃ p1 out1 p2 out2 p3, framing (Parser.init pol mem) pre = .ret (p1, out1) ∧ framing (Parser.init pol mem') post = .ret (p2, out2) ∧
      framing (Parser.init pol mem) v.log = .ret (p3, out1 ++ out2)

/-- The first connection ends (in an orderly way) after three bytes; the second delivers a complete frame. -/
def cutFrame : List Tcp.Op :=
  [.send [1] .ok, .complete 0 .ok, .run 0, .complete 0 .ok, .run 0, .complete 0 (.sent 1), .run 0,
   .complete 0 (.data [0, 1, 0]), .run 0, .run 0, .complete 0 .eof, .run 0, .run 0,
   .send [2] .ok, .complete 0 .ok, .run 0, .complete 0 .ok, .run 0, .complete 0 (.sent 1), .run 0,
   .complete 0 (.data [0, 2, 0, 0, 0, 3, 9, 3, 5]), .run 0, .run 0]

/-- The log up to the second attempt, and after it. -/
def cutPre : List TEv := [.asked [1], .attempt 1, .submit 1 [1], .wire 1 [1], .writeDone, .receive 1 [0, 1, 0], .closed 1 1, .asked [2]]

/-- The log after the second attempt. -/
def cutPost : List TEv := [.submit 2 [2], .wire 2 [1 + 1], .writeDone, .receive 2 [0, 2, 0, 0, 0, 3, 9, 3, 5]]

/-- The messages delivered. -/
def framed (p : Parser) (es : List TEv) : Option (List Mbap) :=
  match framing p es with
  | .ub => none
  | .ret (_, out) => some out

/-- C63 does not hold: when a connection ends in the middle of a frame, the rest of the frame is taken from the next connection. -/
theorem C63_violated (pol : CopyPolicy) : ¬C63_Statement pol := by
  intro h
  obtain ⟨v, hr, hq⟩ := any_demo cutFrame (fun v => v.log == cutPre ++ .attempt 2 :: cutPost) (by decide +kernel)
  have hl : v.log = cutPre ++ .attempt 2 :: cutPost := by simpa using hq
  obtain ⟨p1, out1, p2, out2, p3, h1, h2, h3⟩ := h v hr _ _ _ hl (List.replicate 260 0) (List.replicate 260 0) List.length_replicate List.length_replicate
  rw [hl] at h3
  have e1 : framed (Parser.init pol (List.replicate 260 0)) cutPre = some [] := by cases pol <;> decide +kernel
  have e2 : framed (Parser.init pol (List.replicate 260 0)) cutPost = some [⟨9, 2, [3, 5]⟩] := by cases pol <;> decide +kernel
  have e3 : framed (Parser.init pol (List.replicate 260 0)) (cutPre ++ .attempt 2 :: cutPost) = some [] := by cases pol <;> decide +kernel
  simp only [framed, h1, h2, h3, Option.some.injEq] at e1 e2 e3
  rw [e1, e2] at e3
  simp at e3

/-- C63 (part). If no connection ever ends in an orderly way (only by errors), every attempt is started after everything about the
earlier connections is over, and the frames received after the attempt fit the receiver, then the messages delivered after the start of
an attempt are those a new receiver would deliver.
Missing from C63: orderly ends of the stream (`C63_violated`), and histories in which left-over events arrive during the next
connection. -/
theorem C63_clean_framing_partial (pol : CopyPolicy) (v : Tcp) (h : TcpReach (fun v op => FreshStarts v op ∧ NoEof v op) v) (pre : List TEv) (c : Nat)
    (post : List TEv) (hl : v.log = pre ++ .attempt c :: post) (mem mem' : List UInt8) (hm : mem.length = 260) (hm' : mem'.length = 260)
    (hfit : pol = .truncate ∨ ∀ s ∈ rxSegments post, ∀ fs pend, Splits s.flatten fs pend → ∀ f ∈ fs, f.isModbus = true → f.Fits) :
    ∃ p1 out1 p2 out2 p3, framing (Parser.init pol mem) pre = .ret (p1, out1) ∧ framing (Parser.init pol mem') post = .ret (p2, out2) ∧
      framing (Parser.init pol mem) v.log = .ret (p3, out1 ++ out2) := by
  have hclean := h.rx (fun _ _ h => h) pre c post hl
  obtain ⟨p1, out1, pend1, a1, a2, a3, a4⟩ := framing_fresh (pol := pol) pre _ false [] (rep_init pol mem hm) rfl (fun _ => ⟨mem, hm, rfl⟩)
  obtain ⟨mem1, hm1, rfl⟩ := a4 hclean
  have key : ∀ ss : List (List (List UInt8)), (pol = .truncate ∨ ∀ s ∈ ss, ∀ fs pend, Splits s.flatten fs pend → ∀ f ∈ fs, f.isModbus = true → f.Fits) →
      ∀ m1 m2 : List UInt8, m1.length = 260 → m2.length = 260 →
      ∃ q1 q2 out, framingSegs (Parser.init pol m1) ss = .ret (q1, out) ∧ framingSegs (Parser.init pol m2) ss = .ret (q2, out) := by
    intro ss
    induction ss with
    | nil => intro _ m1 m2 _ _; exact ⟨_, _, [], rfl, rfl⟩
    | cons s ss ih =>
      intro hf m1 m2 h1 h2
      obtain ⟨q1, o1, pd1, b1, b2, b3⟩ := feed_rep (rep_init pol m1 h1) s
      obtain ⟨q2, o2, pd2, c1, c2, c3⟩ := feed_rep (rep_init pol m2 h2) s
      have ho : o1 = o2 := C16_segmentation_invariant_partial pol m1 m2 h1 h2 s s rfl (hf.imp id fun hf => hf s (by simp)) o1 o2 ⟨q1, b1⟩ ⟨q2, c1⟩
      subst ho
      cases ss with
      | nil => exact ⟨q1, q2, o1, b1, c1⟩
      | cons s2 ss =>
        have e1 : q1.reset = Parser.init pol q1.view.mem := by
          have : q1.pol = pol := b3
          rw [← this]; rfl
        have e2 : q2.reset = Parser.init pol q2.view.mem := by
          have : q2.pol = pol := c3
          rw [← this]; rfl
        obtain ⟨r1, r2, o, d1, d2⟩ := ih (hf.imp id fun hf s hs => hf s (by simp [hs])) q1.view.mem q2.view.mem b2.mem_length c2.mem_length
        refine ⟨r1, r2, o1 ++ o, ?_, ?_⟩
        · simp only [framingSegs, b1, CM.ret_bind, e1, d1, CM.pure_eq]
        · simp only [framingSegs, c1, CM.ret_bind, e2, d2, CM.pure_eq]
  obtain ⟨q1, q2, out, k1, k2⟩ := key (rxSegments post) hfit mem1 mem' hm1 hm'
  rw [← framing_segs] at k1 k2
  refine ⟨_, out1, q2, out, q1, a1, k2, ?_⟩
  have hat : framing (Parser.init pol mem1) (.attempt c :: post) = .ret (q1, out) := by simpa [framing] using k1
  rw [hl, framing_append, a1]
  simp [CM.bind, hat]

/-- The hypotheses can be met after a connection was cut in the middle of a frame by an error. -/
example : ∃ v, TcpReach (fun v op => FreshStarts v op ∧ NoEof v op) v ∧
    (v.log == [.asked [1, 2], .attempt 1, .submit 1 [1, 2], .wire 1 [1, 2], .writeDone, .receive 1 [0, 1, 0], .error 1 1, .closed 1 1, .asked [3, 4],
      .attempt 2, .submit 2 [3, 4], .wire 2 [3, 4], .writeDone, .receive 2 [7]]) = true :=
  chk_demo (chk := fun v op => freshChk v op && noEofChk op) (fun v op h => by
    simp only [Bool.and_eq_true] at h
    exact ⟨freshChk_spec v op h.1, noEofChk_spec v op h.2⟩) twoConnections _ (by decide +kernel)

/-! ### C64 -/

/-- Every buffer a write in progress uses exists; and when no write is in progress, what went out on each connection is a
concatenation of whole submitted frames, in order. -/
def C64_Statement : Prop := ∀ v, TcpReach anyTcp v →
  (∀ c b d, TOp.write c b d ∈ v.flying → v.wbuf.map (·.1) = some b) ∧
  (¬WriteBusy v → ∀ c, ∃ frames : List (List UInt8), frames.Sublist (tcpSubmits c v.log) ∧ (tcpWires c v.log).flatten = frames.flatten)

/-- C64 does not hold: a second request sent while the first is still being written frees the memory the first write uses. -/
theorem C64_violated : ¬C64_Statement := by
  intro h
  obtain ⟨v, hr, hq⟩ := any_demo [.send [1, 2] .ok, .complete 0 .ok, .run 0, .complete 0 .ok, .run 0, .send [3, 4] .ok]
    (fun v => v.flying == [.write 1 0 [1, 2], .read 1, .write 1 1 [3, 4]] && v.wbuf == some (1, [3, 4])) (by decide +kernel)
  simp only [Bool.and_eq_true, beq_iff_eq] at hq
  have := (h v hr).1 1 0 [1, 2] (by simp [hq.1])
  rw [hq.2] at this
  simp at this

/-- C64, use of freed memory: when that first write completes, it has read memory that no longer belongs to it. -/
theorem C64_use_after_free : Tcp.init.run [.send [1, 2] .ok, .complete 0 .ok, .run 0, .complete 0 .ok, .run 0, .send [3, 4] .ok, .complete 0 (.sent 2)] = .ub := by
  decide +kernel

/-- C64, truncated frames: a partial write is taken for a complete one, and the rest of the frame is never sent. -/
theorem C64_truncated_frame : ∃ v, TcpReach anyTcp v ∧ ¬WriteBusy v ∧ v.wbuf = none ∧ tcpSubmits 1 v.log = [[1, 2, 3]] ∧ tcpWires 1 v.log = [[1]] := by
  obtain ⟨v, hr, hq⟩ := any_demo [.send [1, 2, 3] .ok, .complete 0 .ok, .run 0, .complete 0 .ok, .run 0, .complete 0 (.sent 1), .run 0]
    (fun v => v.flying == [.read 1] && v.queue == [] && v.wbuf == none && tcpSubmits 1 v.log == [[1, 2, 3]] && tcpWires 1 v.log == [[1]]) (by decide +kernel)
  simp only [Bool.and_eq_true, beq_iff_eq] at hq
  obtain ⟨⟨⟨⟨h1, h2⟩, h3⟩, h4⟩, h5⟩ := hq
  refine ⟨v, hr, ?_, h3, h4, h5⟩
  rintro (⟨c, b, d, hm⟩ | ⟨c, ok, hm⟩)
  · simp [h1] at hm
  · simp [h2] at hm

/-- C64 (part). If requests are sent only when no write is in progress, writes are never partial, and every attempt is started after
everything about the earlier connections is over, then the memory of a write in progress is never freed (no step has undefined
behaviour), and what went out on each connection is a sequence of whole submitted frames, in order.
Missing from C64: requests sent during a write (after a timeout), and partial writes. -/
theorem C64_whole_frames_partial (v : Tcp) (h : TcpReach (fun v op => FreshStarts v op ∧ Patient v op) v) :
    (∀ c b d, TOp.write c b d ∈ v.flying → v.wbuf = some (b, d)) ∧ (∀ op, ∃ v', v.step op = .ret v') ∧
    ∀ c, (tcpWires c v.log).Sublist (tcpSubmits c v.log) := by
  have := h.writes (fun _ _ h => h)
  exact ⟨this.1, step_noUB this.1, this.2⟩

example : ∃ v, TcpReach (fun v op => FreshStarts v op ∧ Patient v op) v ∧
    (tcpWires 1 v.log == [[1, 2]] && tcpWires 2 v.log == [[3, 4]] && v.conn == 2) = true :=
  chk_demo (chk := fun v op => freshChk v op && patientChk v op) (fun v op h => by
    simp only [Bool.and_eq_true] at h
    exact ⟨freshChk_spec v op h.1, patientChk_spec v op h.2⟩) twoConnections _ (by decide +kernel)

example : ∃ v, TcpReach (fun v op => FreshStarts v op ∧ Patient v op) v ∧ (v.flying == [.write 1 0 [1, 2], .read 1]) = true :=
  chk_demo (chk := fun v op => freshChk v op && patientChk v op) (fun v op h => by
    simp only [Bool.and_eq_true] at h
    exact ⟨freshChk_spec v op h.1, patientChk_spec v op h.2⟩) (twoConnections.take 5) _ (by decide +kernel)

/-! ### C65 -/

/-- Errors reported to the channel and closes always belong to the current connection attempt. -/
def C65_Statement : Prop := ∀ v, TcpReach anyTcp v → ∀ c cur, TEv.error c cur ∈ v.log ∨ TEv.closed c cur ∈ v.log → c = cur

/-- A write and a read fail at once; both handlers ask for a close; between the two closes a new attempt is started.  Handlers and
posted functions run in the order in which they were queued. -/
def doubleClose : List Tcp.Op :=
  [.send [1] .ok, .complete 0 .ok, .run 0, .complete 0 .ok, .run 0, .complete 0 .error, .complete 0 .error, .run 0, .run 0, .run 0,
   .send [2] .ok, .run 0]

/-- C65 does not hold: the second of two queued closes kills the next connection attempt. -/
theorem C65_violated : ¬C65_Statement := by
  intro h
  obtain ⟨v, hr, hq⟩ := any_demo doubleClose (fun v => v.log.contains (.closed 1 2) && v.status == .notConnected && v.conn == 2) (by decide +kernel)
  simp only [Bool.and_eq_true, List.contains_iff_mem] at hq
  have := h v hr 1 2 (Or.inr hq.1.1)
  cases this

/-- C65 (part). If every attempt is started only after everything about the earlier connections is over, then errors and closes always
belong to the current attempt.
Missing from C65: attempts started while handlers of the last connection are still queued (`C65_violated`). -/
theorem C65_no_leftovers_partial (v : Tcp) (h : TcpReach FreshStarts v) :
    ∀ c cur, TEv.error c cur ∈ v.log ∨ TEv.closed c cur ∈ v.log → c = cur := by
  rcases h.neat (fun _ _ h => h) with h | h
  · exact h.2
  · exact h.tags.log

example : ∃ v, TcpReach FreshStarts v ∧ (v.log.contains (.error 1 1) && v.log.contains (.closed 1 1) && v.conn == 2 && v.status == .connected) = true :=
  chk_demo freshChk_spec twoConnections _ (by decide +kernel)

/-! ### C66 -/

/-- At most one attempt is in progress, none while connected; only the newest data is submitted, and each at most once. -/
def C66_Statement : Prop := ∀ v, TcpReach anyTcp v → v.isShutdown = false →
  tcpAttempts v ≤ 1 ∧ (v.status = .connected → tcpAttempts v = 0) ∧ (tcpAllSubmits v.log).Sublist (tcpAsked v.log)

/-- C66 does not hold: a left-over close (C65) makes the client start a second attempt while the first is still in progress. -/
theorem C66_violated : ¬C66_Statement := by
  intro h
  obtain ⟨v, hr, hq⟩ := any_demo (doubleClose ++ [.send [3] .ok]) (fun v => !v.isShutdown && tcpAttempts v == 2) (by decide +kernel)
  simp only [Bool.and_eq_true, Bool.not_eq_true', beq_iff_eq] at hq
  have := (h v hr hq.1).1
  omega

/-- C66 (part). If every attempt is started only after everything about the earlier connections is over: at most one attempt is in
progress, none while connected, and every request is submitted at most once.
Missing from C66: attempts started while handlers of the last connection are still queued. -/
theorem C66_single_attempt_partial (v : Tcp) (h : TcpReach FreshStarts v) :
    (v.isShutdown = false → tcpAttempts v ≤ 1 ∧ (v.status = .connected → tcpAttempts v = 0)) ∧ (tcpAllSubmits v.log).Sublist (tcpAsked v.log) := by
  refine ⟨fun hd => ?_, (h.once (fun _ _ h => h)).2⟩
  have hn := (h.neat (fun _ _ h => h)).resolve_left (by simp [hd])
  refine ⟨?_, fun hst => hn.other (by simp [hst])⟩
  by_cases hst : v.status = .connecting
  · rcases (hn.connecting hst).2 with h1 | h1 <;> omega
  · have := hn.other hst; omega

/-- C66 (part). Under the same condition: when the connection is established, the newest data asked for while connecting is submitted,
and nothing else. -/
theorem C66_connect_submits_partial (v : Tcp) (h : TcpReach FreshStarts v) (hd : v.isShutdown = false) (k c : Nat)
    (hk : v.queue[k]? = some (.connected c true)) :
    ∃ v' d, v.step (.run k) = .ret v' ∧ v'.status = .connected ∧ (tcpAsked v.log).getLast? = some d ∧ v'.log = v.log ++ [.submit v.conn d] := by
  have hn := (h.neat (fun _ _ h => h)).resolve_left (by simp [hd])
  have ho := (h.once (fun _ _ h => h)).1 hd
  have hst : v.status = .connecting := by
    by_contra hst
    have := hn.other hst
    simp only [tcpAttempts, Nat.add_eq_zero_iff, List.countP_eq_zero] at this
    exact absurd rfl (this.2 _ (List.mem_of_getElem? hk))
  obtain ⟨b, d, hw⟩ := ho.holds hst
  have hs : v.step (.run k) = .ret ({ v with queue := v.queue.eraseIdx k }.runTask (.connected c true)) := by simp only [Tcp.step, hk]
  rcases step_shape hd _ hs with ⟨es, h1, h2, h3, h4, h5⟩ | ⟨c', k', h1, h2, h3, h4, h5, h6⟩ | ⟨d', loc, h1, -⟩ | ⟨d', loc, h1, -⟩
  · exfalso
    simp only [Tcp.runTask] at h1
    rw [onConnected_ok (v := { v with queue := v.queue.eraseIdx k }) hd, (beginRead_same _).2.2.2.2.2, sendBuffer_log (by exact hd)] at h1
    simp only [hw, Option.map_some, Option.toList_some, List.append_cancel_left_eq] at h1
    rw [← h1] at h3
    simp [tcpAllSubmits] at h3
  · refine ⟨_, d, hs, h5, h.newest.wbuf b d hw, ?_⟩
    rw [h6, hw]; rfl
  · cases h1
  · cases h1

example : ∃ v, TcpReach FreshStarts v ∧ (!v.isShutdown && v.queue == [.connected 1 true] && tcpAsked v.log == [[1], [2]]) = true :=
  chk_demo freshChk_spec [.send [1] .ok, .complete 0 .ok, .send [2] .ok, .run 0, .complete 0 .ok] _ (by decide +kernel)

/-- C66 (part). In every history: whatever is submitted is the data of the latest `send` at that time. -/
theorem C66_newest_only_partial (v : Tcp) (h : TcpReach anyTcp v) (pre : List TEv) (c : Nat) (d : List UInt8) (post : List TEv)
    (hl : v.log = pre ++ .submit c d :: post) : (tcpAsked pre).getLast? = some d :=
  h.newest.submits pre c d post hl

example : ∃ v, TcpReach anyTcp v ∧ (v.log == [.asked [1], .attempt 1, .asked [2]] ++ .submit 1 [2] :: []) = true :=
  any_demo [.send [1] .ok, .complete 0 .ok, .send [2] .ok, .run 0, .complete 0 .ok, .run 0] _ (by decide +kernel)

/-! ### C67 -/

/-- C67. Once the connection's shutdown has taken effect, no history makes it send or report anything, and no operation is started. -/
theorem C67_silent_after_shutdown (v : Tcp) (h : TcpReach anyTcp v) (hd : v.isShutdown = true) (ops : List Tcp.Op) :
    ∃ v', v.run ops = .ret v' ∧ v'.log = v.log ∧ v'.flying.Sublist v.flying := by
  obtain ⟨v', h1, -, h2, h3⟩ := shut_run hd h.quiet ops
  exact ⟨v', h1, h2, h3⟩

/-- C67. The shutdown takes effect when the posted function runs, at the latest. -/
theorem C67_shutdown_takes_effect (v : Tcp) (k : Nat) (hk : v.queue[k]? = some .shutdown) :
    ∃ v', v.step (.run k) = .ret v' ∧ v'.isShutdown = true ∧ v'.log = v.log := by
  exact ⟨{ v with queue := v.queue.eraseIdx k }.runShutdown, by simp only [Tcp.step, hk]; rfl, rfl, rfl⟩

example : ∃ v, TcpReach anyTcp v ∧ (v.isShutdown && v.queue == [.read 1 .error, .written 1 false] || v.isShutdown && v.queue == [.written 1 false, .read 1 .error]) = true :=
  any_demo [.send [1] .ok, .complete 0 .ok, .run 0, .complete 0 .ok, .run 0, .shutdown, .run 0] _ (by decide +kernel)

end Modbus.Props
