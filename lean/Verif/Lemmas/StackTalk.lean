import Verif.Props.Stack

/-! Helper lemmas: one request after the other on one connection. -/

namespace Modbus

open Spec

/-- The bytes are those of whole, ordinary messages. -/
def WholeMsgs (bs : List UInt8) : Prop := ∃ msgs : List Mbap, (∀ m ∈ msgs, Ordinary m) ∧ bs = streamOf (msgs.map frameOf)

/-- Nothing but whole, ordinary messages has been received since the last error. -/
def RxWhole (log : List CEv) : Prop := WholeMsgs (chunksSince log).flatten

theorem WholeMsgs.nil : WholeMsgs [] := ⟨[], by simp, by simp [streamOf]⟩

theorem WholeMsgs.snoc {bs : List UInt8} (h : WholeMsgs bs) {m : Mbap} (hm : Ordinary m) : WholeMsgs (bs ++ (frameOf m).bytes) := by
  obtain ⟨msgs, h1, rfl⟩ := h
  refine ⟨msgs ++ [m], fun x hx => ?_, by simp [streamOf]⟩
  rcases List.mem_append.1 hx with hx | hx
  · exact h1 x hx
  · rw [List.mem_singleton.1 hx]; exact hm

theorem WholeMsgs.splits {bs : List UInt8} (h : WholeMsgs bs) : ∃ fs, Splits bs fs [] ∧ ∀ f, fs.getLast? = some f → f.len.toNat ≠ 1 := by
  obtain ⟨msgs, h1, rfl⟩ := h
  refine ⟨msgs.map frameOf, Props.splits_streamOf fun f hf => ?_, fun f hf => ?_⟩
  · obtain ⟨m, hm, rfl⟩ := List.mem_map.1 hf
    exact (h1 m hm).complete
  · obtain ⟨m, hm, rfl⟩ := List.mem_map.1 (List.mem_of_getLast? hf)
    have := (h1 m hm).len; have := (h1 m hm).1
    omega

theorem chunksSince_quiet {a b : List CEv} (h : ∀ e ∈ b, (∀ d, e ≠ .data d) ∧ e ≠ .connError) : chunksSince (a ++ b) = chunksSince a := by
  unfold chunksSince
  rw [List.foldl_append]
  generalize List.foldl _ _ a = acc
  induction b generalizing acc with
  | nil => rfl
  | cons e b ih =>
    have := h e (by simp)
    rw [List.foldl_cons]
    cases e <;> first | exact ih (fun e he => h e (by simp [he])) _ | exact absurd rfl (this.1 _) | exact absurd rfl this.2

theorem Cli.receive_next {env : ClientEnv} {v : Cli} (h : Props.CReach env v) (hs : CEv.tcpShutdown ∉ v.log) {u : Nat} {bytes : List UInt8} {t : Nat}
    {unit : UInt8} {tid : UInt16} {q : AnyReq} {tmo : Nat} (h1 : CEv.sent u bytes t ∈ v.log) (h2 : u ∉ handledUids v.log)
    (h3 : CEv.call u unit q tmo ∈ v.log) (h4 : IsRequestFrame unit tid q bytes) {pdu : List UInt8} (ho : Ordinary ⟨unit, tid, pdu⟩) (hw : RxWhole v.log)
    (hp : v.pending = []) :
    ∃ v', v.step env (.receive (frameOf ⟨unit, tid, pdu⟩).bytes) = .ret v' ∧
      v'.log = v.log ++ [.data (frameOf ⟨unit, tid, pdu⟩).bytes, .mbap ⟨unit, tid, pdu⟩, .handler u (.ok pdu) v.now] ∧ v'.tasks = v.tasks ∧ v'.pending = [] ∧
      v'.current = none ∧ v'.now = v.now ∧ v'.nextUid = v.nextUid := by
  obtain ⟨hsd, r, hr, rfl, rfl, rfl⟩ := outstanding_current h hs h1 h2 h3 h4
  obtain ⟨mem, hmem, hfeed⟩ := h.inv.1.framed hsd
  obtain ⟨msgs, hmo, hst⟩ := hw
  obtain ⟨p', ms, ms', pend', a1, a2, a3, a4⟩ := feed_stream (chunksSince v.log) (rep_init env.pol mem hmem) msgs hmo [] (by rw [List.append_nil, List.nil_append]; exact hst)
  rw [hfeed] at a1
  injection a1 with a1
  injection a1 with a1 _; subst a1
  have : ms' = [] := rep_whole a2 (fun m hm => hmo m (by rw [a3]; simp [hm])) (by simpa using a4)
  subst this
  have hpe : pend' = [] := by simpa [streamOf] using a4
  subst hpe
  obtain ⟨d, hd⟩ : ∃ d, d = (frameOf ⟨r.unit, r.tid, pdu⟩).bytes := ⟨_, rfl⟩
  have hm : ∀ m ∈ ([⟨r.unit, r.tid, pdu⟩] : List Mbap), Ordinary m := fun m hm => by rw [List.mem_singleton.1 hm]; exact ho
  obtain ⟨p2, ns, ns', pend2, b1, -, b3, b4, b5⟩ := parse_stream a2 [⟨r.unit, r.tid, pdu⟩] hm d [] (by rw [hd]; simp [streamOf])
  have hns' : ns' = [] := rep_whole b3 (fun m hm' => hm m (by rw [b4]; exact List.mem_append_right _ hm')) (by simpa using b5)
  subst hns'
  rw [List.append_nil] at b4
  rw [← hd]
  have hst : v.step env (.receive d) = .ret (Cli.onMbap env { v with parser := p2, log := v.log ++ [.data d] } ⟨r.unit, r.tid, pdu⟩) := by
    simp only [Cli.step, Cli.onReceive]
    rw [if_neg (show ¬ (v.emit (.data d)).isShutdown = true by simp [Cli.emit, hsd])]
    have b1' : (v.emit (.data d)).parser.parse d = .ret (p2, ns) := b1
    rw [b1', ← b4]
    rfl
  refine ⟨_, hst, ?_⟩
  obtain ⟨f, hf⟩ := Cli.cancelTimer_eq ((Cli.emit { v with parser := p2, log := v.log ++ [.data d] } (.mbap ⟨r.unit, r.tid, pdu⟩)))
  simp only [Cli.onMbap]
  rw [if_neg (by simp [Cli.emit, hsd])]
  simp only [Cli.emit] at hf ⊢
  simp only [hr, hp, hsd] at hf ⊢
  simp only [and_self, if_true, hf, Cli.checkPending]
  simp

/-- The connection is established, nothing is being written and nothing has arrived. -/
structure Tcp.On (t : Tcp) (n : Nat) : Prop where
  up : t.isShutdown = false
  status : t.status = .connected
  isOpen : t.isOpen = true
  conn : t.conn = n
  flying : t.flying = [.read n]
  queue : t.queue = []

/-- The client has nothing to do and is connected. -/
structure Stk.Talks (v : Stk) (n : Nat) : Prop where
  up : CEv.tcpShutdown ∉ chLog v.log
  tasks : v.cli.tasks = []
  idle : Props.waiting v.cli = []
  on : v.tcp.On n
  whole : RxWhole (chLog v.log)

/-- The client has sent request `u` and waits for the answer. -/
structure Stk.Waits (v : Stk) (n u : Nat) (unit : UInt8) (tid : UInt16) : Prop where
  up : CEv.tcpShutdown ∉ chLog v.log
  tasks : v.cli.tasks = []
  pending : v.cli.pending = []
  on : v.tcp.On n
  whole : RxWhole (chLog v.log)
  asked : ∃ q tmo bytes t, CEv.sent u bytes t ∈ chLog v.log ∧ CEv.call u unit q tmo ∈ chLog v.log ∧ IsRequestFrame unit tid q bytes
  unanswered : u ∉ handledUids (chLog v.log)

namespace Stk

variable {env : StkEnv}

/-- The answer is received. -/
theorem Waits.hears {v : Stk} (h : KReach env v) {n u : Nat} {unit : UInt8} {tid : UInt16} (hw : Waits v n u unit tid) {pdu : List UInt8} (ho : Ordinary ⟨unit, tid, pdu⟩) :
    ∃ v1 v2, v.step env (.complete 0 (.data (frameOf ⟨unit, tid, pdu⟩).bytes)) = .ret v1 ∧ v1.step env (.run 0) = .ret v2 ∧ v2.Talks n ∧
      chLog v2.log = chLog v.log ++ [.data (frameOf ⟨unit, tid, pdu⟩).bytes, .mbap ⟨unit, tid, pdu⟩, .handler u (.ok pdu) v.cli.now] ∧
      netLog v2.log = netLog v.log ++ [.receive n (frameOf ⟨unit, tid, pdu⟩).bytes] ∧ v2.cli.now = v.cli.now ∧ v2.cli.nextUid = v.cli.nextUid := by
  obtain ⟨d, hd⟩ : ∃ d, d = (frameOf ⟨unit, tid, pdu⟩).bytes := ⟨_, rfl⟩
  have hlen : d.length = 7 + pdu.length := by rw [hd, frame_bytes]; simp [hdr, frameOf]; omega
  have hdl : 1 ≤ d.length ∧ d.length ≤ 4096 := by have := ho.2; simp only at this; omega
  obtain ⟨q, tmo, bytes, t, s1, s2, s3⟩ := hw.asked
  obtain ⟨hp1, hp2, hp3⟩ := h.proj
  obtain ⟨c', c1, c2, c3, c4, c5, c6, c7⟩ := Cli.receive_next hp3 (by rw [← hp2]; exact hw.up) (by rw [← hp2]; exact s1) (by rw [← hp2]; exact hw.unanswered)
    (by rw [← hp2]; exact s2) s3 ho (by rw [← hp2]; exact hw.whole) hw.pending
  rw [← hd] at c1 c2 ⊢
  obtain ⟨cl, tc, lg, st⟩ := v
  obtain ⟨sd, sts, op, cn, wb, nb, fl, qu, tl⟩ := tc
  obtain ⟨o1, o2, o3, o4, o5, o6⟩ := hw.on
  simp only at o1 o2 o3 o4 o5 o6 c1 c2 c3 c4 c5 c6 c7; subst o1 o2 o3 o4 o5 o6
  have e1 : Stk.step env ⟨cl, ⟨false, .connected, true, cn, wb, nb, [.read cn], [], tl⟩, lg, st⟩ (.complete 0 (.data d)) =
      .ret ⟨cl, ⟨false, .connected, true, cn, wb, nb, [], [.read cn (.data d)], tl⟩, lg, st ++ [(⟨false, .connected, true, cn, wb, nb, [.read cn], [], tl⟩, .complete 0 (.data d))]⟩ := by
    simp [Stk.step, net, Tcp.step, Tcp.complete, Tcp.post, hdl.1, hdl.2]
  have e2 : Stk.step env ⟨cl, ⟨false, .connected, true, cn, wb, nb, [], [.read cn (.data d)], tl⟩, lg, st ++ [(⟨false, .connected, true, cn, wb, nb, [.read cn], [], tl⟩, .complete 0 (.data d))]⟩ (.run 0) =
      .ret ⟨c', ⟨false, .connected, true, cn, wb, nb, [.read cn], [], tl ++ [.receive cn d]⟩,
        lg ++ [.net (.receive cn d)] ++ [.ch (.data d)] ++ [.ch (.mbap ⟨unit, tid, pdu⟩)] ++ [.ch (.handler u (.ok pdu) cl.now)],
        st ++ [(⟨false, .connected, true, cn, wb, nb, [.read cn], [], tl⟩, .complete 0 (.data d))] ++ [(⟨false, .connected, true, cn, wb, nb, [], [.read cn (.data d)], tl⟩, .run 0)] ++
          [(⟨false, .connected, true, cn, wb, nb, [], [.read cn .again], tl ++ [.receive cn d]⟩, .run 0)]⟩ := by
    simp [Stk.step, net, Tcp.step, Tcp.runTask, Tcp.onRead, Tcp.emit, Tcp.post, deliver, chan, c1, c2, relay, relay1, TTask.isData, Tcp.beginRead]
  have r2 := (h.step e1).step e2
  refine ⟨_, _, e1, e2, ⟨?_, ?_, ?_, ⟨rfl, rfl, rfl, rfl, rfl, rfl⟩, ?_⟩, ?_, ?_, c6, c7⟩
  · have := hw.up
    simp only at this
    simpa using this
  · exact c3.trans hw.tasks
  · simp [Props.waiting, c4, c5]
  · obtain ⟨msgs, m1, m2⟩ := hw.whole
    refine ⟨msgs ++ [⟨unit, tid, pdu⟩], ?_, ?_⟩
    · intro m hm
      rcases List.mem_append.1 hm with hm | hm
      · exact m1 m hm
      · rw [List.mem_singleton.1 hm]; exact ho
    · simp only at m2
      have : chLog (lg ++ [.net (.receive cn d)] ++ [.ch (.data d)] ++ [.ch (.mbap ⟨unit, tid, pdu⟩)] ++ [.ch (.handler u (.ok pdu) cl.now)]) =
          (chLog lg ++ [.data d]) ++ [.mbap ⟨unit, tid, pdu⟩, .handler u (.ok pdu) cl.now] := by simp
      simp only
      rw [this, chunksSince_quiet (by simp), chunksSince_data, List.flatten_append, m2, hd]
      simp [streamOf]
  · simp
  · simp

/-- A request is submitted on the established connection, and its frame is written. -/
theorem Talks.asks {v : Stk} (h : KReach env v) {n : Nat} (ht : Talks v n) (unit : UInt8) (q : AnyReq) (tmo : Nat) (hq : Allowed q) :
    ∃ tid bytes v', IsRequestFrame unit tid q bytes ∧
      v.run env [.chan (.submit unit q tmo), .chan .runTask, .complete 1 (.sent bytes.length), .run 0] = .ret v' ∧
      chLog v'.log = chLog v.log ++ [.call v.cli.nextUid unit q tmo, .sent v.cli.nextUid bytes v.cli.now] ∧
      netLog v'.log = netLog v.log ++ [.asked bytes, .submit n bytes, .wire n bytes, .writeDone] ∧
      Waits v' n v.cli.nextUid unit tid ∧ v'.cli.now = v.cli.now ∧ v'.cli.nextUid = v.cli.nextUid + 1 := by
  obtain ⟨v1, tid, bytes, b1, b2, b3, b4, b5, b6, b7, b8, b9⟩ := submit_steps v h ht.up ht.idle ht.tasks unit q tmo hq
  have r1 := run_reach _ h b1
  have hbl : 1 ≤ bytes.length := by
    obtain ⟨p, -, -, hb⟩ := b2
    rw [hb, frame_bytes]; simp [hdr]
  obtain ⟨o1, o2, o3, o4, o5, o6⟩ := ht.on
  obtain ⟨t1, e1, l1, t2, s2, l2, t3, s3, l3, hon⟩ : ∃ t1, v.tcp.send bytes (env.loc v.tcp.nextBuf) = t1 ∧ t1.log = v.tcp.log ++ [.asked bytes, .submit n bytes] ∧
      ∃ t2, t1.step (.complete 1 (.sent bytes.length)) = .ret t2 ∧ t2.log = t1.log ++ [.wire n bytes] ∧
      ∃ t3, t2.step (.run 0) = .ret t3 ∧ t3.log = t2.log ++ [.writeDone] ∧ t3.On n := by
    obtain ⟨cl, tc, lg, st⟩ := v
    obtain ⟨sd, sts, op, cn, wb, nb, fl, qu, tl⟩ := tc
    simp only at o1 o2 o3 o4 o5 o6; subst o1 o2 o3 o4 o5 o6
    refine ⟨⟨false, .connected, true, cn, some (nb, bytes), nb + 1, [.read cn, .write cn nb bytes], [], tl ++ [.asked bytes, .submit cn bytes]⟩, ?_, rfl,
      ⟨false, .connected, true, cn, some (nb, bytes), nb + 1, [.read cn], [.written cn true], tl ++ [.asked bytes, .submit cn bytes] ++ [.wire cn bytes]⟩, ?_, rfl,
      ⟨false, .connected, true, cn, none, nb + 1, [.read cn], [], tl ++ [.asked bytes, .submit cn bytes] ++ [.wire cn bytes] ++ [.writeDone]⟩, ?_, rfl, ⟨rfl, rfl, rfl, rfl, rfl, rfl⟩⟩
    · simp [Tcp.send, Tcp.emit, Tcp.sendBuffer]
    · simp [Tcp.step, Tcp.complete, Tcp.emit, Tcp.post, hbl]
    · simp [Tcp.step, Tcp.runTask, Tcp.onWritten, Tcp.emit]
  rw [e1] at b3
  rw [← b3] at s2 l1 l2
  obtain ⟨v2, k2, r2, c2, y2, z2⟩ := quiet_step r1 _ _ (Or.inl ⟨1, .sent bytes.length, rfl, rfl⟩) s2 l2 (by simp)
  rw [← y2] at s3 l3
  obtain ⟨v3, k3, r3, c3, y3, z3⟩ := quiet_step r2 _ _ (Or.inr ⟨0, rfl, rfl⟩) s3 l3 (by simp)
  have hch : chLog v3.log = chLog v.log ++ [.call v.cli.nextUid unit q tmo, .sent v.cli.nextUid bytes v.cli.now] := by
    rw [z3, z2]; simp only [chLog_append, chLog_nets]; rw [b5]; simp
  have hcl : v3.cli = v1.cli := by rw [c3, c2]
  refine ⟨tid, bytes, v3, b2, ?_, hch, ?_, ⟨?_, by rw [hcl]; exact b7, by rw [hcl]; exact b8, by rw [y3]; exact hon, ?_, ?_, ?_⟩, by rw [hcl]; exact b6, by rw [hcl]; exact b9⟩
  · rw [show ([.chan (.submit unit q tmo), .chan .runTask, .complete 1 (.sent bytes.length), .run 0] : List Op) =
      [.chan (.submit unit q tmo), .chan .runTask] ++ [.complete 1 (.sent bytes.length), .run 0] from rfl, run_append, b1]
    simp only [CM.bind, run, k2, k3, CM.ret_bind]
  · rw [r3.proj.micro.net, y3, l3, y2, l2, l1, h.proj.micro.net]; simp
  · rw [hch]; simpa using ht.up
  · obtain ⟨msgs, m1, m2⟩ := ht.whole
    exact ⟨msgs, m1, by rw [hch, chunksSince_quiet (by simp)]; exact m2⟩
  · exact ⟨q, tmo, bytes, v.cli.now, by rw [hch]; simp, by rw [hch]; simp, b2⟩
  · rw [hch, handledUids_append]
    have := (h.proj.reach.inv.1.bound v.cli.nextUid (Nat.le_refl _)).1
    rw [← h.proj.cli] at this
    simpa [handledUids] using this

end Stk

end Modbus
