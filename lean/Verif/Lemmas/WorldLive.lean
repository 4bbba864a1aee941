import Verif.Lemmas.WorldOnce
import Verif.Props.ServerStack
import Verif.Lemmas.StackTalk

/-! Helper lemmas: a client at rest and a server that accepts can complete an exchange. -/

namespace Modbus

open Spec
open Props (msgsOf sendsOf AtRest waiting)

namespace Tcp

/-- Connections are numbered in the order of the attempts. -/
structure Numbered (v : Tcp) : Prop where
  fly : ∀ c b d, TOp.write c b d ∈ v.flying → c ≤ v.conn
  wire : ∀ c d, TEv.wire c d ∈ v.log → c ≤ v.conn

theorem Numbered.mono {v v' : Tcp} (h : Numbered v) (h1 : v.conn ≤ v'.conn) (h2 : ∀ c b d, TOp.write c b d ∈ v'.flying → TOp.write c b d ∈ v.flying)
    (h3 : ∃ es, v'.log = v.log ++ es ∧ ∀ e ∈ es, ∀ c d, e ≠ .wire c d) : Numbered v' := by
  obtain ⟨es, h3, h4⟩ := h3
  refine ⟨fun c b d hm => Nat.le_trans (h.fly c b d (h2 c b d hm)) h1, fun c d hm => ?_⟩
  rw [h3] at hm
  rcases List.mem_append.1 hm with hm | hm
  · exact Nat.le_trans (h.wire c d hm) h1
  · exact absurd rfl (h4 _ hm c d)

theorem Numbered.sendBuffer {v : Tcp} (h : Numbered v) : Numbered v.sendBuffer := by
  unfold Tcp.sendBuffer
  split
  · exact h
  · split
    · exact h
    · have he : Numbered (v.emit (.submit v.conn (by assumption))) := h.mono (Nat.le_refl _) (fun _ _ _ h => h) ⟨_, rfl, by simp⟩
      dsimp only
      split
      · refine ⟨fun c b d hm => ?_, fun c d hm => he.wire c d hm⟩
        rcases List.mem_append.1 hm with hm | hm
        · exact he.fly c b d hm
        · have := List.mem_singleton.1 hm
          injection this with this _ _
          subst this; exact Nat.le_refl _
      · exact he.mono (Nat.le_refl _) (fun _ _ _ h => h) ⟨[], by simp [Tcp.post], by simp⟩

theorem Numbered.beginRead {v : Tcp} (h : Numbered v) : Numbered v.beginRead := by
  unfold Tcp.beginRead
  split
  · exact h
  · split
    · exact h.mono (Nat.le_refl _) (fun c b d hm => by simpa using hm) ⟨[], by simp, by simp⟩
    · exact h.mono (Nat.le_refl _) (fun _ _ _ h => h) ⟨[], by simp [Tcp.post], by simp⟩

theorem Numbered.closeError {v : Tcp} (h : Numbered v) (c : Nat) : Numbered ((v.close c).sendError c) := by
  unfold Tcp.close
  split
  · rename_i hd
    unfold Tcp.sendError
    rw [if_pos hd]; exact h
  · unfold Tcp.sendError; split
    · exact h.mono (Nat.le_refl _) (fun _ _ _ h => h) ⟨[], by simp [Tcp.post], by simp⟩
    · exact h.mono (Nat.le_refl _) (fun _ _ _ h => h) ⟨_, rfl, by simp⟩

theorem Numbered.step {v v' : Tcp} (h : Numbered v) {op : Op} (hs : v.step op = .ret v') : Numbered v' := by
  cases op with
  | shutdown => injection hs with hs; subst hs; exact h.mono (Nat.le_refl _) (fun _ _ _ h => h) ⟨[], by simp [Tcp.post], by simp⟩
  | send data loc =>
    injection hs with hs; subst hs
    unfold Tcp.send
    split
    · exact h
    · dsimp only
      split
      · split
        · exact h.mono (Nat.le_refl _) (fun _ _ _ h => h) ⟨[.asked data, .gaveUp], by simp [Tcp.emit], by simp⟩
        · split
          · exact h.mono (Nat.le_refl _) (fun _ _ _ h => h) ⟨[.asked data, .gaveUp], by simp [Tcp.emit], by simp⟩
          · split
            · exact h.mono (Nat.le_refl _) (fun _ _ _ h => h) ⟨[.asked data, .gaveUp], by simp [Tcp.emit], by simp⟩
            · exact h.mono (Nat.le_succ _) (fun c b d hm => by simpa [Tcp.emit] using hm) ⟨[.asked data, .attempt (v.conn + 1)], by simp [Tcp.emit], by simp⟩
      · exact h.mono (Nat.le_refl _) (fun _ _ _ h => h) ⟨[.asked data], by simp [Tcp.emit], by simp⟩
      · refine Numbered.sendBuffer ?_
        exact h.mono (Nat.le_refl _) (fun _ _ _ h => h) ⟨[.asked data], by simp [Tcp.emit], by simp⟩
  | complete i r =>
    simp only [Tcp.step, Tcp.complete] at hs
    have key : ∀ t, Numbered ({ v with flying := v.flying.eraseIdx i }.post t) := fun t =>
      h.mono (Nat.le_refl _) (fun c b d hm => List.mem_of_mem_eraseIdx hm) ⟨[], by simp [Tcp.post], by simp⟩
    split at hs
    · injection hs with hs; subst hs; exact h
    · split at hs <;> (injection hs with hs; subst hs; first | exact h | exact key _)
    · split at hs <;> (injection hs with hs; subst hs; first | exact h | exact key _)
    · split at hs
      · split at hs <;> (injection hs with hs; subst hs; first | exact h | exact key _)
      all_goals (injection hs with hs; subst hs; first | exact h | exact key _)
    · rename_i c b data hk
      split at hs
      · split at hs
        · split at hs
          · injection hs with hs; subst hs
            refine ⟨fun c b d hm => (key (.written c true)).fly c b d hm, fun c' d hm => ?_⟩
            rcases List.mem_append.1 hm with hm | hm
            · exact h.wire c' d hm
            · have := List.mem_singleton.1 hm
              injection this with this _
              rw [this]; exact h.fly c b data (List.mem_of_getElem? hk)
          · cases hs
        · injection hs with hs; subst hs; exact h
      all_goals (injection hs with hs; subst hs; first | exact h | exact key _)
  | run k =>
    simp only [Tcp.step] at hs
    split at hs
    · injection hs with hs; subst hs; exact h
    · injection hs with hs; subst hs
      have he : Numbered { v with queue := v.queue.eraseIdx k } := h.mono (Nat.le_refl _) (fun _ _ _ h => h) ⟨[], by simp, by simp⟩
      generalize ({ v with queue := v.queue.eraseIdx k } : Tcp) = u at he
      rename_i t _
      have hab : ∀ u : Tcp, Numbered u → Numbered u.abortAll := fun u hu =>
        hu.mono (Nat.le_refl _) (fun c b d hm => (List.mem_filter.1 hm).1) ⟨[], by simp [Tcp.abortAll], by simp⟩
      cases t with
      | close c =>
        simp only [Tcp.runTask, Tcp.runClose]
        split
        · exact he
        · have h2 : Numbered ({ u.emit (.closed c u.conn) with status := .notConnected }) := he.mono (Nat.le_refl _) (fun _ _ _ h => h) ⟨_, rfl, by simp⟩
          split
          · exact (hab _ h2).mono (Nat.le_refl _) (fun _ _ _ h => h) ⟨[], by simp, by simp⟩
          · exact h2
      | shutdown => exact hab _ (he.mono (Nat.le_refl _) (fun _ _ _ h => h) ⟨[], by simp, by simp⟩)
      | resolved c ok =>
        simp only [Tcp.runTask, Tcp.onResolved]
        split
        · exact he
        · split
          · exact (hab _ he).mono (Nat.le_refl _) (fun c b d hm => by simpa using hm) ⟨[], by simp, by simp⟩
          · have h2 : Numbered ({ u with status := .notConnected } : Tcp) := he.mono (Nat.le_refl _) (fun _ _ _ h => h) ⟨[], by simp, by simp⟩
            unfold Tcp.sendError; split
            · exact h2
            · exact h2.mono (Nat.le_refl _) (fun _ _ _ h => h) ⟨_, rfl, by simp⟩
      | connected c ok =>
        simp only [Tcp.runTask, Tcp.onConnected]
        split
        · exact he
        · split
          · refine Numbered.beginRead (Numbered.sendBuffer ?_)
            exact he.mono (Nat.le_refl _) (fun _ _ _ h => h) ⟨[], by simp, by simp⟩
          · exact he.closeError c
      | read c r =>
        simp only [Tcp.runTask, Tcp.onRead]
        split
        · exact he
        · split
          · unfold Tcp.close; split
            · exact he
            · exact he.mono (Nat.le_refl _) (fun _ _ _ h => h) ⟨[], by simp [Tcp.post], by simp⟩
          · exact he.closeError c
          · exact he.mono (Nat.le_refl _) (fun _ _ _ h => h) ⟨_, rfl, by simp⟩
          · exact he.beginRead
      | written c ok =>
        simp only [Tcp.runTask, Tcp.onWritten]
        split
        · exact he
        · split
          · exact he.mono (Nat.le_refl _) (fun _ _ _ h => h) ⟨_, rfl, by simp⟩
          · exact he.closeError c

theorem _root_.Modbus.Spec.TcpReach.numbered {P : Tcp → Op → Prop} {v : Tcp} (h : TcpReach P v) : Numbered v := by
  induction h with
  | init => exact ⟨by simp [Tcp.init], by simp [Tcp.init]⟩
  | step _ _ hs ih => exact ih.step hs

/-- Nothing was sent on connections not yet attempted. -/
theorem _root_.Modbus.Spec.TcpReach.unsent {P : Tcp → Op → Prop} {v : Tcp} (h : TcpReach P v) {n : Nat} (hn : v.conn < n) : tcpWires n v.log = [] := by
  rw [tcpWires, List.filterMap_eq_nil_iff]
  intro e he
  cases e <;> try rfl
  rename_i c d
  have := h.numbered.wire c d he
  have hne : c ≠ n := by omega
  simp [hne]

end Tcp

/-! ### The client -/

/-- What happens at the connection when a request is sent from rest. -/
theorem Tcp.asking (t : Tcp) (hd : t.isShutdown = false) (hst : t.status = .notConnected) (ho : t.isOpen = false) (hf : t.flying = []) (hq : t.queue = [])
    (bytes : List UInt8) (hb : bytes ≠ []) :
    ∃ t2 t3 t4 t5 t6 t7,
      (t.send bytes .ok).log = t.log ++ [.asked bytes, .attempt (t.conn + 1)] ∧
      (t.send bytes .ok).step (.complete 0 .ok) = .ret t2 ∧ t2.log = (t.send bytes .ok).log ++ [] ∧
      t2.step (.run 0) = .ret t3 ∧ t3.log = t2.log ++ [] ∧
      t3.step (.complete 0 .ok) = .ret t4 ∧ t4.log = t3.log ++ [] ∧
      t4.step (.run 0) = .ret t5 ∧ t5.log = t4.log ++ [.submit (t.conn + 1) bytes] ∧
      t5.step (.complete 0 (.sent bytes.length)) = .ret t6 ∧ t6.log = t5.log ++ [.wire (t.conn + 1) bytes] ∧
      t6.step (.run 0) = .ret t7 ∧ t7.log = t6.log ++ [.writeDone] ∧ t7.On (t.conn + 1) := by
  obtain ⟨sd, st, op, cn, wb, nb, fl, qu, lg⟩ := t
  simp only at hd hst ho hf hq; subst hd hst ho hf hq
  have hb' : 1 ≤ bytes.length := by
    cases bytes with
    | nil => exact absurd rfl hb
    | cons => simp
  obtain ⟨l1, hl1⟩ : ∃ l1, l1 = lg ++ [TEv.asked bytes, .attempt (cn + 1)] := ⟨_, rfl⟩
  have h1 : (Tcp.mk false .notConnected false cn wb nb [] [] lg).send bytes .ok =
      Tcp.mk false .connecting true (cn + 1) (some (nb, bytes)) (nb + 1) [.resolve (cn + 1)] [] l1 := by rw [hl1]; simp [Tcp.send, Tcp.emit]
  rw [h1]
  refine ⟨Tcp.mk false .connecting true (cn + 1) (some (nb, bytes)) (nb + 1) [] [.resolved (cn + 1) true] l1,
    Tcp.mk false .connecting true (cn + 1) (some (nb, bytes)) (nb + 1) [.connect (cn + 1)] [] l1,
    Tcp.mk false .connecting true (cn + 1) (some (nb, bytes)) (nb + 1) [] [.connected (cn + 1) true] l1,
    Tcp.mk false .connected true (cn + 1) (some (nb, bytes)) (nb + 1) [.write (cn + 1) nb bytes, .read (cn + 1)] [] (l1 ++ [.submit (cn + 1) bytes]),
    Tcp.mk false .connected true (cn + 1) (some (nb, bytes)) (nb + 1) [.read (cn + 1)] [.written (cn + 1) true]
      (l1 ++ [.submit (cn + 1) bytes] ++ [.wire (cn + 1) bytes]),
    Tcp.mk false .connected true (cn + 1) none (nb + 1) [.read (cn + 1)] []
      (l1 ++ [.submit (cn + 1) bytes] ++ [.wire (cn + 1) bytes] ++ [.writeDone]),
    hl1, rfl, (List.append_nil _).symm, rfl, (List.append_nil _).symm, rfl, (List.append_nil _).symm, rfl, rfl, ?_, rfl, rfl, rfl, ⟨rfl, rfl, rfl, rfl, rfl, rfl⟩⟩
  · simp [Tcp.step, Tcp.complete, Tcp.emit, Tcp.post, hb']

/-- A request is submitted; the name is resolved, the connection is established, and the frame of `n` bytes is written. -/
def stackAsk (unit : UInt8) (q : AnyReq) (tmo n : Nat) : List Stk.Op :=
  [.chan (.submit unit q tmo), .chan .runTask, .complete 0 .ok, .run 0, .complete 0 .ok, .run 0, .complete 0 (.sent n), .run 0]

/-- The same for the whole client; it is then ready to receive the answer. -/
theorem Stk.asks {env : StkEnv} {v : Stk} (h : KReach env v)
    (hf : Throughout (fun t op => NoLocalFailure t op ∧ FreshStarts t op ∧ NoEof t op) v) (hs : CEv.tcpShutdown ∉ chLog v.log)
    (hr : AtRest v) (hloc : env.loc v.tcp.nextBuf = .ok) (unit : UInt8) (q : AnyReq) (tmo : Nat) (hq : Allowed q) :
    ∃ tid bytes v7, IsRequestFrame unit tid q bytes ∧ v.run env (stackAsk unit q tmo bytes.length) = .ret v7 ∧
      chLog v7.log = chLog v.log ++ [.call v.cli.nextUid unit q tmo, .sent v.cli.nextUid bytes v.cli.now] ∧
      netLog v7.log = netLog v.log ++ [.asked bytes, .attempt (v.tcp.conn + 1), .submit (v.tcp.conn + 1) bytes, .wire (v.tcp.conn + 1) bytes, .writeDone] ∧
      Stk.Waits v7 (v.tcp.conn + 1) v.cli.nextUid unit tid ∧ v7.cli.now = v.cli.now ∧ v7.cli.nextUid = v.cli.nextUid + 1 := by
  obtain ⟨a1, a2, a3⟩ := Props.rest_state h (fun x hx => (hf x hx).1) hs hr
  obtain ⟨v1, tid, bytes, b1, b2, b3, b4, b5, b6, b7, b8, b9⟩ := Stk.submit_steps v h hs hr.2.2.2 hr.2.2.1 unit q tmo hq
  have r1 := Stk.run_reach _ h b1
  rw [hloc] at b3 b4
  have hbne : bytes ≠ [] := by
    obtain ⟨p, -, -, hb⟩ := b2
    rw [hb, frame_bytes]; simp [hdr]
  obtain ⟨t2, t3, t4, t5, t6, t7, e1, s2, l2, s3, l3, s4, l4, s5, l5, s6, l6, s7, l7, hon⟩ :=
    Tcp.asking v.tcp a1 a2 a3 hr.2.1 hr.1 bytes hbne
  rw [← b3] at s2 l2 e1
  obtain ⟨v2, k2, r2, c2, y2, z2⟩ := Stk.quiet_step r1 _ _ (Or.inl ⟨0, .ok, rfl, rfl⟩) s2 l2 (by simp)
  rw [← y2] at s3 l3
  obtain ⟨v3, k3, r3, c3, y3, z3⟩ := Stk.quiet_step r2 _ _ (Or.inr ⟨0, rfl, rfl⟩) s3 l3 (by simp)
  rw [← y3] at s4 l4
  obtain ⟨v4, k4, r4, c4, y4, z4⟩ := Stk.quiet_step r3 _ _ (Or.inl ⟨0, .ok, rfl, rfl⟩) s4 l4 (by simp)
  rw [← y4] at s5 l5
  obtain ⟨v5, k5, r5, c5, y5, z5⟩ := Stk.quiet_step r4 _ _ (Or.inr ⟨0, rfl, rfl⟩) s5 l5 (by simp)
  rw [← y5] at s6 l6
  obtain ⟨v6, k6, r6, c6, y6, z6⟩ := Stk.quiet_step r5 _ _ (Or.inl ⟨0, .sent bytes.length, rfl, rfl⟩) s6 l6 (by simp)
  rw [← y6] at s7 l7
  obtain ⟨v7, k7, r7, c7, y7, z7⟩ := Stk.quiet_step r6 _ _ (Or.inr ⟨0, rfl, rfl⟩) s7 l7 (by simp)
  have hch7 : chLog v7.log = chLog v.log ++ [.call v.cli.nextUid unit q tmo, .sent v.cli.nextUid bytes v.cli.now] := by
    rw [z7, z6, z5, z4, z3, z2]; simp only [chLog_append, chLog_nets]; rw [b5]; simp
  have hnet7 : netLog v7.log = netLog v.log ++ [.asked bytes, .attempt (v.tcp.conn + 1), .submit (v.tcp.conn + 1) bytes, .wire (v.tcp.conn + 1) bytes, .writeDone] := by
    rw [r7.proj.micro.net, y7, l7, y6, l6, y5, l5, y4, l4, y3, l3, y2, l2, e1, h.proj.micro.net]; simp
  have hclean : rxChunks (netLog v.log ++ [.asked bytes]) = [] := by
    have ht1 : TcpReach (fun t op => FreshStarts t op ∧ NoEof t op) v1.tcp := by
      rw [b3]
      refine TcpReach.step (op := .send bytes .ok) (Props.tcp_through h (fun x hx => (hf x hx).2)) ⟨?_, by intro i hi; cases hi⟩ rfl
      intro _ _ _ _ _
      refine ⟨?_, ?_⟩
      · rw [hr.2.1]; simp
      · rw [hr.1]; simp
    have := ht1.rx (fun _ _ h => h) (v.tcp.log ++ [.asked bytes]) (v.tcp.conn + 1) [] (by rw [e1]; simp)
    rw [h.proj.micro.net]
    exact (rxDirty_chunks _).1 this
  have hcl : v7.cli = v1.cli := by rw [c7, c6, c5, c4, c3, c2]
  refine ⟨tid, bytes, v7, b2, ?_, hch7, hnet7, ⟨?_, by rw [hcl]; exact b7, by rw [hcl]; exact b8, by rw [y7]; exact hon, ?_, ?_, ?_⟩, by rw [hcl]; exact b6, by rw [hcl]; exact b9⟩
  · have : stackAsk unit q tmo bytes.length = [.chan (.submit unit q tmo), .chan .runTask] ++ [.complete 0 .ok, .run 0, .complete 0 .ok, .run 0,
      .complete 0 (.sent bytes.length), .run 0] := rfl
    rw [this, Stk.run_append, b1]
    simp only [CM.bind, Stk.run, k2, k3, k4, k5, k6, k7, CM.ret_bind]
  · rw [hch7]; simpa using hs
  · refine ⟨[], by simp, ?_⟩
    have hr7 : rxChunks (netLog v7.log) = [] := by
      rw [hnet7, show netLog v.log ++ [TEv.asked bytes, .attempt (v.tcp.conn + 1), .submit (v.tcp.conn + 1) bytes, .wire (v.tcp.conn + 1) bytes, .writeDone] =
        (netLog v.log ++ [.asked bytes]) ++ [.attempt (v.tcp.conn + 1), .submit (v.tcp.conn + 1) bytes, .wire (v.tcp.conn + 1) bytes, .writeDone] by simp,
        rxChunks_quiet (by simp), hclean]
    have hx := r7.proj.micro.chunks.1 (by simp)
    simp only [Micro.owed, List.append_nil] at hx
    rw [hx, hr7]; simp [streamOf]
  · exact ⟨q, tmo, bytes, v.cli.now, by rw [hch7]; simp, by rw [hch7]; simp, b2⟩
  · rw [hch7, handledUids_append]
    have := (h.proj.reach.inv.1.bound v.cli.nextUid (Nat.le_refl _)).1
    rw [← h.proj.cli] at this
    simpa [handledUids] using this

end Modbus
