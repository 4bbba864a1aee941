import Verif.Lemmas.StackRx
import Verif.Lemmas.System

/-! Runs of the whole client, seen from the connection. -/

namespace Modbus

open Spec Tcp

namespace Tcp

theorem run_append (a : List Op) : ∀ (t : Tcp) (b : List Op), t.run (a ++ b) = (t.run a).bind fun t' => t'.run b := by
  induction a with
  | nil => intro t b; rfl
  | cons op a ih =>
    intro t b
    simp only [List.cons_append, Tcp.run]
    cases t.step op with
    | ub => rfl
    | ret t' => exact ih t' b

theorem run_log (ops : List Op) : ∀ {t t' : Tcp}, t.run ops = .ret t' → t.log <+: t'.log := by
  induction ops with
  | nil => intro t t' h; injection h with h; subst h; exact List.prefix_rfl
  | cons op ops ih =>
    intro t t' h
    simp only [Tcp.run] at h
    cases h1 : t.step op with
    | ub => simp [h1] at h
    | ret t1 =>
      simp only [h1, CM.ret_bind] at h
      obtain ⟨new, h2, -⟩ := step_log h1
      exact List.IsPrefix.trans ⟨new, h2.symm⟩ (ih h)

theorem beginRead_queue (w : Tcp) : w.queue <+: w.beginRead.queue := by
  unfold Tcp.beginRead
  repeat' split
  all_goals simp [Tcp.post]

theorem sendBuffer_queue (w : Tcp) : w.queue <+: w.sendBuffer.queue := by
  unfold Tcp.sendBuffer
  repeat' split
  all_goals (try dsimp only)
  all_goals (try split)
  all_goals simp [Tcp.post, Tcp.emit]

/-- Running a task takes nothing out of the queue, and never undoes a shutdown. -/
theorem runTask_keeps (w : Tcp) (x : TTask) : (w.isShutdown = true → (w.runTask x).isShutdown = true) ∧ w.queue <+: (w.runTask x).queue ∧
    (x = .shutdown → (w.runTask x).isShutdown = true) := by
  cases hd : w.isShutdown with
  | true => cases x <;> simp [Tcp.runTask, runShutdown, runClose, onResolved, onConnected, onRead, onWritten, hd, abortAll]
  | false =>
    refine ⟨by simp, ?_, ?_⟩
    · cases x with
      | shutdown => simp [Tcp.runTask, runShutdown, abortAll]
      | close c =>
        simp only [Tcp.runTask]
        cases ho : w.isOpen with
        | true => rw [runClose_open hd ho]; simp [abortAll, Tcp.emit]
        | false => rw [runClose_closed hd ho]; simp [Tcp.emit]
      | resolved c ok =>
        simp only [Tcp.runTask]
        cases ok with
        | true => rw [onResolved_ok hd]; simp [abortAll]
        | false => rw [onResolved_err hd]; simp [Tcp.emit]
      | connected c ok =>
        simp only [Tcp.runTask]
        cases ok with
        | true => rw [onConnected_ok hd]; exact List.IsPrefix.trans (sendBuffer_queue { w with status := .connected }) (beginRead_queue _)
        | false => rw [onConnected_err hd]; simp [Tcp.emit, Tcp.post]
      | read c r =>
        simp only [Tcp.runTask]
        cases r with
        | data bs => rw [onRead_data hd]; simp [Tcp.emit, Tcp.post]
        | eof => rw [onRead_eof hd]; simp [Tcp.post]
        | error => rw [onRead_error hd]; simp [Tcp.emit, Tcp.post]
        | again => rw [onRead_again hd]; exact beginRead_queue w
      | written c ok =>
        simp only [Tcp.runTask]
        cases ok with
        | true => rw [onWritten_ok hd]; simp [Tcp.emit]
        | false => rw [onWritten_err hd]; simp [Tcp.emit, Tcp.post]
    · rintro rfl; simp [Tcp.runTask, runShutdown, abortAll]

/-- A queued shutdown stays queued until it is carried out. -/
theorem step_keeps {t t' : Tcp} {op : Op} (hop : (∃ i r, op = .complete i r) ∨ ∃ k, op = .run k) (hs : t.step op = .ret t')
    (h : t.isShutdown = true ∨ TTask.shutdown ∈ t.queue) : t'.isShutdown = true ∨ TTask.shutdown ∈ t'.queue := by
  rcases hop with ⟨i, r, rfl⟩ | ⟨k, rfl⟩
  · rcases complete_cases hs with rfl | ⟨o, x, -, h1, -, -, -, -, -, -, h2, h3, -⟩
    · exact h
    · rw [h1, h2]
      exact h.imp id fun h => List.mem_append_left _ h
  · simp only [Tcp.step] at hs
    split at hs
    · injection hs with hs; subst hs; exact h
    · rename_i x hx
      injection hs with hs; subst hs
      obtain ⟨k1, k2, k3⟩ := runTask_keeps { t with queue := t.queue.eraseIdx k } x
      rcases h with h | h
      · exact Or.inl (k1 h)
      · by_cases hsh : x = .shutdown
        · exact Or.inl (k3 hsh)
        · refine Or.inr (k2.subset ?_)
          obtain ⟨j, hj⟩ := List.getElem?_of_mem h
          refine List.mem_eraseIdx_iff_getElem?.mpr ⟨j, ?_, hj⟩
          rintro rfl
          rw [hx] at hj; injection hj with hj; exact hsh hj

/-- Attempts are begun by `send` only. -/
theorem step_noAttempt {t t' : Tcp} {op : Op} {new : List TEv} (hop : (∃ i r, op = .complete i r) ∨ ∃ k, op = .run k) (hs : t.step op = .ret t')
    (hl : t'.log = t.log ++ new) : ∀ c, TEv.attempt c ∉ new := by
  rcases hop with ⟨i, r, rfl⟩ | ⟨k, rfl⟩
  · rcases complete_cases hs with rfl | ⟨o, x, -, -, -, -, -, -, -, -, -, -, -, -, -, h⟩
    · have : new = [] := by simpa using hl
      simp [this]
    · rcases h with ⟨h, -⟩ | ⟨c, b, d, n, -, -, -, -, -, -, h⟩
      · rw [h] at hl
        have : new = [] := by simpa using hl
        simp [this]
      · rw [hl] at h
        rw [List.append_cancel_left h]; simp
  · simp only [Tcp.step] at hs
    split at hs
    · injection hs with hs; subst hs
      have : new = [] := by simpa using hl
      simp [this]
    · rename_i x hx
      injection hs with hs; subst hs
      obtain ⟨w, hw⟩ : ∃ w, w = { t with queue := t.queue.eraseIdx k } := ⟨_, rfl⟩
      have hwl : w.log = t.log := by rw [hw]
      rw [← hw, ← hwl] at hl
      have fin : ∀ (a : Tcp) (es : List TEv), a.log = w.log ++ es → a.log = w.log ++ new → (∀ c, TEv.attempt c ∉ es) → ∀ c, TEv.attempt c ∉ new := by
        intro a es h1 h2 h3
        rw [h1] at h2
        rw [← List.append_cancel_left h2]; exact h3
      cases hd : w.isShutdown with
      | true =>
        refine fin _ [] ?_ hl (by simp)
        cases x <;> simp [Tcp.runTask, runShutdown, runClose, onResolved, onConnected, onRead, onWritten, hd, abortAll]
      | false =>
        cases x with
        | shutdown => exact fin _ [] (by simp [Tcp.runTask, runShutdown, abortAll]) hl (by simp)
        | close c =>
          simp only [Tcp.runTask] at hl
          cases ho : w.isOpen with
          | true => rw [runClose_open hd ho] at hl; exact fin _ [.closed c w.conn] rfl hl (by simp)
          | false => rw [runClose_closed hd ho] at hl; exact fin _ [.closed c w.conn] rfl hl (by simp)
        | resolved c ok =>
          simp only [Tcp.runTask] at hl
          cases ok with
          | true => rw [onResolved_ok hd] at hl; exact fin _ [] (by simp [abortAll]) hl (by simp)
          | false => rw [onResolved_err hd] at hl; exact fin _ [.error c w.conn] rfl hl (by simp)
        | connected c ok =>
          simp only [Tcp.runTask] at hl
          cases ok with
          | true =>
            rw [onConnected_ok hd] at hl
            refine fin _ (w.wbuf.map fun b => TEv.submit w.conn b.2).toList ?_ hl ?_
            · rw [(beginRead_same _).2.2.2.2.2, sendBuffer_log (by exact hd)]
            · cases w.wbuf <;> simp
          | false => rw [onConnected_err hd] at hl; exact fin _ [.error c w.conn] rfl hl (by simp)
        | read c r =>
          simp only [Tcp.runTask] at hl
          cases r with
          | data bs => rw [onRead_data hd] at hl; exact fin _ [.receive c bs] rfl hl (by simp)
          | eof => rw [onRead_eof hd] at hl; exact fin _ [] (by simp [Tcp.post]) hl (by simp)
          | error => rw [onRead_error hd] at hl; exact fin _ [.error c w.conn] rfl hl (by simp)
          | again => rw [onRead_again hd] at hl; exact fin _ [] (by rw [(beginRead_same _).2.2.2.2.2]; simp) hl (by simp)
        | written c ok =>
          simp only [Tcp.runTask] at hl
          cases ok with
          | true => rw [onWritten_ok hd] at hl; exact fin _ [.writeDone] rfl hl (by simp)
          | false => rw [onWritten_err hd] at hl; exact fin _ [.error c w.conn] rfl hl (by simp)

end Tcp

namespace Stk

variable {env : StkEnv}

theorem net_tcp {v v' : Stk} {op : Tcp.Op} (h : v.net op = .ret v') : v.tcp.run [op] = .ret v'.tcp := by
  unfold Stk.net at h
  cases ht : v.tcp.step op with
  | ub => simp [ht] at h
  | ret t =>
    simp only [ht, CM.ret_bind, CM.pure_eq] at h
    injection h with h; subst h
    simp [Tcp.run, ht]

theorem relay_tcp (es : List CEv) : ∀ {v v' : Stk}, v.relay env es = .ret v' → ∃ ops, v.tcp.run ops = .ret v'.tcp := by
  induction es with
  | nil => intro v v' h; injection h with h; subst h; exact ⟨[], rfl⟩
  | cons e es ih =>
    intro v v' h
    simp only [relay] at h
    cases h1 : v.relay1 env e with
    | ub => simp [h1] at h
    | ret w =>
      simp only [h1, CM.ret_bind] at h
      obtain ⟨ops, h2⟩ := ih h
      have h3 : ∃ ops, v.tcp.run ops = .ret w.tcp := by
        unfold relay1 at h1
        dsimp only at h1
        split at h1
        · have := net_tcp h1; exact ⟨_, this⟩
        · have := net_tcp h1; exact ⟨_, this⟩
        · injection h1 with h1; subst h1; exact ⟨[], rfl⟩
      obtain ⟨ops', h3⟩ := h3
      exact ⟨ops' ++ ops, by rw [Tcp.run_append, h3]; exact h2⟩

theorem chan_tcp {v v' : Stk} {op : Cli.Op} (h : v.chan env op = .ret v') : ∃ ops, v.tcp.run ops = .ret v'.tcp := by
  unfold chan at h
  cases h1 : v.cli.step env.client op with
  | ub => simp [h1] at h
  | ret c =>
    simp only [h1, CM.ret_bind] at h
    obtain ⟨ops, h2⟩ := relay_tcp _ h
    exact ⟨ops, h2⟩

theorem deliver_tcp (es : List TEv) : ∀ {v v' : Stk}, v.deliver env es = .ret v' → ∃ ops, v.tcp.run ops = .ret v'.tcp := by
  induction es with
  | nil => intro v v' h; injection h with h; subst h; exact ⟨[], rfl⟩
  | cons e es ih =>
    intro v v' h
    have go : ∀ op, ((v.chan env op).bind fun w => w.deliver env es) = .ret v' → ∃ ops, v.tcp.run ops = .ret v'.tcp := by
      intro op h
      cases h1 : v.chan env op with
      | ub => rw [h1] at h; cases h
      | ret w =>
        rw [h1] at h
        obtain ⟨a, ha⟩ := chan_tcp h1
        obtain ⟨b, hb⟩ := ih h
        exact ⟨a ++ b, by rw [Tcp.run_append, ha]; exact hb⟩
    cases e with
    | receive c d => exact go _ h
    | error c cur => exact go _ h
    | _ => exact ih h

/-- What a step of the client is for the connection. -/
theorem step_tcp {v v' : Stk} {op : Op} (h : v.step env op = .ret v') : ∃ ops, v.tcp.run ops = .ret v'.tcp := by
  cases op with
  | chan op =>
    simp only [step] at h
    split at h
    · exact chan_tcp h
    · injection h with h; subst h; exact ⟨[], rfl⟩
  | complete i r => exact ⟨_, net_tcp h⟩
  | run k =>
    simp only [step] at h
    cases h1 : v.net (.run k) with
    | ub => simp [h1] at h
    | ret w =>
      simp only [h1, CM.ret_bind] at h
      cases h2 : w.deliver env (w.tcp.log.drop v.tcp.log.length) with
      | ub => simp [h2] at h
      | ret w' =>
        simp only [h2, CM.ret_bind] at h
        have a1 := net_tcp h1
        obtain ⟨b, b1⟩ := deliver_tcp _ h2
        have hb : v.tcp.run ([.run k] ++ b) = .ret w'.tcp := by rw [Tcp.run_append, a1]; exact b1
        split at h
        · split at h
          · have h3 := net_tcp h
            exact ⟨([.run k] ++ b) ++ [.run (w.tcp.queue.length - 1)], by rw [Tcp.run_append, hb]; exact h3⟩
          · injection h with h; subst h; exact ⟨_, hb⟩
        · injection h with h; subst h; exact ⟨_, hb⟩

/-- What a run of the client is for the connection. -/
theorem run_tcp (ops : List Op) : ∀ {v v' : Stk}, v.run env ops = .ret v' → ∃ tops, v.tcp.run tops = .ret v'.tcp := by
  induction ops with
  | nil => intro v v' h; injection h with h; subst h; exact ⟨[], rfl⟩
  | cons op ops ih =>
    intro v v' h
    simp only [run] at h
    cases h1 : v.step env op with
    | ub => simp [h1] at h
    | ret w =>
      simp only [h1, CM.ret_bind] at h
      obtain ⟨a, ha⟩ := step_tcp h1
      obtain ⟨b, hb⟩ := ih h
      exact ⟨a ++ b, by rw [Tcp.run_append, ha]; exact hb⟩

theorem run_append (a : List Op) : ∀ (v : Stk) (b : List Op), v.run env (a ++ b) = (v.run env a).bind fun v' => v'.run env b := by
  induction a with
  | nil => intro v b; rfl
  | cons op a ih =>
    intro v b
    simp only [List.cons_append, run]
    cases v.step env op with
    | ub => rfl
    | ret v' => exact ih v' b

theorem run_reach (ops : List Op) : ∀ {v v' : Stk}, KReach env v → v.run env ops = .ret v' → KReach env v' := by
  induction ops with
  | nil => intro v v' hr h; injection h with h; subst h; exact hr
  | cons op ops ih =>
    intro v v' hr h
    simp only [run] at h
    cases h1 : v.step env op with
    | ub => simp [h1] at h
    | ret w =>
      simp only [h1, CM.ret_bind] at h
      exact ih (hr.step h1) h

/-- A step of the client has a result if the connection's step has. -/
theorem step_total {v : Stk} (h : KReach env v) (op : Op) (hc : ∀ i r, op = .complete i r → ∃ t', v.tcp.step (.complete i r) = .ret t') :
    ∃ v', v.step env op = .ret v' := by
  cases op with
  | chan op =>
    simp only [step]
    split
    · rename_i ho
      obtain ⟨v', h1, -⟩ := chan_own h.proj op ho
      exact ⟨v', h1⟩
    · exact ⟨v, rfl⟩
  | complete i r =>
    obtain ⟨t', ht⟩ := hc i r rfl
    exact ⟨_, net_eq v ht⟩
  | run k =>
    obtain ⟨t', ht'⟩ : ∃ t', v.tcp.step (.run k) = .ret t' := by
      simp only [Tcp.step]; split <;> exact ⟨_, rfl⟩
    obtain ⟨v', h1, -⟩ := step_run h.proj ht'
    exact ⟨v', h1⟩

/-- The rest of the history never has undefined behaviour if the connection's has not. -/
theorem run_total (I : Tcp → Prop) (hI : ∀ t op, I t → ∃ t', t.step op = .ret t' ∧ I t') (ops : List Op) : ∀ {v : Stk}, KReach env v → I v.tcp →
    ∃ v', v.run env ops = .ret v' := by
  have many : ∀ (tops : List Tcp.Op) (t t' : Tcp), I t → t.run tops = .ret t' → I t' := by
    intro tops
    induction tops with
    | nil => intro t t' h1 h2; injection h2 with h2; subst h2; exact h1
    | cons op tops ih =>
      intro t t' h1 h2
      obtain ⟨t1, a1, a2⟩ := hI t op h1
      simp only [Tcp.run, a1, CM.ret_bind] at h2
      exact ih t1 t' a2 h2
  induction ops with
  | nil => intro v _ _; exact ⟨v, rfl⟩
  | cons op ops ih =>
    intro v hr hi
    obtain ⟨w, hw⟩ := step_total hr op (fun i r _ => by obtain ⟨t', a, -⟩ := hI v.tcp (.complete i r) hi; exact ⟨t', a⟩)
    obtain ⟨tops, ht⟩ := step_tcp hw
    obtain ⟨v', hv'⟩ := ih (hr.step hw) (many tops _ _ hi ht)
    exact ⟨v', by simp only [run, hw, CM.ret_bind]; exact hv'⟩

end Stk

namespace Micro

variable {env : StkEnv}

/-- The channel's shutdown queues the connection's. -/
theorem down_queued {log t s ph} (h : Micro env log t s ph) : CEv.tcpShutdown ∈ chLog log → t.isShutdown = true ∨ TTask.shutdown ∈ t.queue := by
  induction h with
  | init => intro h; cases h
  | own _ hm _ ih =>
    intro h
    simp only [chLog_append, chLog_ch, chLog_nil, List.mem_append, List.mem_singleton] at h
    rcases h with h | h
    · exact ih h
    · subst h; cases hm
  | @sent log t s ph u bytes now _ _ hj ih =>
    intro h
    simp only [chLog_append, chLog_ch, chLog_nets, List.mem_append, List.mem_singleton] at h
    rcases h with h | h
    · exact absurd h hj.1
    · cases h
  | down _ ih => intro _; right; simp [Tcp.post]
  | @step log t s op t' new hm hop hs hl ih =>
    intro h
    simp only [chLog_append, chLog_nets, List.append_nil] at h
    exact Tcp.step_keeps hop hs (ih h)
  | data _ ih => intro h; simp at h; exact ih h
  | heard _ he hj ih =>
    intro h
    simp only [chLog_append, chLog_ch, chLog_nil, List.mem_append, List.mem_singleton] at h
    rcases h with h | h
    · exact ih h
    · subst h; cases he
  | again hm hk hs _ ih => exact fun h => Tcp.step_keeps (Or.inr ⟨_, rfl⟩) hs (ih h)
  | fail _ ih => intro h; simp at h; exact ih h
  | fails _ _ ih => intro h; simp at h; exact ih h
  | done _ ih => exact ih

/-- After the channel's shutdown nothing is asked for and no attempt begins. -/
theorem downQuiet {log t s ph} (h : Micro env log t s ph) (pre post : List KEv) (hl : log = pre ++ .ch .tcpShutdown :: post) :
    (∀ d, KEv.net (.asked d) ∉ post) ∧ ∀ c, KEv.net (.attempt c) ∉ post := by
  have one : ∀ {log : List KEv} {e : KEv} {pre post : List KEv}, (∀ d, e ≠ .net (.asked d)) → (∀ c, e ≠ .net (.attempt c)) →
      log ++ [e] = pre ++ .ch .tcpShutdown :: post →
      (∀ m, log = pre ++ .ch .tcpShutdown :: m → (∀ d, KEv.net (.asked d) ∉ m) ∧ ∀ c, KEv.net (.attempt c) ∉ m) →
      (∀ d, KEv.net (.asked d) ∉ post) ∧ ∀ c, KEv.net (.attempt c) ∉ post := by
    intro log e pre post h1 h2 h ih
    rcases List.eq_nil_or_concat post with rfl | ⟨m, x, rfl⟩
    · simp
    · rw [show pre ++ KEv.ch .tcpShutdown :: m.concat x = (pre ++ .ch .tcpShutdown :: m) ++ [x] by simp] at h
      obtain ⟨h3, h4⟩ := List.append_inj' h rfl
      injection h4 with h4; subst h4
      obtain ⟨g1, g2⟩ := ih m h3
      exact ⟨fun d hd => by simp at hd; exact hd.elim (g1 d) (fun h => h1 d h.symm), fun c hc => by simp at hc; exact hc.elim (g2 c) (fun h => h2 c h.symm)⟩
  have many : ∀ {log : List KEv} {new : List TEv} {pre post : List KEv}, (∀ d, TEv.asked d ∉ new) → (∀ c, TEv.attempt c ∉ new) →
      log ++ new.map .net = pre ++ .ch .tcpShutdown :: post →
      (∀ m, log = pre ++ .ch .tcpShutdown :: m → (∀ d, KEv.net (.asked d) ∉ m) ∧ ∀ c, KEv.net (.attempt c) ∉ m) →
      (∀ d, KEv.net (.asked d) ∉ post) ∧ ∀ c, KEv.net (.attempt c) ∉ post := by
    intro log new
    induction new using List.reverseRecOn with
    | nil => intro pre post _ _ h ih; exact ih post (by simpa using h)
    | append_singleton new e ihn =>
      intro pre post h1 h2 h ih
      rw [List.map_append, ← List.append_assoc] at h
      refine one ?_ ?_ h ?_
      · rintro d hd; injection hd with hd; subst hd; exact h1 d (by simp)
      · rintro c hc; injection hc with hc; subst hc; exact h2 c (by simp)
      · intro m hm
        exact ihn (fun d hd => h1 d (by simp [hd])) (fun c hc => h2 c (by simp [hc])) hm ih
  induction h generalizing post with
  | init => simp at hl
  | own _ _ _ ih => exact one (by simp) (by simp) hl ih
  | @sent log t s ph u bytes now hm hph hj ih =>
    exfalso
    rcases append_cons_cases hl with ⟨m, h⟩ | ⟨es1, h4, h5⟩
    · exact hj.1 (by rw [h]; simp)
    · cases es1 with
      | nil => cases h4
      | cons y es1 =>
        rw [List.cons_append] at h4
        injection h4 with h4 h6
        have : KEv.ch .tcpShutdown ∈ List.map KEv.net (List.drop t.log.length (t.send bytes (env.loc t.nextBuf)).log) := by rw [h6]; simp
        obtain ⟨a, -, ha⟩ := List.mem_map.1 this
        cases ha
  | down _ ih => exact one (by simp) (by simp) hl ih
  | @step log t s op t' new hm hop hs hl' ih =>
    refine many ?_ ?_ hl ih
    · intro d hd
      have := step_asks hop hm.tcp.quiet hs hl'
      have : d ∈ tcpAsked new := by
        simp only [tcpAsked, List.mem_filterMap]; exact ⟨_, hd, rfl⟩
      rw [step_asks hop hm.tcp.quiet hs hl'] at this; cases this
    · exact step_noAttempt hop hs hl'
  | data _ ih => exact one (by simp) (by simp) hl ih
  | heard _ _ _ ih => exact one (by simp) (by simp) hl ih
  | again _ _ _ _ ih => exact ih post hl
  | fail _ ih => exact one (by simp) (by simp) hl ih
  | fails _ _ ih => exact one (by simp) (by simp) hl ih
  | done _ ih => exact ih post hl

end Micro

/-! ### Answers -/

/-- A parser fed with some chunks of a stream of ordinary messages hands over the next messages. -/
theorem feed_stream (chunks : List (List UInt8)) : ∀ {p : Parser} {pend : List UInt8}, Rep p pend → ∀ (msgs : List Mbap), (∀ m ∈ msgs, Ordinary m) →
    ∀ rest, pend ++ (chunks.flatten ++ rest) = streamOf (msgs.map frameOf) →
    ∃ p' ms ms' pend', p.feed chunks = .ret (p', ms) ∧ Rep p' pend' ∧ msgs = ms ++ ms' ∧ pend' ++ rest = streamOf (ms'.map frameOf) := by
  induction chunks with
  | nil => intro p pend hp msgs _ rest h; exact ⟨p, [], msgs, pend, rfl, hp, rfl, by simpa using h⟩
  | cons d ds ih =>
    intro p pend hp msgs hm rest h
    obtain ⟨p1, ms1, r1, pend1, a1, -, a3, a4, a5⟩ := parse_stream hp msgs hm d (ds.flatten ++ rest) (by rw [← h]; simp)
    obtain ⟨p2, ms2, r2, pend2, b1, b2, b3, b4⟩ := ih a3 r1 (fun m h => hm m (by rw [a4]; simp [h])) rest a5
    refine ⟨p2, ms1 ++ ms2, r2, pend2, ?_, b2, by rw [a4, b3, List.append_assoc], b4⟩
    simp [Parser.feed, a1, b1]

/-- The outstanding request and its channel. -/
theorem Cli.outstanding_current {env : ClientEnv} {v : Cli} (h : Props.CReach env v) (hs : CEv.tcpShutdown ∉ v.log) {u : Nat} {bytes : List UInt8} {t : Nat}
    {unit : UInt8} {tid : UInt16} {q : AnyReq} {tmo : Nat} (h1 : CEv.sent u bytes t ∈ v.log) (h2 : u ∉ handledUids v.log)
    (h3 : CEv.call u unit q tmo ∈ v.log) (h4 : IsRequestFrame unit tid q bytes) :
    v.isShutdown = false ∧ ∃ r, v.current = some r ∧ r.uid = u ∧ r.unit = unit ∧ r.tid = tid := by
  have hinv := h.inv.1
  have hd : v.isShutdown = false := by
    cases hd : v.isShutdown with
    | false => rfl
    | true => exact absurd (hinv.downLog.2 hd) hs
  obtain ⟨o, o1, o2⟩ := hinv.outstanding
  have o3 := o1 u (mem_sentUids.2 ⟨_, _, h1⟩) h2
  rw [o2 hd] at o3
  obtain ⟨r, hr, rfl⟩ := Option.map_eq_some_iff.1 o3
  obtain ⟨k1, -, k3⟩ := hinv.known r (by rw [hr]; simp)
  obtain ⟨unit', q', tmo', c1, -, tid', c3, c4⟩ := Props.C54_transaction_ids env v h r.uid bytes t h1
  obtain ⟨e1, e2⟩ := Props.requestFrame_inj h4 c4
  obtain ⟨e3, -, -⟩ := hinv.callUnique k1 h3
  refine ⟨hd, r, hr, rfl, e3, ?_⟩
  rw [k3, e2]
  apply UInt16.toNat_inj.1
  rw [c3]
  simp

/-- The outstanding request is answered by the bytes that complete its answer. -/
theorem Cli.receive_answer {env : ClientEnv} {v v' : Cli} (h : Props.CReach env v) (hs : CEv.tcpShutdown ∉ v.log) {u : Nat} {bytes : List UInt8} {t : Nat}
    {unit : UInt8} {tid : UInt16} {q : AnyReq} {tmo : Nat} (h1 : CEv.sent u bytes t ∈ v.log) (h2 : u ∉ handledUids v.log)
    (h3 : CEv.call u unit q tmo ∈ v.log) (h4 : IsRequestFrame unit tid q bytes) {pdu : List UInt8} (ho : Ordinary ⟨unit, tid, pdu⟩) {d : List UInt8}
    (hne : d ≠ []) (hd : (chunksSince v.log).flatten ++ d = (frameOf ⟨unit, tid, pdu⟩).bytes) (hstep : v.step env (.receive d) = .ret v') :
    CEv.handler u (.ok pdu) v.now ∈ v'.log := by
  obtain ⟨hsd, r, hr, rfl, rfl, rfl⟩ := outstanding_current h hs h1 h2 h3 h4
  obtain ⟨mem, hmem, hfeed⟩ := h.inv.1.framed hsd
  have hstream : streamOf (([⟨r.unit, r.tid, pdu⟩] : List Mbap).map frameOf) = (frameOf ⟨r.unit, r.tid, pdu⟩).bytes := by simp [streamOf]
  have hm : ∀ m ∈ ([⟨r.unit, r.tid, pdu⟩] : List Mbap), Ordinary m := fun m hm => by rw [List.mem_singleton.1 hm]; exact ho
  obtain ⟨p', ms, ms', pend', a1, a2, a3, a4⟩ := feed_stream (chunksSince v.log) (rep_init env.pol mem hmem) _ hm d (by rw [hstream]; simpa using hd)
  rw [hfeed] at a1
  injection a1 with a1
  injection a1 with a1 _; subst a1
  have hms : ms = [] ∧ ms' = [⟨r.unit, r.tid, pdu⟩] := by
    cases ms with
    | nil => exact ⟨rfl, a3.symm⟩
    | cons m ms =>
      exfalso
      have : ms' = [] := by
        have := congrArg List.length a3
        simp only [List.length_append, List.length_cons, List.length_nil] at this
        exact List.eq_nil_of_length_eq_zero (by omega)
      subst this
      simp [streamOf] at a4
      exact hne a4.2
  rw [hms.2] at a4
  obtain ⟨p2, ns, ns', pend2, b1, -, b3, b4, b5⟩ := parse_stream a2 [⟨r.unit, r.tid, pdu⟩] hm d [] (by rw [List.append_nil]; exact a4)
  have hns' : ns' = [] := rep_whole b3 (fun m hm' => hm m (by rw [b4]; exact List.mem_append_right _ hm')) (by simpa using b5)
  subst hns'
  rw [List.append_nil] at b4
  have hst : v.step env (.receive d) = .ret (Cli.onMbap env { v with parser := p2, log := v.log ++ [.data d] } ⟨r.unit, r.tid, pdu⟩) := by
    simp only [Cli.step, Cli.onReceive]
    rw [if_neg (show ¬ (v.emit (.data d)).isShutdown = true by simp [Cli.emit, hsd])]
    have b1' : (v.emit (.data d)).parser.parse d = .ret (p2, ns) := b1
    rw [b1', ← b4]
    rfl
  rw [hst] at hstep
  injection hstep with hstep; subst hstep
  rcases onMbap_eq env { v with parser := p2, log := v.log ++ [.data d] } ⟨r.unit, r.tid, pdu⟩ with ⟨-, he⟩ | ⟨r', -, hr', -, -, he⟩
  · rcases he with he | he
    · simp [hsd] at he
    · exact absurd ⟨rfl, rfl⟩ (he r hr)
  · rw [he]
    have e : r = r' := by
      have : some r = some r' := hr.symm.trans hr'
      injection this
    subst e
    obtain ⟨es, h5, -⟩ := Adds.checkPending_sent env ((Cli.emit { v with parser := p2, log := v.log ++ [.data d] } (.mbap ⟨r.unit, r.tid, pdu⟩)).finish r (.ok pdu))
    rw [h5]
    apply List.mem_append_left
    obtain ⟨f, hf⟩ := Cli.cancelTimer_eq { (Cli.emit { v with parser := p2, log := v.log ++ [.data d] } (.mbap ⟨r.unit, r.tid, pdu⟩)).emit (.handler r.uid (.ok pdu) v.now) with current := none }
    have : (Cli.emit { v with parser := p2, log := v.log ++ [.data d] } (.mbap ⟨r.unit, r.tid, pdu⟩)).finish r (.ok pdu) =
        Cli.cancelTimer { (Cli.emit { v with parser := p2, log := v.log ++ [.data d] } (.mbap ⟨r.unit, r.tid, pdu⟩)).emit (.handler r.uid (.ok pdu) v.now) with current := none } := rfl
    rw [this, hf]
    simp [Cli.emit]

namespace Stk

variable {env : StkEnv}

/-- The same for the whole client. -/
theorem run_answer {v : Stk} (h : KReach env v) (hs : CEv.tcpShutdown ∉ chLog v.log) {u : Nat} {bytes : List UInt8} {t : Nat}
    {unit : UInt8} {tid : UInt16} {q : AnyReq} {tmo : Nat} (h1 : CEv.sent u bytes t ∈ chLog v.log) (h2 : u ∉ handledUids (chLog v.log))
    (h3 : CEv.call u unit q tmo ∈ chLog v.log) (h4 : IsRequestFrame unit tid q bytes) {pdu : List UInt8} (ho : Ordinary ⟨unit, tid, pdu⟩)
    {d : List UInt8} (hne : d ≠ []) (hd : (rxChunks (netLog v.log)).flatten ++ d = (frameOf ⟨unit, tid, pdu⟩).bytes) {k c : Nat}
    (hk : v.tcp.queue[k]? = some (.read c (.data d))) :
    ∃ v', v.step env (.run k) = .ret v' ∧ CEv.handler u (.ok pdu) v.cli.now ∈ chLog v'.log := by
  obtain ⟨v', hstep⟩ := step_total h (.run k) (by simp)
  have hd' : v.tcp.isShutdown = false := by
    cases hd : v.tcp.isShutdown with
    | false => rfl
    | true => exact absurd (h.proj.micro.down_by (Or.inl hd)) hs
  refine ⟨v', hstep, ?_⟩
  have hp := h.proj
  have hch := hp.micro.chunks.1 (by simp)
  simp only [Micro.owed, List.append_nil] at hch
  rw [(h.step hstep).proj.cli]
  obtain ⟨t', new, a1, a2, a3⟩ := step_run_cli hp hstep
  have hnew : new = [.receive c d] := by
    simp only [Tcp.step, hk, Tcp.runTask] at a1
    injection a1 with a1; subst a1
    rw [Tcp.onRead_data (v := { v.tcp with queue := v.tcp.queue.eraseIdx k }) hd'] at a2
    exact (List.append_cancel_left a2).symm
  subst hnew
  rw [hp.cli] at hs h1 h2 h3 hch
  rcases a3 with ⟨a, -⟩ | ⟨c', d', -, -, h, b⟩ | ⟨c', cur, -, h, -⟩
  · exact absurd rfl ((a _ (List.mem_singleton.2 rfl)).1 _ _)
  · injection h with h
    injection h with _ h; subst h
    exact Cli.receive_answer hp.reach hs h1 h2 h3 h4 ho hne (by rw [hch]; exact hd) b
  · cases h

theorem chan_eq {v : Stk} {op : Cli.Op} {c : Cli} {es : List CEv} (h : v.cli.step env.client op = .ret c) (hl : c.log = v.cli.log ++ es) :
    v.chan env op = { v with cli := c }.relay env es := by
  simp [chan, h, hl]

/-- A request is submitted and handed to the connection. -/
theorem submit_steps (v : Stk) (h : KReach env v) (hs : CEv.tcpShutdown ∉ chLog v.log) (hw : Props.waiting v.cli = [])
    (ht : v.cli.tasks = []) (unit : UInt8) (q : AnyReq) (tmo : Nat) (hq : Allowed q) :
    ∃ v' tid bytes, v.run env [.chan (.submit unit q tmo), .chan .runTask] = .ret v' ∧ IsRequestFrame unit tid q bytes ∧
      v'.tcp = v.tcp.send bytes (env.loc v.tcp.nextBuf) ∧ v'.steps = v.steps ++ [(v.tcp, .send bytes (env.loc v.tcp.nextBuf))] ∧
      chLog v'.log = chLog v.log ++ [.call v.cli.nextUid unit q tmo, .sent v.cli.nextUid bytes v.cli.now] ∧ v'.cli.now = v.cli.now ∧
      v'.cli.tasks = [] ∧ v'.cli.pending = [] ∧ v'.cli.nextUid = v.cli.nextUid + 1 := by
  obtain ⟨hp1, hp2, hp3⟩ := h.proj
  have hs' : v.cli.isShutdown = false := by
    cases hd : v.cli.isShutdown with
    | false => rfl
    | true => exact absurd (hp3.inv.1.downLog.2 hd) (by rw [← hp2]; exact hs)
  have hp : v.cli.pending = [] ∧ v.cli.current = none := by
    simp only [Props.waiting, List.append_eq_nil_iff, List.map_eq_nil_iff] at hw
    exact ⟨hw.1, by simpa using hw.2⟩
  have hv : isValid q.1 q.2 = true := (allowed_iff q).2 hq
  obtain ⟨c1, hc1, hl1, ht1, hd1, hpe1, hcu1, hn1, htid, hns, hnow⟩ : ∃ c1, v.cli.step env.client (.submit unit q tmo) = .ret c1 ∧
      c1.log = v.cli.log ++ [.call v.cli.nextUid unit q tmo] ∧ c1.tasks = [.request v.cli.nextUid unit q tmo] ∧ c1.isShutdown = false ∧
      c1.pending = [] ∧ c1.current = none ∧ c1.nextUid = v.cli.nextUid + 1 ∧ c1.nextTid = v.cli.nextTid ∧ c1.nsend = v.cli.nsend ∧ c1.now = v.cli.now := by
    simp only [Cli.step, Cli.emit, hs', hv, ht, Bool.false_eq_true, if_false, if_true, List.nil_append]
    exact ⟨_, rfl, rfl, rfl, rfl, hp.1, hp.2, rfl, rfl, rfl, rfl⟩
  obtain ⟨c2, hc2, hl2, hnow2, htk2, hpe2, hn2⟩ : ∃ c2, c1.step env.client .runTask = .ret c2 ∧
      c2.log = c1.log ++ [.sent v.cli.nextUid (buildMbap unit v.cli.nextTid (reqMsg q.1 q.2) ⟨[], (env.client.junk v.cli.nsend).toList⟩) v.cli.now] ∧
      c2.now = v.cli.now ∧ c2.tasks = [] ∧ c2.pending = [] ∧ c2.nextUid = v.cli.nextUid + 1 := by
    simp only [Cli.step, Cli.emit, hd1, ht1, Cli.runTask, Cli.checkPending, hpe1, hcu1, htid, hns, hnow, hn1, Bool.false_eq_true, if_false, if_true,
      List.nil_append]
    exact ⟨_, rfl, rfl, rfl, rfl, rfl, rfl⟩
  obtain ⟨bytes, hb⟩ : ∃ b, b = buildMbap unit v.cli.nextTid (reqMsg q.1 q.2) ⟨[], (env.client.junk v.cli.nsend).toList⟩ := ⟨_, rfl⟩
  rw [← hb] at hl2
  refine ⟨⟨c2, v.tcp.send bytes (env.loc v.tcp.nextBuf), ((v.log ++ [.ch (.call v.cli.nextUid unit q tmo)]) ++
      [.ch (.sent v.cli.nextUid bytes v.cli.now)]) ++ ((v.tcp.send bytes (env.loc v.tcp.nextBuf)).log.drop v.tcp.log.length).map .net,
      v.steps ++ [(v.tcp, .send bytes (env.loc v.tcp.nextBuf))]⟩,
    v.cli.nextTid, bytes, ?_, by rw [hb]; exact Props.request_frame (by simp) hq, rfl, rfl, ?_, hnow2, htk2, hpe2, hn2⟩
  · simp only [run, step, own, if_true]
    rw [chan_eq hc1 hl1]
    simp only [relay, relay1_plain { v with cli := c1 } (.call v.cli.nextUid unit q tmo) rfl (by simp), CM.ret_bind]
    rw [chan_eq (v := { v with cli := c1, log := v.log ++ [.ch (.call v.cli.nextUid unit q tmo)] }) hc2 hl2]
    simp only [relay, relay1]
    rw [net_eq _ (op := .send bytes (env.loc v.tcp.nextBuf)) rfl]
    simp only [CM.ret_bind]
  · simp only [chLog_append, chLog_nets]
    simp

end Stk

/-! ### A whole exchange -/

/-- What happens at the connection when a request is sent from rest and answered. -/
theorem Tcp.dialogue (t : Tcp) (hd : t.isShutdown = false) (hst : t.status = .notConnected) (ho : t.isOpen = false) (hf : t.flying = []) (hq : t.queue = [])
    (bytes d : List UInt8) (hb : bytes ≠ []) (hdl : 1 ≤ d.length ∧ d.length ≤ 4096) :
    ∃ t2 t3 t4 t5 t6 t7 t8,
      (t.send bytes .ok).log = t.log ++ [.asked bytes, .attempt (t.conn + 1)] ∧
      (t.send bytes .ok).step (.complete 0 .ok) = .ret t2 ∧ t2.log = (t.send bytes .ok).log ++ [] ∧
      t2.step (.run 0) = .ret t3 ∧ t3.log = t2.log ++ [] ∧
      t3.step (.complete 0 .ok) = .ret t4 ∧ t4.log = t3.log ++ [] ∧
      t4.step (.run 0) = .ret t5 ∧ t5.log = t4.log ++ [.submit (t.conn + 1) bytes] ∧
      t5.step (.complete 0 (.sent bytes.length)) = .ret t6 ∧ t6.log = t5.log ++ [.wire (t.conn + 1) bytes] ∧
      t6.step (.run 0) = .ret t7 ∧ t7.log = t6.log ++ [.writeDone] ∧
      t7.step (.complete 0 (.data d)) = .ret t8 ∧ t8.log = t7.log ++ [] ∧ t8.queue[0]? = some (.read (t.conn + 1) (.data d)) := by
  obtain ⟨sd, st, op, cn, wb, nb, fl, qu, lg⟩ := t
  simp only at hd hst ho hf hq; subst hd hst ho hf hq
  have hb' : 1 ≤ bytes.length := by
    cases bytes with
    | nil => exact absurd rfl hb
    | cons => simp
  obtain ⟨l1, hl1⟩ : ∃ l1, l1 = lg ++ [TEv.asked bytes, .attempt (cn + 1)] := ⟨_, rfl⟩
  have h1 : (Tcp.mk false .notConnected false cn wb nb [] [] lg).send bytes .ok =
      Tcp.mk false .connecting true (cn + 1) (some (nb, bytes)) (nb + 1) [.resolve (cn + 1)] [] l1 := by rw [hl1]; simp [Tcp.send, Tcp.emit]
  rw [h1]
  refine ⟨Tcp.mk false .connecting true (cn + 1) (some (nb, bytes)) (nb + 1) [] [.resolved (cn + 1) true] l1,
    Tcp.mk false .connecting true (cn + 1) (some (nb, bytes)) (nb + 1) [.connect (cn + 1)] [] l1,
    Tcp.mk false .connecting true (cn + 1) (some (nb, bytes)) (nb + 1) [] [.connected (cn + 1) true] l1,
    Tcp.mk false .connected true (cn + 1) (some (nb, bytes)) (nb + 1) [.write (cn + 1) nb bytes, .read (cn + 1)] [] (l1 ++ [.submit (cn + 1) bytes]),
    Tcp.mk false .connected true (cn + 1) (some (nb, bytes)) (nb + 1) [.read (cn + 1)] [.written (cn + 1) true]
      (l1 ++ [.submit (cn + 1) bytes] ++ [.wire (cn + 1) bytes]),
    Tcp.mk false .connected true (cn + 1) none (nb + 1) [.read (cn + 1)] []
      (l1 ++ [.submit (cn + 1) bytes] ++ [.wire (cn + 1) bytes] ++ [.writeDone]),
    Tcp.mk false .connected true (cn + 1) none (nb + 1) [] [.read (cn + 1) (.data d)]
      (l1 ++ [.submit (cn + 1) bytes] ++ [.wire (cn + 1) bytes] ++ [.writeDone]),
    hl1, rfl, (List.append_nil _).symm, rfl, (List.append_nil _).symm, rfl, (List.append_nil _).symm, rfl, rfl, ?_, rfl, rfl, rfl, ?_,
    (List.append_nil _).symm, rfl⟩
  · simp [Tcp.step, Tcp.complete, Tcp.emit, Tcp.post, hb']
  · simp [Tcp.step, Tcp.complete, Tcp.post, hdl]

namespace Stk

variable {env : StkEnv}

/-- A step of the connection that delivers nothing. -/
theorem quiet_step {v : Stk} (h : KReach env v) (op : Tcp.Op) (op' : Op) (hop : (∃ i r, op = .complete i r ∧ op' = .complete i r) ∨ ∃ k, op = .run k ∧ op' = .run k)
    {t' : Tcp} {new : List TEv} (hs : v.tcp.step op = .ret t') (hl : t'.log = v.tcp.log ++ new)
    (hn : ∀ e ∈ new, (∀ c d, e ≠ .receive c d) ∧ ∀ c cur, e ≠ .error c cur) :
    ∃ v', v.step env op' = .ret v' ∧ KReach env v' ∧ v'.cli = v.cli ∧ v'.tcp = t' ∧ v'.log = v.log ++ new.map .net := by
  rcases hop with ⟨i, r, rfl, rfl⟩ | ⟨k, rfl, rfl⟩
  · have h1 : v.step env (.complete i r) = _ := net_eq v hs
    exact ⟨_, h1, h.step h1, rfl, rfl, by rw [hl]; simp⟩
  · obtain ⟨v', h1⟩ := step_total h (.run k) (by simp)
    obtain ⟨t'', new', a1, a2, a3⟩ := step_run_cli h.proj h1
    rw [hs] at a1; injection a1 with a1; subst a1
    rw [hl] at a2
    have e := List.append_cancel_left a2
    subst e
    rcases a3 with ⟨-, b1, b2, b3⟩ | ⟨c, d, -, -, b, -⟩ | ⟨c, cur, -, b, -⟩
    · exact ⟨v', h1, h.step h1, b1, b2, b3⟩
    · exact absurd rfl ((hn _ (by rw [b]; simp)).1 c d)
    · exact absurd rfl ((hn _ (by rw [b]; simp)).2 c cur)

end Stk

/-- What has been received since the last error, when everything since came from one connection. -/
theorem rxChunks_since {c : Nat} (a b : List TEv) (h1 : ∀ c' cur, TEv.error c' cur ∉ b) (h2 : ∀ c' d, TEv.receive c' d ∈ b → c' = c) :
    rxChunks (a ++ b) = rxChunks a ++ tcpReceived c b := by
  induction b using List.reverseRecOn with
  | nil => simp [tcpReceived]
  | append_singleton b e ih =>
    have ih := ih (fun c' cur h => h1 c' cur (by simp [h])) (fun c' d h => h2 c' d (by simp [h]))
    rw [← List.append_assoc]
    have hr : tcpReceived c (b ++ [e]) = tcpReceived c b ++ tcpReceived c [e] := by simp [tcpReceived]
    rw [hr, ← List.append_assoc, ← ih]
    cases e with
    | receive c' d =>
      have := h2 c' d (by simp)
      subst this
      rw [rxChunks_receive]; simp [tcpReceived]
    | error c' cur => exact absurd (by simp) (h1 c' cur)
    | _ => rw [rxChunks_quiet (by simp)]; simp [tcpReceived]

end Modbus
