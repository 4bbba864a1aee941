import Verif.Lemmas.Stack

/-! Invariants of the whole client. -/

namespace Modbus

open Spec Tcp

/-- The requests the channel handed to the connection: number and bytes, in order. -/
def sentFrames (log : List CEv) : List (Nat × List UInt8) :=
  log.filterMap fun e => match e with
    | .sent u b _ => some (u, b)
    | _ => none

@[simp] theorem sentFrames_append (a b : List CEv) : sentFrames (a ++ b) = sentFrames a ++ sentFrames b := by simp [sentFrames]

theorem sentFrames_uids (log : List CEv) : (sentFrames log).map (·.1) = sentUids log := by
  induction log with
  | nil => rfl
  | cons e es ih => cases e <;> simp_all [sentFrames, sentUids]

theorem mem_sentFrames {log : List CEv} {u : Nat} {b : List UInt8} : (u, b) ∈ sentFrames log ↔ ∃ now, CEv.sent u b now ∈ log := by
  simp only [sentFrames, List.mem_filterMap]
  constructor
  · rintro ⟨e, he, h⟩
    cases e <;> simp at h
    obtain ⟨rfl, rfl⟩ := h
    exact ⟨_, he⟩
  · rintro ⟨now, h⟩
    exact ⟨_, h, rfl⟩

theorem sentFrames_not {e : CEv} (h : e.isSent = false) : sentFrames [e] = [] := by
  cases e <;> first | rfl | cases h

theorem mine_notSent {e : CEv} (h : e.mine = true) : e.isSent = false := by
  cases e <;> first | rfl | cases h

theorem heard_notSent {e : CEv} (h : e.heard = true) : e.isSent = false := by
  cases e <;> first | rfl | cases h

namespace Tcp

/-- Steps other than `send`: nothing is asked for, and the queue gets no shutdown. -/
theorem step_asks {t t' : Tcp} {op : Op} {new : List TEv} (hop : (∃ i r, op = .complete i r) ∨ ∃ k, op = .run k) (hq : Quiet t) (hs : t.step op = .ret t')
    (hl : t'.log = t.log ++ new) : tcpAsked new = [] := by
  cases hd : t.isShutdown with
  | true =>
    obtain ⟨v', a1, a2, a3, -⟩ := shut_step hd hq op
    rw [hs] at a1; injection a1 with a1; subst a1
    rw [a3] at hl
    have : new = [] := by simpa using hl
    rw [this]; rfl
  | false =>
    rcases step_shape hd op hs with ⟨es, h1, h2, -⟩ | ⟨c, k, -, -, -, -, -, h1⟩ | ⟨d, loc, rfl, -⟩ | ⟨d, loc, rfl, -⟩
    · rw [hl] at h1; rw [List.append_cancel_left h1]; exact h2
    · rw [hl] at h1; rw [List.append_cancel_left h1]
      cases t.wbuf <;> rfl
    · rcases hop with ⟨_, _, h⟩ | ⟨_, h⟩ <;> cases h
    · rcases hop with ⟨_, _, h⟩ | ⟨_, h⟩ <;> cases h

/-- A `send` before shutdown. -/
theorem send_asks {t : Tcp} (hd : t.isShutdown = false) (d : List UInt8) (loc : TLocal) :
    ∃ es, (t.send d loc).log = t.log ++ .asked d :: es ∧ tcpAsked es = [] ∧ ((es = [.submit t.conn d] ∧ t.status = .connected) ∨ tcpAllSubmits es = []) ∧
      (t.send d loc).wbuf = some (t.nextBuf, d) := by
  rcases step_shape hd (.send d loc) rfl with ⟨es, h1, h2, -⟩ | ⟨c, k, h, -⟩ | ⟨d', loc', h1, h2, -, h3⟩ | ⟨d', loc', h1, h2, -, -, h3, h4⟩
  · exfalso
    obtain ⟨new, a1, -⟩ := Tcp.step_log (v := t) (op := .send d loc) rfl
    rw [h1] at a1
    have : ∃ x, (t.send d loc).log = t.log ++ .asked d :: x := by
      unfold send
      rw [if_neg (by simp [hd])]
      dsimp only
      split
      · split
        · exact ⟨[.gaveUp], by simp [Tcp.emit]⟩
        · split
          · exact ⟨[.gaveUp], by simp [Tcp.emit]⟩
          · split
            · exact ⟨[.gaveUp], by simp [Tcp.emit]⟩
            · exact ⟨[.attempt (t.conn + 1)], by simp [Tcp.emit]⟩
      · exact ⟨[], by simp [Tcp.emit]⟩
      · rw [sendBuffer_log (by exact hd)]
        exact ⟨[.submit t.conn d], by simp [Tcp.emit]⟩
    obtain ⟨x, hx⟩ := this
    rw [hx] at h1
    rw [← List.append_cancel_left h1] at h2
    simp [tcpAsked] at h2
  · cases h
  · injection h1 with h1 h1'; subst h1; subst h1'
    rcases h3 with h3 | h3 | h3
    · exact ⟨[], h3, rfl, Or.inr rfl, h2⟩
    · exact ⟨[.gaveUp], h3, rfl, Or.inr rfl, h2⟩
    · exact ⟨[.attempt (t.conn + 1)], h3, rfl, Or.inr rfl, h2⟩
  · injection h1 with h1 h1'; subst h1; subst h1'
    exact ⟨[.submit t.conn d], h4, rfl, Or.inl ⟨rfl, h2⟩, h3⟩

/-- Only `shutdown` queues the shutdown. -/
theorem step_down {t t' : Tcp} {op : Op} (hop : (∃ i r, op = .complete i r) ∨ ∃ k, op = .run k) (hs : t.step op = .ret t')
    (h : t'.isShutdown = true ∨ TTask.shutdown ∈ t'.queue) : t.isShutdown = true ∨ TTask.shutdown ∈ t.queue := by
  rcases hop with ⟨i, r, rfl⟩ | ⟨k, rfl⟩
  · rcases complete_cases hs with rfl | ⟨o, x, -, h1, -, -, -, -, -, -, h2, h3, -⟩
    · exact h
    · rw [h1, h2] at h
      rcases h with h | h
      · exact Or.inl h
      · rcases List.mem_append.1 h with h | h
        · exact Or.inr h
        · rw [← List.mem_singleton.1 h] at h3; cases h3
  · simp only [Tcp.step] at hs
    split at hs
    · injection hs with hs; subst hs; exact h
    · rename_i x hx
      injection hs with hs; subst hs
      cases hd : t.isShutdown with
      | true => exact Or.inl rfl
      | false =>
        right
        obtain ⟨w, hw⟩ : ∃ w, w = { t with queue := t.queue.eraseIdx k } := ⟨_, rfl⟩
        have hwd : w.isShutdown = false := by rw [hw]; exact hd
        have hsub : ∀ y ∈ w.queue, y ∈ t.queue := by rw [hw]; exact fun y hy => List.mem_of_mem_eraseIdx hy
        rw [← hw] at h
        have noAb : ∀ l : List TOp, TTask.shutdown ∉ l.filterMap aborted := by
          intro l hm
          obtain ⟨o, -, ho⟩ := List.mem_filterMap.1 hm
          cases o <;> simp [aborted] at ho
        have post : ∀ (y : TTask) (e : TEv), y ≠ .shutdown → (((w.post y).emit e).isShutdown = true ∨ TTask.shutdown ∈ ((w.post y).emit e).queue) → TTask.shutdown ∈ t.queue := by
          intro y e hy hh
          rcases hh with hh | hh
          · exact absurd (show w.isShutdown = true from hh) (by simp [hwd])
          · rcases List.mem_append.1 (show TTask.shutdown ∈ w.queue ++ [y] from hh) with hh | hh
            · exact hsub _ hh
            · exact absurd (List.mem_singleton.1 hh).symm hy
        cases x with
        | shutdown => exact List.mem_of_getElem? hx
        | close c =>
          simp only [Tcp.runTask] at h
          cases ho : w.isOpen with
          | true =>
            rw [runClose_open hwd ho] at h
            rcases h with h | h
            · exact absurd (show w.isShutdown = true from h) (by simp [hwd])
            · rcases List.mem_append.1 (show TTask.shutdown ∈ w.queue ++ w.flying.filterMap aborted from h) with hh | hh
              · exact hsub _ hh
              · exact absurd hh (noAb _)
          | false =>
            rw [runClose_closed hwd ho] at h
            rcases h with h | h
            · exact absurd (show w.isShutdown = true from h) (by simp [hwd])
            · exact hsub _ h
        | resolved c ok =>
          simp only [Tcp.runTask] at h
          cases ok with
          | true =>
            rw [onResolved_ok hwd] at h
            rcases h with h | h
            · exact absurd (show w.isShutdown = true from h) (by simp [hwd])
            · rcases List.mem_append.1 (show TTask.shutdown ∈ w.queue ++ w.flying.filterMap aborted from h) with hh | hh
              · exact hsub _ hh
              · exact absurd hh (noAb _)
          | false =>
            rw [onResolved_err hwd] at h
            rcases h with h | h
            · exact absurd (show w.isShutdown = true from h) (by simp [hwd])
            · exact hsub _ h
        | connected c ok =>
          simp only [Tcp.runTask] at h
          cases ok with
          | true =>
            rw [onConnected_ok hwd] at h
            have hb : ∀ a : Tcp, a.isShutdown = false → (a.beginRead.isShutdown = true ∨ TTask.shutdown ∈ a.beginRead.queue) → TTask.shutdown ∈ a.queue := by
              intro a ha hh
              cases hao : a.isOpen with
              | true =>
                rw [beginRead_open ha hao] at hh
                rcases hh with hh | hh
                · exact absurd (show a.isShutdown = true from hh) (by simp [ha])
                · exact hh
              | false =>
                rw [beginRead_closed ha hao] at hh
                rcases hh with hh | hh
                · exact absurd (show a.isShutdown = true from hh) (by simp [ha])
                · rcases List.mem_append.1 (show TTask.shutdown ∈ a.queue ++ [_] from hh) with hh | hh
                  · exact hh
                  · cases List.mem_singleton.1 hh
            have h := hb _ (by rw [(sendBuffer_same _).1]; exact hwd) h
            cases hwb : w.wbuf with
            | none => rw [sendBuffer_none (v := { w with status := .connected }) hwb] at h; exact hsub _ h
            | some b =>
              obtain ⟨b, d⟩ := b
              cases ho : w.isOpen with
              | true => rw [sendBuffer_open (v := { w with status := .connected }) hwd ho hwb] at h; exact hsub _ h
              | false =>
                rw [sendBuffer_closed (v := { w with status := .connected }) hwd ho hwb] at h
                rcases List.mem_append.1 (show TTask.shutdown ∈ w.queue ++ [_] from h) with hh | hh
                · exact hsub _ hh
                · cases List.mem_singleton.1 hh
          | false => rw [Tcp.onConnected_err hwd] at h; exact post _ _ (by simp) h
        | read c r =>
          simp only [Tcp.runTask] at h
          cases r with
          | data bs =>
            rw [onRead_data hwd] at h
            rcases h with h | h
            · exact absurd (show w.isShutdown = true from h) (by simp [hwd])
            · rcases List.mem_append.1 (show TTask.shutdown ∈ w.queue ++ [_] from h) with hh | hh
              · exact hsub _ hh
              · cases List.mem_singleton.1 hh
          | eof =>
            rw [onRead_eof hwd] at h
            rcases h with h | h
            · exact absurd (show w.isShutdown = true from h) (by simp [hwd])
            · rcases List.mem_append.1 (show TTask.shutdown ∈ w.queue ++ [_] from h) with hh | hh
              · exact hsub _ hh
              · cases List.mem_singleton.1 hh
          | error => rw [onRead_error hwd] at h; exact post _ _ (by simp) h
          | again =>
            rw [onRead_again hwd] at h
            cases hao : w.isOpen with
            | true =>
              rw [beginRead_open hwd hao] at h
              rcases h with hh | hh
              · exact absurd (show w.isShutdown = true from hh) (by simp [hwd])
              · exact hsub _ hh
            | false =>
              rw [beginRead_closed hwd hao] at h
              rcases h with hh | hh
              · exact absurd (show w.isShutdown = true from hh) (by simp [hwd])
              · rcases List.mem_append.1 (show TTask.shutdown ∈ w.queue ++ [_] from hh) with hh | hh
                · exact hsub _ hh
                · cases List.mem_singleton.1 hh
        | written c ok =>
          simp only [Tcp.runTask] at h
          cases ok with
          | true =>
            rw [onWritten_ok hwd] at h
            rcases h with h | h
            · exact absurd (show w.isShutdown = true from h) (by simp [hwd])
            · exact hsub _ h
          | false => rw [onWritten_err hwd] at h; exact post _ _ (by simp) h

/-- `send` queues no shutdown. -/
theorem send_down {t : Tcp} {d : List UInt8} {loc : TLocal} (h : (t.send d loc).isShutdown = true ∨ TTask.shutdown ∈ (t.send d loc).queue) :
    t.isShutdown = true ∨ TTask.shutdown ∈ t.queue := by
  cases hd : t.isShutdown with
  | true => exact Or.inl rfl
  | false =>
    right
    rw [(send_queue t d loc).1, hd] at h
    have h := h.resolve_left (by simp)
    cases hst : t.status with
    | notConnected =>
      by_cases hh : t.isOpen = true ∨ loc ≠ .ok
      · obtain ⟨o, h1, -⟩ := send_gaveUp hd hst d loc hh
        rw [h1] at h; exact h
      · simp only [not_or, Bool.not_eq_true, ne_eq, not_not] at hh
        obtain ⟨ho, rfl⟩ := hh
        rw [send_start hd hst ho] at h; exact h
    | connecting => rw [send_connecting hd hst] at h; exact h
    | connected =>
      rw [send_connected hd hst] at h
      have had : (t.ask d).isShutdown = false := hd
      cases ho : t.isOpen with
      | true => rw [sendBuffer_open (b := t.nextBuf) (d := d) had ho rfl] at h; exact h
      | false =>
        rw [sendBuffer_closed (b := t.nextBuf) (d := d) had ho rfl] at h
        rcases List.mem_append.1 (show TTask.shutdown ∈ t.queue ++ [_] from h) with hh | hh
        · exact hh
        · cases List.mem_singleton.1 hh

end Tcp

namespace Micro

variable {env : StkEnv}

/-- The connection is shut down by the channel only. -/
theorem down_by {log t s ph} (h : Micro env log t s ph) : t.isShutdown = true ∨ TTask.shutdown ∈ t.queue → CEv.tcpShutdown ∈ chLog log := by
  induction h with
  | init => rintro (h | h) <;> cases h
  | own _ _ _ ih => intro h; simp [ih h]
  | sent _ _ _ ih => intro h; simp only [chLog_append]; exact List.mem_append_left _ (ih (send_down h))
  | down _ ih => intro _; simp
  | step _ hop hs _ ih => intro h; simp only [chLog_append]; exact List.mem_append_left _ (ih (step_down hop hs h))
  | data _ ih => intro h; simp [ih h]
  | heard _ _ _ ih => intro h; simp [ih h]
  | again _ _ hs _ ih => intro h; exact ih (step_down (Or.inr ⟨_, rfl⟩) hs h)
  | fail _ ih => intro h; simp [ih h]
  | fails _ _ ih => intro h; simp [ih h]
  | done _ ih => exact ih

/-- When the channel sends, the connection is not shut down. -/
theorem up {log t s ph u bytes now} (h : Micro env log t s ph) (hj : Just env.client (chLog log) (.sent u bytes now)) : t.isShutdown = false := by
  cases hd : t.isShutdown with
  | false => rfl
  | true => exact absurd (h.down_by (Or.inl hd)) hj.1

/-- What the connection is asked to send is what the channel sends. -/
theorem asked {log t s ph} (h : Micro env log t s ph) : tcpAsked (netLog log) = (sentFrames (chLog log)).map (·.2) := by
  induction h with
  | init => rfl
  | own _ hm _ ih => simp [ih, sentFrames_not (mine_notSent hm)]
  | @sent log t s ph u bytes now hm _ hj ih =>
    obtain ⟨es, h1, h2, -⟩ := send_asks (hm.up hj) bytes (env.loc t.nextBuf)
    rw [h1]
    simp only [List.drop_left, netLog_append, chLog_append, chLog_ch, netLog_ch, netLog_nets, chLog_nets, tcpAsked_append, ih, sentFrames_append, List.map_append]
    have e1 : tcpAsked (.asked bytes :: es) = bytes :: tcpAsked es := rfl
    rw [e1, h2]
    rfl
  | down _ ih => simp [ih, sentFrames_not (e := .tcpShutdown) rfl]
  | step hm hop hs hl ih =>
    have := step_asks hop hm.tcp.quiet hs hl
    simp [tcpAsked_append, ih, this]
  | data _ ih => simp [ih, sentFrames_not (e := .data _) rfl]
  | heard _ hm _ ih => simp [ih, sentFrames_not (heard_notSent hm)]
  | again _ _ _ _ ih => exact ih
  | fail _ ih => simp [ih, sentFrames_not (e := .connError) rfl]
  | fails _ _ ih => simp [ih, sentFrames_not (e := .handler _ _ _) rfl]
  | done _ ih => exact ih


/-- Handlers of the newest request handed to the connection, called so far: timeouts only. -/
def StaleByTimeout (log : List KEv) : Prop :=
  ∀ u b, (sentFrames (chLog log)).getLast? = some (u, b) → ∀ x now, CEv.handler u x now ∈ chLog log → x = .error .timeout

theorem neat {log t s ph} (h : Micro env log t s ph) (hf : ∀ x ∈ s, FreshStarts x.1 x.2) (hd : t.isShutdown = false) : Neat t :=
  (h.tcp.neat (fun a op hm => hf (a, op) hm)).resolve_left (by simp [hd])

/-- Inside `on_receive` no connection attempt is going on. -/
theorem rest_attempts {log t s ph} (h : Micro env log t s ph) (hf : ∀ x ∈ s, FreshStarts x.1 x.2) (hr : (∃ d, ph = .got d) ∨ ph = .receiving) :
    tcpAttempts t = 0 := by
  obtain ⟨hd, c, hc⟩ := h.rest hr
  have hn := h.neat hf hd
  by_cases hst : t.status = .connecting
  · have h0 := (hn.connecting hst).1
    have : t.queue.countP isDataTask = 0 := by unfold dataOps at h0; omega
    exact absurd rfl (List.countP_eq_zero.1 this _ hc)
  · exact hn.other hst

end Micro

namespace Tcp

/-- Attempts are started by `send` only. -/
theorem step_attempts {t t' : Tcp} {op : Op} (hop : (∃ i r, op = .complete i r) ∨ ∃ k, op = .run k) (hd : t.isShutdown = false) (hs : t.step op = .ret t') :
    tcpAttempts t' ≤ tcpAttempts t := by
  rcases hop with ⟨i, r, rfl⟩ | ⟨k, rfl⟩
  · rcases complete_cases hs with rfl | ⟨o, x, h0, -, -, -, -, -, -, h1, h2, -, h3, -⟩
    · exact Nat.le_refl _
    · have := countP_eraseIdx isAttemptOp h0
      simp only [tcpAttempts, h1, h2, List.countP_append, List.countP_singleton, h3]
      omega
  · simp only [Tcp.step] at hs
    split at hs
    · injection hs with hs; subst hs; exact Nat.le_refl _
    · rename_i x hx
      injection hs with hs; subst hs
      obtain ⟨w, hw⟩ : ∃ w, w = { t with queue := t.queue.eraseIdx k } := ⟨_, rfl⟩
      have hwd : w.isShutdown = false := by rw [hw]; exact hd
      have hle : tcpAttempts w + (if isAttemptTask x then 1 else 0) = tcpAttempts t := by
        have := countP_eraseIdx isAttemptTask hx
        rw [hw]; simp only [tcpAttempts]; omega
      rw [← hw]
      have hab : ∀ a : Tcp, a.flying = w.flying → a.queue = w.queue → tcpAttempts a = tcpAttempts w := by
        intro a h1 h2; simp only [tcpAttempts, h1, h2]
      have hp : ∀ (a : Tcp) (y : TTask), isAttemptTask y = false → tcpAttempts (a.post y) = tcpAttempts a := by
        intro a y hy; simp [tcpAttempts, Tcp.post, hy]
      have hbr : ∀ a : Tcp, tcpAttempts a.beginRead = tcpAttempts a := by
        intro a
        unfold beginRead
        split
        · rfl
        · split
          · simp [tcpAttempts, isAttemptOp]
          · exact hp _ _ rfl
      have hsb : ∀ a : Tcp, tcpAttempts a.sendBuffer = tcpAttempts a := by
        intro a
        unfold sendBuffer
        split
        · rfl
        · split
          · rfl
          · dsimp only
            split
            · simp [tcpAttempts, Tcp.emit, isAttemptOp]
            · exact hp _ _ rfl
      cases x with
      | shutdown =>
        simp only [Tcp.runTask, runShutdown]
        rw [abortAll_attempts]
        have := hab { w with isShutdown := true } rfl rfl
        omega
      | close c =>
        simp only [Tcp.runTask]
        cases ho : w.isOpen with
        | true =>
          rw [runClose_open hwd ho]
          have e1 := abortAll_attempts ({ w.emit (.closed c w.conn) with status := .notConnected } : Tcp)
          have e2 := hab ({ w.emit (.closed c w.conn) with status := .notConnected } : Tcp) rfl rfl
          simp only [tcpAttempts] at e1 e2 hle ⊢
          omega
        | false =>
          rw [runClose_closed hwd ho]
          have e2 := hab ({ w.emit (.closed c w.conn) with status := .notConnected } : Tcp) rfl rfl
          omega
      | resolved c ok =>
        simp only [Tcp.runTask]
        cases ok with
        | true =>
          rw [onResolved_ok hwd]
          have e1 := abortAll_attempts w
          simp only [tcpAttempts, List.countP_append, List.countP_singleton, isAttemptTask, isAttemptOp, if_true] at e1 hle ⊢
          omega
        | false =>
          rw [onResolved_err hwd]
          have := hab (({ w with status := .notConnected } : Tcp).emit (.error c w.conn)) rfl rfl
          omega
      | connected c ok =>
        simp only [Tcp.runTask]
        cases ok with
        | true =>
          rw [onConnected_ok hwd, hbr, hsb]
          have := hab ({ w with status := .connected } : Tcp) rfl rfl
          omega
        | false =>
          rw [onConnected_err hwd]
          have := hp w (.close c) rfl
          simp only [Tcp.emit, tcpAttempts] at this hle ⊢
          omega
      | read c r =>
        simp only [Tcp.runTask]
        cases r with
        | data bs =>
          rw [onRead_data hwd]
          have := hp (w.emit (.receive c bs)) (.read c .again) rfl
          simp only [Tcp.emit, tcpAttempts] at this hle ⊢
          omega
        | eof => rw [onRead_eof hwd, hp _ _ rfl]; omega
        | error =>
          rw [onRead_error hwd]
          have := hp w (.close c) rfl
          simp only [Tcp.emit, tcpAttempts] at this hle ⊢
          omega
        | again => rw [onRead_again hwd, hbr]; omega
      | written c ok =>
        simp only [Tcp.runTask]
        cases ok with
        | true =>
          rw [onWritten_ok hwd]
          have := hab (({ w with wbuf := none } : Tcp).emit .writeDone) rfl rfl
          omega
        | false =>
          rw [onWritten_err hwd]
          have := hp w (.close c) rfl
          simp only [Tcp.emit, tcpAttempts] at this hle ⊢
          omega

/-- When an error is reported, either the client no longer tries to connect, or a close is on its way. -/
theorem error_closes {t t' : Tcp} {k c cur : Nat} (hd : t.isShutdown = false) (hs : t.step (.run k) = .ret t') (hl : t'.log = t.log ++ [.error c cur]) :
    t'.status ≠ .connecting ∨ 1 ≤ closes t' := by
  simp only [Tcp.step] at hs
  split at hs
  · injection hs with hs; subst hs; simp at hl
  · rename_i x hx
    injection hs with hs; subst hs
    obtain ⟨w, hw⟩ : ∃ w, w = { t with queue := t.queue.eraseIdx k } := ⟨_, rfl⟩
    have hwd : w.isShutdown = false := by rw [hw]; exact hd
    have hwl : w.log = t.log := by rw [hw]
    rw [← hw, ← hwl] at hl
    rw [← hw]
    cases x with
    | shutdown => simp [Tcp.runTask, runShutdown, abortAll] at hl
    | close c =>
      simp only [Tcp.runTask] at hl
      cases ho : w.isOpen with
      | true => rw [runClose_open hwd ho] at hl; simp [Tcp.emit, abortAll] at hl
      | false => rw [runClose_closed hwd ho] at hl; simp [Tcp.emit] at hl
    | resolved c ok =>
      simp only [Tcp.runTask] at hl ⊢
      cases ok with
      | true => rw [onResolved_ok hwd] at hl; simp [abortAll] at hl
      | false => rw [onResolved_err hwd]; left; simp [Tcp.emit]
    | connected c ok =>
      simp only [Tcp.runTask] at hl ⊢
      cases ok with
      | true =>
        rw [onConnected_ok hwd, (beginRead_same _).2.2.2.2.2, sendBuffer_log (by exact hwd)] at hl
        have := List.append_cancel_left hl
        cases hb : w.wbuf <;> simp [hb] at this
      | false => rw [onConnected_err hwd]; right; simp [closes, Tcp.emit, Tcp.post, isCloseTask]
    | read c r =>
      simp only [Tcp.runTask] at hl ⊢
      cases r with
      | data bs => rw [onRead_data hwd] at hl; simp [Tcp.emit, Tcp.post] at hl
      | eof => rw [onRead_eof hwd] at hl; simp [Tcp.post] at hl
      | error => rw [onRead_error hwd]; right; simp [closes, Tcp.emit, Tcp.post, isCloseTask]
      | again => rw [onRead_again hwd, (beginRead_same _).2.2.2.2.2] at hl; simp at hl
    | written c ok =>
      simp only [Tcp.runTask] at hl ⊢
      cases ok with
      | true => rw [onWritten_ok hwd] at hl; simp [Tcp.emit] at hl
      | false => rw [onWritten_err hwd]; right; simp [closes, Tcp.emit, Tcp.post, isCloseTask]

end Tcp

namespace Micro

variable {env : StkEnv}

/-- While an error is reported no connection attempt is going on. -/
theorem fail_attempts {log t s ph} (h : Micro env log t s ph) (hf : ∀ x ∈ s, FreshStarts x.1 x.2) (hp : ph = .failed ∨ ph = .failing) :
    t.isShutdown = false → tcpAttempts t = 0 := by
  induction h with
  | @step log t s op t' new hm hop hs hl ih =>
    intro hd'
    have hm' := Micro.step hm hop hs hl
    have hn := hm'.neat hf hd'
    obtain ⟨new', h1, h2⟩ := Tcp.step_log hs
    rw [hl] at h1
    obtain rfl := List.append_cancel_left h1
    rcases h2 with h2 | ⟨k, c, d, rfl, h3, h4, rfl, rfl⟩ | ⟨k, c, rfl, h3, rfl⟩
    · exfalso
      rw [Stk.phase_of_nothing h2] at hp
      rcases hp with hp | hp <;> cases hp
    · rcases hp with hp | hp <;> cases hp
    · rcases error_closes h3 hs hl with hst | hc
      · exact hn.other hst
      · by_cases hst : t'.status = .connecting
        · rcases (hn.connecting hst).2 with h | h <;> omega
        · exact hn.other hst
  | sent _ hph _ _ => rcases hph with rfl | rfl <;> rcases hp with hp | hp <;> cases hp
  | fail _ ih => exact ih hf (Or.inl rfl)
  | fails _ _ ih => exact ih hf (Or.inr rfl)
  | _ => rcases hp with hp | hp <;> cases hp

theorem handled_of {log : List CEv} {u : Nat} {x : Expected (List UInt8)} {now : Nat} (h : CEv.handler u x now ∈ log) : u ∈ handledUids log :=
  mem_handledUids.2 ⟨x, now, h⟩

/-- While an attempt is going on, the newest request handed over has been given up by timeout at most. -/
theorem stale {log t s ph} (h : Micro env log t s ph) (hf : ∀ x ∈ s, FreshStarts x.1 x.2) (hd : t.isShutdown = false) :
    1 ≤ tcpAttempts t → StaleByTimeout log := by
  have key : ∀ {log : List KEv} {e : CEv}, StaleByTimeout log → e.isSent = false → (∀ u x now, e = .handler u x now → x = .error .timeout ∨ u ∉ sentUids (chLog log)) →
      StaleByTimeout (log ++ [.ch e]) := by
    intro log e h hs he u b hl x now hx
    simp only [chLog_append, chLog_ch, chLog_nil, sentFrames_append, sentFrames_not hs, List.append_nil] at hl hx
    rcases List.mem_append.1 hx with hx | hx
    · exact h u b hl x now hx
    · rcases he u x now (List.mem_singleton.1 hx).symm with h1 | h1
      · exact h1
      · refine absurd ?_ h1
        rw [← sentFrames_uids]
        exact List.mem_map.2 ⟨_, List.mem_of_getLast? hl, rfl⟩
  induction h with
  | init => intro h; simp [Tcp.init, tcpAttempts] at h
  | @own log t s e hm he hj ih =>
    intro ha
    refine key (ih hf hd ha) (mine_notSent he) ?_
    rintro u x now rfl
    cases x with
    | ok d => cases he
    | error x =>
      cases x with
      | timeout => exact Or.inl rfl
      | malformedRequest => exact Or.inr hj.1
      | _ => cases he
  | @sent log t s ph u bytes now hm hph hj ih =>
    intro _ u' b hl x now' hx
    simp only [chLog_append, chLog_ch, chLog_nets, sentFrames_append] at hl hx
    have e1 : sentFrames [CEv.sent u bytes now] = [(u, bytes)] := rfl
    rw [e1, List.getLast?_concat] at hl
    injection hl with hl; injection hl with h1 h2; subst h1
    rcases List.mem_append.1 hx with hx | hx
    · exact absurd (handled_of hx) hj.2.2.1
    · cases List.mem_singleton.1 hx
  | @down log t s hm ih =>
    intro ha
    refine key (ih (fun x hx => hf x (List.mem_append_left _ hx)) hd ?_) rfl (by simp)
    simpa [tcpAttempts, Tcp.post, isAttemptTask] using ha
  | @step log t s op t' new hm hop hs hl ih =>
    intro ha u b hl x now hx
    simp only [chLog_append, chLog_nets, List.append_nil] at hl hx
    have hd0 : t.isShutdown = false := by
      cases h0 : t.isShutdown with
      | false => rfl
      | true =>
        obtain ⟨v', a1, a2, -⟩ := shut_step h0 hm.tcp.quiet op
        rw [hs] at a1; injection a1 with a1; subst a1
        rw [a2] at hd; cases hd
    exact ih (fun x hx => hf x (List.mem_append_left _ hx)) hd0 (Nat.le_trans ha (step_attempts hop hd0 hs)) u b hl x now hx
  | @data log t s d hm ih => intro ha; exact key (ih hf hd ha) rfl (by simp)
  | heard hm _ _ _ => intro ha; have := hm.rest_attempts hf (Or.inr rfl); omega
  | @again log t s k c t' hm _ hs _ ih =>
    intro ha
    have h0 := (hm.rest (Or.inr rfl)).1
    exact ih (fun x hx => hf x (List.mem_append_left _ hx)) h0 (Nat.le_trans ha (step_attempts (Or.inr ⟨_, rfl⟩) h0 hs))
  | fail hm _ => intro ha; have := hm.fail_attempts hf (Or.inl rfl) hd; omega
  | fails hm _ _ => intro ha; have := hm.fail_attempts hf (Or.inr rfl) hd; omega
  | done hm ih => exact ih hf hd

/-- Every submission is on behalf of a request whose handler has, so far, been called with a timeout at most. -/
theorem onBehalf {log t s ph} (h : Micro env log t s ph) (hf : ∀ x ∈ s, FreshStarts x.1 x.2) (pre : List KEv) (c : Nat) (d : List UInt8) (post : List KEv)
    (hl : log = pre ++ .net (.submit c d) :: post) :
    ∃ u now, CEv.sent u d now ∈ chLog pre ∧ ∀ x now', CEv.handler u x now' ∈ chLog pre → x = .error .timeout := by
  have one : ∀ {log : List KEv} {e : CEv} {pre post : List KEv}, log ++ [.ch e] = pre ++ .net (.submit c d) :: post →
      ∃ m, log = pre ++ .net (.submit c d) :: m := by
    intro log e pre post h
    rcases append_cons_cases h with h | ⟨es1, h1, -⟩
    · exact h
    · cases es1 with
      | nil => cases h1
      | cons y es1 => cases es1 <;> simp at h1
  induction h generalizing post with
  | init => simp at hl
  | own _ _ _ ih => obtain ⟨m, hm⟩ := one hl; exact ih hf m hm
  | @sent log t s ph u bytes now hm hph hj ih =>
    obtain ⟨es, h1, h2, h3, -⟩ := send_asks (hm.up hj) bytes (env.loc t.nextBuf)
    rw [h1, List.drop_left] at hl
    rcases append_cons_cases hl with ⟨m, h⟩ | ⟨es1, h4, h5⟩
    · exact ih (fun x hx => hf x (List.mem_append_left _ hx)) m h
    · rcases h3 with ⟨rfl, -⟩ | h3
      · have h6 : es1 = [.ch (.sent u bytes now), .net (.asked bytes)] ∧ c = t.conn ∧ d = bytes := by
          match es1, h4 with
          | [a, b], h4 =>
            simp only [List.map_cons, List.map_nil, List.cons_append, List.nil_append, List.cons.injEq] at h4
            obtain ⟨rfl, rfl, h4, -⟩ := h4
            injection h4 with h4; injection h4 with h7 h8
            exact ⟨rfl, h7.symm, h8.symm⟩
          | [], h4 => simp at h4
          | [a], h4 => simp at h4
          | a :: b :: e :: r, h4 => simp at h4
        obtain ⟨rfl, rfl, rfl⟩ := h6
        rw [h5]
        refine ⟨u, now, by simp, ?_⟩
        intro x now' hx
        simp only [chLog_append, chLog_ch, chLog_net, chLog_nil] at hx
        rcases List.mem_append.1 hx with hx | hx
        · exact absurd (handled_of hx) hj.2.2.1
        · cases List.mem_singleton.1 hx
      · exfalso
        have : KEv.net (.submit c d) ∈ KEv.ch (.sent u bytes now) :: List.map KEv.net (.asked bytes :: es) := by rw [h4]; simp
        simp only [List.mem_cons, List.mem_map, reduceCtorEq, false_or] at this
        obtain ⟨a, ha, hb⟩ := this
        injection hb with hb; subst hb
        rcases ha with ha | ha
        · cases ha
        · obtain ⟨e1, e2, he⟩ := List.append_of_mem ha
          exact noSubmit_of h3 he
  | down _ ih => obtain ⟨m, hm⟩ := one hl; exact ih (fun x hx => hf x (List.mem_append_left _ hx)) m hm
  | @step log t s op t' new hm hop hs hl' ih =>
    have hf' : ∀ x ∈ s, FreshStarts x.1 x.2 := fun x hx => hf x (List.mem_append_left _ hx)
    rcases append_cons_cases hl with ⟨m, h⟩ | ⟨es1, h4, h5⟩
    · exact ih hf' m h
    · have hmem : TEv.submit c d ∈ new := by
        have : KEv.net (.submit c d) ∈ List.map KEv.net new := by rw [h4]; simp
        obtain ⟨a, ha, hb⟩ := List.mem_map.1 this
        injection hb with hb; subst hb; exact ha
      have hd0 : t.isShutdown = false := by
        cases h0 : t.isShutdown with
        | false => rfl
        | true =>
          obtain ⟨v', a1, a2, a3, -⟩ := shut_step h0 hm.tcp.quiet op
          rw [hs] at a1; injection a1 with a1; subst a1
          rw [a3] at hl'
          have : new = [] := by simpa using hl'
          rw [this] at hmem; cases hmem
      rcases step_shape hd0 op hs with ⟨es, g1, g2, g3, -⟩ | ⟨c', k, rfl, hk, -, -, -, g1⟩ | ⟨d', loc, rfl, -⟩ | ⟨d', loc, rfl, -⟩
      · rw [hl'] at g1
        obtain rfl := List.append_cancel_left g1
        obtain ⟨e1, e2, he⟩ := List.append_of_mem hmem
        exact absurd (noSubmit_of g3 he) id
      · rw [hl'] at g1
        have hnew := List.append_cancel_left g1
        cases hb : t.wbuf with
        | none => rw [hb] at hnew; simp at hnew; rw [hnew] at hmem; cases hmem
        | some bd =>
          obtain ⟨b, d'⟩ := bd
          rw [hb] at hnew
          simp only [Option.map_some, Option.toList_some] at hnew
          rw [hnew] at hmem h4
          obtain ⟨rfl, rfl⟩ : c = t.conn ∧ d = d' := by
            have := List.mem_singleton.1 hmem
            injection this with a b; exact ⟨a, b⟩
          have hes : es1 = [] := by
            cases es1 with
            | nil => rfl
            | cons a r => cases r <;> simp at h4
          rw [hes, List.append_nil] at h5
          have hlast := hm.tcp.newest.wbuf b d hb
          rw [← hm.net, hm.asked, List.getLast?_map] at hlast
          obtain ⟨⟨u, b'⟩, hu, hub⟩ := Option.map_eq_some_iff.1 hlast
          have hub : b' = d := hub
          subst hub
          have ha : 1 ≤ tcpAttempts t := by
            have : 1 ≤ t.queue.countP isAttemptTask := List.one_le_countP_iff.2 ⟨_, List.mem_of_getElem? hk, rfl⟩
            unfold tcpAttempts; omega
          obtain ⟨now, hnow⟩ := mem_sentFrames.1 (List.mem_of_getLast? hu)
          rw [h5]
          exact ⟨u, now, hnow, fun x now' hx => hm.stale hf' hd0 ha u b' hu x now' hx⟩
      · rcases hop with ⟨_, _, h⟩ | ⟨_, h⟩ <;> cases h
      · rcases hop with ⟨_, _, h⟩ | ⟨_, h⟩ <;> cases h
  | data _ ih => obtain ⟨m, hm⟩ := one hl; exact ih hf m hm
  | heard _ _ _ ih => obtain ⟨m, hm⟩ := one hl; exact ih hf m hm
  | again _ _ _ _ ih => exact ih (fun x hx => hf x (List.mem_append_left _ hx)) post hl
  | fail _ ih => obtain ⟨m, hm⟩ := one hl; exact ih hf m hm
  | fails _ _ ih => obtain ⟨m, hm⟩ := one hl; exact ih hf m hm
  | done _ ih => exact ih hf post hl

end Micro

end Modbus
