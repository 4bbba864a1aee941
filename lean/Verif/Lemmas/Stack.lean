import Verif.Spec.Stack
import Verif.Lemmas.System
import Verif.Lemmas.ClientConn

/-! Helper lemmas about the whole client: its histories in small steps. -/

namespace Modbus

open Spec

@[simp] theorem chLog_append (a b : List KEv) : chLog (a ++ b) = chLog a ++ chLog b := by simp [chLog]
@[simp] theorem netLog_append (a b : List KEv) : netLog (a ++ b) = netLog a ++ netLog b := by simp [netLog]
@[simp] theorem chLog_nets (es : List TEv) : chLog (es.map .net) = [] := by simp [chLog]
@[simp] theorem netLog_nets (es : List TEv) : netLog (es.map .net) = es := by
  induction es with
  | nil => rfl
  | cons e es ih => simpa [netLog] using ih
@[simp] theorem chLog_ch (e : CEv) (l : List KEv) : chLog (.ch e :: l) = e :: chLog l := rfl
@[simp] theorem netLog_ch (e : CEv) (l : List KEv) : netLog (.ch e :: l) = netLog l := rfl
@[simp] theorem chLog_net (e : TEv) (l : List KEv) : chLog (.net e :: l) = chLog l := rfl
@[simp] theorem netLog_net (e : TEv) (l : List KEv) : netLog (.net e :: l) = e :: netLog l := rfl
@[simp] theorem chLog_nil : chLog [] = [] := rfl
@[simp] theorem netLog_nil : netLog [] = [] := rfl

/-- Events of the channel's own steps (API calls, posted tasks, timers), apart from calls of the connection. -/
def CEv.mine : CEv → Bool
  | .call _ _ _ _ => true
  | .handler _ (.error .timeout) _ => true
  | .handler _ (.error .malformedRequest) _ => true
  | .session _ => true
  | .sessionShutdown _ => true
  | _ => false

/-- Events while received data is processed, apart from calls of the connection. -/
def CEv.heard : CEv → Bool
  | .mbap _ => true
  | .handler _ (.ok _) _ => true
  | _ => false

def CEv.isSent : CEv → Bool
  | .sent _ _ _ => true
  | _ => false

namespace Cli

theorem Adds.checkPending_sent (env : ClientEnv) (v : Cli) : Adds (fun e => e.isSent = true) v (v.checkPending env) := by
  unfold Cli.checkPending
  split
  · exact .of_eq rfl
  · split
    · exact .one rfl rfl
    · exact .of_eq rfl

/-- Steps that are not caused by the connection. -/
theorem step_mine {env : ClientEnv} {v v' : Cli} {op : Op} (h : v.step env op = .ret v') (hop : Stk.own op = true) :
    Adds (fun e => e.mine = true ∨ e.isSent = true ∨ e = .tcpShutdown) v v' := by
  have sent : ∀ e : CEv, e.isSent = true → e.mine = true ∨ e.isSent = true ∨ e = .tcpShutdown := fun e he => Or.inr (Or.inl he)
  cases op with
  | submit unit q tmo =>
    obtain ⟨new, hn, he⟩ := step_submit env v unit q tmo
    rw [he] at h
    injection h with h; subst h
    exact .one rfl (Or.inl rfl)
  | shutdown => injection h with h; subst h; exact .of_eq rfl
  | createSession =>
    simp only [Cli.step] at h
    split at h <;> injection h with h <;> subst h <;> exact .one rfl (Or.inl rfl)
  | runTask =>
    simp only [Cli.step] at h
    split at h
    · injection h with h; subst h; exact .of_eq rfl
    · rename_i t ts ht
      injection h with h; subst h
      cases t with
      | request u unit q tmo =>
        simp only [Cli.runTask]
        split
        · exact .of_eq rfl
        · exact Adds.trans (.of_eq rfl) ((Adds.checkPending_sent env _).mono sent)
      | malformed u => exact .one rfl (Or.inl rfl)
      | shutdown =>
        simp only [Cli.runTask]
        obtain ⟨f, hf⟩ := cancelTimer_eq { v with tasks := ts, isShutdown := true, log := v.log ++ v.sessions.map CEv.sessionShutdown, sessions := [], pending := [], current := none }
        rw [hf]
        refine ⟨v.sessions.map CEv.sessionShutdown ++ [.tcpShutdown], by simp [Cli.emit], ?_⟩
        intro e he
        rcases List.mem_append.1 he with he | he
        · obtain ⟨x, -, rfl⟩ := List.mem_map.1 he; exact Or.inl rfl
        · exact Or.inr (Or.inr (List.mem_singleton.1 he))
  | receive d => cases hop
  | error => cases hop
  | tick n => injection h with h; subst h; exact .of_eq rfl
  | expire t =>
    simp only [Cli.step] at h
    split at h
    · injection h with h; subst h; exact .of_eq rfl
    · split at h <;> injection h with h <;> subst h <;> exact .of_eq rfl
  | runTimer t =>
    simp only [Cli.step] at h
    split at h
    · injection h with h; subst h
      generalize ha : { v with fired := v.fired.filter fun x => x ≠ t } = a
      have ha' : a.log = v.log := by rw [← ha]
      refine Adds.trans (Adds.of_eq ha') ?_
      unfold Cli.onTimer
      split
      · exact .of_eq rfl
      · split
        · exact .of_eq rfl
        · rename_i r hr
          rw [cancelCurrent_eq env a r _ hr]
          exact Adds.trans (.one (finish_log a r _) (Or.inl rfl)) ((Adds.checkPending_sent env _).mono sent)
    · injection h with h; subst h; exact .of_eq rfl

theorem Adds.onMbap_heard (env : ClientEnv) (v : Cli) (m : Mbap) : Adds (fun e => e.heard = true ∨ e.isSent = true) v (v.onMbap env m) := by
  have h0 : Adds (fun e => e.heard = true ∨ e.isSent = true) v (v.emit (.mbap m)) := .one rfl (Or.inl rfl)
  rcases onMbap_eq env v m with ⟨h, -⟩ | ⟨r, -, hc, -, -, h⟩
  · rw [h]; exact h0
  · rw [h]
    exact (h0.trans (.one (finish_log _ r _) (Or.inl rfl))).trans ((Adds.checkPending_sent env _).mono fun _ => Or.inr)

theorem Adds.onMbaps_heard (env : ClientEnv) (ms : List Mbap) : ∀ v : Cli, Adds (fun e => e.heard = true ∨ e.isSent = true) v (v.onMbaps env ms) := by
  induction ms with
  | nil => exact fun v => .of_eq rfl
  | cons m ms ih => exact fun v => (Adds.onMbap_heard env v m).trans (ih (v.onMbap env m))

/-- Receiving data. -/
theorem step_heard {env : ClientEnv} {v v' : Cli} {d : List UInt8} (h : v.step env (.receive d) = .ret v') :
    ∃ es, v'.log = v.log ++ .data d :: es ∧ ∀ e ∈ es, e.heard = true ∨ e.isSent = true := by
  simp only [Cli.step, Cli.onReceive] at h
  split at h
  · injection h with h; subst h; exact ⟨[], rfl, by simp⟩
  · rcases hp : (v.emit (.data d)).parser.parse d with _ | ⟨p, ms⟩
    · rw [hp] at h; cases h
    · rw [hp] at h
      injection h with h; subst h
      obtain ⟨es, h1, h2⟩ := Adds.onMbaps_heard env ms { v.emit (.data d) with parser := p }
      exact ⟨es, by rw [h1]; simp [Cli.emit], h2⟩

theorem reach_step {env : ClientEnv} {v : Cli} (h : Props.CReach env v) (op : Op) : ∃ v', v.step env op = .ret v' ∧ Props.CReach env v' := by
  obtain ⟨ops, h⟩ := h
  have key : ∀ (ops : List Op) (a b : Cli), a.run env ops = .ret b → a.run env (ops ++ [op]) = b.step env op := by
    intro ops
    induction ops with
    | nil =>
      intro a b hab
      injection hab with hab; subst hab
      simp only [List.nil_append, Cli.run]
      cases a.step env op <;> rfl
    | cons o ops ih =>
      intro a b hab
      simp only [Cli.run, List.cons_append] at hab ⊢
      cases ho : a.step env o with
      | ub => rw [ho] at hab; cases hab
      | ret a' => rw [ho] at hab; exact ih a' b hab
  obtain ⟨v', hv'⟩ := Props.client_total env (ops ++ [op])
  have := key ops _ _ h
  rw [hv'] at this
  exact ⟨v', this.symm, ops ++ [op], hv'⟩

end Cli

namespace Tcp

/-- What a step of the connection adds to its log. -/
theorem step_log {v v' : Tcp} {op : Op} (h : v.step op = .ret v') : ∃ new, v'.log = v.log ++ new ∧
    ((∀ e ∈ new, (∀ c d, e ≠ .receive c d) ∧ ∀ c cur, e ≠ .error c cur) ∨
     (∃ k c d, op = .run k ∧ v.queue[k]? = some (.read c (.data d)) ∧ v.isShutdown = false ∧ new = [.receive c d] ∧
       v' = ({ v with queue := v.queue.eraseIdx k }.emit (.receive c d)).post (.read c .again)) ∨
     ∃ k c, op = .run k ∧ v.isShutdown = false ∧ new = [.error c v.conn]) := by
  cases op with
  | send data loc =>
    injection h with h; subst h
    cases hd : v.isShutdown with
    | true => exact ⟨[], by simp [send, hd], Or.inl (by simp)⟩
    | false =>
      cases hst : v.status with
      | notConnected =>
        by_cases hh : v.isOpen = true ∨ loc ≠ .ok
        · obtain ⟨o, h1, -⟩ := send_gaveUp hd hst data loc hh
          refine ⟨[.asked data, .gaveUp], by rw [h1]; simp [ask, Tcp.emit], Or.inl (by simp)⟩
        · simp only [not_or, Bool.not_eq_true, ne_eq, not_not] at hh
          obtain ⟨ho, rfl⟩ := hh
          rw [send_start hd hst ho]
          exact ⟨[.asked data, .attempt (v.conn + 1)], by simp [ask, Tcp.emit], Or.inl (by simp)⟩
      | connecting =>
        rw [send_connecting hd hst]
        exact ⟨[.asked data], rfl, Or.inl (by simp)⟩
      | connected =>
        rw [send_connected hd hst]
        refine ⟨[.asked data, .submit v.conn data], ?_, Or.inl (by simp)⟩
        rw [sendBuffer_log (by exact hd)]
        simp [ask, Tcp.emit]
  | shutdown =>
    injection h with h; subst h
    exact ⟨[], by simp [Tcp.post], Or.inl (by simp)⟩
  | complete i r =>
    rcases complete_cases h with rfl | ⟨o, t, -, -, -, -, -, -, -, -, -, -, -, -, -, h14⟩
    · exact ⟨[], by simp, Or.inl (by simp)⟩
    · rcases h14 with ⟨h14, -⟩ | ⟨c, b, d, n, -, -, -, -, -, -, h14⟩
      · exact ⟨[], by simp [h14], Or.inl (by simp)⟩
      · exact ⟨_, h14, Or.inl (by simp)⟩
  | run k =>
    simp only [Tcp.step] at h
    split at h
    · injection h with h; subst h; exact ⟨[], by simp, Or.inl (by simp)⟩
    · rename_i t ht
      injection h with h; subst h
      obtain ⟨w, hw⟩ : ∃ w, w = { v with queue := v.queue.eraseIdx k } := ⟨_, rfl⟩
      have hwl : w.log = v.log := by rw [hw]
      have hwc : w.conn = v.conn := by rw [hw]
      rw [← hw, ← hwl, ← hwc]
      cases hd : v.isShutdown with
      | true =>
        have hwd : w.isShutdown = true := by rw [hw]; exact hd
        refine ⟨[], ?_, Or.inl (by simp)⟩
        cases t <;> simp [Tcp.runTask, runShutdown, runClose, onResolved, onConnected, onRead, onWritten, hwd, abortAll]
      | false =>
        have hwd : w.isShutdown = false := by rw [hw]; exact hd
        cases t with
        | shutdown => exact ⟨[], by simp [Tcp.runTask, runShutdown, abortAll], Or.inl (by simp)⟩
        | close c =>
          refine ⟨[.closed c w.conn], ?_, Or.inl (by simp)⟩
          simp only [Tcp.runTask]
          cases ho : w.isOpen with
          | true => rw [runClose_open hwd ho]; rfl
          | false => rw [runClose_closed hwd ho]; rfl
        | resolved c ok =>
          simp only [Tcp.runTask]
          cases ok with
          | true => rw [onResolved_ok hwd]; exact ⟨[], by simp [abortAll], Or.inl (by simp)⟩
          | false => rw [onResolved_err hwd]; exact ⟨[.error c w.conn], rfl, Or.inr (Or.inr ⟨k, c, rfl, by simp, rfl⟩)⟩
        | connected c ok =>
          simp only [Tcp.runTask]
          cases ok with
          | true =>
            rw [onConnected_ok hwd]
            refine ⟨(w.wbuf.map fun b => TEv.submit w.conn b.2).toList, ?_, Or.inl ?_⟩
            · rw [(beginRead_same _).2.2.2.2.2, sendBuffer_log (by exact hwd)]
            · cases w.wbuf <;> simp
          | false => rw [onConnected_err hwd]; exact ⟨[.error c w.conn], rfl, Or.inr (Or.inr ⟨k, c, rfl, by simp, rfl⟩)⟩
        | read c r =>
          simp only [Tcp.runTask]
          cases r with
          | data bs =>
            rw [onRead_data hwd]
            exact ⟨[.receive c bs], rfl, Or.inr (Or.inl ⟨k, c, bs, rfl, ht, by simp, rfl, by subst hw; simp [hd]⟩)⟩
          | eof => rw [onRead_eof hwd]; exact ⟨[], by simp [Tcp.post], Or.inl (by simp)⟩
          | error => rw [onRead_error hwd]; exact ⟨[.error c w.conn], rfl, Or.inr (Or.inr ⟨k, c, rfl, by simp, rfl⟩)⟩
          | again => rw [onRead_again hwd]; exact ⟨[], by simp [(beginRead_same w).2.2.2.2.2], Or.inl (by simp)⟩
        | written c ok =>
          simp only [Tcp.runTask]
          cases ok with
          | true => rw [onWritten_ok hwd]; exact ⟨[.writeDone], rfl, Or.inl (by simp)⟩
          | false => rw [onWritten_err hwd]; exact ⟨[.error c w.conn], rfl, Or.inr (Or.inr ⟨k, c, rfl, by simp, rfl⟩)⟩

/-- `send` appends to the queue at most. -/
theorem send_queue (v : Tcp) (data : List UInt8) (loc : TLocal) :
    (v.send data loc).isShutdown = v.isShutdown ∧ v.queue <+: (v.send data loc).queue := by
  cases hd : v.isShutdown with
  | true => simp [send, hd]
  | false =>
    cases hst : v.status with
    | notConnected =>
      by_cases hh : v.isOpen = true ∨ loc ≠ .ok
      · obtain ⟨o, h1, -⟩ := send_gaveUp hd hst data loc hh
        rw [h1]; exact ⟨hd, List.prefix_refl _⟩
      · simp only [not_or, Bool.not_eq_true, ne_eq, not_not] at hh
        obtain ⟨ho, rfl⟩ := hh
        rw [send_start hd hst ho]; exact ⟨hd, List.prefix_refl _⟩
    | connecting => rw [send_connecting hd hst]; exact ⟨hd, List.prefix_refl _⟩
    | connected =>
      rw [send_connected hd hst]
      have had : (v.ask data).isShutdown = false := hd
      cases ho : v.isOpen with
      | true => rw [sendBuffer_open (b := v.nextBuf) (d := data) had ho rfl]; exact ⟨hd, List.prefix_refl _⟩
      | false => rw [sendBuffer_closed (b := v.nextBuf) (d := data) had ho rfl]; exact ⟨hd, List.prefix_append _ _⟩

end Tcp

/-- Where the client is between the effects of one step. -/
inductive KPhase where
  | idle
  /-- The connection has read `d` and calls `on_receive`. -/
  | got (d : List UInt8)
  /-- Inside `on_receive`. -/
  | receiving
  /-- The connection calls `on_error`. -/
  | failed
  /-- Inside `on_error`. -/
  | failing
deriving DecidableEq

def KPhase.of : List TEv → KPhase
  | [.receive _ d] => .got d
  | [.error _ _] => .failed
  | _ => .idle

/-- The client's histories, effect by effect: log, connection, steps of the connection, phase. -/
inductive Micro (env : StkEnv) : List KEv → Tcp → List (Tcp × Tcp.Op) → KPhase → Prop
  | init : Micro env [] Tcp.init [] .idle
  | own {log t s e} : Micro env log t s .idle → e.mine = true → Just env.client (chLog log) e → Micro env (log ++ [.ch e]) t s .idle
  | sent {log t s ph u bytes now} : Micro env log t s ph → ph = .idle ∨ ph = .receiving → Just env.client (chLog log) (.sent u bytes now) →
      Micro env (log ++ .ch (.sent u bytes now) :: ((t.send bytes (env.loc t.nextBuf)).log.drop t.log.length).map .net)
        (t.send bytes (env.loc t.nextBuf)) (s ++ [(t, .send bytes (env.loc t.nextBuf))]) ph
  | down {log t s} : Micro env log t s .idle → Micro env (log ++ [.ch .tcpShutdown]) (t.post .shutdown) (s ++ [(t, .shutdown)]) .idle
  | step {log t s op t' new} : Micro env log t s .idle → ((∃ i r, op = .complete i r) ∨ ∃ k, op = .run k) → t.step op = .ret t' →
      t'.log = t.log ++ new → Micro env (log ++ new.map .net) t' (s ++ [(t, op)]) (.of new)
  | data {log t s d} : Micro env log t s (.got d) → Micro env (log ++ [.ch (.data d)]) t s .receiving
  | heard {log t s e} : Micro env log t s .receiving → e.heard = true → Just env.client (chLog log) e → Micro env (log ++ [.ch e]) t s .receiving
  | again {log t s k c t'} : Micro env log t s .receiving → t.queue[k]? = some (.read c .again) → t.step (.run k) = .ret t' → t'.log = t.log →
      Micro env log t' (s ++ [(t, .run k)]) .idle
  | fail {log t s} : Micro env log t s .failed → Micro env (log ++ [.ch .connError]) t s .failing
  | fails {log t s u now} : Micro env log t s .failing → Just env.client (chLog log) (.handler u (.error .connection) now) →
      Micro env (log ++ [.ch (.handler u (.error .connection) now)]) t s .failing
  | done {log t s} : Micro env log t s .failing → Micro env log t s .idle

namespace Micro

variable {env : StkEnv}

/-- The connection's log is part of the log. -/
theorem net {log t s ph} (h : Micro env log t s ph) : netLog log = t.log := by
  induction h with
  | init => rfl
  | own _ _ _ ih => simpa using ih
  | @sent log t s ph u bytes now _ _ _ ih =>
    obtain ⟨new, h1, -⟩ := Tcp.step_log (v := t) (op := .send bytes (env.loc t.nextBuf)) rfl
    rw [h1]
    simp [ih]
  | down _ ih => simpa [Tcp.post] using ih
  | step _ _ _ hl ih => simp [ih, hl]
  | data _ ih => simpa using ih
  | heard _ _ _ ih => simpa using ih
  | again _ _ _ hl ih => rw [ih, hl]
  | fail _ ih => simpa using ih
  | fails _ _ ih => simpa using ih
  | done _ ih => exact ih

/-- The connection's history. -/
theorem tcp {log t s ph} (h : Micro env log t s ph) : TcpReach (fun a op => (a, op) ∈ s) t := by
  have mono : ∀ {P Q : Tcp → Tcp.Op → Prop} {t : Tcp}, (∀ a op, P a op → Q a op) → TcpReach P t → TcpReach Q t := by
    intro P Q t hpq h
    induction h with
    | init => exact .init
    | step _ hp hs ih => exact ih.step (hpq _ _ hp) hs
  induction h with
  | init => exact .init
  | own _ _ _ ih => exact ih
  | sent _ _ _ ih => exact (mono (fun a op hm => List.mem_append_left _ hm) ih).step (List.mem_append_right _ (List.mem_singleton.2 rfl)) rfl
  | down _ ih => exact (mono (fun a op hm => List.mem_append_left _ hm) ih).step (List.mem_append_right _ (List.mem_singleton.2 rfl)) rfl
  | step _ _ hs _ ih => exact (mono (fun a op hm => List.mem_append_left _ hm) ih).step (List.mem_append_right _ (List.mem_singleton.2 rfl)) hs
  | data _ ih => exact ih
  | heard _ _ _ ih => exact ih
  | again _ _ hs _ ih => exact (mono (fun a op hm => List.mem_append_left _ hm) ih).step (List.mem_append_right _ (List.mem_singleton.2 rfl)) hs
  | fail _ ih => exact ih
  | fails _ _ ih => exact ih
  | done _ ih => exact ih

/-- Inside `on_receive` the rest of the read handler is still to be done. -/
theorem rest {log t s ph} (h : Micro env log t s ph) : (∃ d, ph = .got d) ∨ ph = .receiving → t.isShutdown = false ∧ ∃ c, TTask.read c .again ∈ t.queue := by
  induction h with
  | @sent log t s ph u bytes now _ hph _ ih =>
    intro hr
    obtain ⟨h1, c, h2⟩ := ih hr
    obtain ⟨h3, h4⟩ := Tcp.send_queue t bytes (env.loc t.nextBuf)
    exact ⟨h3.trans h1, c, h4.subset h2⟩
  | @step log t s op t' new _ _ hs hl ih =>
    intro hr
    obtain ⟨new', h1, h2⟩ := Tcp.step_log hs
    rw [hl] at h1
    obtain rfl := List.append_cancel_left h1
    rcases h2 with h2 | ⟨k, c, d, rfl, h3, h4, rfl, rfl⟩ | ⟨k, c, rfl, h3, rfl⟩
    · exfalso
      rcases hr with ⟨d, hr⟩ | hr
      · unfold KPhase.of at hr
        split at hr
        · exact (h2 _ (List.mem_singleton.2 rfl)).1 _ _ rfl
        · cases hr
        · cases hr
      · unfold KPhase.of at hr
        split at hr <;> cases hr
    · exact ⟨h4, c, by simp [Tcp.post]⟩
    · rcases hr with ⟨d, hr⟩ | hr <;> cases hr
  | data _ ih => intro _; exact ih (Or.inl ⟨_, rfl⟩)
  | heard _ _ _ ih => intro _; exact ih (Or.inr rfl)
  | _ => rintro (⟨d, hr⟩ | hr) <;> cases hr

end Micro

namespace Stk

variable {env : StkEnv}

/-- The client between two steps. -/
structure Proj (env : StkEnv) (v : Stk) : Prop where
  micro : Micro env v.log v.tcp v.steps .idle
  cli : chLog v.log = v.cli.log
  reach : Props.CReach env.client v.cli

theorem net_eq (v : Stk) {op : Tcp.Op} {t : Tcp} (h : v.tcp.step op = .ret t) :
    v.net op = .ret { v with tcp := t, log := v.log ++ (t.log.drop v.tcp.log.length).map .net, steps := v.steps ++ [(v.tcp, op)] } := by
  simp [Stk.net, h]

/-- The effects of a step of the channel. -/
theorem relay_micro (ph : KPhase) (P : CEv → Prop)
    (hP : ∀ (v : Stk) e, P e → Micro env v.log v.tcp v.steps ph → Just env.client (chLog v.log) e →
      ∃ v', v.relay1 env e = .ret v' ∧ Micro env v'.log v'.tcp v'.steps ph ∧ chLog v'.log = chLog v.log ++ [e] ∧ v'.cli = v.cli ∧ v.tcp.queue <+: v'.tcp.queue)
    (es : List CEv) : ∀ v : Stk, Micro env v.log v.tcp v.steps ph → Logged env.client (chLog v.log ++ es) → (∀ e ∈ es, P e) →
      ∃ v', v.relay env es = .ret v' ∧ Micro env v'.log v'.tcp v'.steps ph ∧ chLog v'.log = chLog v.log ++ es ∧ v'.cli = v.cli ∧ v.tcp.queue <+: v'.tcp.queue := by
  induction es with
  | nil => exact fun v h _ _ => ⟨v, rfl, h, by simp, rfl, List.prefix_refl _⟩
  | cons e es ih =>
    intro v h hl hp
    obtain ⟨v1, a1, a2, a3, a4, a5⟩ := hP v e (hp e (by simp)) h (hl.at rfl)
    obtain ⟨v2, b1, b2, b3, b4, b5⟩ := ih v1 a2 (by rw [a3]; simpa using hl) (fun e he => hp e (by simp [he]))
    refine ⟨v2, ?_, b2, by rw [b3, a3]; simp, b4.trans a4, a5.trans b5⟩
    simp only [relay, a1, CM.ret_bind]
    exact b1

theorem relay1_plain (v : Stk) (e : CEv) (h1 : e.isSent = false) (h2 : e ≠ .tcpShutdown) : v.relay1 env e = .ret { v with log := v.log ++ [.ch e] } := by
  cases e with
  | sent u bytes now => cases h1
  | tcpShutdown => exact absurd rfl h2
  | _ => rfl

theorem relay1_sent (v : Stk) (u : Nat) (bytes : List UInt8) (now : Nat) (ph : KPhase) (hph : ph = .idle ∨ ph = .receiving)
    (h : Micro env v.log v.tcp v.steps ph) (hj : Just env.client (chLog v.log) (.sent u bytes now)) :
    ∃ v', v.relay1 env (.sent u bytes now) = .ret v' ∧ Micro env v'.log v'.tcp v'.steps ph ∧ chLog v'.log = chLog v.log ++ [.sent u bytes now] ∧
      v'.cli = v.cli ∧ v.tcp.queue <+: v'.tcp.queue := by
  refine ⟨_, net_eq { v with log := v.log ++ [.ch (.sent u bytes now)] } (op := .send bytes (env.loc v.tcp.nextBuf)) rfl, ?_, by simp only [chLog_append, chLog_nets]; simp, rfl, ?_⟩
  · have := Micro.sent h hph hj
    simpa using this
  · exact (Tcp.send_queue _ _ _).2

theorem relay1_idle (v : Stk) (e : CEv) (hp : e.mine = true ∨ e.isSent = true ∨ e = .tcpShutdown) (h : Micro env v.log v.tcp v.steps .idle)
    (hj : Just env.client (chLog v.log) e) :
    ∃ v', v.relay1 env e = .ret v' ∧ Micro env v'.log v'.tcp v'.steps .idle ∧ chLog v'.log = chLog v.log ++ [e] ∧ v'.cli = v.cli ∧
      v.tcp.queue <+: v'.tcp.queue := by
  cases hs : e.isSent with
  | true =>
    cases e with
    | sent u bytes now => exact relay1_sent v u bytes now .idle (Or.inl rfl) h hj
    | _ => cases hs
  | false =>
    by_cases hd : e = .tcpShutdown
    · subst hd
      refine ⟨_, net_eq { v with log := v.log ++ [.ch .tcpShutdown] } (op := .shutdown) rfl, ?_, by simp only [chLog_append, chLog_nets]; simp, rfl, List.prefix_append _ _⟩
      have := Micro.down h
      simpa [Tcp.post] using this
    · rw [relay1_plain v e hs hd]
      rcases hp with hp | hp | hp
      · exact ⟨_, rfl, .own h hp hj, by simp, rfl, List.prefix_refl _⟩
      · rw [hs] at hp; cases hp
      · exact absurd hp hd

theorem relay1_receiving (v : Stk) (e : CEv) (hp : e.heard = true ∨ e.isSent = true) (h : Micro env v.log v.tcp v.steps .receiving)
    (hj : Just env.client (chLog v.log) e) :
    ∃ v', v.relay1 env e = .ret v' ∧ Micro env v'.log v'.tcp v'.steps .receiving ∧ chLog v'.log = chLog v.log ++ [e] ∧ v'.cli = v.cli ∧
      v.tcp.queue <+: v'.tcp.queue := by
  cases hs : e.isSent with
  | true =>
    cases e with
    | sent u bytes now => exact relay1_sent v u bytes now .receiving (Or.inr rfl) h hj
    | _ => cases hs
  | false =>
    rw [hs] at hp
    have hp : e.heard = true := hp.resolve_right (by simp)
    rw [relay1_plain v e hs (by rintro rfl; cases hp)]
    exact ⟨_, rfl, .heard h hp hj, by simp, rfl, List.prefix_refl _⟩

theorem relay1_failing (v : Stk) (e : CEv) (hp : ∃ u t, e = .handler u (.error .connection) t) (h : Micro env v.log v.tcp v.steps .failing)
    (hj : Just env.client (chLog v.log) e) :
    ∃ v', v.relay1 env e = .ret v' ∧ Micro env v'.log v'.tcp v'.steps .failing ∧ chLog v'.log = chLog v.log ++ [e] ∧ v'.cli = v.cli ∧
      v.tcp.queue <+: v'.tcp.queue := by
  obtain ⟨u, t, rfl⟩ := hp
  exact ⟨_, rfl, .fails h hj, by simp, rfl, List.prefix_refl _⟩

/-- A step of the channel's own. -/
theorem chan_own {v : Stk} (h : Proj env v) (op : Cli.Op) (ho : own op = true) : ∃ v', v.chan env op = .ret v' ∧ Proj env v' := by
  obtain ⟨c, h1, h2⟩ := Cli.reach_step h.reach op
  obtain ⟨es, h3, h4⟩ := Cli.step_mine h1 ho
  obtain ⟨v', a1, a2, a3, a4, -⟩ := relay_micro .idle _ (fun v e he hm hj => relay1_idle v e he hm hj) es { v with cli := c } h.micro
    (by show Logged _ (chLog v.log ++ es); rw [h.cli, ← h3]; exact h2.inv.1.just) h4
  refine ⟨v', ?_, a2, ?_, by rw [a4]; exact h2⟩
  · simp only [chan, h1, CM.ret_bind, h3, List.drop_left]
    exact a1
  · rw [a3, a4]
    show chLog v.log ++ es = c.log
    rw [h.cli, h3]

/-- The channel receives data. -/
theorem chan_receive {v : Stk} {d : List UInt8} (hm : Micro env v.log v.tcp v.steps (.got d)) (hl : chLog v.log = v.cli.log)
    (hr : Props.CReach env.client v.cli) :
    ∃ v', v.chan env (.receive d) = .ret v' ∧ Micro env v'.log v'.tcp v'.steps .receiving ∧ chLog v'.log = v'.cli.log ∧
      Props.CReach env.client v'.cli ∧ v.tcp.queue <+: v'.tcp.queue := by
  obtain ⟨c, h1, h2⟩ := Cli.reach_step hr (.receive d)
  obtain ⟨es, h3, h4⟩ := Cli.step_heard h1
  have hlog : chLog (v.log ++ [.ch (.data d)]) ++ es = c.log := by rw [h3, ← hl]; simp
  obtain ⟨v', a1, a2, a3, a4, a5⟩ := relay_micro .receiving _ (fun v e he hm hj => relay1_receiving v e he hm hj) es
    { v with cli := c, log := v.log ++ [.ch (.data d)] } (.data hm) (by show Logged _ (_ ++ es); rw [hlog]; exact h2.inv.1.just) h4
  refine ⟨v', ?_, a2, ?_, by rw [a4]; exact h2, a5⟩
  · simp only [chan, h1, CM.ret_bind, h3, List.drop_left, relay, relay1]
    exact a1
  · rw [a3, a4]; exact hlog

/-- The channel is told of an error. -/
theorem chan_error {v : Stk} (hm : Micro env v.log v.tcp v.steps .failed) (hl : chLog v.log = v.cli.log)
    (hr : Props.CReach env.client v.cli) : ∃ v', v.chan env .error = .ret v' ∧ Proj env v' := by
  obtain ⟨c, h1, h2⟩ := Cli.reach_step hr .error
  obtain ⟨es, h3, -, h4⟩ := Cli.step_error hr h1
  have hlog : chLog (v.log ++ [.ch .connError]) ++ es = c.log := by rw [h3, ← hl]; simp
  obtain ⟨v', a1, a2, a3, a4, a5⟩ := relay_micro .failing _ (fun v e he hm hj => relay1_failing v e he hm hj) es
    { v with cli := c, log := v.log ++ [.ch .connError] } (.fail hm) (by show Logged _ (_ ++ es); rw [hlog]; exact h2.inv.1.just) h4
  refine ⟨v', ?_, .done a2, ?_, by rw [a4]; exact h2⟩
  · simp only [chan, h1, CM.ret_bind, h3, List.drop_left, relay, relay1]
    exact a1
  · rw [a3, a4]; exact hlog

theorem deliver_nothing (es : List TEv) : ∀ v : Stk, (∀ e ∈ es, (∀ c d, e ≠ .receive c d) ∧ ∀ c cur, e ≠ .error c cur) → v.deliver env es = .ret v := by
  induction es with
  | nil => exact fun v _ => rfl
  | cons e es ih =>
    intro v h
    have he := h e (by simp)
    have := ih v (fun e he => h e (by simp [he]))
    cases e with
    | receive c d => exact absurd rfl (he.1 c d)
    | error c cur => exact absurd rfl (he.2 c cur)
    | _ => exact this

theorem phase_of_nothing {es : List TEv} (h : ∀ e ∈ es, (∀ c d, e ≠ .receive c d) ∧ ∀ c cur, e ≠ .error c cur) : KPhase.of es = .idle := by
  unfold KPhase.of
  split
  · exact absurd rfl ((h _ (List.mem_singleton.2 rfl)).1 _ _)
  · exact absurd rfl ((h _ (List.mem_singleton.2 rfl)).2 _ _)
  · rfl

/-- Handling a task of the connection: the cases, as far as the channel is concerned. -/
theorem step_run {v : Stk} (h : Proj env v) {k : Nat} {t' : Tcp} (hs : v.tcp.step (.run k) = .ret t') :
    ∃ v', v.step env (.run k) = .ret v' ∧ Proj env v' := by
  obtain ⟨new, h1, h2⟩ := Tcp.step_log hs
  obtain ⟨w, hw⟩ : ∃ w : Stk, w = { v with tcp := t', log := v.log ++ new.map .net, steps := v.steps ++ [(v.tcp, .run k)] } := ⟨_, rfl⟩
  have hnet : v.net (.run k) = .ret w := by rw [net_eq v hs, h1, hw]; simp
  have hm : Micro env w.log w.tcp w.steps (.of new) := by rw [hw]; exact .step h.micro (Or.inr ⟨k, rfl⟩) hs h1
  have hcl : chLog w.log = w.cli.log := by rw [hw]; simpa using h.cli
  have hcr : Props.CReach env.client w.cli := by rw [hw]; exact h.reach
  have hdrop : w.tcp.log.drop v.tcp.log.length = new := by rw [hw]; simp [h1]
  simp only [step, hnet, CM.ret_bind, hdrop]
  rcases h2 with h2 | ⟨k', c, d, hk', h3, h4, rfl, ht'⟩ | ⟨k', c, -, h3, rfl⟩
  · rw [deliver_nothing new w h2]
    rw [phase_of_nothing h2] at hm
    simp only [CM.ret_bind]
    have hdone : Proj env w := ⟨hm, hcl, hcr⟩
    split
    · rename_i t ht
      rw [if_neg]
      · exact ⟨w, rfl, hdone⟩
      · rintro ⟨hd, hsd⟩
        cases t with
        | read c r =>
          cases r with
          | data d =>
            have hvd : v.tcp.isShutdown = false := by
              cases hvd : v.tcp.isShutdown with
              | false => rfl
              | true =>
                obtain ⟨t2, b1, b2, -⟩ := Tcp.shut_step hvd h.micro.tcp.quiet (.run k)
                rw [hs] at b1; injection b1 with b1; subst b1
                rw [hw] at hsd; rw [hsd] at b2; cases b2
            simp only [Tcp.step, ht, Tcp.runTask] at hs
            rw [Tcp.onRead_data (v := { v.tcp with queue := v.tcp.queue.eraseIdx k }) hvd] at hs
            injection hs with hs
            rw [← hs] at h1
            simp only [Tcp.post, Tcp.emit, List.append_cancel_left_eq] at h1
            exact (h2 (.receive c d) (by rw [← h1]; simp)).1 _ _ rfl
          | _ => cases hd
        | _ => cases hd
    · exact ⟨w, rfl, hdone⟩
  · injection hk' with hk'; subst hk'
    obtain ⟨w', a1, a2, a3, a4, a5⟩ := chan_receive (d := d) hm hcl hcr
    have hdel : w.deliver env [.receive c d] = .ret w' := by
      simp only [deliver, a1, CM.ret_bind]
    rw [hdel]
    simp only [CM.ret_bind, h3]
    have hwq : w.tcp.queue = v.tcp.queue.eraseIdx k ++ [.read c .again] := by rw [hw]; show t'.queue = _; rw [ht']; rfl
    have hwd : w.tcp.isShutdown = false := by rw [hw]; show t'.isShutdown = _; rw [ht']; exact h4
    rw [if_pos ⟨rfl, hwd⟩]
    have hidx : w'.tcp.queue[w.tcp.queue.length - 1]? = some (.read c .again) := by
      obtain ⟨q, hq⟩ := a5
      rw [← hq, hwq, List.getElem?_append_left (by simp), List.getElem?_append_right (by simp)]
      simp
    have hrd := (a2.rest (Or.inr rfl)).1
    obtain ⟨t2, ht2⟩ : ∃ t2, w'.tcp.step (.run (w.tcp.queue.length - 1)) = .ret t2 := by
      simp only [Tcp.step, hidx]; exact ⟨_, rfl⟩
    have hlog2 : t2.log = w'.tcp.log := by
      simp only [Tcp.step, hidx, Tcp.runTask] at ht2
      rw [Tcp.onRead_again (v := { w'.tcp with queue := w'.tcp.queue.eraseIdx (w.tcp.queue.length - 1) }) hrd] at ht2
      injection ht2 with ht2
      rw [← ht2, (Tcp.beginRead_same _).2.2.2.2.2]
    refine ⟨_, net_eq w' ht2, ?_, ?_, a4⟩
    · have := Micro.again a2 hidx ht2 hlog2
      simpa [hlog2] using this
    · simpa [hlog2] using a3
  · obtain ⟨w', a1, a2⟩ := chan_error hm hcl hcr
    have hdel : w.deliver env [.error c v.tcp.conn] = .ret w' := by
      simp only [deliver, a1, CM.ret_bind]
    rw [hdel]
    simp only [CM.ret_bind]
    split
    · rename_i t ht
      rw [if_neg]
      · exact ⟨w', rfl, a2⟩
      · rintro ⟨hd, hsd⟩
        cases t with
        | read c' r =>
          cases r with
          | data d =>
            simp only [Tcp.step, ht, Tcp.runTask] at hs
            rw [Tcp.onRead_data (v := { v.tcp with queue := v.tcp.queue.eraseIdx k }) h3] at hs
            injection hs with hs
            rw [← hs] at h1
            simp [Tcp.post, Tcp.emit] at h1
          | _ => cases hd
        | _ => cases hd
    · exact ⟨w', rfl, a2⟩

end Stk

/-- Every reachable state is the end of a history in small steps. -/
theorem Spec.KReach.proj {env : StkEnv} {v : Stk} (h : KReach env v) : Stk.Proj env v := by
  induction h with
  | init => exact ⟨.init, rfl, [], rfl⟩
  | @step v v' op _ hs ih =>
    cases op with
    | chan op =>
      simp only [Stk.step] at hs
      split at hs
      · rename_i ho
        obtain ⟨v2, h1, h2⟩ := Stk.chan_own ih op ho
        rw [h1] at hs; injection hs with hs; subst hs; exact h2
      · injection hs with hs; subst hs; exact ih
    | complete i r =>
      simp only [Stk.step] at hs
      cases ht : v.tcp.step (.complete i r) with
      | ub => simp [Stk.net, ht] at hs
      | ret t =>
        obtain ⟨new, h1, h2⟩ := Tcp.step_log ht
        rw [Stk.net_eq v ht, h1] at hs
        injection hs with hs; subst hs
        have hof : KPhase.of new = .idle := by
          rcases h2 with h2 | ⟨k, c, d, hk, -⟩ | ⟨k, c, hk, -⟩
          · exact Stk.phase_of_nothing h2
          · cases hk
          · cases hk
        have := Micro.step ih.micro (Or.inl ⟨i, r, rfl⟩) ht h1
        rw [hof] at this
        exact ⟨by simpa using this, by simpa using ih.cli, ih.reach⟩
    | run k =>
      cases ht : v.tcp.step (.run k) with
      | ub => simp [Stk.step, Stk.net, ht] at hs
      | ret t =>
        obtain ⟨v2, h1, h2⟩ := Stk.step_run ih ht
        rw [h1] at hs; injection hs with hs; subst hs; exact h2

end Modbus
