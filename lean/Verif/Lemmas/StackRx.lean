import Verif.Lemmas.StackInv
import Verif.Props.Client

/-! More invariants of the whole client: what is received, and which request it answers. -/

namespace Modbus

open Spec Tcp

/-- Submissions always take the newest data: they pick it in order. -/
theorem newest_index (log : List TEv) (h : ∀ pre c d post, log = pre ++ .submit c d :: post → (tcpAsked pre).getLast? = some d) :
    ∃ is : List Nat, is.Pairwise (· ≤ ·) ∧ (∀ i ∈ is, i < (tcpAsked log).length) ∧ is.map (fun i => (tcpAsked log)[i]?) = (tcpAllSubmits log).map some := by
  induction log using List.reverseRecOn with
  | nil => exact ⟨[], List.Pairwise.nil, by simp, rfl⟩
  | append_singleton l e ih =>
    obtain ⟨is, h1, h2, h3⟩ := ih (fun pre c d post hl => h pre c d (post ++ [e]) (by rw [hl]; simp))
    rw [tcpAsked_append, tcpAllSubmits_append]
    have ext : is.map (fun i => (tcpAsked l ++ tcpAsked [e])[i]?) = is.map (fun i => (tcpAsked l)[i]?) := by
      apply List.map_congr_left
      intro i hi
      exact List.getElem?_append_left (h2 i hi)
    have lt : ∀ i ∈ is, i < (tcpAsked l ++ tcpAsked [e]).length := by
      intro i hi; have := h2 i hi; rw [List.length_append]; omega
    by_cases he : ∃ c d, e = .submit c d
    · obtain ⟨c, d, rfl⟩ := he
      have hlast := h l c d [] rfl
      have hne : tcpAsked l ≠ [] := by intro h0; rw [h0] at hlast; cases hlast
      have hlen : 0 < (tcpAsked l).length := List.length_pos_iff.2 hne
      have e1 : tcpAsked [TEv.submit c d] = [] := rfl
      have e2 : tcpAllSubmits [TEv.submit c d] = [d] := rfl
      refine ⟨is ++ [(tcpAsked l).length - 1], ?_, ?_, ?_⟩
      · refine List.pairwise_append.2 ⟨h1, List.pairwise_singleton _ _, fun a ha b hb => ?_⟩
        have := h2 a ha
        rw [List.mem_singleton.1 hb]; omega
      · intro i hi
        rcases List.mem_append.1 hi with hi | hi
        · exact lt i hi
        · rw [List.mem_singleton.1 hi, e1, List.append_nil]; omega
      · rw [List.map_append, ext, h3, e1, e2, List.append_nil, List.map_append]
        simp only [List.map_cons, List.map_nil, List.append_cancel_left_eq, List.cons.injEq, and_true]
        rw [← List.getLast?_eq_getElem?, hlast]
    · have e2 : tcpAllSubmits [e] = [] := by
        cases e <;> first | rfl | exact absurd ⟨_, _, rfl⟩ he
      exact ⟨is, h1, lt, by rw [ext, h3, e2, List.append_nil]⟩

namespace Stk

variable {env : StkEnv}

theorem relay1_cli {v v' : Stk} {e : CEv} (h : v.relay1 env e = .ret v') : v'.cli = v.cli := by
  have net : ∀ {a b : Stk} {op : Tcp.Op}, a.net op = .ret b → b.cli = a.cli := by
    intro a b op h
    unfold Stk.net at h
    cases ht : a.tcp.step op with
    | ub => simp [ht] at h
    | ret t => simp only [ht, CM.ret_bind, CM.pure_eq] at h; injection h with h; subst h; rfl
  unfold relay1 at h
  dsimp only at h
  split at h
  · have := net h; exact this
  · have := net h; exact this
  · injection h with h; subst h; rfl

theorem relay_cli (es : List CEv) : ∀ {v v' : Stk}, v.relay env es = .ret v' → v'.cli = v.cli := by
  induction es with
  | nil => intro v v' h; injection h with h; subst h; rfl
  | cons e es ih =>
    intro v v' h
    simp only [relay] at h
    cases h1 : v.relay1 env e with
    | ub => simp [h1] at h
    | ret w =>
      simp only [h1, CM.ret_bind] at h
      rw [ih h, relay1_cli h1]

/-- What the channel does in a step of the client. -/
theorem chan_cli {v v' : Stk} {op : Cli.Op} (h : v.chan env op = .ret v') : v.cli.step env.client op = .ret v'.cli := by
  unfold chan at h
  cases h1 : v.cli.step env.client op with
  | ub => simp [h1] at h
  | ret c =>
    simp only [h1, CM.ret_bind] at h
    rw [relay_cli _ h]

/-- Effects that call nothing. -/
theorem relay_plain (es : List CEv) : ∀ {v v' : Stk}, (∀ e ∈ es, e.isSent = false ∧ e ≠ .tcpShutdown) → v.relay env es = .ret v' → v'.tcp = v.tcp := by
  induction es with
  | nil => intro v v' _ h; injection h with h; subst h; rfl
  | cons e es ih =>
    intro v v' he h
    have := he e (by simp)
    simp only [relay, relay1_plain v e this.1 this.2, CM.ret_bind] at h
    rw [ih (fun e' h' => he e' (by simp [h'])) h]

theorem chan_error_tcp {v v' : Stk} (hr : Props.CReach env.client v.cli) (h : v.chan env .error = .ret v') : v'.tcp = v.tcp := by
  unfold chan at h
  cases h1 : v.cli.step env.client .error with
  | ub => simp [h1] at h
  | ret c =>
    simp only [h1, CM.ret_bind] at h
    obtain ⟨es, h3, -, h4⟩ := Cli.step_error hr h1
    rw [h3, List.drop_left] at h
    have := relay_plain _ (fun e he => by
      rcases List.mem_cons.1 he with rfl | he
      · exact ⟨rfl, by simp⟩
      · obtain ⟨u, t, rfl⟩ := h4 e he
        exact ⟨rfl, by simp⟩) h
    exact this

/-- Handling a task of the connection, seen from the channel. -/
theorem step_run_cli {v v' : Stk} {k : Nat} (h : Proj env v) (hs : v.step env (.run k) = .ret v') :
    ∃ t' new, v.tcp.step (.run k) = .ret t' ∧ t'.log = v.tcp.log ++ new ∧
      (((∀ e ∈ new, (∀ c d, e ≠ .receive c d) ∧ ∀ c cur, e ≠ .error c cur) ∧ v'.cli = v.cli ∧ v'.tcp = t' ∧ v'.log = v.log ++ new.map .net) ∨
       (∃ c d, v.tcp.queue[k]? = some (.read c (.data d)) ∧ v.tcp.isShutdown = false ∧ new = [.receive c d] ∧ v.cli.step env.client (.receive d) = .ret v'.cli) ∨
       ∃ c cur, v.tcp.isShutdown = false ∧ new = [.error c cur] ∧ v.cli.step env.client .error = .ret v'.cli ∧ v'.tcp = t') := by
  obtain ⟨t', ht'⟩ : ∃ t', v.tcp.step (.run k) = .ret t' := by
    simp only [Tcp.step]; split <;> exact ⟨_, rfl⟩
  obtain ⟨new, h1, h2⟩ := Tcp.step_log ht'
  refine ⟨t', new, ht', h1, ?_⟩
  obtain ⟨w, hw⟩ : ∃ w : Stk, w = { v with tcp := t', log := v.log ++ new.map .net, steps := v.steps ++ [(v.tcp, .run k)] } := ⟨_, rfl⟩
  have hnet : v.net (.run k) = .ret w := by rw [net_eq v ht', h1, hw]; simp
  have hdrop : w.tcp.log.drop v.tcp.log.length = new := by rw [hw]; simp [h1]
  have hwc : w.cli = v.cli := by rw [hw]
  have hwt : w.tcp = t' := by rw [hw]
  simp only [step, hnet, CM.ret_bind, hdrop] at hs
  have net : ∀ {a b : Stk} {op : Tcp.Op}, a.net op = .ret b → b.cli = a.cli := by
    intro a b op h
    unfold Stk.net at h
    cases ht : a.tcp.step op with
    | ub => simp [ht] at h
    | ret t => simp only [ht, CM.ret_bind, CM.pure_eq] at h; injection h with h; subst h; rfl
  rcases h2 with h2 | ⟨k', c, d, hk', h3, h4, rfl, ht2⟩ | ⟨k', c, -, h3, rfl⟩
  · left
    rw [deliver_nothing new w h2] at hs
    simp only [CM.ret_bind] at hs
    have hno : ∀ t, v.tcp.queue[k]? = some t → ¬(TTask.isData t = true ∧ w.tcp.isShutdown = false) := by
      rintro t ht ⟨hd, hsd⟩
      cases t with
      | read c r =>
        cases r with
        | data d =>
          have hvd : v.tcp.isShutdown = false := by
            cases hvd : v.tcp.isShutdown with
            | false => rfl
            | true =>
              obtain ⟨t2, b1, b2, -⟩ := Tcp.shut_step hvd h.micro.tcp.quiet (.run k)
              rw [ht'] at b1; injection b1 with b1; subst b1
              rw [hwt] at hsd; rw [hsd] at b2; cases b2
          simp only [Tcp.step, ht, Tcp.runTask] at ht'
          rw [Tcp.onRead_data (v := { v.tcp with queue := v.tcp.queue.eraseIdx k }) hvd] at ht'
          injection ht' with ht'
          rw [← ht'] at h1
          simp only [Tcp.post, Tcp.emit, List.append_cancel_left_eq] at h1
          exact (h2 (.receive c d) (by rw [← h1]; simp)).1 _ _ rfl
        | _ => cases hd
      | _ => cases hd
    have hv' : v' = w := by
      split at hs
      · rename_i t ht
        rw [if_neg (hno t ht)] at hs
        injection hs with hs; exact hs.symm
      · injection hs with hs; exact hs.symm
    subst hv'
    exact ⟨h2, hwc, hwt, by rw [hw]⟩
  · right; left
    injection hk' with hk'; subst hk'
    refine ⟨c, d, h3, h4, rfl, ?_⟩
    simp only [deliver, h3] at hs
    cases hc : w.chan env (.receive d) with
    | ub => simp [hc] at hs
    | ret w' =>
      simp only [hc, CM.ret_bind] at hs
      have := chan_cli hc
      rw [hwc] at this
      rw [this]
      split at hs
      · rw [net hs]
      · injection hs with hs; rw [hs]
  · right; right
    refine ⟨c, v.tcp.conn, h3, rfl, ?_⟩
    simp only [deliver] at hs
    cases hc : w.chan env .error with
    | ub => simp [hc] at hs
    | ret w' =>
      simp only [hc, CM.ret_bind] at hs
      have h5 := chan_cli hc
      rw [hwc] at h5
      have h6 := chan_error_tcp (by rw [hwc]; exact h.reach) hc
      have hno : ∀ t, v.tcp.queue[k]? = some t → ¬(TTask.isData t = true ∧ w.tcp.isShutdown = false) := by
        rintro t ht ⟨hd, hsd⟩
        cases t with
        | read c' r =>
          cases r with
          | data d =>
            simp only [Tcp.step, ht, Tcp.runTask] at ht'
            rw [Tcp.onRead_data (v := { v.tcp with queue := v.tcp.queue.eraseIdx k }) h3] at ht'
            injection ht' with ht'
            rw [← ht'] at h1
            simp [Tcp.post, Tcp.emit] at h1
          | _ => cases hd
        | _ => cases hd
      have hv' : v' = w' := by
        split at hs
        · rename_i t ht
          rw [if_neg (hno t ht)] at hs
          injection hs with hs; exact hs.symm
        · injection hs with hs; exact hs.symm
      subst hv'
      exact ⟨h5, h6.trans hwt⟩

end Stk

/-! ### What the parser is fed -/

/-- The chunks received since the last error. -/
def rxChunks (log : List TEv) : List (List UInt8) :=
  log.foldl (fun acc e => match e with
    | .receive _ d => acc ++ [d]
    | .error _ _ => []
    | _ => acc) []

theorem rxChunks_quiet {a b : List TEv} (h : ∀ e ∈ b, (∀ c d, e ≠ .receive c d) ∧ ∀ c cur, e ≠ .error c cur) : rxChunks (a ++ b) = rxChunks a := by
  unfold rxChunks
  rw [List.foldl_append]
  generalize List.foldl _ _ a = acc
  induction b generalizing acc with
  | nil => rfl
  | cons e b ih =>
    have he := h e (by simp)
    rw [List.foldl_cons]
    have := ih (fun e he => h e (by simp [he])) acc
    cases e <;> first | exact this | exact absurd rfl (he.1 _ _) | exact absurd rfl (he.2 _ _)

theorem rxChunks_receive (a : List TEv) (c : Nat) (d : List UInt8) : rxChunks (a ++ [.receive c d]) = rxChunks a ++ [d] := by
  unfold rxChunks; rw [List.foldl_append]; rfl

theorem rxChunks_error (a : List TEv) (c cur : Nat) : rxChunks (a ++ [.error c cur]) = [] := by
  unfold rxChunks; rw [List.foldl_append]; rfl

theorem rxDirty_chunks (log : List TEv) : rxDirty false log = false ↔ rxChunks log = [] := by
  induction log using List.reverseRecOn with
  | nil => simp [rxDirty, rxChunks]
  | append_singleton l e ih =>
    rw [rxDirty_append]
    cases e with
    | receive c d => rw [rxChunks_receive]; simp [rxDirty]
    | error c cur => rw [rxChunks_error]; simp [rxDirty]
    | _ => rw [rxChunks_quiet (by simp)]; exact ih

theorem chunksSince_plain {l : List CEv} {e : CEv} (h1 : ∀ d, e ≠ .data d) (h2 : e ≠ .connError) : chunksSince (l ++ [e]) = chunksSince l := by
  unfold chunksSince
  rw [List.foldl_append]
  cases e <;> first | rfl | exact absurd rfl (h1 _) | exact absurd rfl h2

theorem chunksSince_data (l : List CEv) (d : List UInt8) : chunksSince (l ++ [.data d]) = chunksSince l ++ [d] := by
  unfold chunksSince; rw [List.foldl_append]; rfl

theorem chunksSince_error (l : List CEv) : chunksSince (l ++ [.connError]) = [] := by
  unfold chunksSince; rw [List.foldl_append]; rfl

namespace Micro

variable {env : StkEnv}

/-- What is still to be passed on to the channel. -/
def owed : KPhase → List (List UInt8)
  | .got d => [d]
  | _ => []

/-- What the channel has been given since the last error is what the connection received. -/
theorem chunks {log t s ph} (h : Micro env log t s ph) :
    (ph ≠ .failed → chunksSince (chLog log) ++ owed ph = rxChunks (netLog log)) ∧ (ph = .failed → rxChunks (netLog log) = []) := by
  have plain : ∀ {log : List KEv} {e : CEv}, (∀ d, e ≠ .data d) → e ≠ .connError → chunksSince (chLog (log ++ [.ch e])) = chunksSince (chLog log) := by
    intro log e h1 h2
    simp only [chLog_append, chLog_ch, chLog_nil]
    exact chunksSince_plain h1 h2
  have nplain : ∀ {log : List KEv} {e : CEv}, netLog (log ++ [.ch e]) = netLog log := by intro log e; simp
  induction h with
  | init => exact ⟨fun _ => rfl, fun h => by cases h⟩
  | own hm he _ ih =>
    refine ⟨fun _ => ?_, fun h => by cases h⟩
    rw [plain (by rintro d rfl; cases he) (by rintro rfl; cases he), nplain]
    exact ih.1 (by simp)
  | @sent log t s ph u bytes now hm hph hj ih =>
    obtain ⟨es, h1, h2, h3, -⟩ := send_asks (hm.up hj) bytes (env.loc t.nextBuf)
    obtain ⟨new, g1, g2⟩ := Tcp.step_log (v := t) (op := .send bytes (env.loc t.nextBuf)) rfl
    have g2 := g2.resolve_right (by
      rintro (⟨k, c, d, hk, -⟩ | ⟨k, c, hk, -⟩) <;> cases hk)
    rw [g1, List.drop_left]
    refine ⟨fun hf => ?_, fun h => by subst h; rcases hph with h | h <;> cases h⟩
    rw [show log ++ KEv.ch (.sent u bytes now) :: List.map KEv.net new = (log ++ [.ch (.sent u bytes now)]) ++ List.map KEv.net new by simp]
    rw [chLog_append, netLog_append, chLog_nets, netLog_nets, List.append_nil, rxChunks_quiet g2, plain (by simp) (by simp), nplain]
    exact ih.1 hf
  | down hm ih =>
    refine ⟨fun _ => ?_, fun h => by cases h⟩
    rw [plain (by simp) (by simp), nplain]
    exact ih.1 (by simp)
  | @step log t s op t' new hm hop hs hl ih =>
    obtain ⟨new', h1, h2⟩ := Tcp.step_log hs
    rw [hl] at h1
    obtain rfl := List.append_cancel_left h1
    rw [chLog_append, netLog_append, chLog_nets, netLog_nets, List.append_nil]
    rcases h2 with h2 | ⟨k, c, d, rfl, h3, h4, rfl, rfl⟩ | ⟨k, c, rfl, h3, rfl⟩
    · rw [Stk.phase_of_nothing h2, rxChunks_quiet h2]
      exact ⟨fun _ => ih.1 (by simp), fun h => by cases h⟩
    · refine ⟨fun _ => ?_, fun h => by cases h⟩
      have := ih.1 (by simp)
      simp only [owed, List.append_nil] at this
      rw [rxChunks_receive, ← this]
      rfl
    · exact ⟨fun h => absurd rfl h, fun _ => rxChunks_error _ _ _⟩
  | @data log t s d hm ih =>
    refine ⟨fun _ => ?_, fun h => by cases h⟩
    have := ih.1 (by simp)
    rw [nplain, ← this]
    simp only [chLog_append, chLog_ch, chLog_nil, owed, chunksSince_data, List.append_nil]
  | heard hm he _ ih =>
    refine ⟨fun _ => ?_, fun h => by cases h⟩
    rw [plain (by rintro d rfl; cases he) (by rintro rfl; cases he), nplain]
    exact ih.1 (by simp)
  | again hm _ _ _ ih => exact ⟨fun _ => ih.1 (by simp), fun h => by cases h⟩
  | @fail log t s hm ih =>
    refine ⟨fun _ => ?_, fun h => by cases h⟩
    rw [nplain, ih.2 rfl]
    simp only [chLog_append, chLog_ch, chLog_nil, owed, chunksSince_error, List.append_nil]
  | fails hm _ ih =>
    refine ⟨fun _ => ?_, fun h => by cases h⟩
    rw [plain (by simp) (by simp), nplain]
    exact ih.1 (by simp)
  | done hm ih => exact ⟨fun _ => ih.1 (by simp), fun h => by cases h⟩

/-- A request handed over whose handler has not been called is the newest one. -/
theorem outstanding {log t s ph} (h : Micro env log t s ph) : ∀ u b now, CEv.sent u b now ∈ chLog log → u ∉ handledUids (chLog log) →
    (sentFrames (chLog log)).getLast? = some (u, b) := by
  have grow : ∀ {log : List KEv} {e : CEv}, e.isSent = false →
      (∀ u b now, CEv.sent u b now ∈ chLog log → u ∉ handledUids (chLog log) → (sentFrames (chLog log)).getLast? = some (u, b)) →
      ∀ u b now, CEv.sent u b now ∈ chLog (log ++ [.ch e]) → u ∉ handledUids (chLog (log ++ [.ch e])) →
        (sentFrames (chLog (log ++ [.ch e]))).getLast? = some (u, b) := by
    intro log e he ih u b now h1 h2
    simp only [chLog_append, chLog_ch, chLog_nil, sentFrames_append, sentFrames_not he, List.append_nil] at h1 h2 ⊢
    rcases List.mem_append.1 h1 with h1 | h1
    · refine ih u b now h1 (fun h => h2 ?_)
      obtain ⟨x, n, hx⟩ := mem_handledUids.1 h
      exact mem_handledUids.2 ⟨x, n, List.mem_append_left _ hx⟩
    · rw [← List.mem_singleton.1 h1] at he; cases he
  induction h with
  | init => intro u b now h; cases h
  | own _ he _ ih => exact grow (mine_notSent he) ih
  | @sent log t s ph u bytes now hm hph hj ih =>
    intro u' b now' h1 h2
    simp only [chLog_append, chLog_ch, chLog_nets, sentFrames_append] at h1 h2 ⊢
    have e1 : sentFrames [CEv.sent u bytes now] = [(u, bytes)] := rfl
    rw [e1, List.getLast?_concat]
    rcases List.mem_append.1 h1 with h1 | h1
    · exfalso
      refine h2 ?_
      have := hj.2.2.2.1 u' (mem_sentUids.2 ⟨_, _, h1⟩)
      obtain ⟨x, n, hx⟩ := mem_handledUids.1 this
      exact mem_handledUids.2 ⟨x, n, List.mem_append_left _ hx⟩
    · have := List.mem_singleton.1 h1
      injection this with a1 a2 a3
      subst a1; subst a2; rfl
  | down _ ih => exact grow rfl ih
  | step _ _ _ _ ih => simpa using ih
  | data _ ih => exact grow rfl ih
  | heard _ he _ ih => exact grow (heard_notSent he) ih
  | again _ _ _ _ ih => exact ih
  | fail _ ih => exact grow rfl ih
  | fails _ _ ih => exact grow rfl ih
  | done _ ih => exact ih

end Micro

/-! ### Which request an answer belongs to -/

namespace Tcp

/-- If the client is not connected although the socket is open, there are no reads and writes. -/
def Calm (v : Tcp) : Prop := v.status = .notConnected → v.isOpen = true → dataOps v = 0

/-- Reads and writes begin with the connection; no step but `send` changes the number of the connection. -/
theorem step_dataOps {t t' : Tcp} {op : Op} (hop : (∃ i r, op = .complete i r) ∨ ∃ k, op = .run k) (hd : t.isShutdown = false) (hs : t.step op = .ret t') :
    t'.conn = t.conn ∧ (dataOps t' ≤ dataOps t ∨ ∃ k c, op = .run k ∧ t.queue[k]? = some (.connected c true)) := by
  rcases hop with ⟨i, r, rfl⟩ | ⟨k, rfl⟩
  · rcases complete_cases hs with rfl | ⟨o, x, h0, -, -, -, h4, -, -, h1, h2, -, -, h3, -⟩
    · exact ⟨rfl, Or.inl (Nat.le_refl _)⟩
    · refine ⟨h4, Or.inl ?_⟩
      have := countP_eraseIdx isDataOp h0
      simp only [dataOps, h1, h2, List.countP_append, List.countP_singleton, h3]
      omega
  · simp only [Tcp.step] at hs
    split at hs
    · injection hs with hs; subst hs; exact ⟨rfl, Or.inl (Nat.le_refl _)⟩
    · rename_i x hx
      injection hs with hs; subst hs
      obtain ⟨w, hw⟩ : ∃ w, w = { t with queue := t.queue.eraseIdx k } := ⟨_, rfl⟩
      have hwd : w.isShutdown = false := by rw [hw]; exact hd
      have hwc : w.conn = t.conn := by rw [hw]
      have hle : dataOps w + (if isDataTask x then 1 else 0) = dataOps t := by
        have := countP_eraseIdx isDataTask hx
        rw [hw]; simp only [dataOps]; omega
      rw [← hw, ← hwc]
      have hab : ∀ a : Tcp, a.flying = w.flying → a.queue = w.queue → dataOps a = dataOps w := by
        intro a h1 h2; simp only [dataOps, h1, h2]
      have hp : ∀ (a : Tcp) (y : TTask), isDataTask y = false → dataOps (a.post y) = dataOps a := by
        intro a y hy; simp [dataOps, Tcp.post, hy]
      have hbr : ∀ a : Tcp, dataOps a.beginRead ≤ dataOps a + 1 := by
        intro a
        unfold beginRead
        split
        · omega
        · split
          · simp [dataOps, isDataOp]; omega
          · simp [dataOps, Tcp.post, isDataTask]; omega
      cases x with
      | shutdown =>
        refine ⟨rfl, Or.inl ?_⟩
        simp only [Tcp.runTask, runShutdown]
        rw [abortAll_data]
        have := hab { w with isShutdown := true } rfl rfl
        omega
      | close c =>
        simp only [Tcp.runTask]
        cases ho : w.isOpen with
        | true =>
          rw [runClose_open hwd ho]
          refine ⟨rfl, Or.inl ?_⟩
          have e1 := abortAll_data ({ w.emit (.closed c w.conn) with status := .notConnected } : Tcp)
          have e2 := hab ({ w.emit (.closed c w.conn) with status := .notConnected } : Tcp) rfl rfl
          simp only [dataOps] at e1 e2 hle ⊢
          omega
        | false =>
          rw [runClose_closed hwd ho]
          refine ⟨rfl, Or.inl ?_⟩
          have e2 := hab ({ w.emit (.closed c w.conn) with status := .notConnected } : Tcp) rfl rfl
          omega
      | resolved c ok =>
        simp only [Tcp.runTask]
        cases ok with
        | true =>
          rw [onResolved_ok hwd]
          refine ⟨rfl, Or.inl ?_⟩
          have e1 := abortAll_data w
          simp only [dataOps, List.countP_append, List.countP_singleton, isDataTask, isDataOp] at e1 hle ⊢
          simp only [Bool.false_eq_true, if_false] at hle ⊢
          omega
        | false =>
          rw [onResolved_err hwd]
          refine ⟨rfl, Or.inl ?_⟩
          have := hab (({ w with status := .notConnected } : Tcp).emit (.error c w.conn)) rfl rfl
          omega
      | connected c ok =>
        simp only [Tcp.runTask]
        cases ok with
        | true =>
          refine ⟨?_, Or.inr ⟨k, c, rfl, hx⟩⟩
          rw [onConnected_ok hwd, (beginRead_same _).2.2.2.1, (sendBuffer_same _).2.2.2.1]
        | false =>
          rw [onConnected_err hwd]
          refine ⟨rfl, Or.inl ?_⟩
          have := hp w (.close c) rfl
          simp only [Tcp.emit, dataOps] at this hle ⊢
          omega
      | read c r =>
        simp only [Tcp.runTask]
        simp only [isDataTask, if_true] at hle
        cases r with
        | data bs =>
          rw [onRead_data hwd]
          refine ⟨rfl, Or.inl ?_⟩
          have : dataOps ((w.emit (.receive c bs)).post (.read c .again)) = dataOps w + 1 := by
            simp [dataOps, Tcp.emit, Tcp.post, isDataTask]; omega
          omega
        | eof => rw [onRead_eof hwd]; refine ⟨rfl, Or.inl ?_⟩; rw [hp _ _ rfl]; omega
        | error =>
          rw [onRead_error hwd]
          refine ⟨rfl, Or.inl ?_⟩
          have := hp w (.close c) rfl
          simp only [Tcp.emit, dataOps] at this hle ⊢
          omega
        | again => rw [onRead_again hwd]; refine ⟨(beginRead_same _).2.2.2.1, Or.inl ?_⟩; have := hbr w; omega
      | written c ok =>
        simp only [Tcp.runTask]
        cases ok with
        | true =>
          rw [onWritten_ok hwd]
          refine ⟨rfl, Or.inl ?_⟩
          have := hab (({ w with wbuf := none } : Tcp).emit .writeDone) rfl rfl
          omega
        | false =>
          rw [onWritten_err hwd]
          refine ⟨rfl, Or.inl ?_⟩
          have := hp w (.close c) rfl
          simp only [Tcp.emit, dataOps] at this hle ⊢
          omega

/-- How `status` and `isOpen` can change. -/
theorem step_calm {t t' : Tcp} {op : Op} (hc : Calm t) (hn : Neat t) (hp : FreshStarts t op) (hd : t.isShutdown = false) (hs : t.step op = .ret t') :
    Calm t' := by
  cases op with
  | shutdown =>
    injection hs with hs; subst hs
    intro h1 h2
    have := hc h1 h2
    simpa [dataOps, Tcp.post, isDataTask] using this
  | send d loc =>
    injection hs with hs; subst hs
    cases hst : t.status with
    | notConnected =>
      by_cases hh : t.isOpen = true ∨ loc ≠ .ok
      · obtain ⟨o, h1, -⟩ := send_gaveUp hd hst d loc hh
        rw [h1]
        intro _ _
        show dataOps t = 0
        cases ho : t.isOpen with
        | true => exact hc hst ho
        | false => exact (settled_counts (hp d loc rfl hst ho)).1
      · simp only [not_or, Bool.not_eq_true, ne_eq, not_not] at hh
        obtain ⟨ho, rfl⟩ := hh
        rw [send_start hd hst ho]
        intro h1; cases h1
    | connecting =>
      rw [send_connecting hd hst]
      intro h1
      rw [show (t.ask d).status = t.status from rfl, hst] at h1; cases h1
    | connected =>
      rw [send_connected hd hst]
      intro h1
      rw [(sendBuffer_same _).2.1, show (t.ask d).status = t.status from rfl, hst] at h1; cases h1
  | complete i r =>
    intro h1 h2
    have := (step_dataOps (Or.inl ⟨i, r, rfl⟩) hd hs).2.resolve_right (by rintro ⟨k, c, h, -⟩; cases h)
    rcases complete_cases hs with rfl | ⟨o, x, h0, -, h3, h4, -⟩
    · exact hc h1 h2
    · have := hc (h3 ▸ h1) (h4 ▸ h2)
      omega
  | run k =>
    intro h1 h2
    have hle := (step_dataOps (Or.inr ⟨k, rfl⟩) hd hs).2
    cases hx : t.queue[k]? with
    | none => simp only [Tcp.step, hx] at hs; injection hs with hs; subst hs; exact hc h1 h2
    | some x =>
      have hs0 := hs
      simp only [Tcp.step, hx] at hs
      injection hs with hs; subst hs
      obtain ⟨w, hw⟩ : ∃ w, w = { t with queue := t.queue.eraseIdx k } := ⟨_, rfl⟩
      have hwd : w.isShutdown = false := by rw [hw]; exact hd
      have hws : w.status = t.status := by rw [hw]
      have hwo : w.isOpen = t.isOpen := by rw [hw]
      rw [← hw] at h1 h2 hle ⊢
      have conn : isAttemptTask x = true → t.status = .connecting := by
        intro hx'
        by_contra hst
        have := hn.other hst
        simp only [tcpAttempts, Nat.add_eq_zero_iff, List.countP_eq_zero] at this
        exact this.2 _ (List.mem_of_getElem? hx) hx'
      have same : (w.runTask x).status = w.status → (w.runTask x).isOpen = w.isOpen → (∀ c, x ≠ .connected c true) → dataOps (w.runTask x) = 0 := by
        intro e1 e2 hne
        have h3 := hc (by rw [← hws, ← e1]; exact h1) (by rw [← hwo, ← e2]; exact h2)
        have := hle.resolve_right (by
          rintro ⟨k', c, hk, hq⟩
          injection hk with hk; subst hk
          rw [hx] at hq; injection hq with hq
          exact hne c hq)
        omega
      cases x with
      | shutdown => exact same rfl rfl (by simp)
      | close c =>
        simp only [Tcp.runTask] at h1 h2 ⊢
        cases ho : w.isOpen with
        | true => rw [runClose_open hwd ho] at h2; cases h2
        | false => rw [runClose_closed hwd ho] at h2; rw [show ({ w.emit (.closed c w.conn) with status := .notConnected } : Tcp).isOpen = w.isOpen from rfl, ho] at h2; cases h2
      | resolved c ok =>
        have hst := conn rfl
        have h0 := (hn.connecting hst).1
        have := hle.resolve_right (by
          rintro ⟨k', c, hk, hq⟩
          injection hk with hk; subst hk
          rw [hx] at hq; cases hq)
        omega
      | connected c ok =>
        cases ok with
        | true =>
          simp only [Tcp.runTask] at h1
          rw [onConnected_ok hwd, (beginRead_same _).2.1, (sendBuffer_same _).2.1] at h1
          cases h1
        | false =>
          have hst := conn rfl
          simp only [Tcp.runTask] at h1
          rw [onConnected_err hwd, show ((w.post (.close c)).emit (.error c w.conn)).status = w.status from rfl, hws, hst] at h1
          cases h1
      | read c r =>
        refine same ?_ ?_ (by simp)
        · simp only [Tcp.runTask]
          cases r with
          | data bs => rw [onRead_data hwd]; rfl
          | eof => rw [onRead_eof hwd]; rfl
          | error => rw [onRead_error hwd]; rfl
          | again => rw [onRead_again hwd, (beginRead_same _).2.1]
        · simp only [Tcp.runTask]
          cases r with
          | data bs => rw [onRead_data hwd]; rfl
          | eof => rw [onRead_eof hwd]; rfl
          | error => rw [onRead_error hwd]; rfl
          | again => rw [onRead_again hwd, (beginRead_same _).2.2.1]
      | written c ok =>
        refine same ?_ ?_ (by simp)
        · simp only [Tcp.runTask]
          cases ok with
          | true => rw [onWritten_ok hwd]; rfl
          | false => rw [onWritten_err hwd]; rfl
        · simp only [Tcp.runTask]
          cases ok with
          | true => rw [onWritten_ok hwd]; rfl
          | false => rw [onWritten_err hwd]; rfl

theorem _root_.Modbus.Spec.TcpReach.calm {P : Tcp → Op → Prop} (hP : ∀ v op, P v op → FreshStarts v op) {v : Tcp} (h : TcpReach P v) :
    v.isShutdown = false → Calm v := by
  induction h with
  | init => intro _ h; exact fun _ => rfl
  | @step v v' op hr hp hs ih =>
    intro hd'
    have hd : v.isShutdown = false := by
      cases h0 : v.isShutdown with
      | false => rfl
      | true =>
        obtain ⟨v2, a1, a2, -⟩ := shut_step h0 hr.quiet op
        rw [hs] at a1; injection a1 with a1; subst a1
        rw [a2] at hd'; cases hd'
    exact step_calm (ih hd) ((hr.neat hP).resolve_left (by simp [hd])) (hP _ _ hp) hd hs

end Tcp

namespace Micro

variable {env : StkEnv}

/-- While something can still be read from the connection, the newest request handed over has been handled or submitted to that
connection. -/
theorem submitted {log t s ph} (h : Micro env log t s ph) (hf : ∀ x ∈ s, FreshStarts x.1 x.2) (hd : t.isShutdown = false) (hr : 1 ≤ dataOps t) :
    ∀ u b, (sentFrames (chLog log)).getLast? = some (u, b) → u ∈ handledUids (chLog log) ∨ TEv.submit t.conn b ∈ t.log := by
  have grow : ∀ {log : List KEv} {e : CEv} {t : Tcp}, e.isSent = false →
      (∀ u b, (sentFrames (chLog log)).getLast? = some (u, b) → u ∈ handledUids (chLog log) ∨ TEv.submit t.conn b ∈ t.log) →
      ∀ u b, (sentFrames (chLog (log ++ [.ch e]))).getLast? = some (u, b) → u ∈ handledUids (chLog (log ++ [.ch e])) ∨ TEv.submit t.conn b ∈ t.log := by
    intro log e t he ih u b hl
    simp only [chLog_append, chLog_ch, chLog_nil, sentFrames_append, sentFrames_not he, List.append_nil] at hl ⊢
    refine (ih u b hl).imp_left fun h => ?_
    obtain ⟨x, n, hx⟩ := mem_handledUids.1 h
    exact mem_handledUids.2 ⟨x, n, List.mem_append_left _ hx⟩
  induction h with
  | init => simp [Tcp.init, dataOps] at hr
  | own _ he _ ih => exact grow (mine_notSent he) (ih hf hd hr)
  | @sent log t s ph u bytes now hm hph hj ih =>
    have hf' : ∀ x ∈ s, FreshStarts x.1 x.2 := fun x hx => hf x (List.mem_append_left _ hx)
    have hfs : FreshStarts t (.send bytes (env.loc t.nextBuf)) := hf (t, .send bytes (env.loc t.nextBuf)) (List.mem_append_right _ (List.mem_singleton.2 rfl))
    have hd0 := hm.up hj
    intro u' b hl
    simp only [chLog_append, chLog_ch, chLog_nets, sentFrames_append] at hl
    have e1 : sentFrames [CEv.sent u bytes now] = [(u, bytes)] := rfl
    rw [e1, List.getLast?_concat] at hl
    injection hl with hl; injection hl with h1 h2; subst h1; subst h2
    right
    cases hst : t.status with
    | notConnected =>
      exfalso
      have h0 : dataOps t = 0 := by
        cases ho : t.isOpen with
        | true => exact hm.tcp.calm (fun a op hx => hf' (a, op) hx) hd0 hst ho
        | false => exact (settled_counts (hfs bytes _ rfl hst ho)).1
      by_cases hh : t.isOpen = true ∨ env.loc t.nextBuf ≠ .ok
      · obtain ⟨o, g1, -⟩ := send_gaveUp hd0 hst bytes _ hh
        rw [g1] at hr
        have : 1 ≤ dataOps t := hr
        omega
      · simp only [not_or, Bool.not_eq_true, ne_eq, not_not] at hh
        rw [hh.2, send_start hd0 hst hh.1] at hr
        have : 1 ≤ (t.flying ++ [TOp.resolve (t.conn + 1)]).countP isDataOp + t.queue.countP isDataTask := hr
        simp only [dataOps] at h0
        simp only [List.countP_append, List.countP_singleton, isDataOp] at this
        simp at this
        omega
    | connecting =>
      exfalso
      have h0 := ((hm.neat hf' hd0).connecting hst).1
      rw [send_connecting hd0 hst] at hr
      have : 1 ≤ dataOps t := hr
      omega
    | connected =>
      rw [send_connected hd0 hst, (sendBuffer_same _).2.2.2.1, sendBuffer_log (by exact hd0)]
      simp [ask, Tcp.emit]
  | @down log t s hm ih =>
    have hr' : 1 ≤ dataOps t := by simpa [dataOps, Tcp.post, isDataTask] using hr
    exact grow (t := t.post .shutdown) rfl (ih (fun x hx => hf x (List.mem_append_left _ hx)) hd hr')
  | @step log t s op t' new hm hop hs hl' ih =>
    have hf' : ∀ x ∈ s, FreshStarts x.1 x.2 := fun x hx => hf x (List.mem_append_left _ hx)
    have hd0 : t.isShutdown = false := by
      cases h0 : t.isShutdown with
      | false => rfl
      | true =>
        obtain ⟨v', a1, a2, -⟩ := shut_step h0 hm.tcp.quiet op
        rw [hs] at a1; injection a1 with a1; subst a1
        rw [a2] at hd; cases hd
    obtain ⟨hc, hcase⟩ := step_dataOps hop hd0 hs
    intro u b hl
    simp only [chLog_append, chLog_nets, List.append_nil] at hl ⊢
    rw [hc, hl']
    rcases hcase with hle | ⟨k, c, rfl, hk⟩
    · exact (ih hf' hd0 (Nat.le_trans hr hle) u b hl).imp_right (List.mem_append_left _)
    · right
      have hon := (hm.tcp.once (fun a op hx => hf' (a, op) hx)).1 hd0
      have hn := hm.neat hf' hd0
      have hst : t.status = .connecting := by
        by_contra hst
        have := hn.other hst
        simp only [tcpAttempts, Nat.add_eq_zero_iff, List.countP_eq_zero] at this
        exact absurd rfl (this.2 _ (List.mem_of_getElem? hk))
      obtain ⟨b', d, hwb⟩ := hon.holds hst
      have hlast := hm.tcp.newest.wbuf b' d hwb
      rw [← hm.net, hm.asked, List.getLast?_map, hl] at hlast
      have hbd : b = d := by simpa using hlast
      subst hbd
      simp only [Tcp.step, hk, Tcp.runTask] at hs
      rw [onConnected_ok (v := { t with queue := t.queue.eraseIdx k }) hd0] at hs
      injection hs with hs
      have : t'.log = t.log ++ [.submit t.conn b] := by
        rw [← hs, (beginRead_same _).2.2.2.2.2, sendBuffer_log (by exact hd0)]
        simp [hwb]
      rw [← hl', this]; simp
  | data _ ih => exact grow rfl (ih hf hd hr)
  | heard _ he _ ih => exact grow (heard_notSent he) (ih hf hd hr)
  | @again log t s k c t' hm _ hs hl ih =>
    have h0 := (hm.rest (Or.inr rfl)).1
    obtain ⟨hc, hcase⟩ := step_dataOps (Or.inr ⟨k, rfl⟩) h0 hs
    have hle := hcase.resolve_right (by
      rintro ⟨k', c', hk', hq⟩
      injection hk' with hk'; subst hk'
      rw [‹t.queue[k]? = some (.read c .again)›] at hq; cases hq)
    rw [hc, hl]
    exact ih (fun x hx => hf x (List.mem_append_left _ hx)) h0 (Nat.le_trans hr hle)
  | fail _ ih => exact grow rfl (ih hf hd hr)
  | fails _ _ ih => exact grow rfl (ih hf hd hr)
  | done _ ih => exact ih hf hd hr

/-- Inside `on_receive`: the data came from the current connection. -/
theorem source {log t s ph} (h : Micro env log t s ph) (hf : ∀ x ∈ s, FreshStarts x.1 x.2) (hr : (∃ d, ph = .got d) ∨ ph = .receiving) :
    ∃ x1 d x2, log = x1 ++ .net (.receive t.conn d) :: x2 ∧ ∀ c' d', KEv.net (.receive c' d') ∉ x2 := by
  induction h with
  | @sent log t s ph u bytes now hm hph hj ih =>
    have hf' : ∀ x ∈ s, FreshStarts x.1 x.2 := fun x hx => hf x (List.mem_append_left _ hx)
    have hfs : FreshStarts t (.send bytes (env.loc t.nextBuf)) := hf (t, .send bytes (env.loc t.nextBuf)) (List.mem_append_right _ (List.mem_singleton.2 rfl))
    have hd0 := hm.up hj
    obtain ⟨-, c, hc⟩ := hm.rest hr
    obtain ⟨x1, d, x2, h1, h2⟩ := ih hf' hr
    have hconn : (t.send bytes (env.loc t.nextBuf)).conn = t.conn := by
      cases hst : t.status with
      | notConnected =>
        by_cases hh : t.isOpen = true ∨ env.loc t.nextBuf ≠ .ok
        · obtain ⟨o, g1, -⟩ := send_gaveUp hd0 hst bytes _ hh
          rw [g1]; rfl
        · simp only [not_or, Bool.not_eq_true, ne_eq, not_not] at hh
          have := (hfs bytes _ rfl hst hh.1).2 _ hc
          simp at this
      | connecting => rw [send_connecting hd0 hst]; rfl
      | connected => rw [send_connected hd0 hst, (sendBuffer_same _).2.2.2.1]; rfl
    obtain ⟨new, g1, g2⟩ := Tcp.step_log (v := t) (op := .send bytes (env.loc t.nextBuf)) rfl
    have g2 := g2.resolve_right (by
      rintro (⟨k, c, d, hk, -⟩ | ⟨k, c, hk, -⟩) <;> cases hk)
    refine ⟨x1, d, x2 ++ .ch (.sent u bytes now) :: new.map .net, ?_, ?_⟩
    · rw [g1, List.drop_left, h1, hconn]; simp
    · intro c' d' hm'
      rcases List.mem_append.1 hm' with hm' | hm'
      · exact h2 _ _ hm'
      · simp only [List.mem_cons, reduceCtorEq, false_or, List.mem_map] at hm'
        obtain ⟨a, ha, hb⟩ := hm'
        injection hb with hb
        exact (g2 a ha).1 _ _ hb
  | @step log t s op t' new hm hop hs hl ih =>
    have hf' : ∀ x ∈ s, FreshStarts x.1 x.2 := fun x hx => hf x (List.mem_append_left _ hx)
    obtain ⟨new', h1, h2⟩ := Tcp.step_log hs
    rw [hl] at h1
    obtain rfl := List.append_cancel_left h1
    rcases h2 with h2 | ⟨k, c, d, rfl, h3, h4, rfl, rfl⟩ | ⟨k, c, rfl, h3, rfl⟩
    · exfalso
      rw [Stk.phase_of_nothing h2] at hr
      rcases hr with ⟨d, hr⟩ | hr <;> cases hr
    · have htag : c = t.conn := (hm.neat hf' h4).tags.queue _ (List.mem_of_getElem? h3) c rfl
      subst htag
      exact ⟨log, d, [], rfl, by simp⟩
    · rcases hr with ⟨d, hr⟩ | hr <;> cases hr
  | @data log t s d0 hm ih =>
    obtain ⟨x1, d, x2, h1, h2⟩ := ih hf (Or.inl ⟨_, rfl⟩)
    exact ⟨x1, d, x2 ++ [.ch (.data d0)], by rw [h1]; simp, by simp [h2]⟩
  | @heard log t s e hm _ _ ih =>
    obtain ⟨x1, d, x2, h1, h2⟩ := ih hf (Or.inr rfl)
    exact ⟨x1, d, x2 ++ [.ch e], by rw [h1]; simp, by simp [h2]⟩
  | _ => rcases hr with ⟨d, hr⟩ | hr <;> cases hr

/-- Every accepted answer was received on a connection to which the request had been submitted. -/
theorem answered {log t s ph} (h : Micro env log t s ph) (hf : ∀ x ∈ s, FreshStarts x.1 x.2) (pre : List KEv) (u : Nat) (pdu : List UInt8) (now : Nat)
    (post : List KEv) (hl : log = pre ++ .ch (.handler u (.ok pdu) now) :: post) :
    ∃ c b n x1 d x2, CEv.sent u b n ∈ chLog pre ∧ KEv.net (.submit c b) ∈ pre ∧ pre = x1 ++ .net (.receive c d) :: x2 ∧
      ∀ c' d', KEv.net (.receive c' d') ∉ x2 := by
  have one : ∀ {log : List KEv} {e : CEv} {pre post : List KEv}, (∀ u d n, e ≠ .handler u (.ok d) n) → log ++ [.ch e] = pre ++ .ch (.handler u (.ok pdu) now) :: post →
      ∃ m, log = pre ++ .ch (.handler u (.ok pdu) now) :: m := by
    intro log e pre post hne h
    rcases append_cons_cases h with h | ⟨es1, h1, -⟩
    · exact h
    · cases es1 with
      | nil => injection h1 with h1; injection h1 with h1; exact absurd h1 (hne _ _ _)
      | cons y es1 => cases es1 <;> simp at h1
  have nets : ∀ {es1 post : List KEv} {new : List TEv}, List.map KEv.net new = es1 ++ .ch (.handler u (.ok pdu) now) :: post → False := by
    intro es1 post new h
    have : KEv.ch (.handler u (.ok pdu) now) ∈ List.map KEv.net new := by rw [h]; simp
    obtain ⟨a, -, ha⟩ := List.mem_map.1 this
    cases ha
  induction h generalizing post with
  | init => simp at hl
  | own _ he _ ih => obtain ⟨m, hm⟩ := one (by rintro u d n rfl; cases he) hl; exact ih hf m hm
  | sent _ _ _ ih =>
    rcases append_cons_cases hl with ⟨m, h⟩ | ⟨es1, h4, h5⟩
    · exact ih (fun x hx => hf x (List.mem_append_left _ hx)) m h
    · cases es1 with
      | nil => cases h4
      | cons y es1 =>
        rw [List.cons_append] at h4
        injection h4 with h4 h6
        exact absurd (nets h6) id
  | down _ ih => obtain ⟨m, hm⟩ := one (by simp) hl; exact ih (fun x hx => hf x (List.mem_append_left _ hx)) m hm
  | step _ _ _ _ ih =>
    rcases append_cons_cases hl with ⟨m, h⟩ | ⟨es1, h4, h5⟩
    · exact ih (fun x hx => hf x (List.mem_append_left _ hx)) m h
    · exact absurd (nets h4) id
  | data _ ih => obtain ⟨m, hm⟩ := one (by simp) hl; exact ih hf m hm
  | @heard log t s e hm he hj ih =>
    rcases append_cons_cases hl with ⟨m, h⟩ | ⟨es1, h4, h5⟩
    · exact ih hf m h
    · have hes : es1 = [] ∧ e = .handler u (.ok pdu) now := by
        cases es1 with
        | nil => injection h4 with h4; injection h4 with h4; exact ⟨rfl, h4⟩
        | cons y es1 => cases es1 <;> simp at h4
      obtain ⟨rfl, rfl⟩ := hes
      rw [List.append_nil] at h5
      subst h5
      obtain ⟨hd, c, hc⟩ := hm.rest (Or.inr rfl)
      have hdata : 1 ≤ dataOps t := by
        have : 1 ≤ t.queue.countP isDataTask := List.one_le_countP_iff.2 ⟨_, hc, rfl⟩
        unfold dataOps; omega
      obtain ⟨-, hs, hnh, -⟩ := hj
      obtain ⟨b, n, hs⟩ := mem_sentUids.1 hs
      have hlast := hm.outstanding u b n hs hnh
      have hsub := (hm.submitted hf hd hdata u b hlast).resolve_left hnh
      obtain ⟨x1, d, x2, h1, h2⟩ := hm.source hf (Or.inr rfl)
      refine ⟨t.conn, b, n, x1, d, x2, hs, ?_, h1, h2⟩
      rw [← hm.net, netLog, List.mem_filterMap] at hsub
      obtain ⟨a, ha, hb⟩ := hsub
      cases a with
      | ch => cases hb
      | net a => injection hb with hb; subst hb; exact ha
  | again _ _ _ _ ih => exact ih (fun x hx => hf x (List.mem_append_left _ hx)) post hl
  | fail _ ih => obtain ⟨m, hm⟩ := one (by simp) hl; exact ih hf m hm
  | fails _ _ ih => obtain ⟨m, hm⟩ := one (by simp) hl; exact ih hf m hm
  | done _ ih => exact ih hf post hl

end Micro

end Modbus
