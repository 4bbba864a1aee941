import Verif.Spec.System
import Verif.Lemmas.EndToEnd
import Mathlib.Data.List.Induction

/-! Helper lemmas about client and server together. -/

namespace Modbus

open Spec

/-! ### What one step adds to the client's log -/

/-- Not an event that comes from the network. -/
def CEv.inner : CEv → Bool
  | .data _ => false
  | .connError => false
  | _ => true

/-- Neither a message nor a response reported. -/
def CEv.own : CEv → Bool
  | .mbap _ => false
  | .handler _ (.ok _) _ => false
  | e => e.inner

namespace Cli

/-- The log grows by events with property `P`. -/
def Adds (P : CEv → Prop) (v v' : Cli) : Prop := ∃ es, v'.log = v.log ++ es ∧ ∀ e ∈ es, P e

theorem Adds.trans {P : CEv → Prop} {v v' v'' : Cli} (h : Adds P v v') (h' : Adds P v' v'') : Adds P v v'' := by
  obtain ⟨a, a1, a2⟩ := h
  obtain ⟨b, b1, b2⟩ := h'
  refine ⟨a ++ b, by rw [b1, a1, List.append_assoc], fun e he => ?_⟩
  rcases List.mem_append.1 he with he | he
  · exact a2 e he
  · exact b2 e he

theorem Adds.mono {P Q : CEv → Prop} {v v' : Cli} (h : Adds P v v') (hpq : ∀ e, P e → Q e) : Adds Q v v' := by
  obtain ⟨a, a1, a2⟩ := h
  exact ⟨a, a1, fun e he => hpq e (a2 e he)⟩

theorem Adds.of_eq {P : CEv → Prop} {v v' : Cli} (h : v'.log = v.log) : Adds P v v' := ⟨[], by simp [h], by simp⟩

theorem Adds.one {P : CEv → Prop} {v v' : Cli} {e : CEv} (h : v'.log = v.log ++ [e]) (he : P e) : Adds P v v' :=
  ⟨[e], h, fun _ hm => List.mem_singleton.1 hm ▸ he⟩

theorem Adds.checkPending (env : ClientEnv) (v : Cli) : Adds (fun e => e.own = true) v (v.checkPending env) := by
  unfold Cli.checkPending
  split
  · exact .of_eq rfl
  · split
    · exact .one rfl rfl
    · exact .of_eq rfl

theorem Adds.finish (v : Cli) (r : PendingReq) (x : Expected (List UInt8)) : Adds (fun e => e.inner = true) v (v.finish r x) :=
  .one (finish_log v r x) rfl

theorem Adds.fails (v : Cli) (r : PendingReq) (x : Exc) : Adds (fun e => e.own = true) v (v.finish r (.error x)) :=
  .one (finish_log v r _) rfl

theorem own_inner {e : CEv} (h : e.own = true) : e.inner = true := by
  cases e with
  | data d => cases h
  | connError => cases h
  | _ => rfl

theorem Adds.onMbap (env : ClientEnv) (v : Cli) (m : Mbap) : Adds (fun e => e.inner = true) v (v.onMbap env m) := by
  have h0 : Adds (fun e => e.inner = true) v (v.emit (.mbap m)) := .one rfl rfl
  rcases onMbap_eq env v m with ⟨h, -⟩ | ⟨r, -, hc, -, -, h⟩
  · rw [h]; exact h0
  · rw [h]; exact (h0.trans (Adds.finish _ r _)).trans ((Adds.checkPending env _).mono fun _ => own_inner)

theorem Adds.onMbaps (env : ClientEnv) (ms : List Mbap) : ∀ v : Cli, Adds (fun e => e.inner = true) v (v.onMbaps env ms) := by
  induction ms with
  | nil => exact fun v => .of_eq rfl
  | cons m ms ih => exact fun v => (Adds.onMbap env v m).trans (ih (v.onMbap env m))

/-- Steps that are not caused by the network. -/
theorem step_own {env : ClientEnv} {v v' : Cli} {op : Op} (h : v.step env op = .ret v') (hop : Sys.ownClient op = true) :
    Adds (fun e => e.own = true) v v' := by
  cases op with
  | submit unit q tmo =>
    obtain ⟨new, hn, he⟩ := step_submit env v unit q tmo
    rw [he] at h
    injection h with h; subst h
    exact .one rfl rfl
  | shutdown => injection h with h; subst h; exact .of_eq rfl
  | createSession =>
    simp only [Cli.step] at h
    split at h <;> injection h with h <;> subst h <;> exact .one rfl rfl
  | runTask =>
    simp only [Cli.step] at h
    split at h
    · injection h with h; subst h; exact .of_eq rfl
    · rename_i t ts ht
      injection h with h; subst h
      cases t with
      | request u unit q tmo =>
        simp only [Cli.runTask]
        split
        · exact .of_eq rfl
        · exact Adds.trans (.of_eq rfl) (.checkPending env _)
      | malformed u => exact .one rfl rfl
      | shutdown =>
        simp only [Cli.runTask]
        obtain ⟨f, hf⟩ := cancelTimer_eq { v with tasks := ts, isShutdown := true, log := v.log ++ v.sessions.map CEv.sessionShutdown, sessions := [], pending := [], current := none }
        rw [hf]
        refine ⟨v.sessions.map CEv.sessionShutdown ++ [.tcpShutdown], by simp [Cli.emit], ?_⟩
        intro e he
        rcases List.mem_append.1 he with he | he
        · obtain ⟨x, -, rfl⟩ := List.mem_map.1 he; rfl
        · rw [List.mem_singleton.1 he]; rfl
  | receive d => cases hop
  | error => cases hop
  | tick n => injection h with h; subst h; exact .of_eq rfl
  | expire t =>
    simp only [Cli.step] at h
    split at h
    · injection h with h; subst h; exact .of_eq rfl
    · split at h <;> injection h with h <;> subst h <;> exact .of_eq rfl
  | runTimer t =>
    simp only [Cli.step] at h
    split at h
    · injection h with h; subst h
      generalize ha : { v with fired := v.fired.filter fun x => x ≠ t } = a
      have ha' : a.log = v.log := by rw [← ha]
      refine Adds.trans (Adds.of_eq ha') ?_
      unfold Cli.onTimer
      split
      · exact .of_eq rfl
      · split
        · exact .of_eq rfl
        · rename_i r hr
          rw [cancelCurrent_eq env a r _ hr]
          exact (Adds.fails a r _).trans (.checkPending env _)
    · injection h with h; subst h; exact .of_eq rfl

/-- Receiving data. -/
theorem step_receive {env : ClientEnv} {v v' : Cli} {d : List UInt8} (h : v.step env (.receive d) = .ret v') :
    ∃ es, v'.log = v.log ++ .data d :: es ∧ ∀ e ∈ es, e.inner = true := by
  simp only [Cli.step, Cli.onReceive] at h
  split at h
  · injection h with h; subst h; exact ⟨[], rfl, by simp⟩
  · rcases hp : (v.emit (.data d)).parser.parse d with _ | ⟨p, ms⟩
    · rw [hp] at h; cases h
    · rw [hp] at h
      injection h with h; subst h
      obtain ⟨es, h1, h2⟩ := Adds.onMbaps env ms { v.emit (.data d) with parser := p }
      exact ⟨es, by rw [h1]; simp [Cli.emit], h2⟩

/-- A connection error. -/
theorem step_error {env : ClientEnv} {v v' : Cli} (hr : Props.CReach env v) (h : v.step env .error = .ret v') :
    ∃ es, v'.log = v.log ++ .connError :: es ∧ v'.current = none ∧ ∀ e ∈ es, ∃ u t, e = .handler u (.error .connection) t := by
  by_cases hs : CEv.tcpShutdown ∈ v.log
  · have hd := hr.inv.1.downLog.1 hs
    have : v' = v.emit .connError := by
      injection h with h; rw [← h, onError_eq, if_pos hd]
    subst this
    exact ⟨[], rfl, (hr.inv.1.down hd).1, by simp⟩
  · obtain ⟨v1, h1, h2, h3, -, h5, -⟩ := Props.C53_error_fails_everything env v hr hs
    rw [h] at h1; injection h1 with h1; subst h1
    refine ⟨_, h3, ?_, ?_⟩
    · simp only [Props.waiting, List.append_eq_nil_iff, List.map_eq_nil_iff] at h5
      cases hc : v'.current with
      | none => rfl
      | some r => rw [hc] at h5; cases h5.2
    · intro e he
      obtain ⟨u, -, rfl⟩ := List.mem_map.1 he
      exact ⟨_, _, rfl⟩

end Cli

/-! ### The received chunks in the client's log -/

theorem chunksSince_inner (l : List CEv) (es : List CEv) (h : ∀ e ∈ es, e.inner = true) : chunksSince (l ++ es) = chunksSince l := by
  induction es using List.reverseRecOn with
  | nil => simp
  | append_singleton es e ih =>
    rw [← List.append_assoc, chunksSince_snoc, ih (fun e he => h e (by simp [he]))]
    have := h e (by simp)
    cases e <;> first | rfl | cases this

/-! ### A parser in the middle of a stream of messages -/

theorem nil_incomplete : ∀ f : Frame, f.Complete → ¬ f.bytes <+: ([] : List UInt8) := by
  intro f _ hf
  have := hf.length_le
  rw [frame_bytes, List.length_append, hdr_length] at this
  simp at this

/-- Nothing is missing: the rest of the stream is empty. -/
theorem rep_whole {p : Parser} {pend : List UInt8} (h : Rep p pend) {rest : List Mbap} (hm : ∀ m ∈ rest, Ordinary m)
    (he : pend = streamOf (rest.map frameOf)) : rest = [] := by
  cases rest with
  | nil => rfl
  | cons m ms =>
    exfalso
    have hmo := hm m (by simp)
    rw [List.map_cons, streamOf_cons] at he
    rcases h.incomplete with hi | ⟨f, hf1, hf2, hf3⟩
    · exact hi _ hmo.complete (by rw [he]; exact List.prefix_append _ _)
    · have e : f.bytes ++ [] = (frameOf m).bytes ++ streamOf (ms.map frameOf) := by rw [List.append_nil, ← hf3, he]
      obtain ⟨rfl, -⟩ := frame_prefix_unique hf1 hmo.complete e
      have := hmo.len; have := hmo.1
      omega

/-- A parser fed with some more bytes of a stream of ordinary messages hands over the next messages. -/
theorem parse_stream {p : Parser} {pend : List UInt8} (hp : Rep p pend) (msgs : List Mbap) (hm : ∀ m ∈ msgs, Ordinary m) (d rest : List UInt8)
    (h : pend ++ (d ++ rest) = streamOf (msgs.map frameOf)) :
    ∃ p' ms ms' pend', p.parse d = .ret (p', ms) ∧ p'.pol = p.pol ∧ Rep p' pend' ∧ msgs = ms ++ ms' ∧
      pend' ++ rest = streamOf (ms'.map frameOf) := by
  obtain ⟨p', out, fs, pend', h1, h2, h3, h4, h5, h6, h7⟩ := feed_spec [d] p pend hp
  simp only [List.flatten_cons, List.flatten_nil, List.append_nil] at h3
  have hg : ∀ g ∈ msgs.map frameOf, g.Complete := by
    intro g hg
    obtain ⟨m, hm', rfl⟩ := List.mem_map.1 hg
    exact (hm m hm').complete
  obtain ⟨gs, hgs, hpend⟩ := frames_prefix h4 hg (x := pend' ++ rest) (y := [])
    (by rw [← List.append_assoc, ← h3, List.append_assoc, h, List.append_nil]) nil_incomplete
  rw [List.append_nil] at hpend
  obtain ⟨ms, ms', rfl, hfs, hgs'⟩ := List.map_eq_append_iff.1 hgs
  have hout : out = ms := by
    have hfil : fs.filter Frame.isModbus = fs := by
      apply List.filter_eq_self.2
      rw [← hfs]
      intro f hf
      obtain ⟨m, hm', rfl⟩ := List.mem_map.1 hf
      exact (hm m (by simp [hm'])).isModbus
    rw [hfil] at h5
    rw [delivers_map h5, ← hfs, List.map_map]
    · conv => rhs; rw [← List.map_id ms]
      apply List.map_congr_left
      intro m _; rfl
    · rw [← hfs]
      intro f hf
      obtain ⟨m, hm', rfl⟩ := List.mem_map.1 hf
      have := (hm m (by simp [hm'])).len
      have := (hm m (by simp [hm'])).2
      simp only [Frame.Fits]; omega
  subst hout
  refine ⟨p', out, ms', pend', ?_, h2, h6, rfl, by rw [hpend, ← hgs']⟩
  simp only [Parser.feed] at h1
  cases hpp : p.parse d with
  | ub => rw [hpp] at h1; cases h1
  | ret x =>
    rw [hpp] at h1
    simp only [CM.ret_bind, CM.pure_eq, List.append_nil] at h1
    injection h1 with h1
    exact congrArg CM.ret h1

/-! ### What the server does with a request -/

namespace Props

/-- A PDU denotes at most one request. -/
theorem denotes_unique {k k' : Kind} {d : List UInt8} {q : Req k} {q' : Req k'} (h : Denotes k d q) (h' : Denotes k' d q') :
    (⟨k, q⟩ : AnyReq) = ⟨k', q'⟩ := by
  obtain ⟨r1, h1⟩ := denotes_head h
  obtain ⟨r2, h2⟩ := denotes_head h'
  have hk : k = k' := by
    rw [h1] at h2
    injection h2 with h2
    revert h2
    cases k <;> cases k' <;> simp [fc]
  subst hk
  have e1 := (C02_accepts_iff_denotes k d q).2 h
  rw [(C02_accepts_iff_denotes k d q').2 h'] at e1
  injection e1 with e1; injection e1 with e1
  rw [e1]

end Props


/-- What the server sends for a session's result. -/
def ReplyPdu (k : Kind) : Expected (Resp k) → List UInt8 → Prop
  | .ok r, pdu => ∀ p, ResponsePdu k r p → p.length ≤ 253 → pdu = p
  | .error (.modbus t), pdu => pdu = [fc k ||| 0x80, Props.headerCode t]
  | .error _, _ => False

theorem msg_length_pos {m : Msg} (h : Props.IsMessage m) : 1 ≤ m.length := by
  rcases h with ⟨k, r, rfl⟩ | ⟨k, r, rfl⟩ | ⟨fc, t, rfl⟩
  · cases k <;> simp only [reqMsg, readReqMsg, singleCoilMsg, singleRegMsg, writeCoilsMsg, writeRegsMsg] <;> omega
  · cases k <;> simp only [respMsg, bitsRespMsg, regsRespMsg, singleCoilMsg, singleRegMsg, writeMultiRespMsg] <;> omega
  · simp only [exceptionMsg]; omega

namespace Srv

variable {W : Type}

theorem sendMessage_frame (env : ServerEnv W) (v : Srv W) (c : ConnId) (unit : UInt8) (tid : UInt16) (msg : Msg) (hm : Props.IsMessage msg) :
    ∃ pdu : List UInt8, Ordinary ⟨unit, tid, pdu⟩ ∧
      (v.sendMessage env c unit tid msg).log = v.log ++ [.send c (Spec.frameOf ⟨unit, tid, pdu⟩).bytes] ∧
      ∀ p, Props.Emits msg p → p.length ≤ 253 → pdu = p := by
  have ha : ∀ w, AppendsTo w (msg.build w) := by
    rcases hm with ⟨k, r, rfl⟩ | ⟨k, r, rfl⟩ | ⟨fc, t, rfl⟩
    · exact reqMsg_appends k r
    · exact respMsg_appends k r
    · exact exceptionMsg_appends fc t
  have hpos := msg_length_pos hm
  obtain ⟨payload, e1, e2, -⟩ := buildMbap_eq unit tid msg (env.junk v.nsend).toList (by simp) ha
  obtain ⟨pdu, h1, h2, h3⟩ := buildMbap_frame unit tid msg hm (env.junk v.nsend).toList (by simp)
  have hlen : pdu.length = min msg.length 253 := by
    have : (buildMbap unit tid msg ⟨[], (env.junk v.nsend).toList⟩).length = 7 + pdu.length := by
      rw [h2, frame_bytes, List.length_append, hdr_length]; rfl
    rw [e1, List.length_append, hdr_length, e2] at this
    omega
  exact ⟨pdu, ⟨by simp only; omega, h1⟩, by simp [sendMessage, emit, h2], h3⟩

/-- The reaction to a message that carries a request. -/
theorem react_request (env : ServerEnv W) (v : Srv W) (c : ConnId) (m : Mbap) (k : Kind) (q : Req k) (hd : Denotes k m.data q) :
    ∃ v', v.onMbap env c m = .ret v' ∧ Same v v' ∧
      ((v'.log = v.log ++ [.mbap c m] ∧ v'.world = v.world ∧ (v.isShutdown = true ∨ v.sessions.lookup m.unit = none)) ∨
      ∃ s, v.isShutdown = false ∧ v.sessions.lookup m.unit = some s ∧ v'.world = (env.onRequest s k q v.world).1 ∧
        ((v'.log = v.log ++ [.mbap c m, .request s k q] ∧ ∃ e, (env.onRequest s k q v.world).2 = .error e ∧ ∀ t, e ≠ .modbus t) ∨
        ∃ pdu, Ordinary ⟨m.unit, m.tid, pdu⟩ ∧ ReplyPdu k (env.onRequest s k q v.world).2 pdu ∧
          v'.log = v.log ++ [.mbap c m, .request s k q, .send c (frameOf ⟨m.unit, m.tid, pdu⟩).bytes])) := by
  obtain ⟨v', h1, h2⟩ := onMbap_reacts env v c m
  refine ⟨v', h1, h2.same, ?_⟩
  cases hsd : v.isShutdown with
  | true =>
    left
    simp only [onMbap, emit_isShutdown, hsd, if_true] at h1
    injection h1 with h1; subst h1
    exact ⟨rfl, rfl, Or.inl rfl⟩
  | false =>
    cases hl : v.sessions.lookup m.unit with
    | none =>
      left
      simp only [onMbap, emit_isShutdown, hsd, Bool.false_eq_true, if_false, emit_sessions, hl] at h1
      injection h1 with h1; subst h1
      exact ⟨rfl, rfl, Or.inr rfl⟩
    | some s =>
      right
      have hp := (Props.C02_accepts_iff_denotes k m.data q).2 hd
      have hon := Props.onMbap_dispatch env c (⟨hsd, hl⟩ : Props.Reaches v m s) (Props.denotes_head hd)
      rw [processMessage_ok _ _ _ _ _ _ _ hp, emit_world, h1] at hon
      refine ⟨s, rfl, rfl, ?_⟩
      rcases hx : (env.onRequest s k q v.world).2 with e | r
      · by_cases he : ∃ t, e = .modbus t
        · obtain ⟨t, rfl⟩ := he
          simp only [hx] at hon
          injection hon with hon; subst hon
          refine ⟨rfl, Or.inr ⟨_, ⟨by simp, by simp⟩, rfl, ?_⟩⟩
          rw [Props.exceptionMsg_frame, Props.toByte_eq]
          simp [called, emit]
        · have hne : ∀ t, e ≠ .modbus t := fun t ht => he ⟨t, ht⟩
          have : v' = (v.emit (.mbap c m)).called env s k q := by
            cases e with
            | modbus t => exact absurd rfl (hne t)
            | _ => simp only [hx] at hon; injection hon
          subst this
          exact ⟨rfl, Or.inl ⟨by simp [called, emit], e, rfl, hne⟩⟩
      · simp only [hx] at hon
        injection hon with hon; subst hon
        obtain ⟨pdu, o, g1, g2⟩ := sendMessage_frame env ((v.emit (.mbap c m)).called env s k q) c m.unit m.tid (respMsg k r)
          (Or.inr (Or.inl ⟨_, _, rfl⟩))
        refine ⟨rfl, Or.inr ⟨pdu, o, ?_, by rw [g1]; simp [called, emit]⟩⟩
        intro p hpdu hlen
        obtain ⟨q', hq1, hq2⟩ := Props.response_conformant k r
        cases Props.responsePdu_unique hpdu hq2
        exact g2 _ hq1 hlen

end Srv

end Modbus
