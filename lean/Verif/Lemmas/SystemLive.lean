import Verif.Lemmas.SystemInv

/-! What is still on its way between client and server. -/

namespace Modbus

open Spec

variable {W : Type}

/-! ### The client -/

namespace Cli

theorem calls_unique {env : ClientEnv} {rem : List Mbap} {v : Cli} (h : Inv env rem v) {u : Nat} {a b : UInt8} {q q' : AnyReq} {t t' : Nat}
    (h1 : CEv.call u a q t ∈ v.log) (h2 : CEv.call u b q' t' ∈ v.log) : a = b ∧ q = q' ∧ t = t' := by
  have hn : ((submissions v.log).map (·.1)).Nodup := by rw [h.calls]; exact List.nodup_range
  have m1 : (u, a, q, t) ∈ submissions v.log := by
    simp only [submissions, List.mem_filterMap]; exact ⟨_, h1, rfl⟩
  have m2 : (u, b, q', t') ∈ submissions v.log := by
    simp only [submissions, List.mem_filterMap]; exact ⟨_, h2, rfl⟩
  have := List.inj_on_of_nodup_map hn m1 m2 rfl
  simpa using this

theorem running_of_current {env : ClientEnv} {rem : List Mbap} {v : Cli} (h : Inv env rem v) {r : PendingReq} (hc : v.current = some r) :
    v.isShutdown = false := by
  cases hd : v.isShutdown with
  | false => rfl
  | true => have := (h.down hd).1; rw [this] at hc; cases hc

theorem current_unhandled {env : ClientEnv} {rem : List Mbap} {v : Cli} (h : Inv env rem v) {r : PendingReq} (hc : v.current = some r) :
    r.uid ∉ handledUids v.log := by
  intro hm
  have := h.once r.uid
  have h1 : v.curUids.count r.uid = 1 := by simp [Cli.curUids, hc]
  have := List.count_pos_iff.2 hm
  omega

/-- The current request is the one that was current before, or it was sent in between. -/
theorem same_current {env : ClientEnv} {v c : Cli} (hv : Props.CReach env v) (hc : Props.CReach env c) {es : List CEv}
    (he : c.log = v.log ++ es) {r : PendingReq} (hr : c.current = some r) :
    (∃ r', v.current = some r' ∧ r'.uid = r.uid ∧ r'.unit = r.unit ∧ r'.tid = r.tid) ∨ r.uid ∈ sentUids es := by
  have iv := hv.inv.1
  have ic := hc.inv.1
  obtain ⟨bytes, t0, hs, -⟩ := ic.curSent r hr
  have hsu : r.uid ∈ sentUids c.log := mem_sentUids.2 ⟨_, _, hs⟩
  have hun := current_unhandled ic hr
  have hrun := running_of_current ic hr
  rw [he, sentUids_append, List.mem_append] at hsu
  rw [he, handledUids_append, List.mem_append, not_or] at hun
  rcases hsu with hsu | hsu
  · left
    have hnd : CEv.tcpShutdown ∉ v.log := by
      intro hm
      have := ic.downLog.1 (by rw [he]; exact List.mem_append_left _ hm)
      rw [hrun] at this; cases this
    obtain ⟨o, ho1, ho2⟩ := iv.outstanding
    have := ho1 _ hsu hun.1
    rw [ho2 (hv.down hnd)] at this
    obtain ⟨r', h1, h2⟩ := Option.map_eq_some_iff.1 this
    obtain ⟨k1, -, k3⟩ := iv.known r' (by simp [h1])
    obtain ⟨c1, -, c3⟩ := ic.known r (by simp [hr])
    have hrk := Props.calls_prefix hc he k1
    have k1' : CEv.call r'.uid r'.unit r'.req r'.timeout ∈ c.log := by rw [he]; exact List.mem_append_left _ k1
    rw [h2] at k1'
    refine ⟨r', h1, h2, (calls_unique ic k1' c1).1, ?_⟩
    rw [k3, c3, ← hrk, h2]
  · exact Or.inr hsu

/-- A matching message completes the current request. -/
theorem matched (env : ClientEnv) (ms : List Mbap) : ∀ (v : Cli) (r : PendingReq) (m : Mbap), v.isShutdown = false → v.current = some r →
    m ∈ ms → m.tid = r.tid → m.unit = r.unit → ∃ d t, CEv.handler r.uid (.ok d) t ∈ (v.onMbaps env ms).log := by
  induction ms with
  | nil => intro v r m _ _ hm; cases hm
  | cons m0 ms ih =>
    intro v r m hs hc hm ht hu
    have hgo : v.onMbaps env (m0 :: ms) = (v.onMbap env m0).onMbaps env ms := rfl
    rw [hgo]
    rcases onMbap_eq env v m0 with ⟨h2, h3⟩ | ⟨r', -, hc', -, -, h2⟩
    · rcases h3 with h3 | h3
      · rw [hs] at h3; cases h3
      · rcases List.mem_cons.1 hm with rfl | hm
        · exact absurd ⟨ht, hu⟩ (h3 r hc)
        · rw [h2]
          exact ih (v.emit (.mbap m0)) r m hs hc hm ht hu
    · rw [hc] at hc'; injection hc' with hc'; subst hc'
      obtain ⟨es, e1, -⟩ := Adds.onMbaps env ms (v.onMbap env m0)
      obtain ⟨es', e2, -⟩ := Adds.checkPending env ((v.emit (.mbap m0)).finish r (.ok m0.data))
      refine ⟨m0.data, v.now, ?_⟩
      rw [e1, h2, e2]
      refine List.mem_append_left _ (List.mem_append_left _ ?_)
      obtain ⟨f, hf⟩ := cancelTimer_eq { (v.emit (.mbap m0)).emit (.handler r.uid (.ok m0.data) (v.emit (.mbap m0)).now) with current := none }
      rw [finish, hf]
      simp [Cli.emit]

/-- The requests that wait for an answer or for being sent, in order. -/
def queue (v : Cli) : List PendingReq := v.current.toList ++ v.pending

theorem checkPending_queue (env : ClientEnv) (v : Cli) : (v.checkPending env).queue = v.queue := by
  unfold checkPending
  split
  · rfl
  · split
    · rename_i r rest h1 h2
      simp [queue, h1, h2, Cli.emit]
    · rfl

theorem finish_queue {v : Cli} {r : PendingReq} (h : v.current = some r) (x : Expected (List UInt8)) : v.queue = r :: (v.finish r x).queue := by
  obtain ⟨f, hf⟩ := cancelTimer_eq { v.emit (.handler r.uid x v.now) with current := none }
  rw [finish, hf]
  simp [queue, h, Cli.emit]

/-- Messages only complete requests, from the head of the queue, each with a response. -/
theorem onMbaps_queue (env : ClientEnv) (ms : List Mbap) : ∀ v : Cli, ∃ l, v.queue = l ++ (v.onMbaps env ms).queue ∧
    ∀ r ∈ l, ∃ d t, CEv.handler r.uid (.ok d) t ∈ (v.onMbaps env ms).log := by
  induction ms with
  | nil => intro v; exact ⟨[], rfl, by simp⟩
  | cons m ms ih =>
    intro v
    have hgo : v.onMbaps env (m :: ms) = (v.onMbap env m).onMbaps env ms := rfl
    rw [hgo]
    obtain ⟨l, h1, h2⟩ := ih (v.onMbap env m)
    rcases onMbap_eq env v m with ⟨h3, -⟩ | ⟨r, -, hc, -, -, h3⟩
    · refine ⟨l, ?_, h2⟩
      rw [← h1, h3]; rfl
    · refine ⟨r :: l, ?_, ?_⟩
      · have : v.queue = (v.emit (.mbap m)).queue := rfl
        rw [this, finish_queue (v := v.emit (.mbap m)) hc (.ok m.data), ← checkPending_queue env, ← h3, h1]; rfl
      · intro u hu
        rcases List.mem_cons.1 hu with hu | hu
        · rw [hu]
          refine ⟨m.data, v.now, ?_⟩
          obtain ⟨es, e1, -⟩ := Adds.onMbaps env ms (v.onMbap env m)
          obtain ⟨es', e2, -⟩ := Adds.checkPending env ((v.emit (.mbap m)).finish r (.ok m.data))
          rw [e1, h3, e2]
          refine List.mem_append_left _ (List.mem_append_left _ ?_)
          obtain ⟨f, hf⟩ := cancelTimer_eq { (v.emit (.mbap m)).emit (.handler r.uid (.ok m.data) (v.emit (.mbap m)).now) with current := none }
          rw [finish, hf]
          simp [Cli.emit]
        · exact h2 u hu

theorem checkPending_parser (env : ClientEnv) (v : Cli) : (v.checkPending env).parser = v.parser := by
  unfold checkPending
  split
  · rfl
  · split <;> rfl

theorem cancelTimer_parser (v : Cli) : v.cancelTimer.parser = v.parser := by
  obtain ⟨f, hf⟩ := cancelTimer_eq v
  rw [hf]

theorem onMbap_parser (env : ClientEnv) (v : Cli) (m : Mbap) : (v.onMbap env m).parser = v.parser := by
  rcases onMbap_eq env v m with ⟨h2, -⟩ | ⟨r, -, -, -, -, h2⟩
  · rw [h2]; rfl
  · rw [h2, checkPending_parser, finish, cancelTimer_parser]; rfl

theorem onMbaps_parser (env : ClientEnv) (ms : List Mbap) : ∀ v : Cli, (v.onMbaps env ms).parser = v.parser := by
  induction ms with
  | nil => intro v; rfl
  | cons m ms ih => intro v; exact (ih (v.onMbap env m)).trans (onMbap_parser env v m)

theorem step_own_parser {env : ClientEnv} {v v' : Cli} {op : Op} (h : v.step env op = .ret v') (hop : Sys.ownClient op = true) :
    v'.parser = v.parser := by
  cases op with
  | submit unit q tmo =>
    simp only [Cli.step] at h
    split at h
    · injection h with h; subst h; rfl
    · split at h <;> injection h with h <;> subst h <;> rfl
  | shutdown => injection h with h; subst h; rfl
  | createSession =>
    simp only [Cli.step] at h
    split at h <;> injection h with h <;> subst h <;> rfl
  | runTask =>
    simp only [Cli.step] at h
    split at h
    · injection h with h; subst h; rfl
    · injection h with h; subst h
      rename_i t ts ht
      cases t with
      | request u unit q tmo =>
        simp only [Cli.runTask]
        split
        · rfl
        · rw [checkPending_parser]
      | malformed u => rfl
      | shutdown =>
        simp only [Cli.runTask, Cli.emit]
        rw [cancelTimer_parser]
  | receive d => cases hop
  | error => cases hop
  | tick n => injection h with h; subst h; rfl
  | expire t =>
    simp only [Cli.step] at h
    split at h
    · injection h with h; subst h; rfl
    · split at h <;> injection h with h <;> subst h <;> rfl
  | runTimer t =>
    simp only [Cli.step] at h
    split at h
    · injection h with h; subst h
      generalize ha : { v with fired := v.fired.filter fun x => x ≠ t } = a
      have ha' : a.parser = v.parser := by rw [← ha]
      rw [← ha']
      unfold Cli.onTimer
      split
      · rfl
      · split
        · rfl
        · rename_i r hr
          rw [cancelCurrent_eq env a r _ hr, checkPending_parser, finish, cancelTimer_parser]; rfl
    · injection h with h; subst h; rfl

end Cli

/-! ### Messages on their way -/

/-- The bytes are the rest of a stream of messages, one of which has this unit and transaction id. -/
def Underway (P : Mbap → Prop) (p : Parser) (bytes : List UInt8) (unit : UInt8) (tid : UInt16) : Prop :=
  ∃ (pend : List UInt8) (ms : List Mbap) (m : Mbap), Rep p pend ∧ (∀ x ∈ ms, P x) ∧ pend ++ bytes = (ms.map wire).flatten ∧ m ∈ ms ∧ m.unit = unit ∧ m.tid = tid

theorem Underway.ne_nil {P : Mbap → Prop} (hP : ∀ m, P m → Ordinary m) {p : Parser} {unit : UInt8} {tid : UInt16} : ¬ Underway P p [] unit tid := by
  rintro ⟨pend, ms, m, h1, h2, h3, h4, -⟩
  rw [List.append_nil, ← streamOf_wire] at h3
  have := rep_whole h1 (fun x hx => hP x (h2 x hx)) h3
  rw [this] at h4; cases h4

theorem Underway.append {P : Mbap → Prop} {p : Parser} {bytes : List UInt8} {unit : UInt8} {tid : UInt16} (h : Underway P p bytes unit tid)
    (D : List Mbap) (hD : ∀ m ∈ D, P m) : Underway P p (bytes ++ (D.map wire).flatten) unit tid := by
  obtain ⟨pend, ms, m, h1, h2, h3, h4, h5⟩ := h
  refine ⟨pend, ms ++ D, m, h1, ?_, ?_, List.mem_append_left _ h4, h5⟩
  · intro x hx
    rcases List.mem_append.1 hx with hx | hx
    · exact h2 x hx
    · exact hD x hx
  · rw [← List.append_assoc, h3]; simp

/-- Part of the bytes are given to the receiver: the message is still underway, or among those handed over. -/
theorem Underway.take {P : Mbap → Prop} (hP : ∀ m, P m → Ordinary m) {p : Parser} {bytes : List UInt8} {unit : UInt8} {tid : UInt16}
    (h : Underway P p bytes unit tid) (n : Nat) {p' : Parser} {out : List Mbap} (hp : p.parse (bytes.take n) = .ret (p', out)) :
    (∀ m ∈ out, P m) ∧ (Underway P p' (bytes.drop n) unit tid ∨ ∃ m ∈ out, m.unit = unit ∧ m.tid = tid) := by
  obtain ⟨pend, ms, m, h1, h2, h3, h4, h5⟩ := h
  obtain ⟨p2, ms1, ms2, pend', k1, k2, k3, k4, k5⟩ := parse_stream h1 ms (fun m hm => hP m (h2 m hm)) (bytes.take n) (bytes.drop n)
    (by rw [List.take_append_drop, h3, streamOf_wire])
  rw [hp] at k1
  injection k1 with k1; injection k1 with k6 k7; subst k6 k7 k4
  refine ⟨fun m hm => h2 m (List.mem_append_left _ hm), ?_⟩
  rcases List.mem_append.1 h4 with h4 | h4
  · exact Or.inr ⟨m, h4, h5⟩
  · exact Or.inl ⟨pend', ms2, m, k3, fun x hx => h2 x (List.mem_append_right _ hx), by rw [k5, streamOf_wire], h4, h5⟩

/-! ### The server -/

/-- A session that never refuses to answer: what it returns is a response or a Modbus exception. -/
def Talks (env : ServerEnv W) (s : SessId) : Prop := ∀ k q w e, (env.onRequest s k q w).2 = .error e → ∃ t, e = .modbus t

/-- The server answers every request to a registered unit. -/
theorem serve_replies (env : ServerEnv W) (c : ConnId) (ms : List Mbap) : ∀ (s : Srv W), s.isShutdown = false → (∀ m ∈ ms, Request m) →
    ∀ m ∈ ms, ∀ sid, s.sessions.lookup m.unit = some sid → Talks env sid →
    ∀ s', s.onMbaps env c ms = .ret s' → ∃ es pdu, s'.log = s.log ++ es ∧ Ordinary ⟨m.unit, m.tid, pdu⟩ ∧ SEv.send c (wire ⟨m.unit, m.tid, pdu⟩) ∈ es := by
  induction ms with
  | nil => intro s _ _ m hm; cases hm
  | cons m0 ms ih =>
    intro s hs hreq m hm sid hl hans s' hgo
    obtain ⟨hmo, k, q, hd⟩ := hreq m0 (by simp)
    obtain ⟨s1, r1, r2, r3⟩ := Srv.react_request env s c m0 k q hd
    have hgo' : s1.onMbaps env c ms = .ret s' := by simpa [Srv.onMbaps, r1] using hgo
    obtain ⟨s2, g1, g2⟩ := Srv.onMbaps_reacts env c ms s1
    rw [hgo'] at g1; injection g1 with g1; subst g1
    obtain ⟨es2, e2, -⟩ := g2.events
    rcases List.mem_cons.1 hm with rfl | hm
    · rcases r3 with ⟨-, -, h | h⟩ | ⟨sid', -, a2, -, a4⟩
      · rw [hs] at h; cases h
      · rw [hl] at h; cases h
      · rw [hl] at a2; injection a2 with a2; subst a2
        rcases a4 with ⟨-, e, b1, b2⟩ | ⟨pdu, o, -, b2⟩
        · obtain ⟨t, ht⟩ := hans k q _ e b1
          exact absurd ht (b2 t)
        · exact ⟨_, pdu, by rw [e2, b2, List.append_assoc], o, by simp [wire]⟩
    · have hs1 : s1.isShutdown = false := by rw [r2.isShutdown, hs]
      obtain ⟨es, pdu, e1, o, hmem⟩ := ih s1 hs1 (fun m hm => hreq m (by simp [hm])) m hm sid (by rw [r2.sessions, hl]) hans s' hgo'
      obtain ⟨s3, g3, g4⟩ := Srv.onMbap_reacts env s c m0
      rw [r1] at g3; injection g3 with g3; subst g3
      obtain ⟨es1, e3, -⟩ := g4.events
      exact ⟨es1 ++ es, pdu, by rw [e1, e3, List.append_assoc], o, List.mem_append_right _ hmem⟩

namespace Sys

/-- What the client has still to hear on its connection are whole messages. -/
theorem Inv.clientStream {env : SysEnv W} {w : W} {v : Sys W} (h : Inv env w v) (hs : v.cli.isShutdown = false) :
    ∃ (pend : List UInt8) (D : List Mbap), Rep v.cli.parser pend ∧ (∀ m ∈ D, Ordinary m) ∧ pend ++ v.down v.conn = (D.map wire).flatten := by
  obtain ⟨mem, f1, f2⟩ := h.creach.inv.1.framed hs
  rw [List.append_nil] at f2
  obtain ⟨D, hD, hDo⟩ := h.replies v.conn
  obtain ⟨p', ms, ms', pend, h1, -, h3, h4, h5, -⟩ := feed_prefix (rep_init env.client.pol mem f1) D hDo (chunksSince v.cli.log) (v.down v.conn)
    (by rw [h.down, hD, streamOf_wire])
  rw [h1] at f2
  injection f2 with f2; injection f2 with f2 f3; subst f2
  refine ⟨pend, ms', h3, fun m hm => hDo m (by rw [h4]; exact List.mem_append_right _ hm), ?_⟩
  have e1 : (chunksSince v.cli.log).flatten ++ v.down v.conn = (D.map wire).flatten := by rw [h.down, hD]
  rw [h5, h4, streamOf_wire, List.map_append, List.flatten_append, List.append_assoc] at e1
  exact List.append_cancel_left e1

/-- A request sent just now is underway. -/
theorem Core.newly {env : SysEnv W} {w : W} {v : Sys W} (h : Core env w v) {c : Cli} {es : List CEv} (hc : Props.CReach env.client c)
    (he : c.log = v.cli.log ++ es) {r : PendingReq} (hr : c.current = some r) (hs : r.uid ∈ sentUids es) {p : Parser}
    (hl : v.srv.listeners.lookup (2 * v.conn) = some p) : Underway Request p (v.up v.conn ++ sentBytes es) r.unit r.tid := by
  obtain ⟨rest, r1, r2, r3⟩ := h.up v.conn
  obtain ⟨pend, q1, q2⟩ := r3 p hl
  have hes : ∀ e ∈ es, e ∈ c.log := fun e hm => by rw [he]; exact List.mem_append_right _ hm
  obtain ⟨ms, m1, m2⟩ := sent_messages hc v.conn es hes
  obtain ⟨b, t, hb⟩ := mem_sentUids.1 hs
  have hbm : b ∈ ms.map wire := by
    rw [← m1]
    exact List.mem_map.2 ⟨(r.uid, b), mem_requestsOn.2 ⟨t, List.mem_map_of_mem hb⟩, rfl⟩
  obtain ⟨m, hm, hmb⟩ := List.mem_map.1 hbm
  obtain ⟨m', unit, k, q, tmo, a1, a2, a3, a4, a5, -⟩ := sent_request hc (List.append_nil _).symm (hes _ hb)
  have hmm : m = m' := wire_inj (m2 m hm).1 a2 (by rw [hmb, a1])
  subst hmm
  obtain ⟨c1, -, c3⟩ := hc.inv.1.known r (by simp [hr])
  refine ⟨pend, rest ++ ms, m, q1, ?_, ?_, List.mem_append_right _ hm, ?_, by rw [a5, c3]⟩
  · intro x hx
    rcases List.mem_append.1 hx with hx | hx
    · exact r2 x (List.mem_append_right _ hx)
    · exact m2 x hx
  · rw [← List.append_assoc, q2, sentBytes_pairs v.conn, m1]; simp
  · rw [a4]; exact (Cli.calls_unique hc.inv.1 a3 c1).1

/-- The newest request is on its way to the server, or its answer on its way back. -/
def Tracked (n0 : Nat) (R : UInt8 → Prop) (v : Sys W) : Prop := ∀ r p, v.cli.current = some r → n0 ≤ r.uid → R r.unit →
  v.srv.listeners.lookup (2 * v.conn) = some p →
  Underway Request p (v.up v.conn) r.unit r.tid ∨ Underway Ordinary v.cli.parser (v.down v.conn) r.unit r.tid

/-- The units for which a session is registered that always answers. -/
def Served (env : SysEnv W) (v : Sys W) (unit : UInt8) : Prop := ∃ s, v.srv.sessions.lookup unit = some s ∧ Talks env.server s

theorem Tracked.own {env : SysEnv W} {w : W} {n0 : Nat} {R : UInt8 → Prop} {v v' : Sys W} (hi : Inv env w v) (h : Tracked n0 R v) {op : Cli.Op}
    (hop : ownClient op = true) (hs : v.clientStep env op = .ret v') : Tracked n0 R v' := by
  obtain ⟨c, hc⟩ := hi.creach.total op
  obtain ⟨es, e1, -⟩ := Cli.step_own hc hop
  rw [clientStep_eq hc e1] at hs
  injection hs with hs; subst hs
  intro r p hr hn hR hl
  simp only [if_true] at hr hl ⊢
  have hcr : Props.CReach env.client c := hi.creach.step hc
  have hpar : c.parser = v.cli.parser := Cli.step_own_parser hc hop
  rcases Cli.same_current hi.creach hcr e1 hr with ⟨r', h1, h2, h3, h4⟩ | hnew
  · rcases h r' p h1 (by omega) (by rw [h3]; exact hR) hl with hgo | hco
    · left
      obtain ⟨ms, m1, m2⟩ := sent_messages hcr v.conn es (fun e hm => by rw [e1]; exact List.mem_append_right _ hm)
      rw [sentBytes_pairs v.conn, m1, ← h3, ← h4]
      exact hgo.append ms m2
    · right; rw [hpar, ← h3, ← h4]; exact hco
  · exact Or.inl (hi.newly hcr e1 hr hnew hl)

theorem Tracked.hear {env : SysEnv W} {w : W} {n0 : Nat} {R : UInt8 → Prop} {v v' : Sys W} (hi : Inv env w v) (h : Tracked n0 R v) {n : Nat}
    (hs : v.step env (.hear n) = .ret v') : Tracked n0 R v' := by
  obtain ⟨c, hc⟩ := hi.creach.total (.receive ((v.down v.conn).take n))
  obtain ⟨es, e1, -⟩ := Cli.step_receive hc
  simp only [step] at hs
  rw [clientStep_eq (v := { v with down := fun j => if j = v.conn then (v.down v.conn).drop n else v.down j }) hc e1] at hs
  injection hs with hs; subst hs
  intro r p hr hn hR hl
  simp only [if_true] at hr hl ⊢
  have hcr : Props.CReach env.client c := hi.creach.step hc
  rcases Cli.same_current hi.creach hcr e1 hr with ⟨r', h1, h2, h3, h4⟩ | hnew
  · rcases h r' p h1 (by omega) (by rw [h3]; exact hR) hl with hgo | hco
    · left
      obtain ⟨ms, m1, m2⟩ := sent_messages hcr v.conn _ (fun e hm => by rw [e1]; exact List.mem_append_right _ hm)
      rw [sentBytes_pairs v.conn, m1, ← h3, ← h4]
      exact hgo.append ms m2
    · right
      have hrun := Cli.running_of_current hi.creach.inv.1 h1
      obtain ⟨-, pend, hrep⟩ := hi.creach.inv.1.parser
      obtain ⟨p', out, pend', hparse, -, -⟩ := Srv.parse_total hrep ((v.down v.conn).take n)
      have hce : c = Cli.onMbaps env.client { v.cli.emit (.data ((v.down v.conn).take n)) with parser := p' } out := by
        have q1 : (v.cli.emit (.data ((v.down v.conn).take n))).isShutdown = false := hrun
        have q2 : (v.cli.emit (.data ((v.down v.conn).take n))).parser.parse ((v.down v.conn).take n) = .ret (p', out) := hparse
        simp only [Cli.step, Cli.onReceive] at hc
        rw [if_neg (by rw [q1]; simp), q2] at hc
        injection hc with hc; exact hc.symm
      obtain ⟨-, hk⟩ := hco.take (fun _ => id) n hparse
      rcases hk with hk | ⟨m, hm, hu, ht⟩
      · rw [hce, Cli.onMbaps_parser, ← h3, ← h4]; exact hk
      · exfalso
        obtain ⟨d, t, hh⟩ := Cli.matched env.client out { v.cli.emit (.data ((v.down v.conn).take n)) with parser := p' } r' m hrun h1 hm ht hu
        rw [← hce, h2] at hh
        exact Cli.current_unhandled hcr.inv.1 hr (mem_handledUids.2 ⟨_, _, hh⟩)
  · exact Or.inl (hi.newly hcr e1 hr hnew hl)

theorem Tracked.server {env : SysEnv W} {n0 : Nat} {R : UInt8 → Prop} {v v' : Sys W} (h : Tracked n0 R v) {op : Srv.Op}
    (hop : ownServer op = true) (hwf : Srv.WF env.server v.srv) (hs : v.serverStep env op = .ret v') : Tracked n0 R v' := by
  obtain ⟨s, hc, -⟩ := Srv.step_total hwf op
  obtain ⟨es, e1, -, -, e4, e5⟩ := Srv.step_own hc hop
  rw [serverStep_eq hc e1] at hs
  injection hs with hs; subst hs
  intro r p hr hn hR hl
  have hrb : repliedBytes (2 * v.conn) es = [] := by
    rw [← repliesOn_srv]
    have : repliesOn v.conn (es.map XEv.srv) = [] := by
      rw [List.eq_nil_iff_forall_not_mem]
      intro m' hm'
      obtain ⟨x, hx, hx'⟩ := List.mem_map.1 (mem_repliesOn.1 hm')
      injection hx' with hx'; subst hx'
      exact e4 _ _ hx
    rw [this]; rfl
  simp only [hrb, List.append_nil]
  exact h r p hr hn hR (e5 _ _ hl)

theorem Tracked.arrive {env : SysEnv W} {w : W} {n0 : Nat} {R : UInt8 → Prop} {v v' : Sys W} (hi : Inv env w v) (h : Tracked n0 R v) {i n : Nat}
    (hrun : v.srv.isShutdown = false) (hserved : ∀ unit, R unit → Served env v unit)
    (hs : v.step env (.arrive i n) = .ret v') : Tracked n0 R v' := by
  obtain ⟨v2, hs2, hi'⟩ := hi.arrive i n
  rw [hs] at hs2; injection hs2 with hs2; subst hs2
  simp only [step] at hs
  cases hl : v.srv.listeners.lookup (2 * i) with
  | none =>
    have hc : v.srv.step env.server (.receive (2 * i) ((v.up i).take n)) = .ret v.srv := by simp only [Srv.step, hl]
    rw [serverStep_eq (v := { v with up := fun j => if j = i then (v.up i).drop n else v.up j }) hc (es := []) (by simp)] at hs
    injection hs with hs; subst hs
    intro r p hr hn hR hl'
    simp only at hr hl'
    have hne : v.conn ≠ i := by intro he; rw [he, hl] at hl'; cases hl'
    simp only [if_neg hne, repliedBytes, List.append_nil]
    exact h r p hr hn hR hl'
  | some p =>
    obtain ⟨rest, r1, r2, r3⟩ := hi.up i
    obtain ⟨pend, g1, g2⟩ := r3 p hl
    obtain ⟨p', ms, pend', k1, -, -⟩ := Srv.parse_total g1 ((v.up i).take n)
    obtain ⟨s', d1, d2⟩ := Srv.onMbaps_reacts env.server (2 * i) ms { v.srv with listeners := Srv.setListener v.srv.listeners (2 * i) p' }
    obtain ⟨es, d3, -⟩ := d2.events
    have hc : v.srv.step env.server (.receive (2 * i) ((v.up i).take n)) = .ret s' := by
      simp only [Srv.step, hl, k1, CM.ret_bind, d1]
    rw [serverStep_eq (v := { v with up := fun j => if j = i then (v.up i).drop n else v.up j }) hc d3] at hs
    injection hs with hs; subst hs
    -- the new replies on the client's connection
    obtain ⟨D2, hD2, hD2o⟩ : ∃ D2 : List Mbap, repliesOn v.conn (es.map .srv) = D2.map wire ∧ ∀ m ∈ D2, Ordinary m := by
      obtain ⟨D, hD, hDo⟩ := hi'.replies v.conn
      simp only [repliesOn_append] at hD
      obtain ⟨D1, D2, h1, h2, h3⟩ := List.map_eq_append_iff.1 hD.symm
      exact ⟨D2, h3.symm, fun m hm => hDo m (by rw [h1]; exact List.mem_append_right _ hm)⟩
    have hrb : repliedBytes (2 * v.conn) es = (D2.map wire).flatten := by rw [← repliesOn_srv, hD2]
    intro r q hr hn hR hl'
    simp only [d2.same.listeners] at hr hl' ⊢
    rw [hrb]
    by_cases hne : v.conn = i
    · subst hne
      rw [Srv.lookup_setListener_same _ _ p _ hl] at hl'
      injection hl' with hl'; subst hl'
      simp only [if_true]
      rcases h r p hr hn hR hl with hgo | hco
      · obtain ⟨o1, o2⟩ := hgo.take (fun m hm => hm.1) n k1
        rcases o2 with o2 | ⟨m, hm, hu, ht⟩
        · exact Or.inl o2
        · right
          obtain ⟨sid, s1, s2⟩ := hserved r.unit hR
          obtain ⟨es', pdu, e1, o, hmem⟩ := serve_replies env.server (2 * v.conn) ms
            { v.srv with listeners := Srv.setListener v.srv.listeners (2 * v.conn) p' } hrun o1 m hm sid (by rw [hu]; exact s1) s2 s' d1
          rw [d3] at e1
          have := List.append_cancel_left e1
          subst this
          have hin : wire ⟨m.unit, m.tid, pdu⟩ ∈ D2.map wire := by
            rw [← hD2]; exact mem_repliesOn.2 (List.mem_map_of_mem hmem)
          obtain ⟨m2, hm2, hw2⟩ := List.mem_map.1 hin
          have := wire_inj (hD2o m2 hm2) o hw2
          subst this
          obtain ⟨pend3, D, c1, c2, c3⟩ := hi.clientStream (Cli.running_of_current hi.creach.inv.1 hr)
          refine ⟨pend3, D ++ D2, _, c1, ?_, ?_, List.mem_append_right _ hm2, hu, ht⟩
          · intro x hx
            rcases List.mem_append.1 hx with hx | hx
            · exact c2 x hx
            · exact hD2o x hx
          · rw [← List.append_assoc, c3]; simp
      · exact Or.inr (hco.append D2 hD2o)
    · rw [Srv.lookup_setListener_other _ _ _ _ (fun h => hne (conn_inj h).symm)] at hl'
      simp only [if_neg hne]
      rcases h r q hr hn hR hl' with hgo | hco
      · exact Or.inl hgo
      · exact Or.inr (hco.append D2 hD2o)

/-- A step of the server does not end what is tracked, as long as it runs. -/
theorem step_server {env : SysEnv W} {v v' : Sys W} {op : Op} (hs : v.step env op = .ret v') :
    v'.srv = v.srv ∨ ∃ sop, v.srv.step env.server sop = .ret v'.srv := by
  have hcli : ∀ {v v' : Sys W} {op : Cli.Op}, v.clientStep env op = .ret v' → v'.srv = v.srv := by
    intro v v' op h
    simp only [clientStep] at h
    cases hc : v.cli.step env.client op with
    | ub => rw [hc] at h; cases h
    | ret c => rw [hc] at h; injection h with h; subst h; rfl
  have hsrv : ∀ {v v' : Sys W} {op : Srv.Op}, v.serverStep env op = .ret v' → v.srv.step env.server op = .ret v'.srv := by
    intro v v' op h
    simp only [serverStep] at h
    cases hc : v.srv.step env.server op with
    | ub => rw [hc] at h; cases h
    | ret c => rw [hc] at h; injection h with h; subst h; rfl
  cases op with
  | client op =>
    simp only [step] at hs
    split at hs
    · exact Or.inl (hcli hs)
    · injection hs with hs; subst hs; exact Or.inl rfl
  | server op =>
    simp only [step] at hs
    split at hs
    · exact Or.inr ⟨op, hsrv hs⟩
    · injection hs with hs; subst hs; exact Or.inl rfl
  | arrive i n => simp only [step] at hs; have h := hsrv hs; exact Or.inr ⟨_, h⟩
  | hear n => simp only [step] at hs; have h := hcli hs; exact Or.inl h
  | reconnect mem =>
    simp only [step] at hs
    cases hc : v.clientStep env .error with
    | ub => rw [hc] at hs; cases hs
    | ret v1 =>
      rw [hc] at hs
      have h1 := hcli hc
      have h2 := hsrv hs
      simp only [h1] at h2
      exact Or.inr ⟨_, h2⟩

theorem step_running {env : SysEnv W} {v v' : Sys W} {op : Op} (hs : v.step env op = .ret v') (h : v'.srv.isShutdown = false) :
    v.srv.isShutdown = false := by
  rcases step_server hs with h1 | ⟨sop, h1⟩
  · rw [← h1]; exact h
  · exact Srv.running_before h1 h

theorem run_running {env : SysEnv W} (ops : List Op) : ∀ {v v' : Sys W}, v.run env ops = .ret v' → v'.srv.isShutdown = false →
    v.srv.isShutdown = false := by
  induction ops with
  | nil => intro v v' h hr; injection h with h; subst h; exact hr
  | cons op ops ih =>
    intro v v' h hr
    simp only [run] at h
    cases hs : v.step env op with
    | ub => rw [hs] at h; cases h
    | ret v1 => rw [hs] at h; exact step_running hs (ih h hr)

theorem Served.step {env : SysEnv W} {v v' : Sys W} {op : Op} (hs : v.step env op = .ret v') (hr : v'.srv.isShutdown = false) {unit : UInt8}
    (h : Served env v unit) : Served env v' unit := by
  obtain ⟨s, h1, h2⟩ := h
  refine ⟨s, ?_, h2⟩
  rcases step_server hs with h3 | ⟨sop, h3⟩
  · rw [h3]; exact h1
  · exact Srv.lookup_stays h3 hr h1

theorem Tracked.step {env : SysEnv W} {w : W} {n0 : Nat} {R : UInt8 → Prop} {v v' : Sys W} (hi : Inv env w v) (h : Tracked n0 R v) {op : Op}
    (hrun : v.srv.isShutdown = false) (hserved : ∀ unit, R unit → Served env v unit) (hs : v.step env op = .ret v') : Tracked n0 R v' := by
  cases op with
  | client op =>
    by_cases hop : ownClient op = true
    · simp only [Sys.step, hop, if_true] at hs; exact h.own hi hop hs
    · simp only [Sys.step, hop] at hs; injection hs with hs; subst hs; exact h
  | server op =>
    by_cases hop : ownServer op = true
    · simp only [Sys.step, hop, if_true] at hs; exact h.server hop hi.sreach.wf hs
    · simp only [Sys.step, hop] at hs; injection hs with hs; subst hs; exact h
  | arrive i n => exact h.arrive hi hrun hserved hs
  | hear n => exact h.hear hi hs
  | reconnect mem =>
    obtain ⟨c, hc⟩ := hi.creach.total .error
    obtain ⟨es, e1, e2, -⟩ := Cli.step_error hi.creach hc
    simp only [Sys.step, clientStep_eq hc e1, CM.ret_bind] at hs
    intro r p hr
    exfalso
    simp only [serverStep] at hs
    cases hx : v.srv.step env.server (.opened (2 * (v.conn + 1)) mem) with
    | ub => rw [hx] at hs; cases hs
    | ret x =>
      rw [hx] at hs
      injection hs with hs; subst hs
      simp only [e2] at hr
      cases hr

theorem Tracked.run {env : SysEnv W} {w : W} {n0 : Nat} {R : UInt8 → Prop} (ops : List Op) : ∀ {v v' : Sys W}, Inv env w v → Tracked n0 R v →
    (∀ unit, R unit → Served env v unit) → v.run env ops = .ret v' → v'.srv.isShutdown = false →
    Inv env w v' ∧ Tracked n0 R v' ∧ ∀ unit, R unit → Served env v' unit := by
  induction ops with
  | nil => intro v v' hi h hs hr _; injection hr with hr; subst hr; exact ⟨hi, h, hs⟩
  | cons op ops ih =>
    intro v v' hi h hs hr hrun
    simp only [Sys.run] at hr
    cases h1 : v.step env op with
    | ub => rw [h1] at hr; cases hr
    | ret v1 =>
      rw [h1] at hr
      have hr : v1.run env ops = .ret v' := hr
      have hrun1 := run_running ops hr hrun
      obtain ⟨v2, h2, hi1⟩ := hi.step op
      rw [h1] at h2; injection h2 with h2; subst h2
      exact ih hi1 (h.step hi (step_running h1 hrun1) hs h1) (fun unit hu => (hs unit hu).step h1 hrun1) hr hrun

theorem run_append (env : SysEnv W) (a b : List Op) : ∀ v : Sys W, v.run env (a ++ b) = (v.run env a >>= fun v' => v'.run env b) := by
  induction a with
  | nil => intro v; rfl
  | cons op a ih =>
    intro v
    simp only [List.cons_append, run]
    cases v.step env op with
    | ub => rfl
    | ret v1 => exact ih v1

/-- Both sides run, the client's connection is alive at the server, and the current request is tracked. -/
structure Live (env : SysEnv W) (w : W) (n0 : Nat) (R : UInt8 → Prop) (v : Sys W) : Prop where
  inv : Inv env w v
  tracked : Tracked n0 R v
  served : ∀ unit, R unit → Served env v unit
  server : v.srv.isShutdown = false
  client : v.cli.isShutdown = false
  alive : ∃ p, v.srv.listeners.lookup (2 * v.conn) = some p

/-- Delivering what is on its way to the server and back completes the current request. -/
theorem Live.round {env : SysEnv W} {w : W} {n0 : Nat} {R : UInt8 → Prop} {v : Sys W} (h : Live env w n0 R v) {r : PendingReq}
    (hr : v.cli.current = some r) (hn : n0 ≤ r.uid) (hR : R r.unit) : ∃ n1 n2 v', v.run env [.arrive v.conn n1, .hear n2] = .ret v' ∧
      Live env w n0 R v' ∧ v'.conn = v.conn ∧ (∃ es, v'.cli.log = v.cli.log ++ es) ∧ ∃ l, l ≠ [] ∧ v.cli.queue = l ++ v'.cli.queue ∧
      ∀ r ∈ l, ∃ d t, CEv.handler r.uid (.ok d) t ∈ v'.cli.log := by
  obtain ⟨p, hl⟩ := h.alive
  -- the server receives everything
  obtain ⟨v1, hs1, hi1⟩ := h.inv.arrive v.conn (v.up v.conn).length
  have htr1 := h.tracked.arrive h.inv h.server h.served hs1
  obtain ⟨a1, a2, a3, a4, a5⟩ : v1.cli = v.cli ∧ v1.conn = v.conn ∧ v1.up v.conn = [] ∧ (∃ p, v1.srv.listeners.lookup (2 * v.conn) = some p) ∧
      v1.srv.isShutdown = false := by
    have hs := hs1
    simp only [step] at hs
    obtain ⟨rest, r1, r2, r3⟩ := h.inv.up v.conn
    obtain ⟨pend, g1, g2⟩ := r3 p hl
    obtain ⟨p', ms, pend', k1, -, -⟩ := Srv.parse_total g1 ((v.up v.conn).take (v.up v.conn).length)
    obtain ⟨s', d1, d2⟩ := Srv.onMbaps_reacts env.server (2 * v.conn) ms { v.srv with listeners := Srv.setListener v.srv.listeners (2 * v.conn) p' }
    obtain ⟨es, d3, -⟩ := d2.events
    have hc : v.srv.step env.server (.receive (2 * v.conn) ((v.up v.conn).take (v.up v.conn).length)) = .ret s' := by
      simp only [Srv.step, hl, k1, CM.ret_bind, d1]
    rw [serverStep_eq (v := { v with up := fun j => if j = v.conn then (v.up v.conn).drop (v.up v.conn).length else v.up j }) hc d3] at hs
    injection hs with hs; subst hs
    refine ⟨rfl, rfl, by simp, ⟨p', ?_⟩, ?_⟩
    · simp only [d2.same.listeners]
      exact Srv.lookup_setListener_same _ _ p _ hl
    · simp only [d2.same.isShutdown]; exact h.server
  have hserved1 : ∀ unit, R unit → Served env v1 unit := fun unit hu => (h.served unit hu).step hs1 a5
  obtain ⟨p1, hl1⟩ := a4
  have hco : Underway Ordinary v1.cli.parser (v1.down v1.conn) r.unit r.tid := by
    rcases htr1 r p1 (by rw [a1]; exact hr) hn hR (by rw [a2]; exact hl1) with hgo | hco
    · rw [a2, a3] at hgo
      exact absurd hgo (Underway.ne_nil fun m hm => hm.1)
    · exact hco
  -- the client hears everything
  obtain ⟨v2, hs2, hi2⟩ := hi1.hear (v1.down v1.conn).length
  have htr2 := htr1.hear hi1 hs2
  have hrun1 : v1.cli.isShutdown = false := by rw [a1]; exact h.client
  obtain ⟨-, pend, hrep⟩ := hi1.creach.inv.1.parser
  obtain ⟨p', out, pend', hparse, -, -⟩ := Srv.parse_total hrep ((v1.down v1.conn).take (v1.down v1.conn).length)
  have hce : v1.cli.step env.client (.receive ((v1.down v1.conn).take (v1.down v1.conn).length)) =
      .ret (Cli.onMbaps env.client { v1.cli.emit (.data ((v1.down v1.conn).take (v1.down v1.conn).length)) with parser := p' } out) := by
    have q1 : (v1.cli.emit (.data ((v1.down v1.conn).take (v1.down v1.conn).length))).isShutdown = false := hrun1
    have q2 : (v1.cli.emit (.data ((v1.down v1.conn).take (v1.down v1.conn).length))).parser.parse ((v1.down v1.conn).take (v1.down v1.conn).length)
        = .ret (p', out) := hparse
    simp only [Cli.step, Cli.onReceive]
    rw [if_neg (by rw [q1]; simp), q2]
    rfl
  obtain ⟨es, e1, -⟩ := Cli.step_receive hce
  have hs2' := hs2
  simp only [step] at hs2'
  rw [clientStep_eq (v := { v1 with down := fun j => if j = v1.conn then (v1.down v1.conn).drop (v1.down v1.conn).length else v1.down j }) hce e1]
    at hs2'
  injection hs2' with hs2'
  obtain ⟨l, q1, q2⟩ := Cli.onMbaps_queue env.client out
    { v1.cli.emit (.data ((v1.down v1.conn).take (v1.down v1.conn).length)) with parser := p' }
  have hvc : v2.cli = Cli.onMbaps env.client { v1.cli.emit (.data ((v1.down v1.conn).take (v1.down v1.conn).length)) with parser := p' } out := by
    rw [← hs2']
  rw [← hvc] at q1 q2
  have hq0 : Cli.queue { v1.cli.emit (.data ((v1.down v1.conn).take (v1.down v1.conn).length)) with parser := p' } = v.cli.queue := by
    rw [← a1]; rfl
  rw [hq0] at q1
  refine ⟨(v.up v.conn).length, (v1.down v1.conn).length, v2, ?_, ?_, ?_, ⟨.data ((v1.down v1.conn).take (v1.down v1.conn).length) :: es, ?_⟩, l, ?_, q1, q2⟩
  · simp only [run, hs1, hs2, CM.ret_bind]
  · have hsrv : v2.srv = v1.srv := by rw [← hs2']
    have hcon : v2.conn = v1.conn := by rw [← hs2']
    refine ⟨hi2, htr2, ?_, by rw [hsrv]; exact a5, ?_, ⟨p1, by rw [hsrv, hcon, a2]; exact hl1⟩⟩
    · intro unit hu
      obtain ⟨s, c1, c2⟩ := hserved1 unit hu
      exact ⟨s, by rw [hsrv]; exact c1, c2⟩
    · rw [hvc]
      have : ∀ (ms : List Mbap) (a : Cli), (a.onMbaps env.client ms).isShutdown = a.isShutdown := by
        intro ms
        induction ms with
        | nil => intro a; rfl
        | cons m ms ih => intro a; exact (ih _).trans (Cli.onMbap_isShutdown env.client a m)
      rw [this]; exact hrun1
  · rw [← a2, ← hs2']
  · rw [hvc, e1, a1]
  · rintro rfl
    obtain ⟨-, hk⟩ := hco.take (fun _ => id) _ hparse
    rw [List.drop_length] at hk
    rcases hk with hk | ⟨m, hm, hu, ht⟩
    · exact Underway.ne_nil (fun _ => id) hk
    · obtain ⟨d, t, hh⟩ := Cli.matched env.client out { v1.cli.emit (.data ((v1.down v1.conn).take (v1.down v1.conn).length)) with parser := p' }
        r m hrun1 (by show v1.cli.current = some r; rw [a1]; exact hr) hm ht hu
      rw [← hvc] at hh
      have hin : r ∈ v2.cli.queue := by
        rw [List.nil_append] at q1
        rw [← q1]; simp [Cli.queue, hr]
      have hhd : r.uid ∈ handledUids v2.cli.log := mem_handledUids.2 ⟨_, _, hh⟩
      have hone := hi2.creach.inv.1.once r.uid
      have hc1 := List.count_pos_iff.2 hhd
      have hc2 : 1 ≤ v2.cli.curUids.count r.uid + v2.cli.pendUids.count r.uid := by
        rcases List.mem_append.1 hin with hin | hin
        · have : r.uid ∈ v2.cli.curUids := by
            cases hcur : v2.cli.current with
            | none => rw [hcur] at hin; cases hin
            | some x => rw [hcur] at hin; simp at hin; simp [Cli.curUids, hcur, hin]
          have := List.count_pos_iff.2 this; omega
        · have : r.uid ∈ v2.cli.pendUids := List.mem_map.2 ⟨r, hin, rfl⟩
          have := List.count_pos_iff.2 this; omega
      omega

/-- Everything that waits is completed, if the network delivers. -/
theorem Live.drain {env : SysEnv W} {w : W} {n0 : Nat} {R : UInt8 → Prop} : ∀ (n : Nat) {v : Sys W}, Live env w n0 R v → v.cli.queue.length ≤ n →
    (∀ r ∈ v.cli.queue, n0 ≤ r.uid ∧ R r.unit) →
    ∃ ops v', (∀ op ∈ ops, (∃ k, op = Op.arrive v.conn k) ∨ ∃ k, op = Op.hear k) ∧ v.run env ops = .ret v' ∧ Live env w n0 R v' ∧
      v'.cli.queue = [] ∧ (∃ es, v'.cli.log = v.cli.log ++ es) ∧ ∀ r ∈ v.cli.queue, ∃ d t, CEv.handler r.uid (.ok d) t ∈ v'.cli.log := by
  intro n
  induction n with
  | zero =>
    intro v h hn _
    have : v.cli.queue = [] := List.length_eq_zero_iff.1 (by omega)
    exact ⟨[], v, by simp, rfl, h, this, ⟨[], by simp⟩, by rw [this]; simp⟩
  | succ n ih =>
    intro v h hn hq
    cases hc : v.cli.current with
    | none =>
      have hp : v.cli.pending = [] := by
        exact h.inv.creach.inv.2 hc
      have : v.cli.queue = [] := by simp [Cli.queue, hc, hp]
      exact ⟨[], v, by simp, rfl, h, this, ⟨[], by simp⟩, by rw [this]; simp⟩
    | some r =>
      obtain ⟨h1, h2⟩ := hq r (by simp [Cli.queue, hc])
      obtain ⟨n1, n2, v1, g1, g2, g3, ⟨es, g4⟩, l, g5, g6, g7⟩ := h.round hc h1 h2
      have hlen : v1.cli.queue.length ≤ n := by
        have := congrArg List.length g6
        rw [List.length_append] at this
        have := List.length_pos_iff.2 g5
        omega
      obtain ⟨ops, v2, k1, k2, k3, k4, ⟨es', k5⟩, k6⟩ := ih g2 hlen (fun r hr => hq r (by rw [g6]; exact List.mem_append_right _ hr))
      refine ⟨[.arrive v.conn n1, .hear n2] ++ ops, v2, ?_, ?_, k3, k4, ⟨es ++ es', by rw [k5, g4, List.append_assoc]⟩, ?_⟩
      · intro op hop
        rcases List.mem_append.1 hop with hop | hop
        · rcases List.mem_cons.1 hop with rfl | hop
          · exact Or.inl ⟨_, rfl⟩
          · rw [List.mem_singleton.1 hop]; exact Or.inr ⟨_, rfl⟩
        · rw [← g3]; exact k1 op hop
      · rw [run_append, g1]; exact k2
      · intro r hr
        rw [g6] at hr
        rcases List.mem_append.1 hr with hr | hr
        · obtain ⟨d, t, hh⟩ := g7 r hr
          exact ⟨d, t, by rw [k5]; exact List.mem_append_left _ hh⟩
        · exact k6 r hr

end Sys

end Modbus
