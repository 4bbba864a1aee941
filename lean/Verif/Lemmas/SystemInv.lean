import Verif.Lemmas.System

/-! The invariant of client and server together. -/

namespace Modbus

open Spec

variable {W : Type}

/-! ### Views of the log -/

theorem cliLog_append (a b : List XEv) : cliLog (a ++ b) = cliLog a ++ cliLog b := by simp [cliLog]
theorem srvLog_append (a b : List XEv) : srvLog (a ++ b) = srvLog a ++ srvLog b := by simp [srvLog]
theorem requestsOn_append (i : Nat) (a b : List XEv) : requestsOn i (a ++ b) = requestsOn i a ++ requestsOn i b := by simp [requestsOn]
theorem takenFrom_append (i : Nat) (a b : List XEv) : takenFrom i (a ++ b) = takenFrom i a ++ takenFrom i b := by simp [takenFrom]
theorem repliesOn_append (i : Nat) (a b : List XEv) : repliesOn i (a ++ b) = repliesOn i a ++ repliesOn i b := by simp [repliesOn]

theorem replay_append (f : SessId → (k : Kind) → Req k → W → W × Expected (Resp k)) (w : W) (a b : List XEv) :
    replay f w (a ++ b) = replay f (replay f w a) b := by simp [replay]

theorem cliLog_cli (i : Nat) (es : List CEv) : cliLog (es.map (.cli i)) = es := by
  induction es with
  | nil => rfl
  | cons e es ih => simp only [cliLog, List.map_cons, List.filterMap_cons]; exact congrArg _ ih

theorem cliLog_srv (es : List SEv) : cliLog (es.map .srv) = [] := by
  simp [cliLog, List.filterMap_map, List.filterMap_eq_nil_iff]

theorem srvLog_cli (i : Nat) (es : List CEv) : srvLog (es.map (.cli i)) = [] := by
  simp [srvLog, List.filterMap_map, List.filterMap_eq_nil_iff]

theorem srvLog_srv (es : List SEv) : srvLog (es.map .srv) = es := by
  induction es with
  | nil => rfl
  | cons e es ih => simp only [srvLog, List.map_cons, List.filterMap_cons]; exact congrArg _ ih

theorem requestsOn_srv (i : Nat) (es : List SEv) : requestsOn i (es.map .srv) = [] := by
  simp [requestsOn, List.filterMap_map, List.filterMap_eq_nil_iff]

theorem takenFrom_cli (i j : Nat) (es : List CEv) : takenFrom i (es.map (.cli j)) = [] := by
  simp [takenFrom, List.filterMap_map, List.filterMap_eq_nil_iff]

theorem repliesOn_cli (i j : Nat) (es : List CEv) : repliesOn i (es.map (.cli j)) = [] := by
  simp [repliesOn, List.filterMap_map, List.filterMap_eq_nil_iff]

theorem replay_cli (f : SessId → (k : Kind) → Req k → W → W × Expected (Resp k)) (w : W) (j : Nat) (es : List CEv) :
    replay f w (es.map (.cli j)) = w := by
  induction es generalizing w with
  | nil => rfl
  | cons e es ih => simp only [replay, List.map_cons, List.foldl_cons]; exact ih w

theorem requestsOn_other {i j : Nat} (h : j ≠ i) (es : List CEv) : requestsOn i (es.map (.cli j)) = [] := by
  simp only [requestsOn, List.filterMap_map, List.filterMap_eq_nil_iff]
  intro e _
  cases e <;> simp [h]

theorem mem_cliLog {l : List XEv} {e : CEv} : e ∈ cliLog l ↔ ∃ i, XEv.cli i e ∈ l := by
  simp only [cliLog, List.mem_filterMap]
  constructor
  · rintro ⟨x, hx, h⟩
    cases x with
    | cli i e' => injection h with h; subst h; exact ⟨i, hx⟩
    | srv _ => cases h
  · rintro ⟨i, hi⟩; exact ⟨_, hi, rfl⟩

theorem mem_requestsOn {l : List XEv} {i u : Nat} {b : List UInt8} : (u, b) ∈ requestsOn i l ↔ ∃ t, XEv.cli i (.sent u b t) ∈ l := by
  simp only [requestsOn, List.mem_filterMap]
  constructor
  · rintro ⟨x, hx, h⟩
    cases x with
    | srv _ => cases h
    | cli j e =>
      cases e with
      | sent u' b' t' =>
        simp only at h
        split at h
        · injection h with h; injection h with h1 h2; subst_vars; exact ⟨_, hx⟩
        · cases h
      | _ => cases h
  · rintro ⟨t, ht⟩; exact ⟨_, ht, by simp⟩

theorem mem_repliesOn {l : List XEv} {i : Nat} {b : List UInt8} : b ∈ repliesOn i l ↔ XEv.srv (.send (2 * i) b) ∈ l := by
  simp only [repliesOn, List.mem_filterMap]
  constructor
  · rintro ⟨x, hx, h⟩
    cases x with
    | cli _ _ => cases h
    | srv e =>
      cases e with
      | send c b' =>
        simp only at h
        split at h
        · injection h with h; subst_vars; exact hx
        · cases h
      | _ => cases h
  · intro h; exact ⟨_, h, by simp⟩

theorem mem_takenFrom {l : List XEv} {i : Nat} {m : Mbap} : m ∈ takenFrom i l ↔ XEv.srv (.mbap (2 * i) m) ∈ l := by
  simp only [takenFrom, List.mem_filterMap]
  constructor
  · rintro ⟨x, hx, h⟩
    cases x with
    | cli _ _ => cases h
    | srv e =>
      cases e with
      | mbap c m' =>
        simp only at h
        split at h
        · injection h with h; subst_vars; exact hx
        · cases h
      | _ => cases h
  · intro h; exact ⟨_, h, by simp⟩

theorem repliesOn_srv (i : Nat) (es : List SEv) : (repliesOn i (es.map .srv)).flatten = Sys.repliedBytes (2 * i) es := by
  induction es with
  | nil => rfl
  | cons e es ih =>
    simp only [repliesOn, List.map_cons, List.filterMap_cons] at ih ⊢
    cases e with
    | send c b =>
      simp only [Sys.repliedBytes]
      by_cases hc : c = 2 * i
      · simp only [hc, if_true, List.flatten_cons, ih]
      · simp only [hc, if_false, ih]
    | _ => exact ih

/-- The bytes of the frame carrying a message. -/
def wire (m : Mbap) : List UInt8 := (frameOf m).bytes

theorem streamOf_wire (ms : List Mbap) : streamOf (ms.map frameOf) = (ms.map wire).flatten := by
  simp only [streamOf, List.flatMap_def, List.map_map]
  rfl

/-- Different messages have different frames. -/
theorem wire_inj {m m' : Mbap} (h : Ordinary m) (h' : Ordinary m') (he : wire m = wire m') : m = m' := by
  have e : (frameOf m).bytes ++ [] = (frameOf m').bytes ++ [] := by simpa [wire] using he
  obtain ⟨h1, -⟩ := frame_prefix_unique h.complete h'.complete e
  have : (frameOf m).message = (frameOf m').message := by rw [h1]
  exact this

theorem sentBytes_pairs (i : Nat) (es : List CEv) : Sys.sentBytes es = ((requestsOn i (es.map (.cli i))).map (·.2)).flatten := by
  induction es with
  | nil => rfl
  | cons e es ih =>
    simp only [requestsOn, List.map_cons, List.filterMap_cons] at ih ⊢
    cases e with
    | sent u b t => simp only [Sys.sentBytes, if_true, List.map_cons, List.flatten_cons, ih]
    | _ => exact ih

theorem conn_ne {c : ConnId} (h : c % 2 = 1) (i : Nat) : c ≠ 2 * i := by
  have aux : ∀ c : Nat, c % 2 = 1 → c ≠ 2 * i := by intro c h; omega
  exact aux c h

theorem conn_inj {i j : Nat} (h : (2 * i : ConnId) = 2 * j) : i = j := by
  have aux : ∀ a b : Nat, a = 2 * i → b = 2 * j → a = b → i = j := by intro a b h1 h2 h3; omega
  exact aux _ _ rfl rfl h

/-! ### The invariant -/

/-- What justifies an event, given what happened before. -/
def XJust (env : SysEnv W) (w : W) (l : List XEv) : XEv → Prop
  | .srv (.mbap c m) => ∀ i, c = 2 * i → (takenFrom i l ++ [m]).map wire <+: (requestsOn i l).map (·.2)
  | .srv (.request _ k q) => ∃ l0 c m, l = l0 ++ [.srv (.mbap c m)] ∧ Denotes k m.data q
  | .srv (.send c b) => ∀ i, c = 2 * i → ∃ l0 m s k q pdu, l = l0 ++ [.srv (.mbap c m), .srv (.request s k q)] ∧
      Ordinary m ∧ Denotes k m.data q ∧ ReplyPdu k (env.server.onRequest s k q (replay env.server.onRequest w l0)).2 pdu ∧
      Ordinary ⟨m.unit, m.tid, pdu⟩ ∧ b = wire ⟨m.unit, m.tid, pdu⟩
  | .cli i (.mbap m) => ∃ D : List Mbap, repliesOn i l = D.map wire ∧ (∀ m ∈ D, Ordinary m) ∧ messagesSince (cliLog l) ++ [m] <+: D
  | .cli i (.handler u (.ok d) _) => ∃ l0 m b, l = l0 ++ [.cli i (.mbap m)] ∧ m.data = d ∧ (u, b) ∈ requestsOn i l0
  | _ => True

/-- Every event of the log was justified when it happened. -/
inductive XLogged (env : SysEnv W) (w : W) : List XEv → Prop where
  | nil : XLogged env w []
  | snoc {l : List XEv} {e : XEv} : XLogged env w l → XJust env w l e → XLogged env w (l ++ [e])

theorem XLogged.at {env : SysEnv W} {w : W} {l : List XEv} (h : XLogged env w l) :
    ∀ {l1 l2 : List XEv} {e : XEv}, l = l1 ++ e :: l2 → XJust env w l1 e := by
  induction h with
  | nil => intro l1 l2 e h; simp at h
  | @snoc l e' hl hj ih =>
    intro l1 l2 e h
    rcases List.eq_nil_or_concat l2 with rfl | ⟨l3, x, rfl⟩
    · obtain ⟨rfl, h2⟩ := List.append_inj' h rfl
      injection h2 with h2; subst h2; exact hj
    · have h' : l ++ [e'] = (l1 ++ e :: l3) ++ [x] := by rw [h]; simp
      obtain ⟨h1, -⟩ := List.append_inj' h' rfl
      exact ih h1

theorem XLogged.append {env : SysEnv W} {w : W} {l : List XEv} (h : XLogged env w l) (es : List XEv)
    (hj : ∀ es1 e es2, es = es1 ++ e :: es2 → XJust env w (l ++ es1) e) : XLogged env w (l ++ es) := by
  induction es using List.reverseRecOn with
  | nil => simpa using h
  | append_singleton es e ih =>
    rw [← List.append_assoc]
    refine .snoc (ih fun es1 e' es2 he => hj es1 e' (es2 ++ [e]) (by rw [he]; simp)) (hj es e [] rfl)

/-- A message carrying a request. -/
def Request (m : Mbap) : Prop := Ordinary m ∧ ∃ k q, Denotes k m.data q

/-- What always holds, apart from the client's receiving end. -/
structure Sys.Core (env : SysEnv W) (w : W) (v : Sys W) : Prop where
  cliLog : Spec.cliLog v.log = v.cli.log
  srvLog : Spec.srvLog v.log = v.srv.log
  creach : Props.CReach env.client v.cli
  sreach : Props.SReach env.server v.srv
  world : v.srv.world = replay env.server.onRequest w v.log
  fresh : ∀ i, v.conn < i → v.srv.listeners.lookup (2 * i) = none ∧ v.up i = [] ∧ v.down i = [] ∧ takenFrom i v.log = [] ∧
    repliesOn i v.log = [] ∧ requestsOn i v.log = []
  up : ∀ i, ∃ rest : List Mbap, (requestsOn i v.log).map (·.2) = (takenFrom i v.log ++ rest).map wire ∧
    (∀ m ∈ takenFrom i v.log ++ rest, Request m) ∧
    ∀ p, v.srv.listeners.lookup (2 * i) = some p → ∃ pend, Rep p pend ∧ pend ++ v.up i = (rest.map wire).flatten
  just : XLogged env w v.log

/-- What always holds. -/
structure Sys.Inv (env : SysEnv W) (w : W) (v : Sys W) : Prop extends Sys.Core env w v where
  down : (chunksSince v.cli.log).flatten ++ v.down v.conn = (repliesOn v.conn v.log).flatten
  cur : ∀ u, v.cli.current.map (·.uid) = some u → ∃ b, (u, b) ∈ requestsOn v.conn v.log

/-- The frames in the server's replies. -/
theorem Sys.Core.replies {env : SysEnv W} {w : W} {v : Sys W} (h : Sys.Core env w v) (i : Nat) :
    ∃ D : List Mbap, repliesOn i v.log = D.map wire ∧ ∀ m ∈ D, Ordinary m := by
  have key : ∀ l : List (List UInt8), (∀ b ∈ l, ∃ m, Ordinary m ∧ b = wire m) → ∃ D : List Mbap, l = D.map wire ∧ ∀ m ∈ D, Ordinary m := by
    intro l
    induction l with
    | nil => intro _; exact ⟨[], rfl, by simp⟩
    | cons b l ih =>
      intro hl
      obtain ⟨m, h1, h2⟩ := hl b (by simp)
      obtain ⟨D, h3, h4⟩ := ih fun b hb => hl b (by simp [hb])
      refine ⟨m :: D, by rw [h2, h3]; rfl, ?_⟩
      intro m' hm'
      rcases List.mem_cons.1 hm' with rfl | hm'
      · exact h1
      · exact h4 m' hm'
  apply key
  intro b hb
  obtain ⟨l1, l2, he⟩ := List.append_of_mem (mem_repliesOn.1 hb)
  obtain ⟨l0, m, s, k, q, pdu, -, -, -, -, h1, h2⟩ := h.just.at he i rfl
  exact ⟨_, h1, h2⟩

/-- A frame the client sends carries a request. -/
theorem sent_request {env : ClientEnv} {v : Cli} (h : Props.CReach env v) {past future : List CEv} (he : v.log = past ++ future)
    {u : Nat} {b : List UInt8} {t : Nat} (hs : CEv.sent u b t ∈ past) : ∃ m unit k q tmo, b = wire m ∧ Ordinary m ∧
      CEv.call u unit ⟨k, q⟩ tmo ∈ past ∧ m.unit = unit ∧ m.tid = UInt16.ofNat (rank v.log u) ∧ Denotes k m.data q ∧ InRange k q ∧
      RequestPdu k q m.data := by
  obtain ⟨l1, l2, hpast⟩ := List.append_of_mem hs
  have hab : v.log = l1 ++ .sent u b t :: (l2 ++ future) := by rw [he, hpast]; simp
  obtain ⟨-, -, -, -, -, unit, ⟨k, q⟩, tmo, d1, d2, mem, d3, d4⟩ := h.inv.1.just.at hab
  obtain ⟨pdu, p1, p2, p3⟩ := Props.request_frame (unit := unit) (tid := UInt16.ofNat (rank l1 u)) d3 d2
  have hden : Denotes k pdu q := Props.denotes_of_requestPdu d2 p1
  have hm1 : 1 ≤ pdu.length := by
    obtain ⟨rest, hrest⟩ := Props.denotes_head hden
    rw [hrest]; simp
  refine ⟨⟨unit, UInt16.ofNat (rank l1 u), pdu⟩, unit, k, q, tmo, by rw [d4, p3]; rfl, ⟨hm1, p2⟩, ?_, rfl, ?_, hden, d2, p1⟩
  · rw [hpast]; exact List.mem_append_left _ d1
  · rw [Props.calls_prefix h hab d1]

/-- The messages carrying the requests among some effects of the client. -/
theorem sent_messages {env : ClientEnv} {v : Cli} (h : Props.CReach env v) (i : Nat) (es : List CEv) (hes : ∀ e ∈ es, e ∈ v.log) :
    ∃ ms : List Mbap, (requestsOn i (es.map (.cli i))).map (·.2) = ms.map wire ∧ ∀ m ∈ ms, Request m := by
  induction es with
  | nil => exact ⟨[], rfl, by simp⟩
  | cons e es ih =>
    obtain ⟨ms, h1, h2⟩ := ih fun e he => hes e (by simp [he])
    have hsplit : requestsOn i ((e :: es).map (.cli i)) = requestsOn i [.cli i e] ++ requestsOn i (es.map (.cli i)) := by
      rw [← requestsOn_append]; rfl
    cases e with
    | sent u b t =>
      obtain ⟨m, unit, k, q, tmo, a1, a2, -, -, -, a3, -⟩ := sent_request h (List.append_nil _).symm (hes (.sent u b t) (by simp))
      refine ⟨m :: ms, ?_, ?_⟩
      · rw [hsplit, List.map_append, h1, List.map_cons, ← a1]
        simp [requestsOn]
      · intro m' hm'
        rcases List.mem_cons.1 hm' with rfl | hm'
        · exact ⟨a2, k, q, a3⟩
        · exact h2 m' hm'
    | _ => exact ⟨ms, by rw [hsplit, List.map_append, h1]; simp [requestsOn], h2⟩

/-- What a receiver makes of part of a stream of messages. -/
theorem FramedAs_stream {pol : CopyPolicy} {chunks : List (List UInt8)} {out : List Mbap} (h : Props.FramedAs pol chunks out)
    (msgs : List Mbap) (hm : ∀ m ∈ msgs, Ordinary m) {rest : List UInt8} (hs : chunks.flatten ++ rest = streamOf (msgs.map frameOf)) :
    ∃ ms', msgs = out ++ ms' := by
  obtain ⟨mem, hmem, p', h1⟩ := h
  obtain ⟨p2, ms, ms', pend, h2, -, -, h3, -⟩ := feed_prefix (rep_init pol mem hmem) msgs hm chunks rest hs
  rw [h2] at h1
  injection h1 with h1; injection h1 with _ h1; subst h1
  exact ⟨ms', h3⟩

namespace Sys

theorem clientStep_eq {env : SysEnv W} {v : Sys W} {op : Cli.Op} {c : Cli} {es : List CEv} (hs : v.cli.step env.client op = .ret c)
    (he : c.log = v.cli.log ++ es) : v.clientStep env op = .ret { v with
      cli := c
      up := fun i => if i = v.conn then v.up i ++ sentBytes es else v.up i
      log := v.log ++ es.map (.cli v.conn) } := by
  have e : c.log.drop v.cli.log.length = es := by rw [he]; simp
  simp only [clientStep, hs, CM.ret_bind, e]
  rfl

theorem serverStep_eq {env : SysEnv W} {v : Sys W} {op : Srv.Op} {s : Srv W} {es : List SEv} (hs : v.srv.step env.server op = .ret s)
    (he : s.log = v.srv.log ++ es) : v.serverStep env op = .ret { v with
      srv := s
      down := fun i => v.down i ++ repliedBytes (2 * i) es
      log := v.log ++ es.map .srv } := by
  have e : s.log.drop v.srv.log.length = es := by rw [he]; simp
  simp only [serverStep, hs, CM.ret_bind, e]
  rfl

/-- A step of the client. -/
theorem Core.client {env : SysEnv W} {w : W} {v : Sys W} (h : Core env w v) {op : Cli.Op} {c : Cli} {es : List CEv}
    (hs : v.cli.step env.client op = .ret c) (he : c.log = v.cli.log ++ es)
    (hcur : ∀ u, v.cli.current.map (·.uid) = some u → ∃ b, (u, b) ∈ requestsOn v.conn v.log)
    (hmb : ∀ es1 m es2, es = es1 ++ .mbap m :: es2 → ∃ D : List Mbap, repliesOn v.conn v.log = D.map wire ∧ (∀ m ∈ D, Ordinary m) ∧
      messagesSince (v.cli.log ++ es1) ++ [m] <+: D)
    (hok : ∀ es1 u d t es2, es = es1 ++ .handler u (.ok d) t :: es2 → ∃ es0 m, es1 = es0 ++ [.mbap m])
    (down' : Nat → List UInt8) (hdown : ∀ i, v.conn < i → down' i = v.down i) :
    Core env w { v with
      cli := c
      up := fun i => if i = v.conn then v.up i ++ sentBytes es else v.up i
      down := down'
      log := v.log ++ es.map (.cli v.conn) } ∧
    ∀ u, c.current.map (·.uid) = some u → ∃ b, (u, b) ∈ requestsOn v.conn (v.log ++ es.map (.cli v.conn)) := by
  have hc : Props.CReach env.client c := h.creach.step hs
  have hsentU : ∀ {es1 : List CEv} {u : Nat}, u ∈ sentUids es1 → ∃ b, (u, b) ∈ requestsOn v.conn (es1.map (.cli v.conn)) := by
    intro es1 u hu
    obtain ⟨b, t, hb⟩ := mem_sentUids.1 hu
    exact ⟨b, mem_requestsOn.2 ⟨t, List.mem_map_of_mem hb⟩⟩
  -- an unanswered request was sent on this connection
  have hunans : ∀ {es1 : List CEv} {u : Nat}, CEv.tcpShutdown ∉ v.cli.log → u ∈ sentUids (v.cli.log ++ es1) →
      u ∉ handledUids (v.cli.log ++ es1) → ∃ b, (u, b) ∈ requestsOn v.conn (v.log ++ es1.map (.cli v.conn)) := by
    intro es1 u hd hu hn
    rw [sentUids_append, List.mem_append] at hu
    rw [handledUids_append, List.mem_append, not_or] at hn
    rw [requestsOn_append]
    rcases hu with hu | hu
    · obtain ⟨o, ho1, ho2⟩ := h.creach.inv.1.outstanding
      have := ho1 u hu hn.1
      rw [ho2 (h.creach.down hd)] at this
      obtain ⟨b, hb⟩ := hcur u this
      exact ⟨b, List.mem_append_left _ hb⟩
    · obtain ⟨b, hb⟩ := hsentU hu
      exact ⟨b, List.mem_append_right _ hb⟩
  constructor
  · constructor
    · simp only [cliLog_append, h.cliLog, cliLog_cli, he]
    · simp only [srvLog_append, h.srvLog, srvLog_cli, List.append_nil]
    · exact hc
    · exact h.sreach
    · simp only [replay_append, replay_cli]; exact h.world
    · intro i hi
      obtain ⟨f1, f2, f3, f4, f5, f6⟩ := h.fresh i hi
      have hne : i ≠ v.conn := by simp only at hi; omega
      refine ⟨f1, by simp only [if_neg hne]; exact f2, by simp only; rw [hdown i hi]; exact f3, ?_, ?_, ?_⟩
      · simp only [takenFrom_append, takenFrom_cli, f4, List.append_nil]
      · simp only [repliesOn_append, repliesOn_cli, f5, List.append_nil]
      · simp only [requestsOn_append, requestsOn_other (Ne.symm hne), f6, List.append_nil]
    · intro i
      obtain ⟨rest, r1, r2, r3⟩ := h.up i
      simp only [takenFrom_append, takenFrom_cli, List.append_nil, requestsOn_append]
      by_cases hi : i = v.conn
      · subst hi
        obtain ⟨ms, m1, m2⟩ := sent_messages hc v.conn es (fun e hes => by rw [he]; exact List.mem_append_right _ hes)
        refine ⟨rest ++ ms, ?_, ?_, ?_⟩
        · rw [List.map_append, r1, m1]; simp
        · intro m hm
          rw [← List.append_assoc] at hm
          rcases List.mem_append.1 hm with hm | hm
          · exact r2 m hm
          · exact m2 m hm
        · intro p hp
          obtain ⟨pend, q1, q2⟩ := r3 p hp
          refine ⟨pend, q1, ?_⟩
          rw [if_pos rfl, ← List.append_assoc, q2, sentBytes_pairs v.conn, m1]
          simp
      · rw [requestsOn_other (Ne.symm hi), List.append_nil, if_neg hi]
        exact ⟨rest, r1, r2, r3⟩
    · refine h.just.append _ ?_
      intro es1' x es2' hx
      obtain ⟨es1, es2a, ha, hb, hc'⟩ := List.map_eq_append_iff.1 hx
      obtain ⟨e, es2, hd, he1, he2⟩ := List.map_eq_cons_iff.1 hc'
      subst hb hd he1
      cases e with
      | mbap m =>
        obtain ⟨D, hD1, hD2, hD3⟩ := hmb es1 m es2 ha
        refine ⟨D, ?_, hD2, ?_⟩
        · rw [repliesOn_append, repliesOn_cli, List.append_nil]; exact hD1
        · rw [cliLog_append, cliLog_cli, h.cliLog]; exact hD3
      | handler u x t =>
        cases x with
        | error _ => trivial
        | ok d =>
          obtain ⟨es0, m, h0⟩ := hok es1 u d t es2 ha
          have hat : c.log = (v.cli.log ++ es1) ++ .handler u (.ok d) t :: es2 := by rw [he, ha]; simp
          obtain ⟨j1, j2, j3, l0, m', unit, q, tmo, j4, j5, -⟩ := hc.inv.1.just.at hat
          subst h0
          rw [← List.append_assoc] at j4
          obtain ⟨j6, j7⟩ := List.append_inj' j4 rfl
          injection j7 with j7; injection j7 with j7; subst j7
          have hd' : CEv.tcpShutdown ∉ v.cli.log := fun hm => j1 (List.mem_append_left _ hm)
          have hu0 : u ∈ sentUids (v.cli.log ++ es0) := by
            rw [← List.append_assoc, sentUids_append, sentUids_one (e := .mbap m) (by intros; simp), List.append_nil] at j2
            exact j2
          have hn0 : u ∉ handledUids (v.cli.log ++ es0) := by
            rw [← List.append_assoc, handledUids_append, handledUids_one (e := .mbap m) (by intros; simp), List.append_nil] at j3
            exact j3
          obtain ⟨b, hb⟩ := hunans hd' hu0 hn0
          exact ⟨v.log ++ es0.map (.cli v.conn), m, b, by simp, j5.symm, hb⟩
      | _ => trivial
  · intro u hu
    obtain ⟨r, hr1, hr2⟩ := Option.map_eq_some_iff.1 hu
    obtain ⟨bytes, t0, hs', -⟩ := hc.inv.1.curSent r hr1
    have honce := hc.inv.1.once u
    have hcurc : c.curUids.count u = 1 := by simp [Cli.curUids, hr1, hr2]
    have hnh : u ∉ handledUids c.log := by
      intro hm
      have := List.count_pos_iff.2 hm
      omega
    have hrun : c.isShutdown = false := by
      cases hd : c.isShutdown with
      | false => rfl
      | true => have := (hc.inv.1.down hd).1; rw [this] at hr1; cases hr1
    have hnd : CEv.tcpShutdown ∉ v.cli.log := by
      intro hm
      have : CEv.tcpShutdown ∈ c.log := by rw [he]; exact List.mem_append_left _ hm
      have := hc.inv.1.downLog.1 this
      rw [hrun] at this; cases this
    rw [he] at hnh
    refine hunans hnd ?_ hnh
    rw [← he, ← hr2]
    exact mem_sentUids.2 ⟨_, _, hs'⟩

end Sys

/-! ### Steps of the server -/

namespace Srv

theorem Reacts.events {env : ServerEnv W} {v v' : Srv W} {c : ConnId} {m : Mbap} (h : Reacts env v c m v') :
    ∃ es : List SEv, v'.log = v.log ++ es ∧ v'.world = replay env.onRequest v.world (es.map .srv) ∧ (∀ c' m', SEv.mbap c' m' ∈ es → c' = c) ∧
      ∀ c' b, SEv.send c' b ∈ es → c' = c := by
  cases h with
  | silent => exact ⟨_, rfl, rfl, by simp, by simp⟩
  | refuse s fc t hr hs hfc => exact ⟨[.mbap c m, .send c _], by simp [sendMessage, emit]; rfl, rfl, by simp, by simp⟩
  | call s k r hp hr hs => exact ⟨[.mbap c m, .request s k r], by simp, rfl, by simp, by simp⟩
  | answer s k r hp msg hm hr hs => exact ⟨[.mbap c m, .request s k r, .send c _], by simp [sendMessage, emit]; rfl, rfl, by simp, by simp⟩

theorem ReactsAll.events {env : ServerEnv W} {v v' : Srv W} {c : ConnId} {ms : List Mbap} (h : ReactsAll env c v ms v') :
    ∃ es : List SEv, v'.log = v.log ++ es ∧ v'.world = replay env.onRequest v.world (es.map .srv) ∧ (∀ c' m', SEv.mbap c' m' ∈ es → c' = c) ∧
      ∀ c' b, SEv.send c' b ∈ es → c' = c := by
  induction h with
  | nil v => exact ⟨[], by simp, rfl, by simp, by simp⟩
  | cons h _ ih =>
    obtain ⟨a, a1, a2, a3, a4⟩ := h.events
    obtain ⟨b, b1, b2, b3, b4⟩ := ih
    refine ⟨a ++ b, by rw [b1, a1, List.append_assoc], by rw [b2, a2, List.map_append, replay_append], ?_, ?_⟩
    · intro c' m' hm
      rcases List.mem_append.1 hm with hm | hm
      · exact a3 c' m' hm
      · exact b3 c' m' hm
    · intro c' m' hm
      rcases List.mem_append.1 hm with hm | hm
      · exact a4 c' m' hm
      · exact b4 c' m' hm

theorem runTask_events (env : ServerEnv W) (v : Srv W) (t : STask) : ∃ es : List SEv, (v.runTask t).log = v.log ++ es ∧
    (v.runTask t).world = replay env.onRequest v.world (es.map .srv) ∧ (∀ c m, SEv.mbap c m ∉ es) ∧ ∀ c b, SEv.send c b ∉ es := by
  have key : ∀ es : List SEv, (∀ s k r, SEv.request s k r ∉ es) → ∀ w, replay env.onRequest w (es.map .srv) = w := by
    intro es
    induction es with
    | nil => intro _ w; rfl
    | cons e es ih =>
      intro h w
      simp only [replay, List.map_cons, List.foldl_cons] at ih ⊢
      cases e with
      | request s k r => exact absurd (by simp) (h s k r)
      | _ => exact ih (fun s k r hm => h s k r (by simp [hm])) w
  cases t with
  | start =>
    simp only [runTask]
    split
    · exact ⟨[], by simp, rfl, by simp, by simp⟩
    · exact ⟨[.serverStart], rfl, rfl, by simp, by simp⟩
  | shutdown =>
    simp only [runTask]
    by_cases hs : v.isStarted = true
    · rw [if_pos hs]
      exact ⟨.serverShutdown :: v.sessions.map fun x => .sessionShutdown x.2, by simp [emit], (key _ (by simp) _).symm, by simp, by simp⟩
    · rw [if_neg hs]
      exact ⟨v.sessions.map fun x => .sessionShutdown x.2, rfl, (key _ (by simp) _).symm, by simp, by simp⟩
  | addSession u s =>
    simp only [runTask]
    repeat' split
    all_goals exact ⟨[], by simp, rfl, by simp, by simp⟩

/-- Calls of a session directly follow a message that carries the request. -/
def Calls (sess : List (UInt8 × SessId)) (es : List SEv) : Prop := ∀ es1 sid k q es2, es = es1 ++ .request sid k q :: es2 →
  ∃ es0 c m, es1 = es0 ++ [.mbap c m] ∧ Denotes k m.data q ∧ sess.lookup m.unit = some sid

theorem Calls.none {sess : List (UInt8 × SessId)} {es : List SEv} (h : ∀ s k q, SEv.request s k q ∉ es) : Calls sess es := by
  intro es1 sid k q es2 he
  exact absurd (by rw [he]; simp) (h sid k q)

theorem Calls.append {sess : List (UInt8 × SessId)} {a b : List SEv} (ha : Calls sess a) (hb : Calls sess b) : Calls sess (a ++ b) := by
  intro es1 sid k q es2 he
  rcases List.append_eq_append_iff.1 he with ⟨x, h1, h2⟩ | ⟨x, h1, h2⟩
  · obtain ⟨es0, c, m, g1, g2⟩ := hb x sid k q es2 h2
    exact ⟨a ++ es0, c, m, by rw [h1, g1]; simp, g2⟩
  · cases x with
    | nil =>
      simp only [List.nil_append] at h2
      obtain ⟨es0, c, m, g1, g2⟩ := hb [] sid k q es2 h2.symm
      simp at g1
    | cons y x =>
      rw [List.cons_append] at h2
      injection h2 with h2 h3
      subst h2
      exact ha es1 sid k q x h1

theorem Reacts.calls {env : ServerEnv W} {v v' : Srv W} {c : ConnId} {m : Mbap} (h : Reacts env v c m v') :
    ∃ es : List SEv, v'.log = v.log ++ es ∧ Calls v.sessions es := by
  have key : ∀ (s : SessId) (k : Kind) (r : Req k) (es : List SEv), parseReq k m.data = .ret (.ok r) → (∀ s k q, SEv.request s k q ∉ es) →
      v.sessions.lookup m.unit = some s → Calls v.sessions (.mbap c m :: .request s k r :: es) := by
    intro s k r es hp hes hs es1 sid k' q es2 he
    have hd := (Props.C02_accepts_iff_denotes k m.data r).1 hp
    rcases es1 with _ | ⟨x, _ | ⟨y, es1⟩⟩
    · injection he with he; cases he
    · injection he with he1 he2
      injection he2 with he2 he3
      injection he2 with g1 g2 g3
      subst g1 g2
      cases g3
      exact ⟨[], c, m, by rw [he1]; rfl, hd, hs⟩
    · injection he with he1 he2
      injection he2 with he2 he3
      exact absurd (by rw [he3]; simp) (hes sid k' q)
  cases h with
  | silent => exact ⟨[.mbap c m], rfl, .none (by simp)⟩
  | refuse s fc t hr hs hfc => exact ⟨[.mbap c m, .send c _], by simp [sendMessage, emit]; rfl, .none (by simp)⟩
  | call s k r hp hr hs => exact ⟨[.mbap c m, .request s k r], by simp, key s k r [] hp (by simp) hs⟩
  | answer s k r hp msg hm hr hs =>
    exact ⟨[.mbap c m, .request s k r, .send c _], by simp [sendMessage, emit]; rfl, key s k r _ hp (by simp) hs⟩

theorem ReactsAll.calls {env : ServerEnv W} {v v' : Srv W} {c : ConnId} {ms : List Mbap} (h : ReactsAll env c v ms v') :
    ∃ es : List SEv, v'.log = v.log ++ es ∧ Calls v.sessions es := by
  induction h with
  | nil v => exact ⟨[], by simp, .none (by simp)⟩
  | cons h _ ih =>
    obtain ⟨a, a1, a2⟩ := h.calls
    obtain ⟨b, b1, b2⟩ := ih
    rw [h.same.sessions] at b2
    exact ⟨a ++ b, by rw [b1, a1, List.append_assoc], a2.append b2⟩

theorem step_requests {env : ServerEnv W} {v v' : Srv W} {op : Op} (h : v.step env op = .ret v') {es : List SEv} (he : v'.log = v.log ++ es) :
    Calls v.sessions es := by
  have key : ∀ es', v'.log = v.log ++ es' → Calls v.sessions es' → Calls v.sessions es := by
    intro es' h' hc
    rw [he] at h'
    rw [List.append_cancel_left h']; exact hc
  rcases step_cases h with ⟨t, ts, -, -, rfl⟩ | ⟨c, d, p, p', ms, -, -, -, h⟩ | ⟨h, -⟩
  · obtain ⟨es', h1, h2, -⟩ := runTask_blocks env { v with tasks := ts } t
    refine key es' h1 (.none ?_)
    intro s k q hm
    have hb := h2 _ hm
    generalize hx : [SEv.request s k q] = x at hb
    cases hb with
    | other e h1 h2 h3 => injection hx with hx; exact h2 s k q hx.symm
    | reaction c m calls answers hc ha => injection hx with hx; cases hx
  · obtain ⟨es', h1, h2⟩ := h.calls
    exact key es' h1 h2
  · exact key [] (by simp [h]) (.none (by simp))

theorem shutdown_stays {env : ServerEnv W} {v v' : Srv W} {op : Op} (hs : v.step env op = .ret v') (h : v.isShutdown = true) :
    v'.isShutdown = true := by
  rcases Srv.step_ctl hs with ⟨t, ts, rfl, htk, rfl⟩ | ⟨e1, -⟩
  · exact Srv.runTask_shutdown _ (by simpa using h)
  · rw [e1, h]

theorem running_before {env : ServerEnv W} {v v' : Srv W} {op : Op} (hs : v.step env op = .ret v') (h : v'.isShutdown = false) :
    v.isShutdown = false := by
  cases hv : v.isShutdown with
  | false => rfl
  | true => rw [shutdown_stays hs hv] at h; cases h

theorem lookup_stays {env : ServerEnv W} {v v' : Srv W} {op : Op} (hs : v.step env op = .ret v') (hd : v'.isShutdown = false) {u : UInt8}
    {s : SessId} (h : v.sessions.lookup u = some s) : v'.sessions.lookup u = some s := by
  rcases Srv.step_ctl hs with ⟨t, ts, rfl, htk, rfl⟩ | ⟨e1, e2, e3, e4, -⟩
  · rw [Props.runTask_lookup _ _ _ hd]; simp only [h]
  · rw [e3, h]

/-- A session that was asked is the one registered for the unit, as long as the server runs. -/
theorem asked {env : ServerEnv W} {v : Srv W} (h : Props.SReach env v) : ∀ l1 c m s k q l2, v.log = l1 ++ .mbap c m :: .request s k q :: l2 →
    v.isShutdown = true ∨ v.sessions.lookup m.unit = some s := by
  obtain ⟨w, ops, h⟩ := h
  refine run_induction (P := fun v : Srv W => ∀ l1 c m s k q l2, v.log = l1 ++ .mbap c m :: .request s k q :: l2 →
    v.isShutdown = true ∨ v.sessions.lookup m.unit = some s) ?_ (by intro l1 c m s k q l2 he; simp [Srv.init] at he) h
  intro v op v' ih hs l1 c m s k q l2 he
  obtain ⟨bs, hb, -⟩ := step_blocks hs
  have hcalls := step_requests hs hb
  generalize bs.flatten = es at hb hcalls
  by_cases hd : v'.isShutdown = true
  · exact Or.inl hd
  right
  have hd1 : v'.isShutdown = false := by simpa using hd
  have hd' : v.isShutdown = false := running_before hs hd1
  have hstay : ∀ u x, v.sessions.lookup u = some x → v'.sessions.lookup u = some x := fun u x hx => lookup_stays hs hd1 hx
  rw [he] at hb
  rcases List.append_eq_append_iff.1 hb with ⟨x, h1, h2⟩ | ⟨x, h1, h2⟩
  · rcases x with _ | ⟨y, _ | ⟨z, x⟩⟩
    · simp only [List.nil_append] at h2
      obtain ⟨es0, c', m', g1, g2, g3⟩ := hcalls [.mbap c m] s k q l2 (by rw [← h2]; rfl)
      have g1' : [] ++ [SEv.mbap c m] = es0 ++ [SEv.mbap c' m'] := g1
      obtain ⟨-, g4⟩ := List.append_inj' g1' rfl
      injection g4 with g4; injection g4 with g4 g5; subst g5
      exact hstay _ _ g3
    · injection h2 with h2 h3
      obtain ⟨es0, c', m', g1, -⟩ := hcalls [] s k q l2 h3.symm
      simp at g1
    · injection h2 with h2 h3
      injection h3 with h3 h4
      subst h2 h3
      rcases ih l1 c m s k q x h1 with h' | h'
      · rw [hd'] at h'; cases h'
      · exact hstay _ _ h'
  · obtain ⟨es0, c', m', g1, g2, g3⟩ := hcalls (x ++ [.mbap c m]) s k q l2 (by rw [h2]; simp)
    obtain ⟨-, g4⟩ := List.append_inj' g1 rfl
    injection g4 with g4; injection g4 with g4 g5; subst g5
    exact hstay _ _ g3

/-- Steps that have nothing to do with the client's connections. -/
theorem step_own {env : ServerEnv W} {v v' : Srv W} {op : Op} (h : v.step env op = .ret v') (hop : Sys.ownServer op = true) :
    ∃ es : List SEv, v'.log = v.log ++ es ∧ v'.world = replay env.onRequest v.world (es.map .srv) ∧ (∀ i m, SEv.mbap (2 * i) m ∉ es) ∧
      (∀ i b, SEv.send (2 * i) b ∉ es) ∧ ∀ i p, v'.listeners.lookup (2 * i) = some p → v.listeners.lookup (2 * i) = some p := by
  have hnil : ∀ a : Srv W, a.log = v.log → a.world = v.world → (∀ i p, a.listeners.lookup (2 * i) = some p → v.listeners.lookup (2 * i) = some p) →
      ∃ es : List SEv, a.log = v.log ++ es ∧ a.world = replay env.onRequest v.world (es.map .srv) ∧ (∀ i m, SEv.mbap (2 * i) m ∉ es) ∧
      (∀ i b, SEv.send (2 * i) b ∉ es) ∧ ∀ i p, a.listeners.lookup (2 * i) = some p → v.listeners.lookup (2 * i) = some p :=
    fun a h1 h2 h3 => ⟨[], by simp [h1], by simp [h2, replay], by simp, by simp, h3⟩
  cases op with
  | start => simp only [step] at h; split at h <;> (injection h with h; subst h; exact hnil _ rfl rfl fun _ _ => id)
  | shutdown => injection h with h; subst h; exact hnil _ rfl rfl fun _ _ => id
  | addSession u s => simp only [step] at h; split at h <;> (injection h with h; subst h; exact hnil _ rfl rfl fun _ _ => id)
  | runTask =>
    simp only [step] at h
    split at h
    · injection h with h; subst h; exact hnil _ rfl rfl fun _ _ => id
    · rename_i t ts ht
      injection h with h; subst h
      obtain ⟨es, e1, e2, e3, e4⟩ := runTask_events env { v with tasks := ts } t
      exact ⟨es, e1, e2, fun i m => e3 _ m, fun i b => e4 _ b, by rw [runTask_listeners]; exact fun _ _ => id⟩
  | opened c mem =>
    simp only [step] at h
    split at h <;> (injection h with h; subst h)
    · exact hnil _ rfl rfl fun _ _ => id
    · refine hnil _ rfl rfl ?_
      intro i p hp
      simp only [lookup_append_single] at hp
      cases hl : v.listeners.lookup (2 * i) with
      | some q => rw [hl] at hp; exact hp
      | none =>
        rw [hl] at hp
        simp only [Option.none_or] at hp
        split at hp
        · rename_i hcc
          simp only [Sys.ownServer, beq_iff_eq] at hop
          exact absurd hcc.symm (conn_ne hop i)
        · cases hp
  | receive c d =>
    simp only [Sys.ownServer, beq_iff_eq] at hop
    simp only [step] at h
    cases hl : v.listeners.lookup c with
    | none => rw [hl] at h; injection h with h; subst h; exact hnil _ rfl rfl fun _ _ => id
    | some p =>
      rw [hl] at h
      simp only at h
      cases hp : p.parse d with
      | ub => rw [hp] at h; cases h
      | ret x =>
        rw [hp] at h
        simp only [CM.ret_bind] at h
        obtain ⟨v2, h1, h2⟩ := onMbaps_reacts env c x.2 { v with listeners := setListener v.listeners c x.1 }
        rw [h1] at h
        injection h with h; subst h
        obtain ⟨es, e1, e2, e3, e4⟩ := h2.events
        refine ⟨es, e1, e2, ?_, ?_, ?_⟩
        · intro i m hm; exact conn_ne hop i (e3 _ _ hm).symm
        · intro i m hm; exact conn_ne hop i (e4 _ _ hm).symm
        · intro i q hq
          rw [h2.same.listeners] at hq
          simp only at hq
          rw [lookup_setListener_other _ _ _ _ (conn_ne hop i)] at hq
          exact hq
  | error c =>
    simp only [Sys.ownServer, beq_iff_eq] at hop
    simp only [step] at h
    split at h <;> (injection h with h; subst h)
    · exact hnil _ rfl rfl fun _ _ => id
    · refine hnil _ rfl rfl ?_
      intro i p hp
      simp only at hp
      rw [lookup_setListener_other _ _ _ _ (conn_ne hop i)] at hp
      exact hp
  | dropped c =>
    injection h with h; subst h
    refine hnil _ rfl rfl ?_
    intro i p hp
    simp only at hp
    by_cases hc : c = 2 * i
    · subst hc; rw [lookup_filter_same] at hp; cases hp
    · rw [lookup_filter_other _ _ _ hc] at hp; exact hp

end Srv

theorem _root_.Modbus.Props.SReach.wf {env : ServerEnv W} {v : Srv W} (h : Props.SReach env v) : Srv.WF env v := by
  obtain ⟨w, ops, h⟩ := h
  obtain ⟨v', h1, h2⟩ := Srv.run_total ops (Srv.WF.init env w)
  rw [h] at h1; injection h1 with h1; subst h1; exact h2

/-- What the server does with some of the client's requests. -/
theorem serve_stream (env : SysEnv W) (w : W) (i : Nat) (ms : List Mbap) : ∀ (s : Srv W) (L : List XEv), XLogged env w L →
    s.world = replay env.server.onRequest w L → (takenFrom i L ++ ms).map wire <+: (requestsOn i L).map (·.2) → (∀ m ∈ ms, Request m) →
    ∃ s' es, s.onMbaps env.server (2 * i) ms = .ret s' ∧ Srv.Same s s' ∧ s'.log = s.log ++ es ∧
      XLogged env w (L ++ es.map .srv) ∧ s'.world = replay env.server.onRequest w (L ++ es.map .srv) ∧
      (∀ j, takenFrom j (es.map .srv) = if j = i then ms else []) ∧ ∀ j, j ≠ i → repliesOn j (es.map .srv) = [] := by
  induction ms with
  | nil => intro s L h1 h2 _ _; exact ⟨s, [], rfl, .refl s, by simp, by simpa using h1, by simpa using h2, by simp [takenFrom], by simp [repliesOn]⟩
  | cons m ms ih =>
    intro s L hL hw hsent hreq
    obtain ⟨hmo, k, q, hd⟩ := hreq m (by simp)
    obtain ⟨s1, r1, r2, r3⟩ := Srv.react_request env.server s (2 * i) m k q hd
    have hL1 : XLogged env w (L ++ [.srv (.mbap (2 * i) m)]) := by
      refine .snoc hL ?_
      intro j hj
      have : i = j := conn_inj hj
      subst this
      refine List.IsPrefix.trans ?_ hsent
      simp only [List.map_append, List.map_cons, List.map_nil]
      exact ⟨ms.map wire, by simp⟩
    -- the reaction
    have hone : ∃ es, s1.log = s.log ++ es ∧ XLogged env w (L ++ es.map .srv) ∧ s1.world = replay env.server.onRequest w (L ++ es.map .srv) ∧
        (∀ j, takenFrom j (es.map .srv) = if j = i then [m] else []) ∧ ∀ j, j ≠ i → repliesOn j (es.map .srv) = [] := by
      have htk : ∀ es : List SEv, (∀ c m', SEv.mbap c m' ∉ es) → ∀ j, takenFrom j (.srv (.mbap (2 * i) m) :: es.map XEv.srv) = if j = i then [m] else [] := by
        intro es hes j
        have : takenFrom j (es.map XEv.srv) = [] := by
          rw [List.eq_nil_iff_forall_not_mem]
          intro m' hm'
          obtain ⟨x, hx, hx'⟩ := List.mem_map.1 (mem_takenFrom.1 hm')
          injection hx' with hx'; subst hx'
          exact hes _ _ hx
        rw [show (.srv (.mbap (2 * i) m) :: es.map XEv.srv) = [.srv (.mbap (2 * i) m)] ++ es.map XEv.srv from rfl, takenFrom_append, this, List.append_nil]
        by_cases hj : j = i
        · subst hj; simp [takenFrom]
        · have : ¬ ((2 * i : ConnId) = 2 * j) := fun h => hj (conn_inj h).symm
          simp [takenFrom, hj, this]
      rcases r3 with ⟨a1, a2, -⟩ | ⟨sid, a1, a2, a3, a4⟩
      · refine ⟨_, a1, hL1, ?_, htk [] (by simp), by intro j _; simp [repliesOn]⟩
        rw [a2, hw, replay_append]; rfl
      · have hL2 : XLogged env w (L ++ [.srv (.mbap (2 * i) m), .srv (.request sid k q)]) := by
          have := XLogged.snoc hL1 (e := .srv (.request sid k q)) ⟨L, _, m, rfl, hd⟩
          simpa using this
        have hw2 : s1.world = replay env.server.onRequest w (L ++ [.srv (.mbap (2 * i) m), .srv (.request sid k q)]) := by
          rw [a3, hw, replay_append]; rfl
        rcases a4 with ⟨b1, -⟩ | ⟨pdu, o, b1, b2⟩
        · exact ⟨_, b1, hL2, hw2, htk [.request sid k q] (by simp), by intro j _; simp [repliesOn]⟩
        · refine ⟨_, b2, ?_, ?_, htk [.request sid k q, .send (2 * i) _] (by simp), ?_⟩
          · have : XLogged env w ((L ++ [.srv (.mbap (2 * i) m), .srv (.request sid k q)]) ++ [.srv (.send (2 * i) (wire ⟨m.unit, m.tid, pdu⟩))]) := by
              refine .snoc hL2 ?_
              intro j hj
              exact ⟨L, m, sid, k, q, pdu, rfl, hmo, hd, by rw [← hw]; exact b1, o, rfl⟩
            simpa [wire] using this
          · rw [hw2, replay_append, replay_append]; rfl
          · intro j hj
            have : ¬ ((2 * i : ConnId) = 2 * j) := fun h => hj (conn_inj h).symm
            simp [repliesOn, this]
    obtain ⟨es1, c1, c2, c3, c4, c5⟩ := hone
    obtain ⟨s', es2, d1, d2, d3, d4, d5, d6, d7⟩ := ih s1 (L ++ es1.map .srv) c2 c3
      (by
        rw [takenFrom_append, requestsOn_append, c4, if_pos rfl, requestsOn_srv, List.append_nil, List.append_assoc]
        exact hsent)
      (fun m' hm' => hreq m' (by simp [hm']))
    refine ⟨s', es1 ++ es2, by simp [Srv.onMbaps, r1, d1], r2.trans d2, by rw [d3, c1, List.append_assoc], by simpa using d4, by simpa using d5, ?_, ?_⟩
    · intro j
      rw [List.map_append, takenFrom_append, c4, d6]
      split <;> rfl
    · intro j hj
      rw [List.map_append, repliesOn_append, c5 j hj, d7 j hj]; rfl

namespace Sys

/-- A step of the server that leaves the client's connections alone. -/
theorem Inv.server {env : SysEnv W} {w : W} {v : Sys W} (h : Inv env w v) {op : Srv.Op} {s : Srv W} {es : List SEv}
    (hs : v.srv.step env.server op = .ret s) (he : s.log = v.srv.log ++ es)
    (hw : s.world = replay env.server.onRequest v.srv.world (es.map .srv)) (hm : ∀ i m, SEv.mbap (2 * i) m ∉ es)
    (hb : ∀ i b, SEv.send (2 * i) b ∉ es)
    (hq : ∀ es1 sid k q es2, es = es1 ++ .request sid k q :: es2 → ∃ es0 c m, es1 = es0 ++ [.mbap c m] ∧ Denotes k m.data q)
    (hl : ∀ i p, s.listeners.lookup (2 * i) = some p → v.srv.listeners.lookup (2 * i) = some p ∨
      i ≤ v.conn ∧ Rep p [] ∧ v.up i = [] ∧ requestsOn i v.log = []) :
    Inv env w { v with
      srv := s
      down := fun i => v.down i ++ repliedBytes (2 * i) es
      log := v.log ++ es.map .srv } := by
  have ht : ∀ i, takenFrom i (es.map XEv.srv) = [] := by
    intro i
    rw [List.eq_nil_iff_forall_not_mem]
    intro m' hm'
    obtain ⟨x, hx, hx'⟩ := List.mem_map.1 (mem_takenFrom.1 hm')
    injection hx' with hx'; subst hx'
    exact hm _ _ hx
  have hr : ∀ i, repliesOn i (es.map XEv.srv) = [] := by
    intro i
    rw [List.eq_nil_iff_forall_not_mem]
    intro m' hm'
    obtain ⟨x, hx, hx'⟩ := List.mem_map.1 (mem_repliesOn.1 hm')
    injection hx' with hx'; subst hx'
    exact hb _ _ hx
  have hrb : ∀ i, repliedBytes (2 * i) es = [] := by intro i; rw [← repliesOn_srv, hr]; rfl
  refine ⟨⟨?_, ?_, h.creach, h.sreach.step hs, ?_, ?_, ?_, ?_⟩, ?_, ?_⟩
  · simp only [cliLog_append, cliLog_srv, List.append_nil]; exact h.cliLog
  · simp only [srvLog_append, srvLog_srv, he, h.srvLog]
  · simp only [hw, replay_append, h.world]
  · intro i hi
    obtain ⟨f1, f2, f3, f4, f5, f6⟩ := h.fresh i hi
    refine ⟨?_, f2, by simp only [hrb, f3, List.append_nil], ?_, ?_, ?_⟩
    · cases hlk : s.listeners.lookup (2 * i) with
      | none => rfl
      | some p =>
        rcases hl i p hlk with h' | ⟨h', -⟩
        · rw [f1] at h'; cases h'
        · simp only at hi; omega
    · simp only [takenFrom_append, f4, ht, List.append_nil]
    · simp only [repliesOn_append, f5, hr, List.append_nil]
    · simp only [requestsOn_append, f6, requestsOn_srv, List.append_nil]
  · intro i
    obtain ⟨rest, r1, r2, r3⟩ := h.up i
    simp only [takenFrom_append, ht, requestsOn_append, requestsOn_srv, List.append_nil]
    refine ⟨rest, r1, r2, ?_⟩
    intro p hp
    rcases hl i p hp with h' | ⟨-, g1, g2, g3⟩
    · exact r3 p h'
    · refine ⟨[], g1, ?_⟩
      rw [g3] at r1
      have := (List.append_eq_nil_iff.1 (List.map_eq_nil_iff.1 r1.symm)).2
      rw [this, g2]; rfl
  · refine h.just.append _ ?_
    intro es1' x es2' hx
    obtain ⟨es1, es2a, ha, hb', hc'⟩ := List.map_eq_append_iff.1 hx
    obtain ⟨e, es2, hd, he1, he2⟩ := List.map_eq_cons_iff.1 hc'
    subst hb' hd he1
    have hem : e ∈ es := by rw [ha]; simp
    cases e with
    | mbap c m => intro i hi; subst hi; exact absurd hem (hm i m)
    | send c b => intro i hi; subst hi; exact absurd hem (hb i b)
    | request sid k q =>
      obtain ⟨es0, c, m, h1, h2⟩ := hq es1 sid k q es2 ha
      exact ⟨v.log ++ es0.map .srv, c, m, by rw [h1]; simp, h2⟩
    | _ => trivial
  · simp only [repliesOn_append, hr, hrb, List.append_nil]; exact h.down
  · intro u hu
    obtain ⟨b, hb⟩ := h.cur u hu
    exact ⟨b, by simp only [requestsOn_append]; exact List.mem_append_left _ hb⟩

/-- Bytes arrive at the server. -/
theorem Inv.arrive {env : SysEnv W} {w : W} {v : Sys W} (h : Inv env w v) (i n : Nat) :
    ∃ v', v.step env (.arrive i n) = .ret v' ∧ Inv env w v' := by
  simp only [step]
  cases hl : v.srv.listeners.lookup (2 * i) with
  | none =>
    have hs : v.srv.step env.server (.receive (2 * i) ((v.up i).take n)) = .ret v.srv := by simp only [Srv.step, hl]
    rw [serverStep_eq (v := { v with up := fun j => if j = i then (v.up i).drop n else v.up j }) hs (es := []) (by simp)]
    refine ⟨_, rfl, ⟨⟨?_, ?_, h.creach, h.sreach, ?_, ?_, ?_, ?_⟩, ?_, ?_⟩⟩
    · simpa using h.cliLog
    · simpa using h.srvLog
    · simpa using h.world
    · intro j hj
      obtain ⟨f1, f2, f3, f4⟩ := h.fresh j hj
      refine ⟨f1, ?_, by simp [f3, repliedBytes], by simpa using f4⟩
      simp only
      split
      · rename_i hij; subst hij; rw [f2]; simp
      · exact f2
    · intro j
      obtain ⟨rest, r1, r2, r3⟩ := h.up j
      refine ⟨rest, by simpa using r1, by simpa using r2, ?_⟩
      intro p hp
      by_cases hij : j = i
      · subst hij; rw [hl] at hp; cases hp
      · simp only [if_neg hij]; exact r3 p hp
    · simpa using h.just
    · simp only [repliedBytes, List.map_nil, List.append_nil]; exact h.down
    · simpa using h.cur
  | some p =>
    have hi : i ≤ v.conn := by
      by_contra hc
      have := (h.fresh i (by omega)).1
      rw [hl] at this; cases this
    obtain ⟨rest, r1, r2, r3⟩ := h.up i
    obtain ⟨pend, g1, g2⟩ := r3 p hl
    obtain ⟨p', ms, ms', pend', k1, k2, k3, k4, k5⟩ := parse_stream g1 rest (fun m hm => (r2 m (List.mem_append_right _ hm)).1)
      ((v.up i).take n) ((v.up i).drop n) (by rw [List.take_append_drop, g2, streamOf_wire])
    subst k4
    obtain ⟨s', es, d1, d2, d3, d4, d5, d6, d7⟩ := serve_stream env w i ms { v.srv with listeners := Srv.setListener v.srv.listeners (2 * i) p' }
      v.log h.just h.world
      (by rw [r1, ← List.append_assoc, List.map_append (l₂ := ms')]; exact List.prefix_append _ _)
      (fun m hm => r2 m (by simp [hm]))
    have hs : v.srv.step env.server (.receive (2 * i) ((v.up i).take n)) = .ret s' := by
      simp only [Srv.step, hl, k1, CM.ret_bind, d1]
    rw [serverStep_eq (v := { v with up := fun j => if j = i then (v.up i).drop n else v.up j }) hs d3]
    refine ⟨_, rfl, ⟨⟨?_, ?_, h.creach, h.sreach.step hs, d5, ?_, ?_, d4⟩, ?_, ?_⟩⟩
    · simp only [cliLog_append, cliLog_srv, List.append_nil]; exact h.cliLog
    · simp only [srvLog_append, srvLog_srv, d3, h.srvLog]
    · intro j hj
      have hji : j ≠ i := by simp only at hj; omega
      obtain ⟨f1, f2, f3, f4, f5, f6⟩ := h.fresh j hj
      refine ⟨?_, by simp only [if_neg hji, f2], ?_, ?_, ?_, ?_⟩
      · simp only [d2.listeners]
        rw [Srv.lookup_setListener_other _ _ _ _ (fun h => hji (conn_inj h).symm)]; exact f1
      · simp only [f3, ← repliesOn_srv, d7 j hji]; rfl
      · simp only [takenFrom_append, f4, d6, if_neg hji, List.append_nil]
      · simp only [repliesOn_append, f5, d7 j hji, List.append_nil]
      · simp only [requestsOn_append, f6, requestsOn_srv, List.append_nil]
    · intro j
      simp only [takenFrom_append, d6, requestsOn_append, requestsOn_srv, List.append_nil, d2.listeners]
      by_cases hji : j = i
      · subst hji
        simp only [if_true]
        refine ⟨ms', by rw [r1]; simp, by simpa using r2, ?_⟩
        intro q hq
        rw [Srv.lookup_setListener_same _ _ p _ hl] at hq
        injection hq with hq; subst hq
        exact ⟨pend', k3, by rw [k5, streamOf_wire]⟩
      · simp only [if_neg hji, List.append_nil]
        obtain ⟨rest, r1, r2, r3⟩ := h.up j
        refine ⟨rest, r1, r2, ?_⟩
        intro q hq
        rw [Srv.lookup_setListener_other _ _ _ _ (fun h => hji (conn_inj h).symm)] at hq
        exact r3 q hq
    · simp only [repliesOn_append, List.flatten_append, ← h.down, repliesOn_srv, List.append_assoc]
    · intro u hu
      obtain ⟨b, hb⟩ := h.cur u hu
      exact ⟨b, by simp only [requestsOn_append]; exact List.mem_append_left _ hb⟩

/-- The client makes a step of its own. -/
theorem Inv.own {env : SysEnv W} {w : W} {v : Sys W} (h : Inv env w v) (op : Cli.Op) (hop : ownClient op = true) :
    ∃ v', v.clientStep env op = .ret v' ∧ Inv env w v' := by
  obtain ⟨c, hc⟩ := h.creach.total op
  obtain ⟨es, e1, e2⟩ := Cli.step_own hc hop
  rw [clientStep_eq hc e1]
  obtain ⟨g1, g2⟩ := h.toCore.client hc e1 h.cur
    (fun es1 m es2 he => by have := e2 (.mbap m) (by rw [he]; simp); cases this)
    (fun es1 u d t es2 he => by have := e2 (.handler u (.ok d) t) (by rw [he]; simp); cases this)
    v.down (fun _ _ => rfl)
  refine ⟨_, rfl, ⟨g1, ?_, g2⟩⟩
  simp only [repliesOn_append, repliesOn_cli, List.append_nil, e1]
  rw [chunksSince_inner _ _ fun e he => Cli.own_inner (e2 e he)]
  exact h.down

/-- Bytes arrive at the client. -/
theorem Inv.hear {env : SysEnv W} {w : W} {v : Sys W} (h : Inv env w v) (n : Nat) :
    ∃ v', v.step env (.hear n) = .ret v' ∧ Inv env w v' := by
  obtain ⟨c, hc⟩ := h.creach.total (.receive ((v.down v.conn).take n))
  obtain ⟨es, e1, e2⟩ := Cli.step_receive hc
  simp only [step]
  rw [clientStep_eq (v := { v with down := fun j => if j = v.conn then (v.down v.conn).drop n else v.down j }) hc e1]
  obtain ⟨D, hD, hDo⟩ := h.replies v.conn
  have hc' : Props.CReach env.client c := h.creach.step hc
  have hstream : (chunksSince v.cli.log ++ [(v.down v.conn).take n]).flatten ++ (v.down v.conn).drop n = streamOf (D.map frameOf) := by
    rw [List.flatten_append]
    simp only [List.flatten_cons, List.flatten_nil, List.append_nil]
    rw [List.append_assoc, List.take_append_drop, h.down, hD, streamOf_wire]
  obtain ⟨g1, g2⟩ := h.toCore.client hc e1 h.cur
    (by
      intro es1 m es2 he
      have hat : c.log = (v.cli.log ++ es1) ++ .mbap m :: es2 := by rw [e1, he]; simp
      obtain ⟨es1', rfl, hes1⟩ : ∃ es1', es1 = .data ((v.down v.conn).take n) :: es1' ∧ ∀ e ∈ es1', e.inner = true := by
        cases es1 with
        | nil => injection he with he; cases he
        | cons x es1' =>
          injection he with he1 he2
          exact ⟨es1', by rw [he1], fun e hm => e2 e (by rw [he2]; simp [hm])⟩
      obtain ⟨-, out, f1, f2⟩ := hc'.inv.1.just.at hat
      have hch : chunksSince (v.cli.log ++ .data ((v.down v.conn).take n) :: es1') = chunksSince v.cli.log ++ [(v.down v.conn).take n] := by
        rw [show v.cli.log ++ .data ((v.down v.conn).take n) :: es1' = (v.cli.log ++ [.data ((v.down v.conn).take n)]) ++ es1' by simp,
          chunksSince_inner _ _ hes1, chunksSince_snoc]
      rw [hch] at f1
      obtain ⟨ms', hms'⟩ := FramedAs_stream f1 D hDo hstream
      refine ⟨D, hD, hDo, f2.trans ?_⟩
      rw [hms']; exact List.prefix_append _ _)
    (by
      intro es1 u d t es2 he
      have hat : c.log = (v.cli.log ++ es1) ++ .handler u (.ok d) t :: es2 := by rw [e1, he]; simp
      obtain ⟨-, -, -, l0, m, -, -, -, j4, -⟩ := hc'.inv.1.just.at hat
      rcases List.eq_nil_or_concat es1 with rfl | ⟨es0, x, rfl⟩
      · injection he with he; cases he
      · rw [List.concat_eq_append, ← List.append_assoc] at j4
        obtain ⟨-, j5⟩ := List.append_inj' j4 rfl
        injection j5 with j5
        exact ⟨es0, m, by rw [j5]; simp⟩)
    (fun j => if j = v.conn then (v.down v.conn).drop n else v.down j)
    (fun j hj => by rw [if_neg (by omega)])
  refine ⟨_, rfl, ⟨g1, ?_, g2⟩⟩
  simp only [repliesOn_append, repliesOn_cli, List.append_nil, e1, if_true]
  rw [show v.cli.log ++ .data ((v.down v.conn).take n) :: es = (v.cli.log ++ [.data ((v.down v.conn).take n)]) ++ es by simp,
    chunksSince_inner _ _ e2, chunksSince_snoc]
  simp only
  rw [hstream, hD, streamOf_wire]

/-- The connection breaks. -/
theorem Inv.reconnect {env : SysEnv W} {w : W} {v : Sys W} (h : Inv env w v) (mem : Vector UInt8 260) :
    ∃ v', v.step env (.reconnect mem) = .ret v' ∧ Inv env w v' := by
  obtain ⟨c, hc⟩ := h.creach.total .error
  obtain ⟨es, e1, e2, e3⟩ := Cli.step_error h.creach hc
  simp only [step]
  rw [clientStep_eq hc e1]
  simp only [CM.ret_bind]
  obtain ⟨g1, -⟩ := h.toCore.client hc e1 h.cur
    (by
      intro es1 m es2 he
      cases es1 with
      | nil => injection he with he; cases he
      | cons x es1 =>
        injection he with he1 he2
        obtain ⟨u, t, h'⟩ := e3 (.mbap m) (by rw [he2]; simp)
        cases h')
    (by
      intro es1 u d t es2 he
      cases es1 with
      | nil => injection he with he; cases he
      | cons x es1 =>
        injection he with he1 he2
        obtain ⟨u', t', h'⟩ := e3 (.handler u (.ok d) t) (by rw [he2]; simp)
        cases h')
    v.down (fun _ _ => rfl)
  obtain ⟨f1, f2, f3, f4, f5, f6⟩ := g1.fresh (v.conn + 1) (by simp)
  have hin : ∀ e ∈ es, e.inner = true := by
    intro e he
    obtain ⟨u, t, rfl⟩ := e3 e he
    rfl
  obtain ⟨x, hx⟩ : ∃ x : Sys W, x = { v with
      cli := c
      up := fun i => if i = v.conn then v.up i ++ sentBytes (.connError :: es) else v.up i
      conn := v.conn + 1
      log := v.log ++ (CEv.connError :: es).map (.cli v.conn) } := ⟨_, rfl⟩
  have hx1 : x.srv = v.srv := by rw [hx]
  have hx2 : x.conn = v.conn + 1 := by rw [hx]
  have hx3 : x.up (v.conn + 1) = [] := by rw [hx]; exact f2
  have hx4 : requestsOn (v.conn + 1) x.log = [] := by rw [hx]; exact f6
  have hx5 : x.srv.listeners.lookup (2 * (v.conn + 1)) = none := by rw [hx]; exact f1
  have hinv : Inv env w x := by
    rw [hx]
    refine ⟨⟨g1.cliLog, g1.srvLog, g1.creach, g1.sreach, g1.world, fun i hi => g1.fresh i (by simp only at hi ⊢; omega), g1.up, g1.just⟩, ?_, ?_⟩
    · show (chunksSince c.log).flatten ++ v.down (v.conn + 1) = (repliesOn (v.conn + 1) (v.log ++ (CEv.connError :: es).map (.cli v.conn))).flatten
      rw [f5, f3, e1, show v.cli.log ++ CEv.connError :: es = (v.cli.log ++ [CEv.connError]) ++ es by simp, chunksSince_inner _ _ hin, chunksSince_snoc]
      rfl
    · intro u hu
      simp only [e2] at hu
      cases hu
  rw [← hx]
  have hs : x.srv.step env.server (.opened (2 * (v.conn + 1)) mem) =
      .ret { x.srv with listeners := x.srv.listeners ++ [(2 * (v.conn + 1), Parser.init env.server.pol mem.toList)] } := by
    simp only [Srv.step, hx5, Option.isSome_none, Bool.false_eq_true, if_false]
  rw [serverStep_eq hs (es := []) (by simp)]
  refine ⟨_, rfl, hinv.server hs (by simp) rfl (by simp) (by simp) (by simp) ?_⟩
  intro i p hp
  simp only [Srv.lookup_append_single] at hp
  cases hlk : x.srv.listeners.lookup (2 * i) with
  | some q => rw [hlk] at hp; left; exact hp
  | none =>
    rw [hlk] at hp
    simp only [Option.none_or] at hp
    split at hp
    · rename_i hi
      have hi' : i = v.conn + 1 := conn_inj hi
      injection hp with hp; subst hp hi'
      exact Or.inr ⟨Nat.le_of_eq hx2.symm, rep_init _ _ (by simp), hx3, hx4⟩
    · cases hp

/-- The initial state. -/
theorem Inv.init (env : SysEnv W) (w : W) (mem : Vector UInt8 260) : Inv env w (Sys.init env w mem) := by
  refine ⟨⟨rfl, rfl, ⟨[], rfl⟩, ⟨w, [.opened 0 mem], rfl⟩, rfl, ?_, ?_, .nil⟩, rfl, ?_⟩
  · intro i hi
    have : (2 * i == 0) = false := by simp only [Sys.init] at hi; simp; omega
    refine ⟨?_, rfl, rfl, rfl, rfl, rfl⟩
    simp only [Sys.init, List.lookup_cons, this, List.lookup_nil]
  · intro i
    refine ⟨[], rfl, by simp [Sys.init, takenFrom], ?_⟩
    intro p hp
    simp only [Sys.init, List.lookup_cons, List.lookup_nil] at hp
    split at hp
    · injection hp with hp; subst hp
      exact ⟨[], rep_init _ _ (by simp), rfl⟩
    · cases hp
  · intro u hu; cases hu

theorem Inv.step {env : SysEnv W} {w : W} {v : Sys W} (h : Inv env w v) (op : Op) : ∃ v', v.step env op = .ret v' ∧ Inv env w v' := by
  cases op with
  | client op =>
    simp only [Sys.step]
    by_cases hop : ownClient op = true
    · rw [if_pos hop]; exact h.own op hop
    · rw [if_neg hop]; exact ⟨v, rfl, h⟩
  | server op =>
    simp only [Sys.step]
    by_cases hop : ownServer op = true
    · rw [if_pos hop]
      obtain ⟨s, hs, -⟩ := Srv.step_total h.sreach.wf op
      obtain ⟨es, e1, e2, e3, e4, e5⟩ := Srv.step_own hs hop
      rw [serverStep_eq hs e1]
      exact ⟨_, rfl, h.server hs e1 e2 e3 e4 (fun es1 sid k q es2 he => by obtain ⟨es0, c, m, g1, g2, -⟩ := Srv.step_requests hs e1 es1 sid k q es2 he; exact ⟨es0, c, m, g1, g2⟩) fun i p hp => Or.inl (e5 i p hp)⟩
    · rw [if_neg hop]; exact ⟨v, rfl, h⟩
  | arrive i n => exact h.arrive i n
  | hear n => exact h.hear n
  | reconnect mem => exact h.reconnect mem

theorem Inv.run {env : SysEnv W} {w : W} (ops : List Op) : ∀ {v : Sys W}, Inv env w v → ∃ v', v.run env ops = .ret v' ∧ Inv env w v' := by
  induction ops with
  | nil => exact fun {v} h => ⟨v, rfl, h⟩
  | cons op ops ih =>
    intro v h
    obtain ⟨v1, h1, h2⟩ := h.step op
    obtain ⟨v2, h3, h4⟩ := ih h2
    exact ⟨v2, by simp [Sys.run, h1, h3], h4⟩

end Sys

end Modbus
