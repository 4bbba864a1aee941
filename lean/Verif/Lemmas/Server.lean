import Verif.Model.Server
import Verif.Props.Mbap

/-! Helper lemmas about the server channel. -/

namespace Modbus

open Props (IsMessage)

variable {W : Type}

/-- `parseReq` never is undefined behaviour and only fails in two ways. -/
theorem parseReq_total (k : Kind) (d : List UInt8) :
    (∃ r, parseReq k d = .ret (.ok r)) ∨ parseReq k d = .ret (.error .malformedRequest) ∨
      parseReq k d = .ret (.error (.modbus .illegalDataValue)) := by
  cases k
  case writeSingleRegister => rcases parseSingleRegReq_total d with h | h <;> simp [parseReq, h]
  case writeSingleCoil => exact parseSingleCoilReq_total d
  case writeMultipleCoils => exact parseWriteCoilsReq_total d
  case writeMultipleRegisters => exact parseWriteRegsReq_total d
  all_goals exact parseReadReq_total _ _ d

namespace Srv

@[simp] theorem emit_isShutdown (v : Srv W) (e : SEv) : (v.emit e).isShutdown = v.isShutdown := rfl
@[simp] theorem emit_isStarted (v : Srv W) (e : SEv) : (v.emit e).isStarted = v.isStarted := rfl
@[simp] theorem emit_sessions (v : Srv W) (e : SEv) : (v.emit e).sessions = v.sessions := rfl
@[simp] theorem emit_listeners (v : Srv W) (e : SEv) : (v.emit e).listeners = v.listeners := rfl
@[simp] theorem emit_world (v : Srv W) (e : SEv) : (v.emit e).world = v.world := rfl
@[simp] theorem emit_log (v : Srv W) (e : SEv) : (v.emit e).log = v.log ++ [e] := rfl

/-- The possible reactions to a message. -/
inductive Reacts (env : ServerEnv W) (v : Srv W) (c : ConnId) (m : Mbap) : Srv W → Prop where
  | silent : Reacts env v c m (v.emit (.mbap c m))
  | refuse (s : SessId) (fc : UInt8) (t : ExceptionType) (hr : v.isShutdown = false) (hs : v.sessions.lookup m.unit = some s)
      (hfc : ∃ rest, m.data = fc :: rest) :
      Reacts env v c m ((v.emit (.mbap c m)).sendMessage env c m.unit m.tid (exceptionMsg fc t))
  | call (s : SessId) (k : Kind) (r : Req k) (hp : parseReq k m.data = .ret (.ok r)) (hr : v.isShutdown = false)
      (hs : v.sessions.lookup m.unit = some s) :
      Reacts env v c m { (v.emit (.mbap c m)).emit (.request s k r) with world := (env.onRequest s k r v.world).1 }
  | answer (s : SessId) (k : Kind) (r : Req k) (hp : parseReq k m.data = .ret (.ok r)) (msg : Msg) (hm : IsMessage msg)
      (hr : v.isShutdown = false)
      (hs : v.sessions.lookup m.unit = some s) :
      Reacts env v c m (sendMessage env
        { (v.emit (.mbap c m)).emit (.request s k r) with world := (env.onRequest s k r v.world).1 } c m.unit m.tid msg)

theorem processMessage_malformed (env : ServerEnv W) (v : Srv W) (k : Kind) (s : SessId) (m : Mbap) (fc : UInt8) (c : ConnId)
    (h : parseReq k m.data = .ret (.error .malformedRequest)) : v.processMessage env k s m fc c = .ret v := by
  simp [processMessage, h]

theorem processMessage_illegal (env : ServerEnv W) (v : Srv W) (k : Kind) (s : SessId) (m : Mbap) (fc : UInt8) (c : ConnId)
    {t : ExceptionType} (h : parseReq k m.data = .ret (.error (.modbus t))) :
    v.processMessage env k s m fc c = .ret (v.sendMessage env c m.unit m.tid (exceptionMsg fc t)) := by
  simp [processMessage, h]

/-- State after the session call. -/
def called (env : ServerEnv W) (v : Srv W) (s : SessId) (k : Kind) (r : Req k) : Srv W :=
  { v.emit (.request s k r) with world := (env.onRequest s k r v.world).1 }

theorem processMessage_ok (env : ServerEnv W) (v : Srv W) (k : Kind) (s : SessId) (m : Mbap) (fc : UInt8) (c : ConnId)
    {r : Req k} (h : parseReq k m.data = .ret (.ok r)) :
    v.processMessage env k s m fc c =
      match (env.onRequest s k r v.world).2 with
      | .error (.modbus t) => .ret ((v.called env s k r).sendMessage env c m.unit m.tid (exceptionMsg fc t))
      | .error _ => .ret (v.called env s k r)
      | .ok response => .ret ((v.called env s k r).sendMessage env c m.unit m.tid (respMsg k response)) := by
  simp only [processMessage, h, CM.ret_bind]
  split <;> simp_all [called]

theorem onMbap_reacts (env : ServerEnv W) (v : Srv W) (c : ConnId) (m : Mbap) :
    ∃ v', v.onMbap env c m = .ret v' ∧ Reacts env v c m v' := by
  simp only [onMbap, emit_isShutdown, emit_sessions]
  cases hsd : v.isShutdown
  case true => exact ⟨_, rfl, .silent⟩
  simp only [Bool.false_eq_true, if_false]
  cases hl : v.sessions.lookup m.unit
  case none => exact ⟨_, rfl, .silent⟩
  case some s =>
    rcases hd : m.data with _ | ⟨fc, rest⟩
    · exact ⟨_, rfl, .silent⟩
    · simp only [List.length_cons, getU8, readU8, CM.ret_bind]
      rw [if_neg (by omega)]
      cases kindOf fc
      case none => exact ⟨_, rfl, .refuse s fc _ hsd hl ⟨rest, hd⟩⟩
      case some k =>
        simp only
        rcases parseReq_total k m.data with ⟨r, hp⟩ | hp | hp
        · rw [processMessage_ok _ _ _ _ _ _ _ hp]
          split
          · exact ⟨_, rfl, .answer s k r hp _ (Or.inr (Or.inr ⟨_, _, rfl⟩)) hsd hl⟩
          · exact ⟨_, rfl, .call s k r hp hsd hl⟩
          · exact ⟨_, rfl, .answer s k r hp _ (Or.inr (Or.inl ⟨_, _, rfl⟩)) hsd hl⟩
        · rw [processMessage_malformed _ _ _ _ _ _ _ hp]
          exact ⟨_, rfl, .silent⟩
        · rw [processMessage_illegal _ _ _ _ _ _ _ hp]
          exact ⟨_, rfl, .refuse s fc _ hsd hl ⟨rest, hd⟩⟩

/-- What a reaction leaves alone. -/
structure Same (v v' : Srv W) : Prop where
  isShutdown : v'.isShutdown = v.isShutdown
  isStarted : v'.isStarted = v.isStarted
  sessions : v'.sessions = v.sessions
  tasks : v'.tasks = v.tasks
  listeners : v'.listeners = v.listeners

theorem Same.refl (v : Srv W) : Same v v := ⟨rfl, rfl, rfl, rfl, rfl⟩
theorem Same.trans {a b c : Srv W} (h1 : Same a b) (h2 : Same b c) : Same a c :=
  ⟨h2.1.trans h1.1, h2.2.trans h1.2, h2.3.trans h1.3, h2.4.trans h1.4, h2.5.trans h1.5⟩

theorem Reacts.same {env : ServerEnv W} {v v' : Srv W} {c : ConnId} {m : Mbap} (h : Reacts env v c m v') : Same v v' := by
  cases h <;> exact ⟨rfl, rfl, rfl, rfl, rfl⟩

/-- Successive reactions. -/
inductive ReactsAll (env : ServerEnv W) (c : ConnId) : Srv W → List Mbap → Srv W → Prop where
  | nil (v : Srv W) : ReactsAll env c v [] v
  | cons {v v' v'' : Srv W} {m : Mbap} {ms : List Mbap} (h : Reacts env v c m v') (hs : ReactsAll env c v' ms v'') :
      ReactsAll env c v (m :: ms) v''

theorem onMbaps_reacts (env : ServerEnv W) (c : ConnId) (ms : List Mbap) : ∀ v : Srv W,
    ∃ v', v.onMbaps env c ms = .ret v' ∧ ReactsAll env c v ms v' := by
  induction ms with
  | nil => intro v; exact ⟨v, rfl, .nil v⟩
  | cons m ms ih =>
    intro v
    obtain ⟨v1, h1, h2⟩ := onMbap_reacts env v c m
    obtain ⟨v2, h3, h4⟩ := ih v1
    exact ⟨v2, by simp [onMbaps, h1, h3], .cons h2 h4⟩

theorem ReactsAll.same {env : ServerEnv W} {v v' : Srv W} {c : ConnId} {ms : List Mbap} (h : ReactsAll env c v ms v') :
    Same v v' := by
  induction h with
  | nil v => exact .refl v
  | cons h _ ih => exact h.same.trans ih

/-! ### Listeners -/

theorem lookup_setListener_same (ls : List (ConnId × Parser)) (c : ConnId) (p p' : Parser) (h : ls.lookup c = some p) :
    (setListener ls c p').lookup c = some p' := by
  induction ls with
  | nil => simp at h
  | cons x ls ih =>
    obtain ⟨c', q⟩ := x
    simp only [setListener]
    by_cases hc : c' = c
    · simp [hc]
    · rw [if_neg hc]
      have hb : (c == c') = false := by simpa using fun h => hc h.symm
      simp only [List.lookup_cons, hb] at h ⊢
      exact ih h

theorem lookup_setListener_other (ls : List (ConnId × Parser)) (c c' : ConnId) (p' : Parser) (hne : c' ≠ c) :
    (setListener ls c' p').lookup c = ls.lookup c := by
  have hb : (c == c') = false := by simpa using fun h => hne h.symm
  induction ls with
  | nil => rfl
  | cons x ls ih =>
    obtain ⟨d, q⟩ := x
    simp only [setListener]
    by_cases hd : d = c'
    · subst hd; simp [hb, List.lookup_cons]
    · rw [if_neg hd]
      simp only [List.lookup_cons]
      split
      · rfl
      · exact ih

theorem lookup_filter_other (ls : List (ConnId × Parser)) (c c' : ConnId) (hne : c' ≠ c) :
    (ls.filter fun x => x.1 ≠ c').lookup c = ls.lookup c := by
  induction ls with
  | nil => rfl
  | cons x ls ih =>
    obtain ⟨d, q⟩ := x
    by_cases hd : d = c'
    · subst hd
      have hb : (c == d) = false := by simpa using fun h => hne h.symm
      rw [List.filter_cons, if_neg (by simp), ih, List.lookup_cons, hb]
    · rw [List.filter_cons, if_pos (by simpa using hd), List.lookup_cons, List.lookup_cons, ih]

theorem lookup_filter_same (ls : List (ConnId × Parser)) (c : ConnId) :
    (ls.filter fun x => x.1 ≠ c).lookup c = none := by
  induction ls with
  | nil => rfl
  | cons x ls ih =>
    obtain ⟨d, q⟩ := x
    by_cases hd : d = c
    · rw [List.filter_cons, if_neg (by simpa using hd), ih]
    · have hb : (c == d) = false := by simpa using fun h => hd h.symm
      rw [List.filter_cons, if_pos (by simpa using hd), List.lookup_cons, hb]; exact ih

theorem lookup_append_single {α β : Type} [BEq α] [LawfulBEq α] [DecidableEq α] (ls : List (α × β)) (a b : α) (p : β) :
    (ls ++ [(a, p)]).lookup b = (ls.lookup b).or (if b = a then some p else none) := by
  induction ls with
  | nil =>
    by_cases h : b = a
    · simp [h]
    · have : (b == a) = false := by simpa using h
      simp [h, List.lookup_cons, this]
  | cons x ls ih =>
    rw [List.cons_append, List.lookup_cons, List.lookup_cons, ih]
    split <;> simp

/-- Every listener is in a state the parser can be in. -/
def WF (env : ServerEnv W) (v : Srv W) : Prop :=
  ∀ c p, v.listeners.lookup c = some p → p.pol = env.pol ∧ ∃ pend, Rep p pend

theorem parse_total {p : Parser} {pend : List UInt8} (h : Rep p pend) (d : List UInt8) :
    ∃ p' ms pend', p.parse d = .ret (p', ms) ∧ Rep p' pend' ∧ p'.pol = p.pol := by
  obtain ⟨p', out, fs, pend', h1, h2, -, -, -, h3, -⟩ := feed_spec [d] p pend h
  simp only [Parser.feed] at h1
  cases hp : p.parse d with
  | ub => rw [hp] at h1; cases h1
  | ret x =>
    rw [hp] at h1
    simp only [CM.ret_bind, CM.pure_eq, List.append_nil] at h1
    injection h1 with h1; injection h1 with ha hb
    subst ha; subst hb
    exact ⟨x.1, x.2, pend', rfl, h3, h2⟩

theorem WF.congr {env : ServerEnv W} {v v' : Srv W} (h : WF env v) (he : v'.listeners = v.listeners) : WF env v' := by
  intro c p hp
  rw [he] at hp
  exact h c p hp

theorem runTask_listeners (v : Srv W) (t : STask) : (v.runTask t).listeners = v.listeners := by
  cases t <;> simp only [runTask] <;> repeat' (first | rfl | split)

theorem step_total {env : ServerEnv W} {v : Srv W} (hwf : WF env v) (op : Op) :
    ∃ v', v.step env op = .ret v' ∧ WF env v' := by
  cases op with
  | start =>
    simp only [step]; split
    · exact ⟨_, rfl, hwf⟩
    · exact ⟨_, rfl, hwf.congr rfl⟩
  | shutdown => exact ⟨_, rfl, hwf.congr rfl⟩
  | addSession u s =>
    simp only [step]; split
    · exact ⟨_, rfl, hwf⟩
    · exact ⟨_, rfl, hwf.congr rfl⟩
  | runTask =>
    simp only [step]; split
    · exact ⟨_, rfl, hwf⟩
    · exact ⟨_, rfl, hwf.congr (runTask_listeners _ _)⟩
  | opened c mem =>
    simp only [step]; split
    · exact ⟨_, rfl, hwf⟩
    · refine ⟨_, rfl, ?_⟩
      intro c' p hp
      simp only [lookup_append_single] at hp
      cases hl : v.listeners.lookup c' with
      | some q => rw [hl] at hp; simp at hp; subst hp; exact hwf c' q hl
      | none =>
        rw [hl] at hp
        simp only [Option.none_or] at hp
        split at hp
        · injection hp with hp; subst hp; exact ⟨rfl, [], rep_init _ _ (by simp)⟩
        · cases hp
  | receive c d =>
    simp only [step]
    cases hl : v.listeners.lookup c with
    | none => exact ⟨_, rfl, hwf⟩
    | some p =>
      obtain ⟨hpol, pend, hrep⟩ := hwf c p hl
      obtain ⟨p', ms, pend', h1, h2, h3⟩ := parse_total hrep d
      simp only [h1, CM.ret_bind]
      obtain ⟨v', h4, h5⟩ := onMbaps_reacts env c ms { v with listeners := setListener v.listeners c p' }
      refine ⟨v', h4, ?_⟩
      intro c' q hq
      rw [h5.same.listeners] at hq
      by_cases hc : c = c'
      · subst hc
        rw [lookup_setListener_same _ _ p _ hl] at hq
        injection hq with hq; subst hq; exact ⟨h3.trans hpol, pend', h2⟩
      · rw [lookup_setListener_other _ _ _ _ hc] at hq
        exact hwf c' q hq
  | error c =>
    simp only [step]
    cases hl : v.listeners.lookup c with
    | none => exact ⟨_, rfl, hwf⟩
    | some p =>
      obtain ⟨hpol, pend, hrep⟩ := hwf c p hl
      refine ⟨_, rfl, ?_⟩
      intro c' q hq
      by_cases hc : c = c'
      · subst hc
        simp only at hq
        rw [lookup_setListener_same _ _ p _ hl] at hq
        injection hq with hq; subst hq; exact ⟨hpol, [], rep_reset _ hrep.mem_length⟩
      · simp only at hq
        rw [lookup_setListener_other _ _ _ _ hc] at hq
        exact hwf c' q hq
  | dropped c =>
    refine ⟨_, rfl, ?_⟩
    intro c' q hq
    simp only at hq
    by_cases hc : c = c'
    · subst hc; rw [lookup_filter_same] at hq; cases hq
    · rw [lookup_filter_other _ _ _ hc] at hq; exact hwf c' q hq

theorem WF.init (env : ServerEnv W) (w : W) : WF env (Srv.init w) := by
  intro c p h; cases h

theorem run_append (env : ServerEnv W) (ops1 : List Op) : ∀ (v : Srv W) (ops2 : List Op),
    v.run env (ops1 ++ ops2) = (v.run env ops1) >>= fun v' => v'.run env ops2 := by
  induction ops1 with
  | nil => intro v ops2; rfl
  | cons op ops1 ih =>
    intro v ops2
    simp only [List.cons_append, run]
    cases v.step env op with
    | ub => rfl
    | ret v1 => simp only [CM.ret_bind]; exact ih v1 ops2

theorem run_total {env : ServerEnv W} (ops : List Op) : ∀ {v : Srv W}, WF env v → ∃ v', v.run env ops = .ret v' ∧ WF env v' := by
  induction ops with
  | nil => intro v h; exact ⟨v, rfl, h⟩
  | cons op ops ih =>
    intro v h
    obtain ⟨v1, h1, h2⟩ := step_total h op
    obtain ⟨v2, h3, h4⟩ := ih h2
    exact ⟨v2, by simp [run, h1, h3], h4⟩

/-- Induction principle for runs. -/
theorem run_induction {env : ServerEnv W} {P : Srv W → Prop} (hstep : ∀ v op v', P v → v.step env op = .ret v' → P v')
    {ops : List Op} : ∀ {v v' : Srv W}, P v → v.run env ops = .ret v' → P v' := by
  induction ops with
  | nil => intro v v' h hr; injection hr with hr; subst hr; exact h
  | cons op ops ih =>
    intro v v' h hr
    simp only [run] at hr
    cases hs : v.step env op with
    | ub => rw [hs] at hr; cases hr
    | ret v1 =>
      rw [hs] at hr
      exact ih (hstep v op v1 h hs) hr

/-- Every step is one of: no reaction (with a described log suffix) or a list of reactions on one connection. -/
theorem step_cases {env : ServerEnv W} {v v' : Srv W} {op : Op} (h : v.step env op = .ret v') :
    (∃ t ts, op = .runTask ∧ v.tasks = t :: ts ∧ v' = { v with tasks := ts }.runTask t) ∨
    (∃ c d p p' ms, op = .receive c d ∧ v.listeners.lookup c = some p ∧ p.parse d = .ret (p', ms) ∧
      ReactsAll env c { v with listeners := setListener v.listeners c p' } ms v') ∨
    (v'.log = v.log ∧ v'.world = v.world ∧ v'.nsend = v.nsend ∧ v'.sessions = v.sessions ∧ v'.isShutdown = v.isShutdown ∧
      v'.isStarted = v.isStarted) := by
  cases op with
  | start => simp only [step] at h; split at h <;> (injection h with h; subst h; simp)
  | shutdown => injection h with h; subst h; simp
  | addSession u s => simp only [step] at h; split at h <;> (injection h with h; subst h; simp)
  | runTask =>
    simp only [step] at h
    split at h
    · injection h with h; subst h; simp
    · rename_i t ts ht
      injection h with h; subst h
      exact Or.inl ⟨t, ts, rfl, ht, rfl⟩
  | opened c mem => simp only [step] at h; split at h <;> (injection h with h; subst h; simp)
  | receive c d =>
    simp only [step] at h
    cases hl : v.listeners.lookup c with
    | none => rw [hl] at h; injection h with h; subst h; simp
    | some p =>
      rw [hl] at h
      simp only at h
      cases hp : p.parse d with
      | ub => rw [hp] at h; cases h
      | ret x =>
        rw [hp] at h
        simp only [CM.ret_bind] at h
        obtain ⟨v2, h1, h2⟩ := onMbaps_reacts env c x.2 { v with listeners := setListener v.listeners c x.1 }
        rw [h1] at h
        injection h with h; subst h
        exact Or.inr (Or.inl ⟨c, d, p, x.1, x.2, rfl, hl, hp, h2⟩)
  | error c =>
    simp only [step] at h
    split at h <;> (injection h with h; subst h; simp)
  | dropped c => injection h with h; subst h; simp

end Srv

end Modbus

namespace Modbus

open Props (IsMessage)

variable {W : Type}

namespace Srv

/-- One reaction in the log, or one event that has nothing to do with messages. -/
inductive Block (env : ServerEnv W) : List SEv → Prop where
  | other (e : SEv) (h1 : ∀ c m, e ≠ .mbap c m) (h2 : ∀ s k r, e ≠ .request s k r) (h3 : ∀ c b, e ≠ .send c b) : Block env [e]
  | reaction (c : ConnId) (m : Mbap) (calls answers : List SEv)
      (hc : calls = [] ∨ ∃ s k r, calls = [.request s k r])
      (ha : answers = [] ∨ ∃ pdu : List UInt8, pdu.length ≤ 253 ∧ answers = [.send c (Spec.frameOf ⟨m.unit, m.tid, pdu⟩).bytes]) :
      Block env (.mbap c m :: (calls ++ answers))

theorem buildMbap_frame (unit : UInt8) (tid : UInt16) (msg : Msg) (hm : IsMessage msg) (mem : List UInt8) (hmem : mem.length = 260) :
    ∃ pdu : List UInt8, pdu.length ≤ 253 ∧ buildMbap unit tid msg ⟨[], mem⟩ = (Spec.frameOf ⟨unit, tid, pdu⟩).bytes ∧
      ∀ p, Props.Emits msg p → p.length ≤ 253 → pdu = p := by
  obtain ⟨payload, h1, h2, h3⟩ := Props.C14_frame_layout unit tid msg hm mem hmem
  have hl : payload.length ≤ 253 := by
    rw [h1] at h2
    simp only [List.length_append, be_length, List.length_cons] at h2
    omega
  refine ⟨payload, hl, ?_, h3⟩
  rw [h1]
  simp only [Spec.frameOf, Spec.Frame.bytes]
  rw [ofNat16_toNat (by omega)]
  rfl

theorem sendMessage_log (env : ServerEnv W) (v : Srv W) (c : ConnId) (unit : UInt8) (tid : UInt16) (msg : Msg) (hm : IsMessage msg) :
    ∃ pdu : List UInt8, pdu.length ≤ 253 ∧
      (v.sendMessage env c unit tid msg).log = v.log ++ [.send c (Spec.frameOf ⟨unit, tid, pdu⟩).bytes] ∧
      ∀ p, Props.Emits msg p → p.length ≤ 253 → pdu = p := by
  obtain ⟨pdu, h1, h2, h3⟩ := buildMbap_frame unit tid msg hm (env.junk v.nsend).toList (by simp)
  exact ⟨pdu, h1, by simp [sendMessage, emit, h2], h3⟩

theorem Reacts.block {env : ServerEnv W} {v v' : Srv W} {c : ConnId} {m : Mbap} (h : Reacts env v c m v') :
    ∃ b, v'.log = v.log ++ b ∧ Block env b ∧ ∃ rest, b = .mbap c m :: rest ∧ (∀ c' m', SEv.mbap c' m' ∉ rest) := by
  cases h with
  | silent => exact ⟨_, rfl, .reaction c m [] [] (Or.inl rfl) (Or.inl rfl), [], rfl, by simp⟩
  | refuse s fc t hr hs hfc =>
    obtain ⟨pdu, h1, h2, -⟩ := sendMessage_log env (v.emit (.mbap c m)) c m.unit m.tid (exceptionMsg fc t)
      (Or.inr (Or.inr ⟨_, _, rfl⟩))
    refine ⟨_, by rw [h2, emit_log, List.append_assoc]; rfl, .reaction c m [] _ (Or.inl rfl) (Or.inr ⟨pdu, h1, rfl⟩), _, rfl, by simp⟩
  | call s k r hp hr hs => exact ⟨_, by simp only [emit_log, List.append_assoc]; rfl, .reaction c m [.request s k r] [] (Or.inr ⟨s, k, r, rfl⟩) (Or.inl rfl), _, rfl, by simp⟩
  | answer s k r hp msg hm hr hs =>
    obtain ⟨pdu, h1, h2, -⟩ := sendMessage_log env
      { (v.emit (.mbap c m)).emit (.request s k r) with world := (env.onRequest s k r v.world).1 } c m.unit m.tid msg hm
    refine ⟨_, by rw [h2]; simp only [emit_log, List.append_assoc]; rfl,
      .reaction c m [.request s k r] _ (Or.inr ⟨s, k, r, rfl⟩) (Or.inr ⟨pdu, h1, rfl⟩), _, rfl, by simp⟩

theorem ReactsAll.blocks {env : ServerEnv W} {v v' : Srv W} {c : ConnId} {ms : List Mbap} (h : ReactsAll env c v ms v') :
    ∃ bs : List (List SEv), v'.log = v.log ++ bs.flatten ∧ (∀ b ∈ bs, Block env b) ∧
      List.Forall₂ (fun m b => ∃ rest, b = SEv.mbap c m :: rest ∧ (∀ c' m', SEv.mbap c' m' ∉ rest)) ms bs := by
  induction h with
  | nil v => exact ⟨[], by simp, by simp, .nil⟩
  | cons h _ ih =>
    obtain ⟨b, h1, h2, h3⟩ := h.block
    obtain ⟨bs, h4, h5, h6⟩ := ih
    refine ⟨b :: bs, by rw [h4, h1]; simp, ?_, .cons h3 h6⟩
    intro b' hb'
    rcases List.mem_cons.1 hb' with rfl | hb'
    · exact h2
    · exact h5 b' hb'

theorem runTask_blocks (env : ServerEnv W) (v : Srv W) (t : STask) :
    ∃ es : List SEv, (v.runTask t).log = v.log ++ es ∧ (∀ e ∈ es, Block env [e]) ∧ ∀ c m, SEv.mbap c m ∉ es := by
  have hb : ∀ e : SEv, (∀ c m, e ≠ .mbap c m) → (∀ s k r, e ≠ .request s k r) → (∀ c b, e ≠ .send c b) → Block env [e] :=
    fun e h1 h2 h3 => .other e h1 h2 h3
  cases t with
  | start =>
    simp only [runTask]
    split
    · exact ⟨[], by simp, by simp, by simp⟩
    · exact ⟨[.serverStart], rfl, by intro e he; simp only [List.mem_singleton] at he; subst he; exact hb _ (by simp) (by simp) (by simp), by simp⟩
  | shutdown =>
    simp only [runTask]
    by_cases hs : v.isStarted = true
    · rw [if_pos hs]
      refine ⟨.serverShutdown :: v.sessions.map fun x => .sessionShutdown x.2, by simp [emit], ?_, by simp⟩
      intro e he
      simp only [List.mem_cons, List.mem_map] at he
      rcases he with rfl | ⟨x, -, rfl⟩ <;> exact hb _ (by simp) (by simp) (by simp)
    · rw [if_neg hs]
      refine ⟨v.sessions.map fun x => .sessionShutdown x.2, rfl, ?_, by simp⟩
      intro e he
      simp only [List.mem_map] at he
      rcases he with ⟨x, -, rfl⟩; exact hb _ (by simp) (by simp) (by simp)
  | addSession u s =>
    simp only [runTask]
    repeat' split
    all_goals exact ⟨[], by simp, by simp, by simp⟩

theorem step_blocks {env : ServerEnv W} {v v' : Srv W} {op : Op} (h : v.step env op = .ret v') :
    ∃ bs : List (List SEv), v'.log = v.log ++ bs.flatten ∧ ∀ b ∈ bs, Block env b := by
  rcases step_cases h with ⟨t, ts, -, -, rfl⟩ | ⟨c, d, p, p', ms, -, -, -, h⟩ | ⟨h, -⟩
  · obtain ⟨es, h1, h2, -⟩ := runTask_blocks env { v with tasks := ts } t
    refine ⟨es.map fun e => [e], by rw [h1]; simp [← List.flatMap_def], ?_⟩
    intro b hb
    obtain ⟨e, he, rfl⟩ := List.mem_map.1 hb
    exact h2 e he
  · obtain ⟨bs, h1, h2, -⟩ := h.blocks
    exact ⟨bs, h1, h2⟩
  · exact ⟨[], by simp [h], by simp⟩

theorem run_blocks {env : ServerEnv W} {ops : List Op} : ∀ {v v' : Srv W}, v.run env ops = .ret v' →
    ∃ bs : List (List SEv), v'.log = v.log ++ bs.flatten ∧ ∀ b ∈ bs, Block env b := by
  induction ops with
  | nil => intro v v' hr; injection hr with hr; subst hr; exact ⟨[], by simp, by simp⟩
  | cons op ops ih =>
    intro v v' hr
    simp only [run] at hr
    cases hs : v.step env op with
    | ub => rw [hs] at hr; cases hr
    | ret v1 =>
      rw [hs] at hr
      obtain ⟨b1, h1, h2⟩ := step_blocks hs
      obtain ⟨b2, h3, h4⟩ := ih hr
      refine ⟨b1 ++ b2, by rw [h3, h1]; simp, ?_⟩
      intro b hb
      rcases List.mem_append.1 hb with hb | hb
      · exact h2 b hb
      · exact h4 b hb

/-- Locating an element of a concatenation. -/
theorem flatten_split {α : Type} (bs : List (List α)) : ∀ {l1 l2 : List α} {x : α}, bs.flatten = l1 ++ x :: l2 →
    ∃ bs1 b bs2 p q, bs = bs1 ++ b :: bs2 ∧ b = p ++ x :: q ∧ l1 = bs1.flatten ++ p := by
  induction bs with
  | nil => intro l1 l2 x h; simp at h
  | cons b bs ih =>
    intro l1 l2 x h
    rw [List.flatten_cons] at h
    rcases List.append_eq_append_iff.1 h with ⟨a, h1, h2⟩ | ⟨a, h1, h2⟩
    · obtain ⟨bs1, b', bs2, p, q, h3, h4, h5⟩ := ih h2
      exact ⟨b :: bs1, b', bs2, p, q, by rw [h3]; rfl, h4, by rw [h1, h5]; simp⟩
    · cases a with
      | nil =>
        simp only [List.nil_append] at h2
        obtain ⟨bs1, b', bs2, p, q, h3, h4, h5⟩ := ih (l1 := []) h2.symm
        exact ⟨b :: bs1, b', bs2, p, q, by rw [h3]; rfl, h4, by simp at h1; rw [h1.symm]; simpa using h5⟩
      | cons y a =>
        rw [List.cons_append] at h2
        injection h2 with h2 h2'
        subst h2
        exact ⟨[], b, bs, l1, a, rfl, h1, by simp⟩

/-! ### Sessions -/

/-- The sessions are given by the tasks run so far. -/
theorem runTask_sessions_running {v : Srv W} {t : STask} (h : (v.runTask t).isShutdown = false) :
    v.isShutdown = false := by
  cases t <;> simp only [runTask] at h
  · split at h
    · rename_i h'; rw [h'] at h; cases h
    · exact h
  · revert h; split <;> simp
  · split at h
    · exact h
    · split at h <;> exact h

theorem runTask_shutdown {v : Srv W} (t : STask) (h : v.isShutdown = true) : (v.runTask t).isShutdown = true := by
  cases hs : (v.runTask t).isShutdown with
  | true => rfl
  | false => rw [runTask_sessions_running hs] at h; cases h

end Srv

end Modbus
