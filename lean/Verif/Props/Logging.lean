import Verif.Lemmas.Loggers
import Verif.Lemmas.ServerLogging
import Verif.Props.Client
import Verif.Props.ServerLife

/-! Properties C122 to C125: what is logged. -/

namespace Modbus.Props

open Spec Cli

/-! ### C122 -/

/-- C122. Let a client channel `name` be created at `level` by a manager whose logger has the sinks `g.sinks`; whatever happens before and after, a line of
the channel is printed, on exactly these sinks and under the channel's name, if its level is at least `level`, and otherwise not at all; a line of its
connection likewise, under the name with " - Connection".  The level of the manager's logger, other channels and later changes of levels do not matter. -/
theorem C122_client_level (pre post : List Logs.Op) (m i : Nat) (g : SpdLogger) (name : String) (level : LogLevel)
    (hm : (Logs.init.run pre).mgrs[m]? = some i) (hg : (Logs.init.run pre).heap[i]? = some g) (v : Logs)
    (hv : v = Logs.init.run (pre ++ .client m name level :: post)) (c : Nat) (hc : c = (Logs.init.run pre).chans.length) :
    (∀ l : CLine, (v.step (.write c (.channel l))).out =
      v.out ++ if admits level l.level then g.sinks.map (fun s => ⟨s, name, l.level, .channel l⟩) else []) ∧
    (∀ l : TLine, (v.step (.write c (.connection l))).out =
      v.out ++ if admits level l.level then g.sinks.map (fun s => ⟨s, name ++ " - Connection", l.level, .connection l⟩) else []) := by
  have hk := Logs.keeps_run post ((Logs.init.run pre).step (.client m name level))
  rw [← Logs.run_cons, ← Logs.run_append, ← hv] at hk
  have he : (Logs.init.run pre).step (.client m name level) = { Logs.init.run pre with
      heap := (Logs.init.run pre).heap ++ [Logs.clone g (name ++ " - Connection") level, Logs.clone g name level]
      chans := (Logs.init.run pre).chans ++ [.client (Logs.init.run pre).heap.length ((Logs.init.run pre).heap.length + 1)] } := by
    simp [Logs.step, hm, hg]
  rw [he] at hk
  have h1 : v.chans[c]? = some (.client (Logs.init.run pre).heap.length ((Logs.init.run pre).heap.length + 1)) := hk.chans c _ (by simp [hc])
  have h2 : v.heap[(Logs.init.run pre).heap.length + 1]? = some (Logs.clone g name level) := hk.heap _ _ (by simp) rfl
  have h3 : v.heap[(Logs.init.run pre).heap.length]? = some (Logs.clone g (name ++ " - Connection") level) := hk.heap _ _ (by simp) rfl
  constructor
  · intro l
    simp only [Logs.step, h1, Logs.loggerOf]
    rw [Logs.write_out h2]
    simp only [← admits_iff, Logs.clone, LogText.level]
  · intro l
    simp only [Logs.step, h1, Logs.loggerOf]
    rw [Logs.write_out h3]
    simp only [← admits_iff, Logs.clone, LogText.level]

/-- C122, for servers: the channel and its connections print under the name with " - Server". -/
theorem C122_server_level (pre post : List Logs.Op) (m i : Nat) (g : SpdLogger) (name : String) (level : LogLevel)
    (hm : (Logs.init.run pre).mgrs[m]? = some i) (hg : (Logs.init.run pre).heap[i]? = some g) (v : Logs)
    (hv : v = Logs.init.run (pre ++ .server m name level :: post)) (c : Nat) (hc : c = (Logs.init.run pre).chans.length) :
    (∀ l : SLine, (v.step (.write c (.server l))).out =
      v.out ++ if admits level l.level then g.sinks.map (fun s => ⟨s, name ++ " - Server", l.level, .server l⟩) else []) ∧
    (∀ l : ALine, (v.step (.write c (.served l))).out =
      v.out ++ if admits level l.level then g.sinks.map (fun s => ⟨s, name ++ " - Server", l.level, .served l⟩) else []) := by
  have hk := Logs.keeps_run post ((Logs.init.run pre).step (.server m name level))
  rw [← Logs.run_cons, ← Logs.run_append, ← hv] at hk
  have he : (Logs.init.run pre).step (.server m name level) = { Logs.init.run pre with
      heap := (Logs.init.run pre).heap ++ [Logs.clone g (name ++ " - Server") level]
      chans := (Logs.init.run pre).chans ++ [.server (Logs.init.run pre).heap.length] } := by
    simp [Logs.step, hm, hg]
  rw [he] at hk
  have h1 : v.chans[c]? = some (.server (Logs.init.run pre).heap.length) := hk.chans c _ (by simp [hc])
  have h2 : v.heap[(Logs.init.run pre).heap.length]? = some (Logs.clone g (name ++ " - Server") level) := hk.heap _ _ (by simp) rfl
  constructor
  · intro l
    simp only [Logs.step, h1, Logs.loggerOf]
    rw [Logs.write_out h2]
    simp only [← admits_iff, Logs.clone, LogText.level]
  · intro l
    simp only [Logs.step, h1, Logs.loggerOf]
    rw [Logs.write_out h2]
    simp only [← admits_iff, Logs.clone, LogText.level]

/-- A user's logger with two sinks, given to a manager; the user lowers its level later. -/
def logOps : List Logs.Op := [.own "app" .off [7, 8], .custom 0 .warn, .manager 0, .server 0 "s" .debug]

example : (Logs.init.run logOps).mgrs[0]? = some 0 ∧ (Logs.init.run logOps).heap[0]? = some ⟨"app", .warn, [7, 8], true⟩ ∧ (Logs.init.run logOps).chans.length = 1 ∧
    (Logs.init.run (logOps ++ [.client 0 "c" .info, .setLevel 0 .trace, .session 1, .write 1 (.channel (.received 3)), .write 1 (.channel .notWaiting),
      .write 1 (.connection .established), .write 0 (.served (.bytes 5))])).out =
      [⟨7, "c", .warn, .channel .notWaiting⟩, ⟨8, "c", .warn, .channel .notWaiting⟩, ⟨7, "c - Connection", .info, .connection .established⟩,
       ⟨8, "c - Connection", .info, .connection .established⟩, ⟨7, "s - Server", .debug, .served (.bytes 5)⟩,
       ⟨8, "s - Server", .debug, .served (.bytes 5)⟩] := by decide +kernel

/-! ### C123 -/

/-- Only channels, sessions and lines. -/
def OnlyChannels : Logs.Op → Prop
  | .client _ _ _ => True
  | .server _ _ _ => True
  | .session _ => True
  | .write _ _ => True
  | _ => False

/-- C123, as a user would read "Logging level of this logger": what a manager made with a console logger prints is at least of the logger's level. -/
def C123_Statement : Prop := ∀ (name : String) (level : LogLevel) (sink : Nat) (ops : List Logs.Op), (∀ op ∈ ops, OnlyChannels op) →
  ∀ p ∈ (Logs.init.run (.console name level sink :: .manager 0 :: ops)).out, admits level p.level = true

/-- C123 does not hold: the level is not handed on; a channel made without naming a level prints its information. -/
theorem C123_violated : ¬ C123_Statement := by
  intro h
  have := h "log" .error 0 [.client 0 "c" .info, .write 0 (.channel .shuttingDown)] (by
    intro op hop
    rcases List.mem_cons.1 hop with rfl | hop
    · trivial
    · rw [List.mem_singleton.1 hop]; trivial) ⟨0, "c", .info, .channel .shuttingDown⟩ (by decide +kernel)
  revert this
  decide

/-- C123 with what is missing as a hypothesis: if no channel is created with a level below `level`, nothing below `level` is printed (whatever loggers there
are and whatever else happens). -/
theorem C123_level_partial (level : LogLevel) (ops : List Logs.Op)
    (h : ∀ m name l, (Logs.Op.client m name l ∈ ops ∨ Logs.Op.server m name l ∈ ops) → admits level l.toSpd = true) :
    ∀ p ∈ (Logs.init.run ops).out, admits level p.level = true := by
  have h0 : Logs.Above level.toSpd.rank Logs.init := by
    constructor
    · intro c hc; cases hc
    · intro p hp; cases hp
  have h1 := Logs.Above.run ops h0 (by
    rintro op hop m name l (rfl | rfl)
    · exact (admits_iff _ _).1 (h m name l (.inl hop))
    · exact (admits_iff _ _).1 (h m name l (.inr hop)))
  intro p hp
  exact (admits_iff _ _).2 (h1.out p hp)

example : ∃ ops : List Logs.Op, (∀ m name l, (Logs.Op.client m name l ∈ ops ∨ Logs.Op.server m name l ∈ ops) → admits .warn l.toSpd = true) ∧
    (Logs.init.run ops).out = [⟨0, "c", .warn, .channel .notWaiting⟩] :=
  ⟨[.console "log" .error 0, .manager 0, .client 0 "c" .warn, .write 0 (.channel .shuttingDown), .write 0 (.channel .notWaiting)],
    by simp; rintro _ _ _ - - rfl; decide, by decide +kernel⟩

/-- What the level of a console logger given to a manager does: nothing. -/
theorem C123_level_ignored (name : String) (level level' : LogLevel) (sink : Nat) (ops : List Logs.Op) :
    (Logs.init.run (.console name level sink :: ops)).out = (Logs.init.run (.console name level' sink :: ops)).out := by
  obtain ⟨v, h⟩ := Logs.first_run name [sink] ops Logs.init (fun c hc => by cases hc)
  have e : ∀ l : LogLevel, (Logs.init.run (.console name l sink :: ops)).out = v.out := by
    intro l
    have : Logs.init.run (.console name l sink :: ops) = (Logs.first name [sink] Logs.init l.toSpd).run ops := rfl
    rw [this, h]; rfl
  rw [e, e]

/-! ### C124 -/

theorem runLines_of_run {env : ClientEnv} (ops : List Op) : ∀ {v v' : Cli}, v.run env ops = .ret v' → ∃ ls, v.runLines env ops = .ret (v', ls) := by
  induction ops with
  | nil =>
    intro v v' h
    simp only [Cli.run] at h
    injection h with h; subst h
    exact ⟨[], rfl⟩
  | cons op ops ih =>
    intro v v' h
    simp only [Cli.run, CM.bind_eq_ret] at h
    obtain ⟨v1, h1, h2⟩ := h
    obtain ⟨ls, h3⟩ := ih h2
    exact ⟨v.lines env op ++ ls, by simp only [Cli.runLines, h1, h3, CM.ret_bind, CM.pure_eq]⟩

/-- C124. Whatever happens, the lines of a client channel are, in order, what one would write who only sees its effects: a line for every frame sent, with the ids
in the frame, the timeout of the call and the length of the PDU; for every chunk of data and every message (with its ids, and whether it answers the request that
is out); for every timeout (with the ids of the request that is out); for every failure of the connection; for the shutdown. -/
theorem C124_log_is_truthful (env : ClientEnv) (ops : List Op) : ∃ v ls, (Cli.init env).runLines env ops = .ret (v, ls) ∧
    (Cli.init env).run env ops = .ret v ∧ ls = Witness.init.account v.log := by
  obtain ⟨v, h⟩ := client_total env ops
  obtain ⟨ls, h1⟩ := runLines_of_run ops h
  obtain ⟨⟨es, h2, h3, -⟩, -⟩ := (Cli.Known.init env).runLines ops h1
  refine ⟨v, ls, h1, h, ?_⟩
  have h4 : v.log = es := h2
  rw [h4]
  exact h3.symm

/-- C124, counted: the lines about sending name the frames sent, one by one; there are as many lines about responses as handlers given a response, and
as many about timeouts as handlers told of a timeout. -/
theorem C124_lines_match_effects (env : ClientEnv) (ops : List Op) (v : Cli) (ls : List CLine) (h : (Cli.init env).runLines env ops = .ret (v, ls)) :
    (v.log.filterMap sentFrame?).map frameIds = (ls.filterMap sendingIds?).map some ∧
    v.log.countP toldTimeout = ls.countP saysTimeout ∧ v.log.countP toldResponse = ls.countP saysResponse := by
  obtain ⟨es, h1, h2⟩ := (Cli.Known.init env).fairLines ops h
  have h3 : v.log = es := h1
  rw [h3]
  exact h2

def linesFrom (x : CM (Cli × List CLine)) : Option (List CLine) :=
  match x with
  | .ub => none
  | .ret (_, ls) => some ls

example : linesFrom ((Cli.init demoEnv).runLines demoEnv (clientOps ++ [.receive [1, 2, 3], .error])) = some
    [.sending 1 0 10 5, .received 7, .received 4, .response 1 0, .sending 2 1 5 5, .timeout 2 1, .sending 3 2 7 5, .connError, .shuttingDown] := by decide +kernel

/-! ### C125 -/

theorem runTrace_of_run {W : Type} {env : ServerEnv W} (ops : List Srv.Op) : ∀ {v v' : Srv W}, v.run env ops = .ret v' → ∃ ls, v.runTrace env ops = .ret (v', ls) := by
  induction ops with
  | nil =>
    intro v v' h
    simp only [Srv.run] at h
    injection h with h; subst h
    exact ⟨[], rfl⟩
  | cons op ops ih =>
    intro v v' h
    simp only [Srv.run, CM.bind_eq_ret] at h
    obtain ⟨v1, h1, h2⟩ := h
    obtain ⟨ls, h3⟩ := ih h2
    exact ⟨v.trace env op ++ ls, by simp only [Srv.runTrace, h1, h3, CM.ret_bind, CM.pure_eq]⟩

/-- C125. Whatever happens, the effects and lines of a server channel are such that every message that comes before the shutdown is either handed to a
session, as the request it denotes, or followed at once by a warning that says what is wrong with it (with the right unit or function code); after the
shutdown messages lead to nothing; and there are no other lines, except for one at each shutdown. -/
theorem C125_no_silent_message {W : Type} (env : ServerEnv W) (w : W) (ops : List Srv.Op) : ∃ v tr, (Srv.init w).runTrace env ops = .ret (v, tr) ∧
    (Srv.init w).run env ops = .ret v ∧ v.log = effects tr ∧ Accounted false v.isShutdown tr := by
  obtain ⟨v, h, -⟩ := Srv.run_total ops (Srv.WF.init env w)
  obtain ⟨tr, h1⟩ := runTrace_of_run ops h
  obtain ⟨-, h2, h3⟩ := Srv.trace_run ops h1
  exact ⟨v, tr, h1, h, h2, h3⟩

theorem accounted_message {d d' : Bool} {tr : List SLog} (h : Accounted d d' tr) (hd : d = false) (l1 l2 : List SLog) (c : ConnId) (m : Mbap)
    (he : tr = l1 ++ .ev (.mbap c m) :: l2) (hs : SLog.line .shuttingDown ∉ l1) : ∃ r l3, l2 = r ++ l3 ∧ Handled c m r := by
  induction h generalizing l1 with
  | nil => cases l1 <;> cases he
  | @message c' m' r rest d' hr hrest ih =>
    rcases l1 with _ | ⟨x, l1⟩
    · simp only [List.nil_append, List.cons.injEq, SLog.ev.injEq, SEv.mbap.injEq] at he
      obtain ⟨⟨rfl, rfl⟩, rfl⟩ := he
      exact ⟨r, rest, rfl, hr⟩
    · simp only [List.cons_append, List.cons.injEq] at he
      obtain ⟨-, he⟩ := he
      have hn : SLog.ev (.mbap c m) ∉ r := by cases hr <;> simp
      rcases List.append_eq_append_iff.1 he with ⟨a, rfl, h2⟩ | ⟨a, rfl, h2⟩
      · exact ih rfl a h2 (fun hh => hs (by simp [hh]))
      · rcases a with _ | ⟨y, a⟩
        · exact ih rfl [] (by simpa using h2.symm) (by simp)
        · simp only [List.cons_append, List.cons.injEq] at h2
          obtain ⟨rfl, -⟩ := h2
          exact absurd (by simp) hn
  | ignored => cases hd
  | @aside e rest d d' hne hrest ih =>
    rcases l1 with _ | ⟨x, l1⟩
    · simp only [List.nil_append, List.cons.injEq, SLog.ev.injEq] at he
      obtain ⟨rfl, -⟩ := he
      exact hne.elim
    · simp only [List.cons_append, List.cons.injEq] at he
      exact ih hd l1 he.2 (fun hh => hs (List.mem_cons_of_mem _ hh))
  | shutdown d hrest ih =>
    rcases l1 with _ | ⟨x, l1⟩
    · simp only [List.nil_append, List.cons.injEq, reduceCtorEq, false_and] at he
    · simp only [List.cons_append, List.cons.injEq] at he
      exact absurd (by simp [← he.1]) hs

/-- C125, seen from a message: it leads to a warning or to the call of a session, at once. -/
theorem C125_message_is_handled {W : Type} (env : ServerEnv W) (w : W) (ops : List Srv.Op) (v : Srv W) (tr l1 l2 : List SLog) (c : ConnId) (m : Mbap)
    (h : (Srv.init w).runTrace env ops = .ret (v, tr)) (he : tr = l1 ++ .ev (.mbap c m) :: l2) (hs : SLog.line .shuttingDown ∉ l1) :
    (∃ l l3, l2 = .line l :: l3 ∧ l.level = .warn) ∨ ∃ s k q l3, l2 = .ev (.request s k q) :: l3 ∧ Denotes k m.data q := by
  obtain ⟨-, -, h2⟩ := Srv.trace_run ops h
  obtain ⟨r, l3, rfl, hr⟩ := accounted_message h2 rfl l1 l2 c m he hs
  cases hr
  · exact .inl ⟨_, _, rfl, rfl⟩
  · exact .inl ⟨_, _, rfl, rfl⟩
  · exact .inl ⟨_, _, rfl, rfl⟩
  · exact .inl ⟨_, _, rfl, rfl⟩
  · rename_i s k q hq; exact .inr ⟨s, k, q, _, rfl, hq⟩
  · rename_i s k q b hq; exact .inr ⟨s, k, q, _, rfl, hq⟩

theorem accounted_line {d d' : Bool} {tr : List SLog} (h : Accounted d d' tr) (l1 l2 : List SLog) (l : SLine)
    (he : tr = l1 ++ .line l :: l2) (hl : l ≠ .shuttingDown) : ∃ l0 c m, l1 = l0 ++ [.ev (.mbap c m)] := by
  induction h generalizing l1 with
  | nil => cases l1 <;> cases he
  | @message c' m' r rest d' hr hrest ih =>
    rcases l1 with _ | ⟨x, l1⟩
    · simp only [List.nil_append, List.cons.injEq, reduceCtorEq, false_and] at he
    · simp only [List.cons_append, List.cons.injEq] at he
      obtain ⟨rfl, he⟩ := he
      rcases List.append_eq_append_iff.1 he with ⟨a, rfl, h2⟩ | ⟨a, rfl, h2⟩
      · obtain ⟨l0, c, m, rfl⟩ := ih a h2
        exact ⟨.ev (.mbap c' m') :: r ++ l0, c, m, by simp⟩
      · rcases a with _ | ⟨y, a⟩
        · obtain ⟨l0, c, m, h3⟩ := ih [] (by simpa using h2.symm)
          cases l0 <;> cases h3
        · simp only [List.cons_append, List.cons.injEq] at h2
          obtain ⟨rfl, -⟩ := h2
          rcases l1 with _ | ⟨z, l1⟩
          · exact ⟨[], c', m', rfl⟩
          · exfalso
            generalize hg : z :: l1 ++ SLog.line l :: a = r at hr
            cases hr <;> simp at hg <;> (try (rcases l1 with _ | ⟨_, l1⟩ <;> simp at hg))
  | @ignored c' m' rest d' hrest ih =>
    rcases l1 with _ | ⟨x, l1⟩
    · simp only [List.nil_append, List.cons.injEq, reduceCtorEq, false_and] at he
    · simp only [List.cons_append, List.cons.injEq] at he
      obtain ⟨l0, c, m, rfl⟩ := ih l1 he.2
      exact ⟨x :: l0, c, m, rfl⟩
  | @aside e rest d d' hne hrest ih =>
    rcases l1 with _ | ⟨x, l1⟩
    · simp only [List.nil_append, List.cons.injEq, reduceCtorEq, false_and] at he
    · simp only [List.cons_append, List.cons.injEq] at he
      obtain ⟨l0, c, m, rfl⟩ := ih l1 he.2
      exact ⟨x :: l0, c, m, rfl⟩
  | shutdown d hrest ih =>
    rcases l1 with _ | ⟨x, l1⟩
    · simp only [List.nil_append, List.cons.injEq, SLog.line.injEq] at he
      exact absurd he.1.symm hl
    · simp only [List.cons_append, List.cons.injEq] at he
      obtain ⟨l0, c, m, rfl⟩ := ih l1 he.2
      exact ⟨x :: l0, c, m, rfl⟩

/-- C125, seen from a line: every line but that of the shutdown is about the message just received. -/
theorem C125_warning_has_a_message {W : Type} (env : ServerEnv W) (w : W) (ops : List Srv.Op) (v : Srv W) (tr l1 l2 : List SLog) (l : SLine)
    (h : (Srv.init w).runTrace env ops = .ret (v, tr)) (he : tr = l1 ++ .line l :: l2) (hl : l ≠ .shuttingDown) :
    ∃ l0 c m, l1 = l0 ++ [.ev (.mbap c m)] := by
  obtain ⟨-, -, h2⟩ := Srv.trace_run ops h
  exact accounted_line h2 l1 l2 l he hl

/-- C125, about units: the unit of a message is called unknown if and only if no session has it at that moment. -/
theorem C125_unknown_unit {W : Type} (env : ServerEnv W) (v : Srv W) (c : ConnId) (m : Mbap) (hs : v.isShutdown = false) :
    (SLog.line (.unknownUnit m.unit) ∈ v.mbapTrace env c m ↔ v.sessions.lookup m.unit = none) := by
  obtain ⟨v', r, h1, h2, h3, h4, h5, h6⟩ := Srv.mbapTrace_eq env v c m
  obtain ⟨h7, h8⟩ := h6 hs
  rw [h2, ← h8]
  constructor
  · intro hm
    cases h7 <;> simp_all
  · intro hr; rw [hr]; simp

def traceFrom {W : Type} (x : CM (Srv W × List SLog)) : Option (List SLog) :=
  match x with
  | .ub => none
  | .ret (_, tr) => some tr

/-- A read that is answered, one for a unit nobody has, an unsupported function, a quantity out of range, a truncated request, shutdown, one more read. -/
example : traceFrom (Srv.runTrace (demo 0) (Srv.init 0) (demoOps ++ [.opened 5 (Vector.replicate 260 0),
      .receive 5 [1, 2, 0, 0, 0, 6, 1, 3, 0, 16, 0, 2], .receive 5 [1, 3, 0, 0, 0, 6, 9, 3, 0, 16, 0, 2], .receive 5 [1, 4, 0, 0, 0, 3, 1, 0x2B, 14],
      .receive 5 [1, 5, 0, 0, 0, 6, 1, 3, 0, 16, 0, 126], .receive 5 [1, 6, 0, 0, 0, 4, 1, 3, 0, 16], .shutdown, .runTask,
      .receive 5 [1, 7, 0, 0, 0, 6, 1, 3, 0, 16, 0, 2]])) = some
    [.ev .serverStart, .ev (.mbap 5 ⟨1, 0x0102, [3, 0, 16, 0, 2]⟩), .ev (.request 0 .readHoldingRegisters ⟨16, 2⟩),
     .ev (.send 5 [1, 2, 0, 0, 0, 7, 1, 3, 4, 0, 0, 0, 0]),
     .ev (.mbap 5 ⟨9, 0x0103, [3, 0, 16, 0, 2]⟩), .line (.unknownUnit 9),
     .ev (.mbap 5 ⟨1, 0x0104, [0x2B, 14]⟩), .line (.unsupported 0x2B), .ev (.send 5 [1, 4, 0, 0, 0, 3, 1, 0xAB, 1]),
     .ev (.mbap 5 ⟨1, 0x0105, [3, 0, 16, 0, 126]⟩), .line .invalid, .ev (.send 5 [1, 5, 0, 0, 0, 3, 1, 0x83, 3]),
     .ev (.mbap 5 ⟨1, 0x0106, [3, 0, 16]⟩), .line .invalid,
     .line .shuttingDown, .ev .serverShutdown, .ev (.sessionShutdown 0), .ev (.sessionShutdown 1), .ev (.sessionShutdown 2), .ev (.sessionShutdown 3),
     .ev (.mbap 5 ⟨1, 0x0107, [3, 0, 16, 0, 2]⟩)] := by decide +kernel

end Modbus.Props
