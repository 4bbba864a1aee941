import Verif.Lemmas.SystemLive
import Verif.Props.System

/-!
C79, C80: requests are not lost between client and server.
-/

namespace Modbus

open Spec

variable {W : Type}

namespace Sys

theorem step_log {env : SysEnv W} {v v' : Sys W} {op : Op} (hs : v.step env op = .ret v') : ∃ es, v'.log = v.log ++ es := by
  have hcli : ∀ {v v' : Sys W} {op : Cli.Op}, v.clientStep env op = .ret v' → ∃ es, v'.log = v.log ++ es := by
    intro v v' op h
    simp only [clientStep] at h
    cases hc : v.cli.step env.client op with
    | ub => rw [hc] at h; cases h
    | ret c => rw [hc] at h; injection h with h; subst h; exact ⟨_, rfl⟩
  have hsrv : ∀ {v v' : Sys W} {op : Srv.Op}, v.serverStep env op = .ret v' → ∃ es, v'.log = v.log ++ es := by
    intro v v' op h
    simp only [serverStep] at h
    cases hc : v.srv.step env.server op with
    | ub => rw [hc] at h; cases h
    | ret c => rw [hc] at h; injection h with h; subst h; exact ⟨_, rfl⟩
  cases op with
  | client op =>
    simp only [step] at hs
    split at hs
    · exact hcli hs
    · injection hs with hs; subst hs; exact ⟨[], by simp⟩
  | server op =>
    simp only [step] at hs
    split at hs
    · exact hsrv hs
    · injection hs with hs; subst hs; exact ⟨[], by simp⟩
  | arrive i n => simp only [step] at hs; have h := hsrv hs; exact h
  | hear n => simp only [step] at hs; have h := hcli hs; exact h
  | reconnect mem =>
    simp only [step] at hs
    cases hc : v.clientStep env .error with
    | ub => rw [hc] at hs; cases hs
    | ret v1 =>
      rw [hc] at hs
      obtain ⟨es, h1⟩ := hcli hc
      obtain ⟨es', h2⟩ := hsrv hs
      exact ⟨es ++ es', by rw [h2]; simp only [h1, List.append_assoc]⟩

theorem run_log {env : SysEnv W} (ops : List Op) : ∀ {v v' : Sys W}, v.run env ops = .ret v' → ∃ es, v'.log = v.log ++ es := by
  induction ops with
  | nil => intro v v' h; injection h with h; subst h; exact ⟨[], by simp⟩
  | cons op ops ih =>
    intro v v' h
    simp only [run] at h
    cases hs : v.step env op with
    | ub => rw [hs] at h; cases h
    | ret v1 =>
      rw [hs] at h
      obtain ⟨a, ha⟩ := step_log hs
      obtain ⟨b, hb⟩ := ih h
      exact ⟨a ++ b, by rw [hb, ha, List.append_assoc]⟩

end Sys

namespace Props

theorem XReach.run {env : SysEnv W} {w : W} {v v' : Sys W} (h : XReach env w v) {ops : List Sys.Op} (hr : v.run env ops = .ret v') : XReach env w v' := by
  obtain ⟨mem, ops0, h⟩ := h
  exact ⟨mem, ops0 ++ ops, by rw [Sys.run_append, h]; exact hr⟩

/-- A request called after `v1` has a number not given before. -/
theorem called_later {env : SysEnv W} {w : W} {v1 v2 : Sys W} {ops : List Sys.Op} (h : XReach env w v1) (hrun : v1.run env ops = .ret v2)
    {u : Nat} {unit : UInt8} {q : AnyReq} {tmo : Nat} (hc : CEv.call u unit q tmo ∈ cliLog v2.log) (hnew : CEv.call u unit q tmo ∉ cliLog v1.log) :
    v1.cli.nextUid ≤ u := by
  have hi1 := h.inv
  have hi2 := (h.run hrun).inv
  by_contra hlt
  have hm : u ∈ (submissions v1.cli.log).map (·.1) := by
    rw [hi1.creach.inv.1.calls, List.mem_range]; omega
  obtain ⟨⟨u', a, q', t'⟩, h1, h2⟩ := List.mem_map.1 hm
  simp only at h2; subst h2
  have hcall : CEv.call u' a q' t' ∈ v1.cli.log := by
    simp only [submissions, List.mem_filterMap] at h1
    obtain ⟨e, he, h1⟩ := h1
    cases e with
    | call _ _ _ _ => injection h1 with h1; injection h1 with g1 g2; injection g2 with g2 g3; injection g3 with g3 g4; subst_vars; exact he
    | _ => cases h1
  obtain ⟨es, hes⟩ := Sys.run_log ops hrun
  have hcall2 : CEv.call u' a q' t' ∈ v2.cli.log := by
    rw [← hi2.cliLog, hes, cliLog_append, hi1.cliLog]; exact List.mem_append_left _ hcall
  rw [hi2.cliLog] at hc
  obtain ⟨g1, g2, g3⟩ := Cli.calls_unique hi2.creach.inv.1 hc hcall2
  subst g1 g2 g3
  rw [hi1.cliLog] at hnew
  exact hnew hcall

/-- **C79.**  No request is lost: consider a session that is registered and always answers.  A request to its unit, made later and sent,
has had its handler called as soon as nothing is underway on the client's connection in either direction, unless the
server's end of that connection is gone or one of the channels is shut down. -/
theorem C79_no_request_lost (env : SysEnv W) (w : W) (v1 v2 : Sys W) (ops : List Sys.Op) (h : XReach env w v1) (hrun : v1.run env ops = .ret v2)
    (unit : UInt8) (s : SessId) (hreg : v1.srv.sessions.lookup unit = some s)
    (hans : ∀ k q w e, (env.server.onRequest s k q w).2 = .error e → ∃ t, e = .modbus t)
    (hsrv : v2.srv.isShutdown = false) (hcli : CEv.tcpShutdown ∉ cliLog v2.log)
    (halive : (v2.srv.listeners.lookup (2 * v2.conn)).isSome) (hup : v2.up v2.conn = []) (hdown : v2.down v2.conn = [])
    (u : Nat) (q : AnyReq) (tmo : Nat) (hcall : CEv.call u unit q tmo ∈ cliLog v2.log) (hnew : CEv.call u unit q tmo ∉ cliLog v1.log)
    (hsent : u ∈ sentUids (cliLog v2.log)) : u ∈ handledUids (cliLog v2.log) := by
  have hn := called_later h hrun hcall hnew
  have hi1 := h.inv
  have htr : Sys.Tracked v1.cli.nextUid (fun x => x = unit) v1 := by
    intro r p hr hle
    exfalso
    have := (hi1.creach.inv.1.bound r.uid hle).2.1
    exact this (by simp [Cli.curUids, hr])
  obtain ⟨hi2, ht2, -⟩ := Sys.Tracked.run ops hi1 htr (by rintro _ rfl; exact ⟨s, hreg, hans⟩) hrun hsrv
  rw [hi2.cliLog] at *
  by_contra hun
  have hrunc := hi2.creach.down hcli
  obtain ⟨o, ho1, ho2⟩ := hi2.creach.inv.1.outstanding
  have := ho1 u hsent hun
  rw [ho2 hrunc] at this
  obtain ⟨r, hr1, hr2⟩ := Option.map_eq_some_iff.1 this
  obtain ⟨c1, -, -⟩ := hi2.creach.inv.1.known r (by simp [hr1])
  rw [hr2] at c1
  obtain ⟨g1, -, -⟩ := Cli.calls_unique hi2.creach.inv.1 c1 hcall
  obtain ⟨p, hp⟩ := Option.isSome_iff_exists.1 halive
  rcases ht2 r p hr1 (by rw [hr2]; exact hn) g1 hp with hgo | hco
  · rw [hup] at hgo; exact Underway.ne_nil (fun m hm => hm.1) hgo
  · rw [hdown] at hco; exact Underway.ne_nil (fun _ => id) hco

/-- **C80.**  Everything can be answered: if all requests that wait were made to units whose sessions were registered before and always
answer, and the connection is alive, then from now on nothing but the network is needed: if it delivers
what is sent, every request gets a response. -/
theorem C80_delivery_answers_everything (env : SysEnv W) (w : W) (v1 v2 : Sys W) (ops : List Sys.Op) (h : XReach env w v1) (hrun : v1.run env ops = .ret v2)
    (hwait : ∀ u unit q tmo, CEv.call u unit q tmo ∈ cliLog v2.log → u ∉ handledUids (cliLog v2.log) → CEv.call u unit q tmo ∉ cliLog v1.log ∧
      ∃ s, v1.srv.sessions.lookup unit = some s ∧ ∀ k q w e, (env.server.onRequest s k q w).2 = .error e → ∃ t, e = .modbus t)
    (hsrv : v2.srv.isShutdown = false) (hcli : CEv.tcpShutdown ∉ cliLog v2.log) (htasks : v2.cli.tasks = [])
    (halive : (v2.srv.listeners.lookup (2 * v2.conn)).isSome) :
    ∃ ops' v3, (∀ op ∈ ops', (∃ n, op = .arrive v2.conn n) ∨ ∃ n, op = .hear n) ∧ v2.run env ops' = .ret v3 ∧
      ∀ u unit q tmo, CEv.call u unit q tmo ∈ cliLog v2.log → u ∉ handledUids (cliLog v2.log) →
        ∃ pdu t, CEv.handler u (.ok pdu) t ∈ cliLog v3.log := by
  have hi1 := h.inv
  have htr : Sys.Tracked v1.cli.nextUid (Sys.Served env v1) v1 := by
    intro r p hr hle
    exfalso
    have := (hi1.creach.inv.1.bound r.uid hle).2.1
    exact this (by simp [Cli.curUids, hr])
  obtain ⟨hi2, ht2, hs2⟩ := Sys.Tracked.run ops hi1 htr (fun _ => id) hrun hsrv
  have hi2c := hi2.creach.inv.1
  have hcl := hi2.cliLog
  have hrunc : v2.cli.isShutdown = false := hi2.creach.down (by rw [← hcl]; exact hcli)
  have hlive : Sys.Live env w v1.cli.nextUid (Sys.Served env v1) v2 := ⟨hi2, ht2, hs2, hsrv, hrunc, Option.isSome_iff_exists.1 halive⟩
  have hq : ∀ r ∈ v2.cli.queue, v1.cli.nextUid ≤ r.uid ∧ Sys.Served env v1 r.unit := by
    intro r hr
    obtain ⟨c1, -, -⟩ := hi2c.known r hr
    have hun : r.uid ∉ handledUids v2.cli.log := by
      intro hm
      have h1 := hi2c.once r.uid
      have h2 := List.count_pos_iff.2 hm
      have h3 : 1 ≤ v2.cli.curUids.count r.uid + v2.cli.pendUids.count r.uid := by
        rcases List.mem_append.1 hr with hin | hin
        · have : r.uid ∈ v2.cli.curUids := by
            cases hcur : v2.cli.current with
            | none => rw [hcur] at hin; cases hin
            | some x => rw [hcur] at hin; simp at hin; simp [Cli.curUids, hcur, hin]
          have := List.count_pos_iff.2 this; omega
        · have : r.uid ∈ v2.cli.pendUids := List.mem_map.2 ⟨r, hin, rfl⟩
          have := List.count_pos_iff.2 this; omega
      omega
    rw [← hcl] at c1 hun
    obtain ⟨g1, g2⟩ := hwait _ _ _ _ c1 hun
    exact ⟨called_later h hrun c1 g1, g2⟩
  obtain ⟨ops', v3, k1, k2, k3, -, -, k6⟩ := hlive.drain _ (Nat.le_refl _) hq
  refine ⟨ops', v3, k1, k2, ?_⟩
  intro u unit q tmo hc hun
  rw [hcl] at hc hun
  have hlt : u < v2.cli.nextUid := by
    have : u ∈ (submissions v2.cli.log).map (·.1) := List.mem_map.2 ⟨(u, unit, q, tmo), by simp only [submissions, List.mem_filterMap]; exact ⟨_, hc, rfl⟩, rfl⟩
    rw [hi2c.calls, List.mem_range] at this
    exact this
  have hcov := hi2c.covered hrunc u hlt
  rw [htasks] at hcov
  have h0 : (handledUids v2.cli.log).count u = 0 := List.count_eq_zero.2 hun
  have h1 : (Cli.taskUids []).count u = 0 := rfl
  have h2 : u ∈ v2.cli.curUids ∨ u ∈ v2.cli.pendUids := by
    by_contra hno
    rw [not_or] at hno
    have := List.count_eq_zero.2 hno.1
    have := List.count_eq_zero.2 hno.2
    omega
  obtain ⟨r, hr1, hr2⟩ : ∃ r ∈ v2.cli.queue, r.uid = u := by
    rcases h2 with h2 | h2
    · cases hcur : v2.cli.current with
      | none => simp [Cli.curUids, hcur] at h2
      | some x => simp [Cli.curUids, hcur] at h2; exact ⟨x, by simp [Cli.queue, hcur], h2.symm⟩
    · obtain ⟨r, hr1, hr2⟩ := List.mem_map.1 h2
      exact ⟨r, List.mem_append_right _ hr1, hr2⟩
  obtain ⟨d, t, hh⟩ := k6 r hr1
  rw [hr2] at hh
  exact ⟨d, t, by rw [k3.inv.cliLog]; exact hh⟩

/-! ### Concrete histories -/

/-- A history in two parts, for examples. -/
theorem sys_example {env : SysEnv W} {w : W} {mem : Vector UInt8 260} (a b : List Sys.Op) (f g : Sys W → Bool)
    (h : (match (Sys.init env w mem).run env a with
      | .ub => false
      | .ret v1 => f v1 && match v1.run env b with
        | .ub => false
        | .ret v2 => g v2) = true) : ∃ v1 v2, XReach env w v1 ∧ f v1 = true ∧ v1.run env b = .ret v2 ∧ g v2 = true := by
  cases h1 : (Sys.init env w mem).run env a with
  | ub => rw [h1] at h; cases h
  | ret v1 =>
    rw [h1] at h
    simp only [Bool.and_eq_true] at h
    cases h2 : v1.run env b with
    | ub => rw [h2] at h; cases h.2
    | ret v2 => rw [h2] at h; exact ⟨v1, v2, ⟨mem, a, h1⟩, h.1, h2, h.2⟩

theorem oneRegister_answers (s : SessId) : ∀ k q w e, (oneRegister.onRequest s k q w).2 = .error e → ∃ t, e = .modbus t := by
  intro k q w e h
  cases k with
  | writeSingleRegister => cases h
  | readHoldingRegisters => cases h
  | _ => injection h with h; exact ⟨_, h.symm⟩

/-- C79: the demonstration, after which nothing is underway and both requests have been sent. -/
example : ∃ v1 v2, XReach sysDemoEnv 0 v1 ∧ decide (v1.srv.sessions.lookup 1 = some 7 ∧ v1.log = []) = true ∧
    v1.run sysDemoEnv (sysOps.drop 2) = .ret v2 ∧ decide (v2.srv.isShutdown = false ∧ CEv.tcpShutdown ∉ cliLog v2.log ∧
      (v2.srv.listeners.lookup (2 * v2.conn)).isSome ∧ v2.up v2.conn = [] ∧ v2.down v2.conn = [] ∧
      CEv.call 1 1 ⟨.readHoldingRegisters, ⟨3, 1⟩⟩ 10 ∈ cliLog v2.log ∧ sentUids (cliLog v2.log) = [0, 1]) = true :=
  sys_example (mem := Vector.replicate 260 0) (sysOps.take 2) _ _ _ (by decide +kernel)

/-- C80: two requests wait, one of them on its way. -/
example : ∃ v1 v2, XReach sysDemoEnv 0 v1 ∧ decide (v1.srv.sessions.lookup 1 = some 7 ∧ v1.log = []) = true ∧
    v1.run sysDemoEnv ((sysOps.take 7).drop 2) = .ret v2 ∧ decide (v2.srv.isShutdown = false ∧ CEv.tcpShutdown ∉ cliLog v2.log ∧
      (v2.srv.listeners.lookup (2 * v2.conn)).isSome ∧ v2.cli.tasks = [] ∧ handledUids (cliLog v2.log) = [] ∧
      (submissions (cliLog v2.log)).map (fun x => (x.1, x.2.1)) = [(0, 1), (1, 1)] ∧ (v2.up 0).length = 7) = true :=
  sys_example (mem := Vector.replicate 260 0) (sysOps.take 2) _ _ _ (by decide +kernel)

end Props

end Modbus
