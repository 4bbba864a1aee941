import Verif.Spec.Causes
import Verif.Lemmas.AsioCauses
import Verif.Props.ServerOpen
import Verif.Props.ServerLife
import Verif.Props.Reading
import Verif.Props.ServerStackThrowing
import Verif.Lemmas.ServerThrowingCauses

/-! C139: a server ends a connection only for a reason. -/

namespace Modbus.Props

open Modbus.Spec Modbus.Svk

variable {W : Type}

/-- A connection ends only if an operation on it failed, if it is the oldest one and another client connects while as many as allowed are
connected, or if the channel's `shutdown` was called. -/
def C139_Statement : Prop := ∀ (W : Type) (env : ServerEnv W) w max ops v, (Svk.init w max).run env ops = .ret v → ∀ c, EndedIn (cnLog v.log) c →
  FailedIn v.steps c ∨ CrowdedIn v.steps max c ∨ Svk.Op.chan .shutdown ∈ ops

/-- `start` is called twice, both accepts fail and are counted as connections lost; `start` is called again and a client connects. -/
def miscounted : List Svk.Op :=
  [.chan .start, .chan .start, .chan .runTask, .chan .runTask, vrun, vrun, .complete 0 .error, .complete 0 .error, vrun, vrun, vrun, vrun,
   .chan .start, .chan .runTask, vrun, .complete 0 .ok, vrun, vrun, vrun, vrun]

/-- C139 does not hold: the number of connections wraps around when accepting fails (C69), and the only client of a server that allows
five is sent away. -/
theorem C139_violated : ¬C139_Statement := by
  intro h
  obtain ⟨v, h1, h2⟩ := vfinal_run (max := 5) (ops := miscounted)
    (Q := fun v => (cnLog v.log).contains (.left 2) && v.steps.all fun x =>
      (match x.2 with
        | .complete i .error => x.1.flying[i]? == some (.accept 0) || x.1.flying[i]? == some (.accept 1)
        | _ => true) && decide ((kept x.1.log).length < 5)) (by decide +kernel)
  simp only [Bool.and_eq_true, List.contains_iff_mem, List.all_eq_true, decide_eq_true_eq] at h2
  rcases h _ _ _ _ _ v h1 2 (Or.inl h2.1) with ⟨a, i, hm, hf⟩ | ⟨a, k, rs, d, hm, -, hk, -⟩ | hm
  · have := (h2.2 _ hm).1
    simp only [Bool.or_eq_true, beq_iff_eq] at this
    rcases hf with hf | hf | ⟨b, d, hf⟩ <;> rw [hf] at this <;> simp at this
  · have : (kept a.log).length < 5 := (h2.2 _ hm).2
    have e : (5 : UInt32).toNat = 5 := rfl
    omega
  · simp [miscounted, vrun] at hm

theorem steps_shutdown {env : ServerEnv W} {w : W} {max : UInt32} {v : Svk W} (h : VReach env w max v) :
    ∀ x ∈ v.steps, x.2 = .shutdown → SEv.serverShutdown ∈ svLog v.log := by
  induction h with
  | init => intro x hx; cases hx
  | @step v v' op hv hs ih =>
    obtain ⟨-, ⟨es, he⟩, -, h3⟩ := step_info hv.ok hs
    intro x hx hxs
    rcases h3 x hx with hx | ⟨-, hx⟩ | ⟨hx, -⟩ | ⟨-, hx⟩
    · rw [he, svLog_append]; exact List.mem_append_left _ (ih x hx hxs)
    · exact absurd hxs hx
    · rw [hx] at hxs; cases hxs
    · exact hx

/-- C139: the listening server and the sessions are told to shut down only if the channel's `shutdown` was called. -/
theorem C139_shutdown_called (env : ServerEnv W) (w : W) (max : UInt32) (ops : List Svk.Op) (v : Svk W) (h : (Svk.init w max).run env ops = .ret v)
    (hs : SEv.serverShutdown ∈ svLog v.log ∨ ∃ s, SEv.sessionShutdown s ∈ svLog v.log) : Svk.Op.chan .shutdown ∈ ops := by
  have hok := (run_reach ops .init h).ok
  by_cases hn : Svk.Op.chan .shutdown ∈ ops
  · exact hn
  · obtain ⟨hd, -⟩ := run_stays_up h hn
    rw [hok.svl] at hs
    rcases C31_shutdown_once env v.srv hok.sreach with ⟨-, h1, h2⟩ | ⟨h1, -⟩
    · rcases hs with hs | ⟨s, hs⟩
      · exact absurd hs h1
      · exact absurd hs (h2 s)
    · rw [hd] at h1; cases h1

/-- C139 (part): a connection ends only if an operation on it failed, if the server was told that another client connected while it
counted as many connections as allowed, or if the channel's `shutdown` was called; and if `start` is called only once, the server counts
correctly whenever a client connects, and it is the oldest connection that ends.
Missing from C139: `start` called several times. -/
theorem C139_reason_partial (env : ServerEnv W) (w : W) (max : UInt32) (hmax : max.toNat < 4294967295) (ops : List Svk.Op) (v : Svk W)
    (h : (Svk.init w max).run env ops = .ret v) (hst : VThroughout SingleStart v) (c : Nat) (he : EndedIn (cnLog v.log) c) :
    FailedIn v.steps c ∨ CrowdedIn v.steps max c ∨ Svk.Op.chan .shutdown ∈ ops := by
  have hr := run_reach ops (w := w) (max := max) .init h
  have hok := hr.ok
  have hc := hok.asv.caused
  rw [hok.cnl] at he
  obtain ⟨a, op, ha, hm, hend⟩ : ∃ a op, AsvReach max (fun a op => (a, op) ∈ v.steps) a ∧ (a, op) ∈ v.steps ∧ Asv.EndsBy a op c := by
    rcases he with he | he | he
    · exact hc.left c he
    · exact hc.error c he
    · exact hc.closed c he
  rcases hend with rfl | ⟨i, o, rfl, hf, ho⟩ | ⟨k, rs, d, rfl, hq, hd, hlt, hl⟩
  · exact Or.inr (Or.inr (C139_shutdown_called env w max ops v h (Or.inl (steps_shutdown hr _ hm rfl))))
  · refine Or.inl ⟨a, i, hm, ?_⟩
    cases o with
    | accept c' => cases ho; exact Or.inl hf
    | read c' => cases ho; exact Or.inr (Or.inl hf)
    | write c' b d => cases ho; exact Or.inr (Or.inr ⟨b, d, hf⟩)
  · have hi := (ha.mono fun a op hx => hst _ hx).ring hmax
    have hring := hi.up hd
    obtain ⟨-, -, hlist, hnum⟩ := hring.take hq
    refine Or.inr (Or.inl ⟨a, k, rs, d, hm, hq, ?_, by rw [← hlist]; exact hl⟩)
    have hlim := hring.limit
    have hsucc := Asv.UInt32.toNat_succ (n := a.num) (m := a.max) (by omega) (by rw [hi.max]; exact hmax)
    rw [UInt32.lt_iff_toNat_lt, hi.max] at hlt
    omega

/-- C139, however often `start` is called: without `shutdown` and failing operations, a connection ends only when another client connects
while the server counts as many connections as allowed. -/
theorem C139_counted (env : ServerEnv W) (w : W) (max : UInt32) (ops : List Svk.Op) (v : Svk W) (h : (Svk.init w max).run env ops = .ret v)
    (c : Nat) (he : EndedIn (cnLog v.log) c) : FailedIn v.steps c ∨ Svk.Op.chan .shutdown ∈ ops ∨
      ∃ a k rs d, (a, Asv.Op.run k rs) ∈ v.steps ∧ a.queue[k]? = some (.accepted d true) ∧ a.max < a.num + 1 ∧ a.list.head? = some c := by
  have hr := run_reach ops (w := w) (max := max) .init h
  have hok := hr.ok
  have hc := hok.asv.caused
  rw [hok.cnl] at he
  obtain ⟨a, op, ha, hm, hend⟩ : ∃ a op, AsvReach max (fun a op => (a, op) ∈ v.steps) a ∧ (a, op) ∈ v.steps ∧ Asv.EndsBy a op c := by
    rcases he with he | he | he
    · exact hc.left c he
    · exact hc.error c he
    · exact hc.closed c he
  rcases hend with rfl | ⟨i, o, rfl, hf, ho⟩ | ⟨k, rs, d, rfl, hq, hd, hlt, hl⟩
  · exact Or.inr (Or.inl (C139_shutdown_called env w max ops v h (Or.inl (steps_shutdown hr _ hm rfl))))
  · refine Or.inl ⟨a, i, hm, ?_⟩
    cases o with
    | accept c' => cases ho; exact Or.inl hf
    | read c' => cases ho; exact Or.inr (Or.inl hf)
    | write c' b d => cases ho; exact Or.inr (Or.inr ⟨b, d, hf⟩)
  · exact Or.inr (Or.inr ⟨a, k, rs, d, hm, hq, hlt, hl⟩)

/-- A server that allows two connections: three clients connect, the second one goes away. -/
def crowd : List Svk.Op :=
  [.chan .start, .chan .runTask, vrun, .complete 0 .ok, vrun, vrun, .complete 1 .ok, vrun, vrun, .complete 2 .ok, vrun, vrun, vrun, vrun, vrun, .complete 0 .error, vrun]

example : vfinal 2 crowd (fun v => cnLog v.log == [.joined 0, .joined 1, .joined 2, .left 0, .closed 0, .error 0, .error 1, .left 1] &&
    v.steps.all (fun x => match x.2 with | .start => x.1.starts == 0 | _ => true) &&
    v.steps.any (fun x => match x.2 with | .complete i .error => x.1.flying[i]? == some (.read 1) | _ => false) &&
    v.steps.any (fun x => match x.2 with | .run k _ => x.1.queue[k]? == some (.accepted 2 true) && kept x.1.log == [0, 1] | _ => false)) = true := by decide +kernel

/-- C139 with C130: a client that is connected stays connected, and is read, as long as no operation on its connection fails, it is not the
oldest one when too many connect, and the channel's `shutdown` is not called; whatever the other clients do. -/
theorem C139_stays_partial (env : ServerEnv W) (w : W) (max : UInt32) (hmax : max.toNat < 4294967295) (ops : List Svk.Op) (v : Svk W)
    (h : (Svk.init w max).run env ops = .ret v) (hst : VThroughout SingleStart v) (c : Nat) (hj : AEv.joined c ∈ cnLog v.log)
    (h1 : ¬FailedIn v.steps c) (h2 : ¬CrowdedIn v.steps max c) (h3 : Svk.Op.chan .shutdown ∉ ops) :
    c ∈ kept (cnLog v.log) ∧ (v.asv.conns c).isOpen = true ∧ asvReads v.asv c = 1 := by
  have hn : ¬EndedIn (cnLog v.log) c := fun he => (C139_reason_partial env w max hmax ops v h hst c he).elim h1 fun h => h.elim h2 h3
  have hok := (run_reach ops (w := w) (max := max) .init h).ok
  rw [hok.cnl] at hj hn ⊢
  simp only [EndedIn, not_or] at hn
  have hr := (C130_server_partial max v.asv (hok.asv.mono fun _ _ _ => trivial) c).2 hj hn.2.1 hn.2.2
  refine ⟨?_, hr.2, hr.1⟩
  have key : ∀ l : List AEv, AEv.joined c ∈ l → AEv.left c ∉ l → c ∈ kept l := by
    intro l
    induction l using List.reverseRecOn with
    | nil => intro h; cases h
    | append_singleton l e ih =>
      intro hj hl
      simp only [List.mem_append, List.mem_singleton, not_or] at hj hl
      rw [Asv.kept_append]
      simp only [List.foldl_cons, List.foldl_nil]
      by_cases he : AEv.joined c = e
      · subst he; simp [keepStep]
      · have hk := ih (hj.resolve_right he) hl.1
        cases e <;> simp only [keepStep] <;> try exact hk
        · exact List.mem_append_left _ hk
        · rename_i d
          exact (List.mem_erase_of_ne (by rintro rfl; exact hl.2 rfl)).2 hk
  exact key _ hj hn.1

example : vfinal 2 crowd (fun v => (cnLog v.log).contains (.joined 2) && kept (cnLog v.log) == [2] &&
    !v.steps.any (fun x => match x.2 with
      | .complete i .error => x.1.flying[i]? != some (.read 1)
      | .run k _ => match x.1.queue[k]? with | some (.accepted _ true) => decide (2 ≤ (kept x.1.log).length) && (kept x.1.log).head? != some 0 | _ => false
      | _ => false)) = true := by decide +kernel

/-! ### Sessions that throw -/

theorem mem_plainSteps {steps : List (AsvT × AsvT.Op)} {t : AsvT} {o : Asv.Op} (h : (t, AsvT.Op.op o) ∈ steps) : (t.asv, o) ∈ plainSteps steps :=
  List.mem_filterMap.2 ⟨_, h, rfl⟩

/-- C139 whatever sessions throw (part): a connection ends only if an operation on it failed, if it is the oldest one and another client
connects while as many as allowed are kept, or if the channel's `shutdown` was called; in particular exceptions end no connection.
Missing from C139: `start` called several times. -/
theorem C139_throwing_partial (env : ServerEnv W) (th : SThrows W) (w : W) (max : UInt32) (hmax : max.toNat < 4294967295) (ops : List Svk.Op) (v : SvkT W)
    (h : (SvkT.init w max).run env th ops = .ret v) (hst : VTThroughout SingleStart v) (c : Nat) (he : EndedIn v.net.asv.log c) :
    FailedIn (plainSteps v.steps) c ∨ CrowdedIn (plainSteps v.steps) max c ∨ Svk.Op.chan .shutdown ∈ ops := by
  have hok := (vtReach_run ops (w := w) (max := max) .init h).ok
  have hc := hok.net.caused
  obtain ⟨t, op, ha, ⟨t', ht', hm⟩, hend⟩ : ∃ t op, AsvTReach max (fun a o => ∃ t, t.asv = a ∧ (t, AsvT.Op.op o) ∈ v.steps) t ∧
      (∃ t', t'.asv = t.asv ∧ (t', AsvT.Op.op op) ∈ v.steps) ∧ Asv.EndsBy t.asv op c := by
    rcases he with he | he | he
    · exact hc.left c he
    · exact hc.error c he
    · exact hc.closed c he
  have hm' := mem_plainSteps hm
  rw [ht'] at hm'
  rcases hend with rfl | ⟨i, o, rfl, hf, ho⟩ | ⟨k, rs, d, rfl, hq, hd, hlt, hl⟩
  · refine Or.inr (Or.inr ?_)
    by_cases hn : Svk.Op.chan .shutdown ∈ ops
    · exact hn
    · have hq : SvkT.Quiet (SvkT.init w max) := ⟨⟨by simp [SvkT.init, SrvT.init, Srv.init], by simp [SvkT.init, SrvT.init, Srv.init]⟩, by simp [SvkT.init]⟩
      exact absurd rfl ((SvkT.Quiet.run ops hq h hn).steps _ hm)
  · refine Or.inl ⟨t.asv, i, hm', ?_⟩
    cases o with
    | accept c' => cases ho; exact Or.inl hf
    | read c' => cases ho; exact Or.inr (Or.inl hf)
    | write c' b d => cases ho; exact Or.inr (Or.inr ⟨b, d, hf⟩)
  · have ha' : AsvTReach max SingleStart t := ha.mono fun a o ⟨t, ht, hm⟩ => by
      have := hst _ hm o rfl
      rw [ht] at this
      exact this
    obtain ⟨g, G, hr, hg, -⟩ := ha'.gh Asv.Portable.single
    have hi := hr.ring hmax
    have hring := hi.up (by rw [← hg.isShutdown]; exact hd)
    obtain ⟨-, -, hlist, hnum⟩ := hring.take (by rw [← hg.queue]; exact hq)
    refine Or.inr (Or.inl ⟨t.asv, k, rs, d, hm', hq, ?_, by rw [hg.kept, ← hlist, ← hg.list]; exact hl⟩)
    have hlim := hring.limit
    rw [hg.num, hg.maxi] at hlt
    have hsucc := Asv.UInt32.toNat_succ (n := g.num) (m := g.max) (by omega) (by rw [hi.max]; exact hmax)
    rw [UInt32.lt_iff_toNat_lt, hi.max] at hlt
    rw [hg.kept]
    omega

/-- Two clients are connected, of which the second has been given an exception; a third one connects to a server that allows two. -/
example : tdemo touchy singleChk 2 (oneDead ++ [.complete 0 .ok, vrun, vrun, vrun, vrun]) (fun v => v.net.dead == [1] && v.net.asv.log.contains (.left 0) &&
    v.net.asv.log.contains (.closed 0) && !v.net.asv.log.contains (.left 1) && kept v.net.asv.log == [1, 2]) = true := by decide +kernel

end Modbus.Props
