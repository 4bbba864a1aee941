import Verif.Props.ServerStack
import Verif.Spec.ServerOwnership

/-! Property C119: what the server keeps allocated, and what it releases. -/

namespace Modbus.Props

open Spec

variable {W : Type}

theorem SInUse_not_freed {v : Svk W} {user : SObj → Prop} {x : SObj} (h : SInUse v user x) : ¬ SFreed v user x := by
  induction h with
  | held h => rintro ⟨h1, -, -⟩; exact h1 h
  | via _ h ih => rintro ⟨-, -, h1⟩; exact ih (h1 _ h)

/-- C119, full statement: when nothing is queued, a server with limit `max` has at most `max + 1` connection objects, however many clients it has
served; and when it has been shut down, everything that is no longer in use is released. -/
def C119_Statement : Prop := ∀ (W : Type) (env : ServerEnv W) (w : W) (max : UInt32) (v : Svk W), VReach env w max v → v.asv.queue = [] →
  ∀ (user : SObj → Prop), ByUser user →
    (∀ l : List Nat, l.Nodup → (∀ c ∈ l, ¬ SFreed v user (.conn c)) → l.length ≤ max.toNat + 1) ∧
    (SEv.serverShutdown ∈ svLog v.log → v.srv.tasks = [] → ∀ x, ¬ SInUse v user x → SFreed v user x)

/-- C119 fails: a server that was started twice can lose track of a connection; nothing closes it, and after the shutdown its read, still in progress,
holds it. -/
theorem C119_violated : ¬ C119_Statement := by
  intro h
  obtain ⟨v, hv, hq⟩ := any_vdemo (max := 1) (ops := vforgotten) (Q := fun v => decide (SEv.serverShutdown ∈ svLog v.log) && v.asv.queue == [] &&
    v.asv.flying == [.read 0] && decide (v.srv.tasks = [])) (by decide +kernel)
  simp only [Bool.and_eq_true, beq_iff_eq, decide_eq_true_eq] at hq
  obtain ⟨⟨⟨h1, h2⟩, h3⟩, h4⟩ := hq
  have hno : ∀ x, ¬ SInUse v (fun _ => False) x := by
    intro x hx
    induction hx with
    | held h => exact h
    | via _ _ ih => exact ih
  obtain ⟨-, hx, -⟩ := (h _ _ _ _ v hv h2 (fun _ => False) (fun _ h => h.elim)).2 h1 h4 (.conn 0) (hno _)
  exact hx (.inr ⟨.read 0, by rw [h3]; simp, rfl⟩)

/-- C119, no cycles: at any time, an object that can be reached neither from outside nor from the executor is released. -/
theorem C119_no_garbage (v : Svk W) (user : SObj → Prop) (x : SObj) (hx : ¬ SInUse v (fun y => user y ∨ v.queued y) x) : SFreed v user x := by
  have root : ∀ y, ¬ SInUse v (fun y => user y ∨ v.queued y) y → ¬ user y ∧ ¬ v.queued y :=
    fun y hy => ⟨fun h => hy (.held (.inl h)), fun h => hy (.held (.inr h))⟩
  have hch : ¬ SInUse v (fun y => user y ∨ v.queued y) .channel → SFreed v user .channel := by
    intro hn
    refine ⟨(root _ hn).1, (root _ hn).2, fun y hy => ?_⟩
    cases y <;> simp [Svk.holds] at hy
  have hsv : ¬ SInUse v (fun y => user y ∨ v.queued y) .server → SFreed v user .server := by
    intro hn
    refine ⟨(root _ hn).1, (root _ hn).2, fun y hy => ?_⟩
    cases y with
    | channel => exact hch fun h => hn (.via h hy)
    | _ => simp [Svk.holds] at hy
  have hcn : ∀ c, ¬ SInUse v (fun y => user y ∨ v.queued y) (.conn c) → SFreed v user (.conn c) := by
    intro c hn
    refine ⟨(root _ hn).1, (root _ hn).2, fun y hy => ?_⟩
    cases y with
    | server => exact hsv fun h => hn (.via h hy)
    | _ => simp [Svk.holds] at hy
  cases x with
  | channel => exact hch hx
  | server => exact hsv hx
  | conn c => exact hcn c hx
  | listener c =>
    refine ⟨(root _ hx).1, (root _ hx).2, fun y hy => ?_⟩
    cases y with
    | conn d => exact hcn d fun h => hx (.via h hy)
    | _ => simp [Svk.holds] at hy
  | session s =>
    refine ⟨(root _ hx).1, (root _ hx).2, fun y hy => ?_⟩
    cases y with
    | channel => exact hch fun h => hx (.via h hy)
    | _ => simp [Svk.holds] at hy

/-- A connection not in the server's list, without operation in progress and about which nothing is queued, is released with its listener. -/
theorem conn_freed {v : Svk W} {user : SObj → Prop} (hu : ByUser user) {c : Nat} (hl : c ∉ v.asv.list) (hq : ∀ t ∈ v.asv.queue, t.heldConn ≠ some c)
    (hf : ∀ o ∈ v.asv.flying, o.heldConn ≠ c) : SFreed v user (.conn c) ∧ SFreed v user (.listener c) := by
  have h1 : SFreed v user (.conn c) := by
    refine ⟨fun h => ?_, ?_, fun y hy => ?_⟩
    · rcases hu _ h with h | ⟨s, h⟩ <;> cases h
    · rintro (⟨t, ht, h⟩ | ⟨o, ho, h⟩)
      · exact hq t ht h
      · exact hf o ho h
    · cases y with
      | server => obtain ⟨d, hd, he⟩ := hy; injection he with he; subst he; exact absurd hd hl
      | _ => simp [Svk.holds] at hy
  refine ⟨h1, fun h => ?_, fun h => h, fun y hy => ?_⟩
  · rcases hu _ h with h | ⟨s, h⟩ <;> cases h
  · cases y with
    | conn d => injection hy with hy; subst hy; exact h1
    | _ => simp [Svk.holds] at hy

/-- C119, closed connections: whatever happens, once a connection has been closed and what is queued about it has been handled, it is released together
with its listener. -/
theorem C119_closed_released (env : ServerEnv W) (w : W) (max : UInt32) (v : Svk W) (h : VReach env w max v) (c : Nat) (hc : AEv.closed c ∈ cnLog v.log)
    (hq : ∀ t ∈ v.asv.queue, t.heldConn ≠ some c) (user : SObj → Prop) (hu : ByUser user) : SFreed v user (.conn c) ∧ SFreed v user (.listener c) := by
  rw [h.ok.cnl] at hc
  have hi := (h.ok.asv.mono (Q := anyAsv) fun _ _ _ => trivial).inv
  have hd := h.ok.asv.dn
  obtain ⟨h1, h2, h3⟩ := hi.closedShut c hc
  refine conn_freed hu h3 hq fun o ho he => ?_
  cases o with
  | accept d => have he : d = c := he; subst he; exact (hi.unopened d ho).2 hc
  | read d => have he : d = c := he; subst he; have := (hd.fo _ ho d rfl).1; rw [h1] at this; cases this
  | write d b x => have he : d = c := he; subst he; have := (hd.fo _ ho d rfl).1; rw [h1] at this; cases this

/-- C119 (partial: the channel is started at most once, the limit is not 2^32-1), memory is bounded: when nothing is queued, there are at most `max + 1`
connection objects (those of the clients connected, and one for the next client), however many clients have come and gone. -/
theorem C119_bounded_partial (env : ServerEnv W) (w : W) (max : UInt32) (hmax : max.toNat < 4294967295) (v : Svk W) (h : VReach env w max v)
    (hst : VThroughout SingleStart v) (hq : v.asv.queue = []) (user : SObj → Prop) (hu : ByUser user) (l : List Nat) (hl : l.Nodup)
    (hn : ∀ c ∈ l, ¬ SFreed v user (.conn c)) : l.length ≤ max.toNat + 1 := by
  have hr : AsvReach max SingleStart v.asv := h.ok.asv.mono fun a o hx => hst _ hx
  have hi := hr.ring hmax
  have hd := hr.dn
  have hsub : ∀ c ∈ l, c ∈ v.asv.list := by
    intro c hc
    by_contra hcl
    refine hn c hc (conn_freed hu hcl (by rw [hq]; simp) fun o ho he => ?_).1
    have hol : (v.asv.conns c).isOpen = true → False := fun ho => by
      rcases hr.ol hmax c ho with h1 | h1
      · exact hcl h1
      · rw [hq] at h1; cases h1
    cases o with
    | accept d =>
      have he : d = c := he; subst he
      cases hs : v.asv.isShutdown with
      | true => exact (hd.na hs).2 d ho
      | false =>
        refine hcl ?_
        rw [(hi.up hs).list]
        exact List.mem_append_right _ (List.mem_append_left _ (List.mem_filterMap.2 ⟨_, ho, rfl⟩))
    | read d => have he : d = c := he; subst he; exact hol (hd.fo _ ho d rfl).1
    | write d b x => have he : d = c := he; subst he; exact hol (hd.fo _ ho d rfl).1
  have hle : l.length ≤ v.asv.list.length := (hl.subperm hsub).length_le
  refine Nat.le_trans hle ?_
  cases hs : v.asv.isShutdown with
  | true => rw [(hi.down hs).1]; exact Nat.zero_le _
  | false =>
    have h1 := hi.up hs
    rw [h1.list, List.length_append]
    have h2 := Asv.pend_length v.asv
    have h3 := h1.limit
    rw [hi.max] at h3
    have h4 := h1.chain
    have h5 := h1.one
    omega

/-- C119 (partial: the channel is started at most once, the limit is not 2^32-1), after shutdown: when everything queued has been handled, everything
that is no longer in use is released; no connection is in use then. -/
theorem C119_released_partial (env : ServerEnv W) (w : W) (max : UInt32) (hmax : max.toNat < 4294967295) (v : Svk W) (h : VReach env w max v)
    (hst : VThroughout SingleStart v) (hq : v.asv.queue = []) (hd : SEv.serverShutdown ∈ svLog v.log) (ht : v.srv.tasks = []) (user : SObj → Prop) (hu : ByUser user) :
    (∀ x, ¬ SInUse v user x → SFreed v user x) ∧ ∀ c, SFreed v user (.conn c) ∧ SFreed v user (.listener c) := by
  have hfl := ((C97_all_closed_partial env w max hmax v h hst hd (Vector.replicate 260 0)).1 hq).1
  have hr : AsvReach max SingleStart v.asv := h.ok.asv.mono fun a o hx => hst _ hx
  rw [h.ok.svl] at hd
  have hdn : v.asv.isShutdown = true := (h.told hd).resolve_right (by rw [hq]; simp)
  have hnq : ∀ y, ¬ v.queued y := by
    intro y hy
    cases y with
    | channel => exact hy ht
    | server => rw [Svk.queued, hq, hfl] at hy; simp at hy
    | conn c => rw [Svk.queued, hq, hfl] at hy; simp at hy
    | listener c => exact hy
    | session s => rw [Svk.queued, ht] at hy; simp at hy
  refine ⟨fun x hx => C119_no_garbage v user x fun hy => hx ?_, fun c => ?_⟩
  · clear hx
    induction hy with
    | held hh => exact .held (hh.resolve_right (hnq _))
    | via _ hh ih => exact .via ih hh
  · exact conn_freed hu (by rw [(hr.dn.na hdn).1]; simp) (by rw [hq]; simp) (by rw [hfl]; simp)

/-- C119, the other way round: what serves stays.  As long as the manager has the channel, the connections kept are not released (channel started at
most once, limit not 2^32-1). -/
theorem C119_served_kept_partial (env : ServerEnv W) (w : W) (max : UInt32) (hmax : max.toNat < 4294967295) (v : Svk W) (h : VReach env w max v)
    (hst : VThroughout SingleStart v) (c : Nat) (hc : c ∈ kept (cnLog v.log)) (user : SObj → Prop) (hm : user .channel) :
    ¬ SFreed v user (.conn c) ∧ ¬ SFreed v user (.listener c) := by
  have hr : AsvReach max SingleStart v.asv := h.ok.asv.mono fun a o hx => hst _ hx
  have hi := hr.ring hmax
  rw [h.ok.cnl] at hc
  have hl : c ∈ v.asv.list := by
    cases hs : v.asv.isShutdown with
    | true => rw [(hi.down hs).2] at hc; cases hc
    | false => rw [(hi.up hs).list]; exact List.mem_append_left _ hc
  have h1 : SInUse v user (.conn c) := .via (.via (.held hm) (.inl rfl)) ⟨c, hl, rfl⟩
  exact ⟨SInUse_not_freed h1, SInUse_not_freed (.via h1 rfl)⟩

/-- C119, sessions: a session stays as long as the channel has it, and a channel that has been shut down has none: then only tasks not run yet and the
user hold sessions. -/
theorem C119_sessions_released (env : ServerEnv W) (w : W) (max : UInt32) (v : Svk W) (h : VReach env w max v) (hd : v.srv.isShutdown = true) (s : SessId)
    (ht : ∀ u, STask.addSession u s ∉ v.srv.tasks) (user : SObj → Prop) (hu : ¬ user (.session s)) : SFreed v user (.session s) := by
  have hs : v.srv.sessions = [] := (h.ok.sreach.inv.2.1 hd).1
  refine ⟨hu, fun ⟨u, hx⟩ => ht u hx, fun y hy => ?_⟩
  cases y with
  | channel =>
    rcases hy with hy | ⟨x, hx, -⟩
    · cases hy
    · rw [hs] at hx; cases hx
  | _ => simp [Svk.holds] at hy

/-! A server with limit 5: one client connects, a second one, the first one leaves (connection 0). -/

def vleft : List Svk.Op := vconnected ++ [.complete 1 .ok, vrun, vrun, .complete 0 .error, vrun, vrun, vrun]

example : ∃ v, VReach (demo 0) 0 5 v ∧ VThroughout SingleStart v ∧ v.asv.queue = [] ∧ v.asv.flying = [.read 1, .accept 2] ∧
    SFreed v (fun x => x = .channel) (.conn 0) ∧ SFreed v (fun x => x = .channel) (.listener 0) ∧ ¬ SFreed v (fun x => x = .channel) (.conn 1) ∧
    ¬ SFreed v (fun x => x = .channel) (.conn 2) ∧ SFreed v (fun x => x = .channel) (.session 7) ∧ ¬ SFreed v (fun x => x = .channel) (.session 0) := by
  obtain ⟨v, h1, h2, hq⟩ := vdemo_run singleChk_spec (max := 5) (ops := vleft) (Q := fun v => v.asv.queue == [] && v.asv.flying == [.read 1, .accept 2] &&
    decide (AEv.closed 0 ∈ cnLog v.log) && kept (cnLog v.log) == [1] && v.srv.sessions == [(1, 0)] && decide (v.srv.tasks = [])) (by decide +kernel)
  simp only [Bool.and_eq_true, beq_iff_eq, decide_eq_true_eq] at hq
  obtain ⟨⟨⟨⟨⟨a1, a2⟩, a3⟩, a4⟩, a5⟩, a6⟩ := hq
  have hu : ByUser fun x => x = .channel := fun x hx => .inl hx
  have hc := C119_closed_released (demo 0) 0 5 v h1 0 a3 (by rw [a1]; simp) _ hu
  refine ⟨v, h1, h2, a1, a2, hc.1, hc.2, (C119_served_kept_partial (demo 0) 0 5 (by decide) v h1 h2 1 (by rw [a4]; simp) (fun x => x = .channel) rfl).1, ?_, ?_, ?_⟩
  · rintro ⟨-, h, -⟩
    exact h (.inr ⟨.accept 2, by rw [a2]; simp, rfl⟩)
  · refine C119_no_garbage v _ _ fun hx => ?_
    cases hx with
    | held h =>
      rcases h with h | ⟨u, h⟩
      · cases h
      · rw [a6] at h; cases h
    | @via x _ _ h =>
      cases x with
      | channel => simp [Svk.holds, a5] at h
      | _ => simp [Svk.holds] at h
  · exact SInUse_not_freed (.via (.held rfl) (.inr ⟨(1, 0), by rw [a5]; simp, rfl⟩))

/-- No more than six connection objects, then. -/
example : ∃ v, VReach (demo 0) 0 5 v ∧ ¬ SFreed v (fun x => x = .channel) (.conn 1) ∧
    ∀ l : List Nat, l.Nodup → (∀ c ∈ l, ¬ SFreed v (fun x => x = .channel) (.conn c)) → l.length ≤ 6 := by
  obtain ⟨v, h1, h2, hq⟩ := vdemo_run singleChk_spec (max := 5) (ops := vleft) (Q := fun v => v.asv.queue == [] && kept (cnLog v.log) == [1]) (by decide +kernel)
  simp only [Bool.and_eq_true, beq_iff_eq] at hq
  exact ⟨v, h1, (C119_served_kept_partial (demo 0) 0 5 (by decide) v h1 h2 1 (by rw [hq.2]; simp) (fun x => x = .channel) rfl).1, fun l hl hn =>
    C119_bounded_partial (demo 0) 0 5 (by decide) v h1 h2 hq.1 _ (fun x hx => .inl hx) l hl hn⟩

/-- After shutdown, everything is released. -/
example : ∃ v, VReach (demo 0) 0 5 v ∧ 2 ≤ v.asv.nextConn ∧ v.srv.isShutdown = true ∧ ∀ x, SFreed v (fun _ => False) x := by
  obtain ⟨v, h1, h2, hq⟩ := vdemo_run singleChk_spec (max := 5) (ops := vleft ++ [.chan .shutdown, .chan .runTask] ++ List.replicate 12 vrun) (Q := fun v =>
    v.asv.queue == [] && decide (SEv.serverShutdown ∈ svLog v.log) && decide (v.srv.tasks = []) && decide (2 ≤ v.asv.nextConn) && v.srv.isShutdown) (by decide +kernel)
  simp only [Bool.and_eq_true, beq_iff_eq, decide_eq_true_eq] at hq
  obtain ⟨⟨⟨⟨a1, a2⟩, a3⟩, a4⟩, a5⟩ := hq
  refine ⟨v, h1, a4, a5, fun x => (C119_released_partial (demo 0) 0 5 (by decide) v h1 h2 a1 a2 a3 _ (fun _ h => h.elim)).1 x fun hx => ?_⟩
  induction hx with
  | held h => exact h
  | via _ _ ih => exact ih

/-- Right after the channel has been shut down, its session is released, although connections are still open. -/
example : ∃ v, VReach (demo 0) 0 5 v ∧ SEv.sessionShutdown 0 ∈ svLog v.log ∧ (v.asv.conns 1).isOpen = true ∧ SFreed v (fun x => x = .channel) (.session 0) := by
  obtain ⟨v, h1, hq⟩ := any_vdemo (max := 5) (ops := vleft ++ [.chan .shutdown, .chan .runTask]) (Q := fun v =>
    decide (SEv.sessionShutdown 0 ∈ svLog v.log) && (v.asv.conns 1).isOpen && v.srv.isShutdown && decide (v.srv.tasks = [])) (by decide +kernel)
  simp only [Bool.and_eq_true, decide_eq_true_eq] at hq
  obtain ⟨⟨⟨a1, a2⟩, a3⟩, a4⟩ := hq
  exact ⟨v, h1, a1, a2, C119_sessions_released (demo 0) 0 5 v h1 a3 0 (by rw [a4]; simp) _ (by simp)⟩

end Modbus.Props
