import Verif.Lemmas.AsioCauses
import Verif.Lemmas.ServerStackThrowing
import Verif.Lemmas.ServerThrowing
import Verif.Props.ServerTight

/-! Why connections end if sessions throw. -/

namespace Modbus

open Spec

variable {W : Type}

namespace Asv

/-- Connections end only by steps that end them, whatever is thrown. -/
theorem _root_.Modbus.Spec.AsvTReach.caused {max : UInt32} {P : Asv → Op → Prop} {t : AsvT} (h : AsvTReach max P t) :
    Csd (fun c => ∃ t op, AsvTReach max P t ∧ P t.asv op ∧ EndsBy t.asv op c) t.asv := by
  induction h with
  | init => exact .init max
  | @step t t' op hv hp hs ih =>
    cases op with
    | op o =>
      simp only [AsvT.step] at hs
      obtain ⟨a, h1, hs⟩ := CM.bind_eq_ret.1 hs
      injection hs with hs; subst hs
      exact ih.step h1 fun c hc => ⟨t, o, hv, hp o rfl, hc⟩
    | throws k rs =>
      simp only [AsvT.step] at hs
      split at hs
      · rename_i c bytes hq
        injection hs with hs; subst hs
        exact Csd.sendAll c rs ((ih.pop k).emit _ fun d hd => by rcases hd with hd | hd | hd <;> cases hd)
      · injection hs with hs; subst hs; exact ih

end Asv

namespace SrvT

/-- `shutdown` is neither posted nor carried out. -/
structure Quiet (s : Srv W) : Prop where
  tasks : STask.shutdown ∉ s.tasks
  log : SEv.serverShutdown ∉ s.log

theorem Quiet.reacts {env : ServerEnv W} {s s' : Srv W} {c : ConnId} {m : Mbap} (h : Quiet s) (hr : Srv.Reacts env s c m s') : Quiet s' := by
  refine ⟨by rw [hr.same.tasks]; exact h.tasks, ?_⟩
  cases hr <;> simp only [Srv.emit, Srv.sendMessage, List.mem_append, List.mem_cons, List.not_mem_nil, or_false, not_or] <;> simp [h.log]

theorem Quiet.reactsAll {env : ServerEnv W} {s s' : Srv W} {c : ConnId} {ms : List Mbap} (hr : Srv.ReactsAll env c s ms s') (h : Quiet s) : Quiet s' := by
  induction hr with
  | nil => exact h
  | cons h1 _ ih => exact ih (h.reacts h1)

theorem Quiet.runTask {s : Srv W} (h : Quiet s) {t : STask} (ht : t ≠ .shutdown) : Quiet (s.runTask t) := by
  refine ⟨by rw [Srv.runTask_tasks]; exact h.tasks, ?_⟩
  cases t with
  | shutdown => exact absurd rfl ht
  | start =>
    simp only [Srv.runTask]
    split <;> simp_all [Srv.emit, h.log]
  | addSession u x =>
    simp only [Srv.runTask]
    by_cases hl : (s.sessions.lookup u).isSome = true <;> by_cases hd : s.isShutdown = true <;> simp only [hl, hd, if_true, if_false, Bool.false_eq_true] <;> exact h.log

theorem Quiet.stepT {env : ServerEnv W} {th : SThrows W} {v v' : SrvT W} {op : Srv.Op} (h : Quiet v.srv) (hs : v.step env th op = .ret v') (ho : op ≠ .shutdown) :
    Quiet v'.srv := by
  have plain : ∀ {s : Srv W}, v.srv.step env op = .ret s → op ≠ .runTask → (∀ c d, op ≠ .receive c d) → Quiet s := by
    intro s h1 hn1 hn2
    cases op with
    | start => simp only [Srv.step] at h1; split at h1 <;> (injection h1 with h1; subst h1) <;> first | exact h | exact ⟨by simpa using h.tasks, h.log⟩
    | shutdown => exact absurd rfl ho
    | addSession u x => simp only [Srv.step] at h1; split at h1 <;> (injection h1 with h1; subst h1) <;> first | exact h | exact ⟨by simpa using h.tasks, h.log⟩
    | runTask => exact absurd rfl hn1
    | opened c mem => simp only [Srv.step] at h1; split at h1 <;> (injection h1 with h1; subst h1) <;> exact ⟨h.tasks, h.log⟩
    | receive c d => exact absurd rfl (hn2 c d)
    | error c => simp only [Srv.step] at h1; split at h1 <;> (injection h1 with h1; subst h1) <;> exact ⟨h.tasks, h.log⟩
    | dropped c => injection h1 with h1; subst h1; exact ⟨h.tasks, h.log⟩
  cases op with
  | shutdown => exact absurd rfl ho
  | receive c d =>
    simp only [SrvT.step] at hs
    split at hs
    · injection hs with hs; subst hs; exact h
    · split at hs
      · injection hs with hs; subst hs; exact h
      · rename_i p hl
        obtain ⟨⟨p', ms⟩, -, hs⟩ := CM.bind_eq_ret.1 hs
        obtain ⟨⟨s, b⟩, h2, hs⟩ := CM.bind_eq_ret.1 hs
        injection hs with hs; subst hs
        obtain ⟨n, -, -, -, h3⟩ := Srv.onMbapsT_caught ms h2
        obtain ⟨z, g1, g2⟩ := Srv.onMbaps_reacts (th.caught env) c (ms.take n) { v.srv with listeners := Srv.setListener v.srv.listeners c p' }
        rw [h3] at g1; injection g1 with g1; subst g1
        exact Quiet.reactsAll g2 ⟨h.tasks, h.log⟩
  | runTask =>
    simp only [SrvT.step] at hs
    split at hs
    · injection hs with hs; subst hs; exact h
    · rename_i t ts ht
      injection hs with hs; subst hs
      have hn : t ≠ .shutdown := by rintro rfl; exact h.tasks (by rw [ht]; simp)
      have h0 : Quiet { v.srv with tasks := ts } := ⟨fun hm => h.tasks (by rw [ht]; simp [hm]), h.log⟩
      have : Srv.runTaskT th { v.srv with tasks := ts } t = Srv.runTask { v.srv with tasks := ts } t := by
        cases t with
        | shutdown => exact absurd rfl hn
        | _ => rfl
      rw [this]
      exact h0.runTask hn
  | dropped c =>
    simp only [SrvT.step] at hs
    obtain ⟨s, h1, hs⟩ := CM.bind_eq_ret.1 hs
    injection hs with hs; subst hs
    exact plain h1 (by simp) (by simp)
  | _ =>
    simp only [SrvT.step] at hs
    obtain ⟨s, h1, hs⟩ := CM.bind_eq_ret.1 hs
    injection hs with hs; subst hs
    exact plain h1 (by simp) (by simp)

end SrvT

namespace SvkT

/-- Neither the channel nor the listening server is told to shut down. -/
structure Quiet (v : SvkT W) : Prop where
  srv : SrvT.Quiet v.srv.srv
  steps : ∀ x ∈ v.steps, x.2 ≠ .op .shutdown

theorem Quiet.act {v v' : SvkT W} {o : Asv.Op} (h : Quiet v) (hs : v.act o = .ret v') (ho : o ≠ .shutdown) : Quiet v' := by
  simp only [SvkT.act] at hs
  obtain ⟨n, h1, hs⟩ := CM.bind_eq_ret.1 hs
  injection hs with hs; subst hs
  refine ⟨h.srv, fun x hx => ?_⟩
  rcases List.mem_append.1 hx with hx | hx
  · exact h.steps x hx
  · rw [List.mem_singleton] at hx; subst hx
    simpa using ho

theorem Quiet.relay (es : List SEv) : ∀ {v v' : SvkT W}, Quiet v → SEv.serverShutdown ∉ es → v.relay es = .ret v' → Quiet v' := by
  induction es with
  | nil => intro v v' h _ hs; injection hs with hs; subst hs; exact h
  | cons e es ih =>
    intro v v' h hn hs
    simp only [SvkT.relay] at hs
    obtain ⟨u, h1, h2⟩ := CM.bind_eq_ret.1 hs
    refine ih ?_ (fun hm => hn (.tail _ hm)) h2
    cases e with
    | serverStart => exact h.act h1 (by simp)
    | serverShutdown => exact absurd (.head _) hn
    | _ => injection h1 with h1; subst h1; exact h

theorem Quiet.chan {env : ServerEnv W} {th : SThrows W} {v v' : SvkT W} {op : Srv.Op} (h : Quiet v) (hs : v.chan env th op = .ret v') (ho : op ≠ .shutdown) : Quiet v' := by
  simp only [SvkT.chan] at hs
  obtain ⟨s, h1, hs⟩ := CM.bind_eq_ret.1 hs
  have h2 := h.srv.stepT h1 ho
  exact Quiet.relay _ (v := { v with srv := s }) ⟨h2, h.steps⟩ (fun hm => h2.log (List.mem_of_mem_drop hm)) hs

theorem Quiet.step {env : ServerEnv W} {th : SThrows W} {v v' : SvkT W} {op : Svk.Op} (h : Quiet v) (hs : v.step env th op = .ret v') (ho : op ≠ .chan .shutdown) : Quiet v' := by
  cases op with
  | chan op =>
    simp only [SvkT.step] at hs
    split at hs
    · exact h.chan hs (by rintro rfl; exact ho rfl)
    · injection hs with hs; subst hs; exact h
  | complete i r => exact h.act hs (by simp)
  | run k mem =>
    simp only [SvkT.step] at hs
    split at hs
    · obtain ⟨u, h1, hs⟩ := CM.bind_eq_ret.1 hs
      have hu := h.act h1 (by simp)
      split at hs
      · injection hs with hs; subst hs; exact hu
      · exact hu.chan hs (by simp)
    · simp only [SvkT.receive] at hs
      obtain ⟨s, h1, hs⟩ := CM.bind_eq_ret.1 hs
      obtain ⟨n, h4, hs⟩ := CM.bind_eq_ret.1 hs
      injection hs with hs; subst hs
      refine ⟨h.srv.stepT h1 (by simp), fun x hx => ?_⟩
      rcases List.mem_append.1 hx with hx | hx
      · exact h.steps x hx
      · rw [List.mem_singleton] at hx; subst hx
        dsimp only
        split <;> simp
    · obtain ⟨u, h1, hs⟩ := CM.bind_eq_ret.1 hs
      exact (h.act h1 (by simp)).chan hs (by simp)
    · obtain ⟨u, h1, hs⟩ := CM.bind_eq_ret.1 hs
      exact (h.act h1 (by simp)).chan hs (by simp)
    · exact h.act hs (by simp)

theorem Quiet.run {env : ServerEnv W} {th : SThrows W} (ops : List Svk.Op) : ∀ {v v' : SvkT W}, Quiet v → v.run env th ops = .ret v' → Svk.Op.chan .shutdown ∉ ops → Quiet v' := by
  induction ops with
  | nil => intro v v' h hs _; injection hs with hs; subst hs; exact h
  | cons op ops ih =>
    intro v v' h hs hn
    simp only [SvkT.run] at hs
    obtain ⟨u, h1, h2⟩ := CM.bind_eq_ret.1 hs
    exact ih (h.step h1 (by rintro rfl; exact hn (.head _))) h2 fun hm => hn (.tail _ hm)

end SvkT

end Modbus
