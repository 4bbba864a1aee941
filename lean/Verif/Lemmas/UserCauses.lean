import Verif.Spec.UserCauses
import Verif.Lemmas.UserCode
import Verif.Lemmas.ClientFailures
import Verif.Lemmas.PollingFair
import Verif.Lemmas.WorldParts
import Verif.Props.UserCode

/-! Accounting for the calls of the user's code. -/

namespace Modbus

open Spec

theorem functionCalls_append (prog : UserCode) (a : List UEv) : ∀ (past b : List UEv),
    functionCalls prog past (a ++ b) = functionCalls prog past a ++ functionCalls prog (past ++ a) b := by
  induction a with
  | nil => intro past b; simp [functionCalls]
  | cons e a ih => intro past b; simp [functionCalls, ih]

theorem functionCalls_none (prog : UserCode) (l : List UEv) : ∀ past, (∀ e ∈ l, beginsWith e = none) → functionCalls prog past l = [] := by
  induction l with
  | nil => intro _ _; rfl
  | cons e l ih => intro past h; simp [functionCalls, h e (.head _), ih _ fun e he => h e (.tail _ he)]

@[simp] theorem matterOfCalls_append (a b : List UCall) : matterOfCalls (a ++ b) = matterOfCalls a ++ matterOfCalls b := by simp [matterOfCalls]

@[simp] theorem matterOfLog_append (a b : List UEv) : matterOfLog (a ++ b) = matterOfLog a ++ matterOfLog b := by simp [matterOfLog]

@[simp] theorem threadCalls_append (a b : List Upr.Op) : threadCalls (a ++ b) = threadCalls a ++ threadCalls b := by simp [threadCalls]

theorem matterOfLog_chans {es : List CEv} (h : ∀ u unit q tmo, CEv.call u unit q tmo ∉ es) : matterOfLog (es.map .ch) = [] := by
  unfold matterOfLog
  rw [List.flatMap_eq_nil_iff]
  intro e he
  obtain ⟨x, hx, rfl⟩ := List.mem_map.1 he
  cases x <;> first | rfl | exact absurd hx (h _ _ _ _)

/-- The books: what has been done and what running functions still do is what has been called. -/
structure Books (prog : UserCode) (ops : List Upr.Op) (v : Upr) : Prop where
  balance : (matterOfLog v.log ++ matterOfCalls v.todo).Perm (matterOfCalls (threadCalls ops) ++ matterOfCalls (functionCalls prog [] v.log))
  todo : ∀ c ∈ v.todo, c ∈ functionCalls prog [] v.log
  cancelled : ∀ a b k t, v.log = a ++ .cancelled k t :: b → CallMade prog ops a (.cancel k)
  started : ∀ a b k d f t, v.log = a ++ .started k d f t :: b → CallMade prog ops a (.startAt d f) ∨ ∃ δ, d = t + δ ∧ CallMade prog ops a (.start δ f)
  task : CTask.shutdown ∈ v.cli.tasks → CallMade prog ops v.log .shutdown
  down : ∀ a b, (v.log = a ++ .ch .tcpShutdown :: b ∨ ∃ s, v.log = a ++ .ch (.sessionShutdown s) :: b) → CallMade prog ops a .shutdown

namespace Books

variable {prog : UserCode} {ops : List Upr.Op} {v : Upr}

theorem made_mono {op : Upr.Op} {a new : List UEv} {c : UCall} (h : CallMade prog ops a c) : CallMade prog (ops ++ [op]) (a ++ new) c := by
  rcases h with h | h
  · exact Or.inl (by rw [threadCalls_append]; exact List.mem_append_left _ h)
  · exact Or.inr (by rw [functionCalls_append]; exact List.mem_append_left _ h)

theorem made_ops {op : Upr.Op} {a : List UEv} {c : UCall} (h : CallMade prog ops a c) : CallMade prog (ops ++ [op]) a c := by
  simpa using made_mono (op := op) (new := []) h

/-- A call that is being made has been made. -/
theorem by_ {op : Upr.Op} {c : UCall} {td : List UCall} (h : Books prog ops v) (hb : v.CalledBy op c td) :
    CallMade prog (ops ++ [op]) v.log c ∧ (∀ x ∈ td, x ∈ functionCalls prog [] v.log) ∧
    (matterOfLog v.log ++ matterOfCalls td ++ matterOfCalls [c]).Perm (matterOfCalls (threadCalls (ops ++ [op])) ++ matterOfCalls (functionCalls prog [] v.log)) := by
  rcases hb with ⟨rfl, rfl⟩ | ⟨rfl, ht⟩
  · refine ⟨Or.inl (by simp [threadCalls]), h.todo, ?_⟩
    rw [threadCalls_append, matterOfCalls_append]
    have e : threadCalls [Upr.Op.call c] = [c] := rfl
    rw [e]
    refine (h.balance.append_right _).trans ?_
    rw [List.append_assoc, List.append_assoc]
    exact List.Perm.append_left _ List.perm_append_comm
  · refine ⟨Or.inr (h.todo c (by rw [ht]; exact .head _)), fun x hx => h.todo x (by rw [ht]; exact .tail _ hx), ?_⟩
    have e : threadCalls (ops ++ [Upr.Op.user]) = threadCalls ops := by simp [threadCalls]
    rw [e]
    refine List.Perm.trans ?_ h.balance
    rw [ht, List.append_assoc, show c :: td = [c] ++ td from rfl, matterOfCalls_append]
    exact List.Perm.append_left _ List.perm_append_comm

/-- Splitting a log that has grown. -/
theorem split_new {l new a b : List UEv} {e : UEv} (h : l ++ new = a ++ e :: b) :
    (∃ b', l = a ++ e :: b') ∨ ∃ m, a = l ++ m ∧ new = m ++ e :: b := by
  rcases List.append_eq_append_iff.1 h with ⟨c, h1, h2⟩ | ⟨c, h1, h2⟩
  · exact Or.inr ⟨c, h1, h2⟩
  · cases c with
    | nil => right; exact ⟨[], by simpa using h1.symm, by simpa using h2.symm⟩
    | cons x c =>
      injection h2 with h2 h3
      subst h2
      exact Or.inl ⟨c, h1⟩

theorem init (env : ClientEnv) : Books prog [] (Upr.init env) := by
  refine ⟨.refl _, by simp [Upr.init], ?_, ?_, by simp [Upr.init, Cli.init], ?_⟩
  · intro a b k t h; cases a <;> cases h
  · intro a b k d f t h; cases a <;> cases h
  · intro a b h; rcases h with h | ⟨s, h⟩ <;> cases a <;> cases h

/-- The part of the books that is about causes, when the log grows by `new`. -/
theorem grow {op : Upr.Op} {w : Upr} {new : List UEv} (h : Books prog ops v) (hl : w.log = v.log ++ new)
    (hbal : (matterOfLog w.log ++ matterOfCalls w.todo).Perm (matterOfCalls (threadCalls (ops ++ [op])) ++ matterOfCalls (functionCalls prog [] w.log)))
    (htodo : ∀ c ∈ w.todo, c ∈ functionCalls prog [] w.log)
    (hc : ∀ m b k t, new = m ++ .cancelled k t :: b → CallMade prog (ops ++ [op]) (v.log ++ m) (.cancel k))
    (hs : ∀ m b k d f t, new = m ++ .started k d f t :: b → CallMade prog (ops ++ [op]) (v.log ++ m) (.startAt d f) ∨ ∃ δ, d = t + δ ∧ CallMade prog (ops ++ [op]) (v.log ++ m) (.start δ f))
    (ht : CTask.shutdown ∈ w.cli.tasks → CallMade prog (ops ++ [op]) w.log .shutdown)
    (hd : ∀ m b, (new = m ++ .ch .tcpShutdown :: b ∨ ∃ s, new = m ++ .ch (.sessionShutdown s) :: b) → CallMade prog (ops ++ [op]) (v.log ++ m) .shutdown) :
    Books prog (ops ++ [op]) w := by
  refine ⟨hbal, htodo, ?_, ?_, ht, ?_⟩
  · intro a b k t he
    rw [hl] at he
    rcases split_new he with ⟨b', h1⟩ | ⟨m, rfl, h2⟩
    · exact made_ops (h.cancelled a b' k t h1)
    · exact hc m b k t h2
  · intro a b k d f t he
    rw [hl] at he
    rcases split_new he with ⟨b', h1⟩ | ⟨m, rfl, h2⟩
    · rcases h.started a b' k d f t h1 with h | ⟨δ, h3, h4⟩
      · exact Or.inl (made_ops h)
      · exact Or.inr ⟨δ, h3, made_ops h4⟩
    · exact hs m b k d f t h2
  · intro a b he
    rw [hl] at he
    rcases he with he | ⟨s, he⟩
    · rcases split_new he with ⟨b', h1⟩ | ⟨m, rfl, h2⟩
      · exact made_ops (h.down a b' (Or.inl h1))
      · exact hd m b (Or.inl h2)
    · rcases split_new he with ⟨b', h1⟩ | ⟨m, rfl, h2⟩
      · exact made_ops (h.down a b' (Or.inr ⟨s, h1⟩))
      · exact hd m b (Or.inr ⟨s, h2⟩)

theorem not_mid {α : Type} {x y : α} {m b : List α} (h : [x] = m ++ y :: b) : m = [] ∧ x = y := by
  cases m with
  | nil => injection h with h; exact ⟨rfl, h⟩
  | cons z m => cases m <;> cases h

/-- The functions begun do not change when nothing begins. -/
theorem calls_same {new : List UEv} (l : List UEv) (hn : ∀ e ∈ new, beginsWith e = none) : functionCalls prog [] (l ++ new) = functionCalls prog [] l := by
  rw [functionCalls_append, functionCalls_none prog new _ hn, List.append_nil]

theorem step {env : ClientEnv} {op : Upr.Op} {w : Upr} {new : List UEv} (h : Books prog ops v) (hm : Upr.Move env prog v op w new) : Books prog (ops ++ [op]) w := by
  have plain : (∀ c, op ≠ Upr.Op.call c) → threadCalls (ops ++ [op]) = threadCalls ops := by
    intro ho
    rw [threadCalls_append]
    cases op with
    | call c => exact absurd rfl (ho c)
    | _ => simp [threadCalls]
  have tk : CTask.shutdown ∈ v.cli.tasks → ∀ {m}, CallMade prog (ops ++ [op]) (v.log ++ m) .shutdown := fun hx m => made_mono (h.task hx)
  have nil2 : ∀ {m b : List UEv} {e : UEv}, ([] : List UEv) = m ++ e :: b → False := by intro m b e he; cases m <;> cases he
  -- nothing new is logged
  have quiet : ∀ {w : Upr}, w.log = v.log →
      (matterOfLog v.log ++ matterOfCalls w.todo).Perm (matterOfCalls (threadCalls (ops ++ [op])) ++ matterOfCalls (functionCalls prog [] v.log)) →
      (∀ c ∈ w.todo, c ∈ functionCalls prog [] v.log) → (CTask.shutdown ∈ w.cli.tasks → CallMade prog (ops ++ [op]) v.log .shutdown) →
      Books prog (ops ++ [op]) w := by
    intro w hl hb ht hsd
    refine h.grow (new := []) (by simpa using hl) (by rw [hl]; exact hb) (by rw [hl]; exact ht) (fun _ _ _ _ he => (nil2 he).elim)
      (fun _ _ _ _ _ _ he => (nil2 he).elim) (by rw [hl]; exact hsd) ?_
    rintro m b (he | ⟨s, he⟩) <;> exact (nil2 he).elim
  have unq : (∀ c, op ≠ Upr.Op.call c) → ∀ {w : Upr}, w.log = v.log → w.todo = v.todo → w.cli.tasks = v.cli.tasks → Books prog (ops ++ [op]) w := by
    intro ho w hl ht htk
    exact quiet hl (by rw [ht, plain ho]; exact h.balance) (by rw [ht]; exact h.todo) (by rw [htk]; exact fun hx => by simpa using tk hx (m := []))
  cases hm with
  | same ho => exact unq ho rfl rfl rfl
  | skip hb =>
    obtain ⟨-, h2, h3⟩ := h.by_ hb
    refine quiet rfl (by simpa [matterOfCalls] using h3) h2 (fun hx => by simpa using tk hx (m := []))
  | shutdown hb =>
    obtain ⟨h1, h2, h3⟩ := h.by_ hb
    exact quiet rfl (by simpa [matterOfCalls] using h3) h2 (fun _ => h1)
  | expire ho => subst ho; exact unq (fun _ => nofun) rfl rfl rfl
  | tick ho => subst ho; exact unq (fun _ => nofun) rfl rfl rfl
  | @start td c time f hb hc =>
    obtain ⟨h1, h2, h3⟩ := h.by_ hb
    have hq : ∀ e ∈ [UEv.started v.nextK time f v.cli.now], beginsWith e = none := by simp [beginsWith]
    refine h.grow rfl ?_ (by rw [calls_same _ hq]; exact h2) ?_ ?_ (fun hx => tk hx) ?_
    · rw [calls_same _ hq, matterOfLog_append]
      refine List.Perm.trans ?_ h3
      have e : matterOfLog [UEv.started v.nextK time f v.cli.now] = matterOfCalls [c] := by
        rcases hc with ⟨d, rfl, -⟩ | rfl <;> rfl
      rw [e, List.append_assoc, List.append_assoc]
      exact List.Perm.append_left _ List.perm_append_comm
    · intro m b k t he
      obtain ⟨-, he⟩ := not_mid he
      cases he
    · intro m b k d f t he
      obtain ⟨rfl, he⟩ := not_mid he
      cases he
      rw [List.append_nil]
      rcases hc with ⟨δ, rfl, hd⟩ | rfl
      · exact Or.inr ⟨δ, hd, h1⟩
      · exact Or.inl h1
    · rintro m b (he | ⟨s, he⟩) <;> · obtain ⟨-, he⟩ := not_mid he; cases he
  | @cancel td k hb hk =>
    obtain ⟨h1, h2, h3⟩ := h.by_ hb
    have hq : ∀ e ∈ [UEv.cancelled k v.cli.now], beginsWith e = none := by simp [beginsWith]
    refine h.grow rfl ?_ (by rw [calls_same _ hq]; exact h2) ?_ ?_ (fun hx => tk hx) ?_
    · rw [calls_same _ hq, matterOfLog_append]
      simpa [matterOfCalls, matterOfLog] using h3
    · intro m b k t he
      obtain ⟨rfl, he⟩ := not_mid he
      cases he
      rw [List.append_nil]; exact h1
    · intro m b k d f t he
      obtain ⟨-, he⟩ := not_mid he
      cases he
    · rintro m b (he | ⟨s, he⟩) <;> · obtain ⟨-, he⟩ := not_mid he; cases he
  | @ask td unit req tmo f c hb hc hl _ _ =>
    obtain ⟨h1, h2, h3⟩ := h.by_ hb
    have hq : ∀ e ∈ [UEv.asked v.cli.nextUid f, .ch (.call v.cli.nextUid unit req tmo)], beginsWith e = none := by simp [beginsWith]
    have no : ∀ {e : UEv} {m b : List UEv}, [UEv.asked v.cli.nextUid f, .ch (.call v.cli.nextUid unit req tmo)] = m ++ e :: b →
        e = .asked v.cli.nextUid f ∨ e = .ch (.call v.cli.nextUid unit req tmo) := by
      intro e m b he
      have : e ∈ [UEv.asked v.cli.nextUid f, .ch (.call v.cli.nextUid unit req tmo)] := by rw [he]; simp
      simpa using this
    refine h.grow rfl ?_ (by rw [calls_same _ hq]; exact h2) ?_ ?_ ?_ ?_
    · rw [calls_same _ hq, matterOfLog_append]
      refine List.Perm.trans ?_ h3
      have e : (matterOfLog [UEv.asked v.cli.nextUid f, .ch (.call v.cli.nextUid unit req tmo)]).Perm (matterOfCalls [.send unit req tmo f]) :=
        List.Perm.swap _ _ _
      rw [List.append_assoc, List.append_assoc]
      exact List.Perm.append_left _ (List.perm_append_comm.trans (e.append_left _))
    · intro m b k t he
      rcases no he with he | he <;> cases he
    · intro m b k d f t he
      rcases no he with he | he <;> cases he
    · intro hx
      by_cases hv : CTask.shutdown ∈ v.cli.tasks
      · exact tk hv
      · exact absurd hx (Cli.step_noShutdown hc (by simp) hv)
    · rintro m b (he | ⟨s, he⟩) <;> rcases no he with he | he <;> cases he
  | @reply uid f ds ho ht hd =>
    subst ho
    refine h.grow rfl ?_ (by rw [functionCalls_append]; intro c hc; simp [functionCalls, beginsWith]; exact Or.inr hc) ?_ ?_ (fun hx => tk hx) ?_
    · have hb := h.balance
      rw [ht] at hb
      rw [plain (fun _ => nofun), functionCalls_append, matterOfLog_append, matterOfCalls_append]
      simp only [functionCalls, beginsWith, List.append_nil, List.nil_append]
      rw [← List.append_assoc]
      refine List.Perm.append_right _ ?_
      simpa [matterOfCalls, matterOfLog] using hb
    · intro m b k t he
      obtain ⟨-, he⟩ := not_mid he; cases he
    · intro m b k d f t he
      obtain ⟨-, he⟩ := not_mid he; cases he
    · rintro m b (he | ⟨s, he⟩) <;> · obtain ⟨-, he⟩ := not_mid he; cases he
  | @action k f ho hi hf =>
    subst ho
    have ht : v.todo = [] := by
      unfold Upr.idle at hi
      revert hi; cases v.todo <;> simp
    refine h.grow rfl ?_ (by rw [functionCalls_append]; intro c hc; simp [functionCalls, beginsWith]; exact Or.inr hc) ?_ ?_ (fun hx => tk hx) ?_
    · have hb := h.balance
      rw [ht] at hb
      rw [plain (fun _ => nofun), functionCalls_append, matterOfLog_append, matterOfCalls_append]
      simp only [functionCalls, beginsWith, List.append_nil, List.nil_append]
      rw [← List.append_assoc]
      refine List.Perm.append_right _ ?_
      simpa [matterOfCalls, matterOfLog] using hb
    · intro m b k t he
      obtain ⟨-, he⟩ := not_mid he; cases he
    · intro m b k d f t he
      obtain ⟨-, he⟩ := not_mid he; cases he
    · rintro m b (he | ⟨s, he⟩) <;> · obtain ⟨-, he⟩ := not_mid he; cases he
  | @chan cop c es ho hg hc hl _ _ _ hnc =>
    subst ho
    have hns : cop ≠ .shutdown := by
      rcases hg with ⟨-, hg⟩ | ⟨t, rfl⟩
      · rintro rfl; cases hg
      · simp
    have hq : ∀ e ∈ es.map UEv.ch, beginsWith e = none := by
      intro e he
      obtain ⟨x, -, rfl⟩ := List.mem_map.1 he
      rfl
    have no : ∀ {e : UEv} {m b : List UEv}, es.map UEv.ch = m ++ e :: b → ∃ x ∈ es, e = .ch x := by
      intro e m b he
      have : e ∈ es.map UEv.ch := by rw [he]; simp
      obtain ⟨x, hx, h⟩ := List.mem_map.1 this
      exact ⟨x, hx, h.symm⟩
    refine h.grow rfl ?_ (by rw [calls_same _ hq]; exact h.todo) ?_ ?_ ?_ ?_
    · rw [calls_same _ hq, matterOfLog_append, matterOfLog_chans hnc, List.append_nil, plain (fun _ => nofun)]
      exact h.balance
    · intro m b k t he
      obtain ⟨x, -, he⟩ := no he; cases he
    · intro m b k d f t he
      obtain ⟨x, -, he⟩ := no he; cases he
    · intro hx
      by_cases hv : CTask.shutdown ∈ v.cli.tasks
      · exact tk hv
      · exact absurd hx (Cli.step_noShutdown hc hns hv)
    · intro m b he
      by_cases hv : CTask.shutdown ∈ v.cli.tasks
      · exact tk hv
      · obtain ⟨es', h1, h2⟩ := Cli.step_log hc hv
        rw [hl] at h1
        have := List.append_cancel_left h1
        subst this
        rcases he with he | ⟨s, he⟩ <;> obtain ⟨x, hx, he⟩ := no he <;> cases he
        · exact absurd rfl (h2 _ hx).1
        · exact absurd rfl ((h2 _ hx).2 s)

theorem run {env : ClientEnv} (more : List Upr.Op) : ∀ {ops : List Upr.Op} {v w : Upr}, Books prog ops v → v.run env prog more = .ret w → Books prog (ops ++ more) w := by
  induction more with
  | nil => intro ops v w h hr; injection hr with hr; subst hr; simpa using h
  | cons op more ih =>
    intro ops v w h hr
    obtain ⟨u, hu, hr⟩ := CM.bind_eq_ret.1 hr
    obtain ⟨new, hm⟩ := Upr.step_move hu
    have := ih (h.step hm) hr
    simpa using this

theorem of_run {env : ClientEnv} {ops : List Upr.Op} {v : Upr} (h : (Upr.init env).run env prog ops = .ret v) : Books prog ops v := by
  simpa using (init env).run ops h

end Books

end Modbus
