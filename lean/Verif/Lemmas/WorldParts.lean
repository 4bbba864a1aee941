import Verif.Lemmas.StackGenuine
import Verif.Lemmas.AsioRing
import Verif.Lemmas.ServerStackMore

/-! Helper lemmas: which steps of the connections one step of a client or of the server consists of. -/

namespace Modbus

open Spec

theorem CM.bind_eq_ret {α β : Type} {x : CM α} {f : α → CM β} {b : β} : (x >>= f) = .ret b ↔ ∃ a, x = .ret a ∧ f a = .ret b := by
  cases x with
  | ub => simp
  | ret a => simp

namespace Stk

variable {env : StkEnv}

/-- The client gets from one state to another by steps of the channel and steps of the connection that satisfy `P`. -/
inductive Path (P : Tcp.Op → Prop) : Stk → Stk → Prop
  | refl (v : Stk) : Path P v v
  | step {v u : Stk} {op : Tcp.Op} {t : Tcp} (c : Cli) (es : List KEv) : Path P v u → P op → u.tcp.step op = .ret t →
      Path P v { cli := c, tcp := t, log := u.log ++ es, steps := u.steps ++ [(u.tcp, op)] }
  | chan {v u : Stk} (c : Cli) (es : List KEv) : Path P v u → Path P v { u with cli := c, log := u.log ++ es }

namespace Path

variable {P : Tcp.Op → Prop}

theorem trans {a b c : Stk} (h : Path P a b) (h' : Path P b c) : Path P a c := by
  induction h' with
  | refl => exact h
  | step c es _ hp hs ih => exact ih.step c es hp hs
  | chan c es _ ih => exact ih.chan c es

theorem net {v v' : Stk} {op : Tcp.Op} (h : v.net op = .ret v') (hp : P op) : Path P v v' := by
  simp only [Stk.net, CM.bind_eq_ret, CM.pure_eq] at h
  obtain ⟨t, h1, h2⟩ := h
  injection h2 with h2; subst h2
  exact (Path.refl v).step _ _ hp h1

theorem relay {v' : Stk} (h1 : ∀ b l, P (.send b l)) (h2 : P .shutdown) (es : List CEv) : ∀ v : Stk, v.relay env es = .ret v' → Path P v v' := by
  induction es with
  | nil => intro v h; injection h with h; subst h; exact .refl v
  | cons e es ih =>
    intro v h
    simp only [Stk.relay, CM.bind_eq_ret] at h
    obtain ⟨u, h3, h4⟩ := h
    refine Path.trans ?_ (ih u h4)
    have hc : Path P v { v with log := v.log ++ [.ch e] } := (Path.refl v).chan v.cli _
    refine hc.trans ?_
    cases e with
    | sent _ _ _ => exact net h3 (h1 _ _)
    | tcpShutdown => exact net h3 h2
    | _ => injection h3 with h3; subst h3; exact .refl _

theorem chans {v v' : Stk} {op : Cli.Op} (h1 : ∀ b l, P (.send b l)) (h2 : P .shutdown) (h : v.chan env op = .ret v') : Path P v v' := by
  simp only [Stk.chan, CM.bind_eq_ret] at h
  obtain ⟨c, -, h4⟩ := h
  have hc : Path P v { v with cli := c } := by
    have := (Path.refl (P := P) v).chan c []
    rwa [List.append_nil] at this
  exact hc.trans (relay h1 h2 _ _ h4)

theorem deliver {v' : Stk} (h1 : ∀ b l, P (.send b l)) (h2 : P .shutdown) (es : List TEv) : ∀ v : Stk, v.deliver env es = .ret v' → Path P v v' := by
  induction es with
  | nil => intro v h; injection h with h; subst h; exact .refl v
  | cons e es ih =>
    intro v h
    cases e with
    | receive _ bytes =>
      simp only [Stk.deliver, CM.bind_eq_ret] at h
      obtain ⟨u, h3, h4⟩ := h
      exact (chans h1 h2 h3).trans (ih u h4)
    | error _ _ =>
      simp only [Stk.deliver, CM.bind_eq_ret] at h
      obtain ⟨u, h3, h4⟩ := h
      exact (chans h1 h2 h3).trans (ih u h4)
    | _ => exact ih v h

theorem steps {v v' : Stk} (h : Path P v v') : ∃ new, v'.steps = v.steps ++ new ∧ ∀ x ∈ new, P x.2 := by
  induction h with
  | refl => exact ⟨[], by simp, by simp⟩
  | @step u op t c es _ hp hs ih =>
    obtain ⟨new, h1, h2⟩ := ih
    refine ⟨new ++ [(u.tcp, op)], by simp [h1], fun x hx => ?_⟩
    rcases List.mem_append.1 hx with hx | hx
    · exact h2 x hx
    · rw [List.mem_singleton.1 hx]; exact hp
  | chan c es _ ih => exact ih

theorem log {v v' : Stk} (h : Path P v v') : ∃ es, v'.log = v.log ++ es := by
  induction h with
  | refl => exact ⟨[], by simp⟩
  | step c es _ hp hs ih => obtain ⟨l, h1⟩ := ih; exact ⟨l ++ es, by simp [h1]⟩
  | chan c es _ ih => obtain ⟨l, h1⟩ := ih; exact ⟨l ++ es, by simp [h1]⟩

end Path

/-- Not a completion of an operation. -/
def Inner (op : Tcp.Op) : Prop := ∀ i r, op ≠ .complete i r

/-- Only a completion makes the connection complete an operation. -/
theorem step_path {v v' : Stk} {op : Op} (hs : v.step env op = .ret v') :
    (∃ i r, op = .complete i r ∧ v.net (.complete i r) = .ret v') ∨ Path Inner v v' := by
  have i1 : ∀ b l, Inner (.send b l) := fun _ _ _ _ h => nomatch h
  have i2 : Inner .shutdown := fun _ _ h => nomatch h
  cases op with
  | chan o =>
    simp only [step] at hs
    split at hs
    · exact Or.inr (Path.chans i1 i2 hs)
    · injection hs with hs; subst hs; exact Or.inr (.refl _)
  | complete i r => exact Or.inl ⟨i, r, rfl, hs⟩
  | run k =>
    right
    simp only [step, CM.bind_eq_ret] at hs
    obtain ⟨w, h1, w', h2, h3⟩ := hs
    have p1 : Path Inner v w := Path.net h1 fun _ _ h => nomatch h
    have p2 : Path Inner v w' := p1.trans (Path.deliver i1 i2 _ _ h2)
    split at h3
    · split at h3
      · exact p2.trans (Path.net h3 fun _ _ h => nomatch h)
      · injection h3 with h3; subst h3; exact p2
    · injection h3 with h3; subst h3; exact p2

theorem step_grows {v v' : Stk} {op : Op} (hs : v.step env op = .ret v') : (∃ es, v'.log = v.log ++ es) ∧ ∃ new, v'.steps = v.steps ++ new := by
  have : Path (fun _ => True) v v' ∨ Path Inner v v' := (step_path hs).imp (fun ⟨i, r, _, h⟩ => Path.net h trivial) id
  rcases this with h | h
  · exact ⟨h.log, h.steps.imp fun _ h => h.1⟩
  · exact ⟨h.log, h.steps.imp fun _ h => h.1⟩

end Stk

namespace Tcp

/-- The bytes that completed reads of connection `n` gave in these steps. -/
def delivered (n : Nat) (s : List (Tcp × Op)) : List UInt8 := (s.map fun x => arrived n x.1 x.2).flatten

theorem delivered_append (n : Nat) (a b : List (Tcp × Op)) : delivered n (a ++ b) = delivered n a ++ delivered n b := by simp [delivered]

theorem delivered_inner {n : Nat} {s : List (Tcp × Op)} (h : ∀ x ∈ s, ∀ i d, x.2 ≠ .complete i (.data d)) : delivered n s = [] := by
  rw [delivered, List.flatten_eq_nil_iff]
  intro l hl
  obtain ⟨x, hx, rfl⟩ := List.mem_map.1 hl
  have := h x hx
  unfold arrived
  split
  · rename_i h1; exact absurd h1 (this _ _)
  · rfl

end Tcp

namespace Micro

open Tcp

variable {env : StkEnv}

/-- What the connection has received is, in order, what its reads gave. -/
theorem delivered {log t s ph} (h : Micro env log t s ph) (hf : ∀ x ∈ s, FreshStarts x.1 x.2) (n : Nat) :
    (t.isShutdown = false → got n t = Tcp.delivered n s) ∧ (tcpReceived n t.log).flatten <+: Tcp.delivered n s := by
  have key : ∀ {t t' : Tcp} {s : List (Tcp × Tcp.Op)} {op : Tcp.Op}, TcpReach (fun a o => (a, o) ∈ s) t → t.step op = .ret t' →
      (∀ x ∈ s ++ [(t, op)], FreshStarts x.1 x.2) →
      (t.isShutdown = false → got n t = Tcp.delivered n s) ∧ (tcpReceived n t.log).flatten <+: Tcp.delivered n s →
      (t'.isShutdown = false → got n t' = Tcp.delivered n (s ++ [(t, op)])) ∧ (tcpReceived n t'.log).flatten <+: Tcp.delivered n (s ++ [(t, op)]) := by
    intro t t' s op hr hs hf ih
    have hfs : ∀ a o, (a, o) ∈ s → FreshStarts a o := fun a o h => hf _ (List.mem_append_left _ h)
    have hst := ring_step (hr.ring hfs) (hr.neat hfs |>.imp And.left id) (hf _ (List.mem_append_right _ (List.mem_singleton.2 rfl))) hs
    have e : Tcp.delivered n (s ++ [(t, op)]) = Tcp.delivered n s ++ arrived n t op := by rw [delivered_append]; simp [Tcp.delivered]
    rw [e]
    rcases t.isShutdown.eq_false_or_eq_true with hd | hd
    · refine ⟨fun hd' => ?_, ?_⟩
      · exfalso
        obtain ⟨v2, a1, a2, -⟩ := shut_step hd hr.quiet op
        rw [hs] at a1; injection a1 with a1; subst a1
        rw [a2] at hd'; cases hd'
      · rw [hst.2.2 hd]
        exact ih.2.trans (List.prefix_append _ _)
    · have hg : got n t' = Tcp.delivered n s ++ arrived n t op := by rw [hst.2.1 hd, ih.1 hd]
      refine ⟨fun _ => hg, ?_⟩
      rw [← hg]
      exact List.prefix_append _ _
  induction h with
  | init => exact ⟨fun _ => rfl, by simp [Tcp.init, tcpReceived]⟩
  | own _ _ _ ih => exact ih hf
  | sent h1 _ _ ih => exact key h1.tcp rfl hf (ih fun x hx => hf x (List.mem_append_left _ hx))
  | down h1 ih => exact key h1.tcp rfl hf (ih fun x hx => hf x (List.mem_append_left _ hx))
  | step h1 _ hs _ ih => exact key h1.tcp hs hf (ih fun x hx => hf x (List.mem_append_left _ hx))
  | data _ ih => exact ih hf
  | heard _ _ _ ih => exact ih hf
  | again h1 _ hs _ ih => exact key h1.tcp hs hf (ih fun x hx => hf x (List.mem_append_left _ hx))
  | fail _ ih => exact ih hf
  | fails _ _ ih => exact ih hf
  | done _ ih => exact ih hf

end Micro

namespace Svk

variable {W : Type} {env : ServerEnv W}

/-- The server gets from one state to another by steps of the channel and steps of the connections that satisfy `P`. -/
inductive SPath (P : Asv.Op → Prop) : Svk W → Svk W → Prop
  | refl (v : Svk W) : SPath P v v
  | step {v u : Svk W} {op : Asv.Op} {a : Asv} (s : Srv W) (es : List VEv) : SPath P v u → P op → u.asv.step op = .ret a →
      SPath P v { srv := s, asv := a, log := u.log ++ es, steps := u.steps ++ [(u.asv, op)] }
  | chan {v u : Svk W} (s : Srv W) (es : List VEv) : SPath P v u → SPath P v { u with srv := s, log := u.log ++ es }

namespace SPath

variable {P : Asv.Op → Prop}

theorem trans {a b c : Svk W} (h : SPath P a b) (h' : SPath P b c) : SPath P a c := by
  induction h' with
  | refl => exact h
  | step c es _ hp hs ih => exact ih.step c es hp hs
  | chan c es _ ih => exact ih.chan c es

theorem net {v v' : Svk W} {op : Asv.Op} (h : v.net op = .ret v') (hp : P op) : SPath P v v' := by
  simp only [Svk.net, CM.bind_eq_ret, CM.pure_eq] at h
  obtain ⟨t, h1, h2⟩ := h
  injection h2 with h2; subst h2
  exact (SPath.refl v).step _ _ hp h1

theorem relay {v' : Svk W} (h1 : P .start) (h2 : P .shutdown) (es : List SEv) : ∀ v : Svk W, v.relay es = .ret v' → SPath P v v' := by
  induction es with
  | nil => intro v h; injection h with h; subst h; exact .refl v
  | cons e es ih =>
    intro v h
    simp only [Svk.relay, CM.bind_eq_ret] at h
    obtain ⟨u, h3, h4⟩ := h
    refine SPath.trans ?_ (ih u h4)
    have hc : SPath P v { v with log := v.log ++ [.ch e] } := (SPath.refl v).chan v.srv _
    refine hc.trans ?_
    cases e with
    | serverStart => exact net h3 h1
    | serverShutdown => exact net h3 h2
    | _ => injection h3 with h3; subst h3; exact .refl _

theorem chans {v v' : Svk W} {op : Srv.Op} (h1 : P .start) (h2 : P .shutdown) (h : v.chan env op = .ret v') : SPath P v v' := by
  simp only [Svk.chan, CM.bind_eq_ret] at h
  obtain ⟨c, -, h4⟩ := h
  have hc : SPath P v { v with srv := c } := by
    have := (SPath.refl (P := P) v).chan c []
    rwa [List.append_nil] at this
  exact hc.trans (relay h1 h2 _ _ h4)

theorem steps {v v' : Svk W} (h : SPath P v v') : ∃ new, v'.steps = v.steps ++ new ∧ ∀ x ∈ new, P x.2 := by
  induction h with
  | refl => exact ⟨[], by simp, by simp⟩
  | @step u op t c es _ hp hs ih =>
    obtain ⟨new, h1, h2⟩ := ih
    refine ⟨new ++ [(u.asv, op)], by simp [h1], fun x hx => ?_⟩
    rcases List.mem_append.1 hx with hx | hx
    · exact h2 x hx
    · rw [List.mem_singleton.1 hx]; exact hp
  | chan c es _ ih => exact ih

theorem log {v v' : Svk W} (h : SPath P v v') : ∃ es, v'.log = v.log ++ es := by
  induction h with
  | refl => exact ⟨[], by simp⟩
  | step c es _ hp hs ih => obtain ⟨l, h1⟩ := ih; exact ⟨l ++ es, by simp [h1]⟩
  | chan c es _ ih => obtain ⟨l, h1⟩ := ih; exact ⟨l ++ es, by simp [h1]⟩

end SPath

/-- Not a completion of an operation. -/
def Inner (op : Asv.Op) : Prop := ∀ i r, op ≠ .complete i r

theorem step_path {v v' : Svk W} {op : Op} (hs : v.step env op = .ret v') :
    (∃ i r, op = .complete i r ∧ v.net (.complete i r) = .ret v') ∨ SPath Inner v v' := by
  have i1 : Inner .start := fun _ _ h => nomatch h
  have i2 : Inner .shutdown := fun _ _ h => nomatch h
  have i3 : ∀ k r, Inner (.run k r) := fun _ _ _ _ h => nomatch h
  cases op with
  | chan o =>
    simp only [step] at hs
    split at hs
    · exact Or.inr (SPath.chans i1 i2 hs)
    · injection hs with hs; subst hs; exact Or.inr (.refl _)
  | complete i r => exact Or.inl ⟨i, r, rfl, hs⟩
  | run k mem =>
    right
    simp only [step] at hs
    split at hs
    · rw [CM.bind_eq_ret] at hs
      obtain ⟨w, h1, h2⟩ := hs
      have p1 : SPath Inner v w := SPath.net h1 (i3 _ _)
      split at h2
      · injection h2 with h2; subst h2; exact p1
      · exact p1.trans (SPath.chans i1 i2 h2)
    · simp only [receive, CM.bind_eq_ret, CM.pure_eq] at hs
      obtain ⟨s, -, a, h1, h2⟩ := hs
      injection h2 with h2; subst h2
      simp only [List.append_assoc]
      exact (SPath.refl v).step _ _ (i3 _ _) h1
    · rw [CM.bind_eq_ret] at hs
      obtain ⟨w, h1, h2⟩ := hs
      exact (SPath.net h1 (i3 _ _)).trans (SPath.chans i1 i2 h2)
    · rw [CM.bind_eq_ret] at hs
      obtain ⟨w, h1, h2⟩ := hs
      exact (SPath.net h1 (i3 _ _)).trans (SPath.chans i1 i2 h2)
    · exact SPath.net hs (i3 _ _)

theorem step_grows {v v' : Svk W} {op : Op} (hs : v.step env op = .ret v') : (∃ es, v'.log = v.log ++ es) ∧ ∃ new, v'.steps = v.steps ++ new := by
  have : SPath (fun _ => True) v v' ∨ SPath Inner v v' := (step_path hs).imp (fun ⟨i, r, _, h⟩ => SPath.net h trivial) id
  rcases this with h | h
  · exact ⟨h.log, h.steps.imp fun _ h => h.1⟩
  · exact ⟨h.log, h.steps.imp fun _ h => h.1⟩

theorem arrived_inner {a : Asv} {op : Asv.Op} (h : ∀ i d, op ≠ .complete i (.data d)) (c : Nat) : Asv.arrived c a op = [] := by
  unfold Asv.arrived
  split
  · exact absurd rfl (h _ _)
  · rfl

/-- Steps in which no data arrives. -/
theorem SPath.got {P : Asv.Op → Prop} (hP : ∀ op, P op → ∀ i d, op ≠ .complete i (.data d)) {v v' : Svk W} (h : SPath P v v')
    (ho : Asv.OneRead v.asv) : Asv.OneRead v'.asv ∧ ∀ c, Asv.got c v'.asv = Asv.got c v.asv := by
  induction h with
  | refl => exact ⟨ho, fun _ => rfl⟩
  | step s es _ hp hs ih =>
    obtain ⟨h1, h2⟩ := ih.1.step hs
    refine ⟨h1, fun c => ?_⟩
    rw [h2, arrived_inner (hP _ hp), List.append_nil]
    exact ih.2 c
  | chan s es _ ih => exact ih

end Svk

end Modbus
