import Verif.Lemmas.WorldParts
import Verif.Lemmas.ServerTrace
import Verif.Spec.World

/-! Helper lemmas about clients and server together. -/

namespace Modbus

open Spec

namespace Spec

@[simp] theorem inClient_append (j : Nat) (a b : List WEv) : inClient j (a ++ b) = inClient j a ++ inClient j b := by simp [inClient]

@[simp] theorem inServer_append (a b : List WEv) : inServer (a ++ b) = inServer a ++ inServer b := by simp [inServer]

@[simp] theorem inClient_nil (j : Nat) : inClient j [] = [] := rfl

@[simp] theorem inServer_nil : inServer [] = [] := rfl

@[simp] theorem inClient_map_cli (j : Nat) (es : List KEv) : inClient j (es.map (.cli j)) = es := by
  induction es with
  | nil => rfl
  | cons e es ih => rw [inClient] at ih ⊢; rw [List.map_cons, List.filterMap_cons]; simp only [if_true]; rw [ih]

theorem inClient_map_other {i j : Nat} (h : i ≠ j) (es : List KEv) : inClient j (es.map (.cli i)) = [] := by
  induction es with
  | nil => rfl
  | cons e es ih => rw [inClient] at ih ⊢; rw [List.map_cons, List.filterMap_cons]; simp only [if_neg h]; rw [ih]

@[simp] theorem inClient_map_srv (j : Nat) (es : List VEv) : inClient j (es.map .srv) = [] := by
  induction es with
  | nil => rfl
  | cons e es ih => rw [inClient] at ih ⊢; rw [List.map_cons, List.filterMap_cons]; exact ih

@[simp] theorem inServer_map_srv (es : List VEv) : inServer (es.map .srv) = es := by
  induction es with
  | nil => rfl
  | cons e es ih => rw [inServer] at ih ⊢; rw [List.map_cons, List.filterMap_cons]; simp only; rw [ih]

@[simp] theorem inServer_map_cli (j : Nat) (es : List KEv) : inServer (es.map (.cli j)) = [] := by
  induction es with
  | nil => rfl
  | cons e es ih => rw [inServer] at ih ⊢; rw [List.map_cons, List.filterMap_cons]; exact ih

@[simp] theorem inClient_cons_cli (j : Nat) (e : KEv) (l : List WEv) : inClient j (.cli j e :: l) = e :: inClient j l := by simp [inClient]

@[simp] theorem inClient_cons_srv (j : Nat) (e : VEv) (l : List WEv) : inClient j (.srv e :: l) = inClient j l := by simp [inClient]

@[simp] theorem inServer_cons_cli (j : Nat) (e : KEv) (l : List WEv) : inServer (.cli j e :: l) = inServer l := by simp [inServer]

@[simp] theorem inServer_cons_srv (e : VEv) (l : List WEv) : inServer (.srv e :: l) = e :: inServer l := by simp [inServer]

end Spec

namespace World

variable {W : Type} {env : WorldEnv W} {w : W}

/-- What holds in every state. -/
structure Ok (env : WorldEnv W) (w : W) (v : World W) : Prop where
  cli : ∀ j, KReach (env.client j) (v.cli j)
  srv : VReach env.server w env.max v.srv
  clog : ∀ j, inClient j v.log = (v.cli j).log
  slog : inServer v.log = v.srv.log
  ups : ∀ c, Asv.got c v.srv.asv = v.up c
  downs : ∀ j n, Tcp.delivered n (v.cli j).steps = v.down j n
  upOf : ∀ c j n, env.peer c = some (j, n) → v.up c <+: v.sentUp j n
  downOf : ∀ j n, v.down j n = [] ∨ ∃ c, env.peer c = some (j, n) ∧ v.down j n <+: v.sentDown c

theorem Ok.init (env : WorldEnv W) (w : W) : Ok env w (World.init env w) where
  cli := fun _ => .init
  srv := .init
  clog := fun _ => rfl
  slog := rfl
  ups := fun _ => rfl
  downs := fun _ _ => rfl
  upOf := fun _ _ _ _ => List.nil_prefix
  downOf := fun _ _ => Or.inl rfl

theorem clientStep_spec {v v' : World W} {j : Nat} {op : Stk.Op} (h : v.clientStep env j op = .ret v') :
    ∃ k es, (v.cli j).step (env.client j) op = .ret k ∧ k.log = (v.cli j).log ++ es ∧
      v' = { cli := fun i => if i = j then k else v.cli i, srv := v.srv, up := v.up, down := v.down, log := v.log ++ es.map (.cli j) } := by
  simp only [clientStep, CM.bind_eq_ret, CM.pure_eq] at h
  obtain ⟨k, h1, h2⟩ := h
  injection h2 with h2; subst h2
  obtain ⟨⟨es, h3⟩, -⟩ := Stk.step_grows h1
  exact ⟨k, es, h1, h3, by rw [h3, List.drop_left]⟩

theorem serverStep_spec {v v' : World W} {op : Svk.Op} (h : v.serverStep env op = .ret v') :
    ∃ s es, v.srv.step env.server op = .ret s ∧ s.log = v.srv.log ++ es ∧
      v' = { cli := v.cli, srv := s, up := v.up, down := v.down, log := v.log ++ es.map .srv } := by
  simp only [serverStep, CM.bind_eq_ret, CM.pure_eq] at h
  obtain ⟨k, h1, h2⟩ := h
  injection h2 with h2; subst h2
  obtain ⟨⟨es, h3⟩, -⟩ := Svk.step_grows h1
  exact ⟨k, es, h1, h3, by rw [h3, List.drop_left]⟩

theorem tcp_log {v v' : Stk} {e : StkEnv} (h : KReach e v) (h' : KReach e v') {es : List KEv} (hl : v'.log = v.log ++ es) :
    v'.tcp.log = v.tcp.log ++ netLog es := by
  rw [← h.proj.micro.net, ← h'.proj.micro.net, hl, netLog_append]

theorem asv_log {v v' : Svk W} {e : ServerEnv W} {w : W} {max : UInt32} (h : VReach e w max v) (h' : VReach e w max v') {es : List VEv}
    (hl : v'.log = v.log ++ es) : v'.asv.log = v.asv.log ++ cnLog es := by
  rw [← h.ok.cnl, ← h'.ok.cnl, hl, Svk.cnLog_append]

theorem wires_append (n : Nat) (a b : List TEv) : (tcpWires n a).flatten <+: (tcpWires n (a ++ b)).flatten := by
  simp [tcpWires]

theorem aswires_append (n : Nat) (a b : List AEv) : (asvWires n a).flatten <+: (asvWires n (a ++ b)).flatten := by
  simp [asvWires]

theorem delivered_step {v v' : Stk} {e : StkEnv} {op : Stk.Op} (h : v.step e op = .ret v') (hg : givesClient op = false) (n : Nat) :
    Tcp.delivered n v'.steps = Tcp.delivered n v.steps := by
  have key : ∀ P : Tcp.Op → Prop, (∀ o, P o → ∀ i d, o ≠ .complete i (.data d)) → Stk.Path P v v' → Tcp.delivered n v'.steps = Tcp.delivered n v.steps := by
    intro P hP hp
    obtain ⟨new, h1, h2⟩ := hp.steps
    rw [h1, Tcp.delivered_append, Tcp.delivered_inner fun x hx => hP _ (h2 x hx), List.append_nil]
  rcases Stk.step_path h with ⟨i, r, rfl, h1⟩ | h1
  · refine key (fun o => o = .complete i r) ?_ (Stk.Path.net h1 rfl)
    rintro o rfl i' d e
    injection e with _ e
    subst e
    cases hg
  · exact key _ (fun o ho i d => ho _ _) h1

theorem got_step {v v' : Svk W} {e : ServerEnv W} {op : Svk.Op} (ho : Asv.OneRead v.asv) (h : v.step e op = .ret v') (hg : givesServer op = false)
    (c : Nat) : Asv.got c v'.asv = Asv.got c v.asv := by
  rcases Svk.step_path h with ⟨i, r, rfl, h1⟩ | h1
  · refine (Svk.SPath.got (P := fun o => o = .complete i r) ?_ (Svk.SPath.net h1 rfl) ho).2 c
    rintro o rfl i' d e
    injection e with _ e
    subst e
    cases hg
  · exact (h1.got (fun o ho i d => ho _ _) ho).2 c

/-- A client's step. -/
theorem Ok.client {v v' : World W} (h : Ok env w v) {j : Nat} {op : Stk.Op} (hs : v.clientStep env j op = .ret v')
    (down' : Nat → Nat → List UInt8) (hd : ∀ k, (v.cli j).step (env.client j) op = .ret k → ∀ n, Tcp.delivered n k.steps = down' j n)
    (hd0 : ∀ i n, i ≠ j → down' i n = v.down i n) (hd1 : ∀ n, down' j n = v.down j n ∨ ∃ c, env.peer c = some (j, n) ∧ down' j n <+: v.sentDown c) :
    Ok env w { v' with down := down' } := by
  obtain ⟨k, es, h1, h2, rfl⟩ := clientStep_spec hs
  have hk : KReach (env.client j) k := (h.cli j).step h1
  refine ⟨fun i => ?_, h.srv, fun i => ?_, ?_, h.ups, fun i n => ?_, fun c i n hp => ?_, fun i n => ?_⟩
  · show KReach (env.client i) (if i = j then k else v.cli i)
    split
    · rename_i e; subst e; exact hk
    · exact h.cli i
  · show inClient i (v.log ++ es.map (.cli j)) = (if i = j then k else v.cli i).log
    rw [inClient_append, h.clog]
    split
    · rename_i e; subst e; rw [inClient_map_cli, h2]
    · rename_i e; rw [inClient_map_other (Ne.symm e), List.append_nil]
  · show inServer (v.log ++ es.map (.cli j)) = v.srv.log
    rw [inServer_append, inServer_map_cli, List.append_nil, h.slog]
  · show Tcp.delivered n (if i = j then k else v.cli i).steps = down' i n
    split
    · rename_i e; subst e; exact hd k h1 n
    · rename_i e; rw [hd0 i n e]; exact h.downs i n
  · refine (h.upOf c i n hp).trans ?_
    show (tcpWires n (v.cli i).tcp.log).flatten <+: (tcpWires n (if i = j then k else v.cli i).tcp.log).flatten
    split
    · rename_i e; subst e; rw [tcp_log (h.cli i) hk h2]; exact wires_append _ _ _
    · exact List.prefix_refl _
  · show down' i n = [] ∨ ∃ c, env.peer c = some (i, n) ∧ down' i n <+: v.sentDown c
    by_cases e : i = j
    · subst e
      rcases hd1 n with e | e
      · rw [e]; exact h.downOf i n
      · exact Or.inr e
    · rw [hd0 i n e]; exact h.downOf i n

/-- The server's step. -/
theorem Ok.server {v v' : World W} (h : Ok env w v) {op : Svk.Op} (hs : v.serverStep env op = .ret v')
    (up' : Nat → List UInt8) (hd : ∀ s, v.srv.step env.server op = .ret s → ∀ c, Asv.got c s.asv = up' c)
    (hd1 : ∀ c j n, env.peer c = some (j, n) → up' c <+: v.sentUp j n) :
    Ok env w { v' with up := up' } := by
  obtain ⟨s, es, h1, h2, rfl⟩ := serverStep_spec hs
  have hk : VReach env.server w env.max s := h.srv.step h1
  refine ⟨h.cli, hk, fun i => ?_, ?_, fun c => hd s h1 c, h.downs, fun c i n hp => hd1 c i n hp, fun i n => ?_⟩
  · show inClient i (v.log ++ es.map .srv) = (v.cli i).log
    rw [inClient_append, h.clog, inClient_map_srv, List.append_nil]
  · show inServer (v.log ++ es.map .srv) = s.log
    rw [inServer_append, inServer_map_srv, h.slog, h2]
  · rcases h.downOf i n with e | ⟨c, h3, h4⟩
    · exact Or.inl e
    · refine Or.inr ⟨c, h3, h4.trans ?_⟩
      show (asvWires c v.srv.asv.log).flatten <+: (asvWires c s.asv.log).flatten
      rw [asv_log h.srv hk h2]; exact aswires_append _ _ _

theorem Ok.step {v v' : World W} (h : Ok env w v) {op : Op} (hs : v.step env op = .ret v') : Ok env w v' := by
  cases op with
  | client j op =>
    simp only [World.step] at hs
    split at hs
    · injection hs with hs; subst hs; exact h
    · rename_i hg
      have hv : v' = { v' with down := v.down } := by obtain ⟨_, _, _, _, rfl⟩ := clientStep_spec hs; rfl
      rw [hv]
      refine h.client hs v.down (fun k hk n => ?_) (fun _ _ _ => rfl) fun _ => Or.inl rfl
      rw [delivered_step hk (by simpa using hg), h.downs]
  | server op =>
    simp only [World.step] at hs
    split at hs
    · injection hs with hs; subst hs; exact h
    · rename_i hg
      have hv : v' = { v' with up := v.up } := by obtain ⟨_, _, _, _, rfl⟩ := serverStep_spec hs; rfl
      rw [hv]
      refine h.server hs v.up (fun k hk n => ?_) h.upOf
      rw [got_step h.srv.ok.asv.oneRead hk (by simpa using hg), h.ups]
  | arrive i d =>
    simp only [World.step] at hs
    split at hs
    · rename_i c hi
      split at hs
      · rename_i hm
        obtain ⟨s, es, h1, h2, rfl⟩ := serverStep_spec hs
        have hs' : v.serverStep env (.complete i (.data d)) = .ret { cli := v.cli, srv := s, up := v.up, down := v.down, log := v.log ++ es.map .srv } := by
          simp only [serverStep, h1, CM.ret_bind, CM.pure_eq, h2, List.drop_left]
        simp only [mayArrive, piece, Bool.and_eq_true, decide_eq_true_eq] at hm
        refine h.server hs' _ (fun s' hs2 c' => ?_) fun c' j n hp => ?_ <;> dsimp only
        · obtain ⟨a, _, h3, -, -, rfl⟩ := Svk.net_spec hs2
          show Asv.got c' a = _
          rw [(h.srv.ok.asv.oneRead.step h3).2 c', h.ups]
          simp only [Asv.arrived, hi, Option.some.injEq, AOp.read.injEq]
          by_cases e : c' = c
          · subst e; rw [if_pos ⟨rfl, hm.1⟩, if_pos rfl]
          · rw [if_neg (fun x => e x.1.symm), if_neg e, List.append_nil]
        · split
          · rename_i e
            subst e
            have hm2 := hm.2
            rw [hp] at hm2
            exact List.isPrefixOf_iff_prefix.1 hm2
          · exact h.upOf c' j n hp
      · injection hs with hs; subst hs; exact h
    · injection hs with hs; subst hs; exact h
  | hear j i c d =>
    simp only [World.step] at hs
    split at hs
    · rename_i n hi
      split at hs
      · rename_i hm
        obtain ⟨s, es, h1, h2, rfl⟩ := clientStep_spec hs
        have hs' : v.clientStep env j (.complete i (.data d)) = .ret { cli := fun i => if i = j then s else v.cli i, srv := v.srv, up := v.up, down := v.down, log := v.log ++ es.map (.cli j) } := by
          simp only at h1 h2
          simp only [clientStep, h1, CM.ret_bind, CM.pure_eq, h2, List.drop_left]
        simp only [mayHear, piece, Bool.and_eq_true, decide_eq_true_eq, beq_iff_eq] at hm
        refine h.client hs' _ (fun s' hs2 n' => ?_) (fun i' n' hne => ?_) fun n' => ?_
        · simp only [Stk.step, Stk.net, CM.bind_eq_ret, CM.pure_eq] at hs2
          obtain ⟨t, -, h4⟩ := hs2
          injection h4 with h4; subst h4
          show Tcp.delivered n' ((v.cli j).steps ++ [((v.cli j).tcp, .complete i (.data d))]) = _
          rw [Tcp.delivered_append, h.downs]
          simp only [Tcp.delivered, List.map_cons, List.map_nil, List.flatten_cons, List.flatten_nil, List.append_nil, Tcp.arrived, hi,
            Option.some.injEq, TOp.read.injEq]
          by_cases e : n' = n
          · subst e; rw [if_pos ⟨rfl, hm.1.1⟩]; simp
          · rw [if_neg (fun x => e x.1.symm)]; simp [e]
        · simp [hne]
        · dsimp only
          split
          · rename_i e
            obtain ⟨-, e⟩ := e
            subst e
            exact Or.inr ⟨c, hm.1.2, List.isPrefixOf_iff_prefix.1 hm.2⟩
          · exact Or.inl rfl
      · injection hs with hs; subst hs; exact h
    · injection hs with hs; subst hs; exact h

theorem _root_.Modbus.Spec.WReach.ok {v : World W} (h : WReach env w v) : Ok env w v := by
  induction h with
  | init => exact .init env w
  | step _ hs ih => exact ih.step hs

/-- What one step adds. -/
theorem step_adds {v v' : World W} {op : Op} (hs : v.step env op = .ret v') :
    (∃ (j : Nat) (es : List KEv), v'.log = v.log ++ es.map (.cli j) ∧ v'.srv = v.srv ∧ (∀ i, i ≠ j → v'.cli i = v.cli i) ∧ (∃ new, (v'.cli j).steps = (v.cli j).steps ++ new)) ∨
    ∃ es : List VEv, v'.log = v.log ++ es.map .srv ∧ v'.cli = v.cli ∧ ∃ new, v'.srv.steps = v.srv.steps ++ new := by
  have hc : ∀ {v v' : World W} {j : Nat} {op : Stk.Op}, v.clientStep env j op = .ret v' →
      ∃ (j : Nat) (es : List KEv), v'.log = v.log ++ es.map (.cli j) ∧ v'.srv = v.srv ∧ (∀ i, i ≠ j → v'.cli i = v.cli i) ∧ (∃ new, (v'.cli j).steps = (v.cli j).steps ++ new) := by
    intro v v' j op h
    obtain ⟨k, es, h1, h2, rfl⟩ := clientStep_spec h
    refine ⟨j, es, rfl, rfl, fun i hi => if_neg hi, ?_⟩
    simp only [if_true]
    exact (Stk.step_grows h1).2
  have hv : ∀ {v v' : World W} {op : Svk.Op}, v.serverStep env op = .ret v' →
      ∃ es : List VEv, v'.log = v.log ++ es.map .srv ∧ v'.cli = v.cli ∧ ∃ new, v'.srv.steps = v.srv.steps ++ new := by
    intro v v' op h
    obtain ⟨s, es, h1, h2, rfl⟩ := serverStep_spec h
    exact ⟨es, rfl, rfl, (Svk.step_grows h1).2⟩
  have hn : v' = v → ∃ es : List VEv, v'.log = v.log ++ es.map .srv ∧ v'.cli = v.cli ∧ ∃ new, v'.srv.steps = v.srv.steps ++ new := by
    rintro rfl; exact ⟨[], by simp, rfl, [], by simp⟩
  cases op with
  | client j op =>
    simp only [World.step] at hs
    split at hs
    · injection hs with hs; exact Or.inr (hn hs.symm)
    · exact Or.inl (hc hs)
  | server op =>
    simp only [World.step] at hs
    split at hs
    · injection hs with hs; exact Or.inr (hn hs.symm)
    · exact Or.inr (hv hs)
  | arrive i d =>
    simp only [World.step] at hs
    split at hs
    · split at hs
      · obtain ⟨es, h⟩ := hv hs; exact Or.inr ⟨es, h⟩
      · injection hs with hs; exact Or.inr (hn hs.symm)
    · injection hs with hs; exact Or.inr (hn hs.symm)
  | hear j i c d =>
    simp only [World.step] at hs
    split at hs
    · split at hs
      · obtain ⟨j, es, h⟩ := hc hs; exact Or.inl ⟨j, es, h⟩
      · injection hs with hs; exact Or.inr (hn hs.symm)
    · injection hs with hs; exact Or.inr (hn hs.symm)

/-- One state is earlier than another. -/
structure Le (u v : World W) : Prop where
  cli : ∀ j, (u.cli j).steps <+: (v.cli j).steps
  srv : u.srv.steps <+: v.srv.steps
  log : u.log <+: v.log

theorem Le.refl (v : World W) : Le v v := ⟨fun _ => List.prefix_refl _, List.prefix_refl _, List.prefix_refl _⟩

theorem Le.trans {a b c : World W} (h : Le a b) (h' : Le b c) : Le a c :=
  ⟨fun j => (h.cli j).trans (h'.cli j), h.srv.trans h'.srv, h.log.trans h'.log⟩

theorem step_le {v v' : World W} {op : Op} (hs : v.step env op = .ret v') : Le v v' := by
  rcases step_adds hs with ⟨j, es, h0, h1, h2, h3⟩ | ⟨es, h0, h1, h2⟩
  · refine ⟨fun i => ?_, by rw [h1]; exact List.prefix_refl _, by rw [h0]; exact List.prefix_append _ _⟩
    by_cases e : i = j
    · subst e; obtain ⟨new, h3⟩ := h3; rw [h3]; exact List.prefix_append _ _
    · rw [h2 i e]; exact List.prefix_refl _
  · refine ⟨fun i => by rw [h1]; exact List.prefix_refl _, ?_, by rw [h0]; exact List.prefix_append _ _⟩
    obtain ⟨new, h2⟩ := h2; rw [h2]; exact List.prefix_append _ _

/-- When a client does something, the server was in some state, and all the client has received had been sent by the server before. -/
theorem _root_.Modbus.Spec.WReach.at_client {v : World W} (h : WReach env w v) {past future : List WEv} {j : Nat} {e : KEv}
    (hl : v.log = past ++ .cli j e :: future) (hf : Throughout FreshStarts (v.cli j)) :
    ∃ u : World W, WReach env w u ∧ u.srv.log = inServer past ∧ Le u v ∧ (∃ new, u.log = past ++ .cli j e :: new) ∧
      ∀ n, (tcpReceived n (netLog (inClient j past))).flatten = [] ∨
        ∃ c, env.peer c = some (j, n) ∧ (tcpReceived n (netLog (inClient j past))).flatten <+: (asvWires c u.srv.asv.log).flatten := by
  induction h generalizing past future with
  | init => simp [World.init] at hl
  | @step v v' op hr hs ih =>
    have hr' := hr.step hs
    have hle := step_le hs
    have old : ∀ fut, v.log = past ++ .cli j e :: fut → ∃ u : World W, WReach env w u ∧ u.srv.log = inServer past ∧ Le u v' ∧ (∃ new, u.log = past ++ .cli j e :: new) ∧
      ∀ n, (tcpReceived n (netLog (inClient j past))).flatten = [] ∨
        ∃ c, env.peer c = some (j, n) ∧ (tcpReceived n (netLog (inClient j past))).flatten <+: (asvWires c u.srv.asv.log).flatten := by
      intro fut hfut
      obtain ⟨u, u1, u2, u3, u4⟩ := ih hfut fun x hx => hf x ((hle.cli j).subset hx)
      exact ⟨u, u1, u2, u3.trans hle, u4⟩
    rcases step_adds hs with ⟨i, es, h1, h2, h3, -⟩ | ⟨es, h1, -⟩
    · rw [h1] at hl
      rcases Tcp.append_cons_cases hl with ⟨fut, h4⟩ | ⟨es1, h5, h4⟩
      · exact old fut h4
      · have hij : i = j := by
          have : WEv.cli j e ∈ es.map (.cli i) := by rw [h5]; simp
          obtain ⟨x, -, hx⟩ := List.mem_map.1 this
          injection hx
        subst hij
        have hes : inServer es1 = [] := by
          have := congrArg inServer h5
          rw [inServer_map_cli, inServer_append] at this
          exact (List.append_eq_nil_iff.1 this.symm).1
        refine ⟨v', hr', by rw [h2, h4, inServer_append, hes, List.append_nil, hr.ok.slog], .refl _, ⟨future, by rw [h1]; exact hl⟩, fun n => ?_⟩
        have hpre : tcpReceived n (netLog (inClient i past)) <+: tcpReceived n (v'.cli i).tcp.log := by
          rw [← ((hr'.ok.cli i).proj.micro.net), ← hr'.ok.clog, h1, h5, ← List.append_assoc, ← h4, inClient_append, netLog_append, Tcp.tcpReceived_append]
          exact List.prefix_append _ _
        have hdel := (((hr'.ok.cli i).proj.micro.delivered hf) n).2
        rw [hr'.ok.downs] at hdel
        have hflat : (tcpReceived n (netLog (inClient i past))).flatten <+: v'.down i n := by
          obtain ⟨x, hx⟩ := hpre
          refine List.IsPrefix.trans ?_ hdel
          rw [← hx, List.flatten_append]
          exact List.prefix_append _ _
        rcases hr'.ok.downOf i n with e0 | ⟨c, h6, h7⟩
        · rw [e0] at hflat; exact Or.inl (List.prefix_nil.1 hflat)
        · exact Or.inr ⟨c, h6, hflat.trans h7⟩
    · rw [h1] at hl
      rcases Tcp.append_cons_cases hl with ⟨fut, h4⟩ | ⟨es1, h5, h4⟩
      · exact old fut h4
      · exfalso
        have : WEv.cli j e ∈ es.map .srv := by rw [h5]; simp
        obtain ⟨x, -, hx⟩ := List.mem_map.1 this
        cases hx

/-- When the server does something, the clients were in some state, and all the server has received from them had been sent before. -/
theorem _root_.Modbus.Spec.WReach.at_server {v : World W} (h : WReach env w v) {past future : List WEv} {e : VEv}
    (hl : v.log = past ++ .srv e :: future) :
    ∃ u : World W, WReach env w u ∧ (∀ j, (u.cli j).log = inClient j past) ∧ Le u v ∧
      (∃ new, u.log = past ++ .srv e :: new) ∧
      ∀ c j n, env.peer c = some (j, n) → (asvReceived c (cnLog (inServer past))).flatten <+: (tcpWires n (u.cli j).tcp.log).flatten := by
  induction h generalizing past future with
  | init => simp [World.init] at hl
  | @step v v' op hr hs ih =>
    have hr' := hr.step hs
    have hle := step_le hs
    have old : ∀ fut, v.log = past ++ .srv e :: fut → ∃ u : World W, WReach env w u ∧ (∀ j, (u.cli j).log = inClient j past) ∧
      Le u v' ∧
      (∃ new, u.log = past ++ .srv e :: new) ∧
      ∀ c j n, env.peer c = some (j, n) → (asvReceived c (cnLog (inServer past))).flatten <+: (tcpWires n (u.cli j).tcp.log).flatten := by
      intro fut hfut
      obtain ⟨u, u1, u2, u3, u4⟩ := ih hfut
      exact ⟨u, u1, u2, u3.trans hle, u4⟩
    rcases step_adds hs with ⟨i, es, h1, -⟩ | ⟨es, h1, h2, -⟩
    · rw [h1] at hl
      rcases Tcp.append_cons_cases hl with ⟨fut, h4⟩ | ⟨es1, h5, h4⟩
      · exact old fut h4
      · exfalso
        have : WEv.srv e ∈ es.map (.cli i) := by rw [h5]; simp
        obtain ⟨x, -, hx⟩ := List.mem_map.1 this
        cases hx
    · rw [h1] at hl
      rcases Tcp.append_cons_cases hl with ⟨fut, h4⟩ | ⟨es1, h5, h4⟩
      · exact old fut h4
      · have hes : ∀ j, inClient j es1 = [] := by
          intro j
          have := congrArg (inClient j) h5
          rw [inClient_map_srv, inClient_append] at this
          exact (List.append_eq_nil_iff.1 this.symm).1
        refine ⟨v', hr', fun j => by rw [h2, h4, inClient_append, hes, List.append_nil, hr.ok.clog], .refl _, ⟨future, by rw [h1]; exact hl⟩, fun c j n hp => ?_⟩
        refine List.IsPrefix.trans ?_ (hr'.ok.upOf c j n hp)
        rw [← hr'.ok.ups]
        refine List.IsPrefix.trans ?_ (List.prefix_append _ _)
        rw [← hr'.ok.srv.ok.cnl, ← hr'.ok.slog, h1, h5, ← List.append_assoc, ← h4, inServer_append, Svk.cnLog_append, Asv.received_append, List.flatten_append]
        exact List.prefix_append _ _

end World

end Modbus
