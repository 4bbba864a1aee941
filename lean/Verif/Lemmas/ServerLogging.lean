import Verif.Lemmas.Logging
import Verif.Props.Server

/-! Auxiliary results about the lines of the server channel. -/

namespace Modbus

open Spec

namespace Spec

theorem effects_append (l l' : List SLog) : effects (l ++ l') = effects l ++ effects l' := by simp [effects]

theorem effects_ev (l : List SEv) : effects (l.map SLog.ev) = l := by
  induction l with
  | nil => rfl
  | cons e es ih => simpa [effects] using ih

theorem effects_line (l : List SLine) : effects (l.map SLog.line) = [] := by
  induction l with
  | nil => rfl
  | cons e es ih => simpa [effects] using ih

theorem Accounted.trans {a b c : Bool} {l l' : List SLog} (h : Accounted a b l) (h' : Accounted b c l') : Accounted a c (l ++ l') := by
  induction h with
  | nil => exact h'
  | message hr _ ih => simpa only [List.cons_append, List.append_assoc] using Accounted.message hr (ih h')
  | ignored c m _ ih => exact .ignored c m (ih h')
  | aside he _ ih => exact .aside he (ih h')
  | shutdown d _ ih => exact .shutdown d (ih h')

theorem Accounted.asides {d : Bool} (es : List SEv) (h : ∀ e ∈ es, Aside e) : Accounted d d (es.map SLog.ev) := by
  induction es with
  | nil => exact .nil d
  | cons e es ih => exact .aside (h e (by simp)) (ih fun e' he' => h e' (List.mem_cons_of_mem _ he'))

end Spec

namespace Srv

variable {W : Type}

theorem kindOf_eq {f : UInt8} {k : Kind} (h : kindOf f = some k) : f = fc k := by
  by_contra hn
  by_cases h2 : ∃ k', f = fc k'
  · obtain ⟨k', rfl⟩ := h2
    rw [Props.kindOf_fc] at h
    injection h with h
    exact hn (h ▸ rfl)
  · rw [Props.kindOf_none (fun k' hk' => h2 ⟨k', hk'⟩)] at h
    cases h

theorem not_denotes_of {k : Kind} {m : Mbap} {rest : List UInt8} (hd : m.data = fc k :: rest) (h : ∀ q, parseReq k m.data ≠ .ret (.ok q)) (k' : Kind)
    (q : Req k') : ¬ Denotes k' m.data q := by
  intro hq
  obtain ⟨r2, h2⟩ := Props.denotes_head hq
  have : k = k' := by
    rw [hd] at h2
    injection h2 with h2
    revert h2
    cases k <;> cases k' <;> simp [fc]
  subst this
  exact h q ((Props.C02_accepts_iff_denotes k m.data q).2 hq)

/-- What is done and written for one message. -/
theorem mbapTrace_eq (env : ServerEnv W) (v : Srv W) (c : ConnId) (m : Mbap) :
    ∃ v' r, v.onMbap env c m = .ret v' ∧ v.mbapTrace env c m = .ev (.mbap c m) :: r ∧ v'.log = v.log ++ effects (v.mbapTrace env c m) ∧
      Same v v' ∧ (v.isShutdown = true → r = []) ∧ (v.isShutdown = false → Handled c m r ∧
        (r = [.line (.unknownUnit m.unit)] ↔ v.sessions.lookup m.unit = none)) := by
  obtain ⟨v', h1, h2⟩ := onMbap_reacts env v c m
  have hs := h2.same
  have htr : v.mbapTrace env c m = .ev (.mbap c m) :: ((v.mbapLines m).map .line ++ (v'.log.drop (v.log.length + 1)).map .ev) := by
    simp only [mbapTrace, h1, List.cons_append]
  rw [htr]
  refine ⟨v', _, h1, rfl, ?_, hs, ?_, ?_⟩
  · have h3 : ∃ es, v'.log = v.log ++ .mbap c m :: es := by
      cases h2 <;> exact ⟨_, by simp [sendMessage, emit]; rfl⟩
    obtain ⟨es, h3⟩ := h3
    have : v'.log.drop (v.log.length + 1) = es := by rw [h3]; simp
    rw [this, h3]
    simp only [effects, List.filterMap_cons, List.filterMap_append]
    congr 2
    have e1 := effects_line (v.mbapLines m)
    have e2 := effects_ev es
    simp only [effects] at e1 e2
    rw [e1, e2, List.nil_append]
  · intro hd
    have : v' = v.emit (.mbap c m) := by
      simp only [onMbap, emit_isShutdown, hd, if_true] at h1
      injection h1 with h1; exact h1.symm
    subst this
    simp [mbapLines, hd, emit]
  · intro hd
    have hd' : (v.emit (.mbap c m)).isShutdown = false := hd
    simp only [mbapLines, hd, Bool.false_eq_true, if_false]
    simp only [onMbap, emit_isShutdown, emit_sessions, hd, Bool.false_eq_true, if_false] at h1
    rcases hl : v.sessions.lookup m.unit with _ | s
    · simp only [hl] at h1
      injection h1 with h1; subst h1
      simp [emit]
      exact .unknown
    · simp only [hl] at h1 ⊢
      rcases hdt : m.data with _ | ⟨f, rest⟩
      · simp only [hdt, List.length_nil, Nat.zero_lt_one, if_true] at h1 ⊢
        injection h1 with h1; subst h1
        have : ∀ k q, ¬ Denotes k m.data q := by
          intro k q hq
          obtain ⟨r, hr⟩ := Props.denotes_head hq
          rw [hdt] at hr; cases hr
        simp [emit]
        exact .invalid this (by simp [hdt])
      · have e0 : ¬ ((f :: rest).length < 1) := by simp
        have e1 : getU8 (f :: rest) = .ret (f, rest) := by simp [getU8, readU8]
        simp only [hdt, e0, if_false, e1, CM.ret_bind] at h1 ⊢
        rcases hk : kindOf f with _ | k
        · simp only [hk, CM.pure_eq] at h1 ⊢
          injection h1 with h1; subst h1
          have hf : ∀ k, f ≠ fc k := by
            rintro k rfl
            rw [Props.kindOf_fc] at hk; cases hk
          simp [emit, sendMessage]
          exact .unsupported f rest _ hdt hf
        · have hfk := kindOf_eq hk
          subst hfk
          simp only [hk] at h1 ⊢
          rw [← hdt]
          rcases parseReq_total k m.data with ⟨q, hp⟩ | hp | hp
          · rw [processMessage_ok _ _ _ _ _ _ _ hp] at h1
            have hden := (Props.C02_accepts_iff_denotes k m.data q).1 hp
            simp only [hp, List.map_nil, List.nil_append]
            split at h1
            · injection h1 with h1; subst h1
              simp [called, emit, sendMessage]
              exact .answered s k q _ hden
            · injection h1 with h1; subst h1
              simp [called, emit]
              exact .asked s k q hden
            · injection h1 with h1; subst h1
              simp [called, emit, sendMessage]
              exact .answered s k q _ hden
          · rw [processMessage_malformed _ _ _ _ _ _ _ hp] at h1
            injection h1 with h1; subst h1
            have hnd := not_denotes_of hdt (fun q hq => by rw [hp] at hq; injection hq with hq; cases hq)
            simp [hp, emit]
            exact .invalid hnd (by rw [hdt]; intro f hf; exact ⟨k, (Option.some.inj hf).symm⟩)
          · rw [processMessage_illegal _ _ _ _ _ _ _ hp] at h1
            injection h1 with h1; subst h1
            have hnd := not_denotes_of hdt (fun q hq => by rw [hp] at hq; injection hq with hq; cases hq)
            simp [hp, emit, sendMessage]
            exact .refused _ k hnd (by rw [hdt]; rfl)

/-- What is done and written for several messages. -/
theorem mbapsTrace_eq (env : ServerEnv W) (c : ConnId) (ms : List Mbap) : ∀ (v : Srv W), ∃ v', v.onMbaps env c ms = .ret v' ∧
    v'.log = v.log ++ effects (v.mbapsTrace env c ms) ∧ Same v v' ∧ Accounted v.isShutdown v.isShutdown (v.mbapsTrace env c ms) := by
  induction ms with
  | nil => exact fun v => ⟨v, rfl, by simp [mbapsTrace, effects], .refl v, .nil _⟩
  | cons m ms ih =>
    intro v
    obtain ⟨v1, r, h1, h2, h3, h4, h5, h6⟩ := mbapTrace_eq env v c m
    obtain ⟨v2, g1, g2, g3, g4⟩ := ih v1
    refine ⟨v2, by simp [onMbaps, h1, g1], ?_, h4.trans g3, ?_⟩
    · simp only [mbapsTrace, h1, effects_append]
      rw [g2, h3, List.append_assoc]
    · simp only [mbapsTrace, h1]
      rw [h4.isShutdown] at g4
      rw [h2]
      cases hd : v.isShutdown with
      | true =>
        rw [h5 hd]
        rw [hd] at g4
        exact .ignored c m g4
      | false =>
        rw [hd] at g4
        exact .message (h6 hd).1 g4

theorem trace_step {env : ServerEnv W} {v v' : Srv W} {op : Op} (h : v.step env op = .ret v') :
    v'.log = v.log ++ effects (v.trace env op) ∧ Accounted v.isShutdown v'.isShutdown (v.trace env op) := by
  cases op with
  | start =>
    simp only [step] at h
    split at h <;> · injection h with h; subst h; exact ⟨by simp [trace, effects], .nil _⟩
  | shutdown => simp only [step] at h; injection h with h; subst h; exact ⟨by simp [trace, effects], .nil _⟩
  | addSession u s =>
    simp only [step] at h
    split at h <;> · injection h with h; subst h; exact ⟨by simp [trace, effects], .nil _⟩
  | runTask =>
    simp only [step, trace] at h ⊢
    rcases ht : v.tasks with _ | ⟨t, ts⟩
    · simp only [ht] at h ⊢
      injection h with h; subst h
      exact ⟨by simp [effects], .nil _⟩
    · simp only [ht] at h ⊢
      injection h with h; subst h
      cases t with
      | start =>
        simp only [runTask]
        split
        · exact ⟨by simp [effects], by simpa using Accounted.nil v.isShutdown⟩
        · simp only [emit, reduceCtorEq, if_false, List.drop_left, List.map_cons, List.map_nil, List.nil_append]
          exact ⟨by simp [effects], .aside trivial (.nil _)⟩
      | addSession u s =>
        simp only [runTask]
        split
        · exact ⟨by simp [effects], by simpa using Accounted.nil v.isShutdown⟩
        · split <;> exact ⟨by simp [effects], by simpa using Accounted.nil v.isShutdown⟩
      | shutdown =>
        simp only [runTask, if_true]
        have key : ∃ es, ({ v with tasks := ts }.runTask .shutdown).log = v.log ++ es ∧ ∀ e ∈ es, Aside e := by
          simp only [runTask]
          split
          · refine ⟨.serverShutdown :: v.sessions.map fun x => .sessionShutdown x.2, by simp [emit], ?_⟩
            intro e he
            rcases List.mem_cons.1 he with rfl | he
            · trivial
            · obtain ⟨x, -, rfl⟩ := List.mem_map.1 he; trivial
          · refine ⟨v.sessions.map fun x => .sessionShutdown x.2, rfl, ?_⟩
            intro e he
            obtain ⟨x, -, rfl⟩ := List.mem_map.1 he; trivial
        obtain ⟨es, k1, k2⟩ := key
        simp only [runTask] at k1
        rw [k1]
        simp only [List.drop_left]
        refine ⟨?_, ?_⟩
        · rw [effects_append, effects_ev]; simp [effects]
        · have hb : ({ v with tasks := ts }.runTask .shutdown).isShutdown = true := by
            simp only [runTask]; split <;> rfl
          simp only [runTask] at hb
          rw [hb]
          exact .shutdown _ (Accounted.asides es k2)
  | opened c mem =>
    simp only [step] at h
    split at h <;> · injection h with h; subst h; exact ⟨by simp [trace, effects], .nil _⟩
  | receive c data =>
    simp only [step, trace] at h ⊢
    rcases hl : v.listeners.lookup c with _ | p
    · simp only [hl] at h ⊢
      injection h with h; subst h
      exact ⟨by simp [effects], .nil _⟩
    · simp only [hl] at h ⊢
      rcases hp : p.parse data with _ | ⟨p', ms⟩
      · rw [hp] at h; simp only [CM.ub_bind, reduceCtorEq] at h
      · rw [hp] at h
        simp only [CM.ret_bind] at h ⊢
        obtain ⟨v2, g1, g2, g3, g4⟩ := mbapsTrace_eq env c ms { v with listeners := setListener v.listeners c p' }
        rw [g1] at h
        injection h with h; subst h
        refine ⟨g2, ?_⟩
        rw [g3.isShutdown]
        exact g4
  | error c =>
    simp only [step] at h
    split at h <;> · injection h with h; subst h; exact ⟨by simp [trace, effects], .nil _⟩
  | dropped c => simp only [step] at h; injection h with h; subst h; exact ⟨by simp [trace, effects], .nil _⟩

theorem trace_run {env : ServerEnv W} (ops : List Op) : ∀ {v v' : Srv W} {ls : List SLog}, v.runTrace env ops = .ret (v', ls) →
    v.run env ops = .ret v' ∧ v'.log = v.log ++ effects ls ∧ Accounted v.isShutdown v'.isShutdown ls := by
  induction ops with
  | nil =>
    intro v v' ls hr
    simp only [Srv.runTrace] at hr
    injection hr with hr; injection hr with h1 h2; subst h1; subst h2
    exact ⟨rfl, by simp [effects], .nil _⟩
  | cons op ops ih =>
    intro v v' ls hr
    simp only [Srv.runTrace, CM.bind_eq_ret, CM.pure_eq] at hr
    obtain ⟨v1, h1, ⟨v2, l2⟩, h2, h3⟩ := hr
    injection h3 with h3; injection h3 with h3 h4; subst h3; subst h4
    obtain ⟨s1, s2⟩ := trace_step h1
    obtain ⟨i1, i2, i3⟩ := ih h2
    refine ⟨by simp only [Srv.run, h1, CM.ret_bind, i1], ?_, s2.trans i3⟩
    rw [effects_append, i2, s1, List.append_assoc]

end Srv

end Modbus
