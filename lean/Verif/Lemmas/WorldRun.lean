import Verif.Lemmas.WorldServe

/-! Helper lemmas: running parts of the world. -/

namespace Modbus

open Spec

namespace World

variable {W : Type} {env : WorldEnv W} {w : W}

theorem run_append (env : WorldEnv W) (a b : List Op) : ∀ v : World W, v.run env (a ++ b) = (v.run env a >>= fun v' => v'.run env b) := by
  induction a with
  | nil => intro v; rfl
  | cons op a ih =>
    intro v
    simp only [List.cons_append, run]
    cases v.step env op with
    | ub => rfl
    | ret v1 => simp only [CM.ret_bind]; exact ih v1

theorem client_step {v : World W} {j : Nat} {op : Stk.Op} {k : Stk} (hg : givesClient op = false) (h : (v.cli j).step (env.client j) op = .ret k) :
    ∃ v', v.step env (.client j op) = .ret v' ∧ v'.cli j = k ∧ v'.srv = v.srv ∧ v'.up = v.up ∧ v'.down = v.down := by
  refine ⟨{ v with cli := fun i => if i = j then k else v.cli i, log := v.log ++ (k.log.drop (v.cli j).log.length).map (.cli j) }, ?_, by simp, rfl, rfl, rfl⟩
  simp only [step, hg, Bool.false_eq_true, if_false, clientStep, h, CM.ret_bind, CM.pure_eq]

theorem server_step {v : World W} {op : Svk.Op} {s : Svk W} (hg : givesServer op = false) (h : v.srv.step env.server op = .ret s) :
    ∃ v', v.step env (.server op) = .ret v' ∧ v'.srv = s ∧ v'.cli = v.cli ∧ v'.up = v.up ∧ v'.down = v.down := by
  refine ⟨{ v with srv := s, log := v.log ++ (s.log.drop v.srv.log.length).map .srv }, ?_, rfl, rfl, rfl, rfl⟩
  simp only [step, hg, Bool.false_eq_true, if_false, serverStep, h, CM.ret_bind, CM.pure_eq]

theorem client_run (ops : List Stk.Op) : ∀ {v : World W} {j : Nat} {k : Stk}, (∀ op ∈ ops, givesClient op = false) → (v.cli j).run (env.client j) ops = .ret k →
    ∃ v', v.run env (ops.map (.client j)) = .ret v' ∧ v'.cli j = k ∧ v'.srv = v.srv ∧ v'.up = v.up ∧ v'.down = v.down := by
  induction ops with
  | nil => intro v j k _ h; injection h with h; exact ⟨v, rfl, h, rfl, rfl, rfl⟩
  | cons op ops ih =>
    intro v j k hg h
    obtain ⟨x, h1, h2⟩ := CM.bind_eq_ret.1 h
    obtain ⟨v1, a1, a2, a3, a4, a5⟩ := client_step (env := env) (v := v) (hg op (by simp)) h1
    obtain ⟨v2, b1, b2, b3, b4, b5⟩ := ih (v := v1) (j := j) (k := k) (fun o ho => hg o (by simp [ho])) (by rw [a2]; exact h2)
    exact ⟨v2, by simp only [List.map_cons, run, a1, CM.ret_bind, b1], b2, b3.trans a3, b4.trans a4, b5.trans a5⟩

theorem server_run (ops : List Svk.Op) : ∀ {v : World W} {s : Svk W}, (∀ op ∈ ops, givesServer op = false) → v.srv.run env.server ops = .ret s →
    ∃ v', v.run env (ops.map .server) = .ret v' ∧ v'.srv = s ∧ v'.cli = v.cli ∧ v'.up = v.up ∧ v'.down = v.down := by
  induction ops with
  | nil => intro v s _ h; injection h with h; exact ⟨v, rfl, h, rfl, rfl, rfl⟩
  | cons op ops ih =>
    intro v s hg h
    obtain ⟨x, h1, h2⟩ := CM.bind_eq_ret.1 h
    obtain ⟨v1, a1, a2, a3, a4, a5⟩ := server_step (env := env) (v := v) (hg op (by simp)) h1
    obtain ⟨v2, b1, b2, b3, b4, b5⟩ := ih (v := v1) (s := s) (fun o ho => hg o (by simp [ho])) (by rw [a2]; exact h2)
    exact ⟨v2, by simp only [List.map_cons, run, a1, CM.ret_bind, b1], b2, b3.trans a3, b4.trans a4, b5.trans a5⟩

/-- Data arrives at the server. -/
theorem arrive_step {v : World W} {i c : Nat} {d : List UInt8} {s : Svk W} (hf : v.srv.asv.flying[i]? = some (.read c)) (hm : v.mayArrive env c d = true)
    (h : v.srv.step env.server (.complete i (.data d)) = .ret s) :
    ∃ v', v.step env (.arrive i d) = .ret v' ∧ v'.srv = s ∧ v'.cli = v.cli ∧ v'.down = v.down ∧ v'.up c = v.up c ++ d := by
  refine ⟨{ v with up := fun c' => if c' = c then v.up c ++ d else v.up c', srv := s, log := v.log ++ (s.log.drop v.srv.log.length).map .srv }, ?_, rfl, rfl, rfl, by simp⟩
  simp only [step, hf, hm, if_true, serverStep, h, CM.ret_bind, CM.pure_eq]

/-- Data arrives at a client. -/
theorem hear_step {v : World W} {j i n c : Nat} {d : List UInt8} {k : Stk} (hf : (v.cli j).tcp.flying[i]? = some (.read n)) (hm : v.mayHear env j n c d = true)
    (h : (v.cli j).step (env.client j) (.complete i (.data d)) = .ret k) :
    ∃ v', v.step env (.hear j i c d) = .ret v' ∧ v'.cli j = k ∧ v'.srv = v.srv ∧ v'.up = v.up ∧ v'.down j n = v.down j n ++ d := by
  refine ⟨{ v with down := fun j' n' => if j' = j ∧ n' = n then v.down j n ++ d else v.down j' n', cli := fun i => if i = j then k else v.cli i, log := v.log ++ (k.log.drop (v.cli j).log.length).map (.cli j) }, ?_, by simp, rfl, rfl, by simp⟩
  simp only [step, hf, hm, if_true, clientStep, h, CM.ret_bind, CM.pure_eq]

/-- What a history means to one client. -/
theorem run_cli (ops : List Op) (j : Nat) : ∀ {v v' : World W}, v.run env ops = .ret v' → ∃ kops, (v.cli j).run (env.client j) kops = .ret (v'.cli j) := by
  induction ops with
  | nil => intro v v' h; injection h with h; subst h; exact ⟨[], rfl⟩
  | cons op ops ih =>
    intro v v' h
    obtain ⟨x, h1, h2⟩ := CM.bind_eq_ret.1 h
    obtain ⟨ks, h3⟩ := ih h2
    have hcl : ∀ {u u' : World W} {i : Nat} {o : Stk.Op}, u.cli = v.cli → u.clientStep env i o = .ret u' → u' = x → ∃ kops, (v.cli j).run (env.client j) kops = .ret (v'.cli j) := by
      intro u u' i o hu hc hx
      obtain ⟨k, es, c1, c2, rfl⟩ := clientStep_spec hc
      subst hx
      simp only at h3
      split at h3
      · rename_i e; subst e
        rw [hu] at c1
        exact ⟨o :: ks, by simp only [Stk.run, c1, CM.ret_bind, h3]⟩
      · rw [hu] at h3; exact ⟨ks, h3⟩
    have hsv : ∀ {u u' : World W} {o : Svk.Op}, u.cli = v.cli → u.serverStep env o = .ret u' → u' = x → ∃ kops, (v.cli j).run (env.client j) kops = .ret (v'.cli j) := by
      intro u u' o hu hc hx
      obtain ⟨k, es, c1, c2, rfl⟩ := serverStep_spec hc
      subst hx
      simp only [hu] at h3
      exact ⟨ks, h3⟩
    have hno : v = x → ∃ kops, (v.cli j).run (env.client j) kops = .ret (v'.cli j) := by rintro rfl; exact ⟨ks, h3⟩
    cases op with
    | client i o =>
      simp only [step] at h1
      split at h1
      · injection h1 with h1; exact hno h1
      · exact hcl rfl h1 rfl
    | server o =>
      simp only [step] at h1
      split at h1
      · injection h1 with h1; exact hno h1
      · exact hsv rfl h1 rfl
    | arrive i d =>
      simp only [step] at h1
      split at h1
      · split at h1
        · exact hsv (by rfl) h1 rfl
        · injection h1 with h1; exact hno h1
      · injection h1 with h1; exact hno h1
    | hear i k c d =>
      simp only [step] at h1
      split at h1
      · split at h1
        · exact hcl (by rfl) h1 rfl
        · injection h1 with h1; exact hno h1
      · injection h1 with h1; exact hno h1

end World

end Modbus
