import Verif.Spec.Logging

/-! Auxiliary results about loggers. -/

namespace Modbus

open Spec

theorem admits_iff (l : LogLevel) (x : SpdLevel) : admits l x = true ↔ l.toSpd.rank ≤ x.rank := by cases l <;> cases x <;> decide

namespace Logs

theorem run_append (v : Logs) (a b : List Op) : v.run (a ++ b) = (v.run a).run b := List.foldl_append

theorem run_cons (v : Logs) (op : Op) (b : List Op) : v.run (op :: b) = (v.step op).run b := rfl

/-- The library's own loggers and the channels never change. -/
structure Keeps (v v' : Logs) : Prop where
  heap : ∀ (i : Nat) (g : SpdLogger), v.heap[i]? = some g → g.user = false → v'.heap[i]? = some g
  chans : ∀ (i : Nat) (c : LogChan), v.chans[i]? = some c → v'.chans[i]? = some c

theorem Keeps.refl (v : Logs) : Keeps v v := ⟨fun _ _ h _ => h, fun _ _ h => h⟩

theorem Keeps.trans {a b c : Logs} (h : Keeps a b) (h' : Keeps b c) : Keeps a c :=
  ⟨fun i g h1 h2 => h'.heap i g (h.heap i g h1 h2) h2, fun i g h1 => h'.chans i g (h.chans i g h1)⟩

theorem get_append {α : Type} {l l' : List α} {i : Nat} {x : α} (h : l[i]? = some x) : (l ++ l')[i]? = some x := by
  have hlt : i < l.length := by
    rcases Nat.lt_or_ge i l.length with h1 | h1
    · exact h1
    · rw [List.getElem?_eq_none h1] at h; cases h
  rw [List.getElem?_append_left hlt]; exact h

theorem Keeps.setLevel {v : Logs} {i : Nat} {g : SpdLogger} (hi : v.heap[i]? = some g) (hu : g.user = true) (l : SpdLevel) : Keeps v (v.setLevel i l) := by
  refine ⟨fun j g' hj hu' => ?_, fun _ _ h => h⟩
  by_cases he : i = j
  · subst he
    rw [hi] at hj
    injection hj with hj; subst hj
    rw [hu] at hu'; cases hu'
  · simp only [Logs.setLevel, List.getElem?_modify, if_neg he, hj]; rfl

theorem keeps_step (v : Logs) (op : Op) : Keeps v (v.step op) := by
  cases op with
  | own name level sinks => exact ⟨fun _ _ h _ => get_append h, fun _ _ h => h⟩
  | setLevel i level =>
    simp only [step]
    split
    · exact .refl v
    · rename_i g hg
      split
      · rename_i hu; exact .setLevel hg hu _
      · exact .refl v
  | console name level sink => exact ⟨fun _ _ h _ => get_append h, fun _ _ h => h⟩
  | null name => exact ⟨fun _ _ h _ => get_append h, fun _ _ h => h⟩
  | custom i level =>
    simp only [step]
    split
    · exact .refl v
    · rename_i g hg
      split
      · rename_i hu; exact .setLevel hg hu _
      · exact .refl v
  | manager i =>
    simp only [step]
    split
    · exact ⟨fun _ _ h _ => h, fun _ _ h => h⟩
    · exact .refl v
  | client m name level =>
    simp only [step]
    split
    · exact .refl v
    · split
      · exact .refl v
      · exact ⟨fun _ _ h _ => get_append h, fun _ _ h => get_append h⟩
  | server m name level =>
    simp only [step]
    split
    · exact .refl v
    · split
      · exact .refl v
      · exact ⟨fun _ _ h _ => get_append h, fun _ _ h => get_append h⟩
  | session c =>
    simp only [step]
    split
    · split
      · exact .refl v
      · exact ⟨fun _ _ h _ => get_append h, fun _ _ h => h⟩
    · exact .refl v
  | write c t =>
    simp only [step]
    split
    · exact .refl v
    · split
      · exact .refl v
      · simp only [Logs.write]
        split
        · exact .refl v
        · split
          · exact ⟨fun _ _ h _ => h, fun _ _ h => h⟩
          · exact .refl v

theorem keeps_run (ops : List Op) : ∀ v : Logs, Keeps v (v.run ops) := by
  induction ops with
  | nil => exact fun v => .refl v
  | cons op ops ih => exact fun v => (keeps_step v op).trans (ih _)

/-- What is printed when a line is written with a known logger. -/
theorem write_out {v : Logs} {i : Nat} {g : SpdLogger} (h : v.heap[i]? = some g) (t : LogText) :
    (v.write i t).out = v.out ++ if g.level.rank ≤ t.level.rank then g.sinks.map (fun s => ⟨s, g.name, t.level, t⟩) else [] := by
  simp only [Logs.write, h]
  split <;> simp

/-- All channels' loggers let only lines through that pass `l`. -/
structure Above (n : Nat) (v : Logs) : Prop where
  chans : ∀ c ∈ v.chans, ∀ t i, loggerOf c t = some i → ∃ g, v.heap[i]? = some g ∧ g.user = false ∧ n ≤ g.level.rank
  out : ∀ p ∈ v.out, n ≤ p.level.rank

theorem Above.step {n : Nat} {v : Logs} (h : Above n v) {op : Op} (ho : ∀ m name level, (op = .client m name level ∨ op = .server m name level) → n ≤ level.toSpd.rank) :
    Above n (v.step op) := by
  have hk := keeps_step v op
  have hold : ∀ c ∈ v.chans, ∀ t i, loggerOf c t = some i → ∃ g, (v.step op).heap[i]? = some g ∧ g.user = false ∧ n ≤ g.level.rank := by
    intro c hc t i hi
    obtain ⟨g, h1, h2, h3⟩ := h.chans c hc t i hi
    exact ⟨g, hk.heap i g h1 h2, h2, h3⟩
  cases op with
  | own name level sinks => exact ⟨hold, h.out⟩
  | setLevel i level =>
    refine ⟨fun c hc => hold c ?_, fun p hp => h.out p ?_⟩
    · simp only [Logs.step] at hc; split at hc; exact hc; split at hc <;> exact hc
    · simp only [Logs.step] at hp; split at hp; exact hp; split at hp <;> exact hp
  | console name level sink => exact ⟨hold, h.out⟩
  | null name => exact ⟨hold, h.out⟩
  | custom i level =>
    refine ⟨fun c hc => hold c ?_, fun p hp => h.out p ?_⟩
    · simp only [Logs.step] at hc; split at hc; exact hc; split at hc <;> exact hc
    · simp only [Logs.step] at hp; split at hp; exact hp; split at hp <;> exact hp
  | manager i =>
    refine ⟨fun c hc => hold c ?_, fun p hp => h.out p ?_⟩
    · simp only [Logs.step] at hc; split at hc <;> exact hc
    · simp only [Logs.step] at hp; split at hp <;> exact hp
  | client m name level =>
    have hl := ho m name level (.inl rfl)
    rcases hm : v.mgrs[m]? with _ | i
    · have : v.step (.client m name level) = v := by simp [Logs.step, hm]
      rw [this]; exact h
    rcases hg : v.heap[i]? with _ | g
    · have : v.step (.client m name level) = v := by simp [Logs.step, hm, hg]
      rw [this]; exact h
    have he : v.step (.client m name level) = { v with
        heap := v.heap ++ [clone g (name ++ " - Connection") level, clone g name level]
        chans := v.chans ++ [.client v.heap.length (v.heap.length + 1)] } := by simp [Logs.step, hm, hg]
    rw [he] at hold ⊢
    refine ⟨?_, h.out⟩
    intro c hc t j hj
    rcases List.mem_append.1 hc with hc | hc
    · exact hold c hc t j hj
    · rw [List.mem_singleton.1 hc] at hj
      cases t <;> simp only [loggerOf, reduceCtorEq, Option.some.injEq] at hj
      · subst hj; exact ⟨clone g name level, by simp, rfl, hl⟩
      · subst hj; exact ⟨clone g (name ++ " - Connection") level, by simp, rfl, hl⟩
  | server m name level =>
    have hl := ho m name level (.inr rfl)
    rcases hm : v.mgrs[m]? with _ | i
    · have : v.step (.server m name level) = v := by simp [Logs.step, hm]
      rw [this]; exact h
    rcases hg : v.heap[i]? with _ | g
    · have : v.step (.server m name level) = v := by simp [Logs.step, hm, hg]
      rw [this]; exact h
    have he : v.step (.server m name level) = { v with heap := v.heap ++ [clone g (name ++ " - Server") level], chans := v.chans ++ [.server v.heap.length] } := by
      simp [Logs.step, hm, hg]
    rw [he] at hold ⊢
    refine ⟨?_, h.out⟩
    intro c hc t j hj
    rcases List.mem_append.1 hc with hc | hc
    · exact hold c hc t j hj
    · rw [List.mem_singleton.1 hc] at hj
      cases t <;> simp only [loggerOf, reduceCtorEq, Option.some.injEq] at hj
      · subst hj; exact ⟨clone g (name ++ " - Server") level, by simp, rfl, hl⟩
      · subst hj; exact ⟨clone g (name ++ " - Server") level, by simp, rfl, hl⟩
  | session c =>
    refine ⟨fun c hc => hold c ?_, fun p hp => h.out p ?_⟩
    · simp only [Logs.step] at hc; split at hc
      · split at hc <;> exact hc
      · exact hc
    · simp only [Logs.step] at hp; split at hp
      · split at hp <;> exact hp
      · exact hp
  | write c t =>
    rcases hc : v.chans[c]? with _ | ch
    · have : v.step (.write c t) = v := by simp [Logs.step, hc]
      rw [this]; exact h
    rcases hi : loggerOf ch t with _ | i
    · have : v.step (.write c t) = v := by simp [Logs.step, hc, hi]
      rw [this]; exact h
    obtain ⟨g, h1, h2, h3⟩ := h.chans ch (List.mem_of_getElem? hc) t i hi
    have he : v.step (.write c t) = v.write i t := by simp [Logs.step, hc, hi]
    rw [he] at hold ⊢
    refine ⟨fun c hc => hold c ?_, ?_⟩
    · simp only [Logs.write, h1] at hc; split at hc <;> exact hc
    · intro p hp
      rw [write_out h1] at hp
      rcases List.mem_append.1 hp with hp | hp
      · exact h.out p hp
      · split at hp
        · rename_i hle
          obtain ⟨s, -, rfl⟩ := List.mem_map.1 hp
          exact Nat.le_trans h3 hle
        · cases hp

theorem Above.run {n : Nat} (ops : List Op) : ∀ {v : Logs}, Above n v →
    (∀ op ∈ ops, ∀ m name level, (op = .client m name level ∨ op = .server m name level) → n ≤ level.toSpd.rank) → Above n (v.run ops) := by
  induction ops with
  | nil => exact fun h _ => h
  | cons op ops ih =>
    intro v h ho
    exact ih (h.step (ho op (by simp))) fun op' h' => ho op' (List.mem_cons_of_mem _ h')

/-- A state whose first logger is the library's, of level `l`. -/
def first (name : String) (sinks : List Nat) (v : Logs) (l : SpdLevel) : Logs := { v with heap := ⟨name, l, sinks, false⟩ :: v.heap }

/-- No channel writes with the first logger. -/
def Free (v : Logs) : Prop := ∀ c ∈ v.chans, ∀ t, loggerOf c t ≠ some 0

theorem modify_succ (x : SpdLogger) (xs : List SpdLogger) (i : Nat) (f : SpdLogger → SpdLogger) : (x :: xs).modify (i + 1) f = x :: xs.modify i f := by
  simp

theorem first_clone (name : String) (sinks : List Nat) (rest : List SpdLogger) (i : Nat) :
    (∀ l, (⟨name, l, sinks, false⟩ :: rest : List SpdLogger)[i]? = none) ∨
    ∃ (ss : List Nat) (g : SpdLevel → SpdLogger), (∀ l, (g l).sinks = ss) ∧ ∀ l, (⟨name, l, sinks, false⟩ :: rest : List SpdLogger)[i]? = some (g l) := by
  rcases i with _ | i
  · exact .inr ⟨sinks, fun l => ⟨name, l, sinks, false⟩, fun _ => rfl, fun _ => rfl⟩
  · rcases h : rest[i]? with _ | g
    · exact .inl fun l => by simpa using h
    · exact .inr ⟨g.sinks, fun _ => g, fun _ => rfl, fun l => by simpa using h⟩

theorem first_step (name : String) (sinks : List Nat) (v : Logs) (hf : Free v) (op : Op) :
    ∃ v', Free v' ∧ ∀ l, (first name sinks v l).step op = first name sinks v' l := by
  have hset : ∀ i level, ∃ v', Free v' ∧ ∀ l, (first name sinks v l).step (.setLevel i level) = first name sinks v' l := by
    intro i level
    rcases i with _ | i
    · exact ⟨v, hf, fun l => rfl⟩
    · rcases h : v.heap[i]? with _ | g
      · exact ⟨v, hf, fun l => by simp [step, first, h]⟩
      · cases hu : g.user
        · exact ⟨v, hf, fun l => by simp [step, first, h, hu]⟩
        · exact ⟨{ v with heap := v.heap.modify i fun g => { g with level := level } }, hf, fun l => by simp [step, first, h, hu, setLevel]⟩
  cases op with
  | own n level ss => exact ⟨v.alloc { name := n, level := level, sinks := ss, user := true }, hf, fun l => rfl⟩
  | setLevel i level => exact hset i level
  | console n level s => exact ⟨v.alloc { name := n, level := level.toSpd, sinks := [s], user := false }, hf, fun l => rfl⟩
  | null n => exact ⟨v.alloc { name := n, level := .info, sinks := [], user := false }, hf, fun l => rfl⟩
  | custom i level => exact hset i level.toSpd
  | manager i =>
    by_cases h : i < v.heap.length + 1
    · exact ⟨{ v with mgrs := v.mgrs ++ [i] }, hf, fun l => by simp [step, first, h]⟩
    · exact ⟨v, hf, fun l => by simp [step, first, h]⟩
  | client m n level =>
    rcases hm : v.mgrs[m]? with _ | i
    · exact ⟨v, hf, fun l => by simp [step, first, hm]⟩
    rcases first_clone name sinks v.heap i with hg | ⟨ss, g, h1, h2⟩
    · exact ⟨v, hf, fun l => by simp [step, first, hm, hg]⟩
    · refine ⟨{ v with
        heap := v.heap ++ [⟨n ++ " - Connection", level.toSpd, ss, false⟩, ⟨n, level.toSpd, ss, false⟩]
        chans := v.chans ++ [.client (v.heap.length + 1) (v.heap.length + 1 + 1)] }, ?_, fun l => by simp [step, first, hm, h2, clone, h1]⟩
      intro c hc t
      rcases List.mem_append.1 hc with hc | hc
      · exact hf c hc t
      · rw [List.mem_singleton.1 hc]
        cases t <;> simp [loggerOf]
  | server m n level =>
    rcases hm : v.mgrs[m]? with _ | i
    · exact ⟨v, hf, fun l => by simp [step, first, hm]⟩
    rcases first_clone name sinks v.heap i with hg | ⟨ss, g, h1, h2⟩
    · exact ⟨v, hf, fun l => by simp [step, first, hm, hg]⟩
    · refine ⟨{ v with
        heap := v.heap ++ [⟨n ++ " - Server", level.toSpd, ss, false⟩]
        chans := v.chans ++ [.server (v.heap.length + 1)] }, ?_, fun l => by simp [step, first, hm, h2, clone, h1]⟩
      intro c hc t
      rcases List.mem_append.1 hc with hc | hc
      · exact hf c hc t
      · rw [List.mem_singleton.1 hc]
        cases t <;> simp [loggerOf]
  | session c =>
    rcases hc : v.chans[c]? with _ | ch
    · exact ⟨v, hf, fun l => by simp [step, first, hc]⟩
    rcases ch with ⟨conn, chan⟩ | chan
    · rcases first_clone name sinks v.heap chan with hg | ⟨ss, g, h1, h2⟩
      · exact ⟨v, hf, fun l => by simp [step, first, hc, hg]⟩
      · exact ⟨v.alloc ⟨"session", .info, ss, false⟩, hf, fun l => by simp [step, first, hc, h2, cloneDefault, h1, alloc]⟩
    · exact ⟨v, hf, fun l => by simp [step, first, hc]⟩
  | write c t =>
    rcases hc : v.chans[c]? with _ | ch
    · exact ⟨v, hf, fun l => by simp [step, first, hc]⟩
    rcases hi : loggerOf ch t with _ | i
    · exact ⟨v, hf, fun l => by simp [step, first, hc, hi]⟩
    rcases i with _ | i
    · exact absurd hi (hf ch (List.mem_of_getElem? hc) t)
    · rcases hg : v.heap[i]? with _ | g
      · exact ⟨v, hf, fun l => by simp [step, first, hc, hi, write, hg]⟩
      · by_cases hle : g.level.rank ≤ t.level.rank
        · exact ⟨{ v with out := v.out ++ g.sinks.map fun s => ⟨s, g.name, t.level, t⟩ }, hf, fun l => by simp [step, first, hc, hi, write, hg, hle]⟩
        · exact ⟨v, hf, fun l => by simp [step, first, hc, hi, write, hg, hle]⟩

theorem first_run (name : String) (sinks : List Nat) (ops : List Op) : ∀ v, Free v → ∃ v', ∀ l, (first name sinks v l).run ops = first name sinks v' l := by
  induction ops with
  | nil => exact fun v _ => ⟨v, fun l => rfl⟩
  | cons op ops ih =>
    intro v hf
    obtain ⟨v1, h1, h2⟩ := first_step name sinks v hf op
    obtain ⟨v2, h3⟩ := ih v1 h1
    exact ⟨v2, fun l => by rw [run_cons, h2, h3]⟩

end Logs

end Modbus
