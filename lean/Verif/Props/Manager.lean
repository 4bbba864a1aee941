import Verif.Model.Manager
import Mathlib.Data.List.Induction
import Mathlib.Data.List.Count
import Mathlib.Data.List.Nodup

/-! C73: the manager shuts its channels down. -/

namespace Modbus.Props

open Modbus

namespace MgrAux

/-- Each identity is unborn, under construction, stored or shut down — once. -/
structure Inv (v : Mgr) : Prop where
  built : ∀ id, (v.building.map (·.1)).count id ≤ 1
  fresh : ∀ id, v.next ≤ id → (v.building.map (·.1)).count id = 0 ∧ v.log.count (.created id) = 0
  once : ∀ id, (v.building.map (·.1)).count id + v.log.count (.created id) ≤ 1
  kept : ∀ id, v.clients.count id + v.servers.count id + v.log.count (.stopped id) = v.log.count (.created id)
  done : ∀ a b, v.log = a ++ .down :: b → ∀ id, a.count (.stopped id) = a.count (.created id)
  empty : v.gone = true → v.clients = [] ∧ v.servers = [] ∧ ∃ a, v.log = a ++ [.down]

theorem init (n : UInt32) : Inv (Mgr.create n) := by
  refine ⟨?_, ?_, ?_, ?_, ?_, ?_⟩ <;> simp [Mgr.create]

theorem count_map_stopped (l : List Nat) (id : Nat) : (l.map MgrEv.stopped).count (.stopped id) = l.count id :=
  List.count_map_of_injective l MgrEv.stopped (fun a b h => by injection h) id

theorem done_snoc {log : List MgrEv} (h : ∀ a b, log = a ++ .down :: b → ∀ id, a.count (.stopped id) = a.count (.created id))
    (e : MgrEv) (he : e ≠ .down) : ∀ a b, log ++ [e] = a ++ .down :: b → ∀ id, a.count (.stopped id) = a.count (.created id) := by
  intro a b hab
  rcases List.eq_nil_or_concat b with hb | ⟨b', x, hb⟩
  · subst hb
    have := (List.append_inj' hab rfl).2
    simp at this; exact absurd this he
  · subst hb
    have h' : log ++ [e] = (a ++ .down :: b') ++ [x] := by simpa using hab
    exact h a b' (List.append_inj' h' rfl).1

theorem done_append {log : List MgrEv} (h : ∀ a b, log = a ++ .down :: b → ∀ id, a.count (.stopped id) = a.count (.created id))
    (es : List MgrEv) (he : .down ∉ es) : ∀ a b, log ++ es = a ++ .down :: b → ∀ id, a.count (.stopped id) = a.count (.created id) := by
  induction es using List.reverseRecOn with
  | nil => rw [List.append_nil]; exact h
  | append_singleton es e ih =>
    simp only [List.mem_append, List.mem_singleton, not_or] at he
    rw [← List.append_assoc]
    exact done_snoc (ih he.1) e fun hh => he.2 hh.symm

theorem shutdown_log (v : Mgr) : v.shutdown.log = v.log ++ (v.clients ++ v.servers).map .stopped ++ [.down] := by
  simp [Mgr.shutdown]

theorem inv_shutdown {v : Mgr} (h : Inv v) : Inv v.shutdown := by
  have hc : ∀ id, v.shutdown.log.count (.created id) = v.log.count (.created id) := by
    intro id
    rw [shutdown_log, List.count_append, List.count_append, List.count_eq_zero (l := List.map _ _).2 (by simp)]
    simp
  have hs : ∀ id, v.shutdown.log.count (.stopped id) = v.log.count (.stopped id) + (v.clients.count id + v.servers.count id) := by
    intro id
    rw [shutdown_log, List.count_append, List.count_append, count_map_stopped, List.count_append]
    simp
  refine ⟨h.built, ?_, ?_, ?_, ?_, ?_⟩
  · intro id hi; rw [hc]; exact h.fresh id hi
  · intro id; rw [hc]; exact h.once id
  · intro id
    rw [hc, hs, ← h.kept id]
    simp [Mgr.shutdown]; omega
  · rw [shutdown_log]
    have h0 : ∀ a b, v.log ++ (v.clients ++ v.servers).map .stopped = a ++ .down :: b → ∀ id, a.count (.stopped id) = a.count (.created id) :=
      done_append h.done _ (by simp)
    intro a b hab
    rcases List.eq_nil_or_concat b with hb | ⟨b', x, hb⟩
    · subst hb
      have := (List.append_inj' hab rfl).1
      intro id
      rw [← this, List.count_append, List.count_append, count_map_stopped, List.count_append, ← h.kept id,
        List.count_eq_zero (a := MgrEv.created id) (l := List.map _ _).2 (by simp)]
      omega
    · subst hb
      have h' : v.log ++ (v.clients ++ v.servers).map .stopped ++ [.down] = (a ++ .down :: b') ++ [x] := by simpa using hab
      exact h0 a b' (List.append_inj' h' rfl).1
  · intro hg
    exact ⟨rfl, rfl, _, shutdown_log v⟩

theorem count_filter_fst (l : List (Nat × ChanKind)) (id x : Nat) :
    ((l.filter fun y => y.1 ≠ x).map (·.1)).count id = if id = x then 0 else (l.map (·.1)).count id := by
  induction l with
  | nil => simp
  | cons y l ih =>
    simp only [List.filter_cons]
    by_cases hy : y.1 = x
    · simp only [hy, ne_eq, not_true, decide_false, Bool.false_eq_true, if_false, List.map_cons, List.count_cons]
      rw [ih]
      split
      · rfl
      · next h => simp; exact fun hh => h hh.symm
    · simp only [hy, ne_eq, not_false_eq_true, decide_true, if_true, List.map_cons, List.count_cons]
      rw [ih]
      split
      · next h => subst h; simp [hy]
      · rfl

theorem lookup_count {l : List (Nat × ChanKind)} {id : Nat} {k : ChanKind} (h : l.lookup id = some k) : 1 ≤ (l.map (·.1)).count id := by
  refine List.count_pos_iff.2 ?_
  induction l with
  | nil => simp at h
  | cons y l ih =>
    obtain ⟨a, b⟩ := y
    by_cases ha : a = id
    · subst ha; simp
    · have : (id == a) = false := by simp; exact fun hh => ha hh.symm
      simp only [List.lookup, this] at h
      exact List.mem_cons_of_mem _ (ih h)

/-- What storing a channel does to the counts. -/
theorem inv_store {v w : Mgr} (h : Inv v) (id : Nat) (hid : 1 ≤ (v.building.map (·.1)).count id) (hgv : v.gone = false)
    (hb : w.building = v.building.filter (fun x => x.1 ≠ id)) (hl : w.log = v.log ++ [.created id]) (hn : w.next = v.next)
    (hg : w.gone = v.gone)
    (hk : ∀ j, w.clients.count j + w.servers.count j = v.clients.count j + v.servers.count j + if j = id then 1 else 0) : Inv w := by
  have hc : ∀ j, w.log.count (.created j) = v.log.count (.created j) + if j = id then 1 else 0 := by
    intro j
    rw [hl, List.count_append, List.count_singleton]
    by_cases hj : j = id
    · simp [hj]
    · have : ¬ (id = j) := fun hh => hj hh.symm
      simp [hj, this]
  have hs : ∀ j, w.log.count (.stopped j) = v.log.count (.stopped j) := by intro j; rw [hl]; simp
  have hbc : ∀ j, (w.building.map (·.1)).count j = if j = id then 0 else (v.building.map (·.1)).count j := by
    intro j; rw [hb]; exact count_filter_fst _ _ _
  refine ⟨?_, ?_, ?_, ?_, ?_, ?_⟩
  · intro j; rw [hbc]; have := h.built j; split <;> omega
  · intro j hj
    rw [hn] at hj
    obtain ⟨h1, h2⟩ := h.fresh j hj
    rw [hbc, hc]
    by_cases hjj : j = id
    · subst hjj; omega
    · simp [hjj, h1, h2]
  · intro j
    have := h.once j
    rw [hbc, hc]
    by_cases hjj : j = id
    · subst hjj; simp; omega
    · simp [hjj]; omega
  · intro j; rw [hk, hs, hc, ← h.kept j]; omega
  · rw [hl]; exact done_snoc h.done _ (by simp)
  · intro hh; rw [hg, hgv] at hh; cases hh

theorem inv_step {v : Mgr} (h : Inv v) (op : Mgr.Op) : Inv (v.step op) := by
  unfold Mgr.step
  by_cases hg : v.gone = true
  · rw [if_pos hg]; exact h
  · rw [if_neg hg]
    have hg' : v.gone = false := by simpa using hg
    cases op with
    | build k =>
      have hb : ∀ id, ((v.building ++ [(v.next, k)]).map (·.1)).count id =
          (v.building.map (·.1)).count id + if id = v.next then 1 else 0 := by
        intro id
        rw [List.map_append, List.count_append]
        by_cases hi : id = v.next
        · simp [hi]
        · have : ¬ (v.next = id) := fun hh => hi hh.symm
          simp [hi, this]
      refine ⟨?_, ?_, ?_, h.kept, h.done, fun hh => absurd hh hg⟩
      · intro id
        show ((v.building ++ [(v.next, k)]).map (·.1)).count id ≤ 1
        rw [hb]
        have h1 := h.built id
        split
        · next hi => subst hi; have := (h.fresh v.next (Nat.le_refl _)).1; omega
        · omega
      · intro id hi
        have hi : v.next + 1 ≤ id := hi
        show ((v.building ++ [(v.next, k)]).map (·.1)).count id = 0 ∧ _
        rw [hb, if_neg (by omega)]
        exact h.fresh id (by omega)
      · intro id
        show ((v.building ++ [(v.next, k)]).map (·.1)).count id + v.log.count _ ≤ 1
        rw [hb]
        have h1 := h.once id
        split
        · next hi => subst hi; have := h.fresh v.next (Nat.le_refl _); omega
        · omega
    | store id =>
      simp only
      split
      · exact h
      · next hl =>
        refine inv_store h id (lookup_count hl) hg' rfl rfl rfl rfl fun j => ?_
        simp only [List.count_append, List.count_singleton]
        by_cases hj : j = id
        · simp [hj]; omega
        · have : ¬ (id = j) := fun hh => hj hh.symm
          simp [hj, this]
      · next hl =>
        refine inv_store h id (lookup_count hl) hg' rfl rfl rfl rfl fun j => ?_
        simp only [List.count_append, List.count_singleton]
        by_cases hj : j = id
        · simp [hj]; omega
        · have : ¬ (id = j) := fun hh => hj hh.symm
          simp [hj, this]
    | shutdown => exact inv_shutdown h
    | destroy =>
      have h' := inv_shutdown h
      exact ⟨h'.built, h'.fresh, h'.once, h'.kept, h'.done, fun _ => ⟨rfl, rfl, _, shutdown_log v⟩⟩

theorem inv_run (n : UInt32) (ops : List Mgr.Op) : Inv ((Mgr.create n).run ops) := by
  induction ops using List.reverseRecOn with
  | nil => exact init n
  | append_singleton ops op ih =>
    have : (Mgr.create n).run (ops ++ [op]) = ((Mgr.create n).run ops).step op := by simp [Mgr.run]
    rw [this]; exact inv_step ih op

theorem gone_run (n : UInt32) (ops : List Mgr.Op) (h : Mgr.Op.destroy ∈ ops) : ((Mgr.create n).run ops).gone = true := by
  induction ops using List.reverseRecOn with
  | nil => cases h
  | append_singleton ops op ih =>
    have : (Mgr.create n).run (ops ++ [op]) = ((Mgr.create n).run ops).step op := by simp [Mgr.run]
    rw [this]
    unfold Mgr.step
    by_cases hg : ((Mgr.create n).run ops).gone = true
    · rw [if_pos hg]; exact hg
    · rw [if_neg hg]
      rcases List.mem_append.1 h with hm | hm
      · exact absurd (ih hm) hg
      · simp only [List.mem_singleton] at hm
        subst hm; rfl

end MgrAux

/-- C73: whatever calls were made, the manager shuts a channel down at most once, and only channels it created. -/
theorem C73_at_most_once (n : UInt32) (ops : List Mgr.Op) (id : Nat) :
    ((Mgr.create n).run ops).log.count (.stopped id) ≤ ((Mgr.create n).run ops).log.count (.created id) ∧
    ((Mgr.create n).run ops).log.count (.created id) ≤ 1 := by
  have h := MgrAux.inv_run n ops
  have h1 := h.kept id
  have h2 := h.once id
  omega

/-- C73: when a `shutdown` (or the destructor) is done, each channel whose creation had returned before has been shut down, exactly once. -/
theorem C73_all_stopped (n : UInt32) (ops : List Mgr.Op) (a b : List MgrEv) (hl : ((Mgr.create n).run ops).log = a ++ .down :: b)
    (id : Nat) (hid : MgrEv.created id ∈ a) : a.count (.stopped id) = 1 := by
  have h := MgrAux.inv_run n ops
  rw [h.done a b hl id]
  have h1 := h.once id
  rw [hl, List.count_append] at h1
  have h2 : 1 ≤ a.count (.created id) := List.count_pos_iff.2 hid
  omega

/-- C73: after the destructor every channel that was ever returned has been shut down exactly once. -/
theorem C73_destructor (n : UInt32) (ops : List Mgr.Op) (hd : Mgr.Op.destroy ∈ ops) (id : Nat)
    (hid : MgrEv.created id ∈ ((Mgr.create n).run ops).log) : ((Mgr.create n).run ops).log.count (.stopped id) = 1 := by
  have h := MgrAux.inv_run n ops
  obtain ⟨h1, h2, -⟩ := h.empty (MgrAux.gone_run n ops hd)
  have h3 := h.kept id
  have h4 := h.once id
  rw [h1, h2] at h3
  have h5 : 1 ≤ ((Mgr.create n).run ops).log.count (.created id) := List.count_pos_iff.2 hid
  simp at h3
  omega

/-- C73: there is at least one thread, and the requested number if that is at least one — throughout. -/
theorem C73_threads (n : UInt32) (ops : List Mgr.Op) : 1 ≤ ((Mgr.create n).run ops).threads.toNat ∧
    (1 ≤ n.toNat → ((Mgr.create n).run ops).threads = n) := by
  have hstep : ∀ (v : Mgr) op, (v.step op).threads = v.threads := by
    intro v op
    unfold Mgr.step
    split
    · rfl
    · cases op with
      | store id => simp only; split <;> rfl
      | _ => rfl
  have hrun : ∀ (v : Mgr), (v.run ops).threads = v.threads := by
    intro v
    induction ops generalizing v with
    | nil => rfl
    | cons op ops ih => exact (ih (v.step op)).trans (hstep v op)
  rw [hrun]
  show 1 ≤ (threadCount n).toNat ∧ (1 ≤ n.toNat → threadCount n = n)
  unfold threadCount
  by_cases h : 1 < n
  · rw [if_pos h]
    have : (1 : UInt32).toNat < n.toNat := UInt32.lt_iff_toNat_lt.1 h
    exact ⟨by simp at this; omega, fun _ => rfl⟩
  · rw [if_neg h]
    have : ¬ (1 : UInt32).toNat < n.toNat := fun hh => h (UInt32.lt_iff_toNat_lt.2 hh)
    refine ⟨by decide, fun h1 => ?_⟩
    apply UInt32.toNat_inj.1
    simp at this ⊢; omega

/-- Two channels, a shutdown while a third is under construction, another channel, destruction. -/
def mgrDemo : List Mgr.Op :=
  [.build .client, .store 0, .build .server, .store 1, .build .client, .shutdown, .store 2, .shutdown, .shutdown, .build .server, .store 3,
   .destroy]

example : ((Mgr.create 0).run mgrDemo).log = [.created 0, .created 1, .stopped 0, .stopped 1, .down, .created 2, .stopped 2, .down, .down,
    .created 3, .stopped 3, .down] := by decide +kernel

example : [MgrEv.created 0, .created 1, .stopped 0, .stopped 1].count (.stopped 1) = 1 :=
  C73_all_stopped 0 mgrDemo _ [.created 2, .stopped 2, .down, .down, .created 3, .stopped 3, .down] (by decide +kernel) 1 (by decide)

example : ((Mgr.create 0).run mgrDemo).log.count (.stopped 3) = 1 := C73_destructor 0 mgrDemo (by decide) 3 (by decide +kernel)

example : ((Mgr.create 0).run mgrDemo).threads = 1 ∧ ((Mgr.create 7).run mgrDemo).threads = 7 := by decide +kernel

theorem MgrAux.run_append (v : Mgr) (a b : List Mgr.Op) : v.run (a ++ b) = (v.run a).run b := List.foldl_append

theorem MgrAux.not_gone (n : UInt32) (ops : List Mgr.Op) (h : Mgr.Op.destroy ∉ ops) : ((Mgr.create n).run ops).gone = false := by
  induction ops using List.reverseRecOn with
  | nil => rfl
  | append_singleton ops op ih =>
    have ih := ih fun hh => h (List.mem_append_left _ hh)
    have hop : op ≠ .destroy := fun hh => h (by simp [hh])
    rw [MgrAux.run_append]
    show (Mgr.step _ op).gone = false
    unfold Mgr.step
    rw [if_neg (by simp [ih])]
    cases op with
    | build k => exact ih
    | store id => simp only; split <;> exact ih
    | shutdown => exact ih
    | destroy => exact absurd rfl hop

theorem MgrAux.kept_iff {v : Mgr} (h : MgrAux.Inv v) (id : Nat) :
    id ∈ v.clients ++ v.servers ↔ MgrEv.created id ∈ v.log ∧ MgrEv.stopped id ∉ v.log := by
  have h1 := h.kept id
  have h2 := h.once id
  have e1 : id ∈ v.clients ++ v.servers ↔ 1 ≤ v.clients.count id + v.servers.count id := by
    rw [← List.count_append]; exact List.count_pos_iff.symm
  have e2 : MgrEv.created id ∈ v.log ↔ 1 ≤ v.log.count (.created id) := List.count_pos_iff.symm
  have e3 : MgrEv.stopped id ∈ v.log ↔ 1 ≤ v.log.count (.stopped id) := List.count_pos_iff.symm
  rw [e1, e2, e3]
  omega

/-- C73: `shutdown` and the destructor do shut down: called while the manager exists, each shuts down exactly the channels returned before and not shut
down yet, and does nothing else. -/
theorem C73_shutdown_works (n : UInt32) (ops : List Mgr.Op) (h : Mgr.Op.destroy ∉ ops) (op : Mgr.Op) (hop : op = .shutdown ∨ op = .destroy) :
    ∃ ids : List Nat, ((Mgr.create n).run (ops ++ [op])).log = ((Mgr.create n).run ops).log ++ ids.map .stopped ++ [.down] ∧ ids.Nodup ∧
      ∀ id, id ∈ ids ↔ MgrEv.created id ∈ ((Mgr.create n).run ops).log ∧ MgrEv.stopped id ∉ ((Mgr.create n).run ops).log := by
  have hi := MgrAux.inv_run n ops
  have hg := MgrAux.not_gone n ops h
  refine ⟨((Mgr.create n).run ops).clients ++ ((Mgr.create n).run ops).servers, ?_, ?_, MgrAux.kept_iff hi⟩
  · rw [MgrAux.run_append]
    show (Mgr.step _ op).log = _
    unfold Mgr.step
    rw [if_neg (by simp [hg])]
    rcases hop with hop | hop <;> subst hop <;> exact MgrAux.shutdown_log _
  · rw [List.nodup_iff_count_le_one]
    intro id
    rw [List.count_append]
    have h1 := hi.kept id
    have h2 := hi.once id
    omega

/-- C73: creating a channel works as long as the manager exists, before and after `shutdown` and whatever other threads do meanwhile: the call returns a
channel that no other call returns. -/
theorem C73_creation_works (n : UInt32) (ops : List Mgr.Op) (k : ChanKind) : ∃ id, ∀ mid, Mgr.Op.destroy ∉ ops ++ mid → Mgr.Op.store id ∉ mid →
    MgrEv.created id ∉ ((Mgr.create n).run (ops ++ .build k :: mid)).log ∧
    ((Mgr.create n).run (ops ++ .build k :: mid ++ [.store id])).log = ((Mgr.create n).run (ops ++ .build k :: mid)).log ++ [.created id] := by
  refine ⟨((Mgr.create n).run ops).next, fun mid hd hs => ?_⟩
  have hg : ((Mgr.create n).run (ops ++ .build k :: mid)).gone = false := by
    apply MgrAux.not_gone
    intro hh
    simp only [List.mem_append, List.mem_cons] at hh hd
    rcases hh with hh | hh | hh
    · exact hd (.inl hh)
    · cases hh
    · exact hd (.inr hh)
  have key : ∀ mid : List Mgr.Op, Mgr.Op.destroy ∉ ops ++ mid → Mgr.Op.store ((Mgr.create n).run ops).next ∉ mid →
      ∃ k', ((Mgr.create n).run (ops ++ .build k :: mid)).building.lookup ((Mgr.create n).run ops).next = some k' := by
    intro mid
    induction mid using List.reverseRecOn with
    | nil =>
      intro hd _
      have hg' := MgrAux.not_gone n ops (by simpa using hd)
      have hf := (MgrAux.inv_run n ops).fresh _ (Nat.le_refl _)
      refine ⟨k, ?_⟩
      rw [MgrAux.run_append]
      show (Mgr.step _ (.build k)).building.lookup _ = _
      unfold Mgr.step
      rw [if_neg (by simp [hg'])]
      show List.lookup _ (_ ++ [(_, k)]) = _
      have hno : ∀ l : List (Nat × ChanKind), ∀ x, (l.map (·.1)).count x = 0 → (l ++ [(x, k)]).lookup x = some k := by
        intro l x
        induction l with
        | nil => intro _; simp
        | cons y l ih =>
          intro hc
          have hm : x ∉ (y :: l).map (·.1) := List.count_eq_zero.1 hc
          simp only [List.map_cons, List.mem_cons, not_or] at hm
          obtain ⟨a, b⟩ := y
          have : (x == a) = false := by simpa using hm.1
          simp only [List.cons_append, List.lookup_cons, this]
          exact ih (List.count_eq_zero.2 hm.2)
      exact hno _ _ hf.1
    | append_singleton mid op ih =>
      intro hd hs
      have hd' : Mgr.Op.destroy ∉ ops ++ mid := fun hh => hd (by rw [← List.append_assoc]; exact List.mem_append_left _ hh)
      obtain ⟨k', hk⟩ := ih hd' fun hh => hs (List.mem_append_left _ hh)
      have e : ops ++ .build k :: (mid ++ [op]) = (ops ++ .build k :: mid) ++ [op] := by simp
      rw [e, MgrAux.run_append]
      generalize (Mgr.create n).run (ops ++ .build k :: mid) = v at hk ⊢
      generalize ((Mgr.create n).run ops).next = x at hk hs ⊢
      show ∃ k', (Mgr.step v op).building.lookup x = some k'
      unfold Mgr.step
      split
      · exact ⟨k', hk⟩
      · cases op with
        | build k2 =>
          refine ⟨k', ?_⟩
          show List.lookup x (v.building ++ _) = _
          rw [List.lookup_append, hk]; rfl
        | store j =>
          have hj : j ≠ x := fun hh => hs (by simp [hh])
          have hfil : ∀ l : List (Nat × ChanKind), l.lookup x = some k' → (l.filter fun y => y.1 ≠ j).lookup x = some k' := by
            intro l
            induction l with
            | nil => intro h; exact h
            | cons y l ihl =>
              intro hl
              obtain ⟨a, b⟩ := y
              by_cases hy : a = x
              · have hb : (x == a) = true := by simp [hy]
                rw [List.filter_cons_of_pos (by simp [hy]; exact fun hh => hj hh.symm)]
                simp only [List.lookup_cons, hb] at hl ⊢
                exact hl
              · have hb : (x == a) = false := by simp; exact fun hh => hy hh.symm
                simp only [List.lookup_cons, hb] at hl
                by_cases hyj : a = j
                · rw [List.filter_cons_of_neg (by simp [hyj])]; exact ihl hl
                · rw [List.filter_cons_of_pos (by simp [hyj])]
                  simp only [List.lookup_cons, hb]; exact ihl hl
          simp only
          split
          · exact ⟨k', hk⟩
          · exact ⟨k', hfil _ hk⟩
          · exact ⟨k', hfil _ hk⟩
        | shutdown => exact ⟨k', hk⟩
        | destroy => exact absurd (by simp) hd
  obtain ⟨k', hk⟩ := key mid hd hs
  have hi := MgrAux.inv_run n (ops ++ .build k :: mid)
  constructor
  · have h1 := MgrAux.lookup_count hk
    have h2 := hi.once ((Mgr.create n).run ops).next
    exact List.count_eq_zero.1 (by omega)
  · rw [MgrAux.run_append (b := [_])]
    show (Mgr.step _ (.store _)).log = _
    unfold Mgr.step
    rw [if_neg (by simp [hg])]
    simp only [hk]
    cases k' <;> rfl

/-- C73: the manager shuts no channel down on its own account. -/
theorem C73_only_when_asked (n : UInt32) (ops : List Mgr.Op) (h1 : Mgr.Op.shutdown ∉ ops) (h2 : Mgr.Op.destroy ∉ ops) (id : Nat) :
    MgrEv.stopped id ∉ ((Mgr.create n).run ops).log := by
  induction ops using List.reverseRecOn with
  | nil => simp [Mgr.run, Mgr.create]
  | append_singleton ops op ih =>
    have ih := ih (fun hh => h1 (List.mem_append_left _ hh)) fun hh => h2 (List.mem_append_left _ hh)
    rw [MgrAux.run_append]
    show _ ∉ (Mgr.step _ op).log
    unfold Mgr.step
    split
    · exact ih
    · cases op with
      | build k => exact ih
      | store j => simp only; split <;> simp_all
      | shutdown => exact absurd (by simp) h1
      | destroy => exact absurd (by simp) h2

example : Mgr.Op.destroy ∉ [Mgr.Op.build .client, .store 0, .shutdown] ++ [.build .server, .store 2, .shutdown] ∧
    Mgr.Op.store 1 ∉ [Mgr.Op.build .server, .store 2, .shutdown] ∧
    ((Mgr.create 2).run ([.build .client, .store 0, .shutdown] ++ .build .client :: [.build .server, .store 2, .shutdown] ++ [.store 1])).log =
      [.created 0, .stopped 0, .down, .created 2, .stopped 2, .down, .created 1] := by decide +kernel

end Modbus.Props
