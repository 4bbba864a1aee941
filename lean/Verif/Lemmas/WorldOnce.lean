import Verif.Lemmas.WorldTrace
import Mathlib.Data.List.Perm.Subperm
import Mathlib.Data.List.Perm.Basic

/-! Helper lemmas: every request is taken at most once. -/

namespace Modbus

open Spec

theorem count_pair {β : Type} [BEq (Nat × β)] [LawfulBEq (Nat × β)] [BEq β] [LawfulBEq β] (l : List (Nat × β)) (n : Nat) (b : β) :
    l.count (n, b) = ((l.filter fun x => x.1 == n).map (·.2)).count b := by
  induction l with
  | nil => rfl
  | cons x l ih =>
    obtain ⟨n', b'⟩ := x
    rw [List.count_cons, ih, List.filter_cons]
    by_cases h : n' = n
    · subst h
      simp only [beq_self_eq_true, if_true, List.map_cons, List.count_cons]
      by_cases h2 : b' = b
      · simp [h2]
      · have : ((n', b') == (n', b)) = false := by simp [h2]
        simp [h2, this]
    · have : ((n', b') == (n, b)) = false := by simp [h]
      simp [h, this]

theorem perm_map_lift {α β : Type} (f : α → β) : ∀ (l : List β) (l' : List α), l.Perm (l'.map f) → ∃ l'' : List α, l''.Perm l' ∧ l''.map f = l := by
  intro l
  induction l with
  | nil =>
    intro l' h
    have : l' = [] := by simpa using h.symm.eq_nil
    subst this
    exact ⟨[], .refl _, rfl⟩
  | cons a l ih =>
    intro l' h
    obtain ⟨x, hx, rfl⟩ := List.mem_map.1 (h.subset (List.mem_cons_self))
    obtain ⟨p, q, rfl⟩ := List.append_of_mem hx
    rw [List.map_append, List.map_cons] at h
    have h2 := (h.trans List.perm_middle).cons_inv
    rw [← List.map_append] at h2
    obtain ⟨l'', h3, h4⟩ := ih _ h2
    exact ⟨x :: l'', (h3.cons x).trans List.perm_middle.symm, by rw [List.map_cons, h4]⟩

theorem forall₂_sublist {α β : Type} {R : α → β → Prop} {us : List α} {xs ys : List β} (h : List.Forall₂ R us xs) (hs : ys.Sublist xs) :
    ∃ vs, vs.Sublist us ∧ List.Forall₂ R vs ys := by
  induction hs generalizing us with
  | slnil => cases h; exact ⟨[], .slnil, .nil⟩
  | cons a hs ih =>
    cases h with
    | cons h1 h2 =>
      obtain ⟨vs, h3, h4⟩ := ih h2
      exact ⟨vs, h3.cons _, h4⟩
  | cons_cons a hs ih =>
    cases h with
    | @cons u _ _ _ h1 h2 =>
      obtain ⟨vs, h3, h4⟩ := ih h2
      exact ⟨u :: vs, h3.cons_cons _, .cons h1 h4⟩

/-- What was given to the network, with the number of the connection. -/
def submitPairs (log : List TEv) : List (Nat × List UInt8) :=
  log.filterMap fun e => match e with
    | .submit c d => some (c, d)
    | _ => none

theorem submitPairs_snd (log : List TEv) : (submitPairs log).map (·.2) = tcpAllSubmits log := by
  induction log with
  | nil => rfl
  | cons e log ih =>
    cases e <;> simp only [submitPairs, tcpAllSubmits, List.filterMap_cons, List.map_cons] at ih ⊢ <;> first | exact ih | rw [ih]

theorem submitPairs_filter (log : List TEv) (n : Nat) : ((submitPairs log).filter fun x => x.1 == n).map (·.2) = tcpSubmits n log := by
  induction log with
  | nil => rfl
  | cons e log ih =>
    cases e with
    | submit c d =>
      simp only [submitPairs, tcpSubmits, List.filterMap_cons, List.filter_cons] at ih ⊢
      by_cases h : c = n
      · simp only [h, beq_self_eq_true, if_true, List.map_cons, ih]
      · simp only [beq_eq_false_iff_ne.2 h, Bool.false_eq_true, if_false, if_neg h, ih]
    | _ => simp only [submitPairs, tcpSubmits, List.filterMap_cons] at ih ⊢; exact ih

namespace World

variable {W : Type} {env : WorldEnv W} {w : W}

theorem takenBy_filter {j c n : Nat} (hp : env.peer c = some (j, n)) (log : List SEv) :
    ((takenBy env j log).filter fun x => x.1 == n).map (·.2) = Props.msgsOf c log := by
  induction log with
  | nil => rfl
  | cons e log ih =>
    cases e with
    | mbap c' m =>
      simp only [takenBy, Props.msgsOf, List.filterMap_cons] at ih ⊢
      by_cases hc : c' = c
      · subst hc
        rw [hp]
        simp only [if_true, List.filter_cons, beq_self_eq_true, List.map_cons, ih]
      · rw [if_neg hc]
        cases hx : env.peer c' with
        | none => exact ih
        | some x =>
          obtain ⟨i, n'⟩ := x
          simp only
          split
          · rename_i h; split at h
            · cases h
            · exact ih
          · rename_i h; split at h
            · rename_i hi
              cases h
              have hn : n' ≠ n := by
                intro hn; subst hn; subst hi
                exact hc (env.inj _ _ _ hx hp)
              simp only [List.filter_cons, beq_eq_false_iff_ne.2 hn, Bool.false_eq_true, if_false, ih]
            · cases h
    | _ => simp only [takenBy, Props.msgsOf, List.filterMap_cons] at ih ⊢; exact ih

theorem mem_takenBy {j n : Nat} {m : Mbap} {log : List SEv} (h : (n, m) ∈ takenBy env j log) : ∃ c, env.peer c = some (j, n) ∧ SEv.mbap c m ∈ log := by
  rw [takenBy, List.mem_filterMap] at h
  obtain ⟨e, he, hx⟩ := h
  cases e with
  | mbap c m' =>
    simp only at hx
    split at hx
    · rename_i i n' hp
      split at hx
      · rename_i hi
        cases hx; subst hi
        exact ⟨c, hp, he⟩
      · cases hx
    · cases hx
  | _ => cases hx

/-- Of the requests of a client, each is taken at most once. -/
theorem taken_once {v : World W} (h : WReach env w v) {j : Nat} (hc : CalmSending env j v) :
    ∃ us : List Nat, us.Nodup ∧ List.Forall₂ (fun u m => ∃ t, CEv.sent u (wire m) t ∈ chLog (inClient j v.log)) us
      ((takenBy env j (svLog (inServer v.log))).map (·.2)) := by
  have hok := h.ok
  have hth : Throughout (fun t op => FreshStarts t op ∧ Patient t op) (v.cli j) := hc.steps
  have hr := Props.tcp_through (hok.cli j) hth
  have hw : ∀ n, (tcpWires n (v.cli j).tcp.log).Sublist (tcpSubmits n (v.cli j).tcp.log) := (hr.writes fun _ _ h => h).2
  have hsub := (hr.once (fun _ _ h => h.1)).2
  have h1 : ((takenBy env j (svLog (inServer v.log))).map fun x => (x.1, wire x.2)).Subperm (submitPairs (v.cli j).tcp.log) := by
    rw [List.subperm_ext_iff]
    rintro ⟨n, b⟩ hm
    obtain ⟨⟨n', m⟩, hm, hx⟩ := List.mem_map.1 hm
    obtain ⟨c, hp, -⟩ := mem_takenBy hm
    simp only [Prod.mk.injEq] at hx
    obtain ⟨rfl, rfl⟩ := hx
    rw [count_pair, count_pair, submitPairs_filter, List.filter_map, List.map_map]
    obtain ⟨ms, w1, w2, -⟩ := taken_msgs h hc hp
    have e1 : ((takenBy env j (svLog (inServer v.log))).filter ((fun x => x.1 == n') ∘ fun x => (x.1, wire x.2))).map
        ((fun x => x.2) ∘ fun x => (x.1, wire x.2)) = (Props.msgsOf c (svLog (inServer v.log))).map wire := by
      rw [← takenBy_filter hp, List.map_map]; rfl
    rw [e1]
    have e2 : ((Props.msgsOf c (svLog (inServer v.log))).map wire).Sublist (tcpWires n' (v.cli j).tcp.log) := by
      have e3 : netLog (inClient j v.log) = (v.cli j).tcp.log := by rw [hok.clog, (hok.cli j).proj.micro.net]
      rw [← e3, w1]
      exact (w2.map wire).sublist
    exact (e2.trans (hw n')).count_le _
  have h2 : ((takenBy env j (svLog (inServer v.log))).map fun x => wire x.2).Subperm ((sentFrames (chLog (v.cli j).log)).map (·.2)) := by
    have : (((takenBy env j (svLog (inServer v.log))).map fun x => (x.1, wire x.2)).map (·.2)).Subperm ((submitPairs (v.cli j).tcp.log).map (·.2)) := by
      obtain ⟨l, hp, hs⟩ := h1
      exact ⟨l.map (·.2), hp.map _, hs.map _⟩
    rw [submitPairs_snd, List.map_map] at this
    rw [← (hok.cli j).proj.micro.net, (hok.cli j).proj.micro.asked] at hsub
    rw [(hok.cli j).proj.micro.net] at hsub
    exact this.trans hsub.subperm
  obtain ⟨l, hl1, hl2⟩ := h2
  obtain ⟨l', hl3, rfl⟩ := List.sublist_map_iff.1 hl2
  obtain ⟨l'', hl4, hl5⟩ := perm_map_lift (·.2) _ l' hl1.symm
  have hnd : ((sentFrames (chLog (v.cli j).log)).map (·.1)).Nodup := by
    rw [sentFrames_uids, (hok.cli j).proj.cli]
    exact (Props.C46_submission_order (env.client j).client (v.cli j).cli (hok.cli j).proj.reach).2.1.imp fun h => Nat.ne_of_lt h
  refine ⟨l''.map (·.1), ((hl4.map _).nodup_iff).2 (hnd.sublist (hl3.map _)), ?_⟩
  have hall : ∀ x ∈ l'', x ∈ sentFrames (chLog (inClient j v.log)) := fun x hx => by rw [hok.clog]; exact hl3.subset (hl4.subset hx)
  rw [List.forall₂_map_left_iff, List.forall₂_map_right_iff]
  generalize takenBy env j (svLog (inServer v.log)) = tk at hl5
  clear hl4
  induction l'' generalizing tk with
  | nil => cases tk with
    | nil => exact .nil
    | cons _ _ => cases hl5
  | cons x l'' ih => cases tk with
    | nil => cases hl5
    | cons y tk =>
      simp only [List.map_cons, List.cons.injEq] at hl5
      refine .cons ?_ (ih (fun x hx => hall x (by simp [hx])) _ hl5.2)
      obtain ⟨t, ht⟩ := mem_sentFrames.1 (hall x (by simp))
      exact ⟨t, by rw [← hl5.1]; exact ht⟩

theorem takenBy_snd (j : Nat) (log : List SEv) : (takenBy env j log).map (·.2) = log.filterMap fun e => match e with
      | .mbap c m => if (env.peer c).map (·.1) == some j then some m else none
      | _ => none := by
  rw [takenBy, List.map_filterMap]
  congr 1
  funext e
  cases e with
  | mbap c m =>
    simp only
    cases env.peer c with
    | none => simp
    | some x =>
      obtain ⟨i, n⟩ := x
      by_cases hi : i = j <;> simp [hi]
  | _ => rfl

/-- What is executed for the connections that `p` selects was taken from them. -/
theorem executed_sublist (p : Nat → Bool) (log : List SEv) : (((executed log).filter fun x => p x.1).map (·.2.1)).Sublist
    (log.filterMap fun e => match e with
      | .mbap c m => if p c then some m else none
      | _ => none) := by
  induction log using executed.induct with
  | case1 c m s k q log ih =>
    rw [executed, List.filter_cons, List.filterMap_cons, List.filterMap_cons]
    simp only
    split
    · exact ih.cons_cons _
    · exact ih
  | case2 e log hne ih =>
    rw [executed]
    · exact ih.trans ((List.sublist_cons_self _ _).filterMap _)
    · exact hne
  | case3 => exact .slnil

theorem mem_executed {c : Nat} {m : Mbap} {r : AnyReq} {log : List SEv} (h : (c, m, r) ∈ executed log) :
    ∃ l0 s l1, log = l0 ++ .mbap c m :: .request s r.1 r.2 :: l1 := by
  induction log using executed.induct with
  | case1 c' m' s k q log ih =>
    rw [executed] at h
    rcases List.mem_cons.1 h with h | h
    · cases h
      exact ⟨[], s, log, rfl⟩
    · obtain ⟨l0, s', l1, rfl⟩ := ih h
      exact ⟨_ :: _ :: l0, s', l1, rfl⟩
  | case2 e log hne ih =>
    rw [executed] at h
    · obtain ⟨l0, s', l1, rfl⟩ := ih h
      exact ⟨_ :: l0, s', l1, rfl⟩
    · exact hne
  | case3 => cases h

/-- On one connection, requests are taken in the order in which they were made. -/
theorem taken_in_order {v : World W} (h : WReach env w v) {j c n : Nat} (hc : CalmSending env j v) (hp : env.peer c = some (j, n)) :
    ∃ us : List Nat, us.Pairwise (· < ·) ∧ List.Forall₂ (fun u m => ∃ t, CEv.sent u (wire m) t ∈ chLog (inClient j v.log)) us
      (Props.msgsOf c (svLog (inServer v.log))) := by
  have hok := h.ok
  have hth : Throughout (fun t op => FreshStarts t op ∧ Patient t op) (v.cli j) := hc.steps
  have hr := Props.tcp_through (hok.cli j) hth
  have hw : (tcpWires n (v.cli j).tcp.log).Sublist (tcpSubmits n (v.cli j).tcp.log) := (hr.writes fun _ _ h => h).2 n
  have hsub := (hr.once (fun _ _ h => h.1)).2
  obtain ⟨ms, w1, w2, -⟩ := taken_msgs h hc hp
  have e3 : netLog (inClient j v.log) = (v.cli j).tcp.log := by rw [hok.clog, (hok.cli j).proj.micro.net]
  have h1 : ((Props.msgsOf c (svLog (inServer v.log))).map wire).Sublist ((sentFrames (chLog (v.cli j).log)).map (·.2)) := by
    refine List.Sublist.trans (w2.map wire).sublist ?_
    rw [← w1, e3]
    refine hw.trans (List.Sublist.trans (l₂ := tcpAllSubmits (v.cli j).tcp.log) ?_ ?_)
    · rw [← submitPairs_filter, ← submitPairs_snd]
      exact (List.filter_sublist).map _
    · rw [← (hok.cli j).proj.micro.net, (hok.cli j).proj.micro.asked] at hsub
      rw [(hok.cli j).proj.micro.net] at hsub
      exact hsub
  obtain ⟨l', hl3, hl5⟩ := List.sublist_map_iff.1 h1
  have hnd : ((sentFrames (chLog (v.cli j).log)).map (·.1)).Pairwise (· < ·) := by
    rw [sentFrames_uids, (hok.cli j).proj.cli]
    exact (Props.C46_submission_order (env.client j).client (v.cli j).cli (hok.cli j).proj.reach).2.1
  refine ⟨l'.map (·.1), hnd.sublist (hl3.map _), ?_⟩
  have hall : ∀ x ∈ l', x ∈ sentFrames (chLog (inClient j v.log)) := fun x hx => by rw [hok.clog]; exact hl3.subset hx
  rw [List.forall₂_map_left_iff]
  generalize Props.msgsOf c (svLog (inServer v.log)) = tk at hl5
  clear hl3
  induction l' generalizing tk with
  | nil => cases tk with
    | nil => exact .nil
    | cons _ _ => cases hl5
  | cons x l'' ih => cases tk with
    | nil => cases hl5
    | cons y tk =>
      simp only [List.map_cons, List.cons.injEq] at hl5
      refine .cons ?_ (ih (fun x hx => hall x (by simp [hx])) _ hl5.2)
      obtain ⟨t, ht⟩ := mem_sentFrames.1 (hall x (by simp))
      exact ⟨t, by rw [hl5.1]; exact ht⟩

/-- What was executed is what was asked. -/
theorem executed_calls {v : World W} (h : WReach env w v) {j : Nat} (hc : CalmSending env j v) (p : Nat → Bool) (hp : ∀ c, p c = true → ∃ n, env.peer c = some (j, n))
    {us : List Nat} (hall : List.Forall₂ (fun u m => ∃ t, CEv.sent u (wire m) t ∈ chLog (inClient j v.log)) us
      (((executed (svLog (inServer v.log))).filter fun x => p x.1).map (·.2.1))) :
    List.Forall₂ (fun u x => ∃ tmo, CEv.call u x.2.1.unit x.2.2 tmo ∈ chLog (inClient j v.log) ∧
      x.2.1.tid.toNat = rank (chLog (inClient j v.log)) u % 65536) us ((executed (svLog (inServer v.log))).filter fun x => p x.1) := by
  have hok := h.ok
  rw [List.forall₂_map_right_iff] at hall
  have hmem : ∀ x ∈ (executed (svLog (inServer v.log))).filter fun x => p x.1, Denotes x.2.2.1 x.2.1.data x.2.2.2 ∧ Ordinary x.2.1 := by
    intro x hx
    rw [List.mem_filter] at hx
    obtain ⟨n, hn⟩ := hp _ hx.2
    obtain ⟨l0, s, l1, hl⟩ := mem_executed (c := x.1) (m := x.2.1) (r := x.2.2) hx.1
    have hl' := hl
    rw [hok.slog, hok.srv.ok.svl] at hl
    obtain ⟨l00, c', m', e1, e2⟩ := hok.srv.ok.traced.calls (l0 ++ [.mbap x.1 x.2.1]) s x.2.2.1 x.2.2.2 l1 (by rw [hl]; simp)
    obtain ⟨-, e1⟩ := List.append_inj' e1 rfl
    have : x.2.1 = m' := by
      injection e1 with e1; injection e1
    rw [← this] at e2
    obtain ⟨ms, -, w2, w3⟩ := taken_msgs h hc hn
    exact ⟨e2, (w3 x.2.1 (w2.subset (mem_msgsOf.2 (by rw [hl']; simp)))).1⟩
  generalize (executed (svLog (inServer v.log))).filter (fun x => p x.1) = ex at hall hmem
  induction hall with
  | nil => exact .nil
  | @cons u x us ex h1 _ ih =>
    refine .cons ?_ (ih (fun x hx => hmem x (by simp [hx])))
    obtain ⟨t, ht⟩ := h1
    obtain ⟨hd, hord⟩ := hmem x (by simp)
    rw [hok.clog, (hok.cli j).proj.cli] at ht ⊢
    obtain ⟨m3, unit3, k3, q3, tmo3, r1, r2, r3, r4, r5, r6, -, -⟩ := sent_request (hok.cli j).proj.reach (past := (v.cli j).cli.log) (future := []) (by simp) ht
    have hm3 : x.2.1 = m3 := wire_inj hord r2 r1
    rw [← hm3] at r4 r5 r6
    have hq : x.2.2 = ⟨k3, q3⟩ := Props.denotes_unique hd r6
    refine ⟨tmo3, ?_, by rw [r5]; simp⟩
    rw [hq, r4]; exact r3

/-- If every call of a session comes right after a message, then all of them are listed. -/
theorem executed_all : ∀ l : List SEv, (∀ l0 s k q l1, l = l0 ++ .request s k q :: l1 → ∃ c m, l0.getLast? = some (.mbap c m)) →
    (Spec.executed l).map (·.2.2) = sessionCalls l := by
  intro l
  induction l using Spec.executed.induct with
  | case1 c m s k q log ih =>
    intro h
    rw [Spec.executed, List.map_cons, ih]
    · rfl
    · intro l0 s' k' q' l1 he
      obtain ⟨c', m', hl⟩ := h (.mbap c m :: .request s k q :: l0) s' k' q' l1 (by rw [he]; rfl)
      cases l0 with
      | nil => simp at hl
      | cons y l0 => exact ⟨c', m', by simpa [List.getLast?_cons_cons] using hl⟩
  | case2 e log hne ih =>
    intro h
    rw [Spec.executed]
    · rw [ih]
      · cases e with
        | request s k q => obtain ⟨c, m, hl⟩ := h [] s k q log rfl; cases hl
        | _ => rfl
      · intro l0 s' k' q' l1 he
        obtain ⟨c', m', hl⟩ := h (e :: l0) s' k' q' l1 (by rw [he]; rfl)
        cases l0 with
        | nil =>
          simp at hl
          exact absurd he (hne c' m' s' k' q' l1 hl)
        | cons y l0 => exact ⟨c', m', by simpa [List.getLast?_cons_cons] using hl⟩
    · exact hne
  | case3 => intro _; rfl

end World

end Modbus
