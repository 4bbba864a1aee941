import Verif.Props.PollOnce

/-!
C148: what was answered was executed exactly once.
-/

namespace Modbus.Props

open Spec World

variable {W : Type}

/-- A call of a session after a message is one of the calls. -/
theorem executed_mem (c : Nat) (m : Mbap) (s : SessId) (k : Kind) (q : Req k) (l2 : List SEv) : ∀ l1 : List SEv,
    (c, m, (⟨k, q⟩ : AnyReq)) ∈ Spec.executed (l1 ++ .mbap c m :: .request s k q :: l2) := by
  intro l1
  induction l1 using Spec.executed.induct with
  | case1 c' m' s' k' q' log ih =>
    rw [List.cons_append, List.cons_append, Spec.executed]
    exact List.mem_cons_of_mem _ ih
  | case2 e log hne ih =>
    rw [List.cons_append, Spec.executed]
    · exact ih
    · intro c' m' s' k' q' log' h1 h2
      cases log with
      | nil => cases h2
      | cons y log =>
        injection h2 with h2 h3
        exact hne c' m' s' k' q' log h1 (by rw [h2])
  | case3 =>
    rw [List.nil_append, Spec.executed]
    exact List.mem_cons_self

theorem forall₂_of_right {α β : Type} {R : α → β → Prop} {us : List α} {xs : List β} (h : List.Forall₂ R us xs) {x : β} (hx : x ∈ xs) :
    ∃ u ∈ us, R u x := by
  induction h with
  | nil => cases hx
  | @cons u y us xs hr _ ih =>
    rcases List.mem_cons.1 hx with rfl | hx
    · exact ⟨u, List.mem_cons_self, hr⟩
    · obtain ⟨u', h1, h2⟩ := ih hx
      exact ⟨u', List.mem_cons_of_mem _ h1, h2⟩

theorem forall₂_of_left {α β : Type} {R : α → β → Prop} {us : List α} {xs : List β} (h : List.Forall₂ R us xs) {u : α} (hu : u ∈ us) :
    ∃ x ∈ xs, R u x := by
  induction h with
  | nil => cases hu
  | @cons v y us xs hr _ ih =>
    rcases List.mem_cons.1 hu with rfl | hu
    · exact ⟨y, List.mem_cons_self, hr⟩
    · obtain ⟨u', h1, h2⟩ := ih hu
      exact ⟨u', List.mem_cons_of_mem _ h1, h2⟩

/-- The rank of an allowed request is smaller than the number of requests. -/
theorem rank_lt {l : List CEv} {u : Nat} (hu : u ∈ allowedUids l) : rank l u < (submissions l).length := by
  have h1 : (allowedUids l).length ≤ (submissions l).length := List.length_filterMap_le _ _
  have h2 : ((allowedUids l).filter (· < u)).length < (allowedUids l).length :=
    List.length_filter_lt_length_iff_exists.2 ⟨u, hu, by simp⟩
  exact Nat.lt_of_lt_of_le h2 h1

/-! ### C148 -/

/-- C148, to be wished for: the calls of sessions for a client's messages go back to different requests of that client (same unit, same
request), and each request that was answered is among them: it was executed exactly once. -/
def C148_Statement : Prop := ∀ (W : Type) (env : WorldEnv W) (w : W) (v : World W), WReach env w v → ∀ j,
  ∃ us : List Nat, us.Nodup ∧ List.Forall₂ (fun u x => ∃ tmo, CEv.call u x.2.1.unit x.2.2 tmo ∈ chLog (inClient j v.log)) us (executedFor env j (svLog (inServer v.log))) ∧
    ∀ u pdu t, CEv.handler u (.ok pdu) t ∈ chLog (inClient j v.log) → u ∈ us

/-- **C148** (part): it is so for a calm client that has made at most 65536 requests.
Missing from C148: longer histories, in which transaction ids repeat, and histories that are not calm (`C148_violated`). -/
theorem C148_exactly_once_partial (env : WorldEnv W) (w : W) (v : World W) (h : WReach env w v) (j : Nat) (hc : Calm env j v)
    (hfew : (submissions (chLog (inClient j v.log))).length ≤ 65536) :
    ∃ us : List Nat, us.Nodup ∧ List.Forall₂ (fun u x => ∃ tmo, CEv.call u x.2.1.unit x.2.2 tmo ∈ chLog (inClient j v.log)) us
      (executedFor env j (svLog (inServer v.log))) ∧
      ∀ u pdu t, CEv.handler u (.ok pdu) t ∈ chLog (inClient j v.log) → u ∈ us := by
  obtain ⟨us, hnd, hall⟩ := C102_at_most_once_partial env w v h j hc.sending
  refine ⟨us, hnd, hall.imp (fun u x ⟨tmo, hm, _⟩ => ⟨tmo, hm⟩), fun u pdu t hh => ?_⟩
  have hok := h.ok
  -- where the answer was reported
  have hsplit : ∃ past future, v.log = past ++ .cli j (.ch (.handler u (.ok pdu) t)) :: future := by
    have : WEv.cli j (.ch (.handler u (.ok pdu) t)) ∈ v.log := by
      simp only [chLog, inClient, List.mem_filterMap] at hh
      obtain ⟨y, ⟨z, hz, hy⟩, he⟩ := hh
      cases z with
      | cli i z =>
        simp only at hy
        by_cases hi : i = j
        · simp only [hi, if_true, Option.some.injEq] at hy
          subst hy
          cases z with
          | ch z => simp only [Option.some.injEq] at he; rw [hi, he] at hz; exact hz
          | net z => cases he
        · simp only [hi, if_false] at hy; cases hy
      | srv z => cases hy
    exact List.append_of_mem this
  obtain ⟨past, future, he⟩ := hsplit
  obtain ⟨u', A, B, c, n, m, s, k, q, tmo, q2, tmo2, b, b', t2, t3, l, h1, h2, h3, h4, h5, h6, h7, h8, h9, h10, h11, h12, -, -⟩ :=
    C101_answers_are_genuine_partial env w v h j hc past future u pdu t he
  have hlog : v.log = A ++ .srv (.ch (.mbap c m)) :: (B ++ .cli j (.ch (.handler u (.ok pdu) t)) :: future) := by rw [he, h1]; simp
  -- it is one of the calls
  have hx : (c, m, (⟨k, q⟩ : AnyReq)) ∈ executedFor env j (svLog (inServer v.log)) := by
    refine List.mem_filter.2 ⟨?_, by simp [h2]⟩
    rw [hlog, inServer_append, Svk.svLog_append, inServer_cons_srv, inServer_append]
    change _ ∈ Spec.executed (_ ++ SEv.mbap c m :: svLog (inServer B ++ _))
    rw [Svk.svLog_append, h11]
    exact executed_mem c m s k q _ _
  obtain ⟨u2, hu2, tmo', g1, g2⟩ := forall₂_of_right hall hx
  -- the transaction ids are the same
  have hl : chLog (inClient j v.log) = (v.cli j).cli.log := by rw [hok.clog, (hok.cli j).proj.cli]
  have hA : (v.cli j).cli.log = chLog (inClient j A) ++ chLog (inClient j (.srv (.ch (.mbap c m)) :: (B ++ .cli j (.ch (.handler u (.ok pdu) t)) :: future))) := by
    rw [← hl, hlog, inClient_append, chLog_append]
  have hP : (v.cli j).cli.log = chLog (inClient j past) ++ chLog (inClient j (.cli j (.ch (.handler u (.ok pdu) t)) :: future)) := by
    rw [← hl, he, inClient_append, chLog_append]
  obtain ⟨m', unit', k', q', tmo3, e1, e2, e3, e4, e5, e6, e7, -⟩ := sent_request (hok.cli j).proj.reach hA h4
  obtain ⟨hord, -⟩ := taken h hc.sending h2 hlog
  have hm : m' = m := wire_inj e2 hord (by rw [← e1, h3]; rfl)
  subst hm
  have hq := denotes_unique h12 e6
  have hin : Allowed (⟨k, q⟩ : AnyReq) := by rw [hq]; exact e7
  obtain ⟨m4, unit4, k4, q4, tmo4, -, -, r3, -, -, -, r7, -⟩ := sent_request (hok.cli j).proj.reach hP h8
  have hau : u ∈ allowedUids (v.cli j).cli.log := Cli.mem_allowedUids.2 ⟨unit4, ⟨k4, q4⟩, tmo4, by rw [hP]; exact List.mem_append_left _ r3, r7⟩
  rw [hl] at g1 g2 h10 hfew
  have hau2 : u2 ∈ allowedUids (v.cli j).cli.log := Cli.mem_allowedUids.2 ⟨_, _, _, g1, hin⟩
  have e5' := congrArg UInt16.toNat e5
  simp only [UInt16.toNat_ofNat'] at e5'
  have b1 := rank_lt hau
  have b2 := rank_lt hau2
  have hrank : rank (v.cli j).cli.log u2 = rank (v.cli j).cli.log u := by
    simp only at g2
    have : (2 : Nat) ^ 16 = 65536 := rfl
    omega
  have heq : u2 = u := by
    rcases Nat.lt_trichotomy u2 u with hlt | heq | hgt
    · have := rank_strict hau2 hlt; omega
    · exact heq
    · have := rank_strict hau hgt; omega
  rw [← heq]
  exact hu2

/-- The hypotheses can be met, with an answered request. -/
example : ∃ v, WReach (wenv oneRegister 1) 0 v ∧ Calm (wenv oneRegister 1) 0 v ∧ (submissions (chLog (inClient 0 v.log))).length ≤ 65536 ∧
    CEv.handler 0 (.ok [6, 0, 3, 0, 42]) 0 ∈ chLog (inClient 0 v.log) := by
  obtain ⟨v, h1, h2⟩ := any_wdemo (env := wenv oneRegister 1) (w := 0) (ops := wtwo) (Q := fun v => calmChk 0 [0] v &&
    decide ((submissions (chLog (inClient 0 v.log))).length ≤ 65536 ∧ CEv.handler 0 (.ok [6, 0, 3, 0, 42]) 0 ∈ chLog (inClient 0 v.log))) (by decide +kernel)
  rw [Bool.and_eq_true, decide_eq_true_eq] at h2
  exact ⟨v, h1, wenv_calm h2.1, h2.2⟩

/-- C148 is false: a request may be answered that was never executed (`C101_spelled`). -/
theorem C148_violated : ¬C148_Statement := by
  intro hall
  obtain ⟨v, hr, hq⟩ := C101_spelled
  simp only [Bool.and_eq_true, decide_eq_true_eq, List.all_eq_true] at hq
  obtain ⟨⟨h1, h2⟩, h3⟩ := hq
  have hok := hr.ok
  obtain ⟨us, -, hf, hin⟩ := hall Unit (wenv speller 1) () v hr 0
  obtain ⟨⟨c, m, k, q⟩, hx, tmo, hcall⟩ := forall₂_of_left hf (hin 2 [5, 0, 5, 255, 0] 10 (by rw [h1]; simp [inClient, chLog]))
  obtain ⟨l0, s, l1, hl⟩ := mem_executed (List.mem_of_mem_filter hx)
  have hk := h3 (.request s k q) (by rw [hl]; simp)
  rw [hok.clog, (hok.cli 0).proj.cli] at hcall h2
  obtain ⟨-, hk2, -⟩ := (hok.cli 0).proj.reach.inv.1.callUnique h2 hcall
  have hkk : k = .writeSingleCoil := (congrArg Sigma.fst hk2).symm
  simp only [hkk] at hk
  cases hk

/-- **C148** (part), for scheduled requests: each poll that was answered is among the requests to which the calls of sessions go back. -/
theorem C148_polls_exactly_once_partial (env : WorldEnv W) (w : W) (v : PWorld W) (h : PWReach env w v) (j : Nat) (hc : CalmPolling env j v)
    (hfew : (submissions (ofChannel (atClient j v.log))).length ≤ 65536) :
    ∃ us : List Nat, us.Nodup ∧ List.Forall₂ (fun u x => AskedFor (atClient j v.log) u x.2.1.unit x.2.2) us (executedFor env j (svLog (atServer v.log))) ∧
      ∀ u pdu t, LEv.ch (.handler u (.ok pdu) t) ∈ atClient j v.log → u ∈ us := by
  have hg := h.good
  obtain ⟨hr, hlog⟩ := hg.client j
  obtain ⟨us, hnd, hall, hin⟩ := C148_exactly_once_partial env w v.flat hg.flat j hc.flat
    (by rw [show v.flat.log = flatLog v.log from rfl, PWorld.chLog_flat]; exact hfew)
  rw [show v.flat.log = flatLog v.log from rfl, PWorld.chLog_flat] at hall hin
  rw [PWorld.atServer_flat] at hall
  refine ⟨us, hnd, hall.imp ?_, fun u pdu t hm => hin u pdu t (mem_ofChannel.2 hm)⟩
  rintro u x ⟨tmo, hm⟩
  rw [← hlog] at hm ⊢
  exact asked_of_call hr (mem_ofChannel.1 hm)

/-- The hypotheses can be met, with an answered poll. -/
example : ∃ v, PWReach (wenv oneRegister 1) 0 v ∧ CalmPolling (wenv oneRegister 1) 1 v ∧ (submissions (ofChannel (atClient 1 v.log))).length ≤ 65536 ∧
    LEv.ch (.handler 0 (.ok [3, 2, 0, 42]) 0) ∈ atClient 1 v.log ∧ LEv.sess 0 (.poll 0 (.handled 0 0)) ∈ atClient 1 v.log := by
  obtain ⟨v, h1, h2⟩ := any_pwdemo (env := wenv oneRegister 1) (w := 0) (ops := ptwo) (Q := fun v => calmChk 1 [1] v.flat &&
    decide ((submissions (ofChannel (atClient 1 v.log))).length ≤ 65536 ∧ LEv.ch (.handler 0 (.ok [3, 2, 0, 42]) 0) ∈ atClient 1 v.log ∧
      LEv.sess 0 (.poll 0 (.handled 0 0)) ∈ atClient 1 v.log)) (by decide +kernel)
  rw [Bool.and_eq_true, decide_eq_true_eq] at h2
  exact ⟨v, h1, calmChk_polling h2.1, h2.2⟩

end Modbus.Props
