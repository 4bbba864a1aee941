import Verif.Props.PollWorld

/-!
C147: how often, and in which order, a server executes what the scheduled requests of a client ask for.
-/

namespace Modbus.Props

open Spec PWorld

variable {W : Type}

/-! ### Calls of the channel -/

theorem asked_of_call {env : ClientEnv} {v : Pcl} (h : LReach env v) {u : Nat} {unit : UInt8} {q : AnyReq} {tmo : Nat}
    (hm : LEv.ch (.call u unit q tmo) ∈ v.log) : AskedFor v.log u unit q := by
  obtain ⟨a, b, hl⟩ := List.append_of_mem hm
  refine ⟨a, b, tmo, hl, ?_⟩
  by_cases hp : ∃ s i id t, a.getLast? = some (.sess s (.poll i (.sent id t)))
  · left
    obtain ⟨s, i, id, t, hp⟩ := hp
    obtain ⟨a', rfl⟩ := List.getLast?_eq_some_iff.1 hp
    obtain ⟨uid, unit', q', tmo', f, b', h1, h2, h3⟩ := C111_poll_is_request env v h a' _ s i id t (by rw [hl]; simp; rfl)
    simp only [List.cons.injEq, LEv.ch.injEq, CEv.call.injEq] at h1
    obtain ⟨⟨rfl, rfl, rfl, rfl⟩, -⟩ := h1
    exact ⟨a', s, i, id, t, f, rfl, h2, h3⟩
  · right
    intro s i id t hc
    exact hp ⟨s, i, id, t, hc⟩

theorem _root_.Modbus.Spec.AskedOnlyBy.prefix {s i : Nat} {unit : UInt8} {q : AnyReq} {l m : List LEv} (h : AskedOnlyBy s i unit q (l ++ m)) : AskedOnlyBy s i unit q l :=
  fun a b u tmo he => h a (b ++ m) u tmo (by rw [he]; simp)

/-- Is this a call with this request for this unit? -/
def isAsk (unit : UInt8) (q : AnyReq) (x : Nat × UInt8 × AnyReq × Nat) : Bool := decide (x.2.1 = unit ∧ x.2.2.1 = q)

theorem submissions_ofChannel_append (a b : List LEv) : submissions (ofChannel (a ++ b)) = submissions (ofChannel a) ++ submissions (ofChannel b) := by
  rw [ofChannel_append, submissions_append]

theorem pollsSent_ofPoll_append (s i : Nat) (a b : List LEv) : pollsSent (ofPoll s i (a ++ b)) = pollsSent (ofPoll s i a) ++ pollsSent (ofPoll s i b) := by
  rw [ofPoll_append]; exact List.filterMap_append

/-- There are not more calls than polls. -/
theorem calls_le_polls {l : List LEv} {o : List (Nat × Nat × Nat × Nat)} (h : Blocks l o) {s i : Nat} {unit : UInt8} {q : AnyReq} :
    AskedOnlyBy s i unit q l → (submissions (ofChannel l)).countP (isAsk unit q) ≤ (pollsSent (ofPoll s i l)).length := by
  have more : ∀ (a b : List LEv), (submissions (ofChannel a)).countP (isAsk unit q) ≤ (pollsSent (ofPoll s i a)).length →
      submissions (ofChannel b) = [] → (submissions (ofChannel (a ++ b))).countP (isAsk unit q) ≤ (pollsSent (ofPoll s i (a ++ b))).length := by
    intro a b h1 h2
    rw [submissions_ofChannel_append, h2, List.append_nil, pollsSent_ofPoll_append, List.length_append]
    omega
  induction h with
  | nil => intro _; exact Nat.zero_le _
  | @plain l o e hb hp ih =>
    intro ha
    refine more _ _ (ih ha.prefix) ?_
    cases e with
    | ch e => cases e <;> first | rfl | cases hp
    | _ => rfl
  | @call l o u unit' q' tmo hb hf ih =>
    intro ha
    by_cases he : unit' = unit ∧ q' = q
    · obtain ⟨rfl, rfl⟩ := he
      obtain ⟨id, t, hlast⟩ := ha l [] u tmo rfl
      obtain ⟨a', rfl⟩ := List.getLast?_eq_some_iff.1 hlast
      obtain ⟨_, _, _, _, _, b', h1, -⟩ := hb.sending (a := a') (b := []) rfl
      cases h1
    · rw [submissions_ofChannel_append, List.countP_append, pollsSent_ofPoll_append, List.length_append]
      have := ih ha.prefix
      have h0 : (submissions (ofChannel [LEv.ch (.call u unit' q' tmo)])).countP (isAsk unit q) = 0 := by
        simp [submissions, ofChannel, isAsk]
        intro h1 h2
        exact he ⟨h1, h2⟩
      omega
  | @poll l o u unit' q' tmo f s' i' id t hb hf h1 h2 h3 ih =>
    intro ha
    rw [submissions_ofChannel_append, List.countP_append, pollsSent_ofPoll_append, List.length_append]
    have := ih ha.prefix
    by_cases he : unit' = unit ∧ q' = q
    · obtain ⟨rfl, rfl⟩ := he
      obtain ⟨id', t', hlast⟩ := ha (l ++ [.sess s' (.poll i' (.sent id t))]) [] u tmo (by simp)
      simp at hlast
      obtain ⟨rfl, rfl, rfl, rfl⟩ := hlast
      have e1 : (submissions (ofChannel [LEv.sess s' (.poll i' (.sent id t)), .ch (.call u unit' q' tmo)])).countP (isAsk unit' q') ≤ 1 := by
        simp [submissions, ofChannel, isAsk]
      have e2 : (pollsSent (ofPoll s' i' [LEv.sess s' (.poll i' (.sent id t)), .ch (.call u unit' q' tmo)])).length = 1 := by
        simp [pollsSent, ofPoll, effectsOf, ofSession]
      omega
    · have h0 : (submissions (ofChannel [LEv.sess s' (.poll i' (.sent id t)), .ch (.call u unit' q' tmo)])).countP (isAsk unit q) = 0 := by
        simp [submissions, ofChannel, isAsk]
        intro h1 h2
        exact he ⟨h1, h2⟩
      omega
  | handler hb hl hc hn ih =>
    intro ha
    exact more _ _ (ih ha.prefix) rfl
  | answer hb hl hn ih =>
    intro ha
    exact more _ _ (ih ha.prefix) rfl

/-- Of different requests, as many as are of one kind. -/
theorem forall₂_count {α β : Type} {R : α → β → Prop} {p : β → Bool} {us : List α} {xs : List β} (h : List.Forall₂ R us xs) :
    ∃ us' : List α, us'.Sublist us ∧ us'.length = xs.countP p ∧ ∀ u ∈ us', ∃ x, R u x ∧ p x = true := by
  induction h with
  | nil => exact ⟨[], List.Sublist.refl _, rfl, by simp⟩
  | @cons u x us xs hr _ ih =>
    obtain ⟨us', h1, h2, h3⟩ := ih
    by_cases hp : p x = true
    · refine ⟨u :: us', h1.cons_cons u, by simp [h2, hp], ?_⟩
      intro y hy
      rcases List.mem_cons.1 hy with rfl | hy
      · exact ⟨x, hr, hp⟩
      · exact h3 y hy
    · exact ⟨us', h1.cons u, by simp [h2, hp], h3⟩

/-! ### C147 -/

/-- C147, to be wished for: the server executes what a scheduled request asks for at most as often as it is polled. -/
def C147_Statement : Prop := ∀ (W : Type) (env : WorldEnv W) (w : W) (v : PWorld W), PWReach env w v → ∀ (j s i : Nat) (unit : UInt8) (q : AnyReq),
  AskedOnlyBy s i unit q (atClient j v.log) → timesExecuted env j unit q (svLog (atServer v.log)) ≤ (pollsSent (ofPoll s i (atClient j v.log))).length

/-- **C147** (part): each call of a session of the server for a message of a calm client goes back to a request of that client, a poll of a
scheduled request of a session for this unit or a one-time request, and different calls go back to different requests.
Missing from C147: the other histories (`C147_violated`). -/
theorem C147_at_most_once_partial (env : WorldEnv W) (w : W) (v : PWorld W) (h : PWReach env w v) (j : Nat) (hc : CalmPollingSending env j v) :
    ∃ us : List Nat, us.Nodup ∧ List.Forall₂ (fun u x => AskedFor (atClient j v.log) u x.2.1.unit x.2.2) us (executedFor env j (svLog (atServer v.log))) := by
  have hg := h.good
  obtain ⟨hr, hlog⟩ := hg.client j
  obtain ⟨us, hnd, hall⟩ := C102_at_most_once_partial env w v.flat hg.flat j hc.flat
  rw [show v.flat.log = flatLog v.log from rfl, atServer_flat, chLog_flat] at hall
  refine ⟨us, hnd, hall.imp ?_⟩
  rintro u x ⟨tmo, hm, -⟩
  rw [← hlog] at hm ⊢
  exact asked_of_call hr (mem_ofChannel.1 hm)

/-- **C147** (part): on one connection, the calls are made in the order of the requests. -/
theorem C147_in_order_partial (env : WorldEnv W) (w : W) (v : PWorld W) (h : PWReach env w v) (j c n : Nat) (hp : env.peer c = some (j, n))
    (hc : CalmPollingSending env j v) :
    ∃ us : List Nat, us.Pairwise (· < ·) ∧ List.Forall₂ (fun u x => AskedFor (atClient j v.log) u x.2.1.unit x.2.2) us
      ((Spec.executed (svLog (atServer v.log))).filter fun x => x.1 == c) := by
  have hg := h.good
  obtain ⟨hr, hlog⟩ := hg.client j
  obtain ⟨us, hnd, hall⟩ := C105_in_order_on_one_connection_partial env w v.flat hg.flat j c n hp hc.flat
  rw [show v.flat.log = flatLog v.log from rfl, atServer_flat, chLog_flat] at hall
  refine ⟨us, hnd, hall.imp ?_⟩
  rintro u x ⟨tmo, hm, -⟩
  rw [← hlog] at hm ⊢
  exact asked_of_call hr (mem_ofChannel.1 hm)

/-- **C147** (part): what only one scheduled request of a calm client asks for is executed for this client at most as often as it is polled. -/
theorem C147_not_more_than_polled_partial (env : WorldEnv W) (w : W) (v : PWorld W) (h : PWReach env w v) (j s i : Nat) (unit : UInt8) (q : AnyReq)
    (hc : CalmPollingSending env j v) (ha : AskedOnlyBy s i unit q (atClient j v.log)) :
    timesExecuted env j unit q (svLog (atServer v.log)) ≤ (pollsSent (ofPoll s i (atClient j v.log))).length := by
  have hg := h.good
  obtain ⟨hr, hlog⟩ := hg.client j
  obtain ⟨us, hnd, hall⟩ := C102_at_most_once_partial env w v.flat hg.flat j hc.flat
  rw [show v.flat.log = flatLog v.log from rfl, atServer_flat, chLog_flat] at hall
  obtain ⟨us', h1, h2, h3⟩ := forall₂_count (p := fun x : Nat × Mbap × AnyReq => decide (x.2.1.unit = unit ∧ x.2.2 = q)) hall
  have hsub : us' ⊆ ((submissions (ofChannel (atClient j v.log))).filter (isAsk unit q)).map (·.1) := by
    intro u hu
    obtain ⟨x, ⟨tmo, hm, -⟩, hx⟩ := h3 u hu
    simp only [decide_eq_true_eq] at hx
    rw [hx.1, hx.2] at hm
    exact List.mem_map.2 ⟨(u, unit, q, tmo), List.mem_filter.2 ⟨mem_submissions.2 hm, by simp [isAsk]⟩, rfl⟩
  have hle := ((hnd.sublist h1).subperm hsub).length_le
  rw [List.length_map, ← List.countP_eq_length_filter, h2] at hle
  refine Nat.le_trans hle ?_
  rw [← hlog] at ha ⊢
  exact calls_le_polls hr.inv.1.blocks ha

/-- **C147** (part): no calls but these: a session is called for a message, and once for a message.  (In every history, calm or not.) -/
theorem C147_one_call_for_one_message_partial (env : WorldEnv W) (w : W) (v : PWorld W) (h : PWReach env w v) :
    (Spec.executed (svLog (atServer v.log))).map (·.2.2) = sessionCalls (svLog (atServer v.log)) := by
  have := C102_one_call_for_one_message_partial env w v.flat h.good.flat
  rw [show v.flat.log = flatLog v.log from rfl, atServer_flat] at this
  exact this

/-- If event `e` asks `q` of `unit`, then the event before it is the sending of a poll of scheduled request `i` of session `s`. -/
def polledBy (s i : Nat) (unit : UInt8) (q : AnyReq) (p : Option LEv) : LEv → Bool
  | .ch (.call _ unit' q' _) => !decide (unit' = unit ∧ q' = q) || (match p with
    | some (.sess s' (.poll i' (.sent _ _))) => s' == s && i' == i
    | _ => false)
  | _ => true

/-- A decidable form of `AskedOnlyBy`. -/
def askedOnlyBy (s i : Nat) (unit : UInt8) (q : AnyReq) : Option LEv → List LEv → Bool
  | _, [] => true
  | p, e :: l => polledBy s i unit q p e && askedOnlyBy s i unit q (some e) l

theorem askedOnlyBy_spec {s i : Nat} {unit : UInt8} {q : AnyReq} : ∀ {l p : List LEv}, askedOnlyBy s i unit q p.getLast? l = true →
    ∀ a b u tmo, l = a ++ .ch (.call u unit q tmo) :: b → ∃ id t, (p ++ a).getLast? = some (.sess s (.poll i (.sent id t))) := by
  intro l
  induction l with
  | nil => intro p _ a b u tmo he; simp at he
  | cons e l ih =>
    intro p h a b u tmo he
    rw [askedOnlyBy, Bool.and_eq_true] at h
    cases a with
    | nil =>
      injection he with h1 h2
      subst h1
      have h3 := h.1
      simp only [polledBy, and_self, decide_true, Bool.not_true, Bool.false_or] at h3
      rw [List.append_nil]
      split at h3
      · rename_i s' i' id t heq
        simp only [Bool.and_eq_true, beq_iff_eq] at h3
        rw [heq, h3.1, h3.2]
        exact ⟨id, t, rfl⟩
      · cases h3
    | cons x a =>
      injection he with h1 h2
      subst h1
      obtain ⟨id, t, h4⟩ := ih (p := p ++ [e]) (by rw [List.getLast?_concat]; exact h.2) a b u tmo h2
      exact ⟨id, t, by simpa using h4⟩

theorem askedOnlyBy_iff {s i : Nat} {unit : UInt8} {q : AnyReq} {l : List LEv} (h : askedOnlyBy s i unit q none l = true) : AskedOnlyBy s i unit q l :=
  fun a b u tmo he => by simpa using askedOnlyBy_spec (p := []) h a b u tmo he

/-- The hypotheses can be met: client 0 polls "write 42 into register 3" once, and this is executed once. -/
example : ∃ v, PWReach (wenv oneRegister 1) 0 v ∧ CalmPolling (wenv oneRegister 1) 0 v ∧
    AskedOnlyBy 0 0 1 ⟨.writeSingleRegister, ⟨3, 42⟩⟩ (atClient 0 v.log) ∧
    timesExecuted (wenv oneRegister 1) 0 1 ⟨.writeSingleRegister, ⟨3, 42⟩⟩ (svLog (atServer v.log)) = 1 ∧
    sessionCalls (svLog (atServer v.log)) = [⟨.writeSingleRegister, ⟨3, 42⟩⟩, ⟨.readHoldingRegisters, ⟨3, 1⟩⟩] := by
  obtain ⟨v, h1, h2⟩ := any_pwdemo (env := wenv oneRegister 1) (w := 0) (ops := ptwo) (Q := fun v => calmChk 0 [0] v.flat &&
    (askedOnlyBy 0 0 1 ⟨.writeSingleRegister, ⟨3, 42⟩⟩ none (atClient 0 v.log) &&
     decide (timesExecuted (wenv oneRegister 1) 0 1 ⟨.writeSingleRegister, ⟨3, 42⟩⟩ (svLog (atServer v.log)) = 1 ∧
      sessionCalls (svLog (atServer v.log)) = [⟨.writeSingleRegister, ⟨3, 42⟩⟩, ⟨.readHoldingRegisters, ⟨3, 1⟩⟩]))) (by decide +kernel)
  simp only [Bool.and_eq_true, decide_eq_true_eq] at h2
  exact ⟨v, h1, calmChk_polling h2.1, askedOnlyBy_iff h2.2.1, h2.2.2⟩

/-- Of these two, the first came from connection 0 of the server, which is connection 1 of client 0. -/
example : (wenv oneRegister 1).peer 0 = some (0, 1) := rfl

/-- As `executedTwice` (C102), with three scheduled requests. -/
def polledTwice : List PWorld.Op := (vconnected.map World.Op.server).map asPollingWorld ++ [.client 0 (.up (.createSession 1))] ++
  ppoll 0 ⟨.writeSingleRegister, ⟨3, 41⟩⟩ ++ (kcon ++ [.complete 0 .error, .complete 0 .error, .run 0, .run 0, .run 0] : List Stk.Op).map (fun op => .client 0 (asPolling op)) ++
  ppoll 0 ⟨.writeSingleRegister, ⟨3, 42⟩⟩ ++ [.client 0 (.run 0)] ++ ppoll 0 kreq ++
  (kexp 1 ++ [.complete 0 .ok, .run 0, .complete 0 .ok, .complete 0 .ok, .run 0, .run 0, .complete 0 .ok, .run 0, .complete 0 (.sent 12), .complete 1 (.sent 12)] : List Stk.Op).map
    (fun op => .client 0 (asPolling op)) ++
  ([.arrive 0 (kframe 2), .server vrun, .server (.complete 1 (.sent 9)), .server vrun, .arrive 1 (kframe 2), .server vrun] : List World.Op).map asPollingWorld

/-- The third scheduled request ("write coil 5") was polled once; the session was asked twice. -/
theorem C147_executed_twice : ∃ v, PWReach (wenv oneRegister 3) 0 v ∧
    (askedOnlyBy 0 2 1 kreq none (atClient 0 v.log) && decide (timesExecuted (wenv oneRegister 3) 0 1 kreq (svLog (atServer v.log)) = 2 ∧
      pollsSent (ofPoll 0 2 (atClient 0 v.log)) = [0])) = true :=
  any_pwdemo (ops := polledTwice) (by decide +kernel)

/-- C147 is false. -/
theorem C147_violated : ¬C147_Statement := by
  intro hall
  obtain ⟨v, hr, hq⟩ := C147_executed_twice
  simp only [Bool.and_eq_true, decide_eq_true_eq] at hq
  have := hall UInt16 (wenv oneRegister 3) 0 v hr 0 0 2 1 kreq (askedOnlyBy_iff hq.1)
  rw [hq.2.1, hq.2.2] at this
  simp at this

end Modbus.Props
