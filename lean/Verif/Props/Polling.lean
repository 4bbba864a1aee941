import Verif.Lemmas.PollingStep

/-!
Properties C111-C115 of the client with scheduled requests: channel, sessions and scheduled requests together.

`LReach env v`: the client can be in state `v` after some history of API calls on the channel, on its sessions and on their scheduled
requests, of tasks and timers run by the executor, and of events of the connection.  Properties are stated on the log (`v.log`).
-/

namespace Modbus.Props

open Spec

/-- States reachable by any history. -/
def LReach (env : ClientEnv) (v : Pcl) : Prop := ∃ ops : List Pcl.Op, (Pcl.init env).run env ops = .ret v

theorem Pcl.run_good {env : ClientEnv} (ops : List Pcl.Op) : ∀ {v : Pcl}, PInv env [] v → Numbered v →
    ∃ w new, v.run env ops = .ret w ∧ PInv env [] w ∧ Numbered w ∧ Follows v w new := by
  induction ops with
  | nil => intro v h hn; exact ⟨v, [], rfl, h, hn, .log_only (by simp) rfl rfl (by simp) (by simp)⟩
  | cons op ops ih =>
    intro v h hn
    obtain ⟨w, new, h1, h2⟩ := h.step hn op
    obtain ⟨w', new', h3, h4, h5, h6⟩ := ih h2.inv h2.num
    exact ⟨w', new ++ new', by simp only [Pcl.run, h1, CM.ret_bind, h3], h4, h5, h2.follows.trans h6⟩

theorem numbered_init (env : ClientEnv) : Numbered (Pcl.init env) :=
  ⟨rfl, fun s hs => by simp [Pcl.init, Cli.init] at hs, fun _ => rfl⟩

theorem LReach.inv {env : ClientEnv} {v : Pcl} (h : LReach env v) : PInv env [] v ∧ Numbered v := by
  obtain ⟨ops, h⟩ := h
  obtain ⟨w, new, h1, h2, h3, -⟩ := Pcl.run_good ops (PInv.init env) (numbered_init env)
  rw [h] at h1
  injection h1 with h1; subst h1
  exact ⟨h2, h3⟩

theorem pcl_run_append {env : ClientEnv} (ops : List Pcl.Op) : ∀ (ops' : List Pcl.Op) (v w : Pcl), v.run env ops = .ret w →
    v.run env (ops ++ ops') = w.run env ops' := by
  induction ops with
  | nil => intro ops' v w h; injection h with h; subst h; rfl
  | cons op ops ih =>
    intro ops' v w h
    simp only [Pcl.run, List.cons_append] at h ⊢
    cases h1 : v.step env op with
    | ub => rw [h1] at h; cases h
    | ret v1 =>
      rw [h1, CM.ret_bind] at h
      rw [CM.ret_bind]
      exact ih ops' v1 w h

theorem LReach.step {env : ClientEnv} {v w : Pcl} (h : LReach env v) {op : Pcl.Op} (hs : v.step env op = .ret w) : LReach env w := by
  obtain ⟨ops, h⟩ := h
  exact ⟨ops ++ [op], by rw [pcl_run_append ops [op] _ v h]; simp [Pcl.run, hs]⟩

theorem LReach.stepped {env : ClientEnv} {v w : Pcl} (h : LReach env v) {op : Pcl.Op} (hs : v.step env op = .ret w) :
    ∃ new, Stepped env v w op new := by
  obtain ⟨w', new, h1, h2⟩ := h.inv.1.step h.inv.2 op
  rw [hs] at h1
  injection h1 with h1; subst h1
  exact ⟨new, h2⟩

/-- No history leads to undefined behaviour. -/
theorem polling_total (env : ClientEnv) (ops : List Pcl.Op) : ∃ v, (Pcl.init env).run env ops = .ret v := by
  obtain ⟨w, new, h1, -⟩ := Pcl.run_good ops (PInv.init env) (numbered_init env)
  exact ⟨w, h1⟩

theorem LReach.chan {env : ClientEnv} {v : Pcl} (h : LReach env v) : CReach env v.cli ∧ v.cli.log = ofChannel v.log :=
  ⟨h.inv.1.reach, by rw [h.inv.1.chan, List.append_nil]⟩

/-! A client with two sessions on units 1 and 2, each with one scheduled request; `pdemo` has the first one's poll answered (by a
timeout), the second one's still outstanding, a third (invalid) request scheduled on the second session. -/

def pdemoOps : List Pcl.Op :=
  [.createSession 1, .createSession 2, .schedule 0 reqA 10 100, .api 0 (.register 0), .schedule 1 reqA 20 50, .api 1 (.register 0),
   .sess 0 .runTask, .sess 1 .runTask, .chan .runTask, .chan .runTask, .tick 10, .chan (.expire 0), .chan (.runTimer 0),
   .schedule 1 reqBad 20 50, .sess 1 .runTask, .sess 1 .runTask, .chan .runTask]

def pdemoState (env : ClientEnv) (ops : List Pcl.Op) : Pcl :=
  match (Pcl.init env).run env ops with
  | .ret v => v
  | .ub => Pcl.init env

theorem pdemo_reach (env : ClientEnv) (ops : List Pcl.Op) : LReach env (pdemoState env ops) := by
  obtain ⟨v, hv⟩ := polling_total env ops
  refine ⟨ops, ?_⟩
  simp only [pdemoState, hv]

def pdemo : Pcl := pdemoState demoEnv pdemoOps

/-! ### C111 -/

/-- C111: every poll is a request given to the channel at once, for the unit of the session it was scheduled on, with the request and
the timeout it was scheduled with. -/
theorem C111_poll_is_request (env : ClientEnv) (v : Pcl) (h : LReach env v) (a b : List LEv) (s i id t : Nat)
    (hl : v.log = a ++ .sess s (.poll i (.sent id t)) :: b) :
    ∃ uid unit q tmo f b', b = .ch (.call uid unit q tmo) :: b' ∧ LEv.opened s unit ∈ a ∧ LEv.scheduled s i q tmo f ∈ a := by
  obtain ⟨uid, unit, q, tmo, f, b', h1, -, h2, h3⟩ := h.inv.1.blocks.sending hl
  exact ⟨uid, unit, q, tmo, f, b', h1, h2, h3⟩

/-- C111: the handler of a scheduled request is called when, and only when, the channel reports the result of one of its own polls: the
event right before the call is that report, for a request that went to the channel as the poll with this number. -/
theorem C111_own_results_only (env : ClientEnv) (v : Pcl) (h : LReach env v) (a b : List LEv) (s i id t : Nat)
    (hl : v.log = a ++ .sess s (.poll i (.handled id t)) :: b) :
    ∃ a' uid x, a = a' ++ [.ch (.handler uid x t)] ∧ ∃ a1 t0 unit q tmo b1,
      a' = a1 ++ .sess s (.poll i (.sent id t0)) :: .ch (.call uid unit q tmo) :: b1 := by
  obtain ⟨a', uid, x, o', h1, h2, h3, h4⟩ := h.inv.1.blocks.handled hl
  obtain ⟨a1, t0, unit, q, tmo, f, b1, h5, -, -⟩ := h2.owned (Poll.lookup_mem _ _ _ h4)
  exact ⟨a', uid, x, h1, a1, t0, unit, q, tmo, b1, h5⟩

/-- Three polls; two results. -/
example : (∃ b, pdemo.log = pdemo.log.take 9 ++ .sess 0 (.poll 0 (.sent 0 0)) :: b) ∧ (∃ b, pdemo.log = pdemo.log.take 12 ++ .sess 1 (.poll 0 (.sent 0 0)) :: b) ∧
    pdemo.log = pdemo.log.take 16 ++ .sess 0 (.poll 0 (.handled 0 10)) :: pdemo.log.drop 17 ∧
    pdemo.log = pdemo.log.take 23 ++ .sess 1 (.poll 1 (.handled 0 10)) :: pdemo.log.drop 24 :=
  ⟨⟨pdemo.log.drop 10, by decide +kernel⟩, ⟨pdemo.log.drop 13, by decide +kernel⟩, by decide +kernel, by decide +kernel⟩

example := C111_own_results_only demoEnv pdemo (pdemo_reach _ _) (pdemo.log.take 16) (pdemo.log.drop 17) 0 0 0 10 (by decide +kernel)

/-- C111: conversely, whenever the channel reports the result of a poll, the handler of the scheduled request that sent it is called. -/
theorem C111_all_results (env : ClientEnv) (v : Pcl) (h : LReach env v) (a b a' b' : List LEv) (s i id t0 uid t tmo : Nat) (unit : UInt8)
    (q : AnyReq) (x : Expected (List UInt8)) (hl : v.log = a ++ .sess s (.poll i (.sent id t0)) :: .ch (.call uid unit q tmo) :: b)
    (hr : v.log = a' ++ .ch (.handler uid x t) :: b') : ∃ b'', b' = .sess s (.poll i (.handled id t)) :: b'' := by
  obtain ⟨uid', unit', q', tmo', f, b1, h1, h2, -⟩ := h.inv.1.blocks.sending hl
  simp only [List.cons.injEq, LEv.ch.injEq, CEv.call.injEq] at h1
  obtain ⟨⟨rfl, -⟩, -⟩ := h1
  exact h.inv.1.blocks.handling h2 hr

example := C111_all_results demoEnv pdemo (pdemo_reach _ _) (pdemo.log.take 9) (pdemo.log.drop 11) (pdemo.log.take 15) (pdemo.log.drop 16) 0 0 0 0 0 10 10 1
  reqA (.error .timeout) (by decide +kernel) (by decide +kernel)

/-- C111: identities are unambiguous.  Session numbers and the numbers of a session's scheduled requests are given once, each poll of a
scheduled request has its own number, and the handler is called at most once for each. -/
theorem C111_identities (env : ClientEnv) (v : Pcl) (h : LReach env v) : (openings v.log).Nodup ∧ ∀ s, (schedulings s v.log).Nodup ∧
    ∀ i, (pollsSent (ofPoll s i v.log)).Nodup ∧ (pollsHandled (ofPoll s i v.log)).Nodup := by
  have hi := h.inv.1
  refine ⟨by rw [hi.opened]; exact List.nodup_range, fun s => ?_⟩
  by_cases hs : s < v.sess.length
  · have hp : v.sess[s]? = some v.sess[s] := List.getElem?_eq_getElem hs
    have hok := hi.sessions s _ hp
    refine ⟨by rw [hok.known]; exact List.nodup_range, fun i => ?_⟩
    unfold ofPoll
    rw [hok.log]
    by_cases hl : i < v.sess[s].sess.polls.length
    · have hq : v.sess[s].sess.polls[i]? = some v.sess[s].sess.polls[i] := List.getElem?_eq_getElem hl
      rw [hok.lives.good.effects i _ hq]
      obtain ⟨f, pops, hv⟩ := hok.lives.poll hq
      have hc := (Poll.core_run f pops).1
      rw [← hv] at hc
      refine ⟨by rw [show pollsSent v.sess[s].sess.polls[i].log = _ from hc.sentIds]; exact List.nodup_range, ?_⟩
      rw [List.nodup_iff_count_le_one]
      intro id
      have := hc.once id
      simp only [Poll.withTasks] at this
      rcases Nat.lt_or_ge id v.sess[s].sess.polls[i].nextId with h1 | h1
      · have := this.1 h1; omega
      · have := this.2 h1; omega
    · rw [hok.lives.good.fresh i (by omega)]; exact ⟨List.nodup_nil, List.nodup_nil⟩
  · rw [(hi.fresh s (by omega)).2]
    refine ⟨List.nodup_nil, fun i => ?_⟩
    unfold ofPoll
    rw [(hi.fresh s (by omega)).1]
    exact ⟨List.nodup_nil, List.nodup_nil⟩

example : openings pdemo.log = [0, 1] ∧ schedulings 1 pdemo.log = [0, 1] ∧ pollsSent (ofPoll 1 1 pdemo.log) = [0] ∧ pollsHandled (ofPoll 1 0 pdemo.log) = [] := by
  decide +kernel

end Modbus.Props
