import Verif.Spec.ExampleClient
import Verif.Props.SessionApi
import Verif.Props.PollingLive

/-! What always holds in the example client. -/

namespace Modbus

open Spec ExClient

/-- The calls made so far, as keys. -/
def callsFor (pl : Place) (ks : List Char) : List (Option Char) :=
  (if pl = .schedule ∨ pl = .register then [] else [some 'p']) ++ (ks.filter fun c => c = 's' ∨ c = 'f').map some

/-- What always holds. -/
structure ExInv (env : ClientEnv) (v : ExClient) : Prop where
  reach : Props.IReach env v.clt
  made : .created 0 1 3000 ∈ v.clt.log
  only : ∀ s u d, .created s u d ∈ v.clt.log → s = 0 ∧ u = 1 ∧ d = 3000
  asked : sendCalls v.clt.log = v.keys.filterMap keyRequest
  early : v.place = .schedule ∨ v.place = .register → v.keys = []
  calls : (otherCalls v.clt.log).map callKey = callsFor v.place v.keys
  polled : requestsScheduled v.clt.log = if v.place = .schedule then [] else [(0, 0, pollReq, none, 2000)]

theorem sendCalls_append (a b : List IfEv) : sendCalls (a ++ b) = sendCalls a ++ sendCalls b := by simp [sendCalls]

theorem requestsScheduled_append (a b : List IfEv) : requestsScheduled (a ++ b) = requestsScheduled a ++ requestsScheduled b := by simp [requestsScheduled]

theorem otherCalls_append (a b : List IfEv) : otherCalls (a ++ b) = otherCalls a ++ otherCalls b := by simp [otherCalls]

theorem sendCalls_inner (l : List LEv) : sendCalls (l.map .inner) = [] := by simp [sendCalls]

theorem requestsScheduled_inner (l : List LEv) : requestsScheduled (l.map .inner) = [] := by simp [requestsScheduled]

theorem Props.IReach.next {env : ClientEnv} {v w : Clt} (h : Props.IReach env v) {op : Clt.Op} (hs : v.step env op = .ret w) : Props.IReach env w := by
  obtain ⟨ops, h⟩ := h
  refine ⟨ops ++ [op], ?_⟩
  have : ∀ (ops : List Clt.Op) (x : Clt), x.run env ops = .ret v → x.run env (ops ++ [op]) = .ret w := by
    intro ops
    induction ops with
    | nil => intro x hx; injection hx with hx; subst hx; simp [Clt.run, hs]
    | cons o ops ih =>
      intro x hx
      obtain ⟨y, h1, h2⟩ := CM.bind_eq_ret.1 hx
      simp only [List.cons_append, Clt.run, h1, CM.ret_bind]
      exact ih y h2
  exact this ops _ h

/-- Nothing but the user makes calls. -/
theorem otherCalls_news {env : ClientEnv} {v x : Pcl} (h : Props.LReach env v) {pop : Pcl.Op} (hs : v.step env pop = .ret x) (hn : ∀ s o, pop ≠ .api s o) :
    otherCalls ((x.log.drop v.log.length).map .inner) = [] := by
  obtain ⟨new, hst⟩ := h.stepped hs
  have hnew : x.log.drop v.log.length = new := by rw [hst.follows.log, List.drop_left]
  rw [hnew, List.eq_nil_iff_forall_not_mem]
  rintro ⟨s, o⟩ hm
  simp only [otherCalls, List.mem_filterMap] at hm
  obtain ⟨e, h8, h9⟩ := hm
  obtain ⟨e, h10, rfl⟩ := List.mem_map.1 h8
  cases e <;> simp at h9
  obtain ⟨rfl, rfl⟩ := h9
  exact hn _ _ (hst.calls _ _ h10).1

/-- What happens in the background. -/
theorem Clt.step_background {env : ClientEnv} {v : Clt} (h : Props.IReach env v) {op : Clt.Op} (ho : (∃ s o, op = .sess s o) ∨ (∃ n, op = .tick n) ∨ ∃ o, op = .chan o) :
    ∃ (w : Clt) (l : List LEv), v.step env op = .ret w ∧ w.log = v.log ++ l.map .inner ∧ otherCalls (l.map .inner) = [] := by
  obtain ⟨pop, h1, h2, h3, h4, h5⟩ : ∃ pop, v.step env op = v.inside env pop ∧ (∀ u, pop ≠ .createSession u) ∧ (∀ s q t, pop ≠ .send s q t) ∧
      (∀ s q t f, pop ≠ .schedule s q t f) ∧ ∀ s o, pop ≠ .api s o := by
    rcases ho with ⟨s, o, rfl⟩ | ⟨n, rfl⟩ | ⟨o, rfl⟩ <;> exact ⟨_, rfl, by simp, by simp, by simp, by simp⟩
  obtain ⟨w, hw, -⟩ := h.inv.inside_step h2 h3 h4
  refine ⟨w, w.pcl.log.drop v.pcl.log.length, h1.trans hw, ?_⟩
  obtain ⟨x, h6, h7⟩ := CM.bind_eq_ret.1 hw
  injection h7 with h7; subst h7
  exact ⟨rfl, otherCalls_news h.inv.reach h6 h5⟩

/-- `schedule_request`'s second half, `start`, `stop` and `set_frequency` do nothing but post. -/
theorem Clt.step_call {env : ClientEnv} {v : Clt} {s : Nat} {p : PSess} (hp : v.pcl.sess[s]? = some p) {o : Sess.Op} (ho : (∃ i, o = .register i) ∨ ∃ i t, o = .call i t) :
    ∃ w : Clt, v.step env (.api s o) = .ret w ∧ w.log = v.log ++ [.inner (.api s o)] := by
  have hu : Pcl.userCall o = true := by rcases ho with ⟨i, rfl⟩ | ⟨i, t, rfl⟩ <;> rfl
  have hl : s < v.pcl.sess.length := (List.getElem?_eq_some_iff.1 hp).1
  have hq : (p.sess.step o).log = p.sess.log := by
    rcases ho with ⟨i, rfl⟩ | ⟨i, t, rfl⟩ <;> simp only [Sess.step] <;> split <;> rfl
  have hs : v.pcl.step env (.api s o) = .ret { v.pcl with sess := v.pcl.sess.set s { p with sess := p.sess.step o }, log := v.pcl.log ++ [.api s o] } := by
    simp only [Pcl.step, hu, hl, and_self, if_true, Pcl.sessStep, hp, hq, List.drop_length, Pcl.fromSess]
  obtain ⟨x, hx, hxl⟩ : ∃ x : Pcl, v.pcl.step env (.api s o) = .ret x ∧ x.log = v.pcl.log ++ [.api s o] := ⟨_, hs, rfl⟩
  refine ⟨{ v with pcl := x, log := v.log ++ v.news x }, by simp only [Clt.step, Clt.inside, hx, CM.ret_bind, CM.pure_eq], ?_⟩
  simp [Clt.news, hxl]

/-- A step that makes no request. -/
theorem ExInv.quiet {env : ClientEnv} {v : ExClient} (h : ExInv env v) {op : Clt.Op} {c : Clt} {l : List LEv} (h1 : v.clt.step env op = .ret c)
    (h2 : c.log = v.clt.log ++ l.map .inner) (pl : Place) (hp : pl = .schedule ↔ v.place = .schedule) (ks : List Char)
    (hk : ks.filterMap keyRequest = v.keys.filterMap keyRequest) (he : pl = .schedule ∨ pl = .register → ks = [])
    (hc : callsFor v.place v.keys ++ (otherCalls (l.map .inner)).map callKey = callsFor pl ks) :
    ({ clt := v.clt, place := pl, keys := ks } : ExClient).call env op = .ret ⟨c, pl, ks⟩ ∧ ExInv env ⟨c, pl, ks⟩ := by
  refine ⟨by simp only [ExClient.call, h1, CM.ret_bind, CM.pure_eq], ⟨h.reach.next h1, ?_, ?_, ?_, he, ?_, ?_⟩⟩
  · show _ ∈ c.log
    rw [h2]; exact List.mem_append_left _ h.made
  · intro s u d hm
    replace hm : _ ∈ c.log := hm
    rw [h2, List.mem_append] at hm
    exact hm.elim (h.only s u d) fun hm => by simp at hm
  · show sendCalls c.log = _
    rw [h2, sendCalls_append, sendCalls_inner, List.append_nil, h.asked, ← hk]
  · show (otherCalls c.log).map callKey = _
    rw [h2, otherCalls_append, List.map_append, h.calls, hc]
  · show requestsScheduled c.log = _
    rw [h2, requestsScheduled_append, requestsScheduled_inner, List.append_nil, h.polled]
    simp only [hp]

theorem ExInv.init (env : ClientEnv) : ∃ v, ExClient.init env = .ret v ∧ ExInv env v ∧ v.place = .schedule ∧ v.keys = [] := by
  obtain ⟨c, h1, h2, h3, -⟩ := (CInv.init env).create_step 1 3000
  have h0 : (Clt.init env).step env (.createSession 1 3000) = .ret c := h1
  refine ⟨⟨c, .schedule, []⟩, by simp only [ExClient.init, h0, CM.ret_bind, CM.pure_eq], ⟨⟨[.createSession 1 3000], by simp only [Clt.run, h0, CM.ret_bind]⟩, h3 rfl, ?_, ?_, fun _ => rfl, ?_, ?_⟩,
    rfl, rfl⟩ <;>
  (simp only [Clt.createSession] at h1
   obtain ⟨w, h4, h5⟩ := CM.bind_eq_ret.1 h1
   have hs : (Clt.init env).pcl.cli.isShutdown = false := rfl
   rw [if_neg (by rw [hs]; simp)] at h5
   injection h5 with h5
   have hlog : ∃ l : List LEv, c.log = l.map .inner ++ [.created 0 1 3000] ∧ otherCalls (l.map .inner) = [] :=
     ⟨w.log.drop (Clt.init env).pcl.log.length, by rw [← h5]; rfl, otherCalls_news (CInv.init env).reach h4 (by simp)⟩
   obtain ⟨l, hlog, hcalls⟩ := hlog)
  · intro s u d hm
    replace hm : _ ∈ c.log := hm
    rw [hlog, List.mem_append] at hm
    simpa using hm
  · show sendCalls c.log = _
    rw [hlog, sendCalls_append, sendCalls_inner]; rfl
  · show (otherCalls c.log).map callKey = _
    rw [hlog, otherCalls_append, hcalls]; rfl
  · show requestsScheduled c.log = _
    rw [hlog, requestsScheduled_append, requestsScheduled_inner]; rfl

theorem ExInv.exists_poll {env : ClientEnv} {v : ExClient} (h : ExInv env v) (hl : v.place = .loop) : ∃ p, v.scheduled = some p := by
  have : requestsScheduled v.clt.log = [(0, 0, pollReq, none, 2000)] := by rw [h.polled, hl]; rfl
  have hm : IfEv.polled 0 0 pollReq none 2000 ∈ v.clt.log := by
    have : (0, 0, pollReq, none, 2000) ∈ requestsScheduled v.clt.log := by rw [this]; simp
    simp only [requestsScheduled, List.mem_filterMap] at this
    obtain ⟨e, h1, h2⟩ := this
    cases e <;> simp at h2
    obtain ⟨rfl, rfl, rfl, rfl, rfl⟩ := h2
    exact h1
  obtain ⟨a, b, hab⟩ := List.append_of_mem hm
  obtain ⟨unit, d, b', -, hb⟩ := h.reach.inv.formed.polled _ _ _ _ _ _ _ hab
  have : LEv.scheduled 0 0 pollReq (Option.getD none d) 2000 ∈ v.clt.pcl.log := by
    rw [← h.reach.inv.inside, mem_insideOf, hab, hb]; simp
  exact Props.LReach.scheduled h.reach.inv.reach this

theorem ExInv.obey {env : ClientEnv} {v : ExClient} (h : ExInv env v) (hl : v.place = .loop) (c : Char) :
    ∃ w, ({ v with keys := v.keys ++ [c] } : ExClient).obey env c = .ret w ∧ ExInv env w ∧ w.keys = v.keys ++ [c] ∧ (w.place = .loop ∨ w.place = .over) := by
  have hex := h.exists_poll hl
  have hpre : ∀ pl, pl = .loop ∨ pl = .over → callsFor pl (v.keys ++ [c]) = callsFor v.place v.keys ++ if c = 's' ∨ c = 'f' then [some c] else [] := by
    intro pl hpl
    have : ∀ ks, callsFor pl ks = callsFor v.place ks := by
      intro ks; rw [hl]; rcases hpl with rfl | rfl <;> simp [callsFor]
    rw [this]
    by_cases hc : c = 's' ∨ c = 'f' <;> simp [callsFor, hc]
  have hearly : ∀ pl : Place, pl = .loop ∨ pl = .over → pl = .schedule ∨ pl = .register → v.keys ++ [c] = [] := by
    rintro pl (rfl | rfl) (h | h) <;> cases h
  have api : ∀ o, (∃ i t, o = Sess.Op.call i t) → callKey (0, o) = some c → (c = 's' ∨ c = 'f') →
      ∃ w, ({ v with keys := v.keys ++ [c] } : ExClient).call env (.api 0 o) = .ret w ∧ ExInv env w ∧ w.keys = v.keys ++ [c] ∧ (w.place = .loop ∨ w.place = .over) := by
    intro o ho hck hc
    obtain ⟨-, p, hp, -⟩ := (h.reach.inv.made 0 1 3000).1 h.made
    obtain ⟨x, h1, h2⟩ := Clt.step_call (env := env) hp (.inr ho)
    have hk : keyRequest c = none := by rcases hc with rfl | rfl <;> rfl
    obtain ⟨h3, h4⟩ := h.quiet (l := [.api 0 o]) h1 h2 v.place Iff.rfl (v.keys ++ [c]) (by simp [hk]) (hearly _ (.inl hl))
      (by rw [hpre _ (.inl hl), if_pos hc]; simp [otherCalls, hck])
    exact ⟨_, h3, h4, rfl, .inl hl⟩
  have loud : ∀ q g, keyRequest c = some (0, q, g) → ∀ op, v.clt.step env op = v.clt.send env 0 q g (g.getD 3000) →
      ∃ w, ({ v with keys := v.keys ++ [c] } : ExClient).call env op = .ret w ∧ ExInv env w ∧ w.keys = v.keys ++ [c] ∧ (w.place = .loop ∨ w.place = .over) := by
    intro q g hk op ho
    obtain ⟨x, h1, h2, h3⟩ := h.reach.inv.send_step h.made q g
    rw [← ho] at h1
    refine ⟨⟨x, v.place, v.keys ++ [c]⟩, by simp only [ExClient.call, h1, CM.ret_bind, CM.pure_eq], ⟨h.reach.next h1, ?_, ?_, ?_, hearly _ (.inl hl), ?_, ?_⟩, rfl, Or.inl hl⟩
    · show _ ∈ x.log
      rw [h3]; exact List.mem_append_left _ h.made
    · intro s u d hm
      replace hm : _ ∈ x.log := hm
      rw [h3, List.mem_append] at hm
      exact hm.elim (h.only s u d) fun hm => by simp at hm
    · show sendCalls x.log = _
      rw [h3, sendCalls_append, h.asked, List.filterMap_append]
      simp [sendCalls, hk]
    · show (otherCalls x.log).map callKey = callsFor v.place (v.keys ++ [c])
      rw [h3, otherCalls_append, List.map_append, h.calls, hpre _ (.inl hl), if_neg (by rintro (rfl | rfl) <;> cases hk)]
      simp [otherCalls]
    · show requestsScheduled x.log = _
      rw [h3, requestsScheduled_append, h.polled]
      simp [requestsScheduled]
  obtain ⟨p, hp⟩ := hex
  have hp' : ({ v with keys := v.keys ++ [c] } : ExClient).scheduled = some p := hp
  simp only [ExClient.obey]
  by_cases e1 : c = 'r'
  · subst e1
    rw [if_pos rfl]
    exact loud readReq (some 3000) rfl _ rfl
  · rw [if_neg e1]
    by_cases e2 : c = 'w'
    · subst e2
      rw [if_pos rfl]
      refine loud writeReq none rfl _ ?_
      simp only [Clt.step, Clt.sendDefault, ((h.reach.inv.made _ _ _).1 h.made).1]
      rfl
    · rw [if_neg e2]
      have hk : keyRequest c = none := by simp [keyRequest, e1, e2]
      by_cases e3 : c = 's'
      · rw [if_pos e3, hp']
        exact api _ ⟨_, _, rfl⟩ (by rw [e3]; by_cases hr : p.running = true <;> simp [hr, callKey]) (.inl e3)
      · rw [if_neg e3]
        by_cases e4 : c = 'f'
        · rw [if_pos e4, hp']
          exact api _ ⟨_, _, rfl⟩ (by rw [e4]; by_cases hr : p.freq = 2000 <;> simp [hr, callKey]) (.inr e4)
        · rw [if_neg e4]
          by_cases e5 : c = 'q'
          · rw [if_pos e5]
            obtain ⟨x, l, h1, h2, h3⟩ := Clt.step_background h.reach (op := .chan .shutdown) (.inr (.inr ⟨_, rfl⟩))
            obtain ⟨h4, h5⟩ := h.quiet h1 h2 .over (by rw [hl]; simp) (v.keys ++ [c]) (by simp [hk]) (hearly _ (.inr rfl))
              (by rw [hpre _ (.inr rfl), if_neg (by simp [e3, e4]), h3]; simp)
            exact ⟨_, h4, h5, rfl, .inr rfl⟩
          · rw [if_neg e5]
            exact ⟨_, rfl, ⟨h.reach, h.made, h.only, by simp [h.asked, hk], hearly _ (.inl hl), by rw [hpre _ (.inl hl), if_neg (by simp [e3, e4]), h.calls]; simp, h.polled⟩,
              rfl, Or.inl hl⟩

theorem ExInv.step {env : ClientEnv} {v : ExClient} (h : ExInv env v) (op : ExClient.Op) : ∃ w, v.step env op = .ret w ∧ ExInv env w := by
  cases op with
  | main =>
    cases hp : v.place with
    | schedule =>
      simp only [ExClient.step, hp]
      obtain ⟨x, i, h1, h2, h3⟩ := h.reach.inv.schedule_step h.made pollReq none 2000
      have h1' : v.clt.step env (.schedule 0 pollReq 2000) = .ret x := by
        simp only [Clt.step, Clt.scheduleDefault, ((h.reach.inv.made _ _ _).1 h.made).1]; exact h1
      have hi : i = 0 := by
        have hr : Props.IReach env x := h.reach.next h1'
        have hs : schedulings 0 x.pcl.log = schedulings 0 v.clt.pcl.log ++ [i] := by
          rw [← hr.inv.inside, ← h.reach.inv.inside, h3, insideOf_append]
          simp [schedulings, insideOf]
        have hn : schedulings 0 v.clt.pcl.log = [] := by
          rw [List.eq_nil_iff_forall_not_mem]
          intro j hj
          simp only [schedulings, List.mem_filterMap] at hj
          obtain ⟨e, h4, h5⟩ := hj
          rw [← h.reach.inv.inside, mem_insideOf] at h4
          obtain ⟨a, b, hab⟩ := List.append_of_mem h4
          cases e <;> simp at h5
          obtain ⟨a', g, unit, d, h6, -⟩ := h.reach.inv.formed.sched _ _ _ _ _ _ _ hab
          have hpn := h.polled
          rw [hp, if_pos rfl, hab, h6, requestsScheduled_append, requestsScheduled_append] at hpn
          simp [requestsScheduled] at hpn
        rw [hn] at hs
        have hl := hr.inv.reach.inv.1
        obtain ⟨-, p, hp', -⟩ := (hr.inv.made 0 1 3000).1 (by rw [h3]; exact List.mem_append_left _ h.made)
        have hk := (hl.sessions 0 p hp').known
        rw [hs] at hk
        have : (List.range p.reqs.length).length = 1 := by rw [← hk]; rfl
        rw [List.length_range] at this
        rw [this] at hk
        simpa using hk
      subst hi
      refine ⟨⟨x, .register, v.keys⟩, by simp only [ExClient.call, h1', CM.ret_bind, CM.pure_eq], ⟨h.reach.next h1', ?_, ?_, ?_, fun _ => h.early (.inl hp), ?_, ?_⟩⟩
      · show _ ∈ x.log
        rw [h3]; exact List.mem_append_left _ h.made
      · intro s u d hm
        replace hm : _ ∈ x.log := hm
        rw [h3, List.mem_append] at hm
        exact hm.elim (h.only s u d) fun hm => by simp at hm
      · show sendCalls x.log = _
        rw [h3, sendCalls_append, h.asked]; simp [sendCalls]
      · show (otherCalls x.log).map callKey = callsFor .register v.keys
        rw [h3, otherCalls_append, List.map_append, h.calls, hp, h.early (.inl hp)]; rfl
      · show requestsScheduled x.log = _
        rw [h3, requestsScheduled_append, h.polled, hp]; simp [requestsScheduled]
    | register =>
      simp only [ExClient.step, hp]
      obtain ⟨-, p, hp', -⟩ := (h.reach.inv.made 0 1 3000).1 h.made
      obtain ⟨x, h1, h2⟩ := Clt.step_call (env := env) hp' (.inl ⟨0, rfl⟩)
      obtain ⟨h3, h4⟩ := h.quiet (l := [.api 0 (.register 0)]) h1 h2 .loop (by rw [hp]; simp) v.keys rfl (by simp) (by rw [hp, h.early (.inr hp)]; rfl)
      exact ⟨_, h3, h4⟩
    | loop => exact ⟨v, by simp only [ExClient.step, hp], h⟩
    | over => exact ⟨v, by simp only [ExClient.step, hp], h⟩
  | key c =>
    by_cases hl : v.place = .loop
    · obtain ⟨w, h1, h2, -⟩ := h.obey hl c
      exact ⟨w, by show (if v.place = .loop then _ else _) = _; rw [if_pos hl]; exact h1, h2⟩
    · exact ⟨v, by simp only [ExClient.step, hl, if_false], h⟩
  | background op =>
    by_cases hb : isBackground op = true
    · obtain ⟨x, l, h1, h2, h3⟩ := Clt.step_background h.reach (op := op) (by cases op <;> first | cases hb; done | simp)
      obtain ⟨h4, h5⟩ := h.quiet h1 h2 v.place Iff.rfl v.keys rfl h.early (by rw [h3]; simp)
      exact ⟨_, by simp only [ExClient.step, hb, if_true]; exact h4, h5⟩
    · exact ⟨v, by simp only [ExClient.step, hb]; rfl, h⟩

/-- After quitting no key is read. -/
theorem ExInv.quit_step {env : ClientEnv} {v w : ExClient} (h : ExInv env v) {op : ExClient.Op} (hs : v.step env op = .ret w)
    (hq : 'q' ∈ v.keys → v.place = .over ∧ ∃ ks, 'q' ∉ ks ∧ v.keys = ks ++ ['q']) : 'q' ∈ w.keys → w.place = .over ∧ ∃ ks, 'q' ∉ ks ∧ w.keys = ks ++ ['q'] := by
  have hcall : ∀ {x : ExClient} {o}, x.call env o = .ret w → w.place = x.place ∧ w.keys = x.keys := by
    intro x o hc
    obtain ⟨c, -, h2⟩ := CM.bind_eq_ret.1 hc
    injection h2 with h2; subst h2; exact ⟨rfl, rfl⟩
  cases op with
  | main =>
    cases hp : v.place with
    | schedule =>
      simp only [ExClient.step, hp] at hs
      rw [(hcall hs).1, (hcall hs).2, h.early (.inl hp)]; simp
    | register =>
      simp only [ExClient.step, hp] at hs
      rw [(hcall hs).1, (hcall hs).2, h.early (.inr hp)]; simp
    | loop => simp only [ExClient.step, hp] at hs; injection hs with hs; subst hs; exact hq
    | over => simp only [ExClient.step, hp] at hs; injection hs with hs; subst hs; exact hq
  | key c =>
    simp only [ExClient.step] at hs
    by_cases hl : v.place = .loop
    · rw [if_pos hl] at hs
      have hn : 'q' ∉ v.keys := fun hm => by rw [(hq hm).1] at hl; cases hl
      by_cases hc : c = 'q'
      · subst hc
        have hob : ({ v with keys := v.keys ++ ['q'] } : ExClient).obey env 'q' =
            ({ v with keys := v.keys ++ ['q'], place := .over } : ExClient).call env (.chan .shutdown) := by simp [ExClient.obey]
        rw [hob] at hs
        have := hcall hs
        exact fun _ => ⟨this.1, v.keys, hn, this.2⟩
      · intro hm
        obtain ⟨w', h1, -, h3, -⟩ := h.obey hl c
        rw [hs] at h1; injection h1 with h1; subst h1
        rw [h3] at hm
        rcases List.mem_append.1 hm with hm | hm
        · exact absurd hm hn
        · exact absurd (List.mem_singleton.1 hm).symm hc
    · rw [if_neg hl] at hs; injection hs with hs; subst hs; exact hq
  | background o =>
    simp only [ExClient.step] at hs
    by_cases hb : isBackground o = true
    · rw [if_pos hb] at hs; rw [(hcall hs).1, (hcall hs).2]; exact hq
    · rw [if_neg hb] at hs; injection hs with hs; subst hs; exact hq

theorem ExInv.quit_run {env : ClientEnv} (ops : List ExClient.Op) : ∀ {v w : ExClient}, ExInv env v → v.run env ops = .ret w →
    ('q' ∈ v.keys → v.place = .over ∧ ∃ ks, 'q' ∉ ks ∧ v.keys = ks ++ ['q']) → 'q' ∈ w.keys → w.place = .over ∧ ∃ ks, 'q' ∉ ks ∧ w.keys = ks ++ ['q'] := by
  induction ops with
  | nil => intro v w _ hr hq; injection hr with hr; subst hr; exact hq
  | cons op ops ih =>
    intro v w h hr hq
    obtain ⟨x, h1, h2⟩ := CM.bind_eq_ret.1 hr
    obtain ⟨x', h3, h4⟩ := h.step op
    rw [h1] at h3; injection h3 with h3; subst h3
    exact ih h4 h2 (h.quit_step h1 hq)

theorem ExInv.run {env : ClientEnv} (ops : List ExClient.Op) : ∀ {v : ExClient}, ExInv env v → ∃ w, v.run env ops = .ret w ∧ ExInv env w := by
  induction ops with
  | nil => intro v h; exact ⟨v, rfl, h⟩
  | cons op ops ih =>
    intro v h
    obtain ⟨w, h1, h2⟩ := h.step op
    obtain ⟨x, h3, h4⟩ := ih h2
    exact ⟨x, by simp only [ExClient.run, h1, CM.ret_bind, h3], h4⟩

end Modbus
