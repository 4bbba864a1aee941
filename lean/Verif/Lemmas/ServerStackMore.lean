import Verif.Lemmas.AsioDown
import Verif.Lemmas.ServerStack

/-! More helper lemmas about the whole server: undefined behaviour, what sessions are asked, shutdown. -/

namespace Modbus

open Spec
open Props (msgsOf sendsOf msgsOf_append sendsOf_append SReach)

variable {W : Type}

namespace Asv

/-- The two ways in which a step can have undefined behaviour. -/
theorem step_ub {v : Asv} {op : Op} (h : v.step op = .ub) :
    (∃ i n c b d, op = .complete i (.sent n) ∧ v.flying[i]? = some (.write c b d) ∧ (v.conns c).wbuf.map (·.1) ≠ some b) ∨
    ∃ k rs c, op = .run k rs ∧ v.queue[k]? = some (.accepted c true) ∧ v.isShutdown = false ∧ v.list = [] := by
  cases op with
  | start => cases h
  | shutdown => cases h
  | complete i r =>
    simp only [Asv.step, Asv.complete] at h
    split at h
    · cases h
    · split at h <;> cases h
    · split at h
      · split at h <;> cases h
      · cases h
      · cases h
    · rename_i c b d hf
      split at h
      · rename_i n
        split at h
        · split at h
          · cases h
          · rename_i hb; exact Or.inl ⟨i, n, c, b, d, rfl, hf, hb⟩
        · cases h
      · cases h
      · cases h
  | run k rs =>
    simp only [Asv.step] at h
    split at h
    · cases h
    · rename_i t hk
      cases t with
      | accepted c ok =>
        simp only [Asv.runTask, Asv.onAccepted] at h
        split at h
        · cases h
        · rename_i hd
          split at h
          · rename_i hok
            subst hok
            split at h
            · split at h
              · rename_i hl
                exact Or.inr ⟨k, rs, c, rfl, hk, by simpa using hd, hl⟩
              · cases h
            · cases h
          · cases h
      | _ => cases h

/-- Tasks are appended at the end of the queue. -/
def Grows (v v' : Asv) : Prop := ∃ ts, v'.queue = v.queue ++ ts

theorem Grows.refl (v : Asv) : Grows v v := ⟨[], by simp⟩
theorem Grows.trans {u v w : Asv} (h : Grows u v) (h' : Grows v w) : Grows u w := by
  obtain ⟨a, ha⟩ := h
  obtain ⟨b, hb⟩ := h'
  exact ⟨a ++ b, by rw [hb, ha, List.append_assoc]⟩
theorem Grows.post (v : Asv) (t : ATask) : Grows v (v.post t) := ⟨[t], rfl⟩
theorem Grows.of_eq {v v' : Asv} (h : v'.queue = v.queue) : Grows v v' := ⟨[], by simp [h]⟩

theorem Grows.remove (v : Asv) (c : Nat) : Grows v (v.removeConnection c) := by
  unfold removeConnection
  split
  · exact ⟨[.close c], rfl⟩
  · exact .refl v

theorem Grows.sendBuffer (v : Asv) (c : Nat) : Grows v (v.sendBuffer c) := by
  unfold Asv.sendBuffer
  split
  · exact .refl v
  · split
    · dsimp only
      split
      · exact .of_eq rfl
      · exact ⟨[.written c false], rfl⟩
    · exact .refl v

theorem Grows.beginRead (v : Asv) (c : Nat) : Grows v (v.beginRead c) := by
  unfold Asv.beginRead
  split
  · split
    · exact .of_eq rfl
    · exact ⟨[.read c none], rfl⟩
  · exact .refl v

theorem Grows.startConn (v : Asv) (c : Nat) : Grows v (v.startConn c) :=
  ((Grows.of_eq (v' := v.setConn c { v.conns c with connected := true }) rfl).trans (.sendBuffer _ c)).trans (.beginRead _ c)

theorem Grows.startAccept (v : Asv) : Grows v v.startAccept := by
  unfold Asv.startAccept
  split
  · exact .refl v
  · exact .post v _

theorem Grows.sendAll (c : Nat) (ds : List (List UInt8)) : ∀ v : Asv, Grows v (v.sendAll c ds) := by
  induction ds with
  | nil => exact .refl
  | cons d ds ih =>
    intro v
    refine Grows.trans ?_ (ih (v.send c d))
    unfold Asv.send
    exact (Grows.of_eq (v' := { v.emit (.asked c d) with nextBuf := v.nextBuf + 1 }.setConn c { v.conns c with wbuf := some (v.nextBuf, d) }) rfl).trans (.sendBuffer _ c)

theorem Grows.fail (v : Asv) (c : Nat) : Grows v (v.fail c) :=
  (Grows.trans (v := (v.post (.close c)).emit (.error c)) ⟨[.close c], rfl⟩ (.remove _ c))

theorem runTask_grows {v v' : Asv} {rs : List (List UInt8)} {t : ATask} (h : v.runTask rs t = .ret v') : Grows v v' := by
  cases t with
  | startAccept =>
    injection h with h; subst h
    unfold Asv.runStartAccept
    split
    · exact .refl v
    · exact .of_eq rfl
  | shutdown =>
    injection h with h; subst h
    exact ⟨_, by simp only [Asv.runShutdown, Asv.abort]; rw [List.append_assoc]⟩
  | close c =>
    injection h with h; subst h
    unfold Asv.runClose
    dsimp only
    split
    · exact Grows.trans ⟨(v.flying.filter (onSocket c)).map aborted, rfl⟩ (Grows.remove _ c)
    · exact .of_eq rfl
  | accepted c ok =>
    simp only [Asv.runTask, Asv.onAccepted] at h
    split at h
    · injection h with h; subst h; exact .refl v
    · split at h
      · have h1 : Grows v { v.emit (.joined c) with num := v.num + 1 } := .of_eq rfl
        split at h
        · split at h
          · cases h
          · injection h with h; subst h
            exact ((h1.trans (.remove _ _)).trans (.startConn _ _)).trans (.startAccept _)
        · injection h with h; subst h
          exact (h1.trans (.startConn _ _)).trans (.startAccept _)
      · injection h with h; subst h; exact .remove v c
  | read c r =>
    injection h with h; subst h
    cases r with
    | none => exact .fail v c
    | some bytes =>
      have h1 : Grows v (v.emit (.receive c bytes)) := .of_eq rfl
      exact (h1.trans (.sendAll c rs _)).trans (.beginRead _ c)
  | written c ok =>
    injection h with h; subst h
    cases ok with
    | false => exact .fail v c
    | true => exact .of_eq rfl

/-- Running the oldest task moves all others one place forward. -/
theorem run_front {v v' : Asv} {t : ATask} {ts : List ATask} {rs : List (List UInt8)} (hq : v.queue = t :: ts) (h : v.step (.run 0 rs) = .ret v') :
    ∃ more, v'.queue = ts ++ more := by
  simp only [Asv.step, hq] at h
  exact runTask_grows h

/-- Only the queued shutdown ends a server, and it is only queued by `shutdown`. -/
theorem step_flags {v v' : Asv} {op : Op} (h : v.step op = .ret v') :
    (v'.isShutdown = true → v.isShutdown = true ∨ ATask.shutdown ∈ v.queue) ∧ (ATask.shutdown ∈ v'.queue → ATask.shutdown ∈ v.queue ∨ op = .shutdown) ∧
    (v.isShutdown = true → v'.isShutdown = true) := by
  have rem : ∀ (u : Asv) (c : Nat), (u.removeConnection c).isShutdown = u.isShutdown ∧ (ATask.shutdown ∈ (u.removeConnection c).queue → ATask.shutdown ∈ u.queue) := by
    intro u c
    unfold removeConnection
    split
    · exact ⟨rfl, by simp [Asv.post, Asv.emit]⟩
    · exact ⟨rfl, id⟩
  have sb : ∀ (u : Asv) (c : Nat), (u.sendBuffer c).isShutdown = u.isShutdown ∧ (ATask.shutdown ∈ (u.sendBuffer c).queue → ATask.shutdown ∈ u.queue) := by
    intro u c
    unfold Asv.sendBuffer
    split
    · exact ⟨rfl, id⟩
    · split
      · dsimp only
        split
        · exact ⟨rfl, id⟩
        · exact ⟨rfl, by simp [Asv.post, Asv.emit]⟩
      · exact ⟨rfl, id⟩
  have br : ∀ (u : Asv) (c : Nat), (u.beginRead c).isShutdown = u.isShutdown ∧ (ATask.shutdown ∈ (u.beginRead c).queue → ATask.shutdown ∈ u.queue) := by
    intro u c
    unfold Asv.beginRead
    split
    · split
      · exact ⟨rfl, id⟩
      · exact ⟨rfl, by simp [Asv.post]⟩
    · exact ⟨rfl, id⟩
  have sc : ∀ (u : Asv) (c : Nat), (u.startConn c).isShutdown = u.isShutdown ∧ (ATask.shutdown ∈ (u.startConn c).queue → ATask.shutdown ∈ u.queue) := by
    intro u c
    unfold Asv.startConn
    have h1 := sb (u.setConn c { u.conns c with connected := true }) c
    have h2 := br ((u.setConn c { u.conns c with connected := true }).sendBuffer c) c
    exact ⟨h2.1.trans h1.1, fun h => h1.2 (h2.2 h)⟩
  have sa : ∀ (u : Asv), u.startAccept.isShutdown = u.isShutdown ∧ (ATask.shutdown ∈ u.startAccept.queue → ATask.shutdown ∈ u.queue) := by
    intro u
    unfold Asv.startAccept
    split
    · exact ⟨rfl, id⟩
    · exact ⟨rfl, by simp [Asv.post]⟩
  have sal : ∀ (c : Nat) (ds : List (List UInt8)) (u : Asv), (u.sendAll c ds).isShutdown = u.isShutdown ∧ (ATask.shutdown ∈ (u.sendAll c ds).queue → ATask.shutdown ∈ u.queue) := by
    intro c ds
    induction ds with
    | nil => exact fun u => ⟨rfl, id⟩
    | cons d ds ih =>
      intro u
      have h1 := sb ({ u.emit (.asked c d) with nextBuf := u.nextBuf + 1 }.setConn c { u.conns c with wbuf := some (u.nextBuf, d) }) c
      have h2 := ih (u.send c d)
      exact ⟨h2.1.trans h1.1, fun h => h1.2 (h2.2 h)⟩
  have fl : ∀ (u : Asv) (c : Nat), (u.fail c).isShutdown = u.isShutdown ∧ (ATask.shutdown ∈ (u.fail c).queue → ATask.shutdown ∈ u.queue) := by
    intro u c
    have h1 := rem ((u.post (.close c)).emit (.error c)) c
    exact ⟨h1.1, fun h => by have := h1.2 h; simpa [Asv.post, Asv.emit] using this⟩
  have fin : ∀ u : Asv, u = v' → u.isShutdown = v.isShutdown → (ATask.shutdown ∈ u.queue → ATask.shutdown ∈ v.queue) →
      (v'.isShutdown = true → v.isShutdown = true ∨ ATask.shutdown ∈ v.queue) ∧ (ATask.shutdown ∈ v'.queue → ATask.shutdown ∈ v.queue ∨ op = .shutdown) ∧
      (v.isShutdown = true → v'.isShutdown = true) := by
    rintro u rfl h1 h2
    exact ⟨fun h => Or.inl (h1 ▸ h), fun h => Or.inl (h2 h), fun h => h1.trans h⟩
  cases op with
  | start => injection h with h; exact fin _ h (sa v).1 (sa v).2
  | shutdown => injection h with h; subst h; exact ⟨fun h => Or.inl h, fun _ => Or.inr rfl, fun h => h⟩
  | complete i r =>
    simp only [Asv.step, Asv.complete] at h
    split at h
    · injection h with h; exact fin _ h rfl id
    · split at h
      all_goals injection h with h; refine fin _ h ?_ ?_
      all_goals simp [Asv.post, Asv.setConn]
    · split at h
      · split at h <;> (injection h with h; refine fin _ h ?_ ?_ <;> simp [Asv.post])
      · injection h with h; refine fin _ h ?_ ?_ <;> simp [Asv.post]
      · injection h with h; exact fin _ h rfl id
    · split at h
      · split at h
        · split at h
          · injection h with h; refine fin _ h ?_ ?_ <;> simp [Asv.post, Asv.emit]
          · cases h
        · injection h with h; exact fin _ h rfl id
      · injection h with h; refine fin _ h ?_ ?_ <;> simp [Asv.post]
      · injection h with h; exact fin _ h rfl id
  | run k rs =>
    simp only [Asv.step] at h
    split at h
    · injection h with h; exact fin _ h rfl id
    · rename_i t hk
      have hsub : ATask.shutdown ∈ v.queue.eraseIdx k → ATask.shutdown ∈ v.queue := fun h => List.mem_of_mem_eraseIdx h
      cases t with
      | startAccept =>
        injection h with h
        refine fin _ h ?_ ?_ <;> unfold Asv.runStartAccept <;> split
        · rfl
        · rfl
        · exact hsub
        · exact hsub
      | shutdown =>
        injection h with h; subst h
        exact ⟨fun _ => Or.inr (List.mem_of_getElem? hk), fun _ => Or.inl (List.mem_of_getElem? hk), fun _ => rfl⟩
      | close c =>
        injection h with h
        refine fin _ h ?_ ?_ <;> unfold Asv.runClose <;> dsimp only <;> split
        · rw [(rem _ c).1]; rfl
        · rfl
        · intro hx
          have := (rem _ c).2 hx
          simp only [Asv.emit, Asv.abort, Asv.setConn, List.mem_append, List.mem_map] at this
          rcases this with this | ⟨o, -, ho⟩
          · exact hsub this
          · cases o <;> cases ho
        · exact hsub
      | accepted c ok =>
        simp only [Asv.runTask, Asv.onAccepted] at h
        split at h
        · injection h with h; exact fin _ h rfl hsub
        · split at h
          · split at h
            · split at h
              · cases h
              · injection h with h
                refine fin _ h ?_ (fun hx => ?_)
                · rw [(sa _).1, (sc _ _).1, (rem _ _).1]; rfl
                · exact hsub ((rem _ _).2 ((sc _ _).2 ((sa _).2 hx)))
            · injection h with h
              refine fin _ h ?_ (fun hx => ?_)
              · rw [(sa _).1, (sc _ _).1]; rfl
              · exact hsub ((sc _ _).2 ((sa _).2 hx))
          · injection h with h
            refine fin _ h ?_ (fun hx => ?_)
            · rw [(rem _ _).1]
            · exact hsub ((rem _ _).2 hx)
      | read c r =>
        injection h with h
        cases r with
        | none => exact fin _ h (fl _ c).1 (fun hx => hsub ((fl _ c).2 hx))
        | some bytes =>
          refine fin _ h ?_ (fun hx => ?_)
          · simp only [Asv.onRead]
            rw [(br _ _).1, (sal _ _ _).1]; rfl
          · exact hsub ((sal _ _ _).2 ((br _ _).2 hx))
      | written c ok =>
        injection h with h
        cases ok with
        | false => exact fin _ h (fl _ c).1 (fun hx => hsub ((fl _ c).2 hx))
        | true => exact fin _ h rfl hsub

/-- A queued shutdown is not forgotten. -/
theorem step_keeps {v v' : Asv} {op : Op} (h : v.step op = .ret v') (hd : v.isShutdown = true ∨ ATask.shutdown ∈ v.queue) :
    v'.isShutdown = true ∨ ATask.shutdown ∈ v'.queue := by
  rcases hd with hd | hd
  · exact Or.inl ((step_flags h).2.2 hd)
  cases op with
  | start =>
    injection h with h; subst h
    obtain ⟨ts, hts⟩ := Grows.startAccept v
    refine Or.inr ?_
    show ATask.shutdown ∈ v.startAccept.queue
    rw [hts]; exact List.mem_append_left _ hd
  | shutdown => injection h with h; subst h; exact Or.inr (List.mem_append_left _ hd)
  | complete i r =>
    refine Or.inr ?_
    simp only [Asv.step, Asv.complete] at h
    have key : ∀ (u : Asv) (ts : List ATask), u = v' → u.queue = v.queue ++ ts → ATask.shutdown ∈ v'.queue := by
      rintro u ts rfl hu
      rw [hu]; exact List.mem_append_left _ hd
    split at h
    · injection h with h; exact key _ [] h (by simp)
    · rename_i c hf
      split at h
      · injection h with h; exact key _ [.accepted c true] h rfl
      · injection h with h; exact key _ [.accepted c false] h rfl
      · injection h with h; exact key _ [] h (by simp)
    · rename_i c hf
      split at h
      · rename_i bs
        split at h
        · injection h with h; exact key _ [.read c (some bs)] h rfl
        · injection h with h; exact key _ [] h (by simp)
      · injection h with h; exact key _ [.read c none] h rfl
      · injection h with h; exact key _ [] h (by simp)
    · rename_i c b d hf
      split at h
      · split at h
        · split at h
          · injection h with h; exact key _ [.written c true] h rfl
          · cases h
        · injection h with h; exact key _ [] h (by simp)
      · injection h with h; exact key _ [.written c false] h rfl
      · injection h with h; exact key _ [] h (by simp)
  | run k rs =>
    simp only [Asv.step] at h
    split at h
    · injection h with h; subst h; exact Or.inr hd
    · rename_i t hk
      by_cases ht : t = .shutdown
      · subst ht; injection h with h; subst h; exact Or.inl rfl
      · obtain ⟨ts, hts⟩ := runTask_grows h
        refine Or.inr ?_
        rw [hts]
        refine List.mem_append_left _ ?_
        obtain ⟨j, hj⟩ := List.getElem?_of_mem hd
        refine List.mem_eraseIdx_iff_getElem?.mpr ⟨j, ?_, hj⟩
        rintro rfl
        rw [hk] at hj
        exact ht (Option.some.inj hj)

end Asv

namespace Srv

theorem ReactsAll.requests {env : ServerEnv W} {v v' : Srv W} {c : ConnId} {ms : List Mbap} (h : ReactsAll env c v ms v') {s : SessId} {k : Kind} {r : Req k}
    (hm : SEv.request s k r ∈ v'.log) : SEv.request s k r ∈ v.log ∨ ∃ m ∈ ms, parseReq k m.data = .ret (.ok r) ∧ v.isShutdown = false ∧ v.sessions.lookup m.unit = some s := by
  induction h with
  | nil v => exact Or.inl hm
  | @cons v v1 v2 m ms h1 h2 ih =>
    rcases ih hm with h | ⟨m', hm', hp, hd, hl⟩
    · cases h1 with
      | silent => simp [Srv.emit] at h; exact Or.inl h
      | refuse s' fc t hr hs hfc =>
        obtain ⟨pdu, -, e, -⟩ := Srv.sendMessage_log env (v.emit (.mbap c m)) c m.unit m.tid (exceptionMsg fc t) (Or.inr (Or.inr ⟨_, _, rfl⟩))
        rw [e] at h
        simp [Srv.emit] at h
        exact Or.inl h
      | call s' k' r' hp hr hs =>
        simp only [Srv.emit, List.mem_append, List.mem_singleton] at h
        rcases h with (h | h) | h
        · exact Or.inl h
        · cases h
        · injection h with e1 e2 e3; subst e1; subst e2; subst e3
          exact Or.inr ⟨m, by simp, hp, hr, hs⟩
      | answer s' k' r' hp msg hmsg hr hs =>
        obtain ⟨pdu, -, e, -⟩ := Srv.sendMessage_log env { (v.emit (.mbap c m)).emit (.request s' k' r') with world := (env.onRequest s' k' r' v.world).1 } c m.unit m.tid msg hmsg
        rw [e] at h
        simp only [Srv.emit, List.mem_append, List.mem_singleton] at h
        rcases h with ((h | h) | h) | h
        · exact Or.inl h
        · cases h
        · injection h with e1 e2 e3; subst e1; subst e2; subst e3
          exact Or.inr ⟨m, by simp, hp, hr, hs⟩
        · cases h
    · rw [h1.same.isShutdown] at hd
      rw [h1.same.sessions] at hl
      exact Or.inr ⟨m', by simp [hm'], hp, hd, hl⟩

/-- Every request a session received was in a message taken from a connection. -/
theorem _root_.Modbus.Props.SReach.requests {env : ServerEnv W} {v : Srv W} (hv : SReach env v) {s : SessId} {k : Kind} {r : Req k}
    (h : SEv.request s k r ∈ v.log) : ∃ c m, m ∈ msgsOf c v.log ∧ parseReq k m.data = .ret (.ok r) := by
  obtain ⟨w, ops, hr⟩ := hv
  have key : ∀ (ops : List Op) (v0 v : Srv W), (∀ s k r, SEv.request s k r ∈ v0.log → ∃ c m, m ∈ msgsOf c v0.log ∧ parseReq k m.data = .ret (.ok r)) →
      v0.run env ops = .ret v → ∀ s k r, SEv.request s k r ∈ v.log → ∃ c m, m ∈ msgsOf c v.log ∧ parseReq k m.data = .ret (.ok r) := by
    intro ops
    induction ops with
    | nil => intro v0 v h0 hr; injection hr with hr; subst hr; exact h0
    | cons op ops ih =>
      intro v0 v h0 hr
      simp only [Srv.run] at hr
      cases hs : v0.step env op with
      | ub => rw [hs] at hr; cases hr
      | ret v1 =>
        rw [hs] at hr
        refine ih v1 v ?_ hr
        intro s k r hm
        rcases step_cases hs with ⟨t, ts, rfl, -, rfl⟩ | ⟨c, d, p, p', ms, rfl, -, -, hre⟩ | hx
        · obtain ⟨-, new, h2, h3⟩ := Svk.own_step rfl hs
          rw [h2] at hm ⊢
          rcases List.mem_append.1 hm with hm | hm
          · obtain ⟨c, m, hmm, hp⟩ := h0 s k r hm
            exact ⟨c, m, by rw [msgsOf_append]; exact List.mem_append_left _ hmm, hp⟩
          · exact absurd (h3 _ hm) (by simp [SEv.isTraffic])
        · rcases hre.requests hm with hm | ⟨m, hmm, hp, -⟩
          · obtain ⟨c', m, hmm, hp⟩ := h0 s k r hm
            refine ⟨c', m, ?_, hp⟩
            rw [Props.msgsOf_reacts hre c']
            exact List.mem_append_left _ hmm
          · refine ⟨c, m, ?_, hp⟩
            rw [Props.msgsOf_reacts hre c, if_pos rfl]
            exact List.mem_append_right _ hmm
        · rw [hx.1] at hm ⊢
          exact h0 s k r hm
  exact key ops (Srv.init w) v (by simp [Srv.init]) hr s k r h

end Srv

namespace Svk

theorem Ok.sreach {env : ServerEnv W} {w : W} {max : UInt32} {v : Svk W} (h : Ok env w max v) : SReach env v.srv := ⟨w, h.srv⟩

/-- Only the connections can have undefined behaviour. -/
theorem step_ub {env : ServerEnv W} {w : W} {max : UInt32} {v : Svk W} (h : Ok env w max v) {op : Op} (hs : v.step env op = .ub) :
    (∃ i r, op = .complete i r ∧ v.asv.step (.complete i r) = .ub) ∨
    ∃ k mem c, op = .run k mem ∧ v.asv.queue[k]? = some (.accepted c true) ∧ v.asv.step (.run k []) = .ub := by
  have hch : ∀ (u : Svk W) (o : Srv.Op), Srv.WF env u.srv → u.chan env o ≠ .ub := by
    intro u o hw hx
    obtain ⟨s, h1, -⟩ := Srv.step_total hw o
    simp only [chan, h1, CM.ret_bind] at hx
    obtain ⟨u', h2, -⟩ := relay_spec (s.log.drop u.srv.log.length) ({ u with srv := s } : Svk W)
    rw [h2] at hx; cases hx
  have hnet : ∀ o, v.net o = .ub → v.asv.step o = .ub := by
    intro o hx
    simp only [net] at hx
    cases ha : v.asv.step o with
    | ub => rfl
    | ret a => rw [ha] at hx; cases hx
  have hnot : ∀ k rs, (∀ c, v.asv.queue[k]? ≠ some (.accepted c true)) → v.asv.step (.run k rs) ≠ .ub := by
    intro k rs hne hx
    rcases Asv.step_ub hx with ⟨i, n, c, b, d, ho, -⟩ | ⟨k', rs', c, ho, hk, -⟩
    · cases ho
    · injection ho with e1 e2; subst e1; exact hne c hk
  have hthen : ∀ (k : Nat) (o : Srv.Op), (∀ c, v.asv.queue[k]? ≠ some (.accepted c true)) → (do let w ← v.net (.run k []); w.chan env o) ≠ .ub := by
    intro k o hne hx
    cases hn : v.net (.run k []) with
    | ub => exact hnot k [] hne (hnet _ hn)
    | ret u =>
      rw [hn] at hx
      simp only [CM.ret_bind] at hx
      obtain ⟨a, es, -, -, -, rfl⟩ := net_spec hn
      exact hch { srv := v.srv, asv := a, log := v.log ++ es.map .net, steps := v.steps ++ [(v.asv, .run k [])] } o h.wf hx
  cases op with
  | chan o =>
    simp only [Svk.step] at hs
    split at hs
    · exact absurd hs (hch v o h.wf)
    · cases hs
  | complete i r => exact Or.inl ⟨i, r, rfl, hnet _ hs⟩
  | run k mem =>
    simp only [Svk.step] at hs
    split at hs
    · rename_i c hk
      cases hn : v.net (.run k []) with
      | ub => exact Or.inr ⟨k, mem, c, rfl, hk, hnet _ hn⟩
      | ret u =>
        rw [hn] at hs
        simp only [CM.ret_bind, CM.pure_eq] at hs
        obtain ⟨a, es, -, -, -, rfl⟩ := net_spec hn
        split at hs
        · cases hs
        · exact absurd hs (hch { srv := v.srv, asv := a, log := v.log ++ es.map .net, steps := v.steps ++ [(v.asv, .run k [])] } _ h.wf)
    · rename_i c bytes hk
      simp only [receive] at hs
      obtain ⟨s, h1, -⟩ := Srv.step_total h.wf (.receive c bytes)
      rw [h1] at hs
      simp only [CM.ret_bind] at hs
      cases ha : v.asv.step (.run k (answers c (s.log.drop v.srv.log.length))) with
      | ub => exact absurd ha (hnot k _ (by rw [hk]; simp))
      | ret a => rw [ha] at hs; cases hs
    · rename_i c hk; exact absurd hs (hthen k _ (by rw [hk]; simp))
    · rename_i c hk; exact absurd hs (hthen k _ (by rw [hk]; simp))
    · rename_i g1 g2 g3 g4
      exact absurd (hnet _ hs) (hnot k _ (fun c => g1 c))

theorem relay_log (es : List SEv) : ∀ {v v' : Svk W}, v.relay es = .ret v' → ∃ l, v'.log = v.log ++ l := by
  induction es with
  | nil => intro v v' h; injection h with h; subst h; exact ⟨[], by simp⟩
  | cons e es ih =>
    intro v v' h
    simp only [relay] at h
    cases h1 : v.relay1 e with
    | ub => rw [h1] at h; cases h
    | ret u =>
      rw [h1] at h
      obtain ⟨l, hl⟩ := ih h
      have : ∃ l, u.log = v.log ++ l := by
        have hn : ∀ (x y : Svk W) (o : Asv.Op), x.net o = .ret y → ∃ l, y.log = x.log ++ l := by
          intro x y o hx
          obtain ⟨a, es, -, -, -, rfl⟩ := net_spec hx
          exact ⟨_, rfl⟩
        unfold relay1 at h1
        dsimp only at h1
        split at h1
        · obtain ⟨l, hl⟩ := hn _ _ _ h1; exact ⟨_ :: l, by rw [hl]; simp; rfl⟩
        · obtain ⟨l, hl⟩ := hn _ _ _ h1; exact ⟨_ :: l, by rw [hl]; simp; rfl⟩
        · injection h1 with h1; subst h1; exact ⟨_, rfl⟩
      obtain ⟨l', hl'⟩ := this
      exact ⟨l' ++ l, by rw [hl, hl', List.append_assoc]⟩

/-- What a step does to the channel, to the log and to the list of steps. -/
theorem step_info {env : ServerEnv W} {w : W} {max : UInt32} {v v' : Svk W} (h : Ok env w max v) {op : Op} (hs : v.step env op = .ret v') :
    (v'.srv = v.srv ∨ ∃ o, v.srv.step env o = .ret v'.srv) ∧ (∃ es, v'.log = v.log ++ es) ∧ (∀ x ∈ v.steps, x ∈ v'.steps) ∧
    ∀ x ∈ v'.steps, x ∈ v.steps ∨ (x.2 ≠ .start ∧ x.2 ≠ .shutdown) ∨ (x.2 = .start ∧ op = .chan .runTask) ∨ x.2 = .shutdown ∧ SEv.serverShutdown ∈ svLog v'.log := by
  have hnet : ∀ (aop : Asv.Op) (u : Svk W), aop ≠ .start → aop ≠ .shutdown → v.net aop = .ret u → (u.srv = v.srv) ∧ (∃ es, u.log = v.log ++ es) ∧
      (∀ x ∈ v.steps, x ∈ u.steps) ∧ ∀ x ∈ u.steps, x ∈ v.steps ∨ (x.2 ≠ .start ∧ x.2 ≠ .shutdown) := by
    intro aop u h1 h2 hu
    obtain ⟨a, es, -, -, -, rfl⟩ := net_spec hu
    refine ⟨rfl, ⟨_, rfl⟩, fun x hx => List.mem_append_left _ hx, fun x hx => (List.mem_append.1 hx).imp id fun hx => ?_⟩
    rw [List.mem_singleton.1 hx]; exact ⟨h1, h2⟩
  have hplain : ∀ (aop : Asv.Op), aop ≠ .start → aop ≠ .shutdown → v.net aop = .ret v' → (v'.srv = v.srv ∨ ∃ o, v.srv.step env o = .ret v'.srv) ∧ (∃ es, v'.log = v.log ++ es) ∧ (∀ x ∈ v.steps, x ∈ v'.steps) ∧
    ∀ x ∈ v'.steps, x ∈ v.steps ∨ (x.2 ≠ .start ∧ x.2 ≠ .shutdown) ∨ (x.2 = .start ∧ op = .chan .runTask) ∨ x.2 = .shutdown ∧ SEv.serverShutdown ∈ svLog v'.log := by
    intro aop h1 h2 hu
    obtain ⟨a1, a2, a3, a4⟩ := hnet aop v' h1 h2 hu
    exact ⟨Or.inl a1, a2, a3, fun x hx => (a4 x hx).imp id Or.inl⟩
  have hlis : ∀ (k : Nat) (o : Srv.Op), ((∃ c mem, o = .opened c mem) ∨ ∃ c, o = .error c) → (do let w ← v.net (.run k []); w.chan env o) = .ret v' → (v'.srv = v.srv ∨ ∃ o, v.srv.step env o = .ret v'.srv) ∧ (∃ es, v'.log = v.log ++ es) ∧ (∀ x ∈ v.steps, x ∈ v'.steps) ∧
    ∀ x ∈ v'.steps, x ∈ v.steps ∨ (x.2 ≠ .start ∧ x.2 ≠ .shutdown) ∨ (x.2 = .start ∧ op = .chan .runTask) ∨ x.2 = .shutdown ∧ SEv.serverShutdown ∈ svLog v'.log := by
    intro k o ho hx
    cases hn : v.net (.run k []) with
    | ub => rw [hn] at hx; cases hx
    | ret u =>
      rw [hn] at hx
      simp only [CM.ret_bind] at hx
      obtain ⟨a1, a2, a3, a4⟩ := hnet (.run k []) u (by simp) (by simp) hn
      obtain ⟨s, h4, h5, rfl⟩ := listener_spec ho hx
      exact ⟨Or.inr ⟨o, a1 ▸ h4⟩, a2, a3, fun x hx => (a4 x hx).imp id Or.inl⟩
  cases op with
  | chan o =>
    simp only [Svk.step] at hs
    split at hs
    · rename_i ho
      simp only [chan] at hs
      cases hst : v.srv.step env o with
      | ub => rw [hst] at hs; cases hs
      | ret s =>
        rw [hst] at hs
        obtain ⟨h1, new, h2, h3⟩ := own_step ho hst
        simp only [CM.ret_bind, h2, List.drop_left] at hs
        obtain ⟨u, b1, b2, b3, b4, b5, b6, b7, b8⟩ := relay_spec new ({ v with srv := s } : Svk W)
        obtain ⟨l, hl⟩ := relay_log new hs
        rw [b1] at hs; injection hs with hs; subst hs
        refine ⟨Or.inr ⟨o, by rw [b2, hst]⟩, ⟨l, hl⟩, b7, fun x hx => ?_⟩
        rcases b8 x hx with hx | ⟨e1, e2⟩ | ⟨e1, e2⟩
        · exact Or.inl hx
        · refine Or.inr (Or.inr (Or.inl ⟨e1, ?_⟩))
          cases o with
          | runTask => rfl
          | start => simp only [Srv.step] at hst; split at hst <;> (injection hst with hst; subst hst; simp at h2; rw [h2] at e2; cases e2)
          | shutdown => injection hst with hst; subst hst; simp at h2; rw [h2] at e2; cases e2
          | addSession _ _ => simp only [Srv.step] at hst; split at hst <;> (injection hst with hst; subst hst; simp at h2; rw [h2] at e2; cases e2)
          | _ => cases ho
        · exact Or.inr (Or.inr (Or.inr ⟨e1, by rw [b3]; exact List.mem_append_right _ e2⟩))
    · injection hs with hs; subst hs; exact ⟨Or.inl rfl, ⟨[], by simp⟩, fun _ h => h, fun _ h => Or.inl h⟩
  | complete i r => exact hplain _ (by simp) (by simp) hs
  | run k mem =>
    simp only [Svk.step] at hs
    split at hs
    · rename_i c hk
      cases hd : v.asv.isShutdown with
      | true =>
        simp only [hd, if_true] at hs
        cases hn : v.net (.run k []) with
        | ub => rw [hn] at hs; cases hs
        | ret u =>
          rw [hn] at hs
          simp only [CM.ret_bind, CM.pure_eq] at hs
          injection hs with hs; subst hs
          exact hplain _ (by simp) (by simp) hn
      | false =>
        simp only [hd, Bool.false_eq_true, if_false] at hs
        exact hlis k _ (Or.inl ⟨c, mem, rfl⟩) hs
    · rename_i c bytes hk
      simp only [receive] at hs
      cases hst : v.srv.step env (.receive c bytes) with
      | ub => rw [hst] at hs; cases hs
      | ret s =>
        rw [hst] at hs
        simp only [CM.ret_bind] at hs
        cases ha : v.asv.step (.run k (answers c (s.log.drop v.srv.log.length))) with
        | ub => rw [ha] at hs; cases hs
        | ret a =>
          rw [ha] at hs
          simp only [CM.ret_bind, CM.pure_eq] at hs
          injection hs with hs; subst hs
          refine ⟨Or.inr ⟨_, hst⟩, ⟨_, by simp only [List.append_assoc]; rfl⟩, fun x hx => List.mem_append_left _ hx, fun x hx => (List.mem_append.1 hx).imp id fun hx => Or.inl ?_⟩
          rw [List.mem_singleton.1 hx]; simp
    · rename_i c hk; exact hlis k _ (Or.inr ⟨c, rfl⟩) hs
    · rename_i c hk; exact hlis k _ (Or.inr ⟨c, rfl⟩) hs
    · exact hplain _ (by simp) (by simp) hs

theorem asv_shutdown {max : UInt32} {P : Asv → Asv.Op → Prop} {a : Asv} (h : AsvReach max P a) (hd : a.isShutdown = true ∨ ATask.shutdown ∈ a.queue) :
    ∃ b, P b .shutdown := by
  induction h with
  | init => simp [Asv.init] at hd
  | @step a a' op _ hp hs ih =>
    obtain ⟨f1, f2, -⟩ := Asv.step_flags hs
    rcases hd with hd | hd
    · exact ih (f1 hd)
    · rcases f2 hd with hd | rfl
      · exact ih (Or.inr hd)
      · exact ⟨a, hp⟩

/-- Once the listening server shuts down, the channel has been shut down. -/
theorem _root_.Modbus.Spec.VReach.down {env : ServerEnv W} {w : W} {max : UInt32} {v : Svk W} (h : VReach env w max v)
    (hd : v.asv.isShutdown = true ∨ ATask.shutdown ∈ v.asv.queue) : v.srv.isShutdown = true := by
  have h1 : ∀ x ∈ v.steps, x.2 = .shutdown → SEv.serverShutdown ∈ svLog v.log := by
    clear hd
    induction h with
    | init => intro x hx; cases hx
    | @step v v' op hv hs ih =>
      obtain ⟨-, ⟨es, he⟩, -, h3⟩ := step_info hv.ok hs
      intro x hx hxs
      rcases h3 x hx with hx | ⟨-, hx⟩ | ⟨hx, -⟩ | ⟨-, hx⟩
      · rw [he, svLog_append]; exact List.mem_append_left _ (ih x hx hxs)
      · exact absurd hxs hx
      · rw [hx] at hxs; cases hxs
      · exact hx
  have hok := h.ok
  obtain ⟨b, hb⟩ := asv_shutdown hok.asv hd
  have h2 := h1 _ hb rfl
  rw [hok.svl] at h2
  cases hsd : v.srv.isShutdown with
  | true => rfl
  | false => exact absurd h2 (hok.sreach.inv.2.2 hsd).2.1

theorem relay_down (es : List SEv) : ∀ {v v' : Svk W}, v.relay es = .ret v' →
    (v.asv.isShutdown = true ∨ ATask.shutdown ∈ v.asv.queue) ∨ SEv.serverShutdown ∈ es → v'.asv.isShutdown = true ∨ ATask.shutdown ∈ v'.asv.queue := by
  induction es with
  | nil =>
    intro v v' h hd
    injection h with h; subst h
    rcases hd with hd | hd
    · exact hd
    · cases hd
  | cons e es ih =>
    intro v v' h hd
    simp only [relay] at h
    cases h1 : v.relay1 e with
    | ub => rw [h1] at h; cases h
    | ret u =>
      rw [h1] at h
      simp only [CM.ret_bind] at h
      refine ih h ?_
      have hn : ∀ (x : Svk W) (o : Asv.Op), x.asv = v.asv → x.net o = .ret u → v.asv.isShutdown = true ∨ ATask.shutdown ∈ v.asv.queue → u.asv.isShutdown = true ∨ ATask.shutdown ∈ u.asv.queue := by
        intro x o hx hu hk
        obtain ⟨a, es, h2, -, -, rfl⟩ := net_spec hu
        rw [hx] at h2
        exact Asv.step_keeps h2 hk
      by_cases he : SEv.serverShutdown ∈ es
      · exact Or.inr he
      · left
        unfold relay1 at h1
        dsimp only at h1
        split at h1
        · refine hn { v with log := v.log ++ [.ch .serverStart] } _ rfl h1 ?_
          rcases hd with hd | hd
          · exact hd
          · rcases List.mem_cons.1 hd with hd | hd
            · cases hd
            · exact absurd hd he
        · obtain ⟨a, es', h2, -, -, rfl⟩ := net_spec h1
          injection h2 with h2; subst h2
          exact Or.inr (by simp [Asv.post])
        · rename_i g1 g2
          injection h1 with h1; subst h1
          rcases hd with hd | hd
          · exact hd
          · rcases List.mem_cons.1 hd with hd | hd
            · exact absurd hd.symm g2
            · exact absurd hd he

/-- What running a task of the connections does to them. -/
theorem run_asv {env : ServerEnv W} {w : W} {max : UInt32} {v v' : Svk W} (h : Ok env w max v) {k : Nat} {mem : Vector UInt8 260} (hs : v.step env (.run k mem) = .ret v') :
    ∃ rs, v.asv.step (.run k rs) = .ret v'.asv ∧ (v.srv.isShutdown = true → rs = []) ∧ v'.steps = v.steps ++ [(v.asv, .run k rs)] ∧
      (SEv.serverShutdown ∈ v'.srv.log → SEv.serverShutdown ∈ v.srv.log) := by
  have hnet : ∀ (u : Svk W), v.net (.run k []) = .ret u → v.asv.step (.run k []) = .ret u.asv ∧ u.steps = v.steps ++ [(v.asv, .run k [])] ∧ u.srv = v.srv := by
    intro u hu
    obtain ⟨a, es, h1, -, -, rfl⟩ := net_spec hu
    exact ⟨h1, rfl, rfl⟩
  have hlis : ∀ (o : Srv.Op), ((∃ c mem, o = .opened c mem) ∨ ∃ c, o = .error c) → (do let w ← v.net (.run k []); w.chan env o) = .ret v' → ∃ rs, v.asv.step (.run k rs) = .ret v'.asv ∧ (v.srv.isShutdown = true → rs = []) ∧ v'.steps = v.steps ++ [(v.asv, .run k rs)] ∧
      (SEv.serverShutdown ∈ v'.srv.log → SEv.serverShutdown ∈ v.srv.log) := by
    intro o ho hx
    cases hn : v.net (.run k []) with
    | ub => rw [hn] at hx; cases hx
    | ret u =>
      rw [hn] at hx
      simp only [CM.ret_bind] at hx
      obtain ⟨a1, a2, a3⟩ := hnet u hn
      obtain ⟨s, h4, h5, rfl⟩ := listener_spec ho hx
      exact ⟨[], a1, fun _ => rfl, a2, fun hm => by rw [← a3, ← h5]; exact hm⟩
  simp only [Svk.step] at hs
  split at hs
  · rename_i c hk
    cases hd : v.asv.isShutdown with
    | true =>
      simp only [hd, if_true] at hs
      cases hn : v.net (.run k []) with
      | ub => rw [hn] at hs; cases hs
      | ret u =>
        rw [hn] at hs
        simp only [CM.ret_bind, CM.pure_eq] at hs
        injection hs with hs; subst hs
        obtain ⟨a1, a2, a3⟩ := hnet u hn
        exact ⟨[], a1, fun _ => rfl, a2, fun hm => a3 ▸ hm⟩
    | false =>
      simp only [hd, Bool.false_eq_true, if_false] at hs
      exact hlis _ (Or.inl ⟨c, mem, rfl⟩) hs
  · rename_i c bytes hk
    simp only [receive] at hs
    cases hst : v.srv.step env (.receive c bytes) with
    | ub => rw [hst] at hs; cases hs
    | ret s =>
      rw [hst] at hs
      simp only [CM.ret_bind] at hs
      cases ha : v.asv.step (.run k (answers c (s.log.drop v.srv.log.length))) with
      | ub => rw [ha] at hs; cases hs
      | ret a =>
        rw [ha] at hs
        simp only [CM.ret_bind, CM.pure_eq] at hs
        injection hs with hs; subst hs
        have hl := Srv.step_ctl hst
        rcases hl with ⟨t, ts, ho, -⟩ | ⟨-, -, -, -, new, hnew, htr, hdn⟩
        · cases ho
        refine ⟨_, ha, fun hd => ?_, rfl, fun hm => ?_⟩
        · rw [hnew, List.drop_left, answers_eq]
          simp only [sendsOf, List.filterMap_eq_nil_iff]
          intro e he
          obtain ⟨c', m, rfl⟩ := (hdn hd).2 e he
          rfl
        · show SEv.serverShutdown ∈ v.srv.log
          have hm : SEv.serverShutdown ∈ s.log := hm
          rw [hnew] at hm
          rcases List.mem_append.1 hm with hm | hm
          · exact hm
          · exact absurd (htr _ hm) (by simp [SEv.isTraffic])
  · rename_i c hk; exact hlis _ (Or.inr ⟨c, rfl⟩) hs
  · rename_i c hk; exact hlis _ (Or.inr ⟨c, rfl⟩) hs
  · obtain ⟨a1, a2, a3⟩ := hnet v' hs
    exact ⟨[], a1, fun _ => rfl, a2, fun hm => a3 ▸ hm⟩

/-- If the channel has told the listening server to shut down, it has or it will. -/
theorem _root_.Modbus.Spec.VReach.told {env : ServerEnv W} {w : W} {max : UInt32} {v : Svk W} (h : VReach env w max v)
    (hm : SEv.serverShutdown ∈ v.srv.log) : v.asv.isShutdown = true ∨ ATask.shutdown ∈ v.asv.queue := by
  induction h with
  | init => cases hm
  | @step v v' op hv hs ih =>
    cases op with
    | chan o =>
      simp only [Svk.step] at hs
      split at hs
      · rename_i ho
        simp only [chan] at hs
        cases hst : v.srv.step env o with
        | ub => rw [hst] at hs; cases hs
        | ret s =>
          rw [hst] at hs
          obtain ⟨h1, new, h2, h3⟩ := own_step ho hst
          simp only [CM.ret_bind, h2, List.drop_left] at hs
          refine relay_down new hs ?_
          obtain ⟨u, b1, b2, -⟩ := relay_spec new ({ v with srv := s } : Svk W)
          rw [b1] at hs; injection hs with hs; subst hs
          rw [b2] at hm
          have hm : SEv.serverShutdown ∈ s.log := hm
          rw [h2] at hm
          rcases List.mem_append.1 hm with hm | hm
          · exact Or.inl (ih hm)
          · exact Or.inr hm
      · injection hs with hs; subst hs; exact ih hm
    | complete i r =>
      obtain ⟨a, es, h1, h2, h3, rfl⟩ := net_spec hs
      exact Asv.step_keeps h1 (ih hm)
    | run k mem =>
      obtain ⟨rs, h1, -, -, h2⟩ := run_asv hv.ok hs
      exact Asv.step_keeps h1 (ih (h2 hm))

theorem run_append (env : ServerEnv W) (ops1 ops2 : List Op) : ∀ v : Svk W, v.run env (ops1 ++ ops2) = (v.run env ops1 >>= fun v => v.run env ops2) := by
  induction ops1 with
  | nil => intro v; rfl
  | cons op ops1 ih =>
    intro v
    simp only [List.cons_append, run]
    cases v.step env op with
    | ub => rfl
    | ret u => simp only [CM.ret_bind]; exact ih u

theorem run_reach {env : ServerEnv W} {w : W} {max : UInt32} (ops : List Op) : ∀ {v v' : Svk W}, VReach env w max v → v.run env ops = .ret v' → VReach env w max v' := by
  induction ops with
  | nil => intro v v' h hr; injection hr with hr; subst hr; exact h
  | cons op ops ih =>
    intro v v' h hr
    simp only [run] at hr
    cases hs : v.step env op with
    | ub => rw [hs] at hr; cases hr
    | ret u => rw [hs] at hr; exact ih (h.step hs) hr

/-- Running a task of the connections works if the channel was started once. -/
theorem run_total {env : ServerEnv W} {w : W} {max : UInt32} (hmax : max.toNat < 4294967295) {v : Svk W} (h : VReach env w max v) (hst : VThroughout SingleStart v) (k : Nat)
    (mem : Vector UInt8 260) : ∃ v', v.step env (.run k mem) = .ret v' := by
  have hok := h.ok
  cases hs : v.step env (.run k mem) with
  | ret v' => exact ⟨v', rfl⟩
  | ub =>
    exfalso
    have hr : AsvReach max SingleStart v.asv := hok.asv.mono fun a op hx => hst _ hx
    rcases step_ub hok hs with ⟨i, r, ho, -⟩ | ⟨k', mem', c, ho, hk, hu⟩
    · cases ho
    · rcases Asv.step_ub hu with ⟨i, n, c, b, d, ho, -⟩ | ⟨k2, rs, c2, ho, hk2, hd, hl⟩
      · cases ho
      · injection ho with e1 e2; subst e1
        rw [(((hr.ring hmax).up hd).take hk2).2.2.1] at hl
        simp at hl

theorem throughout_run {v v' : Svk W} {k : Nat} {rs : List (List UInt8)} (hst : VThroughout SingleStart v) (he : v'.steps = v.steps ++ [(v.asv, .run k rs)]) : VThroughout SingleStart v' := by
  intro x hx
  rw [he] at hx
  rcases List.mem_append.1 hx with hx | hx
  · exact hst x hx
  · rw [List.mem_singleton.1 hx]; intro hh; cases hh

/-- A queued shutdown is performed when the tasks before it have been. -/
theorem reach_shutdown {env : ServerEnv W} {w : W} {max : UInt32} (hmax : max.toNat < 4294967295) (mem : Vector UInt8 260) (pre : List ATask) :
    ∀ {v : Svk W}, VReach env w max v → VThroughout SingleStart v → (∃ post, v.asv.queue = pre ++ .shutdown :: post) →
      ∃ v', v.run env (List.replicate (pre.length + 1) (.run 0 mem)) = .ret v' ∧ v'.asv.isShutdown = true ∧ VThroughout SingleStart v' := by
  induction pre with
  | nil =>
    rintro v h hst ⟨post, hq⟩
    obtain ⟨v', hs⟩ := run_total hmax h hst 0 mem
    obtain ⟨rs, h1, -, h2, -⟩ := run_asv h.ok hs
    refine ⟨v', by simp [run, hs], ?_, throughout_run hst h2⟩
    simp only [Asv.step, hq, List.nil_append] at h1
    injection h1 with h1
    rw [← h1]; rfl
  | cons t pre ih =>
    rintro v h hst ⟨post, hq⟩
    obtain ⟨v', hs⟩ := run_total hmax h hst 0 mem
    obtain ⟨rs, h1, -, h2, -⟩ := run_asv h.ok hs
    obtain ⟨more, hm⟩ := Asv.run_front hq h1
    obtain ⟨v2, h3, h4⟩ := ih (h.step hs) (throughout_run hst h2) ⟨post ++ more, by rw [hm]; simp⟩
    refine ⟨v2, ?_, h4⟩
    rw [List.length_cons, List.replicate_succ]
    simp only [run, hs, CM.ret_bind]
    exact h3

/-- After shutdown the queue runs empty. -/
theorem drain {env : ServerEnv W} {w : W} {max : UInt32} (mem : Vector UInt8 260) (n : Nat) :
    ∀ {v : Svk W}, VReach env w max v → v.asv.isShutdown = true → v.asv.todo ≤ n →
      ∃ m v', v.run env (List.replicate m (.run 0 mem)) = .ret v' ∧ v'.asv.isShutdown = true ∧ v'.asv.queue = [] ∧ (VThroughout SingleStart v → VThroughout SingleStart v') := by
  induction n with
  | zero =>
    intro v h hd hn
    cases hq : v.asv.queue with
    | nil => exact ⟨0, v, rfl, hd, hq, id⟩
    | cons t ts =>
      have : 1 ≤ Asv.weight t := by
        cases t with
        | read c r => cases r <;> simp [Asv.weight]
        | written c ok => cases ok <;> simp [Asv.weight]
        | _ => simp [Asv.weight]
      simp [Asv.todo, hq] at hn; omega
  | succ n ih =>
    intro v h hd hn
    cases hq : v.asv.queue with
    | nil => exact ⟨0, v, rfl, hd, hq, id⟩
    | cons t ts =>
      have hok := h.ok
      obtain ⟨a, ha, hd', hlt⟩ := Asv.drain_step hok.asv.dn hd hq
      have hsd := h.down (Or.inl hd)
      cases hs : v.step env (.run 0 mem) with
      | ub =>
        exfalso
        rcases step_ub hok hs with ⟨i, r, ho, -⟩ | ⟨k, mem', c, ho, hk, hu⟩
        · cases ho
        · injection ho with e1 e2; subst e1
          rw [ha] at hu; cases hu
      | ret v' =>
        obtain ⟨rs, h1, h2, h3, -⟩ := run_asv hok hs
        rw [h2 hsd, ha] at h1
        injection h1 with h1
        obtain ⟨m, v2, h4, h5, h6, h7⟩ := ih (h.step hs) (h1 ▸ hd') (by rw [← h1]; omega)
        refine ⟨m + 1, v2, ?_, h5, h6, fun hst => h7 (throughout_run hst h3)⟩
        rw [List.replicate_succ]
        simp only [run, hs, CM.ret_bind]
        exact h4

end Svk

end Modbus
