import Verif.Lemmas.ServerStackMore
import Verif.Lemmas.System

/-! Helper lemmas about the whole server: a request is answered; connections do not disturb each other. -/

namespace Modbus

open Spec
open Props (msgsOf sendsOf msgsOf_append sendsOf_append SReach)

variable {W : Type}

/-- A receiver that has received whole frames only is ready for the next. -/
theorem rep_idle {pol : CopyPolicy} {mem : List UInt8} (hm : mem.length = 260) {chunks : List (List UInt8)} {p : Parser} {out : List Mbap}
    (hf : (Parser.init pol mem).feed chunks = .ret (p, out)) {fs : List Frame} (hs : Splits chunks.flatten fs []) (hl : ∀ f, fs.getLast? = some f → f.len.toNat ≠ 1) :
    Rep p [] := by
  obtain ⟨p', out', fs', pend, h1, h2, h3, h4, h5, h6, h7⟩ := feed_spec chunks _ [] (rep_init pol mem hm)
  rw [hf] at h1
  injection h1 with h1
  injection h1 with h1 h1'
  subst h1
  rw [List.nil_append] at h3
  rcases h6.incomplete with hi | ⟨f, hf1, hf2, rfl⟩
  · obtain ⟨-, rfl⟩ := splits_unique hs ⟨h4, hi, h3⟩
    exact h6
  · exfalso
    have : Splits chunks.flatten (fs' ++ [f]) [] := by
      refine ⟨fun g hg => ?_, incomplete_short (by simp), ?_⟩
      · rcases List.mem_append.1 hg with hg | hg
        · exact h4 g hg
        · rw [List.mem_singleton.1 hg]; exact hf1
      · rw [h3]; simp [streamOf]
    obtain ⟨rfl, -⟩ := splits_unique hs this
    exact hl f (by simp) hf2

namespace Asv

/-- Data arrives, is answered, and the answer goes out. -/
theorem serve_open {v : Asv} {i c : Nat} (ho : (v.conns c).isOpen = true) (hc : (v.conns c).connected = true) (hf : v.flying[i]? = some (.read c)) {bytes reply : List UInt8}
    (h1 : 1 ≤ bytes.length ∧ bytes.length ≤ 4096) (hr : 1 ≤ reply.length) : ∃ v1 v2 v3, v.step (.complete i (.data bytes)) = .ret v1 ∧ v1.log = v.log ∧ v1.queue[v.queue.length]? = some (.read c (some bytes)) ∧
      v1.step (.run v.queue.length [reply]) = .ret v2 ∧ v2.log = v.log ++ [.receive c bytes, .asked c reply, .submit c reply] ∧
      v2.step (.complete (v.flying.length - 1) (.sent reply.length)) = .ret v3 ∧ v3.log = v2.log ++ [.wire c reply] ∧
      v3.flying = v.flying.eraseIdx i ++ [.read c] ∧ v3.queue = v.queue ++ [.written c true] := by
  have hi : i < v.flying.length := by
    by_contra hx
    rw [List.getElem?_eq_none (by omega)] at hf; cases hf
  refine ⟨{ v with flying := v.flying.eraseIdx i, queue := v.queue ++ [.read c (some bytes)] },
    { v with flying := v.flying.eraseIdx i ++ [.write c v.nextBuf reply] ++ [.read c], nextBuf := v.nextBuf + 1,
             conns := fun d => if d = c then { v.conns c with wbuf := some (v.nextBuf, reply) } else v.conns d,
             log := v.log ++ [.receive c bytes, .asked c reply, .submit c reply] },
    { v with flying := v.flying.eraseIdx i ++ [.read c], nextBuf := v.nextBuf + 1, queue := v.queue ++ [.written c true],
             conns := fun d => if d = c then { v.conns c with wbuf := some (v.nextBuf, reply) } else v.conns d,
             log := v.log ++ [.receive c bytes, .asked c reply, .submit c reply] ++ [.wire c reply] }, ?_, rfl, by simp, ?_, rfl, ?_, rfl, rfl, rfl⟩
  · simp [Asv.step, Asv.complete, hf, h1, Asv.post]
  · simp only [Asv.step, List.getElem?_append_right (Nat.le_refl _), Nat.sub_self, List.getElem?_cons_zero]
    simp only [Asv.runTask, Asv.onRead, Asv.sendAll, Asv.send, Asv.sendBuffer, Asv.emit, Asv.setConn, if_pos, hc, ho, Asv.beginRead]
    rw [List.eraseIdx_append_of_length_le (Nat.le_refl _)]
    simp
  · have hlen : (v.flying.eraseIdx i).length = v.flying.length - 1 := by rw [List.length_eraseIdx_of_lt hi]
    have hget : (v.flying.eraseIdx i ++ [AOp.write c v.nextBuf reply] ++ [AOp.read c])[v.flying.length - 1]? = some (.write c v.nextBuf reply) := by
      rw [List.append_assoc, List.getElem?_append_right (by omega), hlen, Nat.sub_self]; rfl
    have her : (v.flying.eraseIdx i ++ [AOp.write c v.nextBuf reply] ++ [AOp.read c]).eraseIdx (v.flying.length - 1) = v.flying.eraseIdx i ++ [.read c] := by
      rw [List.append_assoc, List.eraseIdx_append_of_length_le (by omega), hlen, Nat.sub_self]; rfl
    simp only [Asv.step, Asv.complete]
    rw [hget, her]
    simp [hr, Asv.emit, Asv.post]

/-- The same, on a server without exceptions. -/
theorem serve {v : Asv} (hdn : Dn v) {i c : Nat} (hf : v.flying[i]? = some (.read c)) {bytes reply : List UInt8} (h1 : 1 ≤ bytes.length ∧ bytes.length ≤ 4096)
    (hr : 1 ≤ reply.length) : ∃ v1 v2 v3, v.step (.complete i (.data bytes)) = .ret v1 ∧ v1.log = v.log ∧ v1.queue[v.queue.length]? = some (.read c (some bytes)) ∧
      v1.step (.run v.queue.length [reply]) = .ret v2 ∧ v2.log = v.log ++ [.receive c bytes, .asked c reply, .submit c reply] ∧
      v2.step (.complete (v.flying.length - 1) (.sent reply.length)) = .ret v3 ∧ v3.log = v2.log ++ [.wire c reply] ∧
      v3.flying = v.flying.eraseIdx i ++ [.read c] ∧ v3.queue = v.queue ++ [.written c true] :=
  serve_open (hdn.fo _ (List.mem_of_getElem? hf) c rfl).1 (hdn.fo _ (List.mem_of_getElem? hf) c rfl).2 hf h1 hr

end Asv

namespace Svk

/-- A whole request arriving on an idle connection. -/
theorem answered {env : ServerEnv W} {w : W} {max : UInt32} {v : Svk W} (h : VReach env w max v) {i c : Nat} (hf : v.asv.flying[i]? = some (.read c))
    (herr : AEv.error c ∉ v.asv.log) {fs : List Frame} (hsp : Splits (asvReceived c v.asv.log).flatten fs []) (hl : ∀ f, fs.getLast? = some f → f.len.toNat ≠ 1)
    {m : Mbap} (hm : Ordinary m) {sent : List SEv} {reply : List UInt8} (hr : 1 ≤ reply.length)
    (hh : ∀ ls, ∃ u', ({ v.srv with listeners := ls } : Srv W).onMbap env c m = .ret u' ∧ u'.log = v.srv.log ++ sent) (hse : sendsOf c sent = [reply]) (mem : Vector UInt8 260) :
    ∃ v', v.run env [.complete i (.data (frameOf m).bytes), .run v.asv.queue.length mem, .complete (v.asv.flying.length - 1) (.sent reply.length)] = .ret v' ∧
      svLog v'.log = svLog v.log ++ sent ∧ cnLog v'.log = cnLog v.log ++ [.receive c (frameOf m).bytes, .asked c reply, .submit c reply, .wire c reply] ∧
      v'.asv.flying = v.asv.flying.eraseIdx i ++ [.read c] ∧ v'.asv.queue = v.asv.queue ++ [.written c true] ∧
      ∃ ls, ({ v.srv with listeners := ls } : Srv W).onMbap env c m = .ret v'.srv := by
  have hok := h.ok
  have hlen : (frameOf m).bytes.length = 7 + m.data.length := by simp [frameOf, Frame.bytes, be]; omega
  have hb : 1 ≤ (frameOf m).bytes.length ∧ (frameOf m).bytes.length ≤ 4096 := by have := hm.2; omega
  obtain ⟨a1, a2, a3, s1, e1, q1, s2, e2, s3, e3, hrd⟩ := Asv.serve hok.asv.dn hf hb hr
  obtain ⟨p, hp⟩ := hok.lis c (Or.inr (Or.inl ⟨_, List.mem_of_getElem? hf, rfl⟩))
  obtain ⟨mem0, hm0, hfd⟩ := (hok.frm c herr).2 p hp
  have hrep := rep_idle hm0 hfd hsp hl
  obtain ⟨p', ms, ms', pend', hparse, -, hrep', hms, hpend⟩ := parse_stream hrep [m] (by simpa using hm) (frameOf m).bytes [] (by simp [streamOf])
  rw [List.append_nil] at hpend
  have hms' : ms' = [] := rep_whole hrep' (fun x hx => by
    have : x ∈ [m] := by rw [hms]; exact List.mem_append_right _ hx
    rw [List.mem_singleton.1 this]; exact hm) hpend
  subst hms'
  rw [List.append_nil] at hms
  subst hms
  obtain ⟨s, hs1, hs2⟩ := hh (Srv.setListener v.srv.listeners c p')
  have hst : v.srv.step env (.receive c (frameOf m).bytes) = .ret s := by
    simp only [Srv.step, hp, hparse, CM.ret_bind, Srv.onMbaps, hs1]
  have hn1 : v.step env (.complete i (.data (frameOf m).bytes)) = .ret { v with asv := a1, steps := v.steps ++ [(v.asv, .complete i (.data (frameOf m).bytes))] } := by
    simp only [Svk.step, net, s1, CM.ret_bind, CM.pure_eq, e1]
    simp
  have hdrop : s.log.drop v.srv.log.length = sent := by rw [hs2, List.drop_left]
  have hn2 : Svk.step env { v with asv := a1, steps := v.steps ++ [(v.asv, .complete i (.data (frameOf m).bytes))] } (.run v.asv.queue.length mem) =
      .ret { srv := s, asv := a2, log := v.log ++ [VEv.net (.receive c (frameOf m).bytes)] ++ sent.map .ch ++ [VEv.net (.asked c reply), VEv.net (.submit c reply)], steps := v.steps ++ [(v.asv, .complete i (.data (frameOf m).bytes))] ++ [(a1, .run v.asv.queue.length [reply])] } := by
    simp only [Svk.step, q1, receive, hst, CM.ret_bind, hdrop, answers_eq, hse, s2, CM.pure_eq, e2, e1, List.drop_left]
    simp
  have hn3 : Svk.step env { srv := s, asv := a2, log := v.log ++ [VEv.net (.receive c (frameOf m).bytes)] ++ sent.map .ch ++ [VEv.net (.asked c reply), VEv.net (.submit c reply)], steps := v.steps ++ [(v.asv, .complete i (.data (frameOf m).bytes))] ++ [(a1, .run v.asv.queue.length [reply])] } (.complete (v.asv.flying.length - 1) (.sent reply.length)) =
      .ret { srv := s, asv := a3, log := v.log ++ [VEv.net (.receive c (frameOf m).bytes)] ++ sent.map .ch ++ [VEv.net (.asked c reply), VEv.net (.submit c reply)] ++ [VEv.net (.wire c reply)], steps := v.steps ++ [(v.asv, .complete i (.data (frameOf m).bytes))] ++ [(a1, .run v.asv.queue.length [reply])] ++ [(a2, .complete (v.asv.flying.length - 1) (.sent reply.length))] } := by
    simp only [Svk.step, net, s3, CM.ret_bind, CM.pure_eq, e3, List.drop_left]
    simp
  refine ⟨{ srv := s, asv := a3, log := v.log ++ [VEv.net (.receive c (frameOf m).bytes)] ++ sent.map .ch ++ [VEv.net (.asked c reply), VEv.net (.submit c reply)] ++ [VEv.net (.wire c reply)], steps := v.steps ++ [(v.asv, .complete i (.data (frameOf m).bytes))] ++ [(a1, .run v.asv.queue.length [reply])] ++ [(a2, .complete (v.asv.flying.length - 1) (.sent reply.length))] }, ?_, ?_, ?_, hrd.1, hrd.2, _, hs1⟩
  · simp only [run, hn1, hn2, hn3, CM.ret_bind]
  · simp only [svLog_append, svLog_ch]
    simp [svLog]
  · simp only [cnLog_append, cnLog_ch]
    simp [cnLog]

theorem filter_received {c : Nat} {l l' : List AEv} (h : l'.filter (Asv.relEv false c) = l.filter (Asv.relEv false c)) :
    asvReceived c l' = asvReceived c l ∧ asvAsked c l' = asvAsked c l ∧ asvSubmits c l' = asvSubmits c l ∧ asvWires c l' = asvWires c l ∧
      (AEv.error c ∈ l' ↔ AEv.error c ∈ l) := by
  have key : ∀ (f : AEv → Option (List UInt8)), (∀ e, Asv.relEv false c e = false → f e = none) → ∀ l : List AEv, l.filterMap f = (l.filter (Asv.relEv false c)).filterMap f := by
    intro f hf l
    induction l with
    | nil => rfl
    | cons e l ih =>
      cases hr : Asv.relEv false c e with
      | false => simp only [List.filterMap_cons, hf e hr, List.filter_cons, hr, Bool.false_eq_true, if_false]; exact ih
      | true => simp only [List.filterMap_cons, List.filter_cons, hr, if_true]; rw [ih]
  have step : ∀ (f : AEv → Option (List UInt8)), (∀ e, Asv.relEv false c e = false → f e = none) → l'.filterMap f = l.filterMap f := by
    intro f hf
    rw [key f hf l', key f hf l, h]
  refine ⟨step _ ?_, step _ ?_, step _ ?_, step _ ?_, ?_⟩
  · clear key step h; intro e he; cases e <;> simp_all [Asv.relEv, Asv.evConn, Asv.evExist]
  · clear key step h; intro e he; cases e <;> simp_all [Asv.relEv, Asv.evConn, Asv.evExist]
  · clear key step h; intro e he; cases e <;> simp_all [Asv.relEv, Asv.evConn, Asv.evExist]
  · clear key step h; intro e he; cases e <;> simp_all [Asv.relEv, Asv.evConn, Asv.evExist]
  have hm : ∀ l : List AEv, AEv.error c ∈ l ↔ AEv.error c ∈ l.filter (Asv.relEv false c) := fun l => by clear key step h; simp [List.mem_filter, Asv.relEv, Asv.evConn, Asv.evExist]
  rw [hm l', hm l, h]

theorem Calm.apart {a b : Asv} (h : Calm a b) (c : Nat) : Asv.Apart false c a b := by
  obtain ⟨ts, h1, h2⟩ := h.queue
  refine ⟨by rw [h.conns], by rw [h.flying], ?_, fun hx => (by cases hx), by rw [h.log]⟩
  rw [h1, List.filter_append, Asv.filter_nil_of (l := ts), List.append_nil]
  intro t ht
  rcases h2 t ht with rfl | rfl <;> simp [Asv.relTask, Asv.taskConn]

/-- What running a task of the connections does to the channel. -/
theorem run_srv {env : ServerEnv W} {v v' : Svk W} {k : Nat} {mem : Vector UInt8 260} (hs : v.step env (.run k mem) = .ret v') :
    v'.srv = v.srv ∨ ∃ t d o, v.asv.queue[k]? = some t ∧ Asv.taskOf t = some d ∧ (o = .opened d mem ∨ o = .error d ∨ ∃ bytes, o = .receive d bytes) ∧ v.srv.step env o = .ret v'.srv := by
  have hnet : ∀ (u : Svk W), v.net (.run k []) = .ret u → u.srv = v.srv := by
    intro u hu
    obtain ⟨a, es, h1, -, -, rfl⟩ := net_spec hu
    rfl
  have hlis : ∀ (t : ATask) (d : Nat) (o : Srv.Op), v.asv.queue[k]? = some t → Asv.taskOf t = some d → (o = .opened d mem ∨ o = .error d) → (do let w ← v.net (.run k []); w.chan env o) = .ret v' →
      v'.srv = v.srv ∨ ∃ t d o, v.asv.queue[k]? = some t ∧ Asv.taskOf t = some d ∧ (o = .opened d mem ∨ o = .error d ∨ ∃ bytes, o = .receive d bytes) ∧ v.srv.step env o = .ret v'.srv := by
    intro t d o ht hd ho hx
    cases hn : v.net (.run k []) with
    | ub => rw [hn] at hx; cases hx
    | ret u =>
      rw [hn] at hx
      simp only [CM.ret_bind] at hx
      have a3 := hnet u hn
      obtain ⟨s, h4, h5, rfl⟩ := listener_spec (ho.imp (fun h => ⟨d, mem, h⟩) fun h => ⟨d, h⟩) hx
      rw [a3] at h4
      exact Or.inr ⟨t, d, o, ht, hd, ho.imp id Or.inl, h4⟩
  simp only [Svk.step] at hs
  split at hs
  · rename_i c hk
    cases hd : v.asv.isShutdown with
    | true =>
      simp only [hd, if_true] at hs
      cases hn : v.net (.run k []) with
      | ub => rw [hn] at hs; cases hs
      | ret u =>
        rw [hn] at hs
        simp only [CM.ret_bind, CM.pure_eq] at hs
        injection hs with hs; subst hs
        exact Or.inl (hnet u hn)
    | false =>
      simp only [hd, Bool.false_eq_true, if_false] at hs
      exact hlis _ c _ hk rfl (Or.inl rfl) hs
  · rename_i c bytes hk
    simp only [receive] at hs
    cases hst : v.srv.step env (.receive c bytes) with
    | ub => rw [hst] at hs; cases hs
    | ret s =>
      rw [hst] at hs
      simp only [CM.ret_bind] at hs
      cases ha : v.asv.step (.run k (answers c (s.log.drop v.srv.log.length))) with
      | ub => rw [ha] at hs; cases hs
      | ret a =>
        rw [ha] at hs
        simp only [CM.ret_bind, CM.pure_eq] at hs
        injection hs with hs; subst hs
        exact Or.inr ⟨_, c, _, hk, rfl, Or.inr (Or.inr ⟨bytes, rfl⟩), hst⟩
  · rename_i c hk; exact hlis _ c _ hk rfl (Or.inr rfl) hs
  · rename_i c hk; exact hlis _ c _ hk rfl (Or.inr rfl) hs
  · exact Or.inl (hnet v' hs)

/-- An event on connection `d` does not concern connection `c`'s listener. -/
theorem srv_apart {env : ServerEnv W} {v v' : Srv W} {o : Srv.Op} {c d : Nat} (hcd : d ≠ c) (ho : (∃ mem, o = .opened d mem) ∨ o = .error d ∨ ∃ bytes, o = .receive d bytes)
    (hs : v.step env o = .ret v') : v'.listeners.lookup c = v.listeners.lookup c ∧ msgsOf c v'.log = msgsOf c v.log ∧ sendsOf c v'.log = sendsOf c v.log := by
  rcases ho with ⟨mem, rfl⟩ | rfl | ⟨bytes, rfl⟩
  · simp only [Srv.step] at hs
    split at hs
    · injection hs with hs; subst hs; exact ⟨rfl, rfl, rfl⟩
    · injection hs with hs; subst hs
      refine ⟨?_, rfl, rfl⟩
      show List.lookup c (v.listeners ++ _) = _
      rw [Srv.lookup_append_single, if_neg (Ne.symm hcd)]
      simp
  · simp only [Srv.step] at hs
    split at hs
    · injection hs with hs; subst hs; exact ⟨rfl, rfl, rfl⟩
    · injection hs with hs; subst hs
      exact ⟨Srv.lookup_setListener_other _ _ _ _ hcd, rfl, rfl⟩
  · obtain ⟨rfl, -⟩ | ⟨p, p', ms, new, -, -, hre, hls, hlog⟩ := receive_step hs
    · exact ⟨rfl, rfl, rfl⟩
    · refine ⟨by rw [hls]; exact Srv.lookup_setListener_other _ _ _ _ hcd, ?_, ?_⟩
      · rw [Props.msgsOf_reacts hre c, if_neg hcd, List.append_nil]
      · rw [hlog, sendsOf_append, sendsOf_reacts hre hcd hlog, List.append_nil]

theorem step_independent {env : ServerEnv W} {w : W} {max : UInt32} {v v' : Svk W} (h : Ok env w max v) {op : Op} (hs : v.step env op = .ret v') {c : Nat}
    (hn : ¬Concerns v.asv c op) : Asv.Apart false c v.asv v'.asv ∧ v'.srv.listeners.lookup c = v.srv.listeners.lookup c ∧ msgsOf c v'.srv.log = msgsOf c v.srv.log ∧
      sendsOf c v'.srv.log = sendsOf c v.srv.log := by
  cases op with
  | chan o =>
    simp only [Svk.step] at hs
    split at hs
    · rename_i ho
      simp only [chan] at hs
      cases hst : v.srv.step env o with
      | ub => rw [hst] at hs; cases hs
      | ret s =>
        rw [hst] at hs
        obtain ⟨h1, new, h2, h3⟩ := own_step ho hst
        simp only [CM.ret_bind, h2, List.drop_left] at hs
        obtain ⟨u, b1, b2, b3, b4, b5, b6, b7, b8⟩ := relay_spec new ({ v with srv := s } : Svk W)
        rw [b1] at hs; injection hs with hs; subst hs
        refine ⟨b5.apart c, by rw [b2, ← h1], ?_, ?_⟩
        · rw [b2]; show msgsOf c s.log = _; rw [h2, msgsOf_append, (noTraffic_msgs h3 c).1, List.append_nil]
        · rw [b2]; show sendsOf c s.log = _; rw [h2, sendsOf_append, (noTraffic_msgs h3 c).2, List.append_nil]
    · injection hs with hs; subst hs; exact ⟨.refl _, rfl, rfl, rfl⟩
  | complete i r =>
    obtain ⟨a, es, h1, h2, h3, rfl⟩ := net_spec hs
    refine ⟨Asv.step_apart h1 ?_, rfl, rfl, rfl⟩
    rintro ⟨o, ho, hc⟩
    refine hn ?_
    cases o with
    | accept d => rw [show d = c from hc] at ho; exact Or.inl ho
    | read d => rw [show d = c from hc] at ho; exact Or.inr (Or.inl ho)
    | write d b x => rw [show d = c from hc] at ho; exact Or.inr (Or.inr ⟨b, x, ho⟩)
  | run k mem =>
    obtain ⟨rs, h1, -⟩ := run_asv h hs
    have hnt : ∀ t, v.asv.queue[k]? = some t → Asv.taskOf t ≠ some c := by
      intro t ht hc
      refine hn ?_
      cases t with
      | startAccept => cases hc
      | shutdown => cases hc
      | close d => injection hc with hc; subst hc; exact Or.inl ht
      | accepted d ok => injection hc with hc; subst hc; exact Or.inr (Or.inl ⟨ok, ht⟩)
      | read d r => injection hc with hc; subst hc; exact Or.inr (Or.inr (Or.inl ⟨r, ht⟩))
      | written d ok => injection hc with hc; subst hc; exact Or.inr (Or.inr (Or.inr ⟨ok, ht⟩))
    refine ⟨Asv.step_apart h1 ?_, ?_⟩
    · rintro ⟨t, ht, hc | ⟨hx, -⟩⟩
      · exact hnt t ht hc
      · cases hx
    · rcases run_srv hs with he | ⟨t, d, o, ht, hd, ho, hst⟩
      · rw [he]; exact ⟨rfl, rfl, rfl⟩
      · refine srv_apart (d := d) ?_ ?_ hst
        · rintro rfl; exact hnt t ht hd
        · rcases ho with ho | ho | ho
          · exact Or.inl ⟨mem, ho⟩
          · exact Or.inr (Or.inl ho)
          · exact Or.inr (Or.inr ho)

end Svk

end Modbus
