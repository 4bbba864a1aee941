import Verif.Lemmas.WorldLive

/-! Helper lemmas: the server accepts a connection and answers the first request on it. -/

namespace Modbus

open Spec
open Props (msgsOf sendsOf msgsOf_append sendsOf_append SReach)

variable {W : Type}

theorem feed_nothing {pol : CopyPolicy} {mem : List UInt8} (hm : mem.length = 260) {chunks : List (List UInt8)} (hc : chunks.flatten = []) {p : Parser}
    {out : List Mbap} (hf : (Parser.init pol mem).feed chunks = .ret (p, out)) : out = [] := by
  obtain ⟨p', out', fs', pend, h1, h2, h3, h4, h5, h6, h7⟩ := feed_spec chunks _ [] (rep_init pol mem hm)
  rw [hf] at h1
  injection h1 with h1
  injection h1 with h1 h1'
  subst h1'
  rw [hc, List.append_nil] at h3
  have : fs' = [] := by
    cases fs' with
    | nil => rfl
    | cons f fs =>
      exfalso
      have := congrArg List.length h3
      simp [streamOf, Frame.bytes, be] at this
  subst this
  simpa using h5

/-- A connection that is being accepted and has received nothing is untouched. -/
theorem Svk.untouched {env : ServerEnv W} {w : W} {max : UInt32} {v : Svk W} (h : VReach env w max v) {c : Nat} (hf : AOp.accept c ∈ v.asv.flying)
    (hg : Asv.got c v.asv = []) :
    AEv.error c ∉ v.asv.log ∧ (asvReceived c v.asv.log).flatten = [] ∧ asvWires c v.asv.log = [] ∧ (v.asv.conns c).wbuf = none := by
  have hok := h.ok
  have hi := hok.asv.inv
  have hsb := hok.asv.sb
  have herr : AEv.error c ∉ v.asv.log := by
    intro he
    obtain ⟨⟨-, ht⟩, -⟩ := hi.errLive c he
    have : 0 < v.asv.flying.countP (Asv.tokOp c) := List.countP_pos_iff.2 ⟨_, hf, by simp [Asv.tokOp]⟩
    simp only [Asv.tok] at ht; omega
  have hrec : (asvReceived c v.asv.log).flatten = [] := (List.append_eq_nil_iff.1 hg).1
  have hmsg : msgsOf c v.srv.log = [] := by
    obtain ⟨f1, f2⟩ := hok.frm c herr
    cases hl : v.srv.listeners.lookup c with
    | none => exact (f1 hl).2
    | some p =>
      obtain ⟨mem, hm, hfd⟩ := f2 p hl
      exact feed_nothing hm hrec hfd
  have hsend : sendsOf c v.srv.log = [] := by
    obtain ⟨sub, s1, s2⟩ := Props.C23_at_most_one_response env v.srv hok.sreach c
    rw [hmsg] at s1
    rw [List.sublist_nil.1 s1] at s2
    simpa using s2
  have hask : asvAsked c v.asv.log = [] := by rw [hok.asked, hsend]
  have hna : ∀ d, AEv.asked c d ∉ v.asv.log := by
    intro d hd
    have : d ∈ asvAsked c v.asv.log := by simp only [asvAsked, List.mem_filterMap]; exact ⟨_, hd, by simp⟩
    rw [hask] at this; cases this
  refine ⟨herr, hrec, ?_, ?_⟩
  · rw [List.eq_nil_iff_forall_not_mem]
    intro x hx
    obtain ⟨d, hd, -⟩ := hsb.wire c x (by
      simp only [asvWires, List.mem_filterMap] at hx
      obtain ⟨e, he, hx⟩ := hx
      cases e <;> simp at hx
      obtain ⟨rfl, rfl⟩ := hx
      exact he)
    exact hna _ (hsb.sub c d hd)
  · cases hw : (v.asv.conns c).wbuf with
    | none => rfl
    | some x => exact absurd (hsb.buf c x.1 x.2 hw) (hna _)

/-- An accept completes, the connection joins and is read from, and the next accept begins. -/
theorem Svk.accepts {env : ServerEnv W} {w : W} {max : UInt32} {v : Svk W} (h : VReach env w max v) {i c : Nat} (hf : v.asv.flying[i]? = some (.accept c))
    (hq : v.asv.queue = []) (hroom : v.asv.num < v.asv.max) (hg : Asv.got c v.asv = []) (mem : Vector UInt8 260) :
    ∃ v3 ls, v.run env [.complete i .ok, .run 0 mem, .run 0 mem] = .ret v3 ∧ v3.srv = { v.srv with listeners := ls } ∧ v3.asv.queue = [] ∧
      v3.asv.flying = v.asv.flying.eraseIdx i ++ [.read c, .accept v.asv.nextConn] ∧ v3.log = v.log ++ [.net (.joined c)] := by
  obtain ⟨-, -, -, hw⟩ := Svk.untouched h (List.mem_of_getElem? hf) hg
  have hd : v.asv.isShutdown = false := by
    cases hd : v.asv.isShutdown with
    | false => rfl
    | true => exact absurd (List.mem_of_getElem? hf) ((h.ok.asv.dn.na hd).2 c)
  have hle : ¬ v.asv.max < v.asv.num + 1 := by
    rw [UInt32.lt_iff_toNat_lt] at hroom ⊢
    rw [UInt32.toNat_add]
    have := v.asv.max.toNat_lt
    simp at *
    omega
  obtain ⟨s, asv, lg, st⟩ := v
  obtain ⟨sd, mx, nm, ls, cn, nc, nb, sts, fl, qu, al⟩ := asv
  simp only at hf hq hw hd hle; subst hq hd
  obtain ⟨s', hs1, ls', hs2⟩ : ∃ s', s.step env (.opened c mem) = .ret s' ∧ ∃ ls, s' = { s with listeners := ls } := by
    simp only [Srv.step]
    split
    · exact ⟨_, rfl, s.listeners, rfl⟩
    · exact ⟨_, rfl, _, rfl⟩
  subst hs2
  simp [Svk.run, Svk.step, Svk.net, Asv.step, Asv.complete, hf, Asv.setConn, Asv.post, Asv.runTask, Asv.onAccepted, Asv.emit, hle, Asv.startConn, Asv.sendBuffer, hw,
    Asv.beginRead, Asv.startAccept, Svk.chan, hs1, Svk.relay, Asv.runStartAccept]
  rw [List.drop_eq_nil_of_le (by simp), List.drop_eq_nil_of_le (by simp)]; rfl

/-- The server reads from connection `c`, has nothing else to do, and has received nothing but whole messages on the connection, which had no error. -/
structure Svk.Serving (v : Svk W) (c i : Nat) : Prop where
  up : v.srv.isShutdown = false
  reading : v.asv.flying[i]? = some (.read c)
  calm : v.asv.queue = []
  noError : AEv.error c ∉ v.asv.log
  whole : WholeMsgs (asvReceived c v.asv.log).flatten

/-- A connection just accepted is served. -/
theorem Svk.accepts_serving {env : ServerEnv W} {w : W} {max : UInt32} {v : Svk W} (h : VReach env w max v) {i c : Nat} (hf : v.asv.flying[i]? = some (.accept c))
    (hq : v.asv.queue = []) (hroom : v.asv.num < v.asv.max) (hg : Asv.got c v.asv = []) (hsd : v.srv.isShutdown = false) (mem : Vector UInt8 260) :
    ∃ v3, v.run env [.complete i .ok, .run 0 mem, .run 0 mem] = .ret v3 ∧ v3.log = v.log ++ [.net (.joined c)] ∧ v3.Serving c (v.asv.flying.length - 1) ∧
      v3.asv.flying.length - 1 = v.asv.flying.length ∧ v3.srv.sessions = v.srv.sessions ∧ v3.srv.world = v.srv.world := by
  obtain ⟨herr, hrec, -, -⟩ := Svk.untouched h (List.mem_of_getElem? hf) hg
  obtain ⟨v3, ls, a1, a2, a3, a4, a5⟩ := Svk.accepts h hf hq hroom hg mem
  have hi : i < v.asv.flying.length := by
    by_contra hx
    rw [List.getElem?_eq_none (by omega)] at hf; cases hf
  have hel : (v.asv.flying.eraseIdx i).length = v.asv.flying.length - 1 := List.length_eraseIdx_of_lt hi
  have hf3 : v3.asv.flying[v.asv.flying.length - 1]? = some (.read c) := by
    rw [a4, List.getElem?_append_right (by omega), hel, Nat.sub_self]; rfl
  have hl3 : v3.asv.flying.length - 1 = v.asv.flying.length := by rw [a4, List.length_append, hel]; simp; omega
  have r3 : VReach env w max v3 := Svk.run_reach _ h a1
  have hlog3 : v3.asv.log = v.asv.log ++ [.joined c] := by rw [← r3.ok.cnl, ← h.ok.cnl, a5, Svk.cnLog_append]; rfl
  refine ⟨v3, a1, a5, ⟨by rw [a2]; exact hsd, hf3, a3, by rw [hlog3]; simpa using herr, ?_⟩, hl3, by rw [a2], by rw [a2]⟩
  have : (asvReceived c v3.asv.log).flatten = [] := by
    rw [hlog3]; simp only [asvReceived, List.filterMap_append] at hrec ⊢
    rw [List.flatten_append, hrec]; simp
  rw [this]; exact .nil

/-- A request on a connection that is served is answered, and the connection goes on being served. -/
theorem Svk.Serving.answers {env : ServerEnv W} {w : W} {max : UInt32} {v : Svk W} (h : VReach env w max v) {c i : Nat} (hv : v.Serving c i) {m : Mbap} (hm : Ordinary m)
    {s : SessId} (hs : v.srv.sessions.lookup m.unit = some s) {k : Kind} {q : Req k} (hd : Denotes k m.data q)
    (hans : ∀ e, (env.onRequest s k q v.srv.world).2 = .error e → ∃ t, e = .modbus t) (mem : Vector UInt8 260) :
    ∃ pdu v4 v5 v6 v7, Ordinary ⟨m.unit, m.tid, pdu⟩ ∧ ReplyPdu k (env.onRequest s k q v.srv.world).2 pdu ∧
      v.step env (.complete i (.data (frameOf m).bytes)) = .ret v4 ∧ v4.step env (.run 0 mem) = .ret v5 ∧
      v5.step env (.complete (v.asv.flying.length - 1) (.sent (frameOf ⟨m.unit, m.tid, pdu⟩).bytes.length)) = .ret v6 ∧ v6.step env (.run 0 mem) = .ret v7 ∧
      svLog v7.log = svLog v.log ++ [.mbap c m, .request s k q, .send c (frameOf ⟨m.unit, m.tid, pdu⟩).bytes] ∧
      cnLog v7.log = cnLog v.log ++ [.receive c (frameOf m).bytes, .asked c (frameOf ⟨m.unit, m.tid, pdu⟩).bytes, .submit c (frameOf ⟨m.unit, m.tid, pdu⟩).bytes,
        .wire c (frameOf ⟨m.unit, m.tid, pdu⟩).bytes, .writeDone c] ∧
      v7.Serving c (v.asv.flying.length - 1) ∧ v7.srv.sessions = v.srv.sessions ∧ v7.srv.world = (env.onRequest s k q v.srv.world).1 ∧
      v7.asv.flying.length = v.asv.flying.length := by
  obtain ⟨h1, h2, h3, h4, h5⟩ := hv
  obtain ⟨fs, hsp, hl⟩ := h5.splits
  obtain ⟨u, u1, us, u2⟩ := Srv.react_request env v.srv c m k q hd
  rcases u2 with ⟨-, -, hx | hx⟩ | ⟨s', -, hl', hw, hx⟩
  · rw [h1] at hx; cases hx
  · rw [hs] at hx; cases hx
  rw [hs] at hl'; injection hl' with hl'; subst hl'
  rcases hx with ⟨-, e, he, hne⟩ | ⟨pdu, hord, hrep, hlog⟩
  · obtain ⟨t, ht⟩ := hans e he
    exact absurd ht (hne t)
  obtain ⟨reply, hrp⟩ : ∃ reply, reply = (frameOf ⟨m.unit, m.tid, pdu⟩).bytes := ⟨_, rfl⟩
  have hrl : 1 ≤ reply.length := by rw [hrp]; simp [frameOf, Frame.bytes, be]
  obtain ⟨v6, b1, b2, b3, b4, b5, ls, b6⟩ := Svk.answered h h2 h4 hsp hl hm hrl (sent := [.mbap c m, .request s k q, .send c reply])
    (fun l => ⟨_, by simp only [Srv.onMbap_listeners env v.srv c m l, u1, CM.ret_bind]; rfl, by rw [hrp]; exact hlog⟩) (by simp [sendsOf]) mem
  have r6 : VReach env w max v6 := Svk.run_reach _ h b1
  rw [h3, List.length_nil] at b1
  simp only [Svk.run] at b1
  obtain ⟨v4, k4, b1⟩ := (CM.bind_eq_ret).1 b1
  obtain ⟨v5, k5, b1⟩ := (CM.bind_eq_ret).1 b1
  obtain ⟨v6', k6, b1⟩ := (CM.bind_eq_ret).1 b1
  injection b1 with b1; subst b1
  simp only [Srv.onMbap_listeners env v.srv c m ls, u1, CM.ret_bind] at b6
  injection b6 with b6
  rw [h3, List.nil_append] at b5
  have hi : i < v.asv.flying.length := by
    by_contra hx
    rw [List.getElem?_eq_none (by omega)] at h2; cases h2
  have hel : (v.asv.flying.eraseIdx i).length = v.asv.flying.length - 1 := List.length_eraseIdx_of_lt hi
  obtain ⟨v7, k7, c1, c2, c3, c4⟩ : ∃ v7, v6'.step env (.run 0 mem) = .ret v7 ∧ v7.srv = v6'.srv ∧ v7.log = v6'.log ++ [.net (.writeDone c)] ∧ v7.asv.flying = v6'.asv.flying ∧
      v7.asv.queue = [] := by
    obtain ⟨sv, asv, lg, st⟩ := v6'
    obtain ⟨sd, mx, nm, li, cn, nc, nb, sts, fl, qu, al⟩ := asv
    simp only at b5; subst b5
    simp [Svk.step, Svk.net, Asv.step, Asv.runTask, Asv.onWritten, Asv.emit, Asv.setConn]
  have r7 : VReach env w max v7 := .step r6 k7
  have hcn : cnLog v7.log = cnLog v.log ++ [.receive c (frameOf m).bytes, .asked c reply, .submit c reply, .wire c reply, .writeDone c] := by
    rw [c2, Svk.cnLog_append, b3]; simp [cnLog]
  have hal : v7.asv.log = v.asv.log ++ [.receive c (frameOf m).bytes, .asked c reply, .submit c reply, .wire c reply, .writeDone c] := by
    rw [← r7.ok.cnl, hcn, h.ok.cnl]
  have hse : v7.srv.sessions = v.srv.sessions ∧ v7.srv.isShutdown = v.srv.isShutdown ∧ v7.srv.world = u.world := by
    rw [c1, ← b6]; exact ⟨us.sessions, us.isShutdown, rfl⟩
  refine ⟨pdu, v4, v5, v6', v7, hord, hrep, k4, k5, by rw [← hrp]; exact k6, k7, ?_, ?_, ⟨?_, ?_, c4, ?_, ?_⟩, hse.1, by rw [hse.2.2, hw], ?_⟩
  · rw [c2, Svk.svLog_append, b2, ← hrp]; simp [svLog]
  · rw [hcn, ← hrp]
  · rw [hse.2.1]; exact h1
  · rw [c3, b4, List.getElem?_append_right (by omega), hel, Nat.sub_self]; rfl
  · rw [hal]; simpa using h4
  · rw [hal]
    have : asvReceived c (v.asv.log ++ [.receive c (frameOf m).bytes, .asked c reply, .submit c reply, .wire c reply, .writeDone c]) = asvReceived c v.asv.log ++ [(frameOf m).bytes] := by
      simp [asvReceived, List.filterMap_append]
    rw [this, List.flatten_append]
    simpa using h5.snoc hm
  · rw [c3, b4, List.length_append, hel]; simp; omega

end Modbus
