import Verif.Lemmas.ServerThrowing
import Verif.Props.ServerStack

/-!
C134: sessions that throw.

The library catches nothing.  A session that throws from `on_request` gets no answer sent, and the connection its request came from is not read any more, although it
stays open and counts as one of the connections of the server.  A session that throws from `shutdown` keeps the sessions after it from being told, and those before it are told
again by the next `shutdown`.
-/

namespace Modbus.Props

open Modbus Srv

variable {W : Type}

/-- The sessions told to shut down. -/
def toldOf (l : List SEv) : List SessId :=
  l.filterMap fun e => match e with
    | .sessionShutdown s => some s
    | _ => none

/-- What can be reached with sessions that may throw. -/
def STReach (env : ServerEnv W) (th : SThrows W) (v : SrvT W) : Prop := ∃ w ops, (SrvT.init w).run env th ops = .ret v

/-- What one would like: whatever sessions throw, every open connection hands over the messages it receives, and the shutdown tells every registered session exactly once. -/
def C134_Statement : Prop := ∀ (W : Type) (env : ServerEnv W) (th : SThrows W) (w : W) (ops : List Op) (v : SrvT W), (SrvT.init w).run env th ops = .ret v →
  (∀ c, ∃ outs, List.Forall₂ (FramedAs env.pol) (phases c none ops) outs ∧ msgsOf c v.srv.log = outs.flatten) ∧
  (v.srv.isShutdown = false → v.srv.tasks.head? = some .shutdown → ∀ ops' v', v.run env th (.runTask :: ops') = .ret v' →
    toldOf v'.srv.log = v.srv.sessions.map (·.2))

/-- Session 0 throws whatever it is asked. -/
def moody : SThrows Nat := { request := fun s _ _ _ => s == 0, shutdown := fun s _ => s == 0 }

/-- A client sends two requests to session 0, one after the other. -/
def twoRequests : List Op := demoOps ++ [.opened 5 (Vector.replicate 260 0), .receive 5 vread, .receive 5 vread]

/-- Nothing is undefined, whatever sessions throw. -/
theorem C134_defined (env : ServerEnv W) (th : SThrows W) (w : W) (ops : List Op) : ∃ v, (SrvT.init w).run env th ops = .ret v := by
  obtain ⟨-, -, v, h, -⟩ := (SimS.init th w).run (env := env) ops (WF.init _ w)
  exact ⟨v, h⟩

/-- Reads a defined result. -/
def sees {α : Type} (x : CM α) (p : α → Bool) : Bool :=
  match x with
  | .ub => false
  | .ret v => p v

/-- C134 does not hold: the second request of a client is not received after the first made its session throw. -/
theorem C134_violated : ¬ C134_Statement := by
  intro h
  obtain ⟨v, hv⟩ := C134_defined (demo 0) moody 0 twoRequests
  have hs : sees ((SrvT.init 0).run (demo 0) moody twoRequests) (fun v => msgsOf 5 v.srv.log = [demoRead 1]) = true := by decide +kernel
  rw [hv] at hs
  simp only [sees, decide_eq_true_eq] at hs
  obtain ⟨outs, h1, h2⟩ := (h Nat (demo 0) moody 0 twoRequests v hv).1 5
  have hph : phases 5 none twoRequests = [[vread, vread]] := by decide +kernel
  rw [hph] at h1
  obtain ⟨out, outs', ⟨mem, hmem, p, hp⟩, h3, rfl⟩ := List.forall₂_cons_left_iff.1 h1
  cases h3
  obtain ⟨p', hp'⟩ := C15_framing_round_trip (demo 0).pol mem hmem [demoRead 1, demoRead 1] (by simp [demoRead]) [vread, vread] (by decide)
  rw [hp] at hp'
  injection hp' with hp'; injection hp' with _ hp'
  rw [hs, hp'] at h2
  simp at h2

/-- C134, the other half: with two sessions of which the first throws, the second is not told to shut down, and if `shutdown` is called again the first is told again. -/
theorem C134_told_wrong : ∃ (ops : List Op) (v v' v'' : SrvT Nat), (SrvT.init 0).run (demo 0) moody ops = .ret v ∧ v.srv.isShutdown = false ∧
    v.srv.sessions = [(1, 0), (2, 1)] ∧ v.run (demo 0) moody [.shutdown, .runTask] = .ret v' ∧ toldOf v'.srv.log = [0] ∧
    v'.run (demo 0) moody [.shutdown, .runTask] = .ret v'' ∧ toldOf v''.srv.log = [0, 0] :=
  ⟨[.addSession 1 0, .addSession 2 1, .runTask, .runTask], _, _, _, rfl, rfl, rfl, rfl, by decide +kernel, rfl, by decide +kernel⟩

theorem msgsOf_unshut (c : ConnId) (l : List SEv) : msgsOf c (unshut l) = msgsOf c l := by
  induction l with
  | nil => rfl
  | cons e l ih => cases e <;> simp_all [unshut, msgsOf, List.filterMap_cons]

theorem sendsOf_unshut (c : ConnId) (l : List SEv) : sendsOf c (unshut l) = sendsOf c l := by
  induction l with
  | nil => rfl
  | cons e l ih => cases e <;> simp_all [unshut, sendsOf, List.filterMap_cons]

/-- A session is told to shut down. -/
def isTold : SEv → Bool
  | .sessionShutdown _ => true
  | _ => false

/-- C134, what an exception amounts to: whatever sessions throw, everything that happens but the telling of sessions at shutdown (messages, calls of sessions, frames sent, start
and shutdown of the listening server, the state of the user's program) is what happens if the sessions, instead of throwing, fail with an exception that is no Modbus exception,
and of the data received on some connections only a beginning arrives.  If no session throws from `shutdown` that too is the same. -/
theorem C134_as_if_partial (env : ServerEnv W) (th : SThrows W) (w : W) (ops : List Op) (v : SrvT W) (h : (SrvT.init w).run env th ops = .ret v) :
    ∃ ops' u, List.Forall₂ CutOp ops ops' ∧ (Srv.init w).run (th.caught env) ops' = .ret u ∧
      u.log.filter (fun e => !isTold e) = v.srv.log.filter (fun e => !isTold e) ∧
      u.world = v.srv.world ∧ u.isShutdown = v.srv.isShutdown ∧
      ((∀ s w, th.shutdown s w = false) → u.log = v.srv.log ∧ u.sessions = v.srv.sessions) := by
  obtain ⟨ops', u, v', h1, h2, h3, -, h5, -⟩ := (SimS.init th w).run (env := env) ops (WF.init _ w)
  rw [h] at h1; injection h1 with h1; subst h1
  have e : (fun e : SEv => !isTold e) = fun e => match e with | .sessionShutdown _ => false | _ => true := by
    funext e; cases e <;> rfl
  refine ⟨ops', u, h5, h2, ?_, h3.wd, h3.sd, fun hq => ⟨(h3.same (.inr hq)).2, (h3.same (.inr hq)).1⟩⟩
  rw [e]
  exact h3.log

/-- C134, answers: whatever sessions throw, the frames sent on a connection are, in order, replies to some of the messages it handed over, at most one per message. -/
theorem C134_replies (env : ServerEnv W) (th : SThrows W) (v : SrvT W) (h : STReach env th v) (c : ConnId) :
    ∃ sub, sub.Sublist (msgsOf c v.srv.log) ∧ List.Forall₂ Replies sub (sendsOf c v.srv.log) := by
  obtain ⟨w, ops, h⟩ := h
  obtain ⟨ops', u, v', h1, h2, h3, -⟩ := (SimS.init th w).run (env := env) ops (WF.init _ w)
  rw [h] at h1; injection h1 with h1; subst h1
  obtain ⟨sub, k1, k2⟩ := C23_at_most_one_response (th.caught env) u ⟨w, ops', h2⟩ c
  refine ⟨sub, ?_, ?_⟩
  · rwa [← msgsOf_unshut, ← h3.log, msgsOf_unshut]
  · rwa [← sendsOf_unshut c v.srv.log, ← h3.log, sendsOf_unshut]

/-- C134, the connection: after an exception nothing is received on it and nothing sent, whatever happens, until it is closed. -/
theorem C134_deaf (env : ServerEnv W) (th : SThrows W) (c : ConnId) (ops : List Op) (hd : Op.dropped c ∉ ops) : ∀ (v v' : SrvT W), c ∈ v.deaf →
    v.run env th ops = .ret v' → c ∈ v'.deaf ∧ msgsOf c v'.srv.log = msgsOf c v.srv.log ∧ sendsOf c v'.srv.log = sendsOf c v.srv.log := by
  have one : ∀ (op : Op) (v v' : SrvT W), op ≠ .dropped c → c ∈ v.deaf → v.step env th op = .ret v' →
      msgsOf c v'.srv.log = msgsOf c v.srv.log ∧ sendsOf c v'.srv.log = sendsOf c v.srv.log := by
    intro op v v' ho hc h
    cases op with
    | receive c' data =>
      simp only [SrvT.step] at h
      split at h
      · injection h with h; subst h; exact ⟨rfl, rfl⟩
      · rename_i hdf
        have hne : c' ≠ c := by rintro rfl; exact hdf hc
        split at h
        · injection h with h; subst h; exact ⟨rfl, rfl⟩
        · obtain ⟨⟨p, ms⟩, -, h⟩ := CM.bind_eq_ret.1 h
          obtain ⟨⟨s, b⟩, hs, h⟩ := CM.bind_eq_ret.1 h
          simp only [CM.pure_eq] at h
          injection h with h; subst h
          obtain ⟨n, -, -, -, h4⟩ := onMbapsT_caught ms hs
          obtain ⟨s', g1, g2⟩ := onMbaps_reacts (th.caught env) c' (ms.take n) { v.srv with listeners := setListener v.srv.listeners c' p }
          rw [h4] at g1; injection g1 with g1; subst g1
          constructor
          · have := msgsOf_reacts g2 c
            simpa [hne] using this
          · clear h4 hs
            have key : ∀ {a b : Srv W} {l : List Mbap}, ReactsAll (th.caught env) c' a l b → sendsOf c b.log = sendsOf c a.log := by
              intro a b l hr
              induction hr with
              | nil => rfl
              | cons hr _ ih =>
                rw [ih]
                cases hr <;> simp [emit, sendMessage, sendsOf, hne]
            have := key g2
            exact this
    | runTask =>
      simp only [SrvT.step] at h
      split at h
      · injection h with h; subst h; exact ⟨rfl, rfl⟩
      · rename_i t ts ht
        injection h with h; subst h
        simp only
        cases t with
        | start => simp only [runTaskT, runTask]; split <;> simp [emit, msgsOf, sendsOf]
        | addSession u s => simp only [runTaskT, runTask]; split <;> [exact ⟨rfl, rfl⟩; (split <;> exact ⟨rfl, rfl⟩)]
        | shutdown =>
          have key : ∀ x : Srv W, ∀ l, msgsOf c (x.tellSessions th l).1.log = msgsOf c x.log ∧ sendsOf c (x.tellSessions th l).1.log = sendsOf c x.log := by
            intro x l
            obtain ⟨n, -, h2, -⟩ := tellSessions_spec th l x
            rw [h2]
            simp only
            rw [← msgsOf_unshut, ← sendsOf_unshut, unshut_append, unshut_told, List.append_nil, msgsOf_unshut, sendsOf_unshut]
            exact ⟨rfl, rfl⟩
          simp only [runTaskT]
          generalize hx : (if v.srv.isStarted = true then _ else _ : Srv W) = x
          have hx' : msgsOf c x.log = msgsOf c v.srv.log ∧ sendsOf c x.log = sendsOf c v.srv.log := by
            rw [← hx]; split <;> simp [emit, msgsOf, sendsOf]
          have hk := key x x.sessions
          split <;> (rename_i y hy; rw [hy] at hk; exact ⟨hk.1.trans hx'.1, hk.2.trans hx'.2⟩)
    | start => 
      obtain ⟨x, hx, h⟩ := CM.bind_eq_ret.1 h
      simp only [CM.pure_eq] at h
      injection h with h; subst h
      simp only [Srv.step] at hx
      split at hx <;> (injection hx with hx; subst hx; exact ⟨rfl, rfl⟩)
    | shutdown =>
      injection h with h; subst h; exact ⟨rfl, rfl⟩
    | addSession u s =>
      obtain ⟨x, hx, h⟩ := CM.bind_eq_ret.1 h
      simp only [CM.pure_eq] at h
      injection h with h; subst h
      simp only [Srv.step] at hx
      split at hx <;> (injection hx with hx; subst hx; exact ⟨rfl, rfl⟩)
    | opened c' mem =>
      obtain ⟨x, hx, h⟩ := CM.bind_eq_ret.1 h
      simp only [CM.pure_eq] at h
      injection h with h; subst h
      simp only [Srv.step] at hx
      split at hx <;> (injection hx with hx; subst hx; exact ⟨rfl, rfl⟩)
    | error c' =>
      obtain ⟨x, hx, h⟩ := CM.bind_eq_ret.1 h
      simp only [CM.pure_eq] at h
      injection h with h; subst h
      simp only [Srv.step] at hx
      split at hx <;> (injection hx with hx; subst hx; exact ⟨rfl, rfl⟩)
    | dropped c' =>
      injection h with h; subst h; exact ⟨rfl, rfl⟩
  induction ops with
  | nil => intro v v' hc h; injection h with h; subst h; exact ⟨hc, rfl, rfl⟩
  | cons op ops ih =>
    intro v v' hc h
    obtain ⟨v1, h1, h2⟩ := CM.bind_eq_ret.1 h
    simp only [List.mem_cons, not_or] at hd
    have ho : op ≠ .dropped c := fun e => hd.1 e.symm
    obtain ⟨k1, k2⟩ := one op v v1 ho hc h1
    obtain ⟨j1, j2, j3⟩ := ih hd.2 v1 v' (SrvT.step_deaf h1 hc ho) h2
    exact ⟨j1, j2.trans k1, j3.trans k2⟩

/-- C134, only that: a connection stops being read only when a session throws for a request received on it; the call of that session is the last thing that happens then: nothing is
sent for it, and what follows the request in the received data is not looked at. -/
theorem C134_only_by_exception (env : ServerEnv W) (th : SThrows W) (v v' : SrvT W) (op : Op) (c : ConnId) (h : v.step env th op = .ret v') (h1 : c ∉ v.deaf) (h2 : c ∈ v'.deaf) :
    ∃ data log world m s k r, op = .receive c data ∧ Spec.Denotes k m.data r ∧ th.request s k r world = true ∧
      v'.srv.log = log ++ [.mbap c m, .request s k r] ∧ v'.srv.world = (env.onRequest s k r world).1 := by
  cases op with
  | receive c' data =>
    simp only [SrvT.step] at h
    split at h
    · injection h with h; subst h; exact absurd h2 h1
    · split at h
      · injection h with h; subst h; exact absurd h2 h1
      · obtain ⟨⟨p, ms⟩, -, h⟩ := CM.bind_eq_ret.1 h
        obtain ⟨⟨s, b⟩, hs, h⟩ := CM.bind_eq_ret.1 h
        simp only [CM.pure_eq] at h
        injection h with h; subst h
        cases b with
        | false => exact absurd h2 h1
        | true =>
          simp only [if_true, List.mem_cons] at h2
          rcases h2 with rfl | h2
          · obtain ⟨x, m, s', k, r, -, g2, g3, g4, g5⟩ := onMbapsT_thrown ms hs
            exact ⟨data, x.log, x.world, m, s', k, r, rfl, (C02_accepts_iff_denotes k m.data r).1 g2, g3, g4, g5⟩
          · exact absurd h2 h1
  | runTask =>
    simp only [SrvT.step] at h
    split at h <;> (injection h with h; subst h; exact absurd h2 h1)
  | dropped c' =>
    obtain ⟨x, -, h⟩ := CM.bind_eq_ret.1 h
    simp only [CM.pure_eq] at h
    injection h with h; subst h
    exact absurd (List.mem_filter.1 h2).1 h1
  | _ =>
    obtain ⟨x, -, h⟩ := CM.bind_eq_ret.1 h
    simp only [CM.pure_eq] at h
    injection h with h; subst h
    exact absurd h2 h1

/-- C134, the exception: if the session throws for the first request in the received data, it has been called once with exactly that request, its effects on the user's state stay,
nothing else happens, and the connection stays open but is not read any more. -/
theorem C134_exception (env : ServerEnv W) (th : SThrows W) (v : SrvT W) (c : ConnId) (data : List UInt8) (p p' : Parser) (m : Mbap) (ms : List Mbap) (hc : c ∉ v.deaf)
    (hp : v.srv.listeners.lookup c = some p) (hm : p.parse data = .ret (p', m :: ms)) (s : SessId) (hs : Reaches v.srv m s) (k : Kind) (r : Req k) (hd : Spec.Denotes k m.data r)
    (ht : th.request s k r v.srv.world = true) : ∃ v', v.step env th (.receive c data) = .ret v' ∧ v'.srv.log = v.srv.log ++ [.mbap c m, .request s k r] ∧
      v'.srv.world = (env.onRequest s k r v.srv.world).1 ∧ c ∈ v'.deaf ∧ (v'.srv.listeners.lookup c).isSome ∧ (∀ c' ∈ v'.deaf, c' = c ∨ c' ∈ v.deaf) := by
  have hpr := (C02_accepts_iff_denotes k m.data r).2 hd
  obtain ⟨rest, hrest⟩ := denotes_head hd
  obtain ⟨h1, h2⟩ := hs
  simp only [SrvT.step, if_neg hc, hp, hm, CM.ret_bind, onMbapsT, onMbapT, emit, h1, h2, Bool.false_eq_true, if_false]
  rw [if_neg (by rw [hrest]; simp)]
  have hg : getU8 m.data = .ret (Spec.fc k, rest) := by rw [hrest]; rfl
  simp only [hg, CM.ret_bind, kindOf_fc, processMessageT, hpr, ht, if_true, CM.pure_eq, emit]
  refine ⟨_, rfl, by simp, rfl, by simp, ?_, by simp⟩
  simp only [lookup_setListener_same _ _ _ _ hp, Option.isSome_some]

/-- C134, other connections: a connection on which no session threw hands over all messages it receives, whatever sessions throw for requests of others. -/
theorem C134_others_partial (env : ServerEnv W) (th : SThrows W) (w : W) (ops : List Op) (v : SrvT W) (h : (SrvT.init w).run env th ops = .ret v) (c : ConnId)
    (hc : c ∉ v.deaf) (hd : Op.dropped c ∉ ops) : ∃ outs, List.Forall₂ (FramedAs env.pol) (phases c none ops) outs ∧ msgsOf c v.srv.log = outs.flatten := by
  obtain ⟨ops', u, v', h1, h2, h3, -, -, h6⟩ := (SimS.init th w).run (env := env) ops (WF.init _ w)
  rw [h] at h1; injection h1 with h1; subst h1
  obtain ⟨outs, k1, k2⟩ := C34_framing_per_connection (th.caught env) w ops' u h2 c
  rw [h6 c hc hd] at k1
  exact ⟨outs, k1, by rw [← k2, ← msgsOf_unshut, ← h3.log, msgsOf_unshut]⟩

/-- C134, served: on a connection that is read, requests for sessions that do not throw are handled as if no session ever threw. -/
theorem C134_served_partial (env : ServerEnv W) (th : SThrows W) (v : SrvT W) (c : ConnId) (data : List UInt8) (p p' : Parser) (ms : List Mbap) (hc : c ∉ v.deaf)
    (hp : v.srv.listeners.lookup c = some p) (hm : p.parse data = .ret (p', ms))
    (hq : ∀ m ∈ ms, ∀ s, v.srv.sessions.lookup m.unit = some s → ∀ k r w, th.request s k r w = false) (u : Srv W) (hu : v.srv.step env (.receive c data) = .ret u) :
    v.step env th (.receive c data) = .ret ⟨u, v.deaf⟩ := by
  simp only [Srv.step, hp, hm, CM.ret_bind] at hu
  simp only [SrvT.step, if_neg hc, hp, hm, CM.ret_bind]
  rw [onMbapsT_calm ms (by simpa using hq), hu]
  rfl

/-- C134, no exception: if no session throws, the channel is the one without exceptions. -/
theorem C134_no_exception_partial (env : ServerEnv W) (th : SThrows W) (h1 : ∀ s k r w, th.request s k r w = false) (h2 : ∀ s w, th.shutdown s w = false) (w : W) (ops : List Op)
    (v : SrvT W) (h : (SrvT.init w).run env th ops = .ret v) : (Srv.init w).run env ops = .ret v.srv ∧ v.deaf = [] := by
  have told : ∀ (l : List (UInt8 × SessId)) (x : Srv W), x.tellSessions th l = ({ x with log := x.log ++ l.map fun y => .sessionShutdown y.2 }, false) := by
    intro l
    induction l with
    | nil => intro x; simp [tellSessions]
    | cons y l ih => intro x; simp only [tellSessions, h2, Bool.false_eq_true, if_false]; rw [ih]; simp [emit]
  have one : ∀ (op : Op) (x x' : SrvT W), x.deaf = [] → x.step env th op = .ret x' → x.srv.step env op = .ret x'.srv ∧ x'.deaf = [] := by
    intro op x x' hx hs
    cases op with
    | receive c data =>
      simp only [SrvT.step, hx, List.not_mem_nil, if_false] at hs
      simp only [Srv.step]
      split at hs
      · rename_i hl; injection hs with hs; subst hs; rw [hl]; exact ⟨rfl, hx⟩
      · rename_i p hl
        rw [hl]
        simp only
        obtain ⟨⟨p', ms⟩, hp, hs⟩ := CM.bind_eq_ret.1 hs
        rw [hp, CM.ret_bind]
        obtain ⟨⟨y, b⟩, hy, hs⟩ := CM.bind_eq_ret.1 hs
        simp only [CM.pure_eq] at hs
        injection hs with hs; subst hs
        rw [onMbapsT_calm ms (fun m _ s _ k r w => h1 s k r w)] at hy
        obtain ⟨z, hz, hy⟩ := CM.bind_eq_ret.1 hy
        injection hy with hy; injection hy with hy1 hy2
        subst hy1; subst hy2
        exact ⟨hz, rfl⟩
    | runTask =>
      simp only [SrvT.step] at hs
      simp only [Srv.step]
      split at hs
      · rename_i ht; injection hs with hs; subst hs; rw [ht]; exact ⟨rfl, hx⟩
      · rename_i t ts ht
        injection hs with hs; subst hs
        rw [ht]
        refine ⟨?_, hx⟩
        simp only
        cases t with
        | shutdown => simp only [runTaskT, runTask, told]
        | _ => rfl
    | dropped c =>
      injection hs with hs; subst hs
      exact ⟨rfl, by simp [hx]⟩
    | _ =>
      obtain ⟨y, hy, hs⟩ := CM.bind_eq_ret.1 hs
      simp only [CM.pure_eq] at hs
      injection hs with hs; subst hs
      exact ⟨hy, hx⟩
  have all : ∀ (ops : List Op) (x x' : SrvT W), x.deaf = [] → x.run env th ops = .ret x' → x.srv.run env ops = .ret x'.srv ∧ x'.deaf = [] := by
    intro ops
    induction ops with
    | nil => intro x x' hx hs; injection hs with hs; subst hs; exact ⟨rfl, hx⟩
    | cons op ops ih =>
      intro x x' hx hs
      obtain ⟨y, hy, hs⟩ := CM.bind_eq_ret.1 hs
      obtain ⟨g1, g2⟩ := one op x y hx hy
      obtain ⟨g3, g4⟩ := ih y x' g2 hs
      exact ⟨by simp only [Srv.run, g1, CM.ret_bind, g3], g4⟩
  exact all ops _ _ rfl h

/-- C134, shutdown: when the shutdown takes effect the sessions are told one after the other up to the first one that throws. -/
theorem C134_told_partial (env : ServerEnv W) (th : SThrows W) (v v' : SrvT W) (hr : STReach env th v) (hd : v.srv.isShutdown = false) (ht : v.srv.tasks.head? = some .shutdown)
    (h : v.step env th .runTask = .ret v') : ∃ n ≤ v.srv.sessions.length, toldOf v'.srv.log = (v.srv.sessions.take n).map (·.2) ∧ v'.srv.isShutdown = true ∧
      (n < v.srv.sessions.length → ∃ x ∈ (v.srv.sessions.take n).getLast?, th.shutdown x.2 v.srv.world = true) ∧
      (∀ x ∈ v.srv.sessions.take (n - 1), th.shutdown x.2 v.srv.world = false) := by
  obtain ⟨w, ops, hr⟩ := hr
  obtain ⟨ops', u, v1, h1, h2, h3, -⟩ := (SimS.init th w).run (env := env) ops (WF.init _ w)
  rw [hr] at h1; injection h1 with h1; subst h1
  have hnone : toldOf v.srv.log = [] := by
    rw [← (h3.same (.inl hd)).2]
    have hi := (SReach.inv (env := th.caught env) ⟨w, ops', h2⟩).2.2 (by rw [h3.sd, hd])
    simp only [toldOf, List.filterMap_eq_nil_iff]
    intro e he
    cases e <;> simp only [reduceCtorEq]
    exact hi.2.2 _ he
  obtain ⟨ts, hts⟩ : ∃ ts, v.srv.tasks = .shutdown :: ts := by
    cases hq : v.srv.tasks with
    | nil => rw [hq] at ht; cases ht
    | cons t ts => rw [hq] at ht; simp only [List.head?_cons, Option.some.injEq] at ht; exact ⟨ts, by rw [ht]⟩
  simp only [SrvT.step, hts, runTaskT] at h
  injection h with h; subst h
  simp only
  generalize hx : (if v.srv.isStarted = true then _ else _ : Srv W) = x
  have hx1 : toldOf x.log = [] ∧ x.sessions = v.srv.sessions ∧ x.world = v.srv.world ∧ x.isShutdown = true := by
    rw [← hx]; split <;> simp [emit, toldOf, List.filterMap_append] <;> simpa [toldOf] using hnone
  obtain ⟨n, k1, k2, k3, k4, k5⟩ := tellSessions_spec th x.sessions x
  rw [hx1.2.1] at k1 k3 k4 k5
  rw [hx1.2.2.1] at k4 k5
  rw [hx1.2.1] at k2 ⊢
  have htold : toldOf (x.tellSessions th v.srv.sessions).1.log = (v.srv.sessions.take n).map (·.2) := by
    rw [k2]
    simp only [toldOf, List.filterMap_append, List.filterMap_map]
    have := hx1.1
    simp only [toldOf] at this
    rw [this, List.nil_append]
    generalize v.srv.sessions.take n = l
    induction l with
    | nil => rfl
    | cons y l ih => simp at ih ⊢
  refine ⟨n, k1, ?_, ?_, ?_, k5⟩
  · split <;> (rename_i y hy; rw [hy] at htold; exact htold)
  · have : (x.tellSessions th v.srv.sessions).1.isShutdown = true := by rw [k2]; exact hx1.2.2.2
    split <;> (rename_i y hy; rw [hy] at this; exact this)
  · intro hn
    cases hb : (x.tellSessions th v.srv.sessions).2 with
    | true => exact k4 hb
    | false => rw [k3 hb] at hn; omega

/-- C134, after the shutdown: also if sessions throw, once the shutdown has taken effect no session is asked, nothing is sent, listening is not started and the user's state is not
touched; sessions can only be told to shut down again. -/
theorem C134_after_shutdown (env : ServerEnv W) (th : SThrows W) (v v' : SrvT W) (hr : STReach env th v) (hd : v.srv.isShutdown = true) (ops : List Op)
    (h : v.run env th ops = .ret v') : v'.srv.isShutdown = true ∧ v'.srv.world = v.srv.world ∧
      ∃ new, v'.srv.log = v.srv.log ++ new ∧ ∀ e ∈ new, (∃ c m, e = .mbap c m) ∨ ∃ s, e = .sessionShutdown s := by
  obtain ⟨w, ops0, hr⟩ := hr
  obtain ⟨ops', u, v1, h1, h2, h3, h4, -⟩ := (SimS.init th w).run (env := env) ops0 (WF.init _ w)
  rw [hr] at h1; injection h1 with h1; subst h1
  have hu : SReach (th.caught env) u := ⟨w, ops', h2⟩
  clear hr h2 ops' ops0
  induction ops generalizing v u with
  | nil => injection h with h; subst h; exact ⟨hd, rfl, [], by simp, by simp⟩
  | cons op ops ih =>
    obtain ⟨v1, hs, h⟩ := CM.bind_eq_ret.1 h
    obtain ⟨op', u1, v2, k1, k2, k3, -⟩ := h3.step h4 op
    rw [hs] at k1; injection k1 with k1; subst k1
    obtain ⟨u1', w1, w2⟩ := step_total h4 op'
    rw [k2] at w1; injection w1 with w1; subst w1
    obtain ⟨e1, -, e2, -⟩ := C31_nothing_after_shutdown (th.caught env) u u1 hu (by rw [h3.sd, hd]) [op'] (by simp only [Srv.run, k2, CM.ret_bind])
    have hsd1 : v1.srv.isShutdown = true := by rw [← k3.sd, e1]
    have hw1 : v1.srv.world = v.srv.world := by rw [← k3.wd, e2, h3.wd]
    have hnew : ∃ new, v1.srv.log = v.srv.log ++ new ∧ ∀ e ∈ new, (∃ c m, e = .mbap c m) ∨ ∃ s, e = .sessionShutdown s := by
      have hst : v.srv.isStarted = false := by rw [← h3.st]; exact (hu.inv.2.1 (by rw [h3.sd, hd])).2
      cases op with
      | receive c data =>
        simp only [SrvT.step] at hs
        split at hs
        · injection hs with hs; subst hs; exact ⟨[], by simp, by simp⟩
        · split at hs
          · injection hs with hs; subst hs; exact ⟨[], by simp, by simp⟩
          · obtain ⟨⟨p, ms⟩, -, hs⟩ := CM.bind_eq_ret.1 hs
            obtain ⟨⟨x, b⟩, hx, hs⟩ := CM.bind_eq_ret.1 hs
            simp only [CM.pure_eq] at hs
            injection hs with hs; subst hs
            obtain ⟨n, -, -, -, g⟩ := onMbapsT_caught ms hx
            rw [onMbaps_down _ _ _ (by simpa using hd)] at g
            injection g with g
            subst g
            exact ⟨_, rfl, fun e he => by obtain ⟨m, -, rfl⟩ := List.mem_map.1 he; exact .inl ⟨c, m, rfl⟩⟩
      | runTask =>
        simp only [SrvT.step] at hs
        split at hs
        · injection hs with hs; subst hs; exact ⟨[], by simp, by simp⟩
        · rename_i t ts ht
          injection hs with hs; subst hs
          cases t with
          | start => simp only [runTaskT, runTask, hd, if_true]; exact ⟨[], by simp, by simp⟩
          | addSession x s => simp only [runTaskT, runTask, hd, if_true]; exact ⟨[], by simp, by simp⟩
          | shutdown =>
            simp only [runTaskT, hst, Bool.false_eq_true, if_false]
            generalize hx : ({ v.srv with tasks := ts, isShutdown := true, isStarted := false } : Srv W) = x
            obtain ⟨n, -, g, -⟩ := tellSessions_spec th v.srv.sessions x
            have hl : (x.tellSessions th v.srv.sessions).1.log = v.srv.log ++ (v.srv.sessions.take n).map fun y => .sessionShutdown y.2 := by rw [g, ← hx]
            refine ⟨(v.srv.sessions.take n).map fun y => .sessionShutdown y.2, ?_, fun e he => by obtain ⟨y, -, rfl⟩ := List.mem_map.1 he; exact .inr ⟨y.2, rfl⟩⟩
            rw [← hl]
            subst hx
            split <;> (rename_i y hy; simp only [hy])
      | shutdown => injection hs with hs; subst hs; exact ⟨[], by simp, by simp⟩
      | dropped c => injection hs with hs; subst hs; exact ⟨[], by simp, by simp⟩
      | start =>
        simp only [SrvT.step, Srv.step, hd, if_true, CM.ret_bind, CM.pure_eq] at hs
        injection hs with hs; subst hs; exact ⟨[], by simp, by simp⟩
      | addSession x s =>
        simp only [SrvT.step, Srv.step, hd, if_true, CM.ret_bind, CM.pure_eq] at hs
        injection hs with hs; subst hs; exact ⟨[], by simp, by simp⟩
      | opened c mem =>
        obtain ⟨x, hx, hs⟩ := CM.bind_eq_ret.1 hs
        simp only [CM.pure_eq] at hs
        injection hs with hs; subst hs
        simp only [Srv.step] at hx
        split at hx <;> (injection hx with hx; subst hx; exact ⟨[], by simp, by simp⟩)
      | error c =>
        obtain ⟨x, hx, hs⟩ := CM.bind_eq_ret.1 hs
        simp only [CM.pure_eq] at hs
        injection hs with hs; subst hs
        simp only [Srv.step] at hx
        split at hx <;> (injection hx with hx; subst hx; exact ⟨[], by simp, by simp⟩)
    obtain ⟨n1, a1, a2⟩ := hnew
    obtain ⟨b1, b2, n2, b3, b4⟩ := ih v1 hsd1 h u1 w2 k3 (hu.step k2)
    refine ⟨b1, b2.trans hw1, n1 ++ n2, by rw [b3, a1, List.append_assoc], ?_⟩
    intro e he
    rcases List.mem_append.1 he with he | he
    · exact a2 e he
    · exact b4 e he

/-! ### Concrete cases -/

/-- Only requests to write are thrown at; shutdown is survived. -/
def touchy : SThrows Nat := { request := fun s k _ _ => s == 0 && k == .writeSingleCoil, shutdown := fun _ _ => false }

/-- Two clients; the first writes a coil and then wants to read, in the same data and later; the second reads. -/
def twoClients : List Op := demoOps ++ [.opened 5 (Vector.replicate 260 0), .opened 6 (Vector.replicate 260 0), .receive 5 (vwrite ++ vread), .receive 5 vread, .receive 6 vread]

/-- The session threw for the write; the first client's reads are not received, the second's is answered; connection 5 is not read any more. -/
example : sees ((SrvT.init 0).run (demo 0) touchy twoClients) (fun v =>
    v.srv.log = [.serverStart, .mbap 5 ⟨1, 5, [5, 0, 16, 255, 0]⟩, .request 0 .writeSingleCoil ⟨16, true⟩,
      .mbap 6 (demoRead 1), .request 0 .readHoldingRegisters ⟨16, 2⟩, .send 6 [1, 2, 0, 0, 0, 7, 1, 3, 4, 0, 1, 0, 1]] ∧
    v.deaf = [5] ∧ v.srv.listeners.map (·.1) = [5, 6] ∧ v.srv.isShutdown = false) = true := by decide +kernel

/-- The shutdown works nevertheless (C134_after_shutdown, C134_told_partial). -/
example : sees ((SrvT.init 0).run (demo 0) touchy (twoClients ++ [.shutdown, .runTask, .receive 6 vread])) (fun v =>
    toldOf v.srv.log = [0, 1, 2, 3] ∧ v.srv.isShutdown = true ∧ sendsOf 6 v.srv.log = [[1, 2, 0, 0, 0, 7, 1, 3, 4, 0, 1, 0, 1]]) = true := by decide +kernel

/-- With `moody`, session 0 is told, throws, and the others are not told: `n = 1` in C134_told_partial. -/
example : sees ((SrvT.init 0).run (demo 0) moody (demoOps ++ [.shutdown, .runTask])) (fun v => toldOf v.srv.log = [0] ∧ v.srv.sessions.length = 4) = true := by decide +kernel
example : sees ((SrvT.init 0).run (demo 0) moody (demoOps ++ [.shutdown])) (fun v => v.srv.isShutdown = false ∧ v.srv.tasks.head? = some .shutdown) = true := by decide +kernel

/-- C134_served_partial: session 1 never throws with `moody`. -/
example : ∀ k r w, moody.request 1 k r w = false := fun _ _ _ => rfl

end Modbus.Props
