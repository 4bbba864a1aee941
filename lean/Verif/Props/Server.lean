import Verif.Lemmas.Server

/-!
Properties C22-C34: the server channel.

`ServerEnv W` holds the user's sessions: arbitrary functions of an arbitrary user state `W`.  `(Srv.init w).run env ops`
is the state after the history `ops` (API calls, strand tasks, connection events in any order); its `log` lists what the
server did: messages handed over by connections (`mbap`), session calls (`request`), frames sent (`send`), shutdowns.
-/

namespace Modbus.Props

open Spec (Frame streamOf frameOf Splits)
open Srv (Op)

variable {W : Type}

/-- `v` is a state the server can be in. -/
def SReach (env : ServerEnv W) (v : Srv W) : Prop := ∃ w ops, (Srv.init w).run env ops = .ret v

/-- Messages handed over by connection `c`, in order. -/
def msgsOf (c : ConnId) (log : List SEv) : List Mbap :=
  log.filterMap fun e => match e with
    | .mbap c' m => if c' = c then some m else none
    | _ => none

/-- Frames sent on connection `c`, in order. -/
def sendsOf (c : ConnId) (log : List SEv) : List (List UInt8) :=
  log.filterMap fun e => match e with
    | .send c' b => if c' = c then some b else none
    | _ => none

/-- `bytes` is a frame with the identifiers of message `m` (and some PDU of at most 253 bytes). -/
def Replies (m : Mbap) (bytes : List UInt8) : Prop :=
  ∃ pdu : List UInt8, pdu.length ≤ 253 ∧ bytes = (frameOf ⟨m.unit, m.tid, pdu⟩).bytes

/-- The server never gets into undefined behaviour, whatever happens. -/
theorem server_total (env : ServerEnv W) (w : W) (ops : List Op) : ∃ v, (Srv.init w).run env ops = .ret v := by
  obtain ⟨v, h, -⟩ := Srv.run_total ops (Srv.WF.init env w)
  exact ⟨v, h⟩

/-! ### C22 -/

/-- C22. In every history, every frame sent is sent on the connection that handed over the most recent message, nothing
was sent in between, and the frame carries that message's transaction and unit identifiers. -/
theorem C22_response_identifiers (env : ServerEnv W) (v : Srv W) (hv : SReach env v) (c : ConnId) (bytes : List UInt8)
    (l1 l2 : List SEv) (hlog : v.log = l1 ++ .send c bytes :: l2) :
    ∃ l0 l m, l1 = l0 ++ .mbap c m :: l ∧ (∀ e ∈ l, ∃ s k r, e = .request s k r) ∧ Replies m bytes := by
  obtain ⟨w, ops, hrun⟩ := hv
  obtain ⟨bs, h1, h2⟩ := Srv.run_blocks hrun
  rw [hlog] at h1
  obtain ⟨bs1, b, bs2, p, q, h3, h4, h5⟩ := Srv.flatten_split bs (l1 := l1) (l2 := l2) (x := .send c bytes) (by simpa [Srv.init] using h1.symm)
  have hb := h2 b (by rw [h3]; simp)
  cases hb with
  | other e e1 e2 e3 =>
    exfalso
    have : SEv.send c bytes ∈ [e] := by rw [h4]; simp
    simp only [List.mem_singleton] at this
    exact e3 _ _ this.symm
  | reaction c' m calls answers hc ha =>
    cases p with
    | nil => simp at h4
    | cons x p =>
      rw [List.cons_append] at h4
      injection h4 with h4 h4'
      subst h4
      rcases ha with rfl | ⟨pdu, hp, rfl⟩
      · exfalso
        rcases hc with rfl | ⟨s, k, r, rfl⟩
        · simp at h4'
        · cases p with
          | nil => simp at h4'
          | cons _ p => simp at h4'
      · rcases hc with rfl | ⟨s, k, r, rfl⟩
        · cases p with
          | nil =>
            simp only [List.nil_append, List.cons.injEq, SEv.send.injEq] at h4'
            obtain ⟨⟨rfl, rfl⟩, -⟩ := h4'
            exact ⟨_, [], m, h5, by simp, pdu, hp, rfl⟩
          | cons _ p => simp at h4'
        · cases p with
          | nil => simp at h4'
          | cons y p =>
            simp only [List.cons_append, List.nil_append, List.cons.injEq] at h4'
            obtain ⟨rfl, h4'⟩ := h4'
            cases p with
            | nil =>
              simp only [List.nil_append, List.cons.injEq, SEv.send.injEq] at h4'
              obtain ⟨⟨rfl, rfl⟩, -⟩ := h4'
              exact ⟨_, [.request s k r], m, h5, by simp, pdu, hp, rfl⟩
            | cons _ p => simp at h4'

/-! ### C34 -/

/-- The receiving phases of connection `c` in a history: the lists of chunks received since it was opened or since its
last error.  `cur` is the current phase (`none`: the connection does not exist). -/
def phases (c : ConnId) : Option (List (List UInt8)) → List Op → List (List (List UInt8))
  | cur, [] => cur.toList
  | cur, .opened c' _ :: ops => if c' = c then phases c (some (cur.getD [])) ops else phases c cur ops
  | cur, .receive c' d :: ops => if c' = c then phases c (cur.map (· ++ [d])) ops else phases c cur ops
  | none, .error _ :: ops => phases c none ops
  | some cur, .error c' :: ops => if c' = c then cur :: phases c (some []) ops else phases c (some cur) ops
  | cur, .dropped c' :: ops => if c' = c then cur.toList ++ phases c none ops else phases c cur ops
  | cur, _ :: ops => phases c cur ops

theorem msgsOf_append (c : ConnId) (l1 l2 : List SEv) : msgsOf c (l1 ++ l2) = msgsOf c l1 ++ msgsOf c l2 := by
  simp [msgsOf]

theorem sendsOf_append (c : ConnId) (l1 l2 : List SEv) : sendsOf c (l1 ++ l2) = sendsOf c l1 ++ sendsOf c l2 := by
  simp [sendsOf]

theorem msgsOf_none {c : ConnId} {es : List SEv} (h : ∀ m, SEv.mbap c m ∉ es) : msgsOf c es = [] := by
  induction es with
  | nil => rfl
  | cons e es ih =>
    have : msgsOf c (e :: es) = msgsOf c [e] ++ msgsOf c es := msgsOf_append c [e] es
    rw [this, ih (fun m hm => h m (by simp [hm]))]
    cases e <;> simp [msgsOf]
    rename_i c' m
    rintro rfl
    exact h m (by simp)

theorem msgsOf_reacts {env : ServerEnv W} {v v' : Srv W} {c : ConnId} {ms : List Mbap} (h : Srv.ReactsAll env c v ms v') (c' : ConnId) :
    msgsOf c' v'.log = msgsOf c' v.log ++ if c = c' then ms else [] := by
  obtain ⟨bs, h1, -, h3⟩ := h.blocks
  rw [h1, msgsOf_append]
  congr 1
  clear h h1
  induction h3 with
  | nil => simp [msgsOf]
  | @cons m b ms bs h _ ih =>
    obtain ⟨rest, rfl, hrest⟩ := h
    have e1 : msgsOf c' (SEv.mbap c m :: rest ++ bs.flatten) = msgsOf c' [SEv.mbap c m] ++ msgsOf c' rest ++ msgsOf c' bs.flatten := by
      rw [← msgsOf_append, ← msgsOf_append]; rfl
    rw [List.flatten_cons, e1, ih, msgsOf_none (fun m => hrest c' m)]
    by_cases hc : c = c' <;> simp [msgsOf, hc]

theorem feed_snoc (p : Parser) (xs : List (List UInt8)) (d : List UInt8) : ∀ {p1 p2 : Parser} {o1 o2 : List Mbap},
    p.feed xs = .ret (p1, o1) → p1.parse d = .ret (p2, o2) → p.feed (xs ++ [d]) = .ret (p2, o1 ++ o2) := by
  induction xs generalizing p with
  | nil =>
    intro p1 p2 o1 o2 h1 h2
    injection h1 with h1; injection h1 with ha hb; subst ha; subst hb
    simp [Parser.feed, h2]
  | cons x xs ih =>
    intro p1 p2 o1 o2 h1 h2
    simp only [Parser.feed, List.cons_append] at h1 ⊢
    cases hp : p.parse x with
    | ub => rw [hp] at h1; cases h1
    | ret y =>
      rw [hp] at h1
      simp only [CM.ret_bind] at h1 ⊢
      cases hf : y.1.feed xs with
      | ub => rw [hf] at h1; cases h1
      | ret z =>
        rw [hf] at h1
        simp only [CM.ret_bind, CM.pure_eq] at h1
        injection h1 with h1; injection h1 with ha hb; subst ha; subst hb
        rw [ih y.1 hf h2]
        simp

/-- Same as `Receives`, for some initial buffer content. -/
def FramedAs (pol : CopyPolicy) (chunks : List (List UInt8)) (out : List Mbap) : Prop :=
  ∃ mem : List UInt8, mem.length = 260 ∧ Receives pol mem chunks out

theorem phases_run (env : ServerEnv W) (c : ConnId) (ops : List Op) :
    ∀ (v v' : Srv W) (cur : Option (List (List UInt8))) (o0 : List Mbap), Srv.WF env v → v.run env ops = .ret v' →
      (match cur with
        | none => v.listeners.lookup c = none ∧ o0 = []
        | some xs => ∃ mem p, mem.length = 260 ∧ (Parser.init env.pol mem).feed xs = .ret (p, o0) ∧ v.listeners.lookup c = some p) →
      ∃ outs new, List.Forall₂ (FramedAs env.pol) (phases c cur ops) outs ∧ msgsOf c v'.log = msgsOf c v.log ++ new ∧
        outs.flatten = o0 ++ new := by
  induction ops with
  | nil =>
    intro v v' cur o0 hwf hr hcur
    injection hr with hr; subst hr
    cases cur with
    | none => exact ⟨[], [], by simp [phases], by simp, by simp [hcur.2]⟩
    | some xs =>
      obtain ⟨mem, p, h1, h2, -⟩ := hcur
      exact ⟨[o0], [], by simp only [phases, Option.toList]; exact .cons ⟨mem, h1, p, h2⟩ .nil, by simp, by simp⟩
  | cons op ops ih =>
    intro v v' cur o0 hwf hr hcur
    obtain ⟨v1, hs, hwf1⟩ := Srv.step_total hwf op
    simp only [Srv.run, hs, CM.ret_bind] at hr
    -- steps that do not concern connection `c`
    have skip : msgsOf c v1.log = msgsOf c v.log → v1.listeners.lookup c = v.listeners.lookup c → phases c cur (op :: ops) = phases c cur ops →
        ∃ outs new, List.Forall₂ (FramedAs env.pol) (phases c cur (op :: ops)) outs ∧ msgsOf c v'.log = msgsOf c v.log ++ new ∧
        outs.flatten = o0 ++ new := by
      intro hl hlk hph
      obtain ⟨outs, new, h1, h2, h3⟩ := ih v1 v' cur o0 hwf1 hr (by rw [hlk]; exact hcur)
      exact ⟨outs, new, by rw [hph]; exact h1, by rw [h2, hl], h3⟩
    cases op with
    | start =>
      apply skip
      · simp only [Srv.step] at hs; split at hs <;> (injection hs with hs; subst hs; rfl)
      · simp only [Srv.step] at hs; split at hs <;> (injection hs with hs; subst hs; rfl)
      · simp [phases]
    | shutdown =>
      injection hs with hs; subst hs
      exact skip rfl rfl (by simp [phases])
    | addSession u s =>
      apply skip
      · simp only [Srv.step] at hs; split at hs <;> (injection hs with hs; subst hs; rfl)
      · simp only [Srv.step] at hs; split at hs <;> (injection hs with hs; subst hs; rfl)
      · simp [phases]
    | runTask =>
      simp only [Srv.step] at hs
      split at hs
      · injection hs with hs; subst hs; exact skip rfl rfl (by simp [phases])
      · rename_i t ts ht
        injection hs with hs; subst hs
        obtain ⟨es, e1, -, e3⟩ := Srv.runTask_blocks env { v with tasks := ts } t
        refine skip ?_ ?_ (by simp [phases])
        · rw [e1, msgsOf_append, msgsOf_none (fun m => e3 c m), List.append_nil]
        · rw [Srv.runTask_listeners]
    | opened c' mem =>
      by_cases hc : c' = c
      · subst hc
        cases cur with
        | none =>
          simp only [Srv.step, hcur.1, Option.isSome_none, Bool.false_eq_true, if_false] at hs
          injection hs with hs; subst hs
          obtain ⟨outs, new, h1, h2, h3⟩ := ih _ v' (some []) [] hwf1 hr
            ⟨mem.toList, _, by simp, rfl, by simp [Srv.lookup_append_single, hcur.1]⟩
          exact ⟨outs, new, by simpa [phases] using h1, h2, by rw [h3, hcur.2]⟩
        | some xs =>
          obtain ⟨mem', p, h1, h2, h3⟩ := hcur
          simp only [Srv.step, h3, Option.isSome_some, if_true] at hs
          injection hs with hs; subst hs
          exact skip rfl rfl (by simp [phases])
      · apply skip
        · simp only [Srv.step] at hs; split at hs <;> (injection hs with hs; subst hs; rfl)
        · simp only [Srv.step] at hs
          split at hs
          · injection hs with hs; subst hs; rfl
          · injection hs with hs; subst hs
            simp only [Srv.lookup_append_single]
            rw [if_neg (fun h => hc h.symm)]; simp
        · simp [phases, hc]
    | receive c' d =>
      rcases hlk : v.listeners.lookup c' with _ | p
      · simp only [Srv.step, hlk] at hs
        injection hs with hs; subst hs
        by_cases hc : c' = c
        · subst hc
          cases cur with
          | none => exact skip rfl rfl (by simp [phases])
          | some xs =>
            obtain ⟨mem', p, h1, h2, h3⟩ := hcur
            rw [hlk] at h3; cases h3
        · exact skip rfl rfl (by simp [phases, hc])
      · obtain ⟨hpol, pend, hrep⟩ := hwf c' p hlk
        obtain ⟨p', ms, pend', hparse, -, -⟩ := Srv.parse_total hrep d
        simp only [Srv.step, hlk, hparse, CM.ret_bind] at hs
        obtain ⟨v2, hon, hre⟩ := Srv.onMbaps_reacts env c' ms { v with listeners := Srv.setListener v.listeners c' p' }
        rw [hon] at hs; injection hs with hs; subst hs
        have hmsgs := msgsOf_reacts hre c
        have hlis := hre.same.listeners
        simp only at hmsgs hlis
        by_cases hc : c' = c
        · subst hc
          cases cur with
          | none => rw [hlk] at hcur; cases hcur.1
          | some xs =>
            obtain ⟨mem', q, h1, h2, h3⟩ := hcur
            rw [hlk] at h3; injection h3 with h3; subst h3
            obtain ⟨outs, new, i1, i2, i3⟩ := ih _ v' (some (xs ++ [d])) (o0 ++ ms) hwf1 hr
              ⟨mem', p', h1, feed_snoc _ _ _ h2 hparse, by rw [hlis]; exact Srv.lookup_setListener_same _ _ _ _ hlk⟩
            refine ⟨outs, ms ++ new, by simpa [phases] using i1, by rw [i2, hmsgs]; simp, by rw [i3]; simp⟩
        · refine skip (by rw [hmsgs, if_neg hc]; simp) (by rw [hlis]; exact Srv.lookup_setListener_other _ _ _ _ hc) (by simp [phases, hc])
    | error c' =>
      by_cases hc : c' = c
      · subst hc
        cases cur with
        | none =>
          simp only [Srv.step, hcur.1] at hs
          injection hs with hs; subst hs
          exact skip rfl rfl (by simp [phases])
        | some xs =>
          obtain ⟨mem', p, h1, h2, h3⟩ := hcur
          obtain ⟨hpol, pend, hrep⟩ := hwf c' p h3
          simp only [Srv.step, h3] at hs
          injection hs with hs; subst hs
          obtain ⟨outs, new, i1, i2, i3⟩ := ih _ v' (some []) [] hwf1 hr
            ⟨p.view.mem, p.reset, hrep.mem_length, by rw [← hpol]; rfl, Srv.lookup_setListener_same _ _ _ _ h3⟩
          exact ⟨o0 :: outs, new, by simp only [phases, if_true]; exact .cons ⟨mem', h1, p, h2⟩ i1, i2, by simp [i3]⟩
      · apply skip
        · simp only [Srv.step] at hs; split at hs <;> (injection hs with hs; subst hs; rfl)
        · simp only [Srv.step] at hs
          split at hs <;> (injection hs with hs; subst hs)
          · rfl
          · exact Srv.lookup_setListener_other _ _ _ _ hc
        · cases cur <;> simp [phases, hc]
    | dropped c' =>
      injection hs with hs; subst hs
      by_cases hc : c' = c
      · subst hc
        obtain ⟨outs, new, i1, i2, i3⟩ := ih _ v' none [] hwf1 hr ⟨Srv.lookup_filter_same _ _, rfl⟩
        cases cur with
        | none => exact ⟨outs, new, by simpa [phases] using i1, i2, by rw [i3, hcur.2]⟩
        | some xs =>
          obtain ⟨mem', p, h1, h2, h3⟩ := hcur
          exact ⟨o0 :: outs, new, by simp only [phases, if_true]; exact .cons ⟨mem', h1, p, h2⟩ i1, i2, by simp [i3]⟩
      · exact skip rfl (Srv.lookup_filter_other _ _ _ hc) (by simp [phases, hc])

/-- C34, framing: in every history, what connection `c` hands over is what a fresh receiver would hand over for each of the
connection's receiving phases separately; nothing else that happens (in particular on other connections) matters, and
after an error framing starts afresh. -/
theorem C34_framing_per_connection (env : ServerEnv W) (w : W) (ops : List Op) (v : Srv W)
    (hrun : (Srv.init w).run env ops = .ret v) (c : ConnId) :
    ∃ outs, List.Forall₂ (FramedAs env.pol) (phases c none ops) outs ∧ msgsOf c v.log = outs.flatten := by
  obtain ⟨outs, new, h1, h2, h3⟩ := phases_run env c ops _ v none [] (Srv.WF.init env w) hrun ⟨rfl, rfl⟩
  exact ⟨outs, h1, by rw [h2, h3]; rfl⟩

/-- The events of connection `c` in a history. -/
def concerns (c : ConnId) : Op → Bool
  | .opened c' _ => c' == c
  | .receive c' _ => c' == c
  | .error c' => c' == c
  | .dropped c' => c' == c
  | _ => false

/-- C34, independence: connection `c` hands over the same messages in a history and in the same history with all events of
other connections (and all API calls) removed. -/
theorem C34_other_connections_irrelevant (env : ServerEnv W) (w : W) (ops : List Op) (c : ConnId) (v v' : Srv W)
    (h1 : (Srv.init w).run env ops = .ret v) (h2 : (Srv.init w).run env (ops.filter (concerns c)) = .ret v') :
    msgsOf c v.log = msgsOf c v'.log := by
  have key : ∀ (ops : List Op) (a b v v' : Srv W), Srv.WF env a → Srv.WF env b → a.listeners.lookup c = b.listeners.lookup c →
      msgsOf c a.log = msgsOf c b.log → a.run env ops = .ret v → b.run env (ops.filter (concerns c)) = .ret v' →
      msgsOf c v.log = msgsOf c v'.log := by
    intro ops
    induction ops with
    | nil =>
      intro a b v v' _ _ _ hm h1 h2
      injection h1 with h1; injection h2 with h2; subst h1; subst h2; exact hm
    | cons op ops ih =>
      intro a b v v' hwa hwb hl hm h1 h2
      obtain ⟨a1, ha1, hwa1⟩ := Srv.step_total hwa op
      obtain ⟨b1, hb1, hwb1⟩ := Srv.step_total hwb op
      simp only [Srv.run, ha1, CM.ret_bind] at h1
      by_cases hc : concerns c op = true
      · rw [List.filter_cons, if_pos hc] at h2
        simp only [Srv.run, hb1, CM.ret_bind] at h2
        suffices hs : a1.listeners.lookup c = b1.listeners.lookup c ∧ msgsOf c a1.log = msgsOf c b1.log from
          ih a1 b1 v v' hwa1 hwb1 hs.1 hs.2 h1 h2
        cases op with
        | start => cases hc
        | shutdown => cases hc
        | addSession u s => cases hc
        | runTask => cases hc
        | opened c' mem =>
          have hc' : c' = c := by simpa [concerns] using hc
          subst hc'
          simp only [Srv.step, hl] at ha1 hb1
          split at ha1
          · rename_i hs
            rw [if_pos hs] at hb1
            injection ha1 with ha1; injection hb1 with hb1; subst ha1; subst hb1; exact ⟨hl, hm⟩
          · rename_i hs
            rw [if_neg hs] at hb1
            injection ha1 with ha1; injection hb1 with hb1; subst ha1; subst hb1
            exact ⟨by simp only [Srv.lookup_append_single, hl], hm⟩
        | receive c' d =>
          have hc' : c' = c := by simpa [concerns] using hc
          subst hc'
          cases hlb : b.listeners.lookup c' with
          | none =>
            rw [hlb] at hl
            simp only [Srv.step, hl] at ha1
            simp only [Srv.step, hlb] at hb1
            injection ha1 with ha1; injection hb1 with hb1; subst ha1; subst hb1; exact ⟨by rw [hl, hlb], hm⟩
          | some p =>
            rw [hlb] at hl
            obtain ⟨hpol, pend, hrep⟩ := hwb c' p hlb
            obtain ⟨p', ms, pend', hparse, -, -⟩ := Srv.parse_total hrep d
            simp only [Srv.step, hl, hparse, CM.ret_bind] at ha1
            simp only [Srv.step, hlb, hparse, CM.ret_bind] at hb1
            obtain ⟨v2, hon, hre⟩ := Srv.onMbaps_reacts env c' ms { a with listeners := Srv.setListener a.listeners c' p' }
            obtain ⟨v3, hon3, hre3⟩ := Srv.onMbaps_reacts env c' ms { b with listeners := Srv.setListener b.listeners c' p' }
            rw [hon] at ha1; injection ha1 with ha1; subst ha1
            rw [hon3] at hb1; injection hb1 with hb1; subst hb1
            rw [hre.same.listeners, hre3.same.listeners, msgsOf_reacts hre, msgsOf_reacts hre3]
            exact ⟨by rw [Srv.lookup_setListener_same _ _ _ _ hl, Srv.lookup_setListener_same _ _ _ _ hlb], by simp only [hm]⟩
        | error c' =>
          have hc' : c' = c := by simpa [concerns] using hc
          subst hc'
          cases hlb : b.listeners.lookup c' with
          | none =>
            rw [hlb] at hl
            simp only [Srv.step, hl] at ha1
            simp only [Srv.step, hlb] at hb1
            injection ha1 with ha1; injection hb1 with hb1; subst ha1; subst hb1; exact ⟨by rw [hl, hlb], hm⟩
          | some p =>
            rw [hlb] at hl
            simp only [Srv.step, hl] at ha1
            simp only [Srv.step, hlb] at hb1
            injection ha1 with ha1; injection hb1 with hb1; subst ha1; subst hb1
            exact ⟨by rw [Srv.lookup_setListener_same _ _ _ _ hl, Srv.lookup_setListener_same _ _ _ _ hlb], hm⟩
        | dropped c' =>
          have hc' : c' = c := by simpa [concerns] using hc
          subst hc'
          injection ha1 with ha1; injection hb1 with hb1; subst ha1; subst hb1
          exact ⟨by simp only [Srv.lookup_filter_same], hm⟩
      · rw [List.filter_cons, if_neg hc] at h2
        suffices hs : a1.listeners.lookup c = a.listeners.lookup c ∧ msgsOf c a1.log = msgsOf c a.log from
          ih a1 b v v' hwa1 hwb (by rw [hs.1, hl]) (by rw [hs.2, hm]) h1 h2
        cases op with
        | start => simp only [Srv.step] at ha1; split at ha1 <;> (injection ha1 with ha1; subst ha1; exact ⟨rfl, rfl⟩)
        | shutdown => injection ha1 with ha1; subst ha1; exact ⟨rfl, rfl⟩
        | addSession u s => simp only [Srv.step] at ha1; split at ha1 <;> (injection ha1 with ha1; subst ha1; exact ⟨rfl, rfl⟩)
        | runTask =>
          simp only [Srv.step] at ha1
          split at ha1
          · injection ha1 with ha1; subst ha1; exact ⟨rfl, rfl⟩
          · rename_i t ts ht
            injection ha1 with ha1; subst ha1
            obtain ⟨es, e1, -, e3⟩ := Srv.runTask_blocks env { a with tasks := ts } t
            exact ⟨by rw [Srv.runTask_listeners], by rw [e1, msgsOf_append, msgsOf_none (fun m => e3 c m), List.append_nil]⟩
        | opened c' mem =>
          have hc' : c' ≠ c := by simpa [concerns] using hc
          simp only [Srv.step] at ha1
          split at ha1
          · injection ha1 with ha1; subst ha1; exact ⟨rfl, rfl⟩
          · injection ha1 with ha1; subst ha1
            simp only [Srv.lookup_append_single]
            rw [if_neg (fun h => hc' h.symm)]; simp
        | receive c' d =>
          have hc' : c' ≠ c := by simpa [concerns] using hc
          rcases Srv.step_cases ha1 with ⟨t, ts, h, -, -⟩ | ⟨c1, d1, p1, p', ms, hop, hlk', hparse, hre⟩ | h
          · cases h
          · injection hop with e1 e2; subst e1; subst e2
            rw [hre.same.listeners, msgsOf_reacts hre, if_neg hc', List.append_nil]
            exact ⟨Srv.lookup_setListener_other _ _ _ _ hc', rfl⟩
          · cases hlk : a.listeners.lookup c' with
            | none =>
              simp only [Srv.step, hlk] at ha1
              injection ha1 with ha1; subst ha1; exact ⟨rfl, rfl⟩
            | some p =>
              obtain ⟨hpol, pend, hrep⟩ := hwa c' p hlk
              obtain ⟨p', ms, pend', hparse, -, -⟩ := Srv.parse_total hrep d
              simp only [Srv.step, hlk, hparse, CM.ret_bind] at ha1
              obtain ⟨v2, hon, hre⟩ := Srv.onMbaps_reacts env c' ms { a with listeners := Srv.setListener a.listeners c' p' }
              rw [hon] at ha1; injection ha1 with ha1; subst ha1
              rw [hre.same.listeners, msgsOf_reacts hre, if_neg hc', List.append_nil]
              exact ⟨Srv.lookup_setListener_other _ _ _ _ hc', rfl⟩
        | error c' =>
          have hc' : c' ≠ c := by simpa [concerns] using hc
          simp only [Srv.step] at ha1
          split at ha1 <;> (injection ha1 with ha1; subst ha1)
          · exact ⟨rfl, rfl⟩
          · exact ⟨Srv.lookup_setListener_other _ _ _ _ hc', rfl⟩
        | dropped c' =>
          have hc' : c' ≠ c := by simpa [concerns] using hc
          injection ha1 with ha1; subst ha1
          exact ⟨Srv.lookup_filter_other _ _ _ hc', rfl⟩
  exact key ops _ _ v v' (Srv.WF.init env w) (Srv.WF.init env w) rfl rfl h1 h2

/-! ### C23 -/

/-- C23. In every history and for every connection: the frames sent on it are, in order, replies to some of the messages it
handed over (at most one per message). -/
theorem C23_at_most_one_response (env : ServerEnv W) (v : Srv W) (hv : SReach env v) (c : ConnId) :
    ∃ sub, sub.Sublist (msgsOf c v.log) ∧ List.Forall₂ Replies sub (sendsOf c v.log) := by
  obtain ⟨w, ops, hrun⟩ := hv
  obtain ⟨bs, h1, h2⟩ := Srv.run_blocks hrun
  have h1' : v.log = bs.flatten := by simpa [Srv.init] using h1
  rw [h1']
  clear h1 h1' hrun
  induction bs with
  | nil => exact ⟨[], by simp, .nil⟩
  | cons b bs ih =>
    obtain ⟨sub, i1, i2⟩ := ih (fun b hb => h2 b (by simp [hb]))
    rw [List.flatten_cons, msgsOf_append, sendsOf_append]
    suffices hb : ∃ sub, sub.Sublist (msgsOf c b) ∧ List.Forall₂ Replies sub (sendsOf c b) by
      obtain ⟨sub', j1, j2⟩ := hb
      exact ⟨sub' ++ sub, j1.append i1, List.rel_append j2 i2⟩
    cases h2 b (by simp) with
    | other e e1 e2 e3 =>
      refine ⟨[], by simp, ?_⟩
      have : sendsOf c [e] = [] := by cases e <;> simp_all [sendsOf]
      rw [this]; exact .nil
    | reaction c' m calls answers hc ha =>
      have e1 : sendsOf c (.mbap c' m :: (calls ++ answers)) = sendsOf c answers := by
        rcases hc with rfl | ⟨s, k, r, rfl⟩ <;> simp [sendsOf]
      rw [e1]
      rcases ha with rfl | ⟨pdu, hp, rfl⟩
      · exact ⟨[], by simp, .nil⟩
      · by_cases hcc : c' = c
        · subst hcc
          refine ⟨[m], ?_, ?_⟩
          · rcases hc with rfl | ⟨s, k, r, rfl⟩ <;> simp [msgsOf]
          · simp only [sendsOf, List.filterMap_cons, List.filterMap_nil, if_true]
            exact .cons ⟨pdu, hp, rfl⟩ .nil
        · refine ⟨[], by simp, ?_⟩
          simp only [sendsOf, List.filterMap_cons, List.filterMap_nil, if_neg hcc]
          exact .nil

/-- C23, in terms of the bytes received: if connection `c` received (in any segmentation) a stream consisting of the
complete frames `fs` and an incomplete rest, the frames sent on it are, in order, replies to some of `fs`, at most one
per frame. -/
theorem C23_pipelined (env : ServerEnv W) (w : W) (ops : List Op) (v : Srv W)
    (hrun : (Srv.init w).run env ops = .ret v) (c : ConnId) (chunks : List (List UInt8)) (hph : phases c none ops = [chunks])
    (fs : List Frame) (pend : List UInt8) (hsp : Splits chunks.flatten fs pend) :
    ∃ sub, sub.Sublist fs ∧
      List.Forall₂ (fun f bytes => ∃ pdu : List UInt8, pdu.length ≤ 253 ∧ bytes = (frameOf ⟨f.unit, f.tid, pdu⟩).bytes) sub
        (sendsOf c v.log) := by
  obtain ⟨sub, h1, h2⟩ := C23_at_most_one_response env v ⟨w, ops, hrun⟩ c
  obtain ⟨outs, h3, h4⟩ := C34_framing_per_connection env w ops v hrun c
  rw [hph] at h3
  obtain ⟨out, outs', ⟨mem, hmem, hrec⟩, h5, rfl⟩ := List.forall₂_cons_left_iff.1 h3
  cases h5
  rw [h4] at h1
  simp only [List.flatten_cons, List.flatten_nil, List.append_nil] at h1
  obtain ⟨fs1, pend1, h6, fs', h7, h8⟩ := C18_delivered_from_frame_partial env.pol mem hmem chunks out hrec
  obtain ⟨rfl, rfl⟩ := splits_unique hsp h6
  -- choose the frames of the answered messages
  have pick : ∀ (fs' : List Frame) (out sub : List Mbap), List.Forall₂ (fun f m => m.unit = f.unit ∧ m.tid = f.tid) fs' out →
      sub.Sublist out → ∃ fsub, fsub.Sublist fs' ∧ List.Forall₂ (fun (f : Frame) (m : Mbap) => m.unit = f.unit ∧ m.tid = f.tid) fsub sub := by
    intro fs' out sub hf hs
    induction hs generalizing fs' with
    | slnil => exact ⟨[], by simp, .nil⟩
    | cons a hs ih =>
      cases hf with
      | cons hfa hf =>
        obtain ⟨fsub, j1, j2⟩ := ih _ hf
        exact ⟨fsub, j1.cons _, j2⟩
    | cons_cons a hs ih =>
      cases hf with
      | cons hfa hf =>
        obtain ⟨fsub, j1, j2⟩ := ih _ hf
        exact ⟨_ :: fsub, j1.cons_cons _, .cons hfa j2⟩
  obtain ⟨fsub, j1, j2⟩ := pick fs' out sub (h8.imp fun f m h => ⟨h.1, h.2.1⟩) h1
  refine ⟨fsub, j1.trans h7, ?_⟩
  clear h1 h8 hrun j1
  generalize sendsOf c v.log = bs at h2
  induction j2 generalizing bs with
  | nil => cases h2; exact .nil
  | cons hfm _ ih =>
    cases h2 with
    | cons hr h2 =>
      obtain ⟨pdu, hp, hb⟩ := hr
      exact .cons ⟨pdu, hp, by rw [hb, hfm.1, hfm.2]⟩ (ih _ h2)

/-! ### C24-C28, C33: what one message leads to -/

theorem kindOf_fc (k : Kind) : Srv.kindOf (Spec.fc k) = some k := by cases k <;> rfl

theorem kindOf_none {fc : UInt8} (h : ∀ k, fc ≠ Spec.fc k) : Srv.kindOf fc = none := by
  have h1 := h .readCoils
  have h2 := h .readDiscreteInputs
  have h3 := h .readHoldingRegisters
  have h4 := h .readInputRegisters
  have h5 := h .writeSingleCoil
  have h6 := h .writeSingleRegister
  have h7 := h .writeMultipleCoils
  have h8 := h .writeMultipleRegisters
  simp only [Spec.fc] at *
  simp [Srv.kindOf, *]

theorem denotes_head {k : Kind} {d : List UInt8} {r : Req k} (h : Spec.Denotes k d r) : ∃ rest, d = Spec.fc k :: rest := by
  cases k
  case writeMultipleCoils => obtain ⟨-, body, -, rfl⟩ := h; exact ⟨_, rfl⟩
  all_goals obtain ⟨-, rfl⟩ := h; exact ⟨_, rfl⟩

theorem outOfRange_head {k : Kind} {d : List UInt8} (h : Spec.OutOfRange k d) : ∃ rest, d = Spec.fc k :: rest := by
  cases k
  case writeSingleRegister => cases h
  case writeSingleCoil => obtain ⟨a, v, rfl, -⟩ := h; exact ⟨_, rfl⟩
  case writeMultipleCoils => obtain ⟨a, q, bc, rest, rfl, -⟩ := h; exact ⟨_, rfl⟩
  case writeMultipleRegisters => obtain ⟨a, q, bc, rest, rfl, -⟩ := h; exact ⟨_, rfl⟩
  all_goals obtain ⟨a, q, rfl, -⟩ := h; exact ⟨_, rfl⟩

theorem responsePdu_unique {k : Kind} {r : Resp k} {p1 p2 : List UInt8} (h1 : Spec.ResponsePdu k r p1) (h2 : Spec.ResponsePdu k r p2) :
    p1 = p2 := by
  cases k
  case readCoils => obtain ⟨b1, h1, rfl⟩ := h1; obtain ⟨b2, h2, rfl⟩ := h2; rw [packs_unique h1 h2]
  case readDiscreteInputs => obtain ⟨b1, h1, rfl⟩ := h1; obtain ⟨b2, h2, rfl⟩ := h2; rw [packs_unique h1 h2]
  all_goals exact Eq.trans h1 (Eq.symm h2)

/-- Message `m` reaches session `s` of the running channel. -/
structure Reaches (v : Srv W) (m : Mbap) (s : SessId) : Prop where
  running : v.isShutdown = false
  registered : v.sessions.lookup m.unit = some s

theorem onMbap_dispatch (env : ServerEnv W) {v : Srv W} (c : ConnId) {m : Mbap} {s : SessId} (h : Reaches v m s) {k : Kind}
    (hd : ∃ rest, m.data = Spec.fc k :: rest) :
    v.onMbap env c m = (v.emit (.mbap c m)).processMessage env k s m (Spec.fc k) c := by
  obtain ⟨rest, hd⟩ := hd
  simp only [Srv.onMbap, Srv.emit_isShutdown, Srv.emit_sessions, h.running, h.registered, Bool.false_eq_true, if_false]
  rw [if_neg (by rw [hd]; simp), hd]
  simp only [getU8, readU8, CM.ret_bind, kindOf_fc]

theorem exceptionMsg_frame (env : ServerEnv W) (v : Srv W) (c : ConnId) (m : Mbap) (fc : UInt8) (t : ExceptionType) :
    (v.sendMessage env c m.unit m.tid (exceptionMsg fc t)).log =
      v.log ++ [.send c (frameOf ⟨m.unit, m.tid, [fc ||| 0x80, t.toByte]⟩).bytes] := by
  obtain ⟨pdu, -, h1, h2⟩ := Srv.sendMessage_log env v c m.unit m.tid (exceptionMsg fc t) (Or.inr (Or.inr ⟨_, _, rfl⟩))
  rw [h1, h2 _ (emits_of_writes (exceptionMsg_writes fc t)) (by simp)]

/-- The session `s` is called with `r` for message `m` of connection `c`; then `sent` are the effects. -/
def Handles (env : ServerEnv W) (v : Srv W) (c : ConnId) (m : Mbap) (s : SessId) (k : Kind) (r : Req k) (sent : List SEv) : Prop :=
  ∃ v', v.onMbap env c m = .ret v' ∧ v'.world = (env.onRequest s k r v.world).1 ∧
    v'.log = v.log ++ ([.mbap c m, .request s k r] ++ sent)

/-- C24. A conformant request for a registered unit of a running channel calls that unit's session exactly once, with
exactly that request; if the session answers, exactly the prescribed encoding of the answer is sent (if it fits a PDU;
see C32 otherwise). -/
theorem C24_request_reaches_session (env : ServerEnv W) (v : Srv W) (c : ConnId) (m : Mbap) (s : SessId) (hs : Reaches v m s)
    (k : Kind) (r : Req k) (hd : Spec.Denotes k m.data r) (resp : Resp k)
    (hresp : (env.onRequest s k r v.world).2 = .ok resp) :
    ∃ pdu, Handles env v c m s k r [.send c (frameOf ⟨m.unit, m.tid, pdu⟩).bytes] ∧
      ∀ p, Spec.ResponsePdu k resp p → p.length ≤ 253 → pdu = p := by
  have hp := (C02_accepts_iff_denotes k m.data r).2 hd
  obtain ⟨pdu, -, h1, h2⟩ := Srv.sendMessage_log env ((v.emit (.mbap c m)).called env s k r) c m.unit m.tid (respMsg k resp)
    (Or.inr (Or.inl ⟨_, _, rfl⟩))
  refine ⟨pdu, ⟨_, ?_, rfl, by rw [h1]; simp [Srv.called, Srv.emit]⟩, ?_⟩
  · rw [onMbap_dispatch env c hs (denotes_head hd), Srv.processMessage_ok _ _ _ _ _ _ _ hp]
    simp only [Srv.emit_world, hresp]
  · intro p hpdu hl
    obtain ⟨q, hq1, hq2⟩ := response_conformant k resp
    cases responsePdu_unique hpdu hq2
    exact h2 _ hq1 hl

/-- The numeric codes documented in lib/include/modbus/messages/ExceptionType.h. -/
def headerCode : ExceptionType → UInt8
  | .illegalFunction => 1
  | .illegalDataAddress => 2
  | .illegalDataValue => 3
  | .serverDeviceFailure => 4
  | .acknowledge => 5
  | .serverDeviceBusy => 6
  | .memoryParityError => 7
  | .gatewayPathUnavailable => 10
  | .gatewayTargetDeviceFailedToRespond => 11
  | .unknown => 12

theorem toByte_eq (t : ExceptionType) : t.toByte = headerCode t := by cases t <;> rfl

/-- C28. If the session fails a conformant request with a Modbus exception, exactly the two-byte exception response with
the exception's code is sent; if it fails with anything else, nothing is sent. -/
theorem C28_session_failures (env : ServerEnv W) (v : Srv W) (c : ConnId) (m : Mbap) (s : SessId) (hs : Reaches v m s)
    (k : Kind) (r : Req k) (hd : Spec.Denotes k m.data r) (e : Exc)
    (hresp : (env.onRequest s k r v.world).2 = .error e) :
    (∀ t, e = .modbus t →
      Handles env v c m s k r [.send c (frameOf ⟨m.unit, m.tid, [Spec.fc k ||| 0x80, headerCode t]⟩).bytes]) ∧
    ((∀ t, e ≠ .modbus t) → Handles env v c m s k r []) := by
  have hp := (C02_accepts_iff_denotes k m.data r).2 hd
  have hon := onMbap_dispatch env c hs (denotes_head hd)
  rw [Srv.processMessage_ok _ _ _ _ _ _ _ hp, Srv.emit_world, hresp] at hon
  constructor
  · rintro t rfl
    refine ⟨_, hon, rfl, ?_⟩
    rw [exceptionMsg_frame, toByte_eq]
    simp [Srv.called, Srv.emit]
  · intro hne
    cases e with
    | modbus t => exact absurd rfl (hne t)
    | _ => exact ⟨_, hon, rfl, by simp [Srv.called, Srv.emit]⟩

/-- Nothing but the arrival of the message is observable. -/
def Silent (env : ServerEnv W) (v : Srv W) (c : ConnId) (m : Mbap) : Prop :=
  ∃ v', v.onMbap env c m = .ret v' ∧ v'.world = v.world ∧ v'.log = v.log ++ [.mbap c m]

/-- Without calling any session, the PDU `pdu` is sent back. -/
def Refused (env : ServerEnv W) (v : Srv W) (c : ConnId) (m : Mbap) (pdu : List UInt8) : Prop :=
  ∃ v', v.onMbap env c m = .ret v' ∧ v'.world = v.world ∧
    v'.log = v.log ++ [.mbap c m, .send c (frameOf ⟨m.unit, m.tid, pdu⟩).bytes]

/-- C25. Unknown units, empty PDUs and structurally malformed PDUs of supported function codes are ignored. -/
theorem C25_silence (env : ServerEnv W) (v : Srv W) (c : ConnId) (m : Mbap) :
    (v.sessions.lookup m.unit = none → Silent env v c m) ∧
    (m.data = [] → Silent env v c m) ∧
    (∀ k rest, m.data = Spec.fc k :: rest → ¬ Spec.OutOfRange k m.data → (∀ r, ¬ Spec.Denotes k m.data r) → Silent env v c m) := by
  refine ⟨?_, ?_, ?_⟩
  · intro h
    refine ⟨v.emit (.mbap c m), ?_, rfl, rfl⟩
    simp only [Srv.onMbap, Srv.emit_sessions, h]
    split <;> rfl
  · intro h
    refine ⟨v.emit (.mbap c m), ?_, rfl, rfl⟩
    simp only [Srv.onMbap, h]
    split
    · rfl
    · split <;> rfl
  · intro k rest hd h1 h2
    have hp : parseReq k m.data = .ret (.error .malformedRequest) := (C03_rejections_classified k m.data).2.1.2 ⟨h1, h2⟩
    cases hrun : v.isShutdown with
    | true => exact ⟨v.emit (.mbap c m), by simp [Srv.onMbap, hrun], rfl, rfl⟩
    | false =>
      cases hreg : v.sessions.lookup m.unit with
      | none => exact ⟨v.emit (.mbap c m), by simp [Srv.onMbap, hrun, hreg], rfl, rfl⟩
      | some s =>
        refine ⟨v.emit (.mbap c m), ?_, rfl, rfl⟩
        rw [onMbap_dispatch env c ⟨hrun, hreg⟩ ⟨rest, hd⟩, Srv.processMessage_malformed _ _ _ _ _ _ _ hp]

/-- C26. A function code outside the supported set is answered with exception 1, whatever follows it. -/
theorem C26_unsupported_refused (env : ServerEnv W) (v : Srv W) (c : ConnId) (m : Mbap) (s : SessId) (hs : Reaches v m s)
    (fc : UInt8) (rest : List UInt8) (hd : m.data = fc :: rest) (hfc : ∀ k, fc ≠ Spec.fc k) :
    Refused env v c m [fc ||| 0x80, 1] := by
  refine ⟨(v.emit (.mbap c m)).sendMessage env c m.unit m.tid (exceptionMsg fc .illegalFunction), ?_, rfl, ?_⟩
  · simp only [Srv.onMbap, Srv.emit_isShutdown, Srv.emit_sessions, hs.running, hs.registered, Bool.false_eq_true, if_false]
    rw [if_neg (by rw [hd]; simp), hd]
    simp only [getU8, readU8, CM.ret_bind, kindOf_none hfc]
    rfl
  · rw [exceptionMsg_frame]
    simp [Srv.emit, ExceptionType.toByte]

/-- C27. An out-of-range request is answered with exception 3. -/
theorem C27_out_of_range_refused (env : ServerEnv W) (v : Srv W) (c : ConnId) (m : Mbap) (s : SessId) (hs : Reaches v m s)
    (k : Kind) (hd : Spec.OutOfRange k m.data) : Refused env v c m [Spec.fc k ||| 0x80, 3] := by
  have hp := (C03_rejections_classified k m.data).1.2 hd
  refine ⟨(v.emit (.mbap c m)).sendMessage env c m.unit m.tid (exceptionMsg (Spec.fc k) .illegalDataValue), ?_, rfl, ?_⟩
  · rw [onMbap_dispatch env c hs (outOfRange_head hd), Srv.processMessage_illegal _ _ _ _ _ _ _ hp]
  · rw [exceptionMsg_frame]
    simp [Srv.emit, ExceptionType.toByte]

/-- C33. A session that overrides nothing makes the server answer every well-formed request with exception 1. -/
theorem C33_default_session (env : ServerEnv W) (v : Srv W) (c : ConnId) (m : Mbap) (s : SessId) (hs : Reaches v m s)
    (hdef : ∀ k (r : Req k) w, env.onRequest s k r w = defaultOnRequest k r w) (k : Kind) (r : Req k)
    (hd : Spec.Denotes k m.data r) :
    Handles env v c m s k r [.send c (frameOf ⟨m.unit, m.tid, [Spec.fc k ||| 0x80, 1]⟩).bytes] :=
  (C28_session_failures env v c m s hs k r hd (.modbus .illegalFunction) (by rw [hdef]; rfl)).1 _ rfl

/-! ### C29 -/

/-- C29. A message for unit `u` calls only the session registered for `u`; anything of the user's state that this session
does not change is unchanged. -/
theorem C29_session_isolation (env : ServerEnv W) (v v' : Srv W) (c : ConnId) (m : Mbap) (h : v.onMbap env c m = .ret v') :
    ∃ new, v'.log = v.log ++ new ∧
      (∀ s k r, SEv.request s k r ∈ new → v.sessions.lookup m.unit = some s) ∧
      ∀ (τ : Type) (f : W → τ), (∀ s, v.sessions.lookup m.unit = some s → ∀ k r w, f (env.onRequest s k r w).1 = f w) →
        f v'.world = f v.world := by
  obtain ⟨v1, h1, h2⟩ := Srv.onMbap_reacts env v c m
  rw [h] at h1; injection h1 with h1; subst h1
  cases h2 with
  | silent => exact ⟨_, rfl, by simp, fun _ _ _ => rfl⟩
  | refuse s fc t hr hs hfc =>
    refine ⟨_, by rw [exceptionMsg_frame, Srv.emit_log, List.append_assoc], by simp, fun _ _ _ => rfl⟩
  | call s k r hp hr hs =>
    refine ⟨_, by simp only [Srv.emit_log, List.append_assoc]; rfl, ?_, fun τ f hf => hf s hs k r v.world⟩
    intro s' k' r' hm
    simp at hm
    rw [hm.1]; exact hs
  | answer s k r hp msg hm hr hs =>
    obtain ⟨pdu, -, e1, -⟩ := Srv.sendMessage_log env ((v.emit (.mbap c m)).called env s k r) c m.unit m.tid msg hm
    refine ⟨_, Eq.trans e1 (by simp only [Srv.called, Srv.emit_log, List.append_assoc]; rfl), ?_, fun τ f hf => hf s hs k r v.world⟩
    intro s' k' r' hm'
    simp at hm'
    rw [hm'.1]; exact hs

/-! ### Concrete cases -/

/-- Example sessions: session 0 answers register reads with the number of calls so far, and fails everything else with
"server device busy"; session 1 overrides nothing; session 2 fails with a non-Modbus exception; session 3 answers register
reads with 126 registers. -/
def demo (junk : UInt8) : ServerEnv Nat where
  pol := .reject
  junk _ := Vector.replicate 260 junk
  onRequest
    | 0, .readHoldingRegisters, r, n => (n + 1, .ok (Spec.labelRegs r.start (List.replicate r.qty.toNat (UInt16.ofNat n))))
    | 0, _, _, n => (n + 1, .error (.modbus .serverDeviceBusy))
    | 1, k, r, n => defaultOnRequest k r n
    | 3, .readHoldingRegisters, r, n => (n, .ok (Spec.labelRegs r.start (List.replicate 126 0x0102)))
    | _, _, _, n => (n, .error (.other 7))

/-- Units 1-4 registered for sessions 0-3. -/
def demoOps : List Op :=
  [.start, .addSession 1 0, .addSession 2 1, .addSession 3 2, .addSession 4 3, .runTask, .runTask, .runTask, .runTask, .runTask]

/-- The running demo server. -/
def demoSrv : Srv Nat :=
  { isShutdown := false, isStarted := true, sessions := [(1, 0), (2, 1), (3, 2), (4, 3)], tasks := [], listeners := [],
    world := 0, nsend := 0, log := [.serverStart] }

theorem demoSrv_reach (j : UInt8) : SReach (demo j) demoSrv := ⟨0, demoOps, rfl⟩

/-- Effects of a computation. -/
def logOf (x : CM (Srv W)) : Option (List SEv) :=
  match x with
  | .ub => none
  | .ret v => some v.log

/-- A request to read two holding registers from address 16. -/
def demoRead (u : UInt8) : Mbap := ⟨u, 0x0102, [3, 0, 16, 0, 2]⟩

/- C24: the request reaches session 0, which answers. -/
example : Reaches demoSrv (demoRead 1) 0 ∧ Spec.Denotes .readHoldingRegisters (demoRead 1).data ⟨16, 2⟩ :=
  ⟨⟨rfl, rfl⟩, ⟨by decide, by decide⟩, rfl⟩
example : logOf (demoSrv.onMbap (demo 0) 5 (demoRead 1)) = some [.serverStart, .mbap 5 (demoRead 1),
    .request 0 .readHoldingRegisters ⟨16, 2⟩, .send 5 [1, 2, 0, 0, 0, 7, 1, 3, 4, 0, 0, 0, 0]] := by decide +kernel
/- C25: unit 9 unknown; empty PDU; truncated PDU. -/
example : demoSrv.sessions.lookup (demoRead 9).unit = none := rfl
example : logOf (demoSrv.onMbap (demo 0) 5 ⟨1, 7, [3, 0, 16]⟩) = some [.serverStart, .mbap 5 ⟨1, 7, [3, 0, 16]⟩] := by decide +kernel
/- C26: function code 0x2B. -/
example : logOf (demoSrv.onMbap (demo 0) 5 ⟨1, 7, [0x2B, 14]⟩) =
    some [.serverStart, .mbap 5 ⟨1, 7, [0x2B, 14]⟩, .send 5 [0, 7, 0, 0, 0, 3, 1, 0xAB, 1]] := by decide +kernel
/- C27: quantity 126. -/
example : Reaches demoSrv ⟨1, 7, [3, 0, 16, 0, 126]⟩ 0 ∧ Spec.OutOfRange .readHoldingRegisters [3, 0, 16, 0, 126] :=
  ⟨⟨rfl, rfl⟩, 16, 126, rfl, Or.inr (by decide)⟩
example : logOf (demoSrv.onMbap (demo 0) 5 ⟨1, 7, [3, 0, 16, 0, 126]⟩) =
    some [.serverStart, .mbap 5 ⟨1, 7, [3, 0, 16, 0, 126]⟩, .send 5 [0, 7, 0, 0, 0, 3, 1, 0x83, 3]] := by decide +kernel
/- C28: session 0 fails coil writes, session 2 fails with another exception. -/
example : logOf (demoSrv.onMbap (demo 0) 5 ⟨1, 7, [5, 0, 16, 0xFF, 0]⟩) = some [.serverStart, .mbap 5 ⟨1, 7, [5, 0, 16, 0xFF, 0]⟩,
    .request 0 .writeSingleCoil ⟨16, true⟩, .send 5 [0, 7, 0, 0, 0, 3, 1, 0x85, 6]] := by decide +kernel
example : logOf (demoSrv.onMbap (demo 0) 5 ⟨3, 7, [5, 0, 16, 0xFF, 0]⟩) = some [.serverStart, .mbap 5 ⟨3, 7, [5, 0, 16, 0xFF, 0]⟩,
    .request 2 .writeSingleCoil ⟨16, true⟩] := by decide +kernel
/- C33: session 1 overrides nothing. -/
example : ∀ k (r : Req k) w, (demo 0).onRequest 1 k r w = defaultOnRequest k r w := fun k r w => by cases k <;> rfl
example : logOf (demoSrv.onMbap (demo 0) 5 (demoRead 2)) = some [.serverStart, .mbap 5 (demoRead 2),
    .request 1 .readHoldingRegisters ⟨16, 2⟩, .send 5 [1, 2, 0, 0, 0, 3, 2, 0x83, 1]] := by decide +kernel

/- C22-C24, C29: direct instances. -/
example := C24_request_reaches_session (demo 0) demoSrv 5 (demoRead 1) 0 ⟨rfl, rfl⟩ .readHoldingRegisters ⟨16, 2⟩ ⟨⟨by decide, by decide⟩, rfl⟩ [⟨16, 0⟩, ⟨17, 0⟩] rfl
example := C23_at_most_one_response (demo 0) demoSrv (demoSrv_reach 0) 5
example := C29_session_isolation (demo 0) demoSrv (demoSrv.emit (.mbap 5 (demoRead 9))) 5 (demoRead 9) rfl
/- C34: two histories with traffic on connections 5 and 6, and the same without connection 6. -/
example := C34_other_connections_irrelevant (demo 0) 0 (demoOps ++ [.opened 5 (Vector.replicate 260 0), .opened 6 (Vector.replicate 260 0), .receive 6 [1, 2, 3], .receive 5 [1, 2, 0, 0], .dropped 6]) 5
example : phases 5 none (demoOps ++ [.opened 5 (Vector.replicate 260 0), .opened 6 (Vector.replicate 260 0), .receive 6 [1, 2, 3], .receive 5 [1, 2, 0, 0], .dropped 6]) = [[[1, 2, 0, 0]]] := by
  decide +kernel

end Modbus.Props
