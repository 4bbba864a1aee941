import Verif.Lemmas.Client
import Verif.Spec.Throwing

/-! Helper lemmas about handlers that throw. -/

namespace Modbus

open Spec

theorem thrownAfter_append (th : Throws) (l1 l2 : List CEv) : ∀ pre, thrownAfter th pre (l1 ++ l2) = thrownAfter th pre l1 + thrownAfter th (pre ++ l1) l2 := by
  induction l1 with
  | nil => intro pre; simp [thrownAfter]
  | cons e l ih =>
    intro pre
    have h : pre ++ e :: l = (pre ++ [e]) ++ l := by simp
    cases e <;> simp only [List.cons_append, thrownAfter, ih, h] <;> omega

theorem thrown_append (th : Throws) (l1 l2 : List CEv) : thrown th (l1 ++ l2) = thrown th l1 + thrownAfter th l1 l2 := by
  simpa [thrown] using thrownAfter_append th l1 l2 []

theorem thrown_le (th : Throws) (l1 l2 : List CEv) : thrown th l1 ≤ thrown th (l1 ++ l2) := by rw [thrown_append]; omega

theorem thrown_handler {th : Throws} (l : List CEv) (u : Nat) (x : Expected (List UInt8)) (t : Nat) :
    thrown th (l ++ [.handler u x t]) = thrown th l + if th l u x then 1 else 0 := by
  rw [thrown_append]; rfl

namespace Cli

/-! ### Parsing -/

theorem findBodySize_mem {p p' : Parser} (h : p.findBodySize = .ret p') : p'.view.mem.length = p.view.mem.length := by
  unfold Parser.findBodySize at h
  cases hg : getU16 (p.view.mem.drop 4) with
  | ub => rw [hg] at h; cases h
  | ret x =>
    rw [hg] at h
    simp only [CM.ret_bind, CM.pure_eq] at h
    split at h
    · injection h with h; subst h; simp [Parser.reset, WSeq.mem]
    · injection h with h; subst h; rfl

theorem sendData_mem {p p' : Parser} {o : List Mbap} (h : p.sendData = .ret (p', o)) : p'.view.mem.length = p.view.mem.length := by
  unfold Parser.sendData at h
  cases hg : getU16 p.view.mem with
  | ub => rw [hg] at h; cases h
  | ret x =>
    rw [hg] at h
    simp only [CM.ret_bind] at h
    cases hg2 : getU16 x.2 with
    | ub => rw [hg2] at h; cases h
    | ret y =>
      rw [hg2] at h
      simp only [CM.ret_bind] at h
      cases hg3 : getU16 y.2 with
      | ub => rw [hg3] at h; cases h
      | ret z =>
        rw [hg3] at h
        simp only [CM.ret_bind] at h
        cases hg4 : getU8 z.2 with
        | ub => rw [hg4] at h; cases h
        | ret w =>
          rw [hg4] at h
          simp only [CM.ret_bind, CM.pure_eq] at h
          split at h <;> (injection h with h; injection h with h1 h2; subst h1; simp [Parser.reset, WSeq.mem])

theorem onMbapT_parser (env : ClientEnv) (th : Throws) (v : Cli) (p : Parser) (m : Mbap) :
    { v with parser := p }.onMbapT env th m = ({ (v.onMbapT env th m).1 with parser := p }, (v.onMbapT env th m).2) := by
  obtain ⟨sd, ss, p0, pend, cur, tm, nt, ts, ar, fi, now, nti, nu, ns, nse, log⟩ := v
  simp only [onMbapT, emit]
  cases sd with
  | true => rfl
  | false =>
    simp only [Bool.false_eq_true, if_false]
    cases cur with
    | none => rfl
    | some r =>
      dsimp only
      split
      · simp only [tell, cancelTimer, emit]
        cases tm <;> dsimp only <;> cases th (log ++ [.mbap m]) r.uid (.ok m.data) <;> cases pend <;> simp [checkPending, emit]
      · rfl

theorem onMbapsT_parser (env : ClientEnv) (th : Throws) (ms : List Mbap) : ∀ (v : Cli) (p : Parser),
    { v with parser := p }.onMbapsT env th ms = ({ (v.onMbapsT env th ms).1 with parser := p }, (v.onMbapsT env th ms).2) := by
  induction ms with
  | nil => intro v p; rfl
  | cons m ms ih =>
    intro v p
    simp only [onMbapsT]
    rw [onMbapT_parser]
    cases h : v.onMbapT env th m with
    | mk w b =>
      cases b with
      | true => rfl
      | false => exact ih w p

theorem onMbapsT_append (env : ClientEnv) (th : Throws) (m1 m2 : List Mbap) : ∀ v : Cli, v.onMbapsT env th (m1 ++ m2) =
    match v.onMbapsT env th m1 with
    | (w, true) => (w, true)
    | (w, false) => w.onMbapsT env th m2 := by
  induction m1 with
  | nil => intro v; rfl
  | cons m ms ih =>
    intro v
    simp only [List.cons_append, onMbapsT]
    cases h : v.onMbapT env th m with
    | mk w b =>
      cases b with
      | true => rfl
      | false => exact ih w

/-- What parsing does, in terms of the messages the parser would deliver. -/
theorem parseT_eq (env : ClientEnv) (th : Throws) (p : Parser) (data : List UInt8) : ∀ (v : Cli) (p' : Parser) (ms : List Mbap), v.parser = p →
    p.parse data = .ret (p', ms) →
    ((v.onMbapsT env th ms).2 = false → v.parseT env th data = .ret ({ (v.onMbapsT env th ms).1 with parser := p' }, false)) ∧
    ((v.onMbapsT env th ms).2 = true → ∃ p'', p''.view.mem.length = p.view.mem.length ∧ v.parseT env th data = .ret ({ (v.onMbapsT env th ms).1 with parser := p'' }, true)) := by
  induction p, data using Parser.parse.induct with
  | case1 p =>
    intro v p' ms hv h
    rw [Parser.parse.eq_def, dif_pos rfl] at h
    injection h with h; injection h with h1 h2
    subst h1 h2 hv
    rw [parseT.eq_def, dif_pos rfl]
    exact ⟨fun _ => rfl, fun hb => (by cases hb)⟩
  | case2 p data hd read p1 hn hb hf =>
    intro v p' ms hv h
    rw [Parser.parse.eq_def, dif_neg hd] at h
    dsimp only at h
    rw [dif_pos hn, dif_pos hb] at h
    split at h
    · cases h
    · rename_i heq; rw [hf] at heq; cases heq
  | case3 p data hd read data' p1 hn hb p2 hf ih =>
    intro v p' ms hv h
    rw [Parser.parse.eq_def, dif_neg hd] at h
    dsimp only at h
    rw [dif_pos hn, dif_pos hb] at h
    split at h
    · cases h
    · rename_i p2' heq
      rw [hf] at heq; injection heq with heq; subst heq
      subst hv
      have hrun : v.parseT env th data = { v with parser := p2 }.parseT env th data' := by
        rw [parseT.eq_def, dif_neg hd]
        dsimp only
        rw [dif_pos hn, dif_pos hb]
        split
        · rename_i heq; rw [hf] at heq; cases heq
        · rename_i heq; rw [hf] at heq; injection heq with heq; subst heq; rfl
      have := ih { v with parser := p2 } p' ms rfl h
      rw [onMbapsT_parser] at this
      rw [hrun]
      refine ⟨this.1, fun hb => ?_⟩
      obtain ⟨p'', e1, e2⟩ := this.2 hb
      exact ⟨p'', by rw [e1, findBodySize_mem hf]; exact copyFrom_mem_length _ _ _, e2⟩
  | case4 p data hd read p1 hn hb hf =>
    intro v p' ms hv h
    rw [Parser.parse.eq_def, dif_neg hd] at h
    dsimp only at h
    rw [dif_pos hn, dif_neg hb] at h
    split at h
    · cases h
    · rename_i heq; rw [hf] at heq; cases heq
  | case5 p data hd read data' p1 hn hb p2 out hf ih =>
    intro v p' ms hv h
    rw [Parser.parse.eq_def, dif_neg hd] at h
    dsimp only at h
    rw [dif_pos hn, dif_neg hb] at h
    split at h
    · cases h
    · rename_i p2' out' heq
      rw [hf] at heq; injection heq with heq; injection heq with h1 h2; subst h1 h2
      subst hv
      cases hp : p2.parse data' with
      | ub => rw [hp] at h; cases h
      | ret x =>
        obtain ⟨p3, out3⟩ := x
        rw [hp] at h
        simp only [CM.ret_bind, CM.pure_eq] at h
        injection h with h; injection h with h1 h2; subst h1 h2
        have hrun : v.parseT env th data = match { v with parser := p1 }.onMbapsT env th out with
            | (w, true) => .ret (w, true)
            | (w, false) => { w with parser := p2 }.parseT env th data' := by
          rw [parseT.eq_def, dif_neg hd]
          dsimp only
          rw [dif_pos hn, dif_neg hb]
          split
          · rename_i heq; rw [hf] at heq; cases heq
          · rename_i heq; rw [hf] at heq; injection heq with heq; injection heq with h1 h2; subst h1 h2; rfl
        rw [hrun, onMbapsT_parser env th out v p1, onMbapsT_append]
        cases hm : v.onMbapsT env th out with
        | mk w b =>
          cases b with
          | true => exact ⟨fun hb => (by cases hb), fun _ => ⟨p1, copyFrom_mem_length _ _ _, rfl⟩⟩
          | false =>
            have := ih { w with parser := p2 } p3 out3 rfl hp
            rw [onMbapsT_parser] at this
            dsimp only at this ⊢
            refine ⟨this.1, fun hb => ?_⟩
            obtain ⟨p'', e1, e2⟩ := this.2 hb
            exact ⟨p'', by rw [e1, sendData_mem hf]; exact copyFrom_mem_length _ _ _, e2⟩
  | case6 p data hd read data' p1 hn ih =>
    intro v p' ms hv h
    rw [Parser.parse.eq_def, dif_neg hd] at h
    dsimp only at h
    rw [dif_neg hn] at h
    subst hv
    have hrun : v.parseT env th data = { v with parser := p1 }.parseT env th data' := by
      rw [parseT.eq_def, dif_neg hd]
      dsimp only
      rw [dif_neg hn]
    have := ih { v with parser := p1 } p' ms rfl h
    rw [onMbapsT_parser] at this
    rw [hrun]
    refine ⟨this.1, fun hb => ?_⟩
    obtain ⟨p'', e1, e2⟩ := this.2 hb
    exact ⟨p'', by rw [e1]; exact copyFrom_mem_length _ _ _, e2⟩

/-! ### What stays true in spite of exceptions -/

/-- The invariant, in terms of the log, the request that is out, those that wait, the posted tasks, the next number and whether shutdown has taken effect. -/
structure TI (th : Throws) (log : List CEv) (cur : Option Nat) (pend : List Nat) (tasks : List CTask) (n : Nat) (down : Bool) : Prop where
  count : ∀ u, (handledUids log).count u + cur.toList.count u + pend.count u + (taskUids tasks).count u ≤ 1 + thrown th log
  bound : ∀ u, u ∈ handledUids log ∨ u ∈ cur.toList ∨ u ∈ pend ∨ u ∈ taskUids tasks ∨ u ∈ sentUids log → u < n
  order : (sentUids log ++ (pend ++ reqTaskUids tasks)).Pairwise (· < ·)
  curSent : ∀ u, cur = some u → u ∈ sentUids log
  out : ∃ o : Option Nat, (∀ u ∈ sentUids log, u ∉ handledUids log → o = some u) ∧ (down = false → o = cur)

/-- The invariant of the channel. -/
def TInv (th : Throws) (v : Cli) : Prop := TI th v.log (v.current.map (·.uid)) v.pendUids v.tasks v.nextUid v.isShutdown

variable {th : Throws} {log : List CEv} {cur : Option Nat} {pend : List Nat} {tasks : List CTask} {n : Nat} {down : Bool}

theorem TI.plain (h : TI th log cur pend tasks n down) (e : CEv) (h1 : handledUids [e] = []) (h2 : sentUids [e] = []) :
    TI th (log ++ [e]) cur pend tasks n down := by
  have ht := thrown_le th log [e]
  constructor
  · intro u; have := h.count u; simp only [handledUids_append, h1, List.append_nil]; omega
  · intro u hu; simp only [handledUids_append, sentUids_append, h1, h2, List.append_nil] at hu; exact h.bound u hu
  · simpa [h2] using h.order
  · simpa [h2] using h.curSent
  · simpa [h1, h2] using h.out

theorem TI.grow (h : TI th log cur pend tasks n down) : TI th log cur pend tasks (n + 1) down :=
  ⟨h.count, fun u hu => Nat.lt_succ_of_lt (h.bound u hu), h.order, h.curSent, h.out⟩

theorem handled_one (u : Nat) (x : Expected (List UInt8)) (t : Nat) : handledUids [CEv.handler u x t] = [u] := rfl
theorem sent_handler (u : Nat) (x : Expected (List UInt8)) (t : Nat) : sentUids [CEv.handler u x t] = [] := rfl

theorem TI.pend_nodup (h : TI th log cur pend tasks n down) : pend.Nodup := by
  have h1 := (List.pairwise_append.1 (List.pairwise_append.1 h.order).2.1).1
  exact h1.imp (fun hab => by omega)

/-- Several handlers are called (each at most once) and at least one of them throws. -/
theorem TI.throwing (h : TI th log cur pend tasks n down) (es : List CEv) (hn : (handledUids es).Nodup) (hb : ∀ u ∈ handledUids es, u < n)
    (hs : sentUids es = []) (ht : thrown th log < thrown th (log ++ es)) : TI th (log ++ es) cur pend tasks n down := by
  constructor
  · intro u
    have := h.count u
    have h1 := List.nodup_iff_count_le_one.1 hn u
    simp only [handledUids_append, List.count_append]; omega
  · intro u hu
    simp only [handledUids_append, sentUids_append, hs, List.append_nil, List.mem_append] at hu
    rcases hu with (hu | hu) | hu
    · exact h.bound u (.inl hu)
    · exact hb u hu
    · exact h.bound u (.inr hu)
  · simpa [hs] using h.order
  · simpa [hs] using h.curSent
  · obtain ⟨o, h1, h2⟩ := h.out
    refine ⟨o, fun u hu hh => ?_, h2⟩
    simp only [sentUids_append, hs, List.append_nil] at hu
    exact h1 u hu (fun hm => hh (by simp [hm]))

/-- A handler throws. -/
theorem TI.throw (h : TI th log cur pend tasks n down) (u : Nat) (x : Expected (List UInt8)) (t : Nat) (hu : u < n) (hx : th log u x = true) :
    TI th (log ++ [.handler u x t]) cur pend tasks n down := by
  refine h.throwing _ (by rw [handled_one]; simp) (by rw [handled_one]; simpa using hu) rfl ?_
  rw [thrown_handler, hx]; simp

/-- The request that is out is told, and is not out any more. -/
theorem TI.settle {u : Nat} (h : TI th log (some u) pend tasks n down) (hd : down = false) (x : Expected (List UInt8)) (t : Nat) :
    TI th (log ++ [.handler u x t]) none pend tasks n down := by
  have ht := thrown_le th log [.handler u x t]
  constructor
  · intro w
    have := h.count w
    simp only [handledUids_append, handled_one, List.count_append, Option.toList] at this ⊢
    simp only [List.count_nil]; omega
  · intro w hw
    simp only [handledUids_append, handled_one, sentUids_append, sent_handler, List.append_nil, List.mem_append, List.mem_singleton, Option.toList] at hw
    rcases hw with (hw | rfl) | hw | hw
    · exact h.bound w (.inl hw)
    · exact h.bound w (.inr (.inl (by simp)))
    · cases hw
    · exact h.bound w (.inr (.inr hw))
  · simpa [sent_handler] using h.order
  · intro w hw; cases hw
  · obtain ⟨o, h1, h2⟩ := h.out
    refine ⟨none, fun w hw hh => ?_, fun _ => rfl⟩
    simp only [sentUids_append, sent_handler, List.append_nil] at hw
    simp only [handledUids_append, handled_one, List.mem_append, List.mem_singleton, not_or] at hh
    have := h1 w hw hh.1
    rw [h2 hd] at this
    injection this with this
    exact absurd this.symm hh.2

/-- The requests that wait are told, and do not wait any more. -/
theorem TI.settlePending (h : TI th log cur pend tasks n down) (es : List CEv) (he : handledUids es = pend) (hs : sentUids es = []) :
    TI th (log ++ es) cur [] tasks n down := by
  have ht := thrown_le th log es
  constructor
  · intro u
    have := h.count u
    simp only [handledUids_append, he, List.count_append, List.count_nil] at this ⊢; omega
  · intro u hu
    simp only [handledUids_append, he, sentUids_append, hs, List.append_nil, List.mem_append] at hu
    rcases hu with (hu | hu) | hu | hu | hu
    · exact h.bound u (.inl hu)
    · exact h.bound u (.inr (.inr (.inl hu)))
    · exact h.bound u (.inr (.inl hu))
    · cases hu
    · exact h.bound u (.inr (.inr (.inr hu)))
  · have h1 := List.pairwise_append.1 h.order
    have h2 := List.pairwise_append.1 h1.2.1
    simp only [sentUids_append, hs, List.append_nil, List.nil_append]
    exact List.pairwise_append.2 ⟨h1.1, h2.2.1, fun a ha b hb => h1.2.2 a ha b (List.mem_append_right _ hb)⟩
  · simpa [hs] using h.curSent
  · obtain ⟨o, h1, h2⟩ := h.out
    refine ⟨o, fun u hu hh => ?_, h2⟩
    simp only [sentUids_append, hs, List.append_nil] at hu
    exact h1 u hu (fun hm => hh (by simp [hm]))

/-- The next request is sent. -/
theorem TI.send {r : Nat} {rest : List Nat} (h : TI th log none (r :: rest) tasks n down) (hd : down = false) (bytes : List UInt8) (t : Nat) :
    TI th (log ++ [.sent r bytes t]) (some r) rest tasks n down := by
  have ht := thrown_le th log [.sent r bytes t]
  have h1 : handledUids [CEv.sent r bytes t] = [] := rfl
  have h2 : sentUids [CEv.sent r bytes t] = [r] := rfl
  constructor
  · intro u
    have := h.count u
    simp only [handledUids_append, h1, List.append_nil, Option.toList, List.count_cons, List.count_nil] at this ⊢
    omega
  · intro u hu
    refine h.bound u ?_
    simp only [handledUids_append, h1, sentUids_append, h2, List.append_nil, List.mem_append, Option.toList, List.mem_cons, List.not_mem_nil, or_false, false_or] at hu ⊢
    tauto
  · simp only [sentUids_append, h2, List.append_assoc]
    exact h.order
  · intro u hu; injection hu with hu; subst hu; simp [h2]
  · obtain ⟨o, g1, g2⟩ := h.out
    refine ⟨some r, fun u hu hh => ?_, fun _ => rfl⟩
    simp only [sentUids_append, h2, List.mem_append, List.mem_singleton] at hu
    simp only [handledUids_append, h1, List.append_nil] at hh
    rcases hu with hu | rfl
    · have := g1 u hu hh; rw [g2 hd] at this; cases this
    · rfl

theorem TInv.checkPending {v : Cli} (h : TInv th v) (env : ClientEnv) : TInv th (v.checkPending env) := by
  unfold TInv at h ⊢
  obtain ⟨sd, ss, p0, pend, cur, tm, nt, ts, ar, fi, now, nti, nu, ns, nse, log⟩ := v
  cases sd with
  | true => exact h
  | false =>
    cases cur with
    | some r => exact h
    | none =>
      cases pend with
      | nil => exact h
      | cons r rest => exact TI.send (r := r.uid) (rest := rest.map (·.uid)) h rfl _ _

theorem TInv.cancelCurrent {v : Cli} (h : TInv th { v with current := none }) (env : ClientEnv) : TInv th (v.cancelCurrent env) := by
  obtain ⟨sd, ss, p0, pend, cur, tm, nt, ts, ar, fi, now, nti, nu, ns, nse, log⟩ := v
  cases cur with
  | none => exact h
  | some r =>
    refine TInv.checkPending ?_ env
    cases tm <;> exact h

theorem TInv.onMbapT {v : Cli} (h : TInv th v) (env : ClientEnv) (m : Mbap) : TInv th (v.onMbapT env th m).1 := by
  obtain ⟨sd, ss, p0, pend, cur, tm, nt, ts, ar, fi, now, nti, nu, ns, nse, log⟩ := v
  have h0 : TI th (log ++ [.mbap m]) (cur.map (·.uid)) (pend.map (·.uid)) ts nu sd := TI.plain h _ rfl rfl
  cases sd with
  | true => exact h0
  | false =>
    cases cur with
    | none => exact h0
    | some r =>
      simp only [Cli.onMbapT, emit, Bool.false_eq_true, if_false]
      split
      · have key : ∀ ar' : List (Nat × Nat), TInv th (match (tell th (⟨false, ss, p0, pend, some r, tm, nt, ts, ar', fi, now, nti, nu, ns, nse, log ++ [CEv.mbap m]⟩ : Cli) r.uid (.ok m.data)) with
            | (v, true) => (v, true)
            | (v, false) => ({ v with current := none }.checkPending env, false)).1 := by
          intro ar'
          simp only [tell]
          cases hx : th (log ++ [.mbap m]) r.uid (.ok m.data) with
          | true => exact h0.throw _ _ _ (h0.bound r.uid (.inr (.inl (by simp)))) hx
          | false => exact TInv.checkPending (v := { ((⟨false, ss, p0, pend, some r, tm, nt, ts, ar', fi, now, nti, nu, ns, nse, log ++ [CEv.mbap m]⟩ : Cli).emit (.handler r.uid (.ok m.data) now)) with current := none }) (TI.settle (u := r.uid) h0 rfl _ _) env
        cases tm <;> exact key _
      · exact h0

theorem TInv.onMbapsT (env : ClientEnv) (ms : List Mbap) : ∀ {v : Cli}, TInv th v → TInv th (v.onMbapsT env th ms).1 := by
  induction ms with
  | nil => exact fun h => h
  | cons m ms ih =>
    intro v h
    have h1 := h.onMbapT env m
    simp only [Cli.onMbapsT]
    cases hm : v.onMbapT env th m with
    | mk w b =>
      rw [hm] at h1
      cases b with
      | true => exact h1
      | false => exact ih h1

theorem TInv.setParser {v : Cli} (h : TInv th v) (p : Parser) : TInv th { v with parser := p } := h

/-- What telling the waiting requests does. -/
theorem tellPending_spec (th : Throws) (rs : List PendingReq) : ∀ v : Cli, ∃ told rest, rs = told ++ rest ∧
    (v.tellPending th rs).1 = { v with log := v.log ++ told.map fun r => .handler r.uid (.error .connection) v.now } ∧
    ((v.tellPending th rs).2 = false → rest = [] ∧ thrown th (v.tellPending th rs).1.log = thrown th v.log) ∧
    ((v.tellPending th rs).2 = true → thrown th v.log < thrown th (v.tellPending th rs).1.log) := by
  induction rs with
  | nil =>
    intro v
    exact ⟨[], [], rfl, by simp [tellPending], fun _ => ⟨rfl, rfl⟩, fun hb => (by cases hb)⟩
  | cons r rs ih =>
    intro v
    simp only [tellPending, tell]
    cases hx : th v.log r.uid (.error .connection) with
    | true =>
      refine ⟨[r], rs, rfl, rfl, fun hb => (by cases hb), fun _ => ?_⟩
      show thrown th v.log < thrown th (v.log ++ [.handler r.uid (.error .connection) v.now])
      rw [thrown_handler, hx]; simp
    | false =>
      obtain ⟨told, rest, h1, h2, h3, h4⟩ := ih (v.emit (.handler r.uid (.error .connection) v.now))
      have e : thrown th (v.emit (.handler r.uid (.error .connection) v.now)).log = thrown th v.log := by
        show thrown th (v.log ++ [.handler r.uid (.error .connection) v.now]) = _
        rw [thrown_handler, hx]; simp
      refine ⟨r :: told, rest, by rw [h1]; rfl, ?_, ?_, ?_⟩
      · dsimp only; rw [h2]; simp [emit]
      · dsimp only; rw [← e]; exact h3
      · dsimp only; rw [← e]; exact h4

theorem handled_told (rs : List PendingReq) (t : Nat) : handledUids (rs.map fun r => CEv.handler r.uid (.error .connection) t) = rs.map (·.uid) := by
  induction rs with
  | nil => rfl
  | cons r rs ih => simp only [List.map_cons]; rw [← ih]; rfl

theorem sent_told (rs : List PendingReq) (t : Nat) : sentUids (rs.map fun r => CEv.handler r.uid (.error .connection) t) = [] := by
  induction rs with
  | nil => rfl
  | cons r rs ih => simp only [List.map_cons]; exact ih

/-- The rest of `onErrorT`. -/
def failT (env : ClientEnv) (th : Throws) (u : Cli) : Cli × Bool :=
  match u.tellPending th u.pending with
  | (v, true) => (v, true)
  | (v, false) =>
    let v := { v with pending := [] }
    match v.current with
    | none => (v, false)
    | some r =>
      match v.tell th r.uid (.error .connection) with
      | (v, true) => (v, true)
      | (v, false) => (v.cancelCurrent env, false)

theorem onErrorT_up (env : ClientEnv) (v : Cli) (hs : v.isShutdown = false) :
    v.onErrorT env th = failT env th { v.emit .connError with parser := v.parser.reset } := by
  obtain ⟨sd, ss, p0, pend, cur, tm, nt, ts, ar, fi, now, nti, nu, ns, nse, log⟩ := v
  subst hs
  rfl

theorem onErrorT_down (env : ClientEnv) (v : Cli) (hs : v.isShutdown = true) : v.onErrorT env th = (v.emit .connError, false) := by
  obtain ⟨sd, ss, p0, pend, cur, tm, nt, ts, ar, fi, now, nti, nu, ns, nse, log⟩ := v
  subst hs
  rfl

theorem TInv.failT {u : Cli} (h0 : TInv th u) (env : ClientEnv) (hs : u.isShutdown = false) : TInv th (failT env th u).1 := by
  obtain ⟨told, rest, e1, e2, e3, e4⟩ := tellPending_spec th u.pending u
  unfold Cli.failT
  cases hm : u.tellPending th u.pending with
  | mk w b =>
    rw [hm] at e2 e3 e4
    dsimp only at e2 e3 e4
    cases b with
    | true =>
      have e4 := e4 rfl
      dsimp only
      rw [e2] at e4 ⊢
      refine TI.throwing h0 _ ?_ ?_ (sent_told _ _) e4
      · rw [handled_told]
        have := TI.pend_nodup h0
        simp only [pendUids, e1, List.map_append] at this
        exact (List.nodup_append.1 this).1
      · rw [handled_told]
        intro a ha
        exact h0.bound a (.inr (.inr (.inl (by simp only [pendUids, e1, List.map_append]; exact List.mem_append_left _ ha))))
    | false =>
      obtain ⟨e3, e5⟩ := e3 rfl
      subst e3
      rw [List.append_nil] at e1
      have h1 : TInv th { w with pending := [] } := by
        rw [e2]
        exact TI.settlePending h0 _ (by rw [handled_told, ← e1]; rfl) (sent_told _ _)
      dsimp only
      have hsd : w.isShutdown = false := by rw [e2]; exact hs
      cases hcur : w.current with
      | none => rw [hcur] at h1; exact h1
      | some r =>
        rw [hcur] at h1
        simp only [tell]
        have h1' : TI th w.log (some r.uid) [] w.tasks w.nextUid w.isShutdown := by
          have := h1; unfold TInv at this; simpa [hcur, pendUids] using this
        cases hx : th w.log r.uid (.error .connection) with
        | true =>
          have := h1'.throw r.uid (.error .connection) w.now (h1'.bound r.uid (.inr (.inl (by simp)))) hx
          show TI _ _ _ _ _ _ _
          simpa [emit, hcur, pendUids] using this
        | false =>
          refine TInv.cancelCurrent ?_ env
          have := h1'.settle hsd (.error .connection) w.now
          show TI _ _ _ _ _ _ _
          simpa [emit, pendUids] using this

theorem TInv.onErrorT {v : Cli} (h : TInv th v) (env : ClientEnv) : TInv th (v.onErrorT env th).1 := by
  have h0 : TInv th (v.emit .connError) := TI.plain h _ rfl rfl
  cases hs : v.isShutdown with
  | true => rw [onErrorT_down env v hs]; exact h0
  | false => rw [onErrorT_up env v hs]; exact TInv.failT (h0.setParser _) env hs

theorem TInv.onTimerT {v : Cli} (h : TInv th v) (env : ClientEnv) : TInv th (v.onTimerT env th).1 := by
  unfold Cli.onTimerT
  split
  · exact h
  · rename_i hs
    have hs : v.isShutdown = false := by simpa using hs
    cases hcur : v.current with
    | none => exact h
    | some r =>
      simp only [tell]
      have h1 : TI th v.log (some r.uid) v.pendUids v.tasks v.nextUid v.isShutdown := by
        have := h; unfold TInv at this; simpa [hcur] using this
      cases hx : th v.log r.uid (.error .timeout) with
      | true =>
        have := h1.throw r.uid (.error .timeout) v.now (h1.bound r.uid (.inr (.inl (by simp)))) hx
        show TI _ _ _ _ _ _ _
        simpa [emit, hcur, pendUids] using this
      | false =>
        refine TInv.cancelCurrent ?_ env
        have := h1.settle hs (.error .timeout) v.now
        show TI _ _ _ _ _ _ _
        simpa [emit, pendUids] using this

theorem onMbapT_same (env : ClientEnv) (v : Cli) (m : Mbap) : (v.onMbapT env th m).1.isShutdown = v.isShutdown := by
  obtain ⟨sd, ss, p0, pend, cur, tm, nt, ts, ar, fi, now, nti, nu, ns, nse, log⟩ := v
  simp only [onMbapT, emit]
  cases sd with
  | true => rfl
  | false =>
    simp only [Bool.false_eq_true, if_false]
    cases cur with
    | none => rfl
    | some r =>
      dsimp only
      split
      · simp only [tell, cancelTimer, emit]
        cases tm <;> dsimp only <;> cases th (log ++ [.mbap m]) r.uid (.ok m.data) <;> cases pend <;> simp [checkPending, emit]
      · rfl

theorem onMbapsT_same (env : ClientEnv) (ms : List Mbap) : ∀ v : Cli, (v.onMbapsT env th ms).1.isShutdown = v.isShutdown := by
  induction ms with
  | nil => intro v; rfl
  | cons m ms ih =>
    intro v
    have h1 := onMbapT_same (th := th) env v m
    simp only [onMbapsT]
    cases hm : v.onMbapT env th m with
    | mk w b =>
      rw [hm] at h1
      cases b with
      | true => exact h1
      | false => exact (ih w).trans h1

theorem checkPending_leaves (env : ClientEnv) (v : Cli) : (v.checkPending env).parser = v.parser ∧ (v.checkPending env).isShutdown = v.isShutdown := by
  obtain ⟨sd, ss, p0, pend, cur, tm, nt, ts, ar, fi, now, nti, nu, ns, nse, log⟩ := v
  cases sd <;> cases cur <;> cases pend <;> exact ⟨rfl, rfl⟩

theorem cancelCurrent_leaves (env : ClientEnv) (v : Cli) : (v.cancelCurrent env).parser = v.parser ∧ (v.cancelCurrent env).isShutdown = v.isShutdown := by
  obtain ⟨sd, ss, p0, pend, cur, tm, nt, ts, ar, fi, now, nti, nu, ns, nse, log⟩ := v
  cases cur with
  | none => exact ⟨rfl, rfl⟩
  | some r => cases tm <;> exact checkPending_leaves env _

theorem failT_leaves (env : ClientEnv) (u : Cli) : (failT env th u).1.parser = u.parser ∧ (failT env th u).1.isShutdown = u.isShutdown := by
  obtain ⟨told, rest, e1, e2, e3, e4⟩ := tellPending_spec th u.pending u
  unfold failT
  cases hm : u.tellPending th u.pending with
  | mk w b =>
    rw [hm] at e2
    dsimp only at e2
    have hp : w.parser = u.parser ∧ w.isShutdown = u.isShutdown := by rw [e2]; exact ⟨rfl, rfl⟩
    cases b with
    | true => exact hp
    | false =>
      dsimp only
      split
      · exact hp
      · simp only [tell]
        split
        · rename_i heq; injection heq with a b; subst a; exact hp
        · rename_i heq; injection heq with a b; subst a
          have := cancelCurrent_leaves env
          exact ⟨(this _).1.trans hp.1, (this _).2.trans hp.2⟩

theorem onTimerT_leaves (env : ClientEnv) (v : Cli) : (v.onTimerT env th).1.parser = v.parser ∧ (v.onTimerT env th).1.isShutdown = v.isShutdown := by
  unfold onTimerT
  split
  · exact ⟨rfl, rfl⟩
  · split
    · exact ⟨rfl, rfl⟩
    · simp only [tell]
      split
      · rename_i heq; injection heq with a b; subst a; exact ⟨rfl, rfl⟩
      · rename_i heq; injection heq with a b; subst a
        exact cancelCurrent_leaves env _

theorem TI.addTask (h : TI th log cur pend tasks n down) (t : CTask) (ht : t.uid? = none ∨ t.uid? = some n) (hq : t.req? = none ∨ t.req? = some n) :
    TI th log cur pend (tasks ++ [t]) (n + 1) down := by
  have hb := h.bound
  have k1 : taskUids [t] = t.uid?.toList := by cases t <;> rfl
  have k2 : reqTaskUids [t] = t.req?.toList := by cases t <;> rfl
  constructor
  · intro u
    have := h.count u
    simp only [taskUids_append, List.count_append, k1]
    rcases ht with ht | ht
    · rw [ht]; simpa using this
    · rw [ht]
      by_cases hu : u = n
      · subst hu
        have z1 : (handledUids log).count u = 0 := List.count_eq_zero.2 (fun hm => by have := hb u (.inl hm); omega)
        have z2 : cur.toList.count u = 0 := List.count_eq_zero.2 (fun hm => by have := hb u (.inr (.inl hm)); omega)
        have z3 : pend.count u = 0 := List.count_eq_zero.2 (fun hm => by have := hb u (.inr (.inr (.inl hm))); omega)
        have z4 : (taskUids tasks).count u = 0 := List.count_eq_zero.2 (fun hm => by have := hb u (.inr (.inr (.inr (.inl hm)))); omega)
        simp [z1, z2, z3, z4]
      · have : (Option.some n).toList.count u = 0 := List.count_eq_zero.2 (by simpa using hu)
        omega
  · intro u hu
    simp only [taskUids_append, List.mem_append, k1] at hu
    rcases hu with hu | hu | hu | (hu | hu) | hu
    · exact Nat.lt_succ_of_lt (hb u (.inl hu))
    · exact Nat.lt_succ_of_lt (hb u (.inr (.inl hu)))
    · exact Nat.lt_succ_of_lt (hb u (.inr (.inr (.inl hu))))
    · exact Nat.lt_succ_of_lt (hb u (.inr (.inr (.inr (.inl hu)))))
    · rcases ht with ht | ht <;> rw [ht] at hu
      · cases hu
      · simp at hu; omega
    · exact Nat.lt_succ_of_lt (hb u (.inr (.inr (.inr (.inr hu)))))
  · rw [reqTaskUids_append, k2, ← List.append_assoc, ← List.append_assoc]
    refine List.pairwise_append.2 ⟨by simpa using h.order, ?_, ?_⟩
    · rcases hq with hq | hq <;> rw [hq] <;> simp
    · intro a ha b hb'
      rcases hq with hq | hq <;> rw [hq] at hb'
      · cases hb'
      · simp at hb'
        subst hb'
        simp only [List.mem_append] at ha
        rcases ha with (ha | ha) | ha
        · exact hb a (.inr (.inr (.inr (.inr ha))))
        · exact hb a (.inr (.inr (.inl ha)))
        · refine hb a (.inr (.inr (.inr (.inl ?_))))
          simp only [reqTaskUids, taskUids, List.mem_filterMap] at ha ⊢
          obtain ⟨c, c1, c2⟩ := ha
          exact ⟨c, c1, by cases c <;> simp_all [CTask.req?, CTask.uid?]⟩
  · exact h.curSent
  · exact h.out

theorem TI.postShutdown (h : TI th log cur pend tasks n down) : TI th log cur pend (tasks ++ [.shutdown]) n down := by
  have k1 : taskUids [CTask.shutdown] = [] := rfl
  have k2 : reqTaskUids [CTask.shutdown] = [] := rfl
  refine ⟨?_, ?_, ?_, h.curSent, h.out⟩
  · simpa [taskUids_append, k1] using h.count
  · simpa [taskUids_append, k1] using h.bound
  · simpa [reqTaskUids_append, k2] using h.order

theorem TI.accept {u : Nat} {unit : UInt8} {q : AnyReq} {tmo : Nat} (h : TI th log cur pend (.request u unit q tmo :: tasks) n down) :
    TI th log cur (pend ++ [u]) tasks n down := by
  have k1 : taskUids (CTask.request u unit q tmo :: tasks) = u :: taskUids tasks := rfl
  have k2 : reqTaskUids (CTask.request u unit q tmo :: tasks) = u :: reqTaskUids tasks := rfl
  refine ⟨?_, ?_, ?_, h.curSent, h.out⟩
  · intro a
    have := h.count a
    simp only [k1, List.count_append, List.count_cons, List.count_nil] at this ⊢
    omega
  · intro a ha
    refine h.bound a ?_
    simp only [k1, List.mem_append, List.mem_cons, List.not_mem_nil, or_false] at ha ⊢
    tauto
  · have := h.order
    rw [k2] at this
    simpa using this

theorem TI.dropTask {t : CTask} (h : TI th log cur pend (t :: tasks) n down) : TI th log cur pend tasks n down := by
  have k1 := taskUids_cons t tasks
  have k2 := reqTaskUids_cons t tasks
  refine ⟨?_, ?_, ?_, h.curSent, h.out⟩
  · intro a
    have := h.count a
    simp only [k1, List.count_append] at this
    omega
  · intro a ha
    refine h.bound a ?_
    simp only [k1, List.mem_append] at ha ⊢
    tauto
  · have := h.order
    rw [k2] at this
    refine this.sublist ?_
    exact (List.Sublist.refl _).append ((List.Sublist.refl _).append (List.sublist_append_right _ _))

theorem TI.malformed {u : Nat} (h : TI th log cur pend (.malformed u :: tasks) n down) (x : Expected (List UInt8)) (t : Nat) :
    TI th (log ++ [.handler u x t]) cur pend tasks n down := by
  have k1 : taskUids (CTask.malformed u :: tasks) = u :: taskUids tasks := rfl
  have ht := thrown_le th log [.handler u x t]
  have h' := h.dropTask
  refine ⟨?_, ?_, ?_, ?_, ?_⟩
  · intro a
    have := h.count a
    simp only [k1, handledUids_append, handled_one, List.count_append, List.count_cons, List.count_nil] at this ⊢
    omega
  · intro a ha
    refine h.bound a ?_
    simp only [k1, handledUids_append, handled_one, sentUids_append, sent_handler, List.append_nil, List.mem_append, List.mem_cons, List.not_mem_nil, or_false] at ha ⊢
    tauto
  · simpa [sent_handler] using h'.order
  · simpa [sent_handler] using h'.curSent
  · obtain ⟨o, h1, h2⟩ := h.out
    refine ⟨o, fun w hw hh => ?_, h2⟩
    simp only [sentUids_append, sent_handler, List.append_nil] at hw
    exact h1 w hw (fun hm => hh (by simp [hm]))

theorem handled_shut (ss : List Nat) : handledUids (ss.map CEv.sessionShutdown) = [] ∧ sentUids (ss.map CEv.sessionShutdown) = [] := by
  induction ss with
  | nil => exact ⟨rfl, rfl⟩
  | cons s ss ih => exact ih

theorem TI.stop (h : TI th log cur pend tasks n down) (es : List CEv) (h1 : handledUids es = []) (h2 : sentUids es = []) :
    TI th (log ++ es) none [] tasks n true := by
  have ht := thrown_le th log es
  refine ⟨?_, ?_, ?_, ?_, ?_⟩
  · intro a
    have := h.count a
    simp only [handledUids_append, h1, List.append_nil, Option.toList, List.count_nil]
    omega
  · intro a ha
    refine h.bound a ?_
    simp only [handledUids_append, h1, sentUids_append, h2, List.append_nil, Option.toList, List.not_mem_nil, false_or] at ha
    tauto
  · have := h.order
    simp only [sentUids_append, h2, List.append_nil, List.nil_append]
    refine this.sublist ?_
    exact (List.Sublist.refl _).append (List.sublist_append_right _ _)
  · intro u hu; cases hu
  · obtain ⟨o, g1, -⟩ := h.out
    refine ⟨o, fun w hw hh => ?_, fun hd => (by cases hd)⟩
    simp only [sentUids_append, h2, List.append_nil] at hw
    simp only [handledUids_append, h1, List.append_nil] at hh
    exact g1 w hw hh

theorem TInv.runTask {v : Cli} {t : CTask} (h : TI th v.log (v.current.map (·.uid)) v.pendUids (t :: v.tasks) v.nextUid v.isShutdown) (env : ClientEnv) :
    TInv th (v.runTask env t) ∧ (v.runTask env t).parser = v.parser ∧ (v.isShutdown = true → (v.runTask env t).isShutdown = true) := by
  cases t with
  | request u unit q tmo =>
    simp only [Cli.runTask]
    split
    · exact ⟨h.dropTask, rfl, fun hs => hs⟩
    · rename_i hs
      refine ⟨TInv.checkPending ?_ env, (checkPending_leaves env _).1, fun h' => absurd h' hs⟩
      have := h.accept
      show TI _ _ _ _ _ _ _
      simpa [pendUids] using this
  | malformed u => exact ⟨h.malformed _ _, rfl, fun hs => hs⟩
  | shutdown =>
    refine ⟨?_, ?_, fun _ => ?_⟩
    · have h1 := h.dropTask.stop (v.sessions.map CEv.sessionShutdown) (handled_shut _).1 (handled_shut _).2
      have h2 := h1.plain .tcpShutdown rfl rfl
      obtain ⟨sd, ss, p0, pend, cur, tm, nt, ts, ar, fi, now, nti, nu, ns, nse, log⟩ := v
      cases tm <;> exact h2
    · obtain ⟨sd, ss, p0, pend, cur, tm, nt, ts, ar, fi, now, nti, nu, ns, nse, log⟩ := v
      cases tm <;> rfl
    · obtain ⟨sd, ss, p0, pend, cur, tm, nt, ts, ar, fi, now, nti, nu, ns, nse, log⟩ := v
      cases tm <;> rfl

end Cli

namespace CliT

open Cli

/-- The invariant of the channel and its parser. -/
structure TS (th : Throws) (v : CliT) : Prop where
  inv : TInv th v.cli
  mem : v.cli.parser.view.mem.length = 260
  rep : v.reading = true → v.cli.isShutdown = false → ∃ pend, Rep v.cli.parser pend

variable {th : Throws}

theorem TS.init (env : ClientEnv) : TS th (CliT.init env) := by
  refine ⟨⟨?_, ?_, ?_, ?_, ?_⟩, ?_, ?_⟩
  · intro u; simp [CliT.init, Cli.init, handledUids, pendUids, taskUids]
  · intro u hu; simp [CliT.init, Cli.init, handledUids, sentUids, pendUids, taskUids] at hu
  · exact .nil
  · intro u hu; cases hu
  · exact ⟨none, fun u hu => (by cases hu), fun _ => rfl⟩
  · exact (rep_init env.pol env.mem.toList (by simp)).mem_length
  · exact fun _ _ => ⟨[], rep_init _ _ (by simp)⟩

/-- Steps that leave the parser alone. -/
theorem TS.other {v : CliT} (h : TS th v) {c : Cli} (hi : TInv th c) (hp : c.parser = v.cli.parser) (hs : v.cli.isShutdown = true → c.isShutdown = true) :
    TS th { v with cli := c } := by
  refine ⟨hi, by rw [hp]; exact h.mem, fun hr hd => ?_⟩
  rw [hp]
  refine h.rep hr ?_
  cases hv : v.cli.isShutdown with
  | false => rfl
  | true => rw [hs hv] at hd; cases hd

theorem TS.step {v : CliT} (h : TS th v) (env : ClientEnv) (op : Cli.Op) : ∃ v', v.step env th op = .ret v' ∧ TS th v' := by
  cases op with
  | submit unit q tmo =>
    have h1 : TI th (v.cli.log ++ [.call v.cli.nextUid unit q tmo]) (v.cli.current.map (·.uid)) v.cli.pendUids v.cli.tasks v.cli.nextUid v.cli.isShutdown :=
      TI.plain h.inv _ rfl rfl
    cases hs : v.cli.isShutdown with
    | true =>
      refine ⟨{ v with cli := { v.cli.emit (.call v.cli.nextUid unit q tmo) with nextUid := v.cli.nextUid + 1 } }, ?_, h.other ?_ rfl (fun _ => hs)⟩
      · simp only [CliT.step, Cli.step]; rw [if_pos (by exact hs)]; rfl
      · exact h1.grow
    | false =>
      by_cases hv : isValid q.1 q.2 = true
      · refine ⟨{ v with cli := { v.cli.emit (.call v.cli.nextUid unit q tmo) with nextUid := v.cli.nextUid + 1, tasks := v.cli.tasks ++ [.request v.cli.nextUid unit q tmo] } }, ?_,
          h.other ?_ rfl (fun hh => by rw [hs] at hh; cases hh)⟩
        · simp only [CliT.step, Cli.step]; rw [if_neg (by simp [Cli.emit, hs]), if_pos hv]; rfl
        · exact h1.addTask _ (.inr rfl) (.inr rfl)
      · refine ⟨{ v with cli := { v.cli.emit (.call v.cli.nextUid unit q tmo) with nextUid := v.cli.nextUid + 1, tasks := v.cli.tasks ++ [.malformed v.cli.nextUid] } }, ?_,
          h.other ?_ rfl (fun hh => by rw [hs] at hh; cases hh)⟩
        · simp only [CliT.step, Cli.step]; rw [if_neg (by simp [Cli.emit, hs]), if_neg hv]; rfl
        · exact h1.addTask _ (.inr rfl) (.inl rfl)
  | shutdown => exact ⟨_, rfl, h.other (TI.postShutdown h.inv) rfl (fun hs => hs)⟩
  | createSession =>
    cases hs : v.cli.isShutdown with
    | true =>
      refine ⟨{ v with cli := v.cli.emit (.session none) }, ?_, h.other (TI.plain h.inv _ rfl rfl) rfl (fun _ => hs)⟩
      simp only [CliT.step, Cli.step]; rw [if_pos hs]; rfl
    | false =>
      refine ⟨{ v with cli := { v.cli.emit (.session (some v.cli.nextSession)) with sessions := v.cli.sessions ++ [v.cli.nextSession], nextSession := v.cli.nextSession + 1 } }, ?_,
        h.other (TI.plain h.inv (.session (some v.cli.nextSession)) rfl rfl) rfl (fun hh => by rw [hs] at hh; cases hh)⟩
      simp only [CliT.step, Cli.step]; rw [if_neg (by simp [hs])]; rfl
  | runTask =>
    rcases ht : v.cli.tasks with _ | ⟨t, ts⟩
    · exact ⟨v, by simp [CliT.step, Cli.step, ht], h⟩
    · have hi : TI th v.cli.log (v.cli.current.map (·.uid)) v.cli.pendUids (t :: ts) v.cli.nextUid v.cli.isShutdown := by rw [← ht]; exact h.inv
      have := TInv.runTask (v := { v.cli with tasks := ts }) hi env
      exact ⟨{ v with cli := { v.cli with tasks := ts }.runTask env t }, by simp [CliT.step, Cli.step, ht], h.other this.1 this.2.1 this.2.2⟩
  | receive d =>
    cases hr : v.reading with
    | false => exact ⟨v, by simp [CliT.step, hr], h⟩
    | true =>
      have h0 : TInv th (v.cli.emit (.data d)) := TI.plain h.inv _ rfl rfl
      cases hs : v.cli.isShutdown with
      | true =>
        refine ⟨{ v with cli := v.cli.emit (.data d) }, ?_, h.other h0 rfl (fun _ => hs)⟩
        obtain ⟨c, r⟩ := v
        have hr : r = true := hr
        subst hr
        simp only [CliT.step, Cli.onReceiveT]
        rw [if_pos trivial, if_pos (by exact hs)]; rfl
      | false =>
        obtain ⟨pend, hrep⟩ := h.rep hr hs
        obtain ⟨p', ms, pend', hparse, hrep', hpol'⟩ := Srv.parse_total hrep d
        have key := parseT_eq env th v.cli.parser d (v.cli.emit (.data d)) p' ms rfl hparse
        have hT := h0.onMbapsT env ms
        cases hb : ((v.cli.emit (.data d)).onMbapsT env th ms).2 with
        | false =>
          refine ⟨{ cli := { ((v.cli.emit (.data d)).onMbapsT env th ms).1 with parser := p' }, reading := true }, ?_, ⟨hT, hrep'.mem_length, fun _ _ => ⟨pend', hrep'⟩⟩⟩
          simp only [CliT.step, Cli.onReceiveT, hr, if_true]
          rw [if_neg (by simp [Cli.emit, hs]), key.1 hb]; rfl
        | true =>
          obtain ⟨p'', hm, hp⟩ := key.2 hb
          refine ⟨{ cli := { ((v.cli.emit (.data d)).onMbapsT env th ms).1 with parser := p'' }, reading := false }, ?_, ⟨hT, hm.trans h.mem, fun hh => by cases hh⟩⟩
          simp only [CliT.step, Cli.onReceiveT, hr, if_true]
          rw [if_neg (by simp [Cli.emit, hs]), hp]; rfl
  | error =>
    refine ⟨_, rfl, ⟨h.inv.onErrorT env, ?_, fun _ hd => ?_⟩⟩
    · cases hs : v.cli.isShutdown with
      | true => simp only [onErrorT_down env v.cli hs]; exact h.mem
      | false =>
        simp only [onErrorT_up env v.cli hs]
        rw [(failT_leaves env _).1]
        exact (rep_reset _ h.mem).mem_length
    · cases hs : v.cli.isShutdown with
      | true => simp only [onErrorT_down env v.cli hs] at hd; rw [show (v.cli.emit .connError).isShutdown = v.cli.isShutdown from rfl, hs] at hd; cases hd
      | false =>
        simp only [onErrorT_up env v.cli hs]
        rw [(failT_leaves env _).1]
        exact ⟨[], rep_reset _ h.mem⟩
  | tick n => exact ⟨_, rfl, h.other (c := { v.cli with now := v.cli.now + n }) h.inv rfl (fun hs => hs)⟩
  | expire t =>
    rcases hl : v.cli.armed.lookup t with _ | d
    · exact ⟨v, by simp [CliT.step, Cli.step, hl], h⟩
    · by_cases hd : d ≤ v.cli.now
      · exact ⟨{ v with cli := { v.cli with armed := v.cli.armed.filter (fun x => x.1 ≠ t), fired := v.cli.fired ++ [t] } }, by simp [CliT.step, Cli.step, hl, hd],
          h.other (c := { v.cli with armed := v.cli.armed.filter (fun x => x.1 ≠ t), fired := v.cli.fired ++ [t] }) h.inv rfl (fun hs => hs)⟩
      · exact ⟨v, by simp [CliT.step, Cli.step, hl, hd], h⟩
  | runTimer t =>
    by_cases ht : t ∈ v.cli.fired
    · have h0 : TInv th { v.cli with fired := v.cli.fired.filter fun x => x ≠ t } := h.inv
      have hp := onTimerT_leaves (th := th) env { v.cli with fired := v.cli.fired.filter fun x => x ≠ t }
      exact ⟨_, by simp only [CliT.step, if_pos ht], h.other (h0.onTimerT env) hp.1 (fun hs => hp.2.trans hs)⟩
    · exact ⟨v, by simp [CliT.step, ht], h⟩

theorem TS.run (env : ClientEnv) (ops : List Cli.Op) : ∀ {v : CliT}, TS th v → ∃ v', v.run env th ops = .ret v' ∧ TS th v' := by
  induction ops with
  | nil => exact fun h => ⟨_, rfl, h⟩
  | cons op ops ih =>
    intro v h
    obtain ⟨v1, h1, h2⟩ := h.step env op
    obtain ⟨v', h4, h5⟩ := ih h2
    exact ⟨v', by simp [CliT.run, h1, h4], h5⟩

theorem TS.reach {env : ClientEnv} {v : CliT} (h : TReach env th v) : TS th v := by
  induction h with
  | init => exact TS.init env
  | step op _ hs ih =>
    obtain ⟨v', h1, h2⟩ := ih.step env op
    rw [hs] at h1
    injection h1 with h1
    subst h1
    exact h2

end CliT

end Modbus
