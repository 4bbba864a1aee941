import Verif.Lemmas.Client
import Verif.Lemmas.Server
import Verif.Lemmas.Db
import Verif.Props.ClientTime
import Verif.Props.Server

/-! Helper lemmas for the end-to-end properties: streams of messages cut anywhere, a server fed with one, a client fed with one. -/

namespace Modbus

open Spec

/-- The messages the library puts in frames. -/
def Ordinary (m : Mbap) : Prop := 1 ≤ m.data.length ∧ m.data.length ≤ 253

theorem Ordinary.complete {m : Mbap} (h : Ordinary m) : (frameOf m).Complete := frameOf_complete (by have := h.2; omega)

theorem Ordinary.len {m : Mbap} (h : Ordinary m) : (frameOf m).len.toNat = m.data.length + 1 := by
  have := h.2
  simp only [frameOf]
  rw [ofNat16_toNat (by omega)]

theorem Ordinary.isModbus {m : Mbap} (h : Ordinary m) : (frameOf m).isModbus = true := by
  have hl := h.len
  have : (frameOf m).len ≠ 0 := by intro h0; rw [h0] at hl; simp at hl
  simp only [Frame.isModbus, Bool.and_eq_true, bne_iff_ne, ne_eq, this, not_false_eq_true, and_true]
  rfl

theorem frames_prefix {fs gs : List Frame} {x y : List UInt8} (hf : ∀ f ∈ fs, f.Complete) (hg : ∀ g ∈ gs, g.Complete)
    (h : streamOf fs ++ x = streamOf gs ++ y) (hy : ∀ f : Frame, f.Complete → ¬ f.bytes <+: y) :
    ∃ gs', gs = fs ++ gs' ∧ x = streamOf gs' ++ y := by
  induction fs generalizing gs with
  | nil => exact ⟨gs, rfl, by simpa [streamOf] using h⟩
  | cons f fs ih =>
    cases gs with
    | nil =>
      exfalso
      apply hy f (hf f (by simp))
      simp only [streamOf, List.flatMap_nil, List.nil_append, List.flatMap_cons, List.append_assoc] at h
      rw [← h]; exact List.prefix_append _ _
    | cons g gs =>
      rw [streamOf_cons, streamOf_cons, List.append_assoc, List.append_assoc] at h
      obtain ⟨rfl, h2⟩ := frame_prefix_unique (hf f (by simp)) (hg g (by simp)) h
      obtain ⟨gs', rfl, h3⟩ := ih (fun a ha => hf a (by simp [ha])) (fun a ha => hg a (by simp [ha])) h2
      exact ⟨gs', rfl, h3⟩

/-- A parser at a frame boundary fed with the first bytes of a stream of ordinary messages hands over the first messages of
the stream; if it got the whole stream it hands over all and is at a frame boundary again. -/
theorem feed_prefix {p : Parser} (hp : Rep p []) (msgs : List Mbap) (hm : ∀ m ∈ msgs, Ordinary m) (chunks : List (List UInt8))
    (rest : List UInt8) (h : chunks.flatten ++ rest = streamOf (msgs.map frameOf)) :
    ∃ p' ms ms' pend, p.feed chunks = .ret (p', ms) ∧ p'.pol = p.pol ∧ Rep p' pend ∧ msgs = ms ++ ms' ∧
      chunks.flatten = streamOf (ms.map frameOf) ++ pend ∧ (rest = [] → ms' = [] ∧ pend = []) := by
  obtain ⟨p', out, fs, pend, h1, h2, h3, h4, h5, h6, h7⟩ := feed_spec chunks p [] hp
  simp only [List.nil_append] at h3
  have hg : ∀ g ∈ msgs.map frameOf, g.Complete := by
    intro g hg
    obtain ⟨m, hm', rfl⟩ := List.mem_map.1 hg
    exact (hm m hm').complete
  have hnil : ∀ f : Frame, f.Complete → ¬ f.bytes <+: ([] : List UInt8) := by
    intro f _ hf
    have := hf.length_le
    rw [frame_bytes, List.length_append, hdr_length] at this
    simp at this
  obtain ⟨gs, hgs, hpend⟩ := frames_prefix h4 hg (x := pend ++ rest) (y := [])
    (by rw [← List.append_assoc, ← h3, h, List.append_nil]) hnil
  rw [List.append_nil] at hpend
  obtain ⟨ms, ms', rfl, hfs, hgs'⟩ := List.map_eq_append_iff.1 hgs
  have hout : out = ms := by
    have hfil : fs.filter Frame.isModbus = fs := by
      apply List.filter_eq_self.2
      rw [← hfs]
      intro f hf
      obtain ⟨m, hm', rfl⟩ := List.mem_map.1 hf
      exact (hm m (by simp [hm'])).isModbus
    rw [hfil] at h5
    rw [delivers_map h5, ← hfs, List.map_map]
    · conv => rhs; rw [← List.map_id ms]
      apply List.map_congr_left
      intro m _; rfl
    · rw [← hfs]
      intro f hf
      obtain ⟨m, hm', rfl⟩ := List.mem_map.1 hf
      have := (hm m (by simp [hm'])).len
      have := (hm m (by simp [hm'])).2
      simp only [Frame.Fits]; omega
  subst hout
  refine ⟨p', out, ms', pend, h1, h2, h6, rfl, by rw [h3, hfs], ?_⟩
  rintro rfl
  rw [List.append_nil] at hpend
  cases ms' with
  | nil =>
    refine ⟨rfl, ?_⟩
    rw [hpend, ← hgs']; rfl
  | cons m ms' =>
    exfalso
    have hmo := hm m (by simp)
    rw [← hgs', List.map_cons, streamOf_cons] at hpend
    rcases h6.incomplete with hi | ⟨f, hf1, hf2, hf3⟩
    · exact hi _ hmo.complete (by rw [hpend]; exact List.prefix_append _ _)
    · have e : f.bytes ++ [] = (frameOf m).bytes ++ streamOf (ms'.map frameOf) := by rw [List.append_nil, ← hf3, hpend]
      obtain ⟨rfl, -⟩ := frame_prefix_unique hf1 hmo.complete e
      have := hmo.len; have := hmo.1
      omega

/-! ### A server receiving a list of chunks -/

namespace Srv

variable {W : Type}

theorem onMbap_listeners (env : ServerEnv W) (v : Srv W) (c : ConnId) (m : Mbap) (ls : List (ConnId × Parser)) :
    { v with listeners := ls }.onMbap env c m = (v.onMbap env c m >>= fun v' => .ret { v' with listeners := ls }) := by
  obtain ⟨sd, st, ss, ts, l0, w, n, lg⟩ := v
  simp only [onMbap, emit_isShutdown, emit_sessions]
  cases sd
  case true => rfl
  simp only [Bool.false_eq_true, if_false]
  cases hl : ss.lookup m.unit
  case none => rfl
  case some s =>
    rcases hd : m.data with _ | ⟨fc, rest⟩
    · rfl
    · simp only [List.length_cons, getU8, readU8, CM.ret_bind]
      rw [if_neg (by omega), if_neg (by omega)]
      cases kindOf fc
      case none => rfl
      case some k =>
        simp only
        rcases parseReq_total k m.data with ⟨r, hp⟩ | hp | hp
        · rw [processMessage_ok _ _ _ _ _ _ _ hp, processMessage_ok _ _ _ _ _ _ _ hp]
          simp only [emit_world]
          split <;> rfl
        · rw [processMessage_malformed _ _ _ _ _ _ _ hp, processMessage_malformed _ _ _ _ _ _ _ hp]
          rfl
        · rw [processMessage_illegal _ _ _ _ _ _ _ hp, processMessage_illegal _ _ _ _ _ _ _ hp]
          rfl

theorem onMbaps_listeners (env : ServerEnv W) (c : ConnId) (ls : List (ConnId × Parser)) (ms : List Mbap) : ∀ v : Srv W,
    { v with listeners := ls }.onMbaps env c ms = (v.onMbaps env c ms >>= fun v' => .ret { v' with listeners := ls }) := by
  induction ms with
  | nil => intro v; rfl
  | cons m ms ih =>
    intro v
    obtain ⟨v1, h1, -⟩ := onMbap_reacts env v c m
    simp only [onMbaps, onMbap_listeners, h1, CM.ret_bind]
    exact ih v1

theorem onMbaps_append (env : ServerEnv W) (c : ConnId) (ms ms' : List Mbap) : ∀ v : Srv W,
    v.onMbaps env c (ms ++ ms') = (v.onMbaps env c ms >>= fun v' => v'.onMbaps env c ms') := by
  induction ms with
  | nil => intro v; rfl
  | cons m ms ih =>
    intro v
    obtain ⟨v1, h1, -⟩ := onMbap_reacts env v c m
    simp only [onMbaps, List.cons_append, h1, CM.ret_bind]
    exact ih v1

theorem setListener_twice (ls : List (ConnId × Parser)) (c : ConnId) (p q : Parser) :
    setListener (setListener ls c p) c q = setListener ls c q := by
  induction ls with
  | nil => rfl
  | cons x ls ih =>
    obtain ⟨c', p'⟩ := x
    by_cases h : c' = c
    · simp [setListener, h]
    · simp [setListener, h, ih]

theorem setListener_self (ls : List (ConnId × Parser)) (c : ConnId) (p : Parser) (h : ls.lookup c = some p) :
    setListener ls c p = ls := by
  induction ls with
  | nil => rfl
  | cons x ls ih =>
    obtain ⟨c', p'⟩ := x
    by_cases hc : c' = c
    · subst hc
      simp at h
      simp [setListener, h]
    · have : (c == c') = false := by simp [Ne.symm hc]
      rw [List.lookup_cons, this] at h
      simp [setListener, hc, ih h]

/-- Receiving chunk after chunk is handing over, in one go, the messages the parser finds. -/
theorem run_receive (env : ServerEnv W) (c : ConnId) (chunks : List (List UInt8)) : ∀ (v : Srv W) (p p' : Parser) (out : List Mbap),
    v.listeners.lookup c = some p → p.feed chunks = .ret (p', out) →
    v.run env (chunks.map (Op.receive c)) = { v with listeners := setListener v.listeners c p' }.onMbaps env c out := by
  induction chunks with
  | nil =>
    intro v p p' out hl hf
    simp only [Parser.feed] at hf
    injection hf with hf
    injection hf with h1 h2
    subst h1 h2
    simp only [List.map_nil, run, onMbaps]
    rw [setListener_self _ _ _ hl]
  | cons d chunks ih =>
    intro v p p' out hl hf
    simp only [Parser.feed] at hf
    rcases h1 : p.parse d with _ | ⟨p1, o1⟩
    · rw [h1] at hf; cases hf
    rw [h1] at hf
    simp only [CM.ret_bind] at hf
    rcases h2 : p1.feed chunks with _ | ⟨p2, o2⟩
    · rw [h2] at hf; cases hf
    rw [h2] at hf
    simp only [CM.ret_bind] at hf
    injection hf with hf
    injection hf with e1 e2
    subst e1 e2
    simp only [List.map_cons, run, step, hl, h1, CM.ret_bind]
    obtain ⟨v1, a1, a2⟩ := onMbaps_reacts env c o1 { v with listeners := setListener v.listeners c p1 }
    rw [a1]
    simp only [CM.ret_bind]
    have hls : v1.listeners = setListener v.listeners c p1 := a2.same.listeners
    have hl1 : v1.listeners.lookup c = some p1 := by
      rw [hls]; exact lookup_setListener_same _ _ _ _ hl
    rw [ih v1 p1 p2 o2 hl1 h2, onMbaps_append _ _ _ _ { v with listeners := setListener v.listeners c p2 }]
    have e3 : { v with listeners := setListener v.listeners c p2 }.onMbaps env c o1 =
        ({ v with listeners := setListener v.listeners c p1 }.onMbaps env c o1 >>=
          fun v' => .ret { v' with listeners := setListener v.listeners c p2 }) :=
      onMbaps_listeners env c (setListener v.listeners c p2) o1 { v with listeners := setListener v.listeners c p1 }
    rw [e3, a1]
    simp only [CM.ret_bind]
    rw [hls, setListener_twice]

end Srv

/-! ### A client receiving a list of chunks -/

namespace Cli

theorem checkPending_keeps (env : ClientEnv) (v : Cli) :
    (v.checkPending env).parser = v.parser ∧ (v.checkPending env).now = v.now ∧ (v.checkPending env).isShutdown = v.isShutdown := by
  unfold checkPending
  split
  · exact ⟨rfl, rfl, rfl⟩
  · split <;> exact ⟨rfl, rfl, rfl⟩

theorem finish_keeps (v : Cli) (r : PendingReq) (x : Expected (List UInt8)) :
    (v.finish r x).parser = v.parser ∧ (v.finish r x).now = v.now ∧ (v.finish r x).isShutdown = v.isShutdown := by
  refine ⟨?_, ?_, finish_isShutdown v r x⟩ <;>
  · unfold finish
    obtain ⟨f, hf⟩ := cancelTimer_eq { v.emit (.handler r.uid x v.now) with current := none }
    rw [hf]
    rfl

theorem onMbap_keeps (env : ClientEnv) (v : Cli) (m : Mbap) :
    (v.onMbap env m).parser = v.parser ∧ (v.onMbap env m).now = v.now ∧ (v.onMbap env m).isShutdown = v.isShutdown := by
  rcases onMbap_eq env v m with ⟨h2, -⟩ | ⟨r, -, hc, ht, hu, h2⟩
  · rw [h2]; exact ⟨rfl, rfl, rfl⟩
  · obtain ⟨a1, a2, a3⟩ := checkPending_keeps env ((v.emit (.mbap m)).finish r (.ok m.data))
    obtain ⟨b1, b2, b3⟩ := finish_keeps (v.emit (.mbap m)) r (.ok m.data)
    rw [h2, a1, a2, a3, b1, b2, b3]
    exact ⟨rfl, rfl, rfl⟩

theorem onMbaps_keeps (env : ClientEnv) (ms : List Mbap) : ∀ v : Cli,
    (v.onMbaps env ms).parser = v.parser ∧ (v.onMbaps env ms).now = v.now ∧ (v.onMbaps env ms).isShutdown = v.isShutdown := by
  induction ms with
  | nil => intro v; exact ⟨rfl, rfl, rfl⟩
  | cons m ms ih =>
    intro v
    obtain ⟨a1, a2, a3⟩ := ih (v.onMbap env m)
    obtain ⟨b1, b2, b3⟩ := onMbap_keeps env v m
    exact ⟨a1.trans b1, a2.trans b2, a3.trans b3⟩

/-- The first message of several, if it answers the outstanding request, completes it. -/
theorem onMbaps_first (env : ClientEnv) (v : Cli) (m : Mbap) (ms : List Mbap) (r : PendingReq) (hs : v.isShutdown = false)
    (hc : v.current = some r) (ht : m.tid = r.tid) (hu : m.unit = r.unit) :
    CEv.handler r.uid (.ok m.data) v.now ∈ (v.onMbaps env (m :: ms)).log := by
  show _ ∈ ((v.onMbap env m).onMbaps env ms).log
  obtain ⟨es, he, -⟩ := Quiet.onMbaps env ms (v.onMbap env m)
  rw [he]
  apply List.mem_append_left
  rcases onMbap_eq env v m with ⟨-, h2 | h2⟩ | ⟨r', -, hc', -, -, h2⟩
  · rw [hs] at h2; cases h2
  · exact absurd ⟨ht, hu⟩ (h2 r hc)
  · rw [hc] at hc'; injection hc' with hc'; subst hc'
    obtain ⟨es, he, -⟩ := Quiet.checkPending env ((v.emit (.mbap m)).finish r (.ok m.data))
    rw [h2, he, finish_log]
    apply List.mem_append_left
    apply List.mem_append_right
    exact List.mem_singleton.2 rfl

theorem run_receive (env : ClientEnv) (chunks : List (List UInt8)) : ∀ (v : Cli) (p' : Parser) (out : List Mbap),
    v.isShutdown = false → v.parser.feed chunks = .ret (p', out) →
    ∃ v' es, v.run env (chunks.map Op.receive) = .ret v' ∧ v'.parser = p' ∧ v'.now = v.now ∧ v'.isShutdown = false ∧
      v'.log = v.log ++ es ∧ (out = [] → v'.current = v.current ∧ v'.pending = v.pending) ∧
      ∀ m ms r, out = m :: ms → v.current = some r → m.tid = r.tid → m.unit = r.unit → CEv.handler r.uid (.ok m.data) v.now ∈ v'.log := by
  induction chunks with
  | nil =>
    intro v p' out hs hf
    simp only [Parser.feed] at hf
    injection hf with hf
    injection hf with h1 h2
    subst h1 h2
    exact ⟨v, [], rfl, rfl, rfl, hs, by simp, fun _ => ⟨rfl, rfl⟩, by rintro m ms r h; cases h⟩
  | cons d chunks ih =>
    intro v p' out hs hf
    simp only [Parser.feed] at hf
    rcases h1 : v.parser.parse d with _ | ⟨p1, o1⟩
    · rw [h1] at hf; cases hf
    rw [h1] at hf
    simp only [CM.ret_bind] at hf
    rcases h2 : p1.feed chunks with _ | ⟨p2, o2⟩
    · rw [h2] at hf; cases hf
    rw [h2] at hf
    simp only [CM.ret_bind] at hf
    injection hf with hf
    injection hf with e1 e2
    subst e1 e2
    have hst : v.step env (.receive d) = .ret ({ v.emit (.data d) with parser := p1 }.onMbaps env o1) := by
      have e : (v.emit (.data d)).isShutdown = false := hs
      have e' : (v.emit (.data d)).parser = v.parser := rfl
      simp only [step, onReceive, e, Bool.false_eq_true, if_false, e', h1, CM.ret_bind]
      rfl
    obtain ⟨k1, k2, k3⟩ := onMbaps_keeps env o1 { v.emit (.data d) with parser := p1 }
    obtain ⟨es1, q1, -⟩ := Quiet.onMbaps env o1 { v.emit (.data d) with parser := p1 }
    generalize hv1 : { v.emit (.data d) with parser := p1 }.onMbaps env o1 = v1 at hst k1 k2 k3 q1
    obtain ⟨v', es, a1, a2, a3, a4, a5, a6, a7⟩ := ih v1 p2 o2 (by rw [k3]; exact hs) (by rw [k1]; exact h2)
    refine ⟨v', [.data d] ++ es1 ++ es, ?_, a2, a3.trans k2, a4, ?_, ?_, ?_⟩
    · simp only [List.map_cons, run, hst, CM.ret_bind, a1]
    · rw [a5, q1]; simp [emit]
    · intro hn
      obtain ⟨rfl, rfl⟩ := List.append_eq_nil_iff.1 hn
      subst hv1
      exact a6 rfl
    · intro m ms r ho hc ht hu
      cases o1 with
      | nil =>
        subst hv1
        exact a7 m ms r ho hc ht hu
      | cons m' o1 =>
        injection ho with ho1 ho2
        subst ho1
        rw [a5]
        apply List.mem_append_left
        rw [← hv1]
        exact onMbaps_first env _ m' o1 r hs hc ht hu

end Cli

end Modbus
