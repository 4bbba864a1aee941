import Verif.Model.Mbap
import Verif.Spec.Stream
import Verif.Lemmas.Codec
import Mathlib.Data.List.Forall2

namespace Modbus

/-! ### Frames -/

/-- The seven header bytes. -/
def hdr (tid proto len : UInt16) (unit : UInt8) : List UInt8 :=
  [hiByte tid, loByte tid, hiByte proto, loByte proto, hiByte len, loByte len, unit]

theorem hdr_length (tid proto len : UInt16) (unit : UInt8) : (hdr tid proto len unit).length = 7 := rfl

theorem frame_bytes (f : Spec.Frame) : f.bytes = hdr f.tid f.proto f.len f.unit ++ f.body := by
  simp [Spec.Frame.bytes, hdr, be_eq]

theorem u16_ext {a b : UInt16} (h1 : hiByte a = hiByte b) (h2 : loByte a = loByte b) : a = b := by
  rw [← joinU16_hi_lo a, ← joinU16_hi_lo b, h1, h2]

theorem hdr_append_inj {t p l t' p' l' : UInt16} {u u' : UInt8} {x y : List UInt8}
    (h : hdr t p l u ++ x = hdr t' p' l' u' ++ y) : t = t' ∧ p = p' ∧ l = l' ∧ u = u' ∧ x = y := by
  simp only [hdr, List.cons_append, List.nil_append, List.cons.injEq] at h
  obtain ⟨h1, h2, h3, h4, h5, h6, h7, h8⟩ := h
  exact ⟨u16_ext h1 h2, u16_ext h3 h4, u16_ext h5 h6, h7, h8⟩

theorem hdr_of_seven {s : List UInt8} (h : s.length = 7) : ∃ t p l u, s = hdr t p l u := by
  match s, h with
  | [a, b, c, d, e, f, g], _ => exact ⟨joinU16 a b, joinU16 c d, joinU16 e f, g, by simp [hdr]⟩

theorem frame_prefix_unique {f g : Spec.Frame} (hf : f.Complete) (hg : g.Complete) {x y : List UInt8}
    (h : f.bytes ++ x = g.bytes ++ y) : f = g ∧ x = y := by
  rw [frame_bytes, frame_bytes, List.append_assoc, List.append_assoc] at h
  obtain ⟨h1, h2, h3, h4, h5⟩ := hdr_append_inj h
  rcases f with ⟨t, p, l, u, b⟩
  rcases g with ⟨t', p', l', u', b'⟩
  simp only [Spec.Frame.Complete] at *
  subst h1 h2 h3 h4
  have := List.append_inj h5 (by omega)
  exact ⟨by rw [this.1], this.2⟩

theorem streamOf_cons (f : Spec.Frame) (fs : List Spec.Frame) : Spec.streamOf (f :: fs) = f.bytes ++ Spec.streamOf fs := rfl

theorem streamOf_append (fs gs : List Spec.Frame) : Spec.streamOf (fs ++ gs) = Spec.streamOf fs ++ Spec.streamOf gs := by
  simp [Spec.streamOf]

theorem splits_unique {s : List UInt8} {fs gs : List Spec.Frame} {x y : List UInt8} (h1 : Spec.Splits s fs x)
    (h2 : Spec.Splits s gs y) : fs = gs ∧ x = y := by
  induction fs generalizing gs s with
  | nil =>
    cases gs with
    | nil => exact ⟨rfl, by have := h1.eq.symm.trans h2.eq; simpa [Spec.streamOf] using this⟩
    | cons g gs =>
      exfalso
      apply h1.incomplete g (h2.complete g (by simp))
      have := h1.eq.symm.trans h2.eq
      simp only [Spec.streamOf, List.flatMap_nil, List.nil_append, List.flatMap_cons, List.append_assoc] at this
      rw [this]
      exact List.prefix_append _ _
  | cons f fs ih =>
    cases gs with
    | nil =>
      exfalso
      apply h2.incomplete f (h1.complete f (by simp))
      have := h2.eq.symm.trans h1.eq
      simp only [Spec.streamOf, List.flatMap_nil, List.nil_append, List.flatMap_cons, List.append_assoc] at this
      rw [this]
      exact List.prefix_append _ _
    | cons g gs =>
      have e := h1.eq.symm.trans h2.eq
      rw [streamOf_cons, streamOf_cons, List.append_assoc, List.append_assoc] at e
      obtain ⟨rfl, e2⟩ := frame_prefix_unique (h1.complete f (by simp)) (h2.complete g (by simp)) e
      have := ih (s := Spec.streamOf fs ++ x) (gs := gs)
        ⟨fun a ha => h1.complete a (by simp [ha]), h1.incomplete, rfl⟩
        ⟨fun a ha => h2.complete a (by simp [ha]), h2.incomplete, e2⟩
      exact ⟨by rw [this.1], this.2⟩

theorem incomplete_short {s : List UInt8} (h : s.length < 7) : Spec.Incomplete s := by
  intro f _ hp
  have := hp.length_le
  rw [frame_bytes, List.length_append, hdr_length] at this
  omega

theorem incomplete_body {t p l : UInt16} {u : UInt8} {body : List UInt8} (h : body.length < l.toNat - 1) :
    Spec.Incomplete (hdr t p l u ++ body) := by
  intro f hf hp
  obtain ⟨z, hz⟩ := hp
  rw [frame_bytes, List.append_assoc] at hz
  obtain ⟨-, -, h3, -, h5⟩ := hdr_append_inj hz
  have : f.body.length ≤ body.length := by rw [← h5]; simp
  simp only [Spec.Frame.Complete] at hf
  rw [h3] at hf
  omega

theorem frameOf_complete {m : Mbap} (h : m.data.length ≤ 65534) : (Spec.frameOf m).Complete := by
  simp only [Spec.Frame.Complete, Spec.frameOf]
  rw [ofNat16_toNat (by omega)]; omega

/-! ### The parser -/

theorem copyFrom_mem_length (pol : CopyPolicy) (w : WSeq) (src : List UInt8) :
    (w.copyFrom pol src).mem.length = w.mem.length := by
  unfold WSeq.copyFrom WSeq.mem
  split
  · simp; omega
  · cases pol <;> simp; omega

theorem copyFrom_done (pol : CopyPolicy) (w : WSeq) (src : List UInt8) :
    ∃ d, (w.copyFrom pol src).done = w.done ++ d ∧ (src.length ≤ w.rest.length → d = src) ∧
      (pol = .truncate → d = src.take w.rest.length) := by
  unfold WSeq.copyFrom
  split
  · exact ⟨src, rfl, fun _ => rfl, fun _ => by rw [List.take_of_length_le (by omega)]⟩
  · cases pol
    · exact ⟨[], by simp, fun h => by omega, by simp⟩
    · exact ⟨_, rfl, fun h => by omega, fun _ => rfl⟩

/-- `p` represents a parser that has received exactly `pend` since the last frame boundary. -/
inductive Rep (p : Parser) : List UInt8 → Prop
  | head (pend : List UInt8) (hm : p.view.mem.length = 260) (hl : pend.length < 7) (hb : p.readingBody = false)
      (hn : p.num = 7 - pend.length) (hd : p.view.done = pend) : Rep p pend
  | body (t pr l : UInt16) (u : UInt8) (body d : List UInt8) (hm : p.view.mem.length = 260) (hl : l.toNat ≠ 0)
      (hb : p.readingBody = true) (hn : p.num + body.length = l.toNat - 1) (h0 : p.num = 0 → l.toNat = 1)
      (hd : p.view.done = hdr t pr l u ++ d) (hd1 : l.toNat ≤ 254 → d = body)
      (hd2 : p.pol = .truncate → d = body.take 253) : Rep p (hdr t pr l u ++ body)

theorem rep_init (pol : CopyPolicy) (mem : List UInt8) (h : mem.length = 260) : Rep (Parser.init pol mem) [] :=
  .head [] h (by simp) rfl rfl rfl

theorem rep_reset (p : Parser) (h : p.view.mem.length = 260) : Rep p.reset [] :=
  .head [] (by simpa [Parser.reset, WSeq.mem] using h) (by simp) rfl rfl rfl

theorem Rep.mem_length {p : Parser} {pend : List UInt8} (h : Rep p pend) : p.view.mem.length = 260 := by
  cases h <;> assumption

/-- What is delivered for a frame. -/
structure Delivers (pol : CopyPolicy) (f : Spec.Frame) (m : Mbap) : Prop where
  unit : m.unit = f.unit
  tid : m.tid = f.tid
  length : m.data.length = min (f.len.toNat - 1) 253
  exact_of_fits : f.len.toNat ≤ 254 → m.data = f.body
  truncated : pol = .truncate → m.data = f.body.take 253

theorem parse_nil (p : Parser) : p.parse [] = .ret (p, []) := by
  rw [Parser.parse]; simp

theorem parse_short (p : Parser) (data : List UInt8) (hd : data ≠ []) (h : data.length < p.num) :
    p.parse data = .ret ({ p with num := p.num - data.length, view := p.view.copyFrom p.pol data }, []) := by
  rw [Parser.parse, dif_neg hd]
  have h1 : data.take p.num = data := List.take_of_length_le (by omega)
  simp only [h1]
  rw [dif_neg (by omega)]
  simp [parse_nil]

theorem parse_head (p p2 : Parser) (data : List UInt8) (hd : data ≠ []) (hn : p.num ≤ data.length)
    (hb : p.readingBody = false)
    (hf : Parser.findBodySize { p with num := 0, view := p.view.copyFrom p.pol (data.take p.num) } = .ret p2) :
    p.parse data = p2.parse (data.drop p.num) := by
  rw [Parser.parse, dif_neg hd]
  have h1 : (data.take p.num).length = p.num := by rw [List.length_take]; omega
  simp only [h1, Nat.sub_self]
  rw [dif_pos trivial, dif_pos hb]
  split
  · rename_i h; simp only [h1, Nat.sub_self] at h; rw [hf] at h; cases h
  · rename_i h; simp only [h1, Nat.sub_self] at h; rw [hf] at h; injection h with h; rw [h]

theorem parse_body (p p2 : Parser) (out : List Mbap) (data : List UInt8) (hd : data ≠ []) (hn : p.num ≤ data.length)
    (hb : p.readingBody = true)
    (hf : Parser.sendData { p with num := 0, view := p.view.copyFrom p.pol (data.take p.num) } = .ret (p2, out)) :
    p.parse data = (p2.parse (data.drop p.num) >>= fun x => .ret (x.1, out ++ x.2)) := by
  rw [Parser.parse, dif_neg hd]
  have h1 : (data.take p.num).length = p.num := by rw [List.length_take]; omega
  simp only [h1, Nat.sub_self]
  rw [dif_pos trivial, dif_neg (by simp [hb])]
  split
  · rename_i h; simp only [h1, Nat.sub_self] at h; rw [hf] at h; cases h
  · rename_i h
    simp only [h1, Nat.sub_self] at h
    rw [hf] at h; injection h with h
    simp only [Prod.mk.injEq] at h
    obtain ⟨rfl, rfl⟩ := h
    rfl

theorem findBodySize_hdr (p : Parser) (t pr l : UInt16) (u : UInt8) (x : List UInt8)
    (h : p.view.mem = hdr t pr l u ++ x) :
    p.findBodySize = .ret (if l = 0 then p.reset else { p with num := l.toNat - 1, readingBody := true }) := by
  unfold Parser.findBodySize
  rw [h]
  simp only [hdr, List.cons_append, List.drop_succ_cons, List.drop_zero, getU16_cons, CM.ret_bind, joinU16_hi_lo, CM.pure_eq]
  split <;> rfl

theorem sendData_hdr (p : Parser) (t pr l : UInt16) (u : UInt8) (x : List UInt8)
    (h : p.view.mem = hdr t pr l u ++ x) (hl : l.toNat ≠ 0) :
    p.sendData = .ret (p.reset, if pr = 0 then [⟨u, t, x.take (l.toNat - 1)⟩] else []) := by
  unfold Parser.sendData
  rw [h]
  simp only [hdr, List.cons_append, List.nil_append, getU16_cons, getU8_cons, CM.ret_bind, joinU16_hi_lo, CM.pure_eq]
  rw [subSizeT_of_le (by omega)]
  have : l > 0 := by
    rw [gt_iff_lt, lt16]
    have : UInt16.toNat 0 = 0 := rfl
    omega
  simp only [modbusProtocolId, this, and_true]
  split <;> rfl

/-- The last frame, if any, is not an empty-PDU frame. -/
def LastOk (fs : List Spec.Frame) : Prop := ∀ f, fs.getLast? = some f → f.len.toNat ≠ 1

theorem lastOk_append {fs gs : List Spec.Frame} (h1 : LastOk fs) (h2 : LastOk gs) : LastOk (fs ++ gs) := by
  intro f hf
  rw [List.getLast?_append] at hf
  cases hg : gs.getLast? with
  | none => rw [hg] at hf; exact h1 f (by simpa using hf)
  | some g => rw [hg] at hf; simp at hf; subst hf; exact h2 g hg

/-- The central refinement step: from a parser representing `pend`, parsing `data` splits `pend ++ data` into frames,
delivers those that are Modbus frames, and ends representing the rest. -/
theorem parse_spec (n : Nat) : ∀ (p : Parser) (data pend : List UInt8), Rep p pend →
    2 * data.length + (if p.num = 0 then 1 else 0) ≤ n →
    ∃ p' out fs pend', p.parse data = .ret (p', out) ∧ p'.pol = p.pol ∧ pend ++ data = Spec.streamOf fs ++ pend' ∧
      (∀ f ∈ fs, f.Complete) ∧ List.Forall₂ (Delivers p.pol) (fs.filter Spec.Frame.isModbus) out ∧ Rep p' pend' ∧
      (pend' = [] → LastOk fs) := by
  induction n using Nat.strongRecOn with
  | ind n ih =>
    intro p data pend hrep hn
    by_cases hd : data = []
    · subst hd
      exact ⟨p, [], [], pend, parse_nil p, rfl, by simp [Spec.streamOf], by simp, by simp, hrep, by simp [LastOk]⟩
    have hdl : 0 < data.length := List.length_pos_iff.2 hd
    cases hrep with
    | head _ hm hl hb hnum hdone =>
      by_cases hs : data.length < p.num
      · -- still inside the header
        refine ⟨_, [], [], pend ++ data, parse_short p data hd hs, rfl, by simp [Spec.streamOf], by simp, by simp, ?_, by simp [LastOk]⟩
        have hroom : data.length ≤ p.view.rest.length := by
          have : p.view.done.length + p.view.rest.length = 260 := by simpa [WSeq.mem] using hm
          rw [hdone] at this; omega
        refine .head _ (by simpa [copyFrom_mem_length] using hm) (by simp; omega) hb (by simp; omega) ?_
        obtain ⟨d, h1, h2, -⟩ := copyFrom_done p.pol p.view data
        simp only [h1, h2 hroom, hdone]
      · -- header complete
        have hroom : (data.take p.num).length ≤ p.view.rest.length := by
          have : p.view.done.length + p.view.rest.length = 260 := by simpa [WSeq.mem] using hm
          rw [hdone] at this; rw [List.length_take]; omega
        obtain ⟨d, h1, h2, -⟩ := copyFrom_done p.pol p.view (data.take p.num)
        have h2 := h2 hroom
        subst h2
        have hlen : (pend ++ data.take p.num).length = 7 := by
          rw [List.length_append, List.length_take]; omega
        obtain ⟨t, pr, l, u, hh⟩ := hdr_of_seven hlen
        let p1 : Parser := { p with num := 0, view := p.view.copyFrom p.pol (data.take p.num) }
        have hmem1 : p1.view.mem.length = 260 := by
          show (p.view.copyFrom p.pol (data.take p.num)).mem.length = 260
          rw [copyFrom_mem_length]; exact hm
        have hdone1 : p1.view.done = hdr t pr l u := by
          show (p.view.copyFrom p.pol (data.take p.num)).done = _
          rw [h1, hdone, hh]
        have hview : p1.view.mem = hdr t pr l u ++ p1.view.rest := by rw [WSeq.mem, hdone1]
        have hfb := findBodySize_hdr p1 t pr l u p1.view.rest hview
        have hpd : pend ++ data = hdr t pr l u ++ data.drop p.num := by
          rw [← hh, List.append_assoc, List.take_append_drop]
        have hstep := parse_head p _ data hd (by omega) hb hfb
        by_cases hl0 : l = 0
        · rw [if_pos hl0] at hstep
          obtain ⟨p', out, fs, pend', e1, e2, e3, e4, e5, e6, e7⟩ :=
            ih (2 * (data.drop p.num).length + 0) (by rw [List.length_drop]; omega) p1.reset (data.drop p.num) []
              (rep_reset p1 hmem1) (by simp [Parser.reset, mbapHeaderSize])
          let f : Spec.Frame := ⟨t, pr, l, u, []⟩
          refine ⟨p', out, f :: fs, pend', by rw [hstep, e1], e2, ?_, ?_, ?_, e6, fun h => lastOk_append (fs := [f]) (by simp [LastOk, f, hl0]) (e7 h)⟩
          · rw [streamOf_cons, frame_bytes, List.append_assoc, List.append_assoc, ← e3, hpd]; rfl
          · intro g hg
            rcases List.mem_cons.1 hg with rfl | hg
            · simp [Spec.Frame.Complete, f, hl0]
            · exact e4 g hg
          · have : f.isModbus = false := by simp [Spec.Frame.isModbus, f, hl0]
            rw [List.filter_cons, if_neg (by simp [this])]
            exact e5
        · rw [if_neg hl0] at hstep
          have hln : l.toNat ≠ 0 := fun h => hl0 ((eq_zero16 l).2 h)
          let p2 : Parser := { p1 with num := l.toNat - 1, readingBody := true }
          have hrep2 : Rep p2 (hdr t pr l u ++ []) :=
            .body t pr l u [] [] hmem1 hln rfl (by simp [p2]) (by simp only [p2]; omega) (by simp [p2, hdone1])
              (fun _ => rfl) (fun _ => rfl)
          obtain ⟨p', out, fs, pend', e1, e2, e3, e4, e5, e6, e7⟩ :=
            ih (2 * (data.drop p.num).length + 1) (by rw [List.length_drop]; omega) p2 (data.drop p.num) _
              hrep2 (by split <;> omega)
          refine ⟨p', out, fs, pend', by rw [hstep, e1], e2, ?_, e4, e5, e6, e7⟩
          rw [hpd, ← e3]; simp
    | body t pr l u body d hm hl hb hnum h0 hdone hd1 hd2 =>
      have hml : p.view.done.length + p.view.rest.length = 260 := by simpa [WSeq.mem] using hm
      have hdl2 : 7 + d.length + p.view.rest.length = 260 := by
        rw [hdone, List.length_append, hdr_length] at hml; omega
      by_cases hs : data.length < p.num
      · -- still inside the body
        obtain ⟨c, h1, h2, h3⟩ := copyFrom_done p.pol p.view data
        refine ⟨_, [], [], hdr t pr l u ++ body ++ data, parse_short p data hd hs, rfl, by simp [Spec.streamOf], by simp, by simp, ?_, by simp [LastOk]⟩
        rw [List.append_assoc]
        refine .body t pr l u (body ++ data) (d ++ c) (by simpa [copyFrom_mem_length] using hm) hl hb
          (by simp; omega) (by simp; omega) ?_ ?_ ?_
        · simp only [h1, hdone, List.append_assoc]
        · intro hle
          rw [h2 (by rw [hd1 hle] at hdl2; omega), hd1 hle]
        · intro hpol
          rw [h3 hpol, hd2 hpol]
          have e : 253 - body.length = p.view.rest.length ∨ 253 < body.length := by
            rw [hd2 hpol, List.length_take] at hdl2; omega
          rcases e with e | e
          · rw [List.take_append, e]
          · have e' : p.view.rest.length = 0 := by rw [hd2 hpol, List.length_take] at hdl2; omega
            rw [e', List.take_append, show 253 - body.length = 0 by omega]
      · -- body complete
        obtain ⟨c, h1, h2, h3⟩ := copyFrom_done p.pol p.view (data.take p.num)
        have hct : (data.take p.num).length = p.num := by rw [List.length_take]; omega
        let p1 : Parser := { p with num := 0, view := p.view.copyFrom p.pol (data.take p.num) }
        have hmem1 : p1.view.mem.length = 260 := by
          show (p.view.copyFrom p.pol (data.take p.num)).mem.length = 260
          rw [copyFrom_mem_length]; exact hm
        have hdone1 : p1.view.done = hdr t pr l u ++ (d ++ c) := by
          show (p.view.copyFrom p.pol (data.take p.num)).done = _
          rw [h1, hdone, List.append_assoc]
        have hview : p1.view.mem = hdr t pr l u ++ (d ++ c ++ p1.view.rest) := by
          rw [WSeq.mem, hdone1]; simp
        have hxl : (d ++ c ++ p1.view.rest).length = 253 := by
          rw [hview, List.length_append, hdr_length] at hmem1; omega
        have hsd := sendData_hdr p1 t pr l u _ hview hl
        have hstep := parse_body p _ _ data hd (by omega) hb hsd
        obtain ⟨p', out, fs, pend', e1, e2, e3, e4, e5, e6, e7⟩ :=
            ih (2 * (data.drop p.num).length + 0) (by
              rw [List.length_drop]
              by_cases hz : p.num = 0
              · rw [if_pos hz] at hn; omega
              · omega) p1.reset (data.drop p.num) []
              (rep_reset p1 hmem1) (by simp [Parser.reset, mbapHeaderSize])
        let f : Spec.Frame := ⟨t, pr, l, u, body ++ data.take p.num⟩
        refine ⟨p', _, f :: fs, pend', by rw [hstep, e1]; rfl, e2, ?_, ?_, ?_, e6, ?_⟩
        rotate_left 3
        · intro hpe
          have h7 := e7 hpe
          by_cases hfs : fs = []
          · subst hfs hpe
            have : data.drop p.num = [] := by simpa [Spec.streamOf] using e3
            have := List.drop_eq_nil_iff.1 this
            intro g hg
            simp only [List.getLast?_singleton, Option.some.injEq] at hg
            subst hg
            simp only [f]; omega
          · intro g hg
            rw [List.getLast?_cons] at hg
            cases hgl : fs.getLast? with
            | none => exact absurd (List.getLast?_eq_none_iff.1 hgl) hfs
            | some g' => rw [hgl] at hg; simp at hg; subst hg; exact h7 g' hgl
        · rw [streamOf_cons, frame_bytes, List.append_assoc, List.append_assoc, ← e3]
          simp [f]
        · intro g hg
          rcases List.mem_cons.1 hg with rfl | hg
          · simp only [Spec.Frame.Complete, f, List.length_append, hct]; omega
          · exact e4 g hg
        · by_cases hp0 : pr = 0
          · have : f.isModbus = true := by
              have : l ≠ 0 := fun h => hl ((eq_zero16 l).1 h)
              simp [Spec.Frame.isModbus, f, hp0, this]
            rw [List.filter_cons, if_pos this, if_pos hp0]
            refine List.Forall₂.cons ⟨rfl, rfl, ?_, ?_, ?_⟩ e5
            · simp only [List.length_take, hxl, f]
            · intro hle
              simp only [f] at hle ⊢
              have hc : c = data.take p.num := h2 (by rw [hct]; have := hd1 hle; rw [this] at hdl2; omega)
              rw [hd1 hle, hc]
              rw [List.take_append_of_le_length (by rw [List.length_append, hct]; omega),
                List.take_of_length_le (by rw [List.length_append, hct]; omega)]
            · intro hpol
              simp only [f]
              have hc := h3 hpol
              have hdd := hd2 hpol
              have hcd : d ++ c = (body ++ data.take p.num).take 253 := by
                rw [hc, hdd, List.take_append]
                have e : 253 - body.length = p.view.rest.length := by
                  rw [hdd, List.length_take] at hdl2; omega
                rw [e]
              rw [hcd] at hxl ⊢
              have hA : ((body ++ data.take p.num).take 253).length = min 253 (l.toNat - 1) := by
                rw [List.length_take, List.length_append, hct]; omega
              rw [List.length_append, hA] at hxl
              rw [List.take_append, List.take_of_length_le (by omega), hA]
              by_cases hbig : l.toNat - 1 ≤ 253
              · rw [show l.toNat - 1 - min 253 (l.toNat - 1) = 0 by omega]; simp
              · have : p1.view.rest = [] := List.eq_nil_of_length_eq_zero (by omega)
                rw [this]; simp
          · have : f.isModbus = false := by simp [Spec.Frame.isModbus, f, hp0]
            rw [List.filter_cons, if_neg (by simp [this]), if_neg hp0]
            exact e5

end Modbus

namespace Modbus

theorem feed_spec (chunks : List (List UInt8)) : ∀ (p : Parser) (pend : List UInt8), Rep p pend →
    ∃ p' out fs pend', p.feed chunks = .ret (p', out) ∧ p'.pol = p.pol ∧
      pend ++ chunks.flatten = Spec.streamOf fs ++ pend' ∧
      (∀ f ∈ fs, f.Complete) ∧ List.Forall₂ (Delivers p.pol) (fs.filter Spec.Frame.isModbus) out ∧ Rep p' pend' ∧
      (pend' = [] → LastOk fs) := by
  induction chunks with
  | nil => intro p pend h; exact ⟨p, [], [], pend, rfl, rfl, by simp [Spec.streamOf], by simp, by simp, h, by simp [LastOk]⟩
  | cons c cs ih =>
    intro p pend h
    obtain ⟨p1, o1, fs1, pend1, a1, a2, a3, a4, a5, a6, a7⟩ := parse_spec _ p c pend h (Nat.le_refl _)
    obtain ⟨p2, o2, fs2, pend2, b1, b2, b3, b4, b5, b6, b7⟩ := ih p1 pend1 a6
    refine ⟨p2, o1 ++ o2, fs1 ++ fs2, pend2, ?_, by rw [b2, a2], ?_, ?_, ?_, b6, ?_⟩
    rotate_left 4
    · intro hp
      have h7 := b7 hp
      by_cases hfs : fs2 = []
      · subst hfs hp
        simp only [Spec.streamOf, List.flatMap_nil, List.nil_append, List.append_eq_nil_iff] at b3
        rw [List.append_nil]
        exact a7 b3.1
      · intro g hg
        rw [List.getLast?_append] at hg
        cases hgl : fs2.getLast? with
        | none => exact absurd (List.getLast?_eq_none_iff.1 hgl) hfs
        | some g' => rw [hgl] at hg; simp at hg; subst hg; exact h7 g' hgl
    · simp [Parser.feed, a1, b1]
    · rw [List.flatten_cons, ← List.append_assoc, a3, List.append_assoc, b3, streamOf_append, List.append_assoc]
    · intro f hf
      rcases List.mem_append.1 hf with hf | hf
      · exact a4 f hf
      · exact b4 f hf
    · rw [List.filter_append]
      rw [a2] at b5
      exact List.rel_append a5 b5

/-- A represented rest is incomplete, or it is an empty-PDU frame whose delivery is still owed. -/
theorem Rep.incomplete {p : Parser} {pend : List UInt8} (h : Rep p pend) :
    Spec.Incomplete pend ∨ ∃ f : Spec.Frame, f.Complete ∧ f.len.toNat = 1 ∧ pend = f.bytes := by
  cases h with
  | head _ hm hl hb hn hd => exact Or.inl (incomplete_short hl)
  | body t pr l u body d hm hl hb hn h0 hd hd1 hd2 =>
    by_cases hz : p.num = 0
    · right
      have hb0 : body = [] := List.eq_nil_of_length_eq_zero (by have := h0 hz; omega)
      subst hb0
      exact ⟨⟨t, pr, l, u, []⟩, by simp [Spec.Frame.Complete, h0 hz], h0 hz, by rw [frame_bytes]⟩
    · left
      exact incomplete_body (by omega)

/-- The parser against the frame structure of the stream. -/
theorem feed_splits (pol : CopyPolicy) (p : Parser) (hp : p.pol = pol) (hrep : Rep p []) (chunks : List (List UInt8)) :
    ∃ p' out fs pend, p.feed chunks = .ret (p', out) ∧ (∃ pend', Rep p' pend') ∧ Spec.Splits chunks.flatten fs pend ∧
      ((List.Forall₂ (Delivers pol) (fs.filter Spec.Frame.isModbus) out ∧ (pend = [] → LastOk fs)) ∨
       (pend = [] ∧ ∃ fs' f, fs = fs' ++ [f] ∧ f.len.toNat = 1 ∧
          List.Forall₂ (Delivers pol) (fs'.filter Spec.Frame.isModbus) out)) := by
  obtain ⟨p', out, fs, pend, h1, h2, h3, h4, h5, h6, h7⟩ := feed_spec chunks _ _ hrep
  rw [hp] at h5
  simp only [List.nil_append] at h3
  rcases h6.incomplete with hi | ⟨f, hf1, hf2, rfl⟩
  · exact ⟨p', out, fs, pend, h1, ⟨_, h6⟩, ⟨h4, hi, h3⟩, Or.inl ⟨h5, h7⟩⟩
  · refine ⟨p', out, fs ++ [f], [], h1, ⟨_, h6⟩, ⟨?_, incomplete_short (by simp), ?_⟩, Or.inr ⟨rfl, fs, f, rfl, hf2, h5⟩⟩
    · intro g hg
      rcases List.mem_append.1 hg with hg | hg
      · exact h4 g hg
      · simp only [List.mem_singleton] at hg; subst hg; exact hf1
    · rw [h3, streamOf_append, List.append_nil]; simp [Spec.streamOf]

theorem delivers_map {pol : CopyPolicy} {fs : List Spec.Frame} {out : List Mbap}
    (h : List.Forall₂ (Delivers pol) fs out) (hfit : ∀ f ∈ fs, f.Fits) : out = fs.map Spec.Frame.message := by
  induction h with
  | nil => rfl
  | cons h1 _ ih =>
    rename_i f m fs ms _
    rw [List.map_cons, ← ih (fun g hg => hfit g (by simp [hg]))]
    rcases m with ⟨u, t, d⟩
    have e1 := h1.unit; have e2 := h1.tid; have e3 := h1.exact_of_fits (hfit f (by simp))
    simp only at e1 e2 e3
    simp [Spec.Frame.message, e1, e2, e3]

theorem delivers_truncate {pol : CopyPolicy} {fs : List Spec.Frame} {o1 o2 : List Mbap} (hpol : pol = .truncate)
    (h1 : List.Forall₂ (Delivers pol) fs o1) (h2 : List.Forall₂ (Delivers pol) fs o2) : o1 = o2 := by
  induction h1 generalizing o2 with
  | nil => cases h2; rfl
  | cons a _ ih =>
    cases h2 with
    | cons b h2 =>
      rw [ih h2]
      rename_i f m _ _ _ m' _
      rcases m with ⟨u, t, d⟩
      rcases m' with ⟨u', t', d'⟩
      have a1 := a.unit; have a2 := a.tid; have a3 := a.truncated hpol
      have b1 := b.unit; have b2 := b.tid; have b3 := b.truncated hpol
      simp_all

/-! ### Messages only append to their buffer -/

theorem WSeq.writeU8_appends (w : WSeq) (b : UInt8) :
    w.done <+: (w.writeU8 b).done ∧ (w.writeU8 b).mem.length = w.mem.length := by
  rcases w with ⟨d, r⟩
  cases r <;> simp [WSeq.writeU8, WSeq.mem]

theorem WSeq.writeU16_appends (w : WSeq) (v : UInt16) :
    w.done <+: (w.writeU16 v).done ∧ (w.writeU16 v).mem.length = w.mem.length := by
  rcases w with ⟨d, r⟩
  match r with
  | [] => simp [WSeq.writeU16, WSeq.mem]
  | [_] => simp [WSeq.writeU16, WSeq.mem]
  | _ :: _ :: _ => simp [WSeq.writeU16, WSeq.mem]

/-- Building only appends. -/
def AppendsTo (w w' : WSeq) : Prop := w.done <+: w'.done ∧ w'.mem.length = w.mem.length

theorem AppendsTo.refl (w : WSeq) : AppendsTo w w := ⟨List.prefix_rfl, rfl⟩
theorem AppendsTo.trans {a b c : WSeq} (h1 : AppendsTo a b) (h2 : AppendsTo b c) : AppendsTo a c :=
  ⟨h1.1.trans h2.1, h2.2.trans h1.2⟩
theorem AppendsTo.u8 {a b : WSeq} (h : AppendsTo a b) (x : UInt8) : AppendsTo a (b.writeU8 x) :=
  h.trans (b.writeU8_appends x)
theorem AppendsTo.u16 {a b : WSeq} (h : AppendsTo a b) (x : UInt16) : AppendsTo a (b.writeU16 x) :=
  h.trans (b.writeU16_appends x)

theorem packLoop_appends (vs : List Bool) : ∀ (cur : UInt8) (off : Nat) (a b : WSeq), AppendsTo a b →
    AppendsTo a (packLoop vs cur off b) := by
  induction vs with
  | nil => intro cur off a b h; unfold packLoop; split
           · exact h.u8 _
           · exact h
  | cons v vs ih =>
    intro cur off a b h
    unfold packLoop
    simp only
    split
    · exact ih _ _ _ _ (h.u8 _)
    · exact ih _ _ _ _ h

theorem coilBytesLoop_appends (values : List Bool) : ∀ (n c : Nat) (a b : WSeq), AppendsTo a b →
    AppendsTo a (coilBytesLoop values n c b) := by
  intro n
  induction n with
  | zero => intro c a b h; exact h
  | succ n ih => intro c a b h; exact ih _ _ _ (h.u8 _)

theorem writeRegs_appends (vs : List UInt16) : ∀ (a b : WSeq), AppendsTo a b → AppendsTo a (writeRegs vs b) := by
  induction vs with
  | nil => intro a b h; exact h
  | cons v vs ih => intro a b h; exact ih _ _ (h.u16 _)

theorem reqMsg_appends (k : Kind) (r : Req k) (w : WSeq) : AppendsTo w ((reqMsg k r).build w) := by
  have h0 := AppendsTo.refl w
  cases k
  case writeMultipleCoils => exact coilBytesLoop_appends _ _ _ _ _ ((((h0.u8 _).u16 _).u16 _).u8 _)
  case writeMultipleRegisters => exact writeRegs_appends _ _ _ ((((h0.u8 _).u16 _).u16 _).u8 _)
  all_goals exact ((h0.u8 _).u16 _).u16 _

theorem respMsg_appends (k : Kind) (r : Resp k) (w : WSeq) : AppendsTo w ((respMsg k r).build w) := by
  have h0 := AppendsTo.refl w
  cases k
  case readCoils => exact packLoop_appends _ _ _ _ _ ((h0.u8 _).u8 _)
  case readDiscreteInputs => exact packLoop_appends _ _ _ _ _ ((h0.u8 _).u8 _)
  case readHoldingRegisters => exact writeRegs_appends _ _ _ ((h0.u8 _).u8 _)
  case readInputRegisters => exact writeRegs_appends _ _ _ ((h0.u8 _).u8 _)
  all_goals exact ((h0.u8 _).u16 _).u16 _

theorem exceptionMsg_appends (fc : UInt8) (t : ExceptionType) (w : WSeq) : AppendsTo w ((exceptionMsg fc t).build w) :=
  ((AppendsTo.refl w).u8 _).u8 _

/-- The frame built from any appending message. -/
theorem buildMbap_eq (unit : UInt8) (tid : UInt16) (m : Msg) (mem : List UInt8) (hmem : mem.length = 260)
    (ha : ∀ w, AppendsTo w (m.build w)) :
    ∃ payload, buildMbap unit tid m ⟨[], mem⟩ =
        hdr tid 0 (UInt16.ofNat (min m.length 253 + 1)) unit ++ payload ∧ payload.length = min m.length 253 ∧
      payload = (((m.build ⟨hdr tid 0 (UInt16.ofNat (min m.length 253 + 1)) unit, mem.drop 7⟩).mem).drop 7).take (min m.length 253) := by
  have hlen : (if m.length > 253 then 253 else m.length) = min m.length 253 := by split <;> omega
  have hb : ((((⟨[], mem⟩ : WSeq).writeU16 tid).writeU16 0x0000).writeU16 (UInt16.ofNat (min m.length 253 + 1))).writeU8 unit =
      ⟨hdr tid 0 (UInt16.ofNat (min m.length 253 + 1)) unit, mem.drop 7⟩ := by
    rw [WSeq.writeU16_eq ⟨[], mem⟩ _ (by simp [hmem]), WSeq.put_writeU16 _ _ _ (by simp [hmem]),
      WSeq.put_writeU16 _ _ _ (by simp [hmem]), WSeq.put_writeU8 _ _ _ (by simp [hmem])]
    simp [WSeq.put, hdr]
  simp only [buildMbap, hlen, hb]
  obtain ⟨⟨d, hd⟩, hml⟩ := ha ⟨hdr tid 0 (UInt16.ofNat (min m.length 253 + 1)) unit, mem.drop 7⟩
  generalize hw : m.build ⟨hdr tid 0 (UInt16.ofNat (min m.length 253 + 1)) unit, mem.drop 7⟩ = w at hd hml
  simp only at hd
  have hmem' : w.mem = hdr tid 0 (UInt16.ofNat (min m.length 253 + 1)) unit ++ (d ++ w.rest) := by
    rw [WSeq.mem, ← hd, List.append_assoc]
  have hl : (d ++ w.rest).length = 253 := by
    rw [hmem'] at hml
    simp only [WSeq.mem, List.length_append, hdr_length, List.length_drop, hmem] at hml ⊢
    omega
  refine ⟨(d ++ w.rest).take (min m.length 253), ?_, ?_, ?_⟩
  · rw [hmem', List.length_nil, List.drop_zero, List.take_append, hdr_length, Nat.add_sub_cancel,
      List.take_of_length_le (by rw [hdr_length]; omega)]
  · rw [List.length_take, hl]; omega
  · rw [hmem', List.drop_append_of_le_length (by rw [hdr_length]; omega)]
    rw [List.drop_of_length_le (by rw [hdr_length]; omega), List.nil_append]

/-- The frame built from a message that fits. -/
theorem buildMbap_writes (unit : UInt8) (tid : UInt16) (m : Msg) (pdu : List UInt8) (hw : m.Writes pdu) (hl : pdu.length ≤ 253)
    (mem : List UInt8) (hmem : mem.length = 260) :
    buildMbap unit tid m ⟨[], mem⟩ = (Spec.frameOf ⟨unit, tid, pdu⟩).bytes := by
  have hlen : (if m.length > 253 then 253 else m.length) = pdu.length := by rw [hw.length_eq]; split <;> omega
  have hb : ((((⟨[], mem⟩ : WSeq).writeU16 tid).writeU16 0x0000).writeU16 (UInt16.ofNat (pdu.length + 1))).writeU8 unit =
      ⟨hdr tid 0 (UInt16.ofNat (pdu.length + 1)) unit, mem.drop 7⟩ := by
    rw [WSeq.writeU16_eq ⟨[], mem⟩ _ (by simp [hmem]), WSeq.put_writeU16 _ _ _ (by simp [hmem]),
      WSeq.put_writeU16 _ _ _ (by simp [hmem]), WSeq.put_writeU8 _ _ _ (by simp [hmem])]
    simp [WSeq.put, hdr]
  simp only [buildMbap, hlen, hb]
  rw [hw.build_eq _ (by simp [hmem]; omega), frame_bytes]
  simp only [WSeq.put, WSeq.mem, Spec.frameOf, List.length_nil, List.drop_zero]
  rw [List.take_append_of_le_length (by simp [hdr_length]; omega), List.take_of_length_le (by simp [hdr_length]; omega)]

end Modbus
