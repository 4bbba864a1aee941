import Verif.Lemmas.Mbap
import Verif.Props.Codec

/-!
Properties C14-C21: MBAP framing.

`Parser.init pol mem` is a new receiver whose 260-byte buffer happens to contain `mem`; `feed chunks` calls `parse` once
per chunk and collects the delivered messages.  `pol` is the behaviour of the external `copy_from` on overflow: the
theorems hold for both possibilities.
-/

namespace Modbus.Props

open Spec (Frame streamOf frameOf Splits)

/-- The messages the library puts on the wire. -/
def IsMessage (m : Msg) : Prop :=
  (∃ k r, m = reqMsg k r) ∨ (∃ k r, m = respMsg k r) ∨ ∃ fc t, m = exceptionMsg fc t

/-- The messages delivered when feeding `chunks` to a new receiver are `out`. -/
def Receives (pol : CopyPolicy) (mem : List UInt8) (chunks : List (List UInt8)) (out : List Mbap) : Prop :=
  ∃ p', (Parser.init pol mem).feed chunks = .ret (p', out)

theorem receives_unique {pol : CopyPolicy} {mem : List UInt8} {chunks : List (List UInt8)} {o1 o2 : List Mbap}
    (h1 : Receives pol mem chunks o1) (h2 : Receives pol mem chunks o2) : o1 = o2 := by
  obtain ⟨_, h1⟩ := h1
  obtain ⟨_, h2⟩ := h2
  rw [h1] at h2
  injection h2 with h2
  exact congrArg Prod.snd h2

/-! ### C14 -/

/-- C14. Every frame built for any message, with any identifiers and any prior content of the 260-byte output buffer, is:
transaction id, protocol id 0, a length field equal to the number of bytes that follow it, unit id, payload; at most 260
bytes in total.  If the message's PDU fits (253 bytes), the payload is exactly the PDU. -/
theorem C14_frame_layout (unit : UInt8) (tid : UInt16) (m : Msg) (hm : IsMessage m) (mem : List UInt8)
    (hmem : mem.length = 260) :
    ∃ payload, buildMbap unit tid m ⟨[], mem⟩ =
        Spec.be tid.toNat ++ Spec.be 0 ++ Spec.be (payload.length + 1) ++ unit :: payload ∧
      (buildMbap unit tid m ⟨[], mem⟩).length ≤ 260 ∧
      ∀ pdu, Emits m pdu → pdu.length ≤ 253 → payload = pdu := by
  have ha : ∀ w, AppendsTo w (m.build w) := by
    rcases hm with ⟨k, r, rfl⟩ | ⟨k, r, rfl⟩ | ⟨fc, t, rfl⟩
    · exact reqMsg_appends k r
    · exact respMsg_appends k r
    · exact exceptionMsg_appends fc t
  obtain ⟨payload, h1, h2, h3⟩ := buildMbap_eq unit tid m mem hmem ha
  refine ⟨payload, ?_, ?_, ?_⟩
  · rw [h1, h2]
    have : (min m.length 253 + 1) < 65536 := by omega
    rw [be_ofNat_lt this, be_eq]
    rfl
  · rw [h1, List.length_append, h2, hdr_length]; omega
  · intro pdu he hl
    have hw : m.Writes pdu := ⟨he.1, fun w hw => he.2 w hw⟩
    have := buildMbap_writes unit tid m pdu hw hl mem hmem
    rw [h1, frame_bytes] at this
    exact (hdr_append_inj this).2.2.2.2

example : IsMessage (respMsg .readHoldingRegisters (List.replicate 130 ⟨0, 7⟩)) ∧
    (buildMbap 1 2 (respMsg .readHoldingRegisters (List.replicate 130 ⟨0, 7⟩)) ⟨[], List.replicate 260 0xEE⟩).length = 260 ∧
    buildMbap 1 2 (exceptionMsg 3 .illegalFunction) ⟨[], List.replicate 260 0xEE⟩ = [0, 2, 0, 0, 0, 3, 1, 0x83, 1] :=
  ⟨Or.inr (Or.inl ⟨_, _, rfl⟩), by decide +kernel, by decide +kernel⟩

/-! ### C15, C17 -/

theorem splits_streamOf {fs : List Frame} (h : ∀ f ∈ fs, f.Complete) : Splits (streamOf fs) fs [] :=
  ⟨h, incomplete_short (by simp), by simp⟩

/-- C17. For every stream of complete frames in which the Modbus frames carry 1..253 bytes of PDU, and in every
segmentation: exactly the Modbus frames are delivered, in order.  Frames with a foreign protocol id (of any size) or a
zero length field produce nothing and disturb nothing. -/
theorem C17_foreign_frames_skipped (pol : CopyPolicy) (mem : List UInt8) (hmem : mem.length = 260) (fs : List Frame)
    (hc : ∀ f ∈ fs, f.Complete) (hf : ∀ f ∈ fs, f.isModbus = true → 1 ≤ f.body.length ∧ f.body.length ≤ 253)
    (chunks : List (List UInt8)) (hs : chunks.flatten = streamOf fs) :
    Receives pol mem chunks ((fs.filter Frame.isModbus).map Frame.message) := by
  obtain ⟨p', out, fs', pend, h1, -, h2, h3⟩ := feed_splits pol _ rfl (rep_init pol mem hmem) chunks
  rw [hs] at h2
  obtain ⟨rfl, rfl⟩ := splits_unique h2 (splits_streamOf hc)
  have hfit : ∀ f ∈ fs'.filter Frame.isModbus, f.Fits := by
    intro f hf'
    obtain ⟨h4, h5⟩ := List.mem_filter.1 hf'
    have := hf f h4 h5
    have := hc f h4
    simp only [Spec.Frame.Complete, Spec.Frame.Fits] at *
    omega
  refine ⟨p', ?_⟩
  rw [h1]
  rcases h3 with ⟨h3, -⟩ | ⟨-, fs1, f, rfl, hf1, h3⟩
  · rw [delivers_map h3 hfit]
  · have hnm : f.isModbus = false := by
      by_contra hm
      have hm : f.isModbus = true := by simpa using hm
      have e1 := hf f (by simp) hm
      have e2 := hc f (by simp)
      simp only [Spec.Frame.Complete] at e2
      omega
    have hfil : (fs1 ++ [f]).filter Frame.isModbus = fs1.filter Frame.isModbus := by
      rw [List.filter_append, List.filter_cons, if_neg (by simp [hnm])]; simp
    rw [hfil] at hfit ⊢
    rw [delivers_map h3 hfit]

/-- A stream with a Modbus frame, a foreign frame and a zero-length header meets the hypotheses. -/
example : ∀ f ∈ [frameOf ⟨1, 2, [3, 4]⟩, ⟨7, 9, 3, 1, [0, 0]⟩, ⟨7, 0, 0, 1, []⟩, frameOf ⟨1, 3, [1]⟩],
    f.Complete ∧ (f.isModbus = true → 1 ≤ f.body.length ∧ f.body.length ≤ 253) := by
  simp [Spec.Frame.Complete, frameOf, Spec.Frame.isModbus]

/-- C15. Any sequence of messages with PDUs of 1..253 bytes, however the bytes are segmented, is handed over exactly:
the same messages, in order, each once. -/
theorem C15_framing_round_trip (pol : CopyPolicy) (mem : List UInt8) (hmem : mem.length = 260) (msgs : List Mbap)
    (hm : ∀ m ∈ msgs, 1 ≤ m.data.length ∧ m.data.length ≤ 253) (chunks : List (List UInt8))
    (hs : chunks.flatten = streamOf (msgs.map frameOf)) :
    Receives pol mem chunks msgs := by
  have := C17_foreign_frames_skipped pol mem hmem (msgs.map frameOf) ?_ ?_ chunks hs
  · have hfil : ((msgs.map frameOf).filter Frame.isModbus).map Frame.message = msgs := by
      rw [List.filter_eq_self.2]
      · rw [List.map_map]
        conv => rhs; rw [← List.map_id msgs]
        apply List.map_congr_left
        intro m _
        rfl
      · intro f hf
        obtain ⟨m, hm', rfl⟩ := List.mem_map.1 hf
        have := hm m hm'
        simp only [Spec.Frame.isModbus, frameOf, beq_self_eq_true, Bool.true_and, bne_iff_ne, ne_eq]
        intro h0
        have := (eq_zero16 _).1 h0
        rw [ofNat16_toNat (by omega)] at this
        omega
    rwa [hfil] at this
  · intro f hf
    obtain ⟨m, hm', rfl⟩ := List.mem_map.1 hf
    exact frameOf_complete (by have := hm m hm'; omega)
  · intro f hf _
    obtain ⟨m, hm', rfl⟩ := List.mem_map.1 hf
    exact hm m hm'

example : ([[0, 2, 0, 0], [0, 3, 1], [3, 4, 0], [3, 0, 0, 0, 2, 9, 0x83]] : List (List UInt8)).flatten =
    streamOf ([⟨1, 2, [3, 4]⟩, ⟨9, 3, [0x83]⟩].map frameOf) := by decide

/-- C14 and C15 together: what the library builds for messages that fit is what the library receives. -/
theorem C15_built_frames_received (pol : CopyPolicy) (mem : List UInt8) (hmem : mem.length = 260)
    (items : List (UInt8 × UInt16 × Msg × List UInt8 × List UInt8))
    (hi : ∀ i ∈ items, Emits i.2.2.1 i.2.2.2.1 ∧ 1 ≤ i.2.2.2.1.length ∧ i.2.2.2.1.length ≤ 253 ∧ i.2.2.2.2.length = 260)
    (chunks : List (List UInt8))
    (hs : chunks.flatten = items.flatMap fun i => buildMbap i.1 i.2.1 i.2.2.1 ⟨[], i.2.2.2.2⟩) :
    Receives pol mem chunks (items.map fun i => ⟨i.1, i.2.1, i.2.2.2.1⟩) := by
  apply C15_framing_round_trip pol mem hmem
  · intro m hm
    obtain ⟨i, hi', rfl⟩ := List.mem_map.1 hm
    exact ⟨(hi i hi').2.1, (hi i hi').2.2.1⟩
  · rw [hs, List.map_map]
    clear hs
    induction items with
    | nil => rfl
    | cons i items ih =>
      rw [List.flatMap_cons, List.map_cons, streamOf_cons, ih (fun j hj => hi j (by simp [hj]))]
      obtain ⟨h1, -, h3, h4⟩ := hi i (by simp)
      rw [buildMbap_writes _ _ _ i.2.2.2.1 ⟨h1.1, fun w hw => h1.2 w hw⟩ h3 _ h4]
      rfl

/-! ### C16 -/

/-- C16, full statement: two segmentations of the same bytes deliver the same messages. -/
def C16_Statement (pol : CopyPolicy) : Prop :=
  ∀ (mem : List UInt8), mem.length = 260 → ∀ (c1 c2 : List (List UInt8)), c1.flatten = c2.flatten →
    ∀ o1 o2, Receives pol mem c1 o1 → Receives pol mem c2 o2 → o1 = o2

/-- C16, proved part 1: segmentation does not matter if `copy_from` truncates, or if every Modbus frame in the stream
fits the protocol limit (253 bytes of PDU); the other bytes are arbitrary. -/
theorem C16_segmentation_invariant_partial (pol : CopyPolicy) (mem1 mem2 : List UInt8) (h1 : mem1.length = 260)
    (h2 : mem2.length = 260) (c1 c2 : List (List UInt8)) (heq : c1.flatten = c2.flatten)
    (hfit : pol = .truncate ∨ ∀ fs pend, Splits c1.flatten fs pend → ∀ f ∈ fs, f.isModbus = true → f.Fits)
    (o1 o2 : List Mbap) (hr1 : Receives pol mem1 c1 o1) (hr2 : Receives pol mem2 c2 o2) : o1 = o2 := by
  obtain ⟨p1, out1, fs1, pend1, a1, -, a2, a3⟩ := feed_splits pol _ rfl (rep_init pol mem1 h1) c1
  obtain ⟨p2, out2, fs2, pend2, b1, -, b2, b3⟩ := feed_splits pol _ rfl (rep_init pol mem2 h2) c2
  cases receives_unique hr1 ⟨p1, a1⟩
  cases receives_unique hr2 ⟨p2, b1⟩
  rw [← heq] at b2
  obtain ⟨rfl, rfl⟩ := splits_unique a2 b2
  have aux : ∀ fs : List Frame, (pol = .truncate ∨ ∀ f ∈ fs.filter Frame.isModbus, f.Fits) →
      List.Forall₂ (Delivers pol) (fs.filter Frame.isModbus) o1 → List.Forall₂ (Delivers pol) (fs.filter Frame.isModbus) o2 →
      o1 = o2 := by
    intro fs h d1 d2
    rcases h with h | h
    · exact delivers_truncate h d1 d2
    · rw [delivers_map d1 h, delivers_map d2 h]
  have hfit' : pol = .truncate ∨ ∀ f ∈ fs1.filter Frame.isModbus, f.Fits := by
    rcases hfit with h | h
    · exact Or.inl h
    · right
      intro f hf
      obtain ⟨h4, h5⟩ := List.mem_filter.1 hf
      exact h fs1 pend1 a2 f h4 h5
  -- a trailing empty-PDU frame that is still owed is owed in both runs or in neither
  rcases a3 with ⟨a3, a4⟩ | ⟨hp, fs', f, rfl, hf, a3⟩
  · rcases b3 with ⟨b3, -⟩ | ⟨hp, fs', f, rfl, hf, b3⟩
    · exact aux fs1 hfit' a3 b3
    · exact absurd hf (a4 hp f (by simp))
  · rcases b3 with ⟨b3, b4⟩ | ⟨-, fs'', f', hfs, hf', b3⟩
    · exact absurd hf (b4 hp f (by simp))
    · obtain ⟨rfl, hff⟩ := List.append_inj' hfs rfl
      refine aux fs' ?_ a3 b3
      rcases hfit' with h | h
      · exact Or.inl h
      · right
        intro g hg
        exact h g (by rw [List.filter_append]; exact List.mem_append_left _ hg)

example : Splits (streamOf [frameOf ⟨1, 2, [3, 4]⟩] ++ [0, 1]) [frameOf ⟨1, 2, [3, 4]⟩] [0, 1] ∧
    ∀ f ∈ [frameOf ⟨1, 2, [3, 4]⟩], f.isModbus = true → f.Fits :=
  ⟨⟨by simp [Spec.Frame.Complete, frameOf], incomplete_short (by decide), rfl⟩, by simp [Spec.Frame.Fits, frameOf]⟩

/-- C16, proved part 2: for arbitrary bytes the *framing* never depends on the segmentation (nor on the old buffer
content): the same number of messages with the same unit ids, transaction ids and PDU lengths is delivered, in the same
order, under either behaviour of `copy_from`.  Missing from C16: with a rejecting `copy_from` the PDU *bytes* of an
oversize frame do depend on it, see `C16_violated`. -/
theorem C16_framing_invariant_partial (pol : CopyPolicy) (mem1 mem2 : List UInt8) (h1 : mem1.length = 260)
    (h2 : mem2.length = 260) (c1 c2 : List (List UInt8)) (heq : c1.flatten = c2.flatten)
    (o1 o2 : List Mbap) (hr1 : Receives pol mem1 c1 o1) (hr2 : Receives pol mem2 c2 o2) :
    o1.map (fun m => (m.unit, m.tid, m.data.length)) = o2.map (fun m => (m.unit, m.tid, m.data.length)) := by
  obtain ⟨p1, out1, fs1, pend1, a1, -, a2, a3⟩ := feed_splits pol _ rfl (rep_init pol mem1 h1) c1
  obtain ⟨p2, out2, fs2, pend2, b1, -, b2, b3⟩ := feed_splits pol _ rfl (rep_init pol mem2 h2) c2
  cases receives_unique hr1 ⟨p1, a1⟩
  cases receives_unique hr2 ⟨p2, b1⟩
  rw [← heq] at b2
  obtain ⟨rfl, rfl⟩ := splits_unique a2 b2
  have aux : ∀ (fs : List Frame) (o : List Mbap), List.Forall₂ (Delivers pol) fs o →
      o.map (fun m => (m.unit, m.tid, m.data.length)) = fs.map fun f => (f.unit, f.tid, min (f.len.toNat - 1) 253) := by
    intro fs o h
    induction h with
    | nil => rfl
    | cons h _ ih => rw [List.map_cons, List.map_cons, ih, h.unit, h.tid, h.length]
  rcases a3 with ⟨a3, a4⟩ | ⟨hp, fs', f, rfl, hf, a3⟩
  · rcases b3 with ⟨b3, -⟩ | ⟨hp, fs', f, rfl, hf, b3⟩
    · rw [aux _ _ a3, aux _ _ b3]
    · exact absurd hf (a4 hp f (by simp))
  · rcases b3 with ⟨b3, b4⟩ | ⟨-, fs'', f', hfs, hf', b3⟩
    · exact absurd hf (b4 hp f (by simp))
    · obtain ⟨rfl, hff⟩ := List.append_inj' hfs rfl
      rw [aux _ _ a3, aux _ _ b3]

/-- The oversize frame used as counterexample: 254 bytes of PDU announced (length field 255). -/
def oversize : Frame := ⟨0, 0, 255, 1, List.replicate 254 0xFF⟩

theorem oversize_complete : oversize.Complete := by
  simp [-List.reduceReplicate, Spec.Frame.Complete, oversize]

set_option maxRecDepth 10000 in
theorem oversize_whole : Receives .reject (List.replicate 260 0) [hdr 0 0 255 1, oversize.body]
    [⟨1, 0, List.replicate 253 0⟩] := by
  let p1 : Parser := ⟨.reject, ⟨hdr 0 0 255 1, List.replicate 253 0⟩, 254, true⟩
  have e1 : (Parser.init .reject (List.replicate 260 0)).parse (hdr 0 0 255 1) = .ret (p1, []) := by
    rw [parse_head _ p1 _ (by decide) (by decide) rfl (by decide +kernel)]
    exact parse_nil _
  have e2 : ∃ p2, p1.parse oversize.body = .ret (p2, [⟨1, 0, List.replicate 253 0⟩]) := by
    refine ⟨p1.reset, ?_⟩
    rw [parse_body p1 p1.reset [⟨1, 0, List.replicate 253 0⟩] _ (by decide) (by decide) rfl (by decide +kernel)]
    have : oversize.body.drop p1.num = [] := by decide +kernel
    rw [this, parse_nil]; rfl
  obtain ⟨p2, e2⟩ := e2
  exact ⟨p2, by simp [-List.reduceReplicate, Parser.feed, e1, e2]⟩

set_option maxRecDepth 10000 in
theorem oversize_split : Receives .reject (List.replicate 260 0)
    [hdr 0 0 255 1, List.replicate 100 0xFF, List.replicate 154 0xFF]
    [⟨1, 0, List.replicate 100 0xFF ++ List.replicate 153 0⟩] := by
  let p1 : Parser := ⟨.reject, ⟨hdr 0 0 255 1, List.replicate 253 0⟩, 254, true⟩
  let p2 : Parser := ⟨.reject, ⟨hdr 0 0 255 1 ++ List.replicate 100 0xFF, List.replicate 153 0⟩, 154, true⟩
  have e1 : (Parser.init .reject (List.replicate 260 0)).parse (hdr 0 0 255 1) = .ret (p1, []) := by
    rw [parse_head _ p1 _ (by decide) (by decide) rfl (by decide +kernel)]
    exact parse_nil _
  have e2 : p1.parse (List.replicate 100 0xFF) = .ret (p2, []) := by
    rw [parse_short _ _ (by decide) (by decide)]
    decide +kernel
  have e3 : p2.parse (List.replicate 154 0xFF) = .ret (p2.reset, [⟨1, 0, List.replicate 100 0xFF ++ List.replicate 153 0⟩]) := by
    rw [parse_body p2 p2.reset [⟨1, 0, List.replicate 100 0xFF ++ List.replicate 153 0⟩] _ (by decide) (by decide) rfl
      (by decide +kernel)]
    have : (List.replicate 154 0xFF : List UInt8).drop p2.num = [] := by decide +kernel
    rw [this, parse_nil]; rfl
  exact ⟨p2.reset, by simp [-List.reduceReplicate, Parser.feed, e1, e2, e3]⟩

set_option maxRecDepth 10000 in
/-- C16 is violated when `copy_from` rejects overlong sources: the delivered bytes of an oversize frame depend on how
TCP cut it. -/
theorem C16_violated : ¬ C16_Statement .reject := by
  intro h
  have := h (List.replicate 260 0) (by decide) _ _ (by decide +kernel) _ _ oversize_whole oversize_split
  revert this
  decide +kernel

/-! ### C18 -/

/-- C18, full statement: for every stream and segmentation there is an assignment of the delivered messages to frames of
the stream (in order) such that every delivered PDU consists of bytes of its frame's body. -/
def C18_Statement (pol : CopyPolicy) : Prop :=
  ∀ (mem : List UInt8), mem.length = 260 → ∀ (chunks : List (List UInt8)) (out : List Mbap), Receives pol mem chunks out →
    ∃ fs pend, Splits chunks.flatten fs pend ∧
      ∃ fs', fs'.Sublist fs ∧ List.Forall₂ (fun f m => m.data <+: f.body) fs' out

set_option maxRecDepth 10000 in
/-- C18 is violated when `copy_from` rejects overlong sources: an oversize frame is delivered with 253 bytes of old
buffer content (here zeros, although every body byte received was 0xFF). -/
theorem C18_violated : ¬ C18_Statement .reject := by
  intro h
  obtain ⟨fs, pend, h1, fs', h2, h3⟩ := h (List.replicate 260 0) (by decide) _ _ oversize_whole
  have hs : ([hdr 0 0 255 1, oversize.body] : List (List UInt8)).flatten = streamOf [oversize] := by decide +kernel
  rw [hs] at h1
  obtain ⟨rfl, rfl⟩ := splits_unique h1 (splits_streamOf (by simpa using oversize_complete))
  cases h3 with
  | cons hm h3 =>
    rename_i f l
    have : f ∈ [oversize] := h2.subset (by simp)
    simp only [List.mem_singleton] at this
    subst this
    revert hm
    decide +kernel

/-- C18, proved part: every delivered message belongs to a frame of the stream (in order, with its unit and transaction
ids); if that frame fits, the delivered PDU is exactly the frame's body; if `copy_from` truncates, it is the first 253
bytes of the body.  Missing: the bytes of oversize frames when `copy_from` rejects (see `C18_violated`). -/
theorem C18_delivered_from_frame_partial (pol : CopyPolicy) (mem : List UInt8) (hmem : mem.length = 260)
    (chunks : List (List UInt8)) (out : List Mbap) (hr : Receives pol mem chunks out) :
    ∃ fs pend, Splits chunks.flatten fs pend ∧ ∃ fs', fs'.Sublist fs ∧
      List.Forall₂ (fun f m => m.unit = f.unit ∧ m.tid = f.tid ∧ f.isModbus = true ∧ (f.Fits → m.data = f.body) ∧
        (pol = .truncate → m.data = f.body.take 253)) fs' out := by
  obtain ⟨p1, out1, fs1, pend1, a1, -, a2, a3⟩ := feed_splits pol _ rfl (rep_init pol mem hmem) chunks
  cases receives_unique hr ⟨p1, a1⟩
  have aux : ∀ (fs : List Frame) (o : List Mbap), (∀ f ∈ fs, f.isModbus = true) → List.Forall₂ (Delivers pol) fs o →
      List.Forall₂ (fun f m => m.unit = f.unit ∧ m.tid = f.tid ∧ f.isModbus = true ∧ (f.Fits → m.data = f.body) ∧
        (pol = .truncate → m.data = f.body.take 253)) fs o := by
    intro fs o hm h
    induction h with
    | nil => exact .nil
    | cons h _ ih =>
      exact .cons ⟨h.unit, h.tid, hm _ (by simp), h.exact_of_fits, h.truncated⟩ (ih fun f hf => hm f (by simp [hf]))
  refine ⟨fs1, pend1, a2, ?_⟩
  rcases a3 with ⟨a3, -⟩ | ⟨hp, fs', f, rfl, hf, a3⟩
  · exact ⟨_, List.filter_sublist, aux _ _ (fun f hf => (List.mem_filter.1 hf).2) a3⟩
  · exact ⟨_, List.filter_sublist.trans (List.sublist_append_left _ _), aux _ _ (fun f hf => (List.mem_filter.1 hf).2) a3⟩

example : Receives .reject (List.replicate 260 0) [hdr 0 0 255 1, oversize.body] [⟨1, 0, List.replicate 253 0⟩] :=
  oversize_whole

/-! ### C19 -/

/-- C19, full statement: whenever the bytes received so far are `fs` complete frames plus an incomplete rest, as many
messages have been delivered as there are Modbus frames in `fs`: none is withheld, none is delivered early. -/
def C19_Statement (pol : CopyPolicy) : Prop :=
  ∀ (mem : List UInt8), mem.length = 260 → ∀ (chunks : List (List UInt8)) (out : List Mbap) (fs : List Frame) (pend : List UInt8),
    Receives pol mem chunks out → Splits chunks.flatten fs pend → out.length = (fs.filter Frame.isModbus).length

set_option maxRecDepth 10000 in
/-- C19 is violated: a frame with an empty PDU (length field 1) is complete after its header but not delivered until
another byte arrives. -/
theorem C19_violated (pol : CopyPolicy) : ¬ C19_Statement pol := by
  intro h
  let f : Frame := ⟨5, 0, 1, 9, []⟩
  have hs : ([hdr 5 0 1 9] : List (List UInt8)).flatten = streamOf [f] := by decide +kernel
  let p1 : Parser := ⟨pol, ⟨hdr 5 0 1 9, List.replicate 253 0⟩, 0, true⟩
  have e1 : (Parser.init pol (List.replicate 260 0)).parse (hdr 5 0 1 9) = .ret (p1, []) := by
    rw [parse_head _ p1 _ (by cases pol <;> decide) (by cases pol <;> decide) rfl (by cases pol <;> decide +kernel)]
    exact parse_nil _
  have := h (List.replicate 260 0) (by decide) [hdr 5 0 1 9] [] [f] [] ⟨p1, by simp [-List.reduceReplicate, Parser.feed, e1]⟩
    (by rw [hs]; exact splits_streamOf (by simp [f, Spec.Frame.Complete]))
  revert this
  decide +kernel

/-- C19, proved part: the count is exact unless the bytes received so far end exactly after a frame with an empty PDU
(then that one frame is still withheld).  Missing: that case, see `C19_violated`. -/
theorem C19_immediate_delivery_partial (pol : CopyPolicy) (mem : List UInt8) (hmem : mem.length = 260)
    (chunks : List (List UInt8)) (out : List Mbap) (fs : List Frame) (pend : List UInt8)
    (hr : Receives pol mem chunks out) (hsp : Splits chunks.flatten fs pend) :
    (out.length = (fs.filter Frame.isModbus).length ∨
      (pend = [] ∧ ∃ fs' f, fs = fs' ++ [f] ∧ f.body = [] ∧ f.len = 1 ∧ out.length = (fs'.filter Frame.isModbus).length)) ∧
    ((pend ≠ [] ∨ ∀ f, fs.getLast? = some f → f.len ≠ 1) → out.length = (fs.filter Frame.isModbus).length) := by
  obtain ⟨p1, out1, fs1, pend1, a1, -, a2, a3⟩ := feed_splits pol _ rfl (rep_init pol mem hmem) chunks
  cases receives_unique hr ⟨p1, a1⟩
  obtain ⟨rfl, rfl⟩ := splits_unique hsp a2
  rcases a3 with ⟨a3, -⟩ | ⟨hp, fs', f, rfl, hf, a3⟩
  · exact ⟨Or.inl a3.length_eq.symm, fun _ => a3.length_eq.symm⟩
  · have hf1 : f.len = 1 := UInt16.toNat_inj.1 (by simpa using hf)
    have hcf := hsp.complete f (by simp)
    refine ⟨Or.inr ⟨hp, fs', f, rfl, ?_, hf1, a3.length_eq.symm⟩, ?_⟩
    · simp only [Spec.Frame.Complete, hf] at hcf
      exact List.eq_nil_of_length_eq_zero (by omega)
    · rintro (h | h)
      · exact absurd hp h
      · exact absurd hf1 (h f (by simp))

example : Splits ([hdr 5 0 3 9, [1, 2], [0]] : List (List UInt8)).flatten [⟨5, 0, 3, 9, [1, 2]⟩] [0] :=
  ⟨by simp [Spec.Frame.Complete], incomplete_short (by decide), by decide⟩

/-! ### C20 -/

/-- C20. After a reset, whatever was received before, the receiver delivers for all future input in which the Modbus frames
fit exactly what a newly created receiver delivers (and, with a truncating `copy_from`, for all future input). -/
theorem C20_reset_forgets (pol : CopyPolicy) (mem mem' : List UInt8) (h1 : mem.length = 260) (h2 : mem'.length = 260)
    (history chunks : List (List UInt8)) (p : Parser) (o : List Mbap)
    (hist : (Parser.init pol mem).feed history = .ret (p, o))
    (hfit : pol = .truncate ∨ ∀ fs pend, Splits chunks.flatten fs pend → ∀ f ∈ fs, f.isModbus = true → f.Fits) :
    ∃ p1 p2 out, p.reset.feed chunks = .ret (p1, out) ∧ (Parser.init pol mem').feed chunks = .ret (p2, out) := by
  obtain ⟨p0, out0, fs0, pend0, z1, ⟨pend0', z2⟩, -, -⟩ := feed_splits pol _ rfl (rep_init pol mem h1) history
  rw [hist] at z1; injection z1 with z1; injection z1 with z1 z1'; subst z1
  have hpol : p.pol = pol := by
    obtain ⟨p', out, fs, pend', y1, y2, -⟩ := feed_spec history _ _ (rep_init pol mem h1)
    rw [hist] at y1; injection y1 with y1; injection y1 with y1; subst y1; exact y2
  have hreset : p.reset = Parser.init pol p.view.mem := by rw [← hpol]; rfl
  obtain ⟨p1, out1, fs1, pend1, a1, -, a2, a3⟩ := feed_splits pol _ rfl (rep_init pol p.view.mem z2.mem_length) chunks
  obtain ⟨p2, out2, fs2, pend2, b1, -, b2, b3⟩ := feed_splits pol _ rfl (rep_init pol mem' h2) chunks
  refine ⟨p1, p2, out1, by rw [hreset, a1], ?_⟩
  have := C16_segmentation_invariant_partial pol p.view.mem mem' z2.mem_length h2 chunks chunks rfl hfit out1 out2
    ⟨p1, a1⟩ ⟨p2, b1⟩
  rw [b1, this]

example : ∃ p o, (Parser.init .reject (List.replicate 260 3)).feed [[0, 1, 0, 0, 0]] = .ret (p, o) ∧ p.num = 2 := by
  refine ⟨⟨.reject, ⟨[0, 1, 0, 0, 0], List.replicate 255 3⟩, 2, false⟩, [], ?_, rfl⟩
  simp only [Parser.feed]
  rw [parse_short _ _ (by decide) (by decide)]
  decide +kernel

/-! ### C21 -/

/-- C21. Whatever is received in whatever segmentation, the receiver terminates without undefined behaviour, its buffer
keeps its 260 bytes with the write position inside, and no delivered PDU is longer than 253 bytes. -/
theorem C21_receiver_memory_safe (pol : CopyPolicy) (mem : List UInt8) (hmem : mem.length = 260)
    (chunks : List (List UInt8)) :
    ∃ p out, (Parser.init pol mem).feed chunks = .ret (p, out) ∧ p.view.mem.length = 260 ∧ p.view.done.length ≤ 260 ∧
      ∀ m ∈ out, m.data.length ≤ 253 := by
  obtain ⟨p1, out1, fs1, pend1, a1, ⟨pend', a4⟩, a2, a3⟩ := feed_splits pol _ rfl (rep_init pol mem hmem) chunks
  have hm := a4.mem_length
  refine ⟨p1, out1, a1, hm, ?_, ?_⟩
  · simp only [WSeq.mem, List.length_append] at hm; omega
  · have aux : ∀ (fs : List Frame) (o : List Mbap), List.Forall₂ (Delivers pol) fs o → ∀ m ∈ o, m.data.length ≤ 253 := by
      intro fs o h
      induction h with
      | nil => simp
      | cons h _ ih =>
        intro m hm
        rcases List.mem_cons.1 hm with rfl | hm
        · rw [h.length]; omega
        · exact ih m hm
    rcases a3 with ⟨a3, -⟩ | ⟨hp, fs', f, rfl, hf, a3⟩
    · exact aux _ _ a3
    · exact aux _ _ a3

example : Receives .reject (List.replicate 260 0) [hdr 0 0 255 1, oversize.body] [⟨1, 0, List.replicate 253 0⟩] :=
  oversize_whole

end Modbus.Props
