import Verif.Lemmas.StackGenuine
import Verif.Props.Stack

/-! C100: a response reported to the user is a whole frame of what was received on the connection that carried the request. -/

namespace Modbus.Props

open Modbus.Spec Modbus.Stk

/-- When a handler is called with a response, the request had been given to some connection, and the bytes received so far on that
connection, cut into frames from their beginning, contain a frame with the request's unit and transaction ids whose PDU is the response
(unless that frame is larger than Modbus allows, see C18). -/
def C100_Statement : Prop := ∀ env v, KReach env v → ∀ pre u pdu now post, v.log = pre ++ .ch (.handler u (.ok pdu) now) :: post →
  ∃ c bytes t unit tid q tmo, CEv.call u unit q tmo ∈ chLog pre ∧ CEv.sent u bytes t ∈ chLog pre ∧ IsRequestFrame unit tid q bytes ∧
    KEv.net (.submit c bytes) ∈ pre ∧
    ∃ fs pend f, Splits (tcpReceived c (netLog pre)).flatten fs pend ∧ f ∈ fs ∧ f.isModbus = true ∧ f.unit = unit ∧ f.tid = tid ∧ (f.Fits → f.body = pdu)

/-- The beginning of a frame that carries 14 bytes of data, two of which are here. -/
def cutHead : List UInt8 := [0, 9, 0, 0, 0, 17, 1, 3, 14, 0, 0]

/-- The beginning of a frame is received; the rest has arrived as well when a write fails; a new request is submitted to the same
connection before the connection gets closed. -/
def cutInHalf : List Stk.Op := ksub ++ kcon ++ [.complete 1 (.data cutHead), .run 0, .complete 1 (.data (kframe 1)), .complete 0 .error, .run 1] ++ ksub ++ [.run 0]

/-- What happens then: the tail of the frame is taken for an answer to the new request, although no connection attempt is started too early
and no connection ends in an orderly way. -/
theorem C100_tail_of_a_frame : ∃ v, KReach kenv v ∧ Throughout (fun t op => FreshStarts t op ∧ NoEof t op) v ∧
    (decide (v.log = v.log.take 17 ++ [.ch (.handler 1 (.ok [5, 0, 5, 255, 0]) 0)]) && tcpReceived 1 (netLog (v.log.take 17)) == [cutHead, kframe 1] &&
      sentFrames (chLog (v.log.take 17)) == [(0, kframe 0), (1, kframe 1)] && (v.log.take 17).all (fun e => match e with
        | .net (.submit c _) => c == 1
        | _ => true)) = true := by
  obtain ⟨v, -, h⟩ := kdemo_run (P := fun t op => FreshStarts t op ∧ NoEof t op) (chk := fun t op => freshChk t op && noEofChk op) (env := kenv)
    (ops := cutInHalf) (Q := fun v => decide (v.log = v.log.take 17 ++ [.ch (.handler 1 (.ok [5, 0, 5, 255, 0]) 0)]) &&
      tcpReceived 1 (netLog (v.log.take 17)) == [cutHead, kframe 1] &&
      sentFrames (chLog (v.log.take 17)) == [(0, kframe 0), (1, kframe 1)] && (v.log.take 17).all (fun e => match e with
        | .net (.submit c _) => c == 1
        | _ => true))
    (fun t op h => by
      simp only [Bool.and_eq_true] at h
      exact ⟨freshChk_spec t op h.1, noEofChk_spec t op h.2⟩) (by decide +kernel)
  exact ⟨v, h⟩

/-- C100 is false. -/
theorem C100_violated : ¬C100_Statement := by
  intro hall
  obtain ⟨v, hr, -, hq⟩ := C100_tail_of_a_frame
  simp only [Bool.and_eq_true, beq_iff_eq, decide_eq_true_eq] at hq
  obtain ⟨⟨⟨h1, h2⟩, h3⟩, h4⟩ := hq
  obtain ⟨c, bytes, t, unit, tid, q, tmo, -, a2, a3, a4, fs, pend, f, a5, a6, -, -, a9, -⟩ := hall kenv v hr _ _ _ _ _ h1
  have hb : bytes = kframe 1 := by
    have := mem_sentFrames.2 ⟨t, a2⟩
    rw [h3] at this
    simpa using this
  have hc : c = 1 := by
    have := List.all_eq_true.1 h4 _ a4
    simpa using this
  subst hb; subst hc
  rw [h2] at a5
  have hs : ([cutHead, kframe 1] : List (List UInt8)).flatten = streamOf [⟨9, 0, 17, 1, [3, 14, 0, 0] ++ kframe 1⟩] := by decide +kernel
  rw [hs] at a5
  obtain ⟨rfl, -⟩ := splits_unique a5 (splits_streamOf (by simp [Frame.Complete, kframe]))
  rw [List.mem_singleton] at a6
  subst a6
  obtain ⟨pdu, -, -, e⟩ := a3
  subst a9
  rw [frame_bytes] at e
  rw [show kframe 1 = hdr 1 0 6 1 ++ [5, 0, 5, 255, 0] by decide +kernel] at e
  exact absurd (show (1 : UInt16) = 9 from (hdr_append_inj e).1) (by decide)

/-- What a message taken from the received bytes is. -/
theorem framed_frame {pol : CopyPolicy} {chunks : List (List UInt8)} {out : List Mbap} (h : FramedAs pol chunks out) {m : Mbap} (hm : m ∈ out) :
    ∃ fs pend f, Splits chunks.flatten fs pend ∧ f ∈ fs ∧ f.isModbus = true ∧ f.unit = m.unit ∧ f.tid = m.tid ∧ (f.Fits → f.body = m.data) := by
  obtain ⟨mem, hmem, h⟩ := h
  obtain ⟨p', out', fs, pend, h1, -, h2, h3⟩ := feed_splits pol _ rfl (rep_init pol mem hmem) chunks
  cases receives_unique h ⟨p', h1⟩
  have key : ∀ fs' : List Frame, (∀ f ∈ fs', f ∈ fs) → List.Forall₂ (Delivers pol) (fs'.filter Frame.isModbus) out →
      ∃ f ∈ fs, f.isModbus = true ∧ f.unit = m.unit ∧ f.tid = m.tid ∧ (f.Fits → f.body = m.data) := by
    intro fs' hsub hall
    obtain ⟨f, hf, hd⟩ : ∃ f ∈ fs'.filter Frame.isModbus, Delivers pol f m := by
      clear h h1 h2 h3
      generalize fs'.filter Frame.isModbus = gs at hall
      induction hall with
      | nil => simp at hm
      | @cons f m' _ _ hd _ ih =>
        rcases List.mem_cons.1 hm with rfl | hm
        · exact ⟨f, by simp, hd⟩
        · obtain ⟨g, hg, hd⟩ := ih hm
          exact ⟨g, by simp [hg], hd⟩
    obtain ⟨hf1, hf2⟩ := List.mem_filter.1 hf
    exact ⟨f, hsub f hf1, hf2, hd.unit.symm, hd.tid.symm, fun hfit => (hd.exact_of_fits hfit).symm⟩
  obtain ⟨f, hf, hrest⟩ : ∃ f ∈ fs, f.isModbus = true ∧ f.unit = m.unit ∧ f.tid = m.tid ∧ (f.Fits → f.body = m.data) := by
    rcases h3 with ⟨h3, -⟩ | ⟨-, fs', f, rfl, -, h3⟩
    · exact key fs (fun _ h => h) h3
    · exact key fs' (fun f hf => List.mem_append_left _ hf) h3
  exact ⟨fs, pend, f, h2, hf, hrest⟩

/-- C100 (part). It is true if no connection attempt is started before everything about the earlier connections is over, no connection is
closed by the server in an orderly way, and after an error on a connection nothing more is received on that connection.
Missing from C100: histories in which a connection ends in an orderly way, attempts are started too early, or data that had already
arrived is handled after the error (`C100_violated`). -/
theorem C100_genuine_partial (env : StkEnv) (v : Stk) (h : KReach env v) (hf : Throughout (fun t op => FreshStarts t op ∧ NoEof t op) v)
    (hq : ∀ a b c cur, netLog v.log = a ++ .error c cur :: b → tcpReceived c b = []) (pre : List KEv) (u : Nat) (pdu : List UInt8) (now : Nat)
    (post : List KEv) (hl : v.log = pre ++ .ch (.handler u (.ok pdu) now) :: post) :
    ∃ c bytes t unit tid q tmo, CEv.call u unit q tmo ∈ chLog pre ∧ CEv.sent u bytes t ∈ chLog pre ∧ IsRequestFrame unit tid q bytes ∧
      KEv.net (.submit c bytes) ∈ pre ∧
      ∃ fs pend f, Splits (tcpReceived c (netLog pre)).flatten fs pend ∧ f ∈ fs ∧ f.isModbus = true ∧ f.unit = unit ∧ f.tid = tid ∧
        (f.Fits → f.body = pdu) := by
  obtain ⟨c, b, n, m, out, h1, h2, ⟨l0, h3⟩, h4, h5, h6⟩ := h.proj.micro.genuine hf hq pre u pdu now post hl
  obtain ⟨before, m', g1, g2, -, bytes, t, unit, q, tmo, g4, g5, g6⟩ := C49_response_matches_request env.client v.cli h.proj.reach (chLog pre)
    (chLog post) u pdu now (by rw [← h.proj.cli, hl]; simp)
  rw [h3] at g1
  obtain ⟨rfl, g1⟩ := List.append_inj' g1 rfl
  have g1 : m = m' := by simpa using g1
  subst g1
  have hc : CEv.call u unit q tmo ∈ chLog pre := by rw [h3]; exact List.mem_append_left _ g5
  have hs : CEv.sent u bytes t ∈ chLog pre := by rw [h3]; exact List.mem_append_left _ g4
  have hbb : b = bytes := by
    have hnd : ((sentFrames (chLog v.log)).map (·.1)).Pairwise (· < ·) := by
      rw [sentFrames_uids, h.proj.cli]; exact (C46_submission_order env.client v.cli h.proj.reach).2.1
    have mem : ∀ {b' : List UInt8} {n' : Nat}, CEv.sent u b' n' ∈ chLog pre → (u, b') ∈ sentFrames (chLog v.log) := by
      intro b' n' hm
      refine mem_sentFrames.2 ⟨n', ?_⟩
      rw [hl, chLog_append]; exact List.mem_append_left _ hm
    have key : ∀ (l : List (Nat × List UInt8)), (l.map (·.1)).Pairwise (· < ·) → (u, b) ∈ l → (u, bytes) ∈ l → b = bytes := by
      intro l
      induction l with
      | nil => intro _ h; cases h
      | cons x l ih =>
        intro hp h1 h2
        rw [List.map_cons, List.pairwise_cons] at hp
        have lt : ∀ {b'}, (u, b') ∈ l → x.1 < u := fun hm => hp.1 _ (List.mem_map.2 ⟨_, hm, rfl⟩)
        rcases List.mem_cons.1 h1 with h1 | h1 <;> rcases List.mem_cons.1 h2 with h2 | h2
        · rw [← h1] at h2; injection h2 with _ h2; exact h2.symm
        · have := lt h2; rw [← h1] at this; simp at this
        · have := lt h1; rw [← h2] at this; simp at this
        · exact ih hp.2 h1 h2
    exact key _ hnd (mem h1) (mem hs)
  subst hbb
  obtain ⟨fs, pend, f, k1, k2, k3, k4, k5, k6⟩ := framed_frame h5 h6
  refine ⟨c, b, t, m.unit, m.tid, q, tmo, ?_, hs, g6, h2, fs, pend, f, k1, k2, k3, k4, k5, by rw [h4]; exact k6⟩
  obtain ⟨unit', q', tmo', tid', c1, -, -, c4⟩ : ∃ unit' q' tmo' tid', CEv.call u unit' q' tmo' ∈ v.cli.log ∧ Allowed q' ∧ True ∧ IsRequestFrame unit' tid' q' b := by
    obtain ⟨unit', q', tmo', c1, c2, tid', -, c4⟩ := C54_transaction_ids env.client v.cli h.proj.reach u b t
      (by rw [← h.proj.cli, hl, chLog_append]; exact List.mem_append_left _ hs)
    exact ⟨unit', q', tmo', tid', c1, c2, trivial, c4⟩
  have hcu : CEv.call u unit q tmo ∈ v.cli.log := by rw [← h.proj.cli, hl, chLog_append]; exact List.mem_append_left _ hc
  obtain ⟨rfl, rfl, rfl⟩ := h.proj.reach.inv.1.callUnique c1 hcu
  obtain ⟨rfl, rfl⟩ := requestFrame_inj c4 g6
  exact hc

/-- A request is answered in two pieces; another one, on a second connection after an error, is answered too. -/
def genuineRun : List Stk.Op := ksub ++ kcon ++ [.complete 0 (.sent 12), .run 0, .complete 0 (.data ((kframe 0).take 5)), .run 0,
  .complete 0 (.data ((kframe 0).drop 5)), .run 0, .complete 0 .error, .run 0, .run 0] ++ ksub ++ kcon ++
  [.complete 0 (.sent 12), .run 0, .complete 0 (.data (kframe 1)), .run 0]

example : ∃ v, KReach kenv v ∧ Throughout (fun t op => FreshStarts t op ∧ NoEof t op) v ∧
    (decide (v.log = v.log.take 26 ++ [.ch (.handler 1 (.ok [5, 0, 5, 255, 0]) 0)]) &&
      decide (netLog v.log = (netLog v.log).take 7 ++ .error 1 1 :: (netLog v.log).drop 8) && tcpReceived 1 ((netLog v.log).drop 8) == [] &&
      ((netLog v.log).take 7 ++ (netLog v.log).drop 8).all fun e => match e with
        | .error _ _ => false
        | _ => true) = true := by
  obtain ⟨v, -, h⟩ := kdemo_run (P := fun t op => FreshStarts t op ∧ NoEof t op) (chk := fun t op => freshChk t op && noEofChk op) (env := kenv)
    (ops := genuineRun) (Q := fun v => decide (v.log = v.log.take 26 ++ [.ch (.handler 1 (.ok [5, 0, 5, 255, 0]) 0)]) &&
      decide (netLog v.log = (netLog v.log).take 7 ++ .error 1 1 :: (netLog v.log).drop 8) && tcpReceived 1 ((netLog v.log).drop 8) == [] &&
      ((netLog v.log).take 7 ++ (netLog v.log).drop 8).all fun e => match e with
        | .error _ _ => false
        | _ => true)
    (fun t op h => by
      simp only [Bool.and_eq_true] at h
      exact ⟨freshChk_spec t op h.1, noEofChk_spec t op h.2⟩) (by decide +kernel)
  exact ⟨v, h⟩

end Modbus.Props
