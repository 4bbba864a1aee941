import Verif.Lemmas.ServerStackServe
import Verif.Lemmas.AsioOne
import Verif.Props.AsioServer
import Mathlib.Data.List.Sublists

/-! C93 – C99: the whole server, from the bytes its clients send to the bytes they receive. -/

namespace Modbus.Props

open Modbus.Spec Modbus.Svk

variable {W : Type}

/-! ### Concrete histories -/

/-- Runs a history, checking every step of the connections. -/
def vdemo (chk : Asv → Asv.Op → Bool) (max : UInt32) (ops : List Svk.Op) (Q : Svk Nat → Bool) : Bool :=
  match (Svk.init 0 max).run (demo 0) ops with
  | .ub => false
  | .ret v => v.steps.all (fun x => chk x.1 x.2) && Q v

theorem vdemo_run {chk : Asv → Asv.Op → Bool} {P : Asv → Asv.Op → Prop} (hc : ∀ v op, chk v op = true → P v op) {max : UInt32} {ops : List Svk.Op}
    {Q : Svk Nat → Bool} (h : vdemo chk max ops Q = true) : ∃ v, VReach (demo 0) 0 max v ∧ VThroughout P v ∧ Q v = true := by
  unfold vdemo at h
  cases hr : (Svk.init 0 max).run (demo 0) ops with
  | ub => rw [hr] at h; cases h
  | ret v =>
    rw [hr] at h
    simp only [Bool.and_eq_true, List.all_eq_true] at h
    exact ⟨v, Svk.run_reach ops .init hr, fun x hx => hc _ _ (h.1 x hx), h.2⟩

theorem any_vdemo {max : UInt32} {ops : List Svk.Op} {Q : Svk Nat → Bool} (h : vdemo (fun _ _ => true) max ops Q = true) :
    ∃ v, VReach (demo 0) 0 max v ∧ Q v = true := by
  obtain ⟨v, h1, -, h2⟩ := vdemo_run (P := fun _ _ => True) (fun _ _ _ => trivial) h
  exact ⟨v, h1, h2⟩

/-- Has the outcome "undefined behaviour". -/
def undefined {α : Type} : CM α → Bool
  | .ub => true
  | .ret _ => false

theorem undefined_eq {α : Type} {x : CM α} (h : undefined x = true) : x = .ub := by
  cases x with
  | ub => rfl
  | ret a => cases h

/-- Started once, and clients wait for their answers. -/
def goodChk (v : Asv) (op : Asv.Op) : Bool := singleChk v op && patientClientsChk v op

theorem goodChk_spec (v : Asv) (op : Asv.Op) (h : goodChk v op = true) : SingleStart v op ∧ PatientClients v op := by
  simp only [goodChk, Bool.and_eq_true] at h
  exact ⟨singleChk_spec v op h.1, patientClientsChk_spec v op h.2⟩

/-- Content of a new buffer. -/
def vmem : Vector UInt8 260 := Vector.replicate 260 0

/-- Runs the oldest queued task. -/
def vrun : Svk.Op := .run 0 vmem

/-- A started server with session 0 for unit 1; a client connects.  Then the operations in progress are reading from connection 0 and
accepting connection 1, and nothing is queued. -/
def vconnected : List Svk.Op :=
  [.chan .start, .chan (.addSession 1 0), .chan .runTask, .chan .runTask, vrun, .complete 0 .ok, vrun, vrun]

/-- "Read two registers", as a frame. -/
def vread : List UInt8 := [1, 2, 0, 0, 0, 6, 1, 3, 0, 16, 0, 2]

/-- "Write coil 16", as a frame. -/
def vwrite : List UInt8 := [0, 5, 0, 0, 0, 6, 1, 5, 0, 16, 255, 0]

/-- The answer to the first `vread`. -/
def vanswer : List UInt8 := [1, 2, 0, 0, 0, 7, 1, 3, 4, 0, 0, 0, 0]

/-! ### C93 -/

/-- Nothing a client, the network or the user's calls can do makes the server's behaviour undefined. -/
def C93_Statement : Prop := ∀ (W : Type) (env : ServerEnv W) w max v, VReach env w max v → ∀ op, ∃ v', v.step env op = .ret v'

/-- C93 does not hold: a client that sends two requests without waiting (in one segment, even) makes the server free the first answer
while it is being written. -/
theorem C93_pipelining_client : ∃ v, VReach (demo 0) 0 5 v ∧ VThroughout SingleStart v ∧ v.step (demo 0) (.complete 1 (.sent 13)) = .ub := by
  obtain ⟨v, h1, h2, h3⟩ := vdemo_run singleChk_spec (max := 5) (ops := vconnected ++ [.complete 0 (.data (vread ++ vread)), vrun])
    (Q := fun v => undefined (v.step (demo 0) (.complete 1 (.sent 13)))) (by decide +kernel)
  exact ⟨v, h1, h2, undefined_eq h3⟩

theorem C93_violated : ¬C93_Statement := by
  intro h
  obtain ⟨v, h1, -, h2⟩ := C93_pipelining_client
  obtain ⟨v', h3⟩ := h _ _ _ _ v h1 (.complete 1 (.sent 13))
  rw [h2] at h3; cases h3

/-- A second way: the channel is started three times; then the server may look for the oldest connection in an empty list. -/
theorem C93_front_of_empty : ∃ v, VReach (demo 0) 0 0 v ∧ v.step (demo 0) vrun = .ub := by
  obtain ⟨v, h1, h2⟩ := any_vdemo (max := 0) (ops := [.chan .start, .chan .start, .chan .start, .chan .runTask, .chan .runTask, .chan .runTask, vrun, vrun, vrun,
      .complete 2 .ok, vrun, .complete 2 .error, vrun, vrun, vrun, vrun, vrun, .complete 1 .error, vrun, .complete 1 .error, vrun, .complete 0 .ok, vrun])
    (Q := fun v => undefined (v.step (demo 0) vrun)) (by decide +kernel)
  exact ⟨v, h1, undefined_eq h2⟩

/-- C93 (part): if the channel is started once, writes are not partial and clients wait for each answer before the next request, every
step is defined.  Missing from C93: pipelining clients and partial writes (the answer being written is freed), starting more than once, a
limit of 2^32-1. -/
theorem C93_defined_partial (env : ServerEnv W) (w : W) (max : UInt32) (hmax : max.toNat < 4294967295) (v : Svk W) (h : VReach env w max v)
    (hp : VThroughout (fun a op => SingleStart a op ∧ PatientClients a op) v) (op : Svk.Op) : ∃ v', v.step env op = .ret v' := by
  have hok := h.ok
  have hall := (C64_server_whole_frames_partial max hmax v.asv (hok.asv.mono fun a o hx => hp _ hx)).2.1
  cases hs : v.step env op with
  | ret v' => exact ⟨v', rfl⟩
  | ub =>
    rcases Svk.step_ub hok hs with ⟨i, r, -, hu⟩ | ⟨k, mem, c, -, -, hu⟩
    · obtain ⟨a, ha⟩ := hall (.complete i r); rw [hu] at ha; cases ha
    · obtain ⟨a, ha⟩ := hall (.run k []); rw [hu] at ha; cases ha

/-- C93 (part), always: API calls, receiving and parsing any bytes, calling sessions, answering, errors, closing and shutting down are
defined, whatever clients do; only completed writes and accepting connections are not covered. -/
theorem C93_receiving_partial (env : ServerEnv W) (w : W) (max : UInt32) (v : Svk W) (h : VReach env w max v) (op : Svk.Op)
    (h1 : ∀ i n c b d, op = .complete i (.sent n) → v.asv.flying[i]? ≠ some (.write c b d))
    (h2 : ∀ k mem c, op = .run k mem → v.asv.queue[k]? ≠ some (.accepted c true)) : ∃ v', v.step env op = .ret v' := by
  cases hs : v.step env op with
  | ret v' => exact ⟨v', rfl⟩
  | ub =>
    exfalso
    rcases Svk.step_ub h.ok hs with ⟨i, r, rfl, hu⟩ | ⟨k, mem, c, rfl, hk, hu⟩
    · rcases Asv.step_ub hu with ⟨i', n, c, b, d, ho, hf, -⟩ | ⟨k, rs, c, ho, -⟩
      · injection ho with e1 e2; subst e1 e2
        exact h1 i n c b d rfl hf
      · cases ho
    · exact h2 k mem c rfl hk

/- A client asks, is answered, and asks again. -/
example : ∃ v, VReach (demo 0) 0 5 v ∧ VThroughout (fun a op => SingleStart a op ∧ PatientClients a op) v ∧
    (asvWires 0 (cnLog v.log) == [vanswer, [1, 2, 0, 0, 0, 7, 1, 3, 4, 0, 1, 0, 1]]) = true :=
  vdemo_run goodChk_spec (ops := vconnected ++ [.complete 0 (.data vread), vrun, .complete 1 (.sent 13), vrun, .complete 1 (.data vread), vrun, .complete 1 (.sent 13)])
    (by decide +kernel)

/-! ### C94 -/

/-- Whatever a session is asked, a Modbus frame in the bytes received on some connection asks. -/
def C94_Statement : Prop := ∀ (W : Type) (env : ServerEnv W) w max v, VReach env w max v → ∀ s k r, SEv.request s k r ∈ svLog v.log →
  ∃ c fs pend f, Splits (asvReceived c (cnLog v.log)).flatten fs pend ∧ f ∈ fs ∧ f.isModbus = true ∧ Denotes k f.body r

/-- The header of a frame with a 12-byte body. -/
def vheader : List UInt8 := [0, 9, 0, 0, 0, 13, 1]

/-- The header of a frame is received; then an earlier answer turns out not to be deliverable, just before the frame's body is received
(everything is handled in the order in which it happened). -/
def vresync : List Svk.Op :=
  vconnected ++ [.complete 0 (.data vread), vrun, .complete 2 (.data vheader), vrun, .complete 1 .error, .complete 1 (.data vwrite), vrun, vrun]

/-- C94 does not hold: if writing an answer fails, the parser starts afresh, but data that has been read already is still handed to it: the
body of a frame is taken for a frame, and a session is asked to write a coil although no client asked for that. -/
theorem C94_body_taken_for_frame : ∃ v, VReach (demo 0) 0 5 v ∧ (asvReceived 0 (cnLog v.log) == [vread, vheader, vwrite] && asvReceived 1 (cnLog v.log) == [] &&
    decide (∀ e ∈ cnLog v.log, ∀ c ∈ [e].filterMap (fun e => match e with | .receive c _ => some c | _ => none), c = 0) &&
    decide (SEv.request 0 .writeSingleCoil ⟨16, true⟩ ∈ svLog v.log)) = true :=
  any_vdemo (ops := vresync) (by decide +kernel)

theorem C94_violated : ¬C94_Statement := by
  intro h
  obtain ⟨v, hv, hq⟩ := C94_body_taken_for_frame
  simp only [Bool.and_eq_true, beq_iff_eq, decide_eq_true_eq] at hq
  obtain ⟨⟨⟨h1, -⟩, h2⟩, h3⟩ := hq
  obtain ⟨c, fs, pend, f, a1, a2, a3, a4⟩ := h _ _ _ _ v hv _ _ _ h3
  have hc : c = 0 := by
    by_contra hc
    have : asvReceived c (cnLog v.log) = [] := by
      simp only [asvReceived, List.filterMap_eq_nil_iff]
      intro e he
      cases e with
      | receive c' d =>
        have := h2 _ he c' (by simp)
        subst this
        simp [Ne.symm hc]
      | _ => rfl
    rw [this] at a1
    obtain ⟨rfl, -⟩ := splits_unique a1 (splits_streamOf (fs := []) (by simp))
    cases a2
  subst hc
  rw [h1] at a1
  have hs : ([vread, vheader, vwrite] : List (List UInt8)).flatten =
      streamOf [⟨0x0102, 0, 6, 1, [3, 0, 16, 0, 2]⟩, ⟨9, 0, 13, 1, vwrite⟩] := by decide +kernel
  rw [hs] at a1
  obtain ⟨rfl, -⟩ := splits_unique a1 (splits_streamOf (by simp [Spec.Frame.Complete, vwrite]))
  simp only [List.mem_cons, List.not_mem_nil, or_false] at a2
  rcases a2 with rfl | rfl
  · obtain ⟨rest, hr⟩ := denotes_head a4; revert hr; simp [Spec.fc]
  · obtain ⟨rest, hr⟩ := denotes_head a4; revert hr; simp [Spec.fc, vwrite]

/-- C94 (part): whatever a session is asked is asked by a message taken from some connection; if nothing has failed on that connection
yet, the message is the body of a Modbus frame in the bytes received there (if that frame has a legal size).  Missing from C94: data
handled after an error on its connection, and oversize frames (C18). -/
theorem C94_asked_by_frames_partial (env : ServerEnv W) (w : W) (max : UInt32) (v : Svk W) (h : VReach env w max v) (s : SessId) (k : Kind) (r : Req k)
    (hm : SEv.request s k r ∈ svLog v.log) : ∃ c m, m ∈ msgsOf c (svLog v.log) ∧ Denotes k m.data r ∧
      (AEv.error c ∉ cnLog v.log → ∃ fs pend f, Splits (asvReceived c (cnLog v.log)).flatten fs pend ∧ f ∈ fs ∧ f.isModbus = true ∧ f.unit = m.unit ∧ f.tid = m.tid ∧
        (f.Fits → Denotes k f.body r)) := by
  have hok := h.ok
  rw [hok.svl] at hm ⊢
  rw [hok.cnl]
  obtain ⟨c, m, h1, h2⟩ := hok.sreach.requests hm
  have h3 := (C02_accepts_iff_denotes k m.data r).1 h2
  refine ⟨c, m, h1, h3, fun herr => ?_⟩
  obtain ⟨g1, g2⟩ := hok.frm c herr
  cases hl : v.srv.listeners.lookup c with
  | none => rw [(g1 hl).2] at h1; cases h1
  | some p =>
    obtain ⟨mem, hmem, hf⟩ := g2 p hl
    obtain ⟨fs, pend, b1, fs', b2, b3⟩ := C18_delivered_from_frame_partial env.pol mem hmem _ _ ⟨p, hf⟩
    have key : ∀ (fs' : List Frame) (ms : List Mbap), List.Forall₂ (fun f m => m.unit = f.unit ∧ m.tid = f.tid ∧ f.isModbus = true ∧ (f.Fits → m.data = f.body) ∧
        (env.pol = .truncate → m.data = f.body.take 253)) fs' ms → m ∈ ms → ∃ f ∈ fs', m.unit = f.unit ∧ m.tid = f.tid ∧ f.isModbus = true ∧ (f.Fits → m.data = f.body) := by
      intro fs' ms hfa
      induction hfa with
      | nil => intro hx; cases hx
      | cons hx _ ih =>
        intro hmm
        rcases List.mem_cons.1 hmm with rfl | hmm
        · exact ⟨_, by simp, hx.1, hx.2.1, hx.2.2.1, hx.2.2.2.1⟩
        · obtain ⟨f, hf, hr⟩ := ih hmm
          exact ⟨f, by simp [hf], hr⟩
    obtain ⟨f, c1, c2, c3, c4, c5⟩ := key _ _ b3 h1
    exact ⟨fs, pend, f, b1, b2.subset c1, c4, c2.symm, c3.symm, fun hfit => by rw [← c5 hfit]; exact h3⟩

example : ∃ v, VReach (demo 0) 0 5 v ∧ (decide (SEv.request 0 .readHoldingRegisters ⟨16, 2⟩ ∈ svLog v.log) && decide (AEv.error 0 ∉ cnLog v.log)) = true :=
  any_vdemo (ops := vconnected ++ [.complete 0 (.data vread), vrun]) (by decide +kernel)

/-! ### C95 -/

/-- C95. The answers handed to a connection are replies to messages received on that very connection (transaction and unit ids included),
in order, at most one each; whatever goes out on the connection is (the beginning of) one of those. -/
theorem C95_own_answers (env : ServerEnv W) (w : W) (max : UInt32) (v : Svk W) (h : VReach env w max v) (c : Nat) :
    (∃ ms, ms.Sublist (msgsOf c (svLog v.log)) ∧ List.Forall₂ Replies ms (asvAsked c (cnLog v.log))) ∧
    ∀ d, AEv.wire c d ∈ cnLog v.log → ∃ m bytes, m ∈ msgsOf c (svLog v.log) ∧ Replies m bytes ∧ bytes ∈ asvAsked c (cnLog v.log) ∧ d <+: bytes := by
  have hok := h.ok
  rw [hok.svl, hok.cnl]
  have h1 := C23_at_most_one_response env v.srv hok.sreach c
  rw [← hok.asked c] at h1
  refine ⟨h1, fun d hd => ?_⟩
  have hsb := hok.asv.sb
  obtain ⟨x, hx, hp⟩ := hsb.wire c d hd
  have ha := hsb.sub c x hx
  have hmem : x ∈ asvAsked c v.asv.log := List.mem_filterMap.2 ⟨_, ha, by simp⟩
  obtain ⟨ms, h2, h3⟩ := h1
  have key : ∀ (ms : List Mbap) (bs : List (List UInt8)), List.Forall₂ Replies ms bs → x ∈ bs → ∃ m ∈ ms, Replies m x := by
    intro ms bs hfa
    induction hfa with
    | nil => intro hx; cases hx
    | cons hr _ ih =>
      intro hm
      rcases List.mem_cons.1 hm with rfl | hm
      · exact ⟨_, by simp, hr⟩
      · obtain ⟨m, h1, h2⟩ := ih hm; exact ⟨m, by simp [h1], h2⟩
  obtain ⟨m, c1, c2⟩ := key _ _ h3 hmem
  exact ⟨m, x, h2.subset c1, c2, hmem, hp⟩

/- Two clients ask the same; each receives its answer, one of them only the beginning. -/
example : ∃ v, VReach (demo 0) 0 5 v ∧ (asvWires 0 (cnLog v.log) == [vanswer.take 4] && asvWires 1 (cnLog v.log) == [[0, 7, 0, 0, 0, 7, 1, 3, 4, 0, 1, 0, 1]] &&
    msgsOf 1 (svLog v.log) == [⟨1, 7, [3, 0, 16, 0, 2]⟩]) = true :=
  any_vdemo (ops := vconnected ++ [.complete 1 .ok, vrun, .complete 0 (.data vread), .run 1 vmem, .complete 0 (.data [0, 7, 0, 0, 0, 6, 1, 3, 0, 16, 0, 2]), .run 1 vmem,
    .complete 0 (.sent 4), .complete 1 (.sent 13)]) (by decide +kernel)

/-! ### C96 -/

/-- The bytes going out on a connection are whole answers, in order (the last one possibly still incomplete). -/
def C96_Statement : Prop := ∀ (W : Type) (env : ServerEnv W) w max v, VReach env w max v → ∀ c,
  ∃ bs : List (List UInt8), bs.Sublist (asvAsked c (cnLog v.log)) ∧ (asvWires c (cnLog v.log)).flatten <+: bs.flatten

/-- C96 does not hold: when the network takes only part of an answer, the rest is never sent, and the next answer follows. -/
theorem C96_torn_answer : ∃ v, VReach (demo 0) 0 5 v ∧ VThroughout SingleStart v ∧ (asvAsked 0 (cnLog v.log) == [vanswer, [1, 2, 0, 0, 0, 7, 1, 3, 4, 0, 1, 0, 1]] &&
    asvWires 0 (cnLog v.log) == [vanswer.take 4, [1, 2, 0, 0, 0, 7, 1, 3, 4, 0, 1, 0, 1]]) = true :=
  vdemo_run singleChk_spec (ops := vconnected ++ [.complete 0 (.data vread), vrun, .complete 1 (.sent 4), vrun, .complete 1 (.data vread), vrun, .complete 1 (.sent 13)])
    (by decide +kernel)

theorem C96_violated : ¬C96_Statement := by
  intro h
  obtain ⟨v, hv, -, hq⟩ := C96_torn_answer
  simp only [Bool.and_eq_true, beq_iff_eq] at hq
  obtain ⟨bs, h1, h2⟩ := h _ _ _ _ v hv 0
  rw [hq.1, ← List.mem_sublists] at h1
  rw [hq.2] at h2
  revert bs
  decide +kernel

theorem forall2_sublist {α β : Type} {R : α → β → Prop} {xs : List α} {ys : List β} (h : List.Forall₂ R xs ys) : ∀ {zs : List β}, zs.Sublist ys →
    ∃ ws, ws.Sublist xs ∧ List.Forall₂ R ws zs := by
  induction h with
  | nil => intro zs hz; cases hz; exact ⟨[], .slnil, .nil⟩
  | @cons x y xs ys hxy _ ih =>
    intro zs hz
    cases hz with
    | cons _ hz => obtain ⟨ws, h1, h2⟩ := ih hz; exact ⟨ws, h1.cons _, h2⟩
    | cons_cons _ hz => obtain ⟨ws, h1, h2⟩ := ih hz; exact ⟨x :: ws, h1.cons_cons _, .cons hxy h2⟩

/-- C96 (part): on a connection whose client waits for each answer before the next request and whose writes are not partial, the client
receives, in order, whole replies to its own messages, at most one each, whatever happens on the other connections.  Missing from C96:
partial writes and pipelining on the connection itself. -/
theorem C96_whole_answers_partial (env : ServerEnv W) (w : W) (max : UInt32) (v : Svk W) (h : VReach env w max v) (c : Nat) (hp : VThroughout (PatientClient c) v) :
    ∃ ms, ms.Sublist (msgsOf c (svLog v.log)) ∧ List.Forall₂ Replies ms (asvWires c (cnLog v.log)) := by
  have hok := h.ok
  have hr : AsvReach max (PatientClient c) v.asv := hok.asv.mono fun a o hx => hp _ hx
  obtain ⟨ms, h1, h2⟩ := (C95_own_answers env w max v h c).1
  rw [hok.cnl] at h2 ⊢
  obtain ⟨ws, h3, h4⟩ := forall2_sublist h2 hr.wiresAsked
  exact ⟨ws, h3.trans h1, h4⟩

/-- Checks that the client of connection `c` waits for its answers. -/
def patientClientChk (c : Nat) (v : Asv) : Asv.Op → Bool
  | .run k rs => match v.queue[k]? with
    | some (.read c' (some _)) => c' != c || rs == [] || (rs.length == 1 && !(v.flying.any (Asv.isW c)) && !(v.queue.any (Asv.isWr c)))
    | _ => true
  | .complete i (.sent n) => match v.flying[i]? with
    | some (.write c' _ d) => c' != c || n == d.length
    | _ => true
  | _ => true

theorem patientClientChk_spec (c : Nat) (v : Asv) (op : Asv.Op) (h : patientClientChk c v op = true) : PatientClient c v op := by
  refine ⟨fun k bytes rs hop hk => ?_, fun i n b d hop hf => ?_⟩
  · subst hop
    simp only [patientClientChk, hk, bne_self_eq_false, Bool.false_or, Bool.or_eq_true, Bool.and_eq_true, beq_iff_eq, Bool.not_eq_true', List.any_eq_false] at h
    rcases h with h | ⟨⟨h1, h2⟩, h3⟩
    · exact Or.inl h
    · refine Or.inr ⟨?_, ?_⟩
      · match rs, h1 with
        | [d], _ => exact ⟨d, rfl⟩
      · rintro (⟨b, d, hm⟩ | ⟨ok, hm⟩)
        · exact h2 _ hm (by simp [Asv.isW])
        · exact h3 _ hm (by simp [Asv.isWr])
  · subst hop
    simpa [patientClientChk, hf] using h

/- Client 0 waits for each answer; client 1 sends two requests at once, and only the beginnings of the answers go out. -/
example : ∃ v, VReach (demo 0) 0 5 v ∧ VThroughout (PatientClient 0) v ∧ (asvWires 0 (cnLog v.log) == [vanswer, [1, 2, 0, 0, 0, 7, 1, 3, 4, 0, 3, 0, 3]] &&
    asvAsked 1 (cnLog v.log) == [[1, 2, 0, 0, 0, 7, 1, 3, 4, 0, 1, 0, 1], [1, 2, 0, 0, 0, 7, 1, 3, 4, 0, 2, 0, 2]] && asvWires 1 (cnLog v.log) == [[1, 2, 0, 0]]) = true :=
  vdemo_run (patientClientChk_spec 0) (ops := vconnected ++ [.complete 1 .ok, vrun, .complete 0 (.data vread), .run 1 vmem, .complete 1 (.sent 13), .run 1 vmem, .complete 0 (.data (vread ++ vread)), .run 1 vmem,
    .complete 2 (.sent 4), .run 1 vmem, .complete 0 (.data vread), .run 1 vmem, .complete 2 (.sent 13)]) (by decide +kernel)

/-! ### C97 -/

/-- When the channel has been shut down and everything queued has been handled, every connection is closed and no operation is in
progress. -/
def C97_Statement : Prop := ∀ (W : Type) (env : ServerEnv W) w max v, VReach env w max v → SEv.serverShutdown ∈ svLog v.log → v.asv.queue = [] →
  v.asv.flying = [] ∧ ∀ c, (v.asv.conns c).isOpen = false

/-- A channel with limit 1 is started twice; the connection evicted for the second client is one not accepted yet; it is accepted
afterwards, without being in the server's list. -/
def vforgotten : List Svk.Op :=
  [.chan .start, .chan .start, .chan .runTask, .chan .runTask, vrun, vrun, .complete 1 .ok, vrun, vrun, .complete 2 .ok, vrun, vrun, vrun, .complete 0 .ok, vrun,
    .chan .shutdown, .chan .runTask] ++ List.replicate 20 vrun

/-- C97 does not hold: started twice, the server loses track of a connection and never closes it. -/
theorem C97_never_closed : ∃ v, VReach (demo 0) 0 1 v ∧ (decide (SEv.serverShutdown ∈ svLog v.log) && v.asv.queue == [] && (v.asv.conns 0).isOpen && v.asv.flying == [.read 0]) = true :=
  any_vdemo (ops := vforgotten) (by decide +kernel)

theorem C97_violated : ¬C97_Statement := by
  intro h
  obtain ⟨v, hv, hq⟩ := C97_never_closed
  simp only [Bool.and_eq_true, beq_iff_eq, decide_eq_true_eq] at hq
  have := (h _ _ _ _ v hv hq.1.1.1 hq.1.1.2).1
  rw [hq.2] at this; cases this

/-- C97 (part): if the channel was started once, then after its shutdown whatever is queued comes to an end (each task is run once, in
order; nothing else needs to happen), and then every connection is closed and no operation is in progress.  Missing from C97: starting
more than once, a limit of 2^32-1. -/
theorem C97_all_closed_partial (env : ServerEnv W) (w : W) (max : UInt32) (hmax : max.toNat < 4294967295) (v : Svk W) (h : VReach env w max v)
    (hst : VThroughout SingleStart v) (hd : SEv.serverShutdown ∈ svLog v.log) (mem : Vector UInt8 260) :
    (v.asv.queue = [] → v.asv.flying = [] ∧ ∀ c, (v.asv.conns c).isOpen = false) ∧
    ∃ n v', v.run env (List.replicate n (.run 0 mem)) = .ret v' ∧ v'.asv.queue = [] ∧ v'.asv.flying = [] ∧ ∀ c, (v'.asv.conns c).isOpen = false := by
  have fin : ∀ v : Svk W, VReach env w max v → VThroughout SingleStart v → v.asv.isShutdown = true → v.asv.queue = [] → v.asv.flying = [] ∧ ∀ c, (v.asv.conns c).isOpen = false :=
    fun v h hst hd hq => AsvReach.drained hmax (h.ok.asv.mono fun a o hx => hst _ hx) hd hq
  have step2 : ∀ v : Svk W, VReach env w max v → VThroughout SingleStart v → v.asv.isShutdown = true →
      ∃ n v', v.run env (List.replicate n (.run 0 mem)) = .ret v' ∧ v'.asv.queue = [] ∧ v'.asv.flying = [] ∧ ∀ c, (v'.asv.conns c).isOpen = false := by
    intro v h hst hd
    obtain ⟨n, v', h1, h2, h3, h4⟩ := Svk.drain mem _ h hd (Nat.le_refl _)
    exact ⟨n, v', h1, h3, fin v' (Svk.run_reach _ h h1) (h4 hst) h2 h3⟩
  rw [h.ok.svl] at hd
  have ht := h.told hd
  refine ⟨fun hq => ?_, ?_⟩
  · rw [hq] at ht
    exact fin v h hst (ht.resolve_right (by simp)) hq
  · rcases ht with ht | ht
    · exact step2 v h hst ht
    · obtain ⟨pre, post, hq⟩ := List.append_of_mem ht
      obtain ⟨v1, a1, a2, a3⟩ := Svk.reach_shutdown hmax mem pre h hst ⟨post, hq⟩
      obtain ⟨n, v', b1, b2⟩ := step2 v1 (Svk.run_reach _ h a1) a3 a2
      refine ⟨pre.length + 1 + n, v', ?_, b2⟩
      rw [List.replicate_add, Svk.run_append, a1]
      exact b1

/-- C97, nothing is served after shutdown: once the channel has been shut down, whatever still arrives, no session is called and nothing
is answered. -/
theorem C97_nothing_served (env : ServerEnv W) (w : W) (max : UInt32) (v : Svk W) (h : VReach env w max v) (hd : v.srv.isShutdown = true) (ops : List Svk.Op) (v' : Svk W)
    (hr : v.run env ops = .ret v') : v'.srv.isShutdown = true ∧ v'.srv.world = v.srv.world ∧ ∃ new, v'.log = v.log ++ new ∧
      ∀ e ∈ new, (∀ s k r, e ≠ .ch (.request s k r)) ∧ (∀ c d, e ≠ .ch (.send c d)) ∧ ∀ c d, e ≠ .net (.asked c d) := by
  have main : ∀ (ops : List Svk.Op) (v : Svk W), VReach env w max v → v.srv.isShutdown = true → v.run env ops = .ret v' → v'.srv.isShutdown = true ∧ v'.srv.world = v.srv.world ∧
      (∃ new, v'.log = v.log ++ new) ∧ ∃ new, v'.srv.log = v.srv.log ++ new ∧ ∀ e ∈ new, ∃ c m, e = .mbap c m := by
    intro ops
    induction ops with
    | nil => intro v h hd hr; injection hr with hr; subst hr; exact ⟨hd, rfl, ⟨[], by simp⟩, [], by simp, by simp⟩
    | cons op ops ih =>
      intro v h hd hr
      simp only [Svk.run] at hr
      cases hs : v.step env op with
      | ub => rw [hs] at hr; cases hr
      | ret u =>
        rw [hs] at hr
        simp only [CM.ret_bind] at hr
        obtain ⟨hsrv, ⟨es, hes⟩, -, -⟩ := Svk.step_info h.ok hs
        have hu : u.srv.isShutdown = true ∧ u.srv.world = v.srv.world ∧ ∃ new, u.srv.log = v.srv.log ++ new ∧ ∀ e ∈ new, ∃ c m, e = .mbap c m := by
          rcases hsrv with he | ⟨o, ho⟩
          · rw [he]; exact ⟨hd, rfl, [], by simp, by simp⟩
          · obtain ⟨b1, -, b2, b3⟩ := C31_nothing_after_shutdown env v.srv u.srv h.ok.sreach hd [o] (by simp [Srv.run, ho])
            exact ⟨b1, b2, b3⟩
        obtain ⟨c1, c2, n1, c3, c4⟩ := hu
        obtain ⟨d1, d2, ⟨es', hes'⟩, n2, d3, d4⟩ := ih u (h.step hs) c1 hr
        refine ⟨d1, d2.trans c2, ⟨es ++ es', by rw [hes', hes, List.append_assoc]⟩, n1 ++ n2, by rw [d3, c3, List.append_assoc], ?_⟩
        intro e he
        rcases List.mem_append.1 he with he | he
        · exact c4 e he
        · exact d4 e he
  obtain ⟨m1, m2, ⟨new, m3⟩, n, m4, m5⟩ := main ops v h hd hr
  have hok := h.ok
  have hok' := (Svk.run_reach ops h hr).ok
  have e1 : svLog new = n := by
    have := hok'.svl
    rw [m3, Svk.svLog_append, hok.svl, m4] at this
    exact List.append_cancel_left this
  have e2 : ∀ c, asvAsked c (cnLog new) = [] := by
    intro c
    have := hok'.asked c
    rw [← hok'.cnl, m3, Svk.cnLog_append, Asv.asked_append, hok.cnl, hok.asked c, m4, sendsOf_append] at this
    have h2 : sendsOf c n = [] := by
      simp only [sendsOf, List.filterMap_eq_nil_iff]
      intro e he
      obtain ⟨c', m, rfl⟩ := m5 e he
      rfl
    rw [h2] at this
    exact List.append_cancel_left this
  refine ⟨m1, m2, new, m3, fun e he => ⟨?_, ?_, ?_⟩⟩
  · rintro s k r rfl
    have : SEv.request s k r ∈ svLog new := List.mem_filterMap.2 ⟨_, he, rfl⟩
    rw [e1] at this
    obtain ⟨c, m, hx⟩ := m5 _ this
    cases hx
  · rintro c d rfl
    have : SEv.send c d ∈ svLog new := List.mem_filterMap.2 ⟨_, he, rfl⟩
    rw [e1] at this
    obtain ⟨c, m, hx⟩ := m5 _ this
    cases hx
  · rintro c d rfl
    have h1 : AEv.asked c d ∈ cnLog new := List.mem_filterMap.2 ⟨_, he, rfl⟩
    have h2 : d ∈ asvAsked c (cnLog new) := List.mem_filterMap.2 ⟨_, h1, by simp⟩
    rw [e2 c] at h2; cases h2

/- A server with a client is shut down while a request is waiting to be handled. -/
example : ∃ v, VReach (demo 0) 0 5 v ∧ VThroughout SingleStart v ∧ (decide (SEv.serverShutdown ∈ svLog v.log) && v.srv.isShutdown &&
    v.asv.queue == [.read 0 (some vread), .shutdown] && v.asv.flying == [.accept 1] && (v.asv.conns 0).isOpen) = true :=
  vdemo_run singleChk_spec (ops := vconnected ++ [.complete 0 (.data vread), .chan .shutdown, .chan .runTask]) (by decide +kernel)

/-! ### C98 -/

/-- C98. A request that arrives on a connection which is being read and on which whole frames (not ending with one of length 1) have arrived
so far without an error is answered: its session is called once, with exactly that request, and exactly the frame of the session's answer
goes out on that connection (when the handler has run and the write completes); then the connection is being read again. -/
theorem C98_answered (env : ServerEnv W) (w : W) (max : UInt32) (v : Svk W) (h : VReach env w max v) (i c : Nat) (hf : v.asv.flying[i]? = some (.read c))
    (herr : AEv.error c ∉ cnLog v.log) (fs : List Frame) (hsp : Splits (asvReceived c (cnLog v.log)).flatten fs []) (hl : ∀ f, fs.getLast? = some f → f.len.toNat ≠ 1)
    (m : Mbap) (hm : m.data.length ≤ 253) (s : SessId) (hs : Reaches v.srv m s) (k : Kind) (r : Req k) (hd : Denotes k m.data r) (resp : Resp k)
    (hresp : (env.onRequest s k r v.srv.world).2 = .ok resp) (p : List UInt8) (hp : ResponsePdu k resp p) (hlen : p.length ≤ 253) (mem : Vector UInt8 260) :
    ∃ v', v.run env [.complete i (.data (frameOf m).bytes), .run v.asv.queue.length mem,
        .complete (v.asv.flying.length - 1) (.sent (frameOf ⟨m.unit, m.tid, p⟩).bytes.length)] = .ret v' ∧
      svLog v'.log = svLog v.log ++ [.mbap c m, .request s k r, .send c (frameOf ⟨m.unit, m.tid, p⟩).bytes] ∧
      (∀ c', asvWires c' (cnLog v'.log) = asvWires c' (cnLog v.log) ++ if c' = c then [(frameOf ⟨m.unit, m.tid, p⟩).bytes] else []) ∧ AOp.read c ∈ v'.asv.flying := by
  have hok := h.ok
  rw [hok.cnl] at herr hsp
  have hone : 1 ≤ m.data.length := by obtain ⟨rest, hr⟩ := denotes_head hd; rw [hr]; simp
  obtain ⟨v', h1, h2, h3, h4⟩ := Svk.answered h hf herr hsp hl (m := m) ⟨hone, hm⟩ (sent := [.mbap c m, .request s k r, .send c (frameOf ⟨m.unit, m.tid, p⟩).bytes])
    (reply := (frameOf ⟨m.unit, m.tid, p⟩).bytes) (by simp [frameOf, Frame.bytes, be]) (fun ls => by
      obtain ⟨pdu, ⟨u', a1, -, a3⟩, b⟩ := C24_request_reaches_session env { v.srv with listeners := ls } c m s ⟨hs.running, hs.registered⟩ k r hd resp hresp
      rw [b p hp hlen] at a3
      exact ⟨u', a1, a3⟩) (by simp [sendsOf]) mem
  refine ⟨v', h1, h2, fun c' => ?_, by rw [h4.1]; simp⟩
  rw [h3]
  by_cases hc : c' = c
  · subst hc; simp [asvWires]
  · simp [asvWires, hc, Ne.symm hc]

/- A client that has been answered before asks again, in the presence of another client. -/
example : ∃ v, VReach (demo 0) 0 5 v ∧ (v.asv.flying[0]? == some (.read 0) && decide (AEv.error 0 ∉ cnLog v.log) && (asvReceived 0 (cnLog v.log) == [vread]) &&
    v.asv.queue == [.read 1 none] && v.srv.isShutdown == false && v.srv.sessions.lookup 1 == some 0) = true :=
  any_vdemo (ops := vconnected ++ [.complete 1 .ok, vrun, .complete 0 (.data vread), .run 1 vmem, .complete 1 (.sent 13), .run 1 vmem, vrun, .complete 0 .error]) (by decide +kernel)
example : Splits vread [⟨0x0102, 0, 6, 1, [3, 0, 16, 0, 2]⟩] [] := splits_streamOf (fs := [⟨0x0102, 0, 6, 1, [3, 0, 16, 0, 2]⟩]) (by simp [Spec.Frame.Complete])

/-! ### C99 -/

/-- C99. Connections do not disturb each other: a step that is not about connection `c` (anything another client does, API calls, accepting
and evicting) leaves `c`'s connection, its reads and writes in progress, its handlers waiting to run, everything received, answered and
sent on it, its partly received frame and the messages taken from it unchanged. -/
theorem C99_connections_independent (env : ServerEnv W) (w : W) (max : UInt32) (v v' : Svk W) (h : VReach env w max v) (op : Svk.Op) (hs : v.step env op = .ret v') (c : Nat)
    (hn : ¬Concerns v.asv c op) :
    v'.asv.conns c = v.asv.conns c ∧
    (∀ o, (o = .read c ∨ ∃ b d, o = .write c b d) → v'.asv.flying.count o = v.asv.flying.count o) ∧
    (∀ t, ((∃ r, t = .read c r) ∨ ∃ ok, t = .written c ok) → v'.asv.queue.count t = v.asv.queue.count t) ∧
    asvReceived c (cnLog v'.log) = asvReceived c (cnLog v.log) ∧ asvAsked c (cnLog v'.log) = asvAsked c (cnLog v.log) ∧
    asvSubmits c (cnLog v'.log) = asvSubmits c (cnLog v.log) ∧ asvWires c (cnLog v'.log) = asvWires c (cnLog v.log) ∧
    (AEv.error c ∈ cnLog v'.log ↔ AEv.error c ∈ cnLog v.log) ∧
    v'.srv.listeners.lookup c = v.srv.listeners.lookup c ∧ msgsOf c (svLog v'.log) = msgsOf c (svLog v.log) := by
  have hok := h.ok
  have hok' := hok.step hs
  obtain ⟨h1, h2, h3, -⟩ := Svk.step_independent hok hs hn
  obtain ⟨e1, e2, e3, e4, e5⟩ := Svk.filter_received h1.log
  rw [hok.cnl, hok'.cnl, hok.svl, hok'.svl]
  refine ⟨h1.conns, fun o ho => ?_, fun t ht => ?_, e1, e2, e3, e4, e5, h2, h3⟩
  · have hr : Asv.relOp false c o = true := by rcases ho with rfl | ⟨b, d, rfl⟩ <;> simp [Asv.relOp, Asv.opConn]
    rw [← List.count_filter hr, h1.flying, List.count_filter hr]
  · have hr : Asv.relTask false c t = true := by rcases ht with ⟨r, rfl⟩ | ⟨ok, rfl⟩ <;> simp [Asv.relTask, Asv.taskConn]
    rw [← List.count_filter hr, h1.queue, List.count_filter hr]

/- With two clients, one of which has sent half a frame: what the other one sends does not concern it. -/
example : ∃ v, VReach (demo 0) 0 5 v ∧ (v.asv.queue[1]? == some (.read 1 (some vread)) && asvReceived 0 (cnLog v.log) == [vheader]) = true :=
  any_vdemo (ops := vconnected ++ [.complete 1 .ok, vrun, .complete 0 (.data vheader), .run 1 vmem, .complete 0 (.data vread)]) (by decide +kernel)

end Modbus.Props
