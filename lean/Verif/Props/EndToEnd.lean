import Verif.Lemmas.EndToEnd
import Verif.Props.ServerLife
import Verif.Props.Db

/-!
Properties C42-C44: client channel, server channel and database together, connected by byte streams that are cut into
chunks arbitrarily.
-/

namespace Modbus.Props

open Spec

/-- Everything received so far is whole frames carrying PDUs of 1..253 bytes (received in any segmentation), so that the
next byte starts a new frame. -/
def AtBoundary (pol : CopyPolicy) (p : Parser) : Prop :=
  ∃ mem chunks out, ∃ msgs : List Mbap, mem.length = 260 ∧ (∀ m ∈ msgs, 1 ≤ m.data.length ∧ m.data.length ≤ 253) ∧
    chunks.flatten = streamOf (msgs.map frameOf) ∧ (Parser.init pol mem).feed chunks = .ret (p, out)

theorem AtBoundary.rep {pol : CopyPolicy} {p : Parser} (h : AtBoundary pol p) : Rep p [] := by
  obtain ⟨mem, chunks, out, msgs, h1, h2, h3, h4⟩ := h
  obtain ⟨p', ms, ms', pend, a1, -, a3, -, -, a6⟩ := feed_prefix (rep_init pol mem h1) msgs h2 chunks [] (by rw [List.append_nil, h3])
  rw [h4] at a1
  injection a1 with a1
  injection a1 with a1 a1'
  subst a1
  obtain ⟨-, rfl⟩ := a6 rfl
  exact a3

theorem feed_append (chunks chunks' : List (List UInt8)) : ∀ (p p1 p2 : Parser) (o1 o2 : List Mbap), p.feed chunks = .ret (p1, o1) →
    p1.feed chunks' = .ret (p2, o2) → p.feed (chunks ++ chunks') = .ret (p2, o1 ++ o2) := by
  induction chunks with
  | nil => intro p p1 p2 o1 o2 h1 h2; injection h1 with h1; injection h1 with a b; subst a b; simpa using h2
  | cons d chunks ih =>
    intro p p1 p2 o1 o2 h1 h2
    simp only [Parser.feed, List.cons_append] at h1 ⊢
    rcases hp : p.parse d with _ | ⟨p3, o3⟩
    · rw [hp] at h1; cases h1
    rw [hp] at h1
    simp only [CM.ret_bind] at h1 ⊢
    rcases hq : p3.feed chunks with _ | ⟨p4, o4⟩
    · rw [hq] at h1; cases h1
    rw [hq] at h1
    simp only [CM.ret_bind] at h1
    injection h1 with h1; injection h1 with a b; subst a b
    rw [ih p3 p4 p2 o4 o2 hq h2]
    simp

/-- From a frame boundary, one whole frame yields its message and leads to a frame boundary. -/
theorem AtBoundary.one {pol : CopyPolicy} {p : Parser} (h : AtBoundary pol p) {m : Mbap} (hm : 1 ≤ m.data.length ∧ m.data.length ≤ 253)
    {chunks : List (List UInt8)} (hc : chunks.flatten = (frameOf m).bytes) :
    ∃ p', p.feed chunks = .ret (p', [m]) ∧ AtBoundary pol p' := by
  obtain ⟨p', ms, ms', pend, a1, a2, a3, a4, a5, a6⟩ := feed_prefix h.rep [m] (by intro x hx; rw [List.mem_singleton.1 hx]; exact hm) chunks []
    (by rw [List.append_nil, hc]; simp [streamOf])
  obtain ⟨rfl, rfl⟩ := a6 rfl
  rw [List.append_nil] at a4
  subst a4
  refine ⟨p', a1, ?_⟩
  obtain ⟨mem, chunks0, out0, msgs0, h1, h2, h3, h4⟩ := h
  refine ⟨mem, chunks0 ++ chunks, _, msgs0 ++ [m], h1, ?_, ?_, feed_append _ _ _ _ _ _ _ h4 a1⟩
  · intro x hx
    rcases List.mem_append.1 hx with hx | hx
    · exact h2 x hx
    · rw [List.mem_singleton.1 hx]; exact hm
  · rw [List.flatten_append, h3, hc, List.map_append, streamOf_append]
    simp [streamOf]

/-- A running server channel with session `s` registered for `unit`, where `s` is a session of the in-memory database, and a
connection `c` at a frame boundary. -/
structure Ready (env : ServerEnv Db) (v : Srv Db) (c : ConnId) (unit : UInt8) (s : SessId) : Prop where
  running : v.isShutdown = false
  registered : v.sessions.lookup unit = some s
  connected : ∃ p, v.listeners.lookup c = some p ∧ AtBoundary env.pol p
  reachable : DbReach v.world
  backed : ∀ (k : Kind) (r : Req k) (db : Db), DbReach db → db.onRequest k r = .ret (env.onRequest s k r db)

/-- Request `u` (number of the call) for `unit` is on the wire as `bytes` and waits for its answer, on a connection at a frame
boundary. -/
structure Waits (env : ClientEnv) (v : Cli) (u : Nat) (unit : UInt8) (q : AnyReq) (bytes : List UInt8) : Prop where
  reachable : CReach env v
  running : CEv.tcpShutdown ∉ v.log
  called : ∃ tmo, CEv.call u unit q tmo ∈ v.log
  sent : ∃ t, CEv.sent u bytes t ∈ v.log
  unanswered : u ∉ handledUids v.log
  boundary : AtBoundary env.pol v.parser

theorem mapM_length {α β : Type} (f : α → Option β) (l : List α) : ∀ vs, l.mapM f = some vs → vs.length = l.length := by
  induction l with
  | nil => intro vs h; simp at h; subst h; rfl
  | cons a l ih =>
    intro vs h
    simp only [List.mapM_cons] at h
    cases ha : f a with
    | none => rw [ha] at h; cases h
    | some b =>
      cases hl : l.mapM f with
      | none => rw [ha, hl] at h; cases h
      | some bs =>
        rw [ha, hl] at h
        injection h with h
        subst h
        simp [ih bs hl]

/-- The database answers properly or refuses. -/
theorem serve_proper (d : Tables) (k : Kind) (q : Req k) :
    (∃ r, (serve d k q).2 = .ok r ∧ Answers k q r) ∨ (serve d k q).2 = .error (.modbus .illegalDataAddress) := by
  have key : ∀ {T α : Type} (m : Map T) (a : UInt16) (n : Nat) (label : List T → α),
      (∃ vs : List T, vs.length = n ∧ Spec.read m a n label = .ok (label vs)) ∨ Spec.read m a n label = .error (.modbus .illegalDataAddress) := by
    intro T α m a n label
    simp only [Spec.read, illegalAddress]
    split
    · cases hv : values m a n with
      | none => right; rfl
      | some vs => left; exact ⟨vs, by simpa using mapM_length _ _ vs hv, rfl⟩
    · right; rfl
  cases k
  case readCoils =>
    rcases key d.coils q.start q.qty.toNat (labelBits q.start) with ⟨vs, h1, h2⟩ | h
    · exact Or.inl ⟨_, h2, vs, h1, rfl⟩
    · exact Or.inr h
  case readDiscreteInputs =>
    rcases key d.discretes q.start q.qty.toNat (labelBits q.start) with ⟨vs, h1, h2⟩ | h
    · exact Or.inl ⟨_, h2, vs, h1, rfl⟩
    · exact Or.inr h
  case readHoldingRegisters =>
    rcases key d.holdings q.start q.qty.toNat (labelRegs q.start) with ⟨vs, h1, h2⟩ | h
    · exact Or.inl ⟨_, h2, vs, h1, rfl⟩
    · exact Or.inr h
  case readInputRegisters =>
    rcases key d.inputs q.start q.qty.toNat (labelRegs q.start) with ⟨vs, h1, h2⟩ | h
    · exact Or.inl ⟨_, h2, vs, h1, rfl⟩
    · exact Or.inr h
  all_goals
    simp only [serve]
    split
    · exact Or.inl ⟨_, rfl, trivial⟩
    · exact Or.inr rfl

/-- The frame of a request outstanding is that request's frame. -/
theorem Waits.frame {env : ClientEnv} {v : Cli} {u : Nat} {unit : UInt8} {q : AnyReq} {bytes : List UInt8}
    (h : Waits env v u unit q bytes) : ∃ r, v.current = some r ∧ r.uid = u ∧ r.unit = unit ∧ IsRequestFrame unit r.tid q bytes ∧ Allowed q := by
  obtain ⟨tmo, hcall⟩ := h.called
  obtain ⟨t, hsent⟩ := h.sent
  have hinv := h.reachable.inv.1
  obtain ⟨o, ho1, ho2⟩ := hinv.outstanding
  have hs := h.reachable.down h.running
  have := ho1 u (mem_sentUids.2 ⟨_, _, hsent⟩) h.unanswered
  rw [ho2 hs] at this
  obtain ⟨r, hr1, hr2⟩ := Option.map_eq_some_iff.1 this
  obtain ⟨c1, c2, c3⟩ := hinv.known r (by simp [hr1])
  rw [hr2] at c1
  obtain ⟨e1, e2, e3⟩ := hinv.callUnique c1 hcall
  subst e1 e2
  refine ⟨r, hr1, hr2, rfl, ?_, c2⟩
  obtain ⟨a, b, hab⟩ := List.append_of_mem hsent
  obtain ⟨-, -, -, -, -, unit', q', tmo', d1, d2, mem, d3, d4⟩ := hinv.just.at hab
  have hcl : CEv.call u unit' q' tmo' ∈ v.log := by rw [hab]; exact List.mem_append_left _ d1
  obtain ⟨rfl, rfl, rfl⟩ := hinv.callUnique hcl hcall
  have r1 := calls_prefix h.reachable hab d1
  rw [c3, hr2, r1, d4]
  exact request_frame d3 d2

/-- One exchange.  If the request's bytes reach the server in whatever chunks, the server sends exactly one frame on that
connection, the database has done what the specification says, and the server is ready again; if that frame's bytes reach the
client in whatever chunks, the request's handler is called with a PDU which the session decodes to exactly the result the
specification gives, and the client is at a frame boundary again. -/
theorem exchange (cenv : ClientEnv) (senv : ServerEnv Db) (cv : Cli) (sv : Srv Db) (c : ConnId) (s : SessId) (u : Nat) (unit : UInt8)
    (k : Kind) (q : Req k) (bytes : List UInt8) (hw : Waits cenv cv u unit ⟨k, q⟩ bytes) (hr : Ready senv sv c unit s)
    (there : List (List UInt8)) (hthere : there.flatten = bytes) :
    ∃ sv' reply, sv.run senv (there.map (.receive c)) = .ret sv' ∧ sendsOf c sv'.log = sendsOf c sv.log ++ [reply] ∧
      Ready senv sv' c unit s ∧ sv'.world.view = (serve sv.world.view k q).1 ∧
      ∀ back : List (List UInt8), back.flatten = reply →
        ∃ cv' pdu, cv.run cenv (back.map .receive) = .ret cv' ∧ CEv.handler u (.ok pdu) cv.now ∈ cv'.log ∧
          typedResult k q (.ok pdu) = .ret (serve sv.world.view k q).2 ∧ AtBoundary cenv.pol cv'.parser := by
  obtain ⟨r, hcur, rfl, rfl, ⟨pdu, hp1, hp2, hp3⟩, hq⟩ := hw.frame
  obtain ⟨p, hl, hb⟩ := hr.connected
  have hden : Denotes k pdu q := denotes_of_requestPdu hq hp1
  have hm1 : 1 ≤ pdu.length := by
    obtain ⟨rest, hrest⟩ := denotes_head hden
    rw [hrest]; simp
  obtain ⟨p', hf, hb'⟩ := hb.one (m := ⟨r.unit, r.tid, pdu⟩) ⟨hm1, hp2⟩ (chunks := there) (by rw [hthere, hp3])
  have hrun := Srv.run_receive senv c there sv p p' _ hl hf
  obtain ⟨db', hdb1, hdb2, -⟩ := Db.onRequest_spec hr.reachable.wf k q
  have hon := hr.backed k q sv.world hr.reachable
  rw [hdb1] at hon
  injection hon with hon
  have hreach' : DbReach db' := hr.reachable.snoc (op := .request k q) (r := .response k (serve sv.world.view k q).2)
    (by simp only [Db.apply, hdb1, CM.ret_bind]; rfl)
  -- the reply
  have hsess : Reaches { sv with listeners := Srv.setListener sv.listeners c p' } ⟨r.unit, r.tid, pdu⟩ s := ⟨hr.running, hr.registered⟩
  have hreply : ∃ rp, 1 ≤ rp.length ∧ rp.length ≤ 253 ∧ parseResp k q rp = .ret (serve sv.world.view k q).2 ∧
      Handles senv { sv with listeners := Srv.setListener sv.listeners c p' } c ⟨r.unit, r.tid, pdu⟩ s k q
        [.send c (frameOf ⟨r.unit, r.tid, rp⟩).bytes] := by
    rcases serve_proper sv.world.view k q with ⟨x, hx1, hx2⟩ | hx
    · obtain ⟨rp, h1, h2⟩ := C24_request_reaches_session senv { sv with listeners := Srv.setListener sv.listeners c p' } c
        ⟨r.unit, r.tid, pdu⟩ s hsess k q hden x (by simp only [← hon, hx1])
      obtain ⟨rp', g1, g2, g3⟩ := C06_response_round_trip k q x hq hx2
      obtain ⟨rp'', e1, e2⟩ := response_conformant k x
      cases emits_unique g1 e1
      obtain rfl := h2 _ e2 g2
      refine ⟨rp, ?_, g2, by rw [g3, hx1], h1⟩
      cases rp with
      | nil => rw [parseResp_nil] at g3; cases g3
      | cons a l => simp
    · have h1 := (C28_session_failures senv { sv with listeners := Srv.setListener sv.listeners c p' } c
        ⟨r.unit, r.tid, pdu⟩ s hsess k q hden (.modbus .illegalDataAddress) (by simp only [← hon, hx])).1 _ rfl
      exact ⟨_, by simp, by simp, by rw [hx]; exact (C09_exception_iff k q _ _).2 ⟨_, rfl, rfl⟩, h1⟩
  obtain ⟨rp, hrp1, hrp2, hrp3, sv', hs1, hs2, hs3⟩ := hreply
  have hsame : Srv.Same { sv with listeners := Srv.setListener sv.listeners c p' } sv' := by
    obtain ⟨v1, h1, h2⟩ := Srv.onMbap_reacts senv { sv with listeners := Srv.setListener sv.listeners c p' } c ⟨r.unit, r.tid, pdu⟩
    rw [hs1] at h1
    injection h1 with h1
    subst h1
    exact h2.same
  have hworld : sv'.world = db' := by rw [hs2, ← hon]
  refine ⟨sv', (frameOf ⟨r.unit, r.tid, rp⟩).bytes, ?_, ?_, ?_, ?_, ?_⟩
  · rw [hrun]
    simp only [Srv.onMbaps, hs1, CM.ret_bind]
  · rw [hs3]; simp [sendsOf]
  · refine ⟨hsame.isShutdown.trans hr.running, by rw [hsame.sessions]; exact hr.registered, ⟨p', ?_, hb'⟩, by rw [hworld]; exact hreach', hr.backed⟩
    rw [hsame.listeners]
    exact Srv.lookup_setListener_same _ _ _ _ hl
  · rw [hworld, hdb2]
  · intro back hback
    obtain ⟨p'', hf', hb''⟩ := hw.boundary.one (m := ⟨r.unit, r.tid, rp⟩) ⟨hrp1, hrp2⟩ (chunks := back) hback
    obtain ⟨cv', es, a1, a2, -, -, -, -, a7⟩ := Cli.run_receive cenv back cv p'' _ (hw.reachable.down hw.running) hf'
    exact ⟨cv', rp, a1, a7 _ _ r rfl hcur rfl rfl, by simp only [typedResult]; exact hrp3, by rw [a2]; exact hb''⟩

/-- All points the request addresses exist. -/
def PointsExist (d : Tables) : (k : Kind) → Req k → Prop
  | .readCoils, q => RangeExists d.coils q.start q.qty.toNat
  | .readDiscreteInputs, q => RangeExists d.discretes q.start q.qty.toNat
  | .readHoldingRegisters, q => RangeExists d.holdings q.start q.qty.toNat
  | .readInputRegisters, q => RangeExists d.inputs q.start q.qty.toNat
  | .writeSingleCoil, q => Exists d.coils q.addr
  | .writeSingleRegister, q => Exists d.holdings q.addr
  | .writeMultipleCoils, q => RangeExists d.coils q.start q.values.length
  | .writeMultipleRegisters, q => RangeExists d.holdings q.start q.values.length

instance (d : Tables) (k : Kind) (q : Req k) : Decidable (PointsExist d k q) := by
  cases k <;> (dsimp only [PointsExist]; infer_instance)

/-- **C24**, from the bytes received.  On a connection that has carried whole messages so far (`before`, cut into reads in any way,
`earlier`), the bytes of a conformant request for a registered unit, again cut into reads in any way, cause exactly one call of that
unit's session, with exactly that request, and its answer is sent. -/
theorem C24_received_request {W : Type} (env : ServerEnv W) (v v1 : Srv W) (c : ConnId) (mem : Vector UInt8 260) (hnew : v.listeners.lookup c = none)
    (before : List Mbap) (hb : ∀ m ∈ before, 1 ≤ m.data.length ∧ m.data.length ≤ 253) (earlier : List (List UInt8))
    (he : earlier.flatten = streamOf (before.map frameOf)) (h1 : v.run env (.opened c mem :: earlier.map (.receive c)) = .ret v1)
    (m : Mbap) (s : SessId) (hs : Reaches v1 m s) (hl : m.data.length ≤ 253) (k : Kind) (r : Req k) (hd : Spec.Denotes k m.data r) (resp : Resp k)
    (hresp : (env.onRequest s k r v1.world).2 = .ok resp) (chunks : List (List UInt8)) (hc : chunks.flatten = (frameOf m).bytes) :
    ∃ v' pdu, v1.run env (chunks.map (.receive c)) = .ret v' ∧ v'.world = (env.onRequest s k r v1.world).1 ∧
      v'.log = v1.log ++ [.mbap c m, .request s k r, .send c (frameOf ⟨m.unit, m.tid, pdu⟩).bytes] ∧
      ∀ p, Spec.ResponsePdu k resp p → p.length ≤ 253 → pdu = p := by
  have hm : 1 ≤ m.data.length := by obtain ⟨rest, hr⟩ := denotes_head hd; rw [hr]; simp
  -- the parser is at a frame boundary
  obtain ⟨p1, ms, ms', pend, a1, -, a3, a4, -, a6⟩ := feed_prefix (rep_init env.pol mem.toList (by simp)) before hb earlier [] (by rw [List.append_nil, he])
  obtain ⟨rfl, rfl⟩ := a6 rfl
  have hst : v.step env (.opened c mem) = .ret { v with listeners := v.listeners ++ [(c, Parser.init env.pol mem.toList)] } := by
    simp only [Srv.step, hnew]; rfl
  have hl0 : (v.listeners ++ [(c, Parser.init env.pol mem.toList)]).lookup c = some (Parser.init env.pol mem.toList) := by
    rw [List.lookup_append, hnew]; simp
  simp only [Srv.run, hst, CM.ret_bind] at h1
  rw [Srv.run_receive env c earlier _ _ p1 ms hl0 a1] at h1
  obtain ⟨w1, b1, b2⟩ := Srv.onMbaps_reacts env c ms
    { v with listeners := Srv.setListener (v.listeners ++ [(c, Parser.init env.pol mem.toList)]) c p1 }
  have e1 : w1 = v1 := by rw [b1] at h1; injection h1
  subst e1
  have hl1 : w1.listeners.lookup c = some p1 := by
    rw [b2.same.listeners]; exact Srv.lookup_setListener_same _ _ _ _ hl0
  -- it finds the request
  obtain ⟨p2, ns, ns', pend2, d1, -, d3, d4, -, d6⟩ := feed_prefix a3 [m] (by simpa using ⟨hm, hl⟩) chunks [] (by simp [hc, streamOf])
  obtain ⟨rfl, rfl⟩ := d6 rfl
  rw [List.append_nil] at d4; subst d4
  rw [Srv.run_receive env c chunks w1 p1 p2 [m] hl1 d1]
  obtain ⟨pdu, ⟨v', f1, f2, f3⟩, f4⟩ := C24_request_reaches_session env { w1 with listeners := Srv.setListener w1.listeners c p2 } c m s ⟨hs.running, hs.registered⟩ k r hd resp hresp
  refine ⟨v', pdu, ?_, f2, f3, f4⟩
  simp only [Srv.onMbaps, f1, CM.ret_bind]

/-- A first request and a second one, whose bytes come in two reads, on connection 5. -/
example : ∃ v1, demoSrv.run (demo 0) (.opened 5 (Vector.replicate 260 0) :: [(frameOf (demoRead 1)).bytes].map (.receive 5)) = .ret v1 ∧ Reaches v1 (demoRead 1) 0 ∧
    Spec.Denotes .readHoldingRegisters (demoRead 1).data ⟨16, 2⟩ ∧ ∃ resp, ((demo 0).onRequest 0 .readHoldingRegisters ⟨16, 2⟩ v1.world).2 = .ok resp := by
  obtain ⟨v1, h1, h2⟩ : ∃ v1, demoSrv.run (demo 0) (.opened 5 (Vector.replicate 260 0) :: [(frameOf (demoRead 1)).bytes].map (.receive 5)) = .ret v1 ∧ Reaches v1 (demoRead 1) 0 := by
    obtain ⟨p, hp⟩ := receive_fresh (demo 0) demoSrv 5 (Vector.replicate 260 0) rfl [demoRead 1] (by simp [demoRead])
    obtain ⟨v, hv, hr⟩ := Srv.onMbaps_reacts (demo 0) 5 [demoRead 1]
      { demoSrv with listeners := Srv.setListener (demoSrv.listeners ++ [(5, Parser.init (demo 0).pol (Vector.replicate 260 (0 : UInt8)).toList)]) 5 p }
    refine ⟨v, ?_, ⟨hr.same.isShutdown.trans rfl, by rw [hr.same.sessions]; rfl⟩⟩
    rw [hv] at hp
    simpa [streamOf] using hp
  exact ⟨v1, h1, h2, ⟨⟨by decide, by decide⟩, rfl⟩, _, rfl⟩

/-- `vs` are the `n` points from address `a` on with the values stored in `m`. -/
def BitsAt (m : UInt16 → Option Bool) (a : UInt16) (n : Nat) (vs : List BitVal) : Prop :=
  vs.length = n ∧ ∀ i, (h : i < vs.length) → vs[i].addr.toNat = a.toNat + i ∧ m vs[i].addr = some vs[i].value

/-- The same for registers. -/
def RegsAt (m : UInt16 → Option UInt16) (a : UInt16) (n : Nat) (vs : List RegVal) : Prop :=
  vs.length = n ∧ ∀ i, (h : i < vs.length) → vs[i].addr.toNat = a.toNat + i ∧ m vs[i].addr = some vs[i].value

/-- `r` are the stored values of the points a read addresses. -/
def CurrentValues (d : Tables) : (k : Kind) → Req k → Resp k → Prop
  | .readCoils, q, r => BitsAt d.coils q.start q.qty.toNat r
  | .readDiscreteInputs, q, r => BitsAt d.discretes q.start q.qty.toNat r
  | .readHoldingRegisters, q, r => RegsAt d.holdings q.start q.qty.toNat r
  | .readInputRegisters, q, r => RegsAt d.inputs q.start q.qty.toNat r
  | _, _, _ => True

/-- What the request changes: the addressed points of its table hold the values of the request, everything else is as before. -/
def Effect (d d' : Tables) : (k : Kind) → Req k → Prop
  | .writeSingleCoil, q => Written d.coils d'.coils q.addr [q.value] ∧ d' = { d with coils := d'.coils }
  | .writeSingleRegister, q => Written d.holdings d'.holdings q.addr [q.value] ∧ d' = { d with holdings := d'.holdings }
  | .writeMultipleCoils, q => Written d.coils d'.coils q.start q.values ∧ d' = { d with coils := d'.coils }
  | .writeMultipleRegisters, q => Written d.holdings d'.holdings q.start q.values ∧ d' = { d with holdings := d'.holdings }
  | _, _ => d' = d

theorem written_put {T : Type} (m : Map T) (a : UInt16) (x : T) : Written m (put m a x) a [x] := by
  constructor
  · intro i hi
    have h0 : i = 0 := by simpa using hi
    subst h0
    have := a.toNat_lt
    refine ⟨by omega, ?_⟩
    simp [put]
  · intro y hy
    have : y ≠ a := by
      rintro rfl
      simp at hy
      omega
    simp [put, this]

/-- What the specification's `serve` says, in terms of points. -/
theorem serve_meaning {db : Db} (h : DbReach db) (k : Kind) (q : Req k) (hq : InRange k q) :
    (PointsExist db.view k q ∧ ∃ r, (serve db.view k q).2 = .ok r ∧ CurrentValues db.view k q r ∧ (¬ IsRead k → Echoes k q r) ∧
      Effect db.view (serve db.view k q).1 k q) ∨
    (¬ PointsExist db.view k q ∧ (serve db.view k q).2 = .error (.modbus .illegalDataAddress) ∧ (serve db.view k q).1 = db.view) := by
  obtain ⟨db', hdb1, hdb2, -⟩ := Db.onRequest_spec h.wf k q
  have reads : ∀ {x : Expected (Resp k)}, db.onRequest k q = .ret (db, x) → x = (serve db.view k q).2 := by
    intro x hx
    rw [hdb1] at hx
    injection hx with hx
    injection hx with _ hx
    exact hx.symm
  cases k
  case readCoils =>
    obtain ⟨⟨x, h1, h2⟩, -⟩ := C38_reads h q.start q.qty
    rw [← reads h1]
    rcases h2 with ⟨h2, h3⟩ | ⟨h2, vs, h3, h4⟩
    · exact Or.inr ⟨h2, h3, rfl⟩
    · exact Or.inl ⟨h2, vs, h3, h4, fun hn => absurd trivial hn, rfl⟩
  case readDiscreteInputs =>
    obtain ⟨-, ⟨x, h1, h2⟩, -⟩ := C38_reads h q.start q.qty
    rw [← reads h1]
    rcases h2 with ⟨h2, h3⟩ | ⟨h2, vs, h3, h4⟩
    · exact Or.inr ⟨h2, h3, rfl⟩
    · exact Or.inl ⟨h2, vs, h3, h4, fun hn => absurd trivial hn, rfl⟩
  case readHoldingRegisters =>
    obtain ⟨-, -, ⟨x, h1, h2⟩, -⟩ := C38_reads h q.start q.qty
    rw [← reads h1]
    rcases h2 with ⟨h2, h3⟩ | ⟨h2, vs, h3, h4⟩
    · exact Or.inr ⟨h2, h3, rfl⟩
    · exact Or.inl ⟨h2, vs, h3, h4, fun hn => absurd trivial hn, rfl⟩
  case readInputRegisters =>
    obtain ⟨-, -, -, ⟨x, h1, h2⟩⟩ := C38_reads h q.start q.qty
    rw [← reads h1]
    rcases h2 with ⟨h2, h3⟩ | ⟨h2, vs, h3, h4⟩
    · exact Or.inr ⟨h2, h3, rfl⟩
    · exact Or.inl ⟨h2, vs, h3, h4, fun hn => absurd trivial hn, rfl⟩
  case writeSingleCoil =>
    by_cases hx : Exists db.view.coils q.addr
    · have e : serve db.view .writeSingleCoil q = ({ db.view with coils := put db.view.coils q.addr q.value }, .ok q) := if_pos hx
      rw [e]
      exact Or.inl ⟨hx, q, rfl, trivial, fun _ => rfl, written_put _ _ _, rfl⟩
    · have e : serve db.view .writeSingleCoil q = (db.view, illegalAddress) := if_neg hx
      rw [e]
      exact Or.inr ⟨hx, rfl, rfl⟩
  case writeSingleRegister =>
    by_cases hx : Exists db.view.holdings q.addr
    · have e : serve db.view .writeSingleRegister q = ({ db.view with holdings := put db.view.holdings q.addr q.value }, .ok q) := if_pos hx
      rw [e]
      exact Or.inl ⟨hx, q, rfl, trivial, fun _ => rfl, written_put _ _ _, rfl⟩
    · have e : serve db.view .writeSingleRegister q = (db.view, illegalAddress) := if_neg hx
      rw [e]
      exact Or.inr ⟨hx, rfl, rfl⟩
  case writeMultipleCoils =>
    by_cases hx : RangeExists db.view.coils q.start q.values.length
    · have e : serve db.view .writeMultipleCoils q = ({ db.view with coils := putAll db.view.coils q.start q.values },
          .ok ⟨q.start, UInt16.ofNat q.values.length⟩) := if_pos hx
      rw [e]
      refine Or.inl ⟨hx, _, rfl, trivial, fun _ => ⟨rfl, ?_⟩, written_putAll hx, rfl⟩
      simp only [InRange, qty, maxQty] at hq
      exact ofNat16_toNat (by omega)
    · have e : serve db.view .writeMultipleCoils q = (db.view, illegalAddress) := if_neg hx
      rw [e]
      exact Or.inr ⟨hx, rfl, rfl⟩
  case writeMultipleRegisters =>
    by_cases hx : RangeExists db.view.holdings q.start q.values.length
    · have e : serve db.view .writeMultipleRegisters q = ({ db.view with holdings := putAll db.view.holdings q.start q.values },
          .ok ⟨q.start, UInt16.ofNat q.values.length⟩) := if_pos hx
      rw [e]
      refine Or.inl ⟨hx, _, rfl, trivial, fun _ => ⟨rfl, ?_⟩, written_putAll hx, rfl⟩
      simp only [InRange, qty, maxQty] at hq
      exact ofNat16_toNat (by omega)
    · have e : serve db.view .writeMultipleRegisters q = (db.view, illegalAddress) := if_neg hx
      rw [e]
      exact Or.inr ⟨hx, rfl, rfl⟩

/-- **C42.**  End-to-end read.  Request `u`, a read of existing points, is on the wire as `bytes`.  However `bytes` is cut on the
way to the server, the server changes nothing and answers with one frame; however that frame is cut on the way back, handler
`u` is called with a PDU that the session decodes to exactly the stored values with their addresses. -/
theorem C42_read_end_to_end (cenv : ClientEnv) (senv : ServerEnv Db) (cv : Cli) (sv : Srv Db) (c : ConnId) (s : SessId) (u : Nat)
    (unit : UInt8) (k : Kind) (hk : IsRead k) (q : Req k) (bytes : List UInt8) (hw : Waits cenv cv u unit ⟨k, q⟩ bytes)
    (hr : Ready senv sv c unit s) (hx : PointsExist sv.world.view k q) (there : List (List UInt8)) (hthere : there.flatten = bytes) :
    ∃ sv' reply, sv.run senv (there.map (.receive c)) = .ret sv' ∧ sendsOf c sv'.log = sendsOf c sv.log ++ [reply] ∧
      Ready senv sv' c unit s ∧ sv'.world.view = sv.world.view ∧
      ∀ back : List (List UInt8), back.flatten = reply →
        ∃ cv' pdu r, cv.run cenv (back.map .receive) = .ret cv' ∧ CEv.handler u (.ok pdu) cv.now ∈ cv'.log ∧
          typedResult k q (.ok pdu) = .ret (.ok r) ∧ CurrentValues sv.world.view k q r := by
  obtain ⟨sv', reply, h1, h2, h3, h4, h5⟩ := exchange cenv senv cv sv c s u unit k q bytes hw hr there hthere
  obtain ⟨-, -, -, -, -, hq⟩ := hw.frame
  rcases serve_meaning hr.reachable k q hq with ⟨-, r, g1, g2, -, g4⟩ | ⟨g1, -, -⟩
  · refine ⟨sv', reply, h1, h2, h3, ?_, ?_⟩
    · rw [h4]
      cases k <;> first | exact g4 | exact absurd hk (by simp [IsRead])
    · intro back hback
      obtain ⟨cv', pdu, i1, i2, i3, -⟩ := h5 back hback
      exact ⟨cv', pdu, r, i1, i2, by rw [i3, g1], g2⟩
  · exact absurd hx g1

/-- **C43.**  End-to-end write.  A write whose points exist is acknowledged with an echo, and has exactly its effect. -/
theorem C43_write_end_to_end (cenv : ClientEnv) (senv : ServerEnv Db) (cv : Cli) (sv : Srv Db) (c : ConnId) (s : SessId) (u : Nat)
    (unit : UInt8) (k : Kind) (hk : ¬ IsRead k) (q : Req k) (bytes : List UInt8) (hw : Waits cenv cv u unit ⟨k, q⟩ bytes)
    (hr : Ready senv sv c unit s) (hx : PointsExist sv.world.view k q) (there : List (List UInt8)) (hthere : there.flatten = bytes) :
    ∃ sv' reply, sv.run senv (there.map (.receive c)) = .ret sv' ∧ sendsOf c sv'.log = sendsOf c sv.log ++ [reply] ∧
      Ready senv sv' c unit s ∧ Effect sv.world.view sv'.world.view k q ∧
      ∀ back : List (List UInt8), back.flatten = reply →
        ∃ cv' pdu r, cv.run cenv (back.map .receive) = .ret cv' ∧ CEv.handler u (.ok pdu) cv.now ∈ cv'.log ∧
          typedResult k q (.ok pdu) = .ret (.ok r) ∧ Echoes k q r := by
  obtain ⟨sv', reply, h1, h2, h3, h4, h5⟩ := exchange cenv senv cv sv c s u unit k q bytes hw hr there hthere
  obtain ⟨-, -, -, -, -, hq⟩ := hw.frame
  rcases serve_meaning hr.reachable k q hq with ⟨-, r, g1, -, g3, g4⟩ | ⟨g1, -, -⟩
  · refine ⟨sv', reply, h1, h2, h3, by rw [h4]; exact g4, ?_⟩
    intro back hback
    obtain ⟨cv', pdu, i1, i2, i3, -⟩ := h5 back hback
    exact ⟨cv', pdu, r, i1, i2, by rw [i3, g1], g3 hk⟩
  · exact absurd hx g1

/-- **C43.**  ... and a read of the written points that follows, by any client over any connection, yields the written values at
the written addresses and the old values at all others. -/
theorem C43_write_then_read (cenv cenv2 : ClientEnv) (senv : ServerEnv Db) (cv cv2 : Cli) (sv : Srv Db) (c c2 : ConnId)
    (s s2 : SessId) (u u2 : Nat) (unit unit2 : UInt8) (a : UInt16) (vals : List UInt16) (bytes bytes2 : List UInt8) (start n : UInt16)
    (hw : Waits cenv cv u unit ⟨.writeMultipleRegisters, ⟨a, vals⟩⟩ bytes) (hr : Ready senv sv c unit s)
    (hx : RangeExists sv.world.view.holdings a vals.length)
    (hw2 : Waits cenv2 cv2 u2 unit2 ⟨.readHoldingRegisters, ⟨start, n⟩⟩ bytes2)
    (hx2 : RangeExists sv.world.view.holdings start n.toNat)
    (there there2 : List (List UInt8)) (hthere : there.flatten = bytes) (hthere2 : there2.flatten = bytes2) :
    ∃ sv', sv.run senv (there.map (.receive c)) = .ret sv' ∧
      ∀ hr2 : Ready senv sv' c2 unit2 s2,
        ∃ sv2 reply, sv'.run senv (there2.map (.receive c2)) = .ret sv2 ∧ sendsOf c2 sv2.log = sendsOf c2 sv'.log ++ [reply] ∧
          ∀ back : List (List UInt8), back.flatten = reply →
            ∃ cv' pdu r, cv2.run cenv2 (back.map .receive) = .ret cv' ∧ CEv.handler u2 (.ok pdu) cv2.now ∈ cv'.log ∧
              typedResult .readHoldingRegisters ⟨start, n⟩ (.ok pdu) = .ret (.ok r) ∧ r.length = n.toNat ∧
              ∀ i, (h : i < r.length) → r[i].addr.toNat = start.toNat + i ∧
                (∀ j, (hj : j < vals.length) → r[i].addr.toNat = a.toNat + j → r[i].value = vals[j]) ∧
                (r[i].addr.toNat < a.toNat ∨ a.toNat + vals.length ≤ r[i].addr.toNat →
                  sv.world.view.holdings r[i].addr = some r[i].value) := by
  obtain ⟨sv', reply, h1, h2, h3, ⟨h4, h4'⟩, -⟩ := C43_write_end_to_end cenv senv cv sv c s u unit .writeMultipleRegisters
    (by simp [IsRead]) ⟨a, vals⟩ bytes hw hr hx there hthere
  simp only at h4 h4'
  refine ⟨sv', h1, ?_⟩
  intro hr2
  have hx' : PointsExist sv'.world.view .readHoldingRegisters ⟨start, n⟩ := by
    refine ⟨hx2.1, fun i hi => ⟨(hx2.2 i hi).1, ?_⟩⟩
    have hlt := (hx2.2 i hi).1
    have hold := (hx2.2 i hi).2
    generalize hz : UInt16.ofNat (start.toNat + i) = z at hold ⊢
    by_cases hin : z.toNat < a.toNat ∨ a.toNat + vals.length ≤ z.toNat
    · simp only [Spec.Exists] at hold ⊢
      rw [h4.2 z hin]; exact hold
    · have hj : z.toNat - a.toNat < vals.length := by omega
      have := (h4.1 _ hj).2
      rw [show a.toNat + (z.toNat - a.toNat) = z.toNat by omega, UInt16.ofNat_toNat] at this
      simp [Spec.Exists, this]
  obtain ⟨sv2, reply2, g1, g2, -, -, g5⟩ := C42_read_end_to_end cenv2 senv cv2 sv' c2 s2 u2 unit2 .readHoldingRegisters trivial
    ⟨start, n⟩ bytes2 hw2 hr2 hx' there2 hthere2
  refine ⟨sv2, reply2, g1, g2, ?_⟩
  intro back hback
  obtain ⟨cv', pdu, r, i1, i2, i3, i4, i5⟩ := g5 back hback
  refine ⟨cv', pdu, r, i1, i2, i3, i4, ?_⟩
  intro i hi
  obtain ⟨e1, e2⟩ := i5 i hi
  refine ⟨e1, ?_, ?_⟩
  · intro j hj e
    have := (h4.1 j hj).2
    rw [← e, UInt16.ofNat_toNat, e2] at this
    injection this
  · intro ho
    rw [← h4.2 _ ho]; exact e2

/-- **C44.**  A request that addresses a point that does not exist makes the handler receive IllegalDataAddress, and the
database is unchanged. -/
theorem C44_refusal_end_to_end (cenv : ClientEnv) (senv : ServerEnv Db) (cv : Cli) (sv : Srv Db) (c : ConnId) (s : SessId) (u : Nat)
    (unit : UInt8) (k : Kind) (q : Req k) (bytes : List UInt8) (hw : Waits cenv cv u unit ⟨k, q⟩ bytes)
    (hr : Ready senv sv c unit s) (hx : ¬ PointsExist sv.world.view k q) (there : List (List UInt8)) (hthere : there.flatten = bytes) :
    ∃ sv' reply, sv.run senv (there.map (.receive c)) = .ret sv' ∧ sendsOf c sv'.log = sendsOf c sv.log ++ [reply] ∧
      Ready senv sv' c unit s ∧ sv'.world.view = sv.world.view ∧
      ∀ back : List (List UInt8), back.flatten = reply →
        ∃ cv' pdu, cv.run cenv (back.map .receive) = .ret cv' ∧ CEv.handler u (.ok pdu) cv.now ∈ cv'.log ∧
          typedResult k q (.ok pdu) = .ret (.error (.modbus .illegalDataAddress)) := by
  obtain ⟨sv', reply, h1, h2, h3, h4, h5⟩ := exchange cenv senv cv sv c s u unit k q bytes hw hr there hthere
  obtain ⟨-, -, -, -, -, hq⟩ := hw.frame
  rcases serve_meaning hr.reachable k q hq with ⟨g1, -⟩ | ⟨-, g2, g3⟩
  · exact absurd g1 hx
  · refine ⟨sv', reply, h1, h2, h3, by rw [h4, g3], ?_⟩
    intro back hback
    obtain ⟨cv', pdu, i1, i2, i3, -⟩ := h5 back hback
    exact ⟨cv', pdu, i1, i2, by rw [i3, g2]⟩

/-! A server and a client that meet the hypotheses. -/

/-- A server environment whose session 7 is the in-memory database. -/
noncomputable def dbEnv : ServerEnv Db :=
  { pol := .reject, junk := fun _ => Vector.replicate 260 0,
    onRequest := fun _ k r db => match db.onRequest k r with
      | .ret x => x
      | .ub => (db, .error .connection) }

theorem dbEnv_backed (s : SessId) (k : Kind) (r : Req k) (db : Db) (h : DbReach db) : db.onRequest k r = .ret (dbEnv.onRequest s k r db) := by
  obtain ⟨db', h1, -⟩ := Db.onRequest_spec h.wf k r
  simp only [dbEnv, h1]

theorem atBoundary_init (pol : CopyPolicy) (mem : List UInt8) (h : mem.length = 260) : AtBoundary pol (Parser.init pol mem) :=
  ⟨mem, [], [], [], h, by simp, by simp [streamOf], rfl⟩

/-- A started server channel with the database registered for unit 1 and connection 4 open. -/
def readyServer : Srv Db :=
  { isShutdown := false, isStarted := true, sessions := [(1, 7)], tasks := [],
    listeners := [(4, Parser.init .reject (Vector.replicate 260 0).toList)], world := demoDb, nsend := 0, log := [.serverStart] }

theorem readyServer_reach : (Srv.init demoDb).run dbEnv [.addSession 1 7, .start, .runTask, .runTask, .opened 4 (Vector.replicate 260 0)] =
    .ret readyServer := rfl

theorem readyServer_ready : Ready dbEnv readyServer 4 1 7 :=
  ⟨rfl, rfl, ⟨_, rfl, atBoundary_init _ _ (Vector.length_toList ..)⟩, demoDb_reach, dbEnv_backed 7⟩

/-- A client that has just put a request on the wire. -/
theorem waits_example (q : AnyReq) (bytes : List UInt8) (h : clientLog ((Cli.init demoEnv).run demoEnv [.submit 1 q 10, .runTask]) =
    some [.call 0 1 q 10, .sent 0 bytes 0]) : ∃ cv, Waits demoEnv cv 0 1 q bytes := by
  obtain ⟨v, hv, hl⟩ := reach_of_log h
  refine ⟨v, hv, by simp [hl], ⟨10, by simp [hl]⟩, ⟨0, by simp [hl]⟩, by simp [hl, handledUids], ?_⟩
  obtain ⟨mem, h1, h2⟩ := hv.inv.1.framed (hv.down (by simp [hl]))
  rw [hl] at h2
  exact ⟨mem, [], [], [], h1, by simp, by simp [streamOf], h2⟩

/-- C42: registers 65532..65535 of `demoDb` exist and a read of them can be on the wire. -/
example : (∃ cv, Waits demoEnv cv 0 1 ⟨.readHoldingRegisters, ⟨65532, 4⟩⟩ [0, 0, 0, 0, 0, 6, 1, 3, 255, 252, 0, 4]) ∧
    PointsExist readyServer.world.view .readHoldingRegisters ⟨65532, 4⟩ :=
  ⟨waits_example _ _ (by decide +kernel), by decide +kernel⟩

/-- C43. -/
example : (∃ cv, Waits demoEnv cv 0 1 ⟨.writeMultipleRegisters, ⟨65533, [7, 8]⟩⟩ [0, 0, 0, 0, 0, 11, 1, 16, 255, 253, 0, 2, 4, 0, 7, 0, 8]) ∧
    PointsExist readyServer.world.view .writeMultipleRegisters ⟨65533, [7, 8]⟩ :=
  ⟨waits_example _ _ (by decide +kernel), by decide +kernel⟩

/-- C44: register 65532 - 1 does not exist. -/
example : (∃ cv, Waits demoEnv cv 0 1 ⟨.readHoldingRegisters, ⟨65531, 4⟩⟩ [0, 0, 0, 0, 0, 6, 1, 3, 255, 251, 0, 4]) ∧
    ¬ PointsExist readyServer.world.view .readHoldingRegisters ⟨65531, 4⟩ :=
  ⟨waits_example _ _ (by decide +kernel), by decide +kernel⟩

end Modbus.Props
