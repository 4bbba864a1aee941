import Verif.Lemmas.ExampleServer
import Verif.Props.Server

/-!
Property C143: the example server (examples/server/main.cpp) does what it says.
-/

namespace Modbus.Props

open Modbus Spec ExampleServer

/-- **C143**, the data: filling the database succeeds point by point, and leaves coils and discrete inputs 0 to 99, on exactly at odd addresses, and registers 0 to 99 holding their own addresses. -/
theorem C143_filled : ∃ db, Db.empty.run fill = .ret (db, List.replicate 400 (.done true)) ∧
    (∀ a, db.view.coils a = if a.toNat < 100 then some (decide (a.toNat % 2 = 1)) else none) ∧
    (∀ a, db.view.discretes a = if a.toNat < 100 then some (decide (a.toNat % 2 = 1)) else none) ∧
    (∀ a, db.view.holdings a = if a.toNat < 100 then some a else none) ∧
    (∀ a, db.view.inputs a = if a.toNat < 100 then some a else none) := by
  obtain ⟨db, h1, h2⟩ := C35_refines_four_maps fill
  have h0 : Spec.noTables = examplePoints (0 : UInt16).toNat := by simp [noTables, examplePoints]
  have hf := fillFrom_spec 100 0 rfl
  rw [← h0] at hf
  rw [show fill = fillFrom 0 from rfl, hf] at h1 h2
  exact ⟨db, h1, fun _ => by rw [h2]; rfl, fun _ => by rw [h2]; rfl, fun _ => by rw [h2]; rfl, fun _ => by rw [h2]; rfl⟩

/-- What holds of every execution of the example: the main thread reading the keys, and any number of threads making requests. -/
theorem example_run (ks : List (Char × Bool)) (ps : List Prog) (hps : ∀ p ∈ ps, Asks p) (sched : List Nat) :
    ∃ db c d, Db.empty.run fill = .ret (db, List.replicate 400 (.done true)) ∧ (Threads.init db (mainLoop ks :: ps)).run sched = .ret c ∧
      Holds d (coil0 false c.trace) (requestsAlone (examplePoints 100) c.trace) ∧ ((∀ t ∈ c.threads, Outside t) → c.db.view = d) ∧
      (∀ pre post i t x, c.trace = pre ++ (i, .transaction t, x) :: post → i = 0 ∧ x = [.bit (some (coil0 false pre)), .done true]) ∧
      (∀ pre post i k r x, c.trace = pre ++ (i, .request k r, x) :: post → ¬ReadsCoil0 k r → x = [.response k (serve (requestsAlone (examplePoints 100) pre) k r).2]) ∧
      ∃ rest, (∀ t, c.threads[0]? = some t → remaining t = mainLoop rest) ∧ c.threads[0]?.isSome = true ∧
        transactions c.trace + flipsTyped (rest.map (·.1)) = flipsTyped (ks.map (·.1)) := by
  obtain ⟨db, h1, h2⟩ := C35_refines_four_maps fill
  have h0 : Spec.noTables = examplePoints (0 : UInt16).toNat := by simp [noTables, examplePoints]
  have hf := fillFrom_spec 100 0 rfl
  rw [← h0] at hf
  rw [show fill = fillFrom 0 from rfl, hf] at h1 h2
  simp only at h1 h2
  have hreach : DbReach db := ⟨_, _, h1⟩
  obtain ⟨c, d, g1, g2, g3, g4, g5⟩ := C41_serialised hreach (mainLoop ks :: ps) sched
  rw [h2] at g2
  have hidx := trace_threads sched (by simp [Threads.init]) g1
  have h0c : 0 < c.threads.length := by rw [g3]; simp
  have hmain := main_does (g4 0 (by simp) _ (List.getElem?_eq_getElem h0c)) ks rfl
  have hu : ∀ x ∈ c.trace, Usual x := by
    intro x hx
    have hi := hidx x hx
    have hi' : x.1 < (mainLoop ks :: ps).length := by rw [← g3]; exact hi
    have hmem : x.2 ∈ callsOf x.1 c.trace := List.mem_map.2 ⟨x, List.mem_filter.2 ⟨hx, by simp⟩, rfl⟩
    have hd := g4 x.1 hi' _ (List.getElem?_eq_getElem hi)
    by_cases hz : x.1 = 0
    · rw [hz] at hmem
      exact Or.inr ⟨hz, hmain.1 _ hmem⟩
    · have hp : Asks (mainLoop ks :: ps)[x.1] := by
        rw [List.getElem_cons, dif_neg hz]
        exact hps _ (List.getElem_mem _)
      exact Or.inl (asks_does hd hp _ hmem)
  obtain ⟨k1, k2, k3⟩ := Holds.init.serial hu g2
  refine ⟨db, c, d, h1, g1, k1, g5, k2, k3, ?_⟩
  obtain ⟨hm1, rest, r1, r2⟩ := hmain
  refine ⟨rest, ?_, by simp [h0c], ?_⟩
  · intro t ht
    rw [List.getElem?_eq_getElem h0c] at ht
    injection ht with ht
    rw [← ht, r1]
  · rw [← r2]
    congr 1
    have : ∀ l : List (Nat × Call × List DbRes), (∀ x ∈ l, Usual x) → (∀ x ∈ callsOf 0 l, ∃ j, x.1 = .transaction (ExampleServer.flip j)) →
        transactions l = (callsOf 0 l).length := by
      intro l
      induction l with
      | nil => intro _ _; rfl
      | cons x l ih =>
        intro hl hm
        obtain ⟨i, cl, x⟩ := x
        have hl' := fun y hy => hl y (List.mem_cons_of_mem _ hy)
        by_cases hz : i = 0
        · subst hz
          have hm' : ∀ y ∈ callsOf 0 l, ∃ j, y.1 = .transaction (ExampleServer.flip j) := fun y hy => hm y (by
            simp only [callsOf] at hy ⊢
            rw [List.filter_cons_of_pos (by simp)]
            exact List.mem_cons_of_mem _ hy)
          obtain ⟨j, hj⟩ := hm (cl, x) (by simp only [callsOf]; rw [List.filter_cons_of_pos (by simp)]; exact List.mem_cons_self)
          simp only at hj
          subst hj
          have e1 := ih hl' hm'
          simp only [transactions, callsOf] at e1 ⊢
          rw [List.countP_cons_of_pos (by simp), List.filter_cons_of_pos (by simp), e1]
          simp
        · rcases hl _ List.mem_cons_self with ⟨k, r, hk⟩ | ⟨h0', -⟩
          · simp only at hk
            subst hk
            have e1 := ih hl' (fun y hy => hm y (by
              simp only [callsOf] at hy ⊢
              rw [List.filter_cons_of_neg (by simpa using hz)]
              exact hy))
            simp only [transactions, callsOf] at e1 ⊢
            rw [List.countP_cons_of_neg (by simp), List.filter_cons_of_neg (by simpa using hz), e1]
          · exact absurd h0' hz
    exact this _ hu hm1

/-- **C143**, key `f`: whatever requests are being served at the same time, by however many threads and scheduled in any way, nothing undefined happens; every flip finds coil 0 there (so that the variable it
left uninitialised has been filled), as the flips and the requests before it left it, and succeeds in setting it; and whenever no call is going on, coil 0 is what flips and requests, one after another, make
of it: no flip and no write is lost. -/
theorem C143_flips (ks : List (Char × Bool)) (ps : List Prog) (hps : ∀ p ∈ ps, Asks p) (sched : List Nat) :
    ∃ db c, Db.empty.run fill = .ret (db, List.replicate 400 (.done true)) ∧ (Threads.init db (mainLoop ks :: ps)).run sched = .ret c ∧
      (∀ pre post i t x, c.trace = pre ++ (i, .transaction t, x) :: post → i = 0 ∧ x = [.bit (some (coil0 false pre)), .done true]) ∧
      ((∀ t ∈ c.threads, Outside t) → c.db.view.coils 0 = some (coil0 false c.trace)) := by
  obtain ⟨db, c, d, h1, h2, h3, h4, h5, -⟩ := example_run ks ps hps sched
  exact ⟨db, c, h1, h2, h5, fun ho => by rw [h4 ho]; exact h3.coil⟩

/-- **C143**: coil 0 is flipped at most once for each `f` typed before the first `q`, and exactly as often once the main thread has finished. -/
theorem C143_once_per_key (ks : List (Char × Bool)) (ps : List Prog) (hps : ∀ p ∈ ps, Asks p) (sched : List Nat) :
    ∃ db c, Db.empty.run fill = .ret (db, List.replicate 400 (.done true)) ∧ (Threads.init db (mainLoop ks :: ps)).run sched = .ret c ∧
      transactions c.trace ≤ flipsTyped (ks.map (·.1)) ∧ (c.threads[0]? = some (.idle .done) → transactions c.trace = flipsTyped (ks.map (·.1))) := by
  obtain ⟨db, c, d, h1, h2, -, -, -, -, rest, h5, -, h6⟩ := example_run ks ps hps sched
  refine ⟨db, c, h1, h2, by omega, fun hd => ?_⟩
  have := main_done rest (by rw [← h5 _ hd]; rfl)
  omega

/-- **C143**, unit 2: the points 0 to 99 and no others exist at all times, discrete inputs and input registers never change, and the flips concern coil 0 only: whenever no call is going on, the other coils and
the holding registers are as the requests alone would have left them, and every answer to a request that does not read coil 0 is the one it would have got without the flips. -/
theorem C143_points (ks : List (Char × Bool)) (ps : List Prog) (hps : ∀ p ∈ ps, Asks p) (sched : List Nat) :
    ∃ db c, Db.empty.run fill = .ret (db, List.replicate 400 (.done true)) ∧ (Threads.init db (mainLoop ks :: ps)).run sched = .ret c ∧
      ((∀ t ∈ c.threads, Outside t) →
        (∀ a, Spec.Exists c.db.view.coils a ↔ a.toNat < 100) ∧ (∀ a, Spec.Exists c.db.view.holdings a ↔ a.toNat < 100) ∧
        c.db.view.discretes = (examplePoints 100).discretes ∧ c.db.view.inputs = (examplePoints 100).inputs ∧
        (∀ a, a ≠ 0 → c.db.view.coils a = (requestsAlone (examplePoints 100) c.trace).coils a) ∧
        c.db.view.holdings = (requestsAlone (examplePoints 100) c.trace).holdings) ∧
      (∀ pre post i k r x, c.trace = pre ++ (i, .request k r, x) :: post → ¬ReadsCoil0 k r →
        x = [.response k (serve (requestsAlone (examplePoints 100) pre) k r).2]) := by
  obtain ⟨db, c, d, h1, h2, h3, h4, -, h6, -⟩ := example_run ks ps hps sched
  refine ⟨db, c, h1, h2, fun ho => ?_, h6⟩
  rw [h4 ho]
  exact ⟨fun a => by rw [h3.exists_iff, h3.coilsExist], fun a => by rw [h3.holdings, h3.holdingsExist], h3.discretes, h3.inputs, h3.others, h3.holdings⟩

/-- The server answers coil requests for `CustomSession` by the PDU 1, 1, 1. -/
theorem custom_pdu : ResponsePdu .readCoils [⟨16, true⟩] [1, 1, 1] := by
  exact ⟨[1], ⟨rfl, by decide⟩, rfl⟩

/-- **C143**, unit 1, as a client of this library sees it, coils: a request for up to eight coils, from whatever address, is answered by "the first one is on, the others are off" at the addresses asked for (not
at address 16, which the session mentions); a request for more coils fails because the answer is malformed. -/
theorem C143_custom_coils {W : Type} (env : ServerEnv W) (v : Srv W) (c : ConnId) (m : Mbap) (s : SessId) (hs : Reaches v m s)
    (hcustom : ∀ k (r : Req k) w, env.onRequest s k r w = (w, custom k r)) (q : Req .readCoils) (hd : Denotes .readCoils m.data q) :
    ∃ pdu, Handles env v c m s .readCoils q [.send c (frameOf ⟨m.unit, m.tid, pdu⟩).bytes] ∧
      parseResp .readCoils q pdu =
        if q.qty.toNat ≤ 8 then .ret (.ok (labelBits q.start (true :: List.replicate (q.qty.toNat - 1) false))) else .ret (.error .malformedResponse) := by
  obtain ⟨pdu, h1, h2⟩ := C24_request_reaches_session env v c m s hs .readCoils q hd [⟨16, true⟩] (by rw [hcustom]; rfl)
  obtain rfl := h2 _ custom_pdu (by decide)
  refine ⟨_, h1, ?_⟩
  have hq : 1 ≤ q.qty.toNat := by
    exact hd.1.1
  obtain ⟨start, qty⟩ := q
  simp only at hq ⊢
  by_cases h8 : qty.toNat ≤ 8
  · rw [if_pos h8]
    rw [(C07_bit_response_iff start qty _ _).1]
    refine ⟨1, [1], _, rfl, ?_, ?_, rfl⟩
    · simp only [bytesFor]
      have : (1 : UInt8).toNat = 1 := rfl
      omega
    · have : qty.toNat = 1 ∨ qty.toNat = 2 ∨ qty.toNat = 3 ∨ qty.toNat = 4 ∨ qty.toNat = 5 ∨ qty.toNat = 6 ∨ qty.toNat = 7 ∨ qty.toNat = 8 := by omega
      rcases this with h | h | h | h | h | h | h | h <;> rw [h] <;> exact ⟨by decide, by decide, by decide⟩
  · rw [if_neg h8]
    rcases C13_response_trichotomy .readCoils ⟨start, qty⟩ [1, 1, 1] with ⟨⟨r, hr⟩, -⟩ | ⟨-, hh⟩ | h
    · rw [(C07_bit_response_iff start qty _ _).1] at hr
      obtain ⟨bc, body, bits, e1, e2, -⟩ := hr
      injection e1 with _ e1
      injection e1 with e1 _
      rw [← e1, show (1 : UInt8).toNat = 1 from rfl] at e2
      simp only [bytesFor] at e2
      omega
    · exact absurd hh (by decide)
    · exact h

/-- **C143**, unit 1, all other requests: the client is told that the function is illegal. -/
theorem C143_custom_refuses {W : Type} (env : ServerEnv W) (v : Srv W) (c : ConnId) (m : Mbap) (s : SessId) (hs : Reaches v m s)
    (hcustom : ∀ k (r : Req k) w, env.onRequest s k r w = (w, custom k r)) (k : Kind) (hk : k ≠ .readCoils) (q : Req k) (hd : Denotes k m.data q) :
    ∃ pdu, Handles env v c m s k q [.send c (frameOf ⟨m.unit, m.tid, pdu⟩).bytes] ∧ parseResp k q pdu = .ret (.error (.modbus .illegalFunction)) := by
  have hc : custom k q = .error (.modbus .illegalFunction) := by cases k <;> first | exact absurd rfl hk | rfl
  refine ⟨_, (C28_session_failures env v c m s hs k q hd _ (by rw [hcustom]; exact hc)).1 _ rfl, ?_⟩
  rw [C09_exception_iff]
  exact ⟨_, rfl, rfl⟩

/-! ### Concrete cases -/

/-- Somebody types `f`, `x`, `f`, `q`, `f` while a client writes coils 0 and 1, reads them, and writes register 36. -/
def exampleKeys : List (Char × Bool) := [('f', true), ('x', false), ('f', false), ('q', true), ('f', true)]

/-- The thread serving that client. -/
def exampleClient : Prog :=
  .call (.request .writeMultipleCoils ⟨0, [true, true]⟩) fun _ => .call (.request .readCoils ⟨0, 3⟩) fun _ =>
    .call (.request .writeSingleRegister ⟨36, 11⟩) fun _ => .done

example : ∀ p ∈ [exampleClient], Asks p := by
  intro p hp
  rw [List.mem_singleton.1 hp]
  exact ⟨⟨_, _, rfl⟩, fun _ => ⟨⟨_, _, rfl⟩, fun _ => ⟨⟨_, _, rfl⟩, fun _ => trivial⟩⟩⟩

example : flipsTyped (exampleKeys.map (·.1)) = 2 := by decide

/-- The filled database, written out (as it is by `C143_filled`). -/
def exampleDb : Db where
  coils := (List.range 100).map fun i => (UInt16.ofNat i, decide (i % 2 = 1))
  discretes := (List.range 100).map fun i => (UInt16.ofNat i, decide (i % 2 = 1))
  holdings := (List.range 100).map fun i => (UInt16.ofNat i, UInt16.ofNat i)
  inputs := (List.range 100).map fun i => (UInt16.ofNat i, UInt16.ofNat i)

/-- An execution in which the client's write falls between the two flips: nobody is in the middle of a call at the end, the main thread has finished, there were two flips (off to on, then on to off), and the
coil is off, although both were begun while the other thread was at work. -/
def exampleRun : CM Threads := (Threads.init exampleDb [mainLoop exampleKeys, exampleClient]).run
  [0, 1, 0, 1, 0, 1, 0, 1, 0, 1, 1, 1, 0, 1, 1, 1, 0, 0, 0, 0, 0, 0, 0, 1, 1, 1, 1, 1, 1, 1, 1, 1, 1, 1, 1, 1, 1, 1, 1, 1, 1, 1, 1, 0, 0, 0, 0, 0, 0]

example : (match exampleRun with
    | .ub => false
    | .ret c => c.trace.map (·.1) == [0, 1, 1, 1, 0] && transactions c.trace == 2 && c.threads.all (fun t => match t with | .idle .done => true | _ => false) &&
        c.db.coils.take 3 == [(0, false), (1, true), (2, false)] && coil0 false c.trace == false && c.db.holdings.lookup 36 == some 11) = true := by decide +kernel

/-- The server `demo` with `CustomSession` in place of its sessions, asked by the example client for coil 36. -/
def customEnv : ServerEnv Nat := { demo 0 with onRequest := fun _ k r w => (w, custom k r) }

example := C143_custom_coils customEnv demoSrv 5 ⟨1, 7, [1, 0, 0x24, 0, 1]⟩ 0 ⟨rfl, rfl⟩ (fun _ _ _ => rfl) ⟨0x24, 1⟩ ⟨⟨by decide, by decide⟩, rfl⟩

example : parseResp .readCoils ⟨0x24, 1⟩ [1, 1, 1] = .ret (.ok [⟨36, true⟩]) := by decide

/-- The request the example client repeats. -/
example := C143_custom_refuses customEnv demoSrv 5 ⟨1, 7, [3, 0, 0x24, 0, 59]⟩ 0 ⟨rfl, rfl⟩ (fun _ _ _ => rfl) .readHoldingRegisters (by decide) ⟨0x24, 59⟩
  ⟨⟨by decide, by decide⟩, rfl⟩

end Modbus.Props
