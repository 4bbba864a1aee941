import Verif.Lemmas.AsioWrites
import Verif.Lemmas.AsioSilent

/-! C68 – C71 and the server's side of C64: the listening server and its connections. -/

namespace Modbus.Props

open Modbus.Spec Modbus.Asv

/-! ### Concrete histories -/

/-- Runs a history, checking every step. -/
def runAsv (chk : Asv → Asv.Op → Bool) (v : Asv) : List Asv.Op → Option Asv
  | [] => some v
  | op :: ops =>
    if chk v op then
      match v.step op with
      | .ub => none
      | .ret v' => runAsv chk v' ops
    else none

theorem runAsv_reach {max : UInt32} {P : Asv → Asv.Op → Prop} {chk : Asv → Asv.Op → Bool} (hc : ∀ v op, chk v op = true → P v op) {v v' : Asv}
    {ops : List Asv.Op} (h : runAsv chk v ops = some v') (hr : AsvReach max P v) : AsvReach max P v' := by
  induction ops generalizing v with
  | nil => injection h with h; subst h; exact hr
  | cons op ops ih =>
    simp only [runAsv] at h
    split at h
    · rename_i hch
      cases hs : v.step op with
      | ub => rw [hs] at h; cases h
      | ret v1 => rw [hs] at h; exact ih h (hr.step (hc _ _ hch) hs)
    · cases h

theorem asv_demo {P : Asv → Asv.Op → Prop} {chk : Asv → Asv.Op → Bool} (hc : ∀ v op, chk v op = true → P v op) (max : UInt32) (ops : List Asv.Op) (Q : Asv → Bool)
    (h : (runAsv chk (Asv.init max) ops).any Q = true) : ∃ v, AsvReach max P v ∧ Q v = true := by
  cases hr : runAsv chk (Asv.init max) ops with
  | none => rw [hr] at h; cases h
  | some v => rw [hr] at h; exact ⟨v, runAsv_reach hc hr .init, h⟩

theorem asv_any (max : UInt32) (ops : List Asv.Op) (Q : Asv → Bool) (h : (runAsv (fun _ _ => true) (Asv.init max) ops).any Q = true) :
    ∃ v, AsvReach max anyAsv v ∧ Q v = true :=
  asv_demo (fun _ _ _ => trivial) max ops Q h

def singleChk (v : Asv) (op : Asv.Op) : Bool := op != .start || v.starts == 0

theorem singleChk_spec (v : Asv) (op : Asv.Op) (h : singleChk v op = true) : SingleStart v op := by
  intro ho
  subst ho
  simpa [singleChk] using h

def noErrChk (v : Asv) : Asv.Op → Bool
  | .complete i .error => match v.flying[i]? with
    | some (.accept _) => false
    | _ => true
  | _ => true

theorem noErrChk_spec (v : Asv) (op : Asv.Op) (h : noErrChk v op = true) : NoAcceptError v op := by
  intro i c ho hf
  subst ho
  simp [noErrChk, hf] at h

/-! ### C68 -/

/-- A server with limit `max` keeps at most `max` connections; a new connection is kept, and exactly the oldest one leaves when there
were as many as allowed (at least one must be allowed for this to be possible). -/
def C68_Statement : Prop := ∀ max v, AsvReach max anyAsv v →
  (kept v.log).length ≤ max.toNat ∧
  ∀ k rs c v', v.isShutdown = false → v.queue[k]? = some (.accepted c true) → v.step (.run k rs) = .ret v' → 1 ≤ max.toNat →
    kept v'.log = if (kept v.log).length < max.toNat then kept v.log ++ [c] else (kept v.log).tail ++ [c]

/-- C68 does not hold: if the channel is started twice, there are two accept loops, and the connection evicted may be one that has not
been accepted yet; then a server whose limit is 1 keeps two connections. -/
theorem C68_violated : ¬C68_Statement := by
  intro h
  obtain ⟨v, hr, hq⟩ := asv_any 1 [.start, .start, .run 0 [], .run 0 [], .complete 1 .ok, .run 0 [], .run 0 [], .complete 2 .ok, .run 0 []]
    (fun v => kept v.log == [1, 2]) (by decide +kernel)
  have := (h 1 v hr).1
  rw [beq_iff_eq] at hq
  rw [hq] at this
  exact absurd this (by decide)

/-- C68 (part), the limit: if the channel is started once, the server never keeps more connections than its maximum, whatever fails.
Missing from C68: starting twice; a limit of 2^32-1. -/
theorem C68_limit_partial (max : UInt32) (hmax : max.toNat < 4294967295) (v : Asv) (h : AsvReach max SingleStart v) :
    (kept v.log).length ≤ max.toNat := by
  have hi := h.ring hmax
  cases hd : v.isShutdown with
  | false => rw [← hi.max]; exact (hi.up hd).limit
  | true => rw [(hi.down hd).2]; exact Nat.zero_le _

/-- C68 (part), eviction: if the channel is started once, every accepted connection is kept (when at least one is allowed); the others
stay, except that the oldest one is closed if there were as many as allowed. -/
theorem C68_evicts_oldest_partial (max : UInt32) (hmax : max.toNat < 4294967295) (h1 : 1 ≤ max.toNat) (v : Asv) (h : AsvReach max SingleStart v)
    (k : Nat) (rs : List (List UInt8)) (c : Nat) (hd : v.isShutdown = false) (hk : v.queue[k]? = some (.accepted c true)) :
    ∃ v', v.step (.run k rs) = .ret v' ∧
      kept v'.log = (if (kept v.log).length < max.toNat then kept v.log ++ [c] else (kept v.log).tail ++ [c]) ∧
      ∀ old ∈ kept v.log, old ∉ kept v'.log → ATask.close old ∈ v'.queue := by
  have hi := h.ring hmax
  have hr := hi.up hd
  obtain ⟨v', hv', hr', _, _, es, _, hkept⟩ := hr.joins hi.inv hk hd (by rw [hi.max]; exact hmax)
  have hs : v.step (.run k rs) = .ret v' := by simp only [Asv.step, hk]; exact hv'
  have hreach : AsvReach max SingleStart v' := h.step (fun hh => by cases hh) hs
  have hlim := hr.limit
  rw [hi.max] at hlim hkept
  refine ⟨v', hs, ?_, ?_⟩
  · by_cases hlt : (kept v.log).length < max.toNat
    · rw [if_pos hlt]
      rw [if_neg (by omega)] at hkept
      exact hkept
    · rw [if_neg hlt]
      rw [if_pos (by omega)] at hkept
      rw [hkept]
      cases hke : kept v.log with
      | nil => rw [hke] at hlt hlim; simp at hlt hlim; omega
      | cons a l => rfl
  · intro old ho hn
    exact closes_evicted hi.inv hr hk hd hv' ho hn

/-- C68, a limit of zero: nobody is kept, not even for a moment: every accepted connection is closed at once. -/
theorem C68_zero (v : Asv) (h : AsvReach 0 SingleStart v) : kept v.log = [] :=
  List.eq_nil_of_length_eq_zero (Nat.le_zero.1 (C68_limit_partial 0 (by decide) v h))

/-- Three clients connect to a server whose limit is 2; the second one has sent data. -/
def threeClients : List Asv.Op :=
  [.start, .run 0 [], .complete 0 .ok, .run 0 [], .run 0 [], .complete 1 .ok, .run 0 [], .run 0 [], .complete 1 (.data [9]), .run 0 [[8]], .complete 1 .ok]

example : ∃ v, AsvReach 2 SingleStart v ∧ (kept v.log == [0, 1] && v.queue == [.accepted 2 true] && v.isShutdown == false) = true :=
  asv_demo singleChk_spec 2 threeClients _ (by decide +kernel)

example : ∃ v, AsvReach 2 SingleStart v ∧ (kept v.log == [1, 2] && v.queue == [.close 0, .startAccept] && v.num == 2) = true :=
  asv_demo singleChk_spec 2 (threeClients ++ [.run 0 []]) _ (by decide +kernel)

example : ∃ v, AsvReach 0 SingleStart v ∧ (v.log.contains (.joined 0) && v.queue == [.close 0, .startAccept]) = true :=
  asv_demo singleChk_spec 0 [.start, .run 0 [], .complete 0 .ok, .run 0 []] _ (by decide +kernel)

/-! ### C69 -/

/-- The number the server reports is the number of connections it keeps. -/
def C69_Statement : Prop := ∀ max v, AsvReach max anyAsv v → v.num.toNat = (kept v.log).length

/-- C69 does not hold: when accepting fails, the number is decreased although the connection had not been counted; without connections
the server then reports 4294967295. -/
theorem C69_violated : ¬C69_Statement := by
  intro h
  obtain ⟨v, hr, hq⟩ := asv_any 5 [.start, .run 0 [], .complete 0 .error, .run 0 []] (fun v => v.num == 4294967295 && kept v.log == []) (by decide +kernel)
  simp only [Bool.and_eq_true, beq_iff_eq] at hq
  have := h 5 v hr
  rw [hq.1, hq.2] at this
  exact absurd this (by decide)

/-- C69 does not hold after shutdown either: the connections are dropped, but the number is not reset. -/
theorem C69_not_reset : ∃ v, AsvReach 5 (fun v op => SingleStart v op ∧ NoAcceptError v op) v ∧ v.isShutdown = true ∧ v.queue = [] ∧ v.flying = [] ∧ v.num = 1 ∧ kept v.log = [] := by
  obtain ⟨v, hr, hq⟩ := asv_demo (chk := fun v op => singleChk v op && noErrChk v op) (P := fun v op => SingleStart v op ∧ NoAcceptError v op)
    (fun v op h => by simp only [Bool.and_eq_true] at h; exact ⟨singleChk_spec v op h.1, noErrChk_spec v op h.2⟩) 5
    [.start, .run 0 [], .complete 0 .ok, .run 0 [], .run 0 [], .shutdown, .run 0 [], .run 0 [], .run 0 [], .run 0 [], .run 0 [], .run 0 []]
    (fun v => v.isShutdown && v.queue == [] && v.flying == [] && v.num == 1 && kept v.log == []) (by decide +kernel)
  simp only [Bool.and_eq_true, beq_iff_eq] at hq
  exact ⟨v, hr, hq.1.1.1.1, hq.1.1.1.2, hq.1.1.2, hq.1.2, hq.2⟩

/-- C69 (part). Started once, with no failing accept, and until it is shut down, the server reports the number of connections it keeps.
Missing from C69: starting twice, failing accepts, and after shutdown. -/
theorem C69_count_partial (max : UInt32) (hmax : max.toNat < 4294967295) (v : Asv) (h : AsvReach max (fun v op => SingleStart v op ∧ NoAcceptError v op) v)
    (hd : v.isShutdown = false) : v.num.toNat = (kept v.log).length := by
  have hi := (h.mono fun _ _ hp => hp.1).ring hmax
  have hl := (h.mono fun _ _ hp => hp.2).loop hd
  rcases (hi.up hd).count with hh | hh
  · exact hh
  · have := hh.1
    have := hh.2
    omega

example : ∃ v, AsvReach 2 (fun v op => SingleStart v op ∧ NoAcceptError v op) v ∧ (v.num == 1 && kept v.log == [1] && v.isShutdown == false) = true :=
  asv_demo (chk := fun v op => singleChk v op && noErrChk v op)
    (fun v op h => by simp only [Bool.and_eq_true] at h; exact ⟨singleChk_spec v op h.1, noErrChk_spec v op h.2⟩) 2
    [.start, .run 0 [], .complete 0 .ok, .run 0 [], .run 0 [], .complete 1 .ok, .run 0 [], .run 0 [], .complete 0 .error, .run 0 []] _ (by decide +kernel)

/-! ### C70 -/

/-- A started server that is not shut down is accepting: an accept is in progress, its handler is about to run, or a new accept is about
to be started. -/
def C70_Statement : Prop := ∀ max v, AsvReach max anyAsv v → 1 ≤ v.starts → v.isShutdown = false → Accepting v

/-- C70 does not hold: a failing accept ends the loop. -/
theorem C70_violated : ¬C70_Statement := by
  intro h
  obtain ⟨v, hr, hq⟩ := asv_any 5 [.start, .run 0 [], .complete 0 .error, .run 0 [], .run 0 []]
    (fun v => v.flying == [] && v.queue == [] && v.starts == 1 && v.isShutdown == false) (by decide +kernel)
  simp only [Bool.and_eq_true, beq_iff_eq] at hq
  have := h 5 v hr (by rw [hq.1.2]; exact Nat.le_refl _) hq.2
  rcases this with ⟨c, hm⟩ | ⟨c, ok, hm⟩ | hm
  · rw [hq.1.1.1] at hm; cases hm
  · rw [hq.1.1.2] at hm; cases hm
  · rw [hq.1.1.2] at hm; cases hm

/-- C70, consequence: a server that has stopped accepting never accepts again, whatever happens, unless it is started again. -/
theorem C70_deaf_forever (v v' : Asv) (hn : ¬Accepting v) (ops : List Asv.Op) (ho : ∀ op ∈ ops, op ≠ .start) (hs : v.run ops = .ret v') : ¬Accepting v' := by
  induction ops generalizing v with
  | nil => injection hs with hs; subst hs; exact hn
  | cons op ops ih =>
    simp only [Asv.run] at hs
    cases hs1 : v.step op with
    | ub => rw [hs1] at hs; cases hs
    | ret w =>
      rw [hs1] at hs
      refine ih w ?_ (fun o hm => ho o (by simp [hm])) hs
      intro ha
      have h1 := accepting_chain ha
      have h2 := (loop_step hs1 (ho op (by simp))).1
      exact hn (chain_pos (by omega))

/-- C70 (part). As long as accepting does not fail, a started server that is not shut down is accepting.
Missing from C70: failing accepts (out of file descriptors, aborted connections). -/
theorem C70_accepting_partial (max : UInt32) (v : Asv) (h : AsvReach max NoAcceptError v) (h1 : 1 ≤ v.starts) (hd : v.isShutdown = false) : Accepting v :=
  chain_pos (by have := (h.loop hd).1; omega)

example : ∃ v, AsvReach 2 NoAcceptError v ∧ (v.starts == 1 && v.isShutdown == false && v.flying == [.read 1, .accept 2]) = true :=
  asv_demo noErrChk_spec 2 [.start, .run 0 [], .complete 0 .ok, .run 0 [], .run 0 [], .complete 1 .ok, .run 0 [], .run 0 [], .complete 0 .error, .run 0 []]
    _ (by decide +kernel)

/-! ### C71 -/

/-- C71. However many operations on a connection fail, it is removed from the server's list at most once and its socket is closed at most
once; when one has failed, it has been removed, and its socket is closed or about to be closed; and a connection whose socket has been
closed has been removed. -/
theorem C71_removed_once (max : UInt32) (v : Asv) (h : AsvReach max anyAsv v) (c : Nat) :
    v.log.count (.left c) ≤ 1 ∧ v.log.count (.closed c) ≤ 1 ∧
    (.error c ∈ v.log → v.log.count (.left c) = 1 ∧ ((v.conns c).isOpen = true → ATask.close c ∈ v.queue)) ∧
    (.closed c ∈ v.log → v.log.count (.left c) = 1 ∧ (v.conns c).isOpen = false) := by
  have hi := h.inv
  have hleft : c < v.nextConn → c ∉ v.list → v.log.count (.left c) = 1 := by
    intro h1 h2
    rcases hi.place c h1 with hm | hm
    · exact absurd hm h2
    · have h3 := List.count_pos_iff.2 hm
      have h4 := hi.left1 c
      omega
  refine ⟨hi.left1 c, hi.closed1 c, fun he => ?_, fun hc => ?_⟩
  · have := hi.errLive c he
    exact ⟨hleft this.1.1 this.2.1, this.2.2⟩
  · have := hi.closedShut c hc
    exact ⟨hleft this.2.1 this.2.2, this.1⟩

/-- C71, what a queued close does: afterwards the socket is closed, no read or write of it is in progress any more, and the connection is
not in the list. -/
theorem C71_close_closes (max : UInt32) (v v' : Asv) (h : AsvReach max anyAsv v) (k c : Nat) (rs : List (List UInt8)) (hk : v.queue[k]? = some (.close c))
    (hs : v.step (.run k rs) = .ret v') : (v'.conns c).isOpen = false ∧ (v'.conns c).connected = false ∧ v'.log.count (.left c) = 1 ∧
      ((v.conns c).isOpen = true → .closed c ∈ v'.log ∧ AOp.read c ∉ v'.flying ∧ ∀ b d, AOp.write c b d ∉ v'.flying) := by
  have hr' : AsvReach max anyAsv v' := h.step trivial hs
  have hco := h.inv.closeOut c (List.mem_of_getElem? hk)
  have hrem : ∀ u : Asv, u.list = v.list → u.removeConnection c = u := by
    intro u hu
    unfold removeConnection
    rw [if_neg (by rw [hu]; exact hco.1)]
  simp only [Asv.step, hk, Asv.runTask] at hs
  injection hs with hs
  have hpl : v'.nextConn = v.nextConn ∧ v'.list = v.list := by
    rw [← hs]
    unfold runClose
    dsimp only
    split
    · rw [hrem]
      · exact ⟨rfl, rfl⟩
      · rfl
    · exact ⟨rfl, rfl⟩
  have hleft : v'.log.count (.left c) = 1 := by
    rcases hr'.inv.place c (by rw [hpl.1]; exact hco.2) with hm | hm
    · rw [hpl.2] at hm; exact absurd hm hco.1
    · have h3 := List.count_pos_iff.2 hm
      have h4 := hr'.inv.left1 c
      omega
  unfold runClose at hs
  dsimp only at hs
  split at hs
  · rw [hrem] at hs
    on_goal 2 => rfl
    subst hs
    refine ⟨by simp [Asv.emit, Asv.abort, Asv.setConn], by simp [Asv.emit, Asv.abort, Asv.setConn], hleft, fun _ => ⟨by simp [Asv.emit], ?_, ?_⟩⟩
    · simp [Asv.emit, Asv.abort, onSocket]
    · simp [Asv.emit, Asv.abort, onSocket]
  · rename_i ho
    have ho : (v.conns c).isOpen = false := by simpa using ho
    subst hs
    refine ⟨by simp [Asv.setConn, ho], by simp [Asv.setConn], hleft, fun hh => ?_⟩
    rw [ho] at hh; cases hh

/-- A client sends a request and disappears: the answer fails, then the read. -/
def vanishing : List Asv.Op :=
  [.start, .run 0 [], .complete 0 .ok, .run 0 [], .run 0 [], .complete 0 (.data [1]), .run 0 [[2]], .complete 1 .error, .complete 1 .error, .run 0 [], .run 0 []]

example : ∃ v, AsvReach 2 anyAsv v ∧ (v.log.count (.error 0) == 2 && v.log.count (.left 0) == 1 && v.queue == [.close 0, .close 0, .close 0] && (v.conns 0).isOpen) = true :=
  asv_any 2 vanishing _ (by decide +kernel)

example : ∃ v, AsvReach 2 anyAsv v ∧ (v.log.count (.closed 0) == 1 && v.queue == [] && !(v.conns 0).isOpen) = true :=
  asv_any 2 (vanishing ++ [.run 0 [], .run 0 [], .run 0 []]) _ (by decide +kernel)

/-- C71, after the close: nothing is given to the operating system on a connection whose socket has been closed, and nothing goes out on it,
even if data received before is still handled and answered. -/
theorem C71_silent_when_closed (max : UInt32) (v : Asv) (h : AsvReach max anyAsv v) (c : Nat) (a b : List AEv) (hl : v.log = a ++ .closed c :: b) :
    asvSubmits c b = [] ∧ asvWires c b = [] := by
  have hq := (h.sil c).quiet a b hl
  constructor
  · refine List.filterMap_eq_nil_iff.2 fun e he => ?_
    have := hq e he
    cases e <;> simp_all [Asv.outOn]
  · refine List.filterMap_eq_nil_iff.2 fun e he => ?_
    have := hq e he
    cases e <;> simp_all [Asv.outOn]

/-- A request is answered after the socket was closed. -/
example : ∃ v, AsvReach 2 anyAsv v ∧ (v.log == [.joined 0, .left 0] ++ .closed 0 :: [.receive 0 [1], .asked 0 [2]]) = true :=
  asv_any 2 [.start, .run 0 [], .complete 0 .ok, .run 0 [], .complete 0 (.data [1]), .shutdown, .run 2 [], .run 2 [], .run 1 [[2]]] _ (by decide +kernel)

/-! ### C64, the server's side -/

/-- Every buffer a write in progress uses exists; and when no write is in progress on a connection, what went out on it is a
concatenation of whole frames, in the order in which they were submitted. -/
def C64_server_Statement : Prop := ∀ max v, AsvReach max anyAsv v → ∀ c,
  (∀ b d, AOp.write c b d ∈ v.flying → (v.conns c).wbuf.map (·.1) = some b) ∧
  (¬AWriteBusy v c → ∃ frames : List (List UInt8), frames.Sublist (asvSubmits c v.log) ∧ (asvWires c v.log).flatten = frames.flatten)

/-- Two requests arrive in one chunk, and both are answered while the chunk is handled. -/
def pipelined : List Asv.Op := [.start, .run 0 [], .complete 0 .ok, .run 0 [], .complete 0 (.data [1]), .run 1 [[2, 2], [3, 3]]]

/-- C64 does not hold for the server: if a client sends two requests without waiting for the answer, sending the second answer frees the
memory from which the first is being written. -/
theorem C64_server_violated : ¬C64_server_Statement := by
  intro h
  obtain ⟨v, hr, hq⟩ := asv_any 5 pipelined
    (fun v => v.flying == [.write 0 0 [2, 2], .write 0 1 [3, 3], .read 0] && (v.conns 0).wbuf == some (1, [3, 3])) (by decide +kernel)
  simp only [Bool.and_eq_true, beq_iff_eq] at hq
  have := (h 5 v hr 0).1 0 [2, 2] (by simp [hq.1])
  rw [hq.2] at this
  simp at this

/-- C64, use of freed memory in the server. -/
theorem C64_server_use_after_free : (Asv.init 5).run (pipelined ++ [.complete 0 (.sent 2)]) = .ub :=
  isUB_eq (by decide +kernel)

/-- C64 (part), the server's side. If clients wait for the answer before sending the next request and writes are never partial, then the
memory of a write in progress is never freed (no step has undefined behaviour, if the channel is started once), and what went out on
each connection is a sequence of whole submitted frames, in order.
Missing from C64: pipelined requests, and partial writes. -/
theorem C64_server_whole_frames_partial (max : UInt32) (hmax : max.toNat < 4294967295) (v : Asv)
    (h : AsvReach max (fun v op => SingleStart v op ∧ PatientClients v op) v) :
    (∀ c b d, AOp.write c b d ∈ v.flying → (v.conns c).wbuf = some (b, d)) ∧ (∀ op, ∃ v', v.step op = .ret v') ∧
    ∀ c, (asvWires c v.log).Sublist (asvSubmits c v.log) := by
  have hw := (h.mono fun _ _ hp => hp.2).wr
  have hi := (h.mono fun _ _ hp => hp.1).ring hmax
  refine ⟨hw.buf, fun op => ?_, fun c => (List.sublist_append_left _ _).trans (hw.sub c)⟩
  cases hd : v.isShutdown with
  | true => exact step_down hw hd op
  | false =>
    refine step_ok hw op fun k rs c _ hk => ?_
    rw [((hi.up hd).take hk).2.2.1]
    simp

def patientClientsChk (v : Asv) : Asv.Op → Bool
  | .run k rs => match v.queue[k]? with
    | some (.read c (some _)) => rs == [] || (rs.length == 1 && !(v.flying.any (isW c)) && !(v.queue.any (isWr c)))
    | _ => true
  | .complete i (.sent n) => match v.flying[i]? with
    | some (.write _ _ d) => n == d.length
    | _ => true
  | _ => true

theorem patientClientsChk_spec (v : Asv) (op : Asv.Op) (h : patientClientsChk v op = true) : PatientClients v op := by
  refine ⟨fun k c bytes rs hop hk => ?_, fun i n c b d hop hf => ?_⟩
  · subst hop
    simp only [patientClientsChk, hk, Bool.or_eq_true, Bool.and_eq_true, beq_iff_eq, Bool.not_eq_true', List.any_eq_false] at h
    rcases h with h | ⟨⟨h1, h2⟩, h3⟩
    · exact Or.inl h
    · refine Or.inr ⟨?_, ?_⟩
      · match rs, h1 with
        | [d], _ => exact ⟨d, rfl⟩
      · rintro (⟨b, d, hm⟩ | ⟨ok, hm⟩)
        · exact h2 _ hm (by simp [isW])
        · exact h3 _ hm (by simp [isWr])
  · subst hop
    simpa [patientClientsChk, hf] using h

example : ∃ v, AsvReach 5 (fun v op => SingleStart v op ∧ PatientClients v op) v ∧ (asvWires 0 v.log == [[2, 2], [4]] && asvSubmits 0 v.log == [[2, 2], [4]]) = true :=
  asv_demo (chk := fun v op => singleChk v op && patientClientsChk v op)
    (fun v op h => by simp only [Bool.and_eq_true] at h; exact ⟨singleChk_spec v op h.1, patientClientsChk_spec v op h.2⟩) 5
    [.start, .run 0 [], .complete 0 .ok, .run 0 [], .complete 0 (.data [1]), .run 1 [[2, 2]], .complete 0 (.sent 2), .run 1 [], .complete 0 (.data [3]), .run 1 [[4]],
      .complete 0 (.sent 1)] _ (by decide +kernel)

end Modbus.Props
