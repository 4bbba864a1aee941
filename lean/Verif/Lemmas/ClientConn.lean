import Verif.Spec.ClientConn
import Verif.Lemmas.Mbap
import Mathlib.Data.List.Basic

/-! Helper lemmas about the client's TCP connection. -/

namespace Modbus.Tcp

open Spec

theorem mem_eraseIdx_or {α : Type} {l : List α} {k : Nat} {t x : α} (hk : l[k]? = some t) (hx : x ∈ l) : x = t ∨ x ∈ l.eraseIdx k := by
  induction l generalizing k with
  | nil => cases hx
  | cons y l ih =>
    cases k with
    | zero =>
      simp only [List.getElem?_cons_zero, Option.some.injEq] at hk
      subst hk
      rcases List.mem_cons.1 hx with h | h
      · exact Or.inl h
      · exact Or.inr h
    | succ k =>
      simp only [List.getElem?_cons_succ] at hk
      rcases List.mem_cons.1 hx with h | h
      · subst h; exact Or.inr (by simp)
      · rcases ih hk h with h | h
        · exact Or.inl h
        · exact Or.inr (by simp [h])

theorem countP_eraseIdx {α : Type} {l : List α} {k : Nat} {t : α} (p : α → Bool) (hk : l[k]? = some t) :
    (l.eraseIdx k).countP p + (if p t then 1 else 0) = l.countP p := by
  induction l generalizing k with
  | nil => cases hk
  | cons y l ih =>
    cases k with
    | zero =>
      simp only [List.getElem?_cons_zero, Option.some.injEq] at hk
      subst hk
      simp [List.countP_cons]
    | succ k =>
      simp only [List.getElem?_cons_succ] at hk
      have := ih hk
      simp only [List.eraseIdx_cons_succ, List.countP_cons]
      omega

/-! ### After shutdown -/

/-- Operations on the socket exist only while it is open and not cancelled. -/
def Quiet (v : Tcp) : Prop := (v.isShutdown = true ∨ v.isOpen = false) → ∀ o ∈ v.flying, TOp.isResolve o = true

theorem abortAll_quiet (v : Tcp) : ∀ o ∈ v.abortAll.flying, TOp.isResolve o = true := by
  intro o ho
  exact (List.mem_filter.1 ho).2

theorem Quiet.sendBuffer {v : Tcp} (h : Quiet v) : Quiet v.sendBuffer := by
  unfold Tcp.sendBuffer
  split
  · exact h
  · rename_i hs
    split
    · exact h
    · dsimp only
      split
      · rename_i ho
        intro hh
        simp only [emit] at hh ho
        rcases hh with hh | hh
        · exact absurd hh hs
        · rw [ho] at hh; cases hh
      · exact h

theorem Quiet.beginRead {v : Tcp} (h : Quiet v) : Quiet v.beginRead := by
  unfold Tcp.beginRead
  split
  · exact h
  · rename_i hs
    split
    · rename_i ho
      intro hh
      rcases hh with hh | hh
      · exact absurd hh hs
      · simp only [ho] at hh; cases hh
    · exact h

theorem Quiet.fail {v : Tcp} (h : Quiet v) (c : Nat) : Quiet ((v.close c).sendError c) := by
  unfold sendError close
  repeat' split
  all_goals exact h

theorem Quiet.runTask {v : Tcp} (h : Quiet v) (t : TTask) : Quiet (v.runTask t) := by
  cases t with
  | close c =>
    simp only [Tcp.runTask, runClose]
    split
    · exact h
    · split
      · intro _; exact abortAll_quiet _
      · exact h
  | shutdown => intro _; exact abortAll_quiet _
  | resolved c ok =>
    simp only [Tcp.runTask, onResolved]
    split
    · exact h
    · rename_i hs
      split
      · intro hh
        rcases hh with hh | hh
        · exact absurd hh hs
        · cases hh
      · unfold sendError
        split <;> exact h
  | connected c ok =>
    simp only [Tcp.runTask, onConnected]
    split
    · exact h
    · split
      · exact Quiet.beginRead (Quiet.sendBuffer h)
      · exact h.fail c
  | read c r =>
    simp only [Tcp.runTask, onRead]
    split
    · exact h
    · cases r with
      | eof => unfold close; dsimp only; split <;> exact h
      | error => exact h.fail c
      | data bs => exact h
      | again => exact Quiet.beginRead h
  | written c ok =>
    simp only [Tcp.runTask, onWritten]
    split
    · exact h
    · split
      · exact h
      · exact h.fail c

theorem Quiet.erase {v : Tcp} (h : Quiet v) (i : Nat) : Quiet { v with flying := v.flying.eraseIdx i } := by
  intro hh o ho
  exact h hh o (List.mem_of_mem_eraseIdx ho)

theorem Quiet.step {v v' : Tcp} (h : Quiet v) (op : Op) (hs : v.step op = .ret v') : Quiet v' := by
  cases op with
  | send data loc =>
    injection hs with hs
    subst hs
    unfold send
    split
    · exact h
    · rename_i hsd
      dsimp only
      split
      · split
        · exact h
        · split
          · exact h
          · split
            · intro hh
              rcases hh with hh | hh
              · exact absurd hh hsd
              · cases hh
            · intro hh
              rcases hh with hh | hh
              · exact absurd hh hsd
              · cases hh
      · exact h
      · exact Quiet.sendBuffer h
  | shutdown => injection hs with hs; subst hs; exact h
  | complete i r =>
    simp only [Tcp.step, complete] at hs
    have he := h.erase i
    revert hs
    repeat' split
    all_goals (intro hs; first | (injection hs with hs; subst hs; first | exact h | exact he) | cases hs)
  | run k =>
    simp only [Tcp.step] at hs
    split at hs
    · injection hs with hs; subst hs; exact h
    · injection hs with hs; subst hs
      exact Quiet.runTask (v := { v with queue := v.queue.eraseIdx k }) h _

theorem _root_.Modbus.Spec.TcpReach.quiet {P : Tcp → Op → Prop} {v : Tcp} (h : TcpReach P v) : Quiet v := by
  induction h with
  | init => intro _ o ho; cases ho
  | step _ _ hs ih => exact ih.step _ hs

/-- Once shut down, nothing observable happens any more. -/
theorem shut_step {v : Tcp} (hd : v.isShutdown = true) (hq : Quiet v) (op : Op) :
    ∃ v', v.step op = .ret v' ∧ v'.isShutdown = true ∧ v'.log = v.log ∧ v'.flying.Sublist v.flying := by
  have hres := hq (Or.inl hd)
  cases op with
  | send data loc => exact ⟨v, by simp [Tcp.step, send, hd], hd, rfl, List.Sublist.refl _⟩
  | shutdown => exact ⟨_, rfl, hd, rfl, List.Sublist.refl _⟩
  | complete i r =>
    simp only [Tcp.step, complete]
    cases ho : v.flying[i]? with
    | none => exact ⟨v, rfl, hd, rfl, List.Sublist.refl _⟩
    | some o =>
      have := hres o (List.mem_of_getElem? ho)
      cases o with
      | resolve c =>
        cases r <;> first
          | exact ⟨_, rfl, hd, rfl, List.Sublist.refl _⟩
          | exact ⟨_, rfl, hd, rfl, List.eraseIdx_sublist ..⟩
      | _ => cases this
  | run k =>
    simp only [Tcp.step]
    split
    · exact ⟨v, rfl, hd, rfl, List.Sublist.refl _⟩
    · rename_i t ht
      refine ⟨_, rfl, ?_⟩
      cases t with
      | shutdown => exact ⟨rfl, rfl, List.filter_sublist⟩
      | close c => simp [Tcp.runTask, runClose, hd]
      | resolved c ok => simp [Tcp.runTask, onResolved, hd]
      | connected c ok => simp [Tcp.runTask, onConnected, hd]
      | read c r => simp [Tcp.runTask, onRead, hd]
      | written c ok => simp [Tcp.runTask, onWritten, hd]

/-! ### Liveness -/

/-- An attempt is under way or the connection is about to be closed. -/
def Going (v : Tcp) : Prop := (∃ c, TOp.resolve c ∈ v.flying) ∨ (∃ c, TOp.connect c ∈ v.flying) ∨ (∃ c, TTask.resolved c true ∈ v.queue) ∨
  (∃ c ok, TTask.connected c ok ∈ v.queue) ∨ ∃ c, TTask.close c ∈ v.queue

/-- Somebody is listening to the connection, or it is about to be closed. -/
def Listening (v : Tcp) : Prop := (∃ c, TOp.read c ∈ v.flying) ∨ (∃ c r, TTask.read c r ∈ v.queue) ∨ ∃ c, TTask.close c ∈ v.queue

structure Live (v : Tcp) : Prop where
  connecting : v.status = .connecting → Going v
  closing : v.status = .notConnected → v.isOpen = true → Going v
  connected : v.status = .connected → Listening v
  noFail : ∀ c, TTask.resolved c false ∉ v.queue

/-- `v'` has at least the operations and tasks of `v`, and no failed resolve. -/
structure Grows (v v' : Tcp) : Prop where
  status : v'.status = v.status
  isOpen : v'.isOpen = v.isOpen
  flying : ∀ o ∈ v.flying, o ∈ v'.flying
  queue : ∀ t ∈ v.queue, t ∈ v'.queue
  noFail : ∀ c, TTask.resolved c false ∈ v'.queue → TTask.resolved c false ∈ v.queue

theorem Going.mono {v v' : Tcp} (h1 : ∀ o ∈ v.flying, o ∈ v'.flying) (h2 : ∀ t ∈ v.queue, t ∈ v'.queue) (h : Going v) : Going v' := by
  rcases h with ⟨c, h⟩ | ⟨c, h⟩ | ⟨c, h⟩ | ⟨c, ok, h⟩ | ⟨c, h⟩
  · exact Or.inl ⟨c, h1 _ h⟩
  · exact Or.inr (Or.inl ⟨c, h1 _ h⟩)
  · exact Or.inr (Or.inr (Or.inl ⟨c, h2 _ h⟩))
  · exact Or.inr (Or.inr (Or.inr (Or.inl ⟨c, ok, h2 _ h⟩)))
  · exact Or.inr (Or.inr (Or.inr (Or.inr ⟨c, h2 _ h⟩)))

theorem Listening.mono {v v' : Tcp} (h1 : ∀ o ∈ v.flying, o ∈ v'.flying) (h2 : ∀ t ∈ v.queue, t ∈ v'.queue) (h : Listening v) :
    Listening v' := by
  rcases h with ⟨c, h⟩ | ⟨c, r, h⟩ | ⟨c, h⟩
  · exact Or.inl ⟨c, h1 _ h⟩
  · exact Or.inr (Or.inl ⟨c, r, h2 _ h⟩)
  · exact Or.inr (Or.inr ⟨c, h2 _ h⟩)

theorem Live.mono {v v' : Tcp} (h : Live v) (g : Grows v v') : Live v' := by
  refine ⟨fun hs => (h.connecting (g.status ▸ hs)).mono g.flying g.queue, fun hs ho => (h.closing (g.status ▸ hs) (g.isOpen ▸ ho)).mono g.flying g.queue,
    fun hs => (h.connected (g.status ▸ hs)).mono g.flying g.queue, fun c hc => h.noFail c (g.noFail c hc)⟩

theorem Grows.refl (v : Tcp) : Grows v v := ⟨rfl, rfl, fun _ h => h, fun _ h => h, fun _ h => h⟩

theorem Grows.trans {a b c : Tcp} (h1 : Grows a b) (h2 : Grows b c) : Grows a c :=
  ⟨h2.status.trans h1.status, h2.isOpen.trans h1.isOpen, fun o h => h2.flying o (h1.flying o h), fun t h => h2.queue t (h1.queue t h),
    fun c h => h1.noFail c (h2.noFail c h)⟩

theorem Grows.emit (v : Tcp) (e : TEv) : Grows v (v.emit e) := ⟨rfl, rfl, fun _ h => h, fun _ h => h, fun _ h => h⟩

theorem Grows.post (v : Tcp) (t : TTask) (ht : ∀ c, t ≠ .resolved c false) : Grows v (v.post t) := by
  refine ⟨rfl, rfl, fun _ h => h, fun _ h => List.mem_append_left _ h, fun c h => ?_⟩
  rcases List.mem_append.1 h with h | h
  · exact h
  · exact absurd (List.mem_singleton.1 h).symm (ht c)

theorem Grows.sendBuffer (v : Tcp) : Grows v v.sendBuffer := by
  unfold Tcp.sendBuffer
  split
  · exact .refl v
  · split
    · exact .refl v
    · dsimp only
      split
      · exact ⟨rfl, rfl, fun _ h => List.mem_append_left _ h, fun _ h => h, fun _ h => h⟩
      · exact (Grows.emit v _).trans (Grows.post _ _ (by simp))

theorem Grows.beginRead (v : Tcp) : Grows v v.beginRead := by
  unfold Tcp.beginRead
  split
  · exact .refl v
  · split
    · exact ⟨rfl, rfl, fun _ h => List.mem_append_left _ h, fun _ h => h, fun _ h => h⟩
    · exact Grows.post _ _ (by simp)

theorem beginRead_listening (v : Tcp) (hd : v.isShutdown = false) : Listening v.beginRead := by
  unfold Tcp.beginRead
  rw [hd]
  simp only [Bool.false_eq_true, if_false]
  split
  · exact Or.inl ⟨v.conn, by simp⟩
  · exact Or.inr (Or.inl ⟨v.conn, .error, by simp [Tcp.post]⟩)

/-- The handlers of failures queue a close. -/
theorem fail_close (v : Tcp) (c : Nat) (hd : v.isShutdown = false) : TTask.close c ∈ ((v.close c).sendError c).queue := by
  simp [Tcp.close, sendError, hd, Tcp.post, Tcp.emit]

theorem Grows.fail (v : Tcp) (c : Nat) : Grows v ((v.close c).sendError c) := by
  unfold sendError Tcp.close
  repeat' split
  all_goals first
    | exact .refl v
    | exact Grows.post _ _ (by simp)
    | exact .trans (Grows.post _ _ (by simp)) (Grows.emit _ _)

theorem live_of_close {v : Tcp} {c : Nat} (h : TTask.close c ∈ v.queue) (hf : ∀ c, TTask.resolved c false ∉ v.queue) : Live v :=
  ⟨fun _ => Or.inr (Or.inr (Or.inr (Or.inr ⟨c, h⟩))), fun _ _ => Or.inr (Or.inr (Or.inr (Or.inr ⟨c, h⟩))), fun _ => Or.inr (Or.inr ⟨c, h⟩), hf⟩

theorem onResolved_ok {v : Tcp} (hd : v.isShutdown = false) (c : Nat) :
    v.onResolved c true = { v.abortAll with isOpen := true, flying := v.abortAll.flying ++ [.connect v.conn] } := by
  unfold onResolved
  rw [if_neg (by simp [hd]), if_pos rfl]
  rfl

theorem onResolved_err {v : Tcp} (hd : v.isShutdown = false) (c : Nat) :
    v.onResolved c false = { v with status := .notConnected }.emit (.error c v.conn) := by
  unfold onResolved
  rw [if_neg (by simp [hd]), if_neg (by simp)]
  unfold sendError
  rw [if_neg (by simp [hd])]

theorem fail_eq {v : Tcp} (hd : v.isShutdown = false) (c : Nat) :
    (v.close c).sendError c = (v.post (.close c)).emit (.error c v.conn) := by
  obtain ⟨sd, st, op, cn, wb, nb, fl, qu, lg⟩ := v
  simp only at hd; subst hd; rfl

theorem onConnected_err {v : Tcp} (hd : v.isShutdown = false) (c : Nat) :
    v.onConnected c false = (v.post (.close c)).emit (.error c v.conn) := by
  unfold onConnected
  rw [if_neg (by simp [hd]), if_neg (by simp), fail_eq hd]

theorem onRead_data {v : Tcp} (hd : v.isShutdown = false) (c : Nat) (bs : List UInt8) :
    v.onRead c (.data bs) = (v.emit (.receive c bs)).post (.read c .again) := by
  unfold onRead
  rw [if_neg (by simp [hd])]

theorem onRead_again {v : Tcp} (hd : v.isShutdown = false) (c : Nat) : v.onRead c .again = v.beginRead := by
  unfold onRead
  rw [if_neg (by simp [hd])]

theorem onRead_eof {v : Tcp} (hd : v.isShutdown = false) (c : Nat) : v.onRead c .eof = v.post (.close c) := by
  unfold onRead close
  rw [if_neg (by simp [hd])]
  simp [hd]

theorem onRead_error {v : Tcp} (hd : v.isShutdown = false) (c : Nat) : v.onRead c .error = (v.post (.close c)).emit (.error c v.conn) := by
  rw [← fail_eq hd]
  unfold onRead
  rw [if_neg (by simp [hd])]

theorem onWritten_ok {v : Tcp} (hd : v.isShutdown = false) (c : Nat) : v.onWritten c true = { v with wbuf := none }.emit .writeDone := by
  unfold onWritten
  rw [if_neg (by simp [hd]), if_pos rfl]

theorem onWritten_err {v : Tcp} (hd : v.isShutdown = false) (c : Nat) :
    v.onWritten c false = (v.post (.close c)).emit (.error c v.conn) := by
  unfold onWritten
  rw [if_neg (by simp [hd]), if_neg (by simp), fail_eq hd]

theorem runClose_open {v : Tcp} (hd : v.isShutdown = false) (ho : v.isOpen = true) (c : Nat) :
    v.runClose c = { { v.emit (.closed c v.conn) with status := .notConnected }.abortAll with isOpen := false } := by
  unfold runClose
  rw [if_neg (by simp [hd])]
  dsimp only
  rw [if_pos (by simpa [Tcp.emit] using ho)]

theorem runClose_closed {v : Tcp} (hd : v.isShutdown = false) (ho : v.isOpen = false) (c : Nat) :
    v.runClose c = { v.emit (.closed c v.conn) with status := .notConnected } := by
  unfold runClose
  rw [if_neg (by simp [hd])]
  dsimp only
  rw [if_neg (by simp [Tcp.emit, ho])]

theorem beginRead_open {v : Tcp} (hd : v.isShutdown = false) (ho : v.isOpen = true) :
    v.beginRead = { v with flying := v.flying ++ [.read v.conn] } := by
  unfold beginRead
  rw [if_neg (by simp [hd]), if_pos ho]

theorem beginRead_closed {v : Tcp} (hd : v.isShutdown = false) (ho : v.isOpen = false) : v.beginRead = v.post (.read v.conn .error) := by
  unfold beginRead
  rw [if_neg (by simp [hd]), if_neg (by simp [ho])]

theorem sendBuffer_none {v : Tcp} (h : v.wbuf = none) : v.sendBuffer = v := by
  unfold sendBuffer
  rw [h]
  simp

theorem sendBuffer_open {v : Tcp} (hd : v.isShutdown = false) (ho : v.isOpen = true) {b : Nat} {d : List UInt8} (h : v.wbuf = some (b, d)) :
    v.sendBuffer = { v.emit (.submit v.conn d) with flying := v.flying ++ [.write v.conn b d] } := by
  unfold sendBuffer
  rw [if_neg (by simp [hd]), h]
  dsimp only
  rw [if_pos (by simpa [Tcp.emit] using ho)]
  rfl

theorem sendBuffer_closed {v : Tcp} (hd : v.isShutdown = false) (ho : v.isOpen = false) {b : Nat} {d : List UInt8} (h : v.wbuf = some (b, d)) :
    v.sendBuffer = (v.emit (.submit v.conn d)).post (.written v.conn false) := by
  unfold sendBuffer
  rw [if_neg (by simp [hd]), h]
  dsimp only
  rw [if_neg (by simp [Tcp.emit, ho])]
  rfl

/-- The beginning of `send`. -/
def ask (v : Tcp) (data : List UInt8) : Tcp := { v.emit (.asked data) with wbuf := some (v.nextBuf, data), nextBuf := v.nextBuf + 1 }

theorem send_connected {v : Tcp} (hd : v.isShutdown = false) (hs : v.status = .connected) (data : List UInt8) (loc : TLocal) :
    v.send data loc = (v.ask data).sendBuffer := by
  obtain ⟨sd, st, op, cn, wb, nb, fl, qu, lg⟩ := v
  simp only at hd hs; subst hd hs; rfl

theorem send_connecting {v : Tcp} (hd : v.isShutdown = false) (hs : v.status = .connecting) (data : List UInt8) (loc : TLocal) :
    v.send data loc = v.ask data := by
  obtain ⟨sd, st, op, cn, wb, nb, fl, qu, lg⟩ := v
  simp only at hd hs; subst hd hs; rfl

theorem send_start {v : Tcp} (hd : v.isShutdown = false) (hs : v.status = .notConnected) (ho : v.isOpen = false) (data : List UInt8) :
    v.send data .ok = { (v.ask data).emit (.attempt (v.conn + 1)) with isOpen := true, status := .connecting, conn := v.conn + 1, flying := v.flying ++ [.resolve (v.conn + 1)] } := by
  obtain ⟨sd, st, op, cn, wb, nb, fl, qu, lg⟩ := v
  simp only at hd hs ho; subst hd hs ho; rfl

/-- Without a free socket, `send` keeps the data but does nothing. -/
theorem send_gaveUp {v : Tcp} (hd : v.isShutdown = false) (hs : v.status = .notConnected) (data : List UInt8) (loc : TLocal)
    (h : v.isOpen = true ∨ loc ≠ .ok) : ∃ o, v.send data loc = { (v.ask data).emit .gaveUp with isOpen := o } ∧ (v.isOpen = true → o = true) := by
  obtain ⟨sd, st, op, cn, wb, nb, fl, qu, lg⟩ := v
  simp only at hd hs h
  subst hd hs
  cases op
  · cases loc
    · simp at h
    · exact ⟨false, rfl, by simp⟩
    · exact ⟨false, rfl, by simp⟩
    · exact ⟨true, rfl, by simp⟩
  · cases loc <;> exact ⟨true, rfl, by simp⟩

theorem onConnected_ok {v : Tcp} (hd : v.isShutdown = false) (c : Nat) :
    v.onConnected c true = { v with status := .connected }.sendBuffer.beginRead := by
  unfold onConnected
  rw [if_neg (by simp [hd]), if_pos rfl]

/-- Running a task: what it leaves behind. -/
theorem Live.runTask {v : Tcp} {k : Nat} {t : TTask} (hd : v.isShutdown = false) (h : Live v) (hk : v.queue[k]? = some t) :
    ({ v with queue := v.queue.eraseIdx k }.runTask t).isShutdown = true ∨ Live ({ v with queue := v.queue.eraseIdx k }.runTask t) := by
  obtain ⟨h1, h2, h3, h4⟩ := h
  have hf : ∀ c, TTask.resolved c false ∉ v.queue.eraseIdx k := fun c hc => h4 c (List.mem_of_mem_eraseIdx hc)
  have hl : ∀ x ∈ v.queue, x = t ∨ x ∈ v.queue.eraseIdx k := fun x hx => mem_eraseIdx_or hk hx
  have going : (∀ c, t ≠ .resolved c true) → (∀ c ok, t ≠ .connected c ok) → (∀ c, t ≠ .close c) → Going v →
      Going { v with queue := v.queue.eraseIdx k } := by
    intro n1 n2 n3 hg
    rcases hg with ⟨c, h⟩ | ⟨c, h⟩ | ⟨c, h⟩ | ⟨c, ok, h⟩ | ⟨c, h⟩
    · exact Or.inl ⟨c, h⟩
    · exact Or.inr (Or.inl ⟨c, h⟩)
    · exact Or.inr (Or.inr (Or.inl ⟨c, (hl _ h).resolve_left fun e => n1 c e.symm⟩))
    · exact Or.inr (Or.inr (Or.inr (Or.inl ⟨c, ok, (hl _ h).resolve_left fun e => n2 c ok e.symm⟩)))
    · exact Or.inr (Or.inr (Or.inr (Or.inr ⟨c, (hl _ h).resolve_left fun e => n3 c e.symm⟩)))
  have listening : (∀ c r, t ≠ .read c r) → (∀ c, t ≠ .close c) → Listening v → Listening { v with queue := v.queue.eraseIdx k } := by
    intro n1 n2 hg
    rcases hg with ⟨c, h⟩ | ⟨c, r, h⟩ | ⟨c, h⟩
    · exact Or.inl ⟨c, h⟩
    · exact Or.inr (Or.inl ⟨c, r, (hl _ h).resolve_left fun e => n1 c r e.symm⟩)
    · exact Or.inr (Or.inr ⟨c, (hl _ h).resolve_left fun e => n2 c e.symm⟩)
  cases t with
  | shutdown => exact Or.inl rfl
  | close c =>
    right
    simp only [Tcp.runTask, runClose, hd, Bool.false_eq_true, if_false]
    split
    · refine ⟨by simp [abortAll, Tcp.emit], by simp, by simp [abortAll, Tcp.emit], fun c' hc => ?_⟩
      rcases List.mem_append.1 hc with hc | hc
      · exact hf c' hc
      · obtain ⟨o, -, ho⟩ := List.mem_filterMap.1 hc
        cases o <;> simp [aborted] at ho
    · rename_i ho
      refine ⟨by simp [Tcp.emit], ?_, by simp [Tcp.emit], hf⟩
      intro _ h
      exact absurd h ho
  | resolved c ok =>
    right
    cases ok with
    | false => exact absurd (List.mem_of_getElem? hk) (h4 c)
    | true =>
      simp only [Tcp.runTask, onResolved, hd, Bool.false_eq_true, if_false, if_true]
      have hg : ∀ q, Going { v with queue := q, isOpen := true, flying := v.flying.filter TOp.isResolve ++ [.connect v.conn] } :=
        fun q => Or.inr (Or.inl ⟨v.conn, by simp⟩)
      refine ⟨fun _ => hg _, fun _ _ => hg _, fun hs => ?_, fun c' hc => ?_⟩
      · rcases listening (by simp) (by simp) (h3 hs) with ⟨c', h⟩ | ⟨c', r, h⟩ | ⟨c', h⟩
        · exact Or.inr (Or.inl ⟨c', .error, List.mem_append_right _ (List.mem_filterMap.2 ⟨_, h, rfl⟩)⟩)
        · exact Or.inr (Or.inl ⟨c', r, List.mem_append_left _ h⟩)
        · exact Or.inr (Or.inr ⟨c', List.mem_append_left _ h⟩)
      · rcases List.mem_append.1 hc with hc | hc
        · exact hf c' hc
        · obtain ⟨o, -, ho⟩ := List.mem_filterMap.1 hc
          cases o <;> simp [aborted] at ho
  | connected c ok =>
    right
    cases ok with
    | true =>
      show Live (onConnected _ c true)
      rw [onConnected_ok (v := { v with queue := v.queue.eraseIdx k }) hd]
      have g := (Grows.sendBuffer { v with queue := v.queue.eraseIdx k, status := .connected })
      have g2 := g.trans (Grows.beginRead _)
      have hsd : (Tcp.sendBuffer { v with queue := v.queue.eraseIdx k, status := .connected }).isShutdown = false := by
        unfold Tcp.sendBuffer
        rw [hd]
        simp only [Bool.false_eq_true, if_false]
        split
        · rfl
        · split <;> rfl
      refine ⟨fun hs => ?_, fun hs _ => ?_, fun _ => beginRead_listening _ hsd, fun c' hc => hf c' (g2.noFail c' hc)⟩
      · have := g2.status; simp only at this; rw [hs] at this; cases this
      · have := g2.status; simp only at this; rw [hs] at this; cases this
    | false =>
      simp only [Tcp.runTask, onConnected, hd, Bool.false_eq_true, if_false]
      exact live_of_close (fail_close _ c rfl) fun c' hc => hf c' ((Grows.fail _ c).noFail c' hc)
  | read c r =>
    right
    simp only [Tcp.runTask, onRead, hd, Bool.false_eq_true, if_false]
    cases r with
    | eof =>
      refine live_of_close (c := c) (by simp [Tcp.close, Tcp.post]) fun c' hc => hf c' ?_
      simp only [Tcp.close, Bool.false_eq_true, if_false] at hc
      exact (Grows.post _ _ (by simp)).noFail c' hc
    | error => exact live_of_close (fail_close _ c rfl) fun c' hc => hf c' ((Grows.fail _ c).noFail c' hc)
    | data bs =>
      have g := (Grows.emit { v with queue := v.queue.eraseIdx k } (.receive c bs)).trans (Grows.post _ (.read c .again) (by simp))
      rw [hd] at g
      refine ⟨fun hs => ?_, fun hs ho => ?_, fun _ => Or.inr (Or.inl ⟨c, .again, by simp [Tcp.post]⟩), fun c' hc => hf c' (g.noFail c' hc)⟩
      · exact (going (by simp) (by simp) (by simp) (h1 (g.status ▸ hs))).mono g.flying g.queue
      · exact (going (by simp) (by simp) (by simp) (h2 (g.status ▸ hs) (g.isOpen ▸ ho))).mono g.flying g.queue
    | again =>
      show Live (Tcp.beginRead _)
      rw [← hd]
      have g := Grows.beginRead { v with queue := v.queue.eraseIdx k }
      refine ⟨fun hs => ?_, fun hs ho => ?_, fun _ => beginRead_listening _ hd, fun c' hc => hf c' (g.noFail c' hc)⟩
      · exact (going (by simp) (by simp) (by simp) (h1 (g.status ▸ hs))).mono g.flying g.queue
      · exact (going (by simp) (by simp) (by simp) (h2 (g.status ▸ hs) (g.isOpen ▸ ho))).mono g.flying g.queue
  | written c ok =>
    right
    simp only [Tcp.runTask, onWritten, hd, Bool.false_eq_true, if_false]
    split
    · exact ⟨fun hs => going (by simp) (by simp) (by simp) (h1 hs), fun hs ho => going (by simp) (by simp) (by simp) (h2 hs ho),
        fun hs => listening (by simp) (by simp) (h3 hs), hf⟩
    · exact live_of_close (fail_close _ c rfl) fun c' hc => hf c' ((Grows.fail _ c).noFail c' hc)

theorem Live.step {v v' : Tcp} (h : v.isShutdown = true ∨ Live v) (op : Op) (hp : NoLocalFailure v op) (hs : v.step op = .ret v') (hq : Quiet v) :
    v'.isShutdown = true ∨ Live v' := by
  cases hd : v.isShutdown with
  | true =>
    obtain ⟨v2, e1, e2, -⟩ := shut_step hd hq op
    rw [hs] at e1
    injection e1 with e1
    subst e1
    exact Or.inl e2
  | false =>
    have h : Live v := h.resolve_left (by simp [hd])
    cases op with
    | send data loc =>
      right
      injection hs with hs
      subst hs
      obtain rfl := hp.1 data loc rfl
      cases hst : v.status with
      | notConnected =>
        cases ho : v.isOpen with
        | true =>
          obtain ⟨o, e, e'⟩ := send_gaveUp hd hst data .ok (Or.inl ho)
          rw [e, e' ho]
          obtain ⟨h1, h2, h3, h4⟩ := h
          exact ⟨fun h => h1 h, fun h _ => h2 hst ho, fun h => h3 h, h4⟩
        | false =>
          rw [send_start hd hst ho]
          exact ⟨fun _ => Or.inl ⟨v.conn + 1, by simp⟩, by simp, by simp, h.noFail⟩
      | connecting =>
        rw [send_connecting hd hst]
        exact ⟨h.1, h.2, h.3, h.4⟩
      | connected =>
        rw [send_connected hd hst]
        exact Live.mono (v := v.ask data) ⟨h.1, h.2, h.3, h.4⟩ (Grows.sendBuffer _)
    | shutdown =>
      right
      injection hs with hs
      subst hs
      exact h.mono (Grows.post _ _ (by simp))
    | complete i r =>
      right
      obtain ⟨h1, h2, h3, h4⟩ := h
      -- moving an operation to the queue
      have key : ∀ (o : TOp) (t : TTask) (v' : Tcp), v.flying[i]? = some o → v'.status = v.status → v'.isOpen = v.isOpen →
          v'.flying = v.flying.eraseIdx i → v'.queue = v.queue ++ [t] → (∀ c, o = .resolve c → t = .resolved c true) →
          (∀ c, o = .connect c → ∃ ok, t = .connected c ok) → (∀ c, o = .read c → ∃ r, t = .read c r) → (∀ c, t ≠ .resolved c false) →
          Live v' := by
        intro o t v' ho e1 e2 e3 e4 k1 k2 k3 k4
        have going : Going v → Going v' := by
          intro hg
          rcases hg with ⟨c, h⟩ | ⟨c, h⟩ | ⟨c, h⟩ | ⟨c, ok, h⟩ | ⟨c, h⟩
          · rcases mem_eraseIdx_or ho h with rfl | h
            · exact Or.inr (Or.inr (Or.inl ⟨c, by rw [e4]; simp [k1 c rfl]⟩))
            · exact Or.inl ⟨c, by rw [e3]; exact h⟩
          · rcases mem_eraseIdx_or ho h with rfl | h
            · obtain ⟨ok, rfl⟩ := k2 c rfl
              exact Or.inr (Or.inr (Or.inr (Or.inl ⟨c, ok, by rw [e4]; simp⟩)))
            · exact Or.inr (Or.inl ⟨c, by rw [e3]; exact h⟩)
          · exact Or.inr (Or.inr (Or.inl ⟨c, by rw [e4]; exact List.mem_append_left _ h⟩))
          · exact Or.inr (Or.inr (Or.inr (Or.inl ⟨c, ok, by rw [e4]; exact List.mem_append_left _ h⟩)))
          · exact Or.inr (Or.inr (Or.inr (Or.inr ⟨c, by rw [e4]; exact List.mem_append_left _ h⟩)))
        refine ⟨fun hs => going (h1 (e1 ▸ hs)), fun hs ho => going (h2 (e1 ▸ hs) (e2 ▸ ho)), fun hs => ?_, fun c hc => ?_⟩
        · rcases h3 (e1 ▸ hs) with ⟨c, h⟩ | ⟨c, r, h⟩ | ⟨c, h⟩
          · rcases mem_eraseIdx_or ho h with rfl | h
            · obtain ⟨r, rfl⟩ := k3 c rfl
              exact Or.inr (Or.inl ⟨c, r, by rw [e4]; simp⟩)
            · exact Or.inl ⟨c, by rw [e3]; exact h⟩
          · exact Or.inr (Or.inl ⟨c, r, by rw [e4]; exact List.mem_append_left _ h⟩)
          · exact Or.inr (Or.inr ⟨c, by rw [e4]; exact List.mem_append_left _ h⟩)
        · rw [e4] at hc
          rcases List.mem_append.1 hc with hc | hc
          · exact h4 c hc
          · exact k4 c (List.mem_singleton.1 hc).symm
      have same : Live v := ⟨h1, h2, h3, h4⟩
      simp only [Tcp.step, complete] at hs
      cases ho : v.flying[i]? with
      | none => rw [ho] at hs; injection hs with hs; subst hs; exact same
      | some o =>
        rw [ho] at hs
        cases o with
        | resolve c =>
          cases r with
          | ok => injection hs with hs; subst hs; exact key _ _ _ ho rfl rfl rfl rfl (by simp) (by simp) (by simp) (by simp)
          | error => exact absurd ho (hp.2 i c rfl)
          | _ => injection hs with hs; subst hs; exact same
        | connect c =>
          cases r with
          | ok => injection hs with hs; subst hs; exact key _ _ _ ho rfl rfl rfl rfl (by simp) (by simp) (by simp) (by simp)
          | error => injection hs with hs; subst hs; exact key _ _ _ ho rfl rfl rfl rfl (by simp) (by simp) (by simp) (by simp)
          | _ => injection hs with hs; subst hs; exact same
        | read c =>
          cases r with
          | data bs =>
            simp only at hs
            split at hs
            · injection hs with hs; subst hs; exact key _ _ _ ho rfl rfl rfl rfl (by simp) (by simp) (by simp) (by simp)
            · injection hs with hs; subst hs; exact same
          | eof => injection hs with hs; subst hs; exact key _ _ _ ho rfl rfl rfl rfl (by simp) (by simp) (by simp) (by simp)
          | error => injection hs with hs; subst hs; exact key _ _ _ ho rfl rfl rfl rfl (by simp) (by simp) (by simp) (by simp)
          | _ => injection hs with hs; subst hs; exact same
        | write c b d =>
          cases r with
          | sent n =>
            simp only at hs
            split at hs
            · split at hs
              · injection hs with hs; subst hs; exact key _ _ _ ho rfl rfl rfl rfl (by simp) (by simp) (by simp) (by simp)
              · cases hs
            · injection hs with hs; subst hs; exact same
          | error => injection hs with hs; subst hs; exact key _ _ _ ho rfl rfl rfl rfl (by simp) (by simp) (by simp) (by simp)
          | _ => injection hs with hs; subst hs; exact same
    | run k =>
      simp only [Tcp.step] at hs
      split at hs
      · injection hs with hs; subst hs; exact Or.inr h
      · rename_i t ht
        injection hs with hs; subst hs
        exact h.runTask hd ht

/-! ### Histories in which every connection attempt starts afresh -/

def isDataOp : TOp → Bool
  | .read _ | .write _ _ _ => true
  | _ => false

def isDataTask : TTask → Bool
  | .read _ _ | .written _ _ => true
  | _ => false

def isCloseTask : TTask → Bool
  | .close _ => true
  | _ => false

/-- Reads and writes in progress or with a queued handler. -/
def dataOps (v : Tcp) : Nat := v.flying.countP isDataOp + v.queue.countP isDataTask

/-- Queued closes. -/
def closes (v : Tcp) : Nat := v.queue.countP isCloseTask

def opTag : TOp → Nat
  | .resolve c | .connect c | .read c | .write c _ _ => c

def taskTag : TTask → Option Nat
  | .shutdown => none
  | .close c | .resolved c _ | .connected c _ | .read c _ | .written c _ => some c

theorem abort_attempts (l : List TOp) :
    (l.filter TOp.isResolve).countP isAttemptOp + (l.filterMap aborted).countP isAttemptTask = l.countP isAttemptOp := by
  induction l with
  | nil => rfl
  | cons o l ih => cases o <;> simp only [List.filter_cons, List.filterMap_cons, TOp.isResolve, aborted, List.countP_cons, isAttemptOp, isAttemptTask, if_true, if_false, Bool.false_eq_true] <;> omega

theorem abort_data (l : List TOp) :
    (l.filter TOp.isResolve).countP isDataOp + (l.filterMap aborted).countP isDataTask = l.countP isDataOp := by
  induction l with
  | nil => rfl
  | cons o l ih => cases o <;> simp only [List.filter_cons, List.filterMap_cons, TOp.isResolve, aborted, List.countP_cons, isDataOp, isDataTask, if_true, if_false, Bool.false_eq_true] <;> omega

theorem abort_closes (l : List TOp) : (l.filterMap aborted).countP isCloseTask = 0 := by
  induction l with
  | nil => rfl
  | cons o l ih => cases o <;> simp only [List.filterMap_cons, aborted, List.countP_cons, isCloseTask, if_false, Bool.false_eq_true] <;> omega

theorem abortAll_attempts (v : Tcp) : tcpAttempts v.abortAll = tcpAttempts v := by
  have := abort_attempts v.flying
  simp only [tcpAttempts, abortAll, List.countP_append]
  omega

theorem abortAll_data (v : Tcp) : dataOps v.abortAll = dataOps v := by
  have := abort_data v.flying
  simp only [dataOps, abortAll, List.countP_append]
  omega

theorem abortAll_closes (v : Tcp) : closes v.abortAll = closes v := by
  have := abort_closes v.flying
  simp only [closes, abortAll, List.countP_append]
  omega

/-- Tags are current. -/
structure Tagged (v : Tcp) : Prop where
  flying : ∀ o ∈ v.flying, opTag o = v.conn
  queue : ∀ t ∈ v.queue, ∀ c, taskTag t = some c → c = v.conn
  log : ∀ c cur, TEv.error c cur ∈ v.log ∨ TEv.closed c cur ∈ v.log → c = cur

theorem Tagged.abortAll {v : Tcp} (h : Tagged v) : Tagged v.abortAll := by
  refine ⟨fun o ho => h.flying o (List.mem_filter.1 ho).1, fun t ht c hc => ?_, h.log⟩
  rcases List.mem_append.1 ht with ht | ht
  · exact h.queue t ht c hc
  · obtain ⟨o, h1, h2⟩ := List.mem_filterMap.1 ht
    have := h.flying o h1
    cases o <;> simp [aborted] at h2 <;> subst h2 <;> simp [taskTag] at hc <;> subst hc <;> exact this

theorem Tagged.emit {v : Tcp} (h : Tagged v) (e : TEv) (he : ∀ c cur, e = .error c cur ∨ e = .closed c cur → c = cur) : Tagged (v.emit e) := by
  refine ⟨h.flying, h.queue, fun c cur hm => ?_⟩
  simp only [Tcp.emit, List.mem_append, List.mem_singleton] at hm
  rcases hm with (hm | hm) | (hm | hm)
  · exact h.log c cur (Or.inl hm)
  · exact he c cur (Or.inl hm.symm)
  · exact h.log c cur (Or.inr hm)
  · exact he c cur (Or.inr hm.symm)

theorem Tagged.post {v : Tcp} (h : Tagged v) (t : TTask) (ht : ∀ c, taskTag t = some c → c = v.conn) : Tagged (v.post t) := by
  refine ⟨h.flying, fun x hx c hc => ?_, h.log⟩
  rcases List.mem_append.1 hx with hx | hx
  · exact h.queue x hx c hc
  · rw [List.mem_singleton.1 hx] at hc; exact ht c hc

theorem Tagged.fly {v : Tcp} (h : Tagged v) (o : TOp) (ho : opTag o = v.conn) : Tagged { v with flying := v.flying ++ [o] } := by
  refine ⟨fun x hx => ?_, h.queue, h.log⟩
  rcases List.mem_append.1 hx with hx | hx
  · exact h.flying x hx
  · rw [List.mem_singleton.1 hx]; exact ho

theorem Tagged.pop {v : Tcp} (h : Tagged v) (k : Nat) : Tagged { v with queue := v.queue.eraseIdx k } :=
  ⟨h.flying, fun t ht => h.queue t (List.mem_of_mem_eraseIdx ht), h.log⟩

theorem Tagged.land {v : Tcp} (h : Tagged v) (i : Nat) : Tagged { v with flying := v.flying.eraseIdx i } :=
  ⟨fun o ho => h.flying o (List.mem_of_mem_eraseIdx ho), h.queue, h.log⟩

/-- The invariant of histories in which every attempt starts afresh. -/
structure Neat (v : Tcp) : Prop where
  tags : Tagged v
  connecting : v.status = .connecting → dataOps v = 0 ∧ (tcpAttempts v = 1 ∧ closes v = 0 ∨ tcpAttempts v = 0)
  other : v.status ≠ .connecting → tcpAttempts v = 0

theorem sendBuffer_same (v : Tcp) : v.sendBuffer.isShutdown = v.isShutdown ∧ v.sendBuffer.status = v.status ∧ v.sendBuffer.isOpen = v.isOpen ∧
    v.sendBuffer.conn = v.conn ∧ v.sendBuffer.wbuf = v.wbuf := by
  unfold sendBuffer
  split
  · exact ⟨rfl, rfl, rfl, rfl, rfl⟩
  · split
    · exact ⟨rfl, rfl, rfl, rfl, rfl⟩
    · rename_i h
      dsimp only
      split <;> exact ⟨rfl, rfl, rfl, rfl, rfl⟩

theorem beginRead_same (v : Tcp) : v.beginRead.isShutdown = v.isShutdown ∧ v.beginRead.status = v.status ∧ v.beginRead.isOpen = v.isOpen ∧
    v.beginRead.conn = v.conn ∧ v.beginRead.wbuf = v.wbuf ∧ v.beginRead.log = v.log := by
  unfold beginRead
  split
  · exact ⟨rfl, rfl, rfl, rfl, rfl, rfl⟩
  · split <;> exact ⟨rfl, rfl, rfl, rfl, rfl, rfl⟩

theorem Tagged.sendBuffer {v : Tcp} (h : Tagged v) : Tagged v.sendBuffer ∧ tcpAttempts v.sendBuffer = tcpAttempts v := by
  unfold Tcp.sendBuffer
  split
  · exact ⟨h, rfl⟩
  · split
    · exact ⟨h, rfl⟩
    · dsimp only
      split
      · refine ⟨Tagged.fly (v := v.emit _) (h.emit _ (by simp)) _ rfl, ?_⟩
        simp [tcpAttempts, Tcp.emit, isAttemptOp]
      · refine ⟨Tagged.post (v := v.emit _) (h.emit _ (by simp)) _ ?_, ?_⟩
        · intro c hc; simp [taskTag] at hc; exact hc.symm
        · simp [tcpAttempts, Tcp.emit, Tcp.post, isAttemptTask]

theorem Tagged.beginRead {v : Tcp} (h : Tagged v) : Tagged v.beginRead ∧ tcpAttempts v.beginRead = tcpAttempts v := by
  unfold Tcp.beginRead
  split
  · exact ⟨h, rfl⟩
  · split
    · exact ⟨h.fly _ rfl, by simp [tcpAttempts, isAttemptOp]⟩
    · refine ⟨h.post _ ?_, by simp [tcpAttempts, Tcp.post, isAttemptTask]⟩
      intro c hc; simp [taskTag] at hc; exact hc.symm

theorem Tagged.of_eq {v v' : Tcp} (h : Tagged v) (h1 : v'.flying = v.flying) (h2 : v'.queue = v.queue) (h3 : v'.conn = v.conn) (h4 : v'.log = v.log) :
    Tagged v' := by
  refine ⟨?_, ?_, ?_⟩
  · rw [h1, h3]; exact h.flying
  · rw [h2, h3]; exact h.queue
  · rw [h4]; exact h.log

/-- Errors and closes belong to the current attempt. -/
def TagLog (v : Tcp) : Prop := ∀ c cur, TEv.error c cur ∈ v.log ∨ TEv.closed c cur ∈ v.log → c = cur

theorem Neat.runTask {v : Tcp} {k : Nat} {t : TTask} (hd : v.isShutdown = false) (h : Neat v) (hk : v.queue[k]? = some t) :
    (({ v with queue := v.queue.eraseIdx k }.runTask t).isShutdown = true ∧ TagLog ({ v with queue := v.queue.eraseIdx k }.runTask t)) ∨
      Neat ({ v with queue := v.queue.eraseIdx k }.runTask t) := by
  obtain ⟨h1, h2, h3⟩ := h
  have ht : ∀ c, taskTag t = some c → c = v.conn := h1.queue t (List.mem_of_getElem? hk)
  have e1 := countP_eraseIdx isAttemptTask hk
  have e2 := countP_eraseIdx isDataTask hk
  have e3 := countP_eraseIdx isCloseTask hk
  obtain ⟨w, hw⟩ : ∃ w, w = { v with queue := v.queue.eraseIdx k } := ⟨_, rfl⟩
  have hwd : w.isShutdown = false := by rw [hw]; exact hd
  have hwt : Tagged w := by rw [hw]; exact h1.pop k
  have hws : w.status = v.status := by rw [hw]
  have hwc : w.conn = v.conn := by rw [hw]
  have a1 : tcpAttempts w + (if isAttemptTask t then 1 else 0) = tcpAttempts v := by
    rw [hw]; simp only [tcpAttempts]; omega
  have a2 : dataOps w + (if isDataTask t then 1 else 0) = dataOps v := by
    rw [hw]; simp only [dataOps]; omega
  have a3 : closes w + (if isCloseTask t then 1 else 0) = closes v := by
    rw [hw]; simp only [closes]; omega
  rw [← hw]
  have failing : ∀ c, c = v.conn → (v.status = .connecting → dataOps w = 0 ∧ tcpAttempts w = 0) → (v.status ≠ .connecting → tcpAttempts w = 0) →
      Neat ((w.post (.close c)).emit (.error c w.conn)) := by
    intro c hc b1 b2
    refine ⟨(hwt.post _ ?_).emit _ ?_, ?_, ?_⟩
    · intro c' hc'; simp [taskTag] at hc'; rw [← hc', hc, hwc]
    · intro c' cur hc'; simp at hc'; rw [← hc'.1, ← hc'.2, hc, hwc]
    · intro hs
      have hs : v.status = .connecting := hws ▸ hs
      have q1 : tcpAttempts ((w.post (.close c)).emit (.error c w.conn)) = tcpAttempts w := by
        simp [tcpAttempts, Tcp.post, Tcp.emit, isAttemptTask]
      have q2 : dataOps ((w.post (.close c)).emit (.error c w.conn)) = dataOps w := by
        simp [dataOps, Tcp.post, Tcp.emit, isDataTask]
      rw [q1, q2]
      exact ⟨(b1 hs).1, Or.inr (b1 hs).2⟩
    · intro hs
      have hs : v.status ≠ .connecting := hws ▸ hs
      have q1 : tcpAttempts ((w.post (.close c)).emit (.error c w.conn)) = tcpAttempts w := by
        simp [tcpAttempts, Tcp.post, Tcp.emit, isAttemptTask]
      rw [q1]; exact b2 hs
  cases t with
  | shutdown => exact Or.inl ⟨rfl, hwt.log⟩
  | close c =>
    right
    simp only [isAttemptTask, isDataTask, isCloseTask, Bool.false_eq_true, if_false, if_true, Nat.add_zero] at a1 a2 a3
    have hat : tcpAttempts w = 0 := by
      by_cases hs : v.status = .connecting
      · rcases (h2 hs).2 with ⟨-, hc⟩ | hc
        · omega
        · omega
      · have := h3 hs; omega
    have hem : Tagged (w.emit (.closed c w.conn)) := hwt.emit _ (by
      intro c' cur hc'; simp at hc'; rw [← hc'.1, ← hc'.2, hwc]; exact ht c rfl)
    have hem' : Tagged { w.emit (.closed c w.conn) with status := .notConnected } := hem.of_eq rfl rfl rfl rfl
    simp only [Tcp.runTask]
    cases ho : w.isOpen with
    | true =>
      rw [runClose_open hwd ho]
      refine ⟨hem'.abortAll.of_eq rfl rfl rfl rfl, by simp [Tcp.abortAll], fun _ => ?_⟩
      have := abortAll_attempts { w.emit (.closed c w.conn) with status := .notConnected }
      simp only [tcpAttempts, Tcp.emit] at this hat ⊢
      omega
    | false =>
      rw [runClose_closed hwd ho]
      exact ⟨hem', by simp, fun _ => hat⟩
  | resolved c ok =>
    right
    simp only [isAttemptTask, isDataTask, isCloseTask, Bool.false_eq_true, if_false, if_true, Nat.add_zero] at a1 a2 a3
    have hs : v.status = .connecting := by
      by_contra hs; have := h3 hs; omega
    obtain ⟨c1, c2⟩ := h2 hs
    simp only [Tcp.runTask]
    cases ok with
    | true =>
      rw [onResolved_ok hwd]
      have q1 := abortAll_attempts w
      have q2 := abortAll_data w
      have q3 := abortAll_closes w
      have hcl : closes v = 0 := by
        rcases c2 with c2 | c2
        · exact c2.2
        · omega
      refine ⟨(hwt.abortAll.fly (.connect w.conn) rfl).of_eq rfl rfl rfl rfl, fun _ => ⟨?_, Or.inl ⟨?_, ?_⟩⟩, fun hs' => absurd (hws.trans hs) hs'⟩
      · simp only [dataOps, List.countP_append, List.countP_singleton, isDataOp, Bool.false_eq_true, if_false] at q2 a2 c1 ⊢; omega
      · simp only [tcpAttempts, List.countP_append, List.countP_singleton, isAttemptOp, if_true] at q1 a1 c2 ⊢; omega
      · simp only [closes] at q3 a3 hcl ⊢; omega
    | false =>
      rw [onResolved_err hwd]
      refine ⟨Tagged.emit (v := { w with status := .notConnected }) (hwt.of_eq rfl rfl rfl rfl) _ ?_, by simp [Tcp.emit], fun _ => ?_⟩
      · intro c' cur hc'; simp at hc'; rw [← hc'.1, ← hc'.2, hwc]; exact ht c rfl
      · simp only [tcpAttempts, Tcp.emit] at a1 c2 ⊢; omega
  | connected c ok =>
    right
    simp only [isAttemptTask, isDataTask, isCloseTask, Bool.false_eq_true, if_false, if_true, Nat.add_zero] at a1 a2 a3
    have hs : v.status = .connecting := by
      by_contra hs; have := h3 hs; omega
    obtain ⟨c1, c2⟩ := h2 hs
    simp only [Tcp.runTask]
    cases ok with
    | true =>
      rw [onConnected_ok hwd]
      have g1 := Tagged.sendBuffer (v := { w with status := .connected }) (hwt.of_eq rfl rfl rfl rfl)
      have g2 := g1.1.beginRead
      have hst : ({ w with status := .connected } : Tcp).sendBuffer.beginRead.status = .connected := by
        rw [(beginRead_same _).2.1, (sendBuffer_same _).2.1]
      refine ⟨g2.1, fun hs' => (by rw [hst] at hs'; cases hs'), fun _ => ?_⟩
      rw [g2.2, g1.2]
      simp only [tcpAttempts] at a1 c2 ⊢; omega
    | false =>
      rw [onConnected_err hwd]
      exact failing c (ht c rfl) (fun _ => ⟨by omega, by omega⟩) (fun hs' => absurd hs hs')
  | read c r =>
    right
    simp only [isAttemptTask, isDataTask, isCloseTask, Bool.false_eq_true, if_false, if_true, Nat.add_zero] at a1 a2 a3
    have hs : v.status ≠ .connecting := by
      intro hs; have := (h2 hs).1; omega
    have hat := h3 hs
    simp only [Tcp.runTask]
    cases r with
    | eof =>
      rw [onRead_eof hwd]
      refine ⟨hwt.post _ ?_, fun hs' => absurd (hws ▸ hs') hs, fun _ => ?_⟩
      · intro c' hc'; simp [taskTag] at hc'; rw [← hc', hwc]; exact ht c rfl
      · have : tcpAttempts (w.post (.close c)) = tcpAttempts w := by simp [tcpAttempts, Tcp.post, isAttemptTask]
        omega
    | error =>
      rw [onRead_error hwd]
      exact failing c (ht c rfl) (fun hs' => absurd hs' hs) (fun _ => by omega)
    | data bs =>
      rw [onRead_data hwd]
      refine ⟨Tagged.post (v := w.emit (.receive c bs)) (hwt.emit _ (by simp)) _ ?_, fun hs' => absurd (hws ▸ hs') hs, fun _ => ?_⟩
      · intro c' hc'; simp [taskTag] at hc'; rw [← hc']; show c = w.conn; rw [hwc]; exact ht c rfl
      · have : tcpAttempts ((w.emit (.receive c bs)).post (.read c .again)) = tcpAttempts w := by simp [tcpAttempts, Tcp.post, Tcp.emit, isAttemptTask]
        omega
    | again =>
      rw [onRead_again hwd]
      have g := hwt.beginRead
      have hst : w.beginRead.status = v.status := by rw [(beginRead_same _).2.1]; exact hws
      refine ⟨g.1, fun hs' => absurd (hst ▸ hs') hs, fun _ => ?_⟩
      rw [g.2]
      simp only [tcpAttempts] at a1 hat ⊢; omega
  | written c ok =>
    right
    simp only [isAttemptTask, isDataTask, isCloseTask, Bool.false_eq_true, if_false, if_true, Nat.add_zero] at a1 a2 a3
    have hs : v.status ≠ .connecting := by
      intro hs; have := (h2 hs).1; omega
    have hat := h3 hs
    simp only [Tcp.runTask]
    cases ok with
    | true =>
      rw [onWritten_ok hwd]
      refine ⟨Tagged.emit (v := { w with wbuf := none }) (hwt.of_eq rfl rfl rfl rfl) _ (by simp), fun hs' => absurd (hws ▸ hs') hs, fun _ => ?_⟩
      simp only [tcpAttempts, Tcp.emit] at a1 hat ⊢; omega
    | false =>
      rw [onWritten_err hwd]
      exact failing c (ht c rfl) (fun hs' => absurd hs' hs) (fun _ => by omega)

/-- Moving an operation to the queue keeps the counts. -/
theorem complete_cases {v v' : Tcp} {i : Nat} {r : TRes} (hs : v.complete i r = .ret v') :
    v' = v ∨ ∃ o t, v.flying[i]? = some o ∧ v'.isShutdown = v.isShutdown ∧ v'.status = v.status ∧ v'.isOpen = v.isOpen ∧ v'.conn = v.conn ∧
      v'.wbuf = v.wbuf ∧ v'.nextBuf = v.nextBuf ∧
      v'.flying = v.flying.eraseIdx i ∧ v'.queue = v.queue ++ [t] ∧ taskTag t = some (opTag o) ∧ isAttemptTask t = isAttemptOp o ∧
      isDataTask t = isDataOp o ∧ isCloseTask t = false ∧
      ((v'.log = v.log ∧ ∀ c, t ≠ .written c true) ∨ ∃ c b d n, o = .write c b d ∧ r = .sent n ∧ t = .written c true ∧ 1 ≤ n ∧ n ≤ d.length ∧ v.wbuf.map (·.1) = some b ∧
        v'.log = v.log ++ [.wire c (d.take n)]) := by
  unfold complete at hs
  dsimp only at hs
  cases ho : v.flying[i]? with
  | none => rw [ho] at hs; injection hs with hs; exact Or.inl hs.symm
  | some o =>
    rw [ho] at hs
    cases o with
    | resolve c =>
      cases r <;> simp only [CM.ret.injEq] at hs <;> subst hs <;> first
        | exact Or.inl rfl
        | exact Or.inr ⟨_, _, rfl, rfl, rfl, rfl, rfl, rfl, rfl, rfl, rfl, rfl, rfl, rfl, rfl, Or.inl ⟨rfl, by simp⟩⟩
    | connect c =>
      cases r <;> simp only [CM.ret.injEq] at hs <;> subst hs <;> first
        | exact Or.inl rfl
        | exact Or.inr ⟨_, _, rfl, rfl, rfl, rfl, rfl, rfl, rfl, rfl, rfl, rfl, rfl, rfl, rfl, Or.inl ⟨rfl, by simp⟩⟩
    | read c =>
      cases r with
      | data bs =>
        simp only at hs
        split at hs
        · injection hs with hs; subst hs
          exact Or.inr ⟨_, _, rfl, rfl, rfl, rfl, rfl, rfl, rfl, rfl, rfl, rfl, rfl, rfl, rfl, Or.inl ⟨rfl, by simp⟩⟩
        · injection hs with hs; exact Or.inl hs.symm
      | _ =>
        simp only [CM.ret.injEq] at hs; subst hs
        first
        | exact Or.inl rfl
        | exact Or.inr ⟨_, _, rfl, rfl, rfl, rfl, rfl, rfl, rfl, rfl, rfl, rfl, rfl, rfl, rfl, Or.inl ⟨rfl, by simp⟩⟩
    | write c b d =>
      cases r with
      | sent n =>
        simp only at hs
        split at hs
        · rename_i hn
          split at hs
          · rename_i hb
            injection hs with hs; subst hs
            exact Or.inr ⟨_, _, rfl, rfl, rfl, rfl, rfl, rfl, rfl, rfl, rfl, rfl, rfl, rfl, rfl, Or.inr ⟨c, b, d, n, rfl, rfl, rfl, hn.1, hn.2, hb, rfl⟩⟩
          · cases hs
        · injection hs with hs; exact Or.inl hs.symm
      | _ =>
        simp only [CM.ret.injEq] at hs; subst hs
        first
        | exact Or.inl rfl
        | exact Or.inr ⟨_, _, rfl, rfl, rfl, rfl, rfl, rfl, rfl, rfl, rfl, rfl, rfl, rfl, rfl, Or.inl ⟨rfl, by simp⟩⟩

theorem settled_counts {v : Tcp} (h : Settled v) : dataOps v = 0 ∧ closes v = 0 := by
  refine ⟨?_, ?_⟩
  · simp only [dataOps, Nat.add_eq_zero_iff, List.countP_eq_zero]
    refine ⟨fun o ho => ?_, fun t ht => ?_⟩
    · obtain ⟨c, rfl | rfl⟩ := h.1 o ho <;> simp [isDataOp]
    · rcases h.2 t ht with rfl | ⟨c, ok, rfl⟩ | ⟨c, ok, rfl⟩ <;> simp [isDataTask]
  · simp only [closes, List.countP_eq_zero]
    intro t ht
    rcases h.2 t ht with rfl | ⟨c, ok, rfl⟩ | ⟨c, ok, rfl⟩ <;> simp [isCloseTask]

theorem Neat.step {v v' : Tcp} (h : (v.isShutdown = true ∧ TagLog v) ∨ Neat v) (op : Op) (hp : FreshStarts v op) (hs : v.step op = .ret v') (hq : Quiet v) :
    (v'.isShutdown = true ∧ TagLog v') ∨ Neat v' := by
  cases hd : v.isShutdown with
  | true =>
    obtain ⟨v2, e1, e2, e3, -⟩ := shut_step hd hq op
    rw [hs] at e1
    injection e1 with e1
    subst e1
    have ht : TagLog v := h.elim (fun h => h.2) (fun h => h.tags.log)
    exact Or.inl ⟨e2, by unfold TagLog; rw [e3]; exact ht⟩
  | false =>
    have h : Neat v := h.resolve_left (by simp [hd])
    have hask : ∀ data, Tagged (v.ask data) := fun data => (h.tags.emit (.asked data) (by simp)).of_eq rfl rfl rfl rfl
    cases op with
    | send data loc =>
      right
      injection hs with hs
      subst hs
      cases hst : v.status with
      | notConnected =>
        have gave : v.isOpen = true ∨ loc ≠ .ok → Neat (v.send data loc) := by
          intro hc
          obtain ⟨o, e, -⟩ := send_gaveUp hd hst data loc hc
          rw [e]
          refine ⟨((hask data).emit .gaveUp (by simp)).of_eq rfl rfl rfl rfl, ?_, fun _ => h.other (by simp [hst])⟩
          intro h'
          have : v.status = .connecting := h'
          rw [hst] at this; cases this
        cases ho : v.isOpen with
        | true => exact gave (Or.inl ho)
        | false =>
          by_cases hl : loc = .ok
          · subst hl
            rw [send_start hd hst ho]
            have hset := hp data .ok rfl hst ho
            obtain ⟨d0, c0⟩ := settled_counts hset
            have at0 := h.other (by simp [hst])
            have hfl : v.flying = [] := by
              rw [List.eq_nil_iff_forall_not_mem]
              intro x hx
              obtain ⟨c, hc⟩ := hset.1 x hx
              simp only [tcpAttempts, Nat.add_eq_zero_iff, List.countP_eq_zero] at at0
              have := at0.1 x hx
              rcases hc with rfl | rfl <;> simp [isAttemptOp] at this
            have hqu : ∀ t ∈ v.queue, t = .shutdown := by
              intro t ht
              simp only [tcpAttempts, Nat.add_eq_zero_iff, List.countP_eq_zero] at at0
              have := at0.2 t ht
              rcases hset.2 t ht with rfl | ⟨c, ok, rfl⟩ | ⟨c, ok, rfl⟩
              · rfl
              · simp [isAttemptTask] at this
              · simp [isAttemptTask] at this
            refine ⟨⟨?_, ?_, ?_⟩, fun _ => ⟨?_, Or.inl ⟨?_, ?_⟩⟩, by simp⟩
            · intro o' ho'
              simp only [hfl, List.nil_append, List.mem_singleton] at ho'
              subst ho'; rfl
            · intro t ht c hc
              rw [hqu t ht] at hc; cases hc
            · exact ((hask data).emit (.attempt (v.conn + 1)) (by simp)).log
            · simp only [dataOps, List.countP_append] at d0 ⊢
              simp [isDataOp]
              simp [hfl]
              intro t ht; rw [hqu t ht]; simp [isDataTask]
            · simp only [tcpAttempts, hfl]
              simp [isAttemptOp]
              intro t ht; rw [hqu t ht]; simp [isAttemptTask]
            · exact c0
          · exact gave (Or.inr hl)
      | connecting =>
        rw [send_connecting hd hst]
        exact ⟨hask data, fun _ => h.connecting hst, fun hn => absurd hst hn⟩
      | connected =>
        rw [send_connected hd hst]
        have g := (hask data).sendBuffer
        have hst' : (v.ask data).sendBuffer.status = v.status := (sendBuffer_same _).2.1
        refine ⟨g.1, fun hn => ?_, fun _ => ?_⟩
        · rw [hst', hst] at hn; cases hn
        · rw [g.2]; exact h.other (by simp [hst])
    | shutdown =>
      right
      injection hs with hs
      subst hs
      refine ⟨h.tags.post _ (by simp [taskTag]), fun hst => ?_, fun hst => ?_⟩
      · have := h.connecting hst
        simpa [dataOps, tcpAttempts, closes, Tcp.post, isDataTask, isAttemptTask, isCloseTask] using this
      · have := h.other hst
        simpa [tcpAttempts, Tcp.post, isAttemptTask] using this
    | complete i r =>
      right
      rcases complete_cases hs with rfl | ⟨o, t, h1, h2, h3, h4, h5, h6, h7, h8, h9, h10, h11, h12, h13, h14⟩
      · exact h
      · have e1 := countP_eraseIdx isAttemptOp h1
        have e2 := countP_eraseIdx isDataOp h1
        have a1 : tcpAttempts v' = tcpAttempts v := by
          simp only [tcpAttempts, h8, h9, List.countP_append, List.countP_singleton, h11]
          omega
        have a2 : dataOps v' = dataOps v := by
          simp only [dataOps, h8, h9, List.countP_append, List.countP_singleton, h12]
          omega
        have a3 : closes v' = closes v := by
          simp [closes, h9, h13]
        refine ⟨⟨?_, ?_, ?_⟩, ?_, ?_⟩
        · rw [h8, h5]; exact (h.tags.land i).flying
        · rw [h9, h5]
          intro x hx c hc
          rcases List.mem_append.1 hx with hx | hx
          · exact h.tags.queue x hx c hc
          · rw [List.mem_singleton.1 hx, h10] at hc
            injection hc with hc
            rw [← hc]
            exact h.tags.flying o (List.mem_of_getElem? h1)
        · intro c cur hm
          rcases h14 with ⟨h14, -⟩ | ⟨c', b, d, n, -, -, -, -, -, -, h14⟩
          · rw [h14] at hm; exact h.tags.log c cur hm
          · rw [h14] at hm
            apply h.tags.log c cur
            simpa using hm
        · rw [h3, a1, a2, a3]; exact h.connecting
        · rw [h3, a1]; exact h.other
    | run k =>
      simp only [Tcp.step] at hs
      split at hs
      · injection hs with hs; subst hs; exact Or.inr h
      · rename_i t ht
        injection hs with hs; subst hs
        exact h.runTask hd ht

/-! ### What is submitted and what goes out -/

/-- Events other than sends, submissions and bytes going out. -/
def benign : TEv → Bool
  | .asked _ | .submit _ _ | .wire _ _ => false
  | _ => true

theorem benign_asked {es : List TEv} (h : ∀ e ∈ es, benign e = true) : tcpAsked es = [] := by
  simp only [tcpAsked, List.filterMap_eq_nil_iff]
  intro e he
  have := h e he
  cases e <;> simp_all [benign]

theorem benign_submits {es : List TEv} (h : ∀ e ∈ es, benign e = true) (c : Nat) : tcpSubmits c es = [] := by
  simp only [tcpSubmits, List.filterMap_eq_nil_iff]
  intro e he
  have := h e he
  cases e <;> simp_all [benign]

theorem benign_allSubmits {es : List TEv} (h : ∀ e ∈ es, benign e = true) : tcpAllSubmits es = [] := by
  simp only [tcpAllSubmits, List.filterMap_eq_nil_iff]
  intro e he
  have := h e he
  cases e <;> simp_all [benign]

theorem benign_wires {es : List TEv} (h : ∀ e ∈ es, benign e = true) (c : Nat) : tcpWires c es = [] := by
  simp only [tcpWires, List.filterMap_eq_nil_iff]
  intro e he
  have := h e he
  cases e <;> simp_all [benign]

theorem tcpAsked_append (a b : List TEv) : tcpAsked (a ++ b) = tcpAsked a ++ tcpAsked b := by simp [tcpAsked]
theorem tcpSubmits_append (c : Nat) (a b : List TEv) : tcpSubmits c (a ++ b) = tcpSubmits c a ++ tcpSubmits c b := by simp [tcpSubmits]
theorem tcpAllSubmits_append (a b : List TEv) : tcpAllSubmits (a ++ b) = tcpAllSubmits a ++ tcpAllSubmits b := by simp [tcpAllSubmits]
theorem tcpWires_append (c : Nat) (a b : List TEv) : tcpWires c (a ++ b) = tcpWires c a ++ tcpWires c b := by simp [tcpWires]

/-- The writes in progress on connection `c`. -/
def wrFly (c : Nat) (l : List TOp) : List (List UInt8) :=
  l.filterMap fun o => match o with
    | .write c' _ d => if c' = c then some d else none
    | _ => none

def isWriteOp : TOp → Bool
  | .write _ _ _ => true
  | _ => false

def isWrittenTask : TTask → Bool
  | .written _ _ => true
  | _ => false

/-- Writes in progress or with a queued handler. -/
def wrs (v : Tcp) : Nat := v.flying.countP isWriteOp + v.queue.countP isWrittenTask

theorem abort_writes (l : List TOp) : (l.filterMap aborted).countP isWrittenTask = l.countP isWriteOp := by
  induction l with
  | nil => rfl
  | cons o l ih => cases o <;> simp only [List.filterMap_cons, aborted, List.countP_cons, isWriteOp, isWrittenTask, if_true, if_false, Bool.false_eq_true] <;> omega

theorem resolve_noWrites (l : List TOp) : (l.filter TOp.isResolve).countP isWriteOp = 0 := by
  rw [List.countP_eq_zero]
  intro o ho
  have := (List.mem_filter.1 ho).2
  cases o <;> simp_all [TOp.isResolve, isWriteOp]

theorem abortAll_wrs (v : Tcp) : wrs v.abortAll = wrs v := by
  have := abort_writes v.flying
  have := resolve_noWrites v.flying
  simp only [wrs, abortAll, List.countP_append]
  omega

theorem busy_of_wrs {v : Tcp} (h : wrs v ≠ 0) : WriteBusy v := by
  simp only [wrs] at h
  by_cases hf : v.flying.countP isWriteOp = 0
  · have hq : v.queue.countP isWrittenTask ≠ 0 := by omega
    have := List.countP_pos_iff.1 (Nat.pos_of_ne_zero hq)
    obtain ⟨t, ht, h1⟩ := this
    cases t <;> simp [isWrittenTask] at h1
    exact Or.inr ⟨_, _, ht⟩
  · have := List.countP_pos_iff.1 (Nat.pos_of_ne_zero hf)
    obtain ⟨o, ho, h1⟩ := this
    cases o <;> simp [isWriteOp] at h1
    exact Or.inl ⟨_, _, _, ho⟩

theorem wrs_le_dataOps (v : Tcp) : wrs v ≤ dataOps v := by
  have h1 : v.flying.countP isWriteOp ≤ v.flying.countP isDataOp := List.countP_mono_left (by intro o _; cases o <;> simp [isWriteOp, isDataOp])
  have h2 : v.queue.countP isWrittenTask ≤ v.queue.countP isDataTask := List.countP_mono_left (by intro o _; cases o <;> simp [isWrittenTask, isDataTask])
  simp only [wrs, dataOps]
  omega

theorem noWrites_fly {l : List TOp} (h : l.countP isWriteOp = 0) (c : Nat) : wrFly c l = [] := by
  simp only [wrFly, List.filterMap_eq_nil_iff]
  rw [List.countP_eq_zero] at h
  intro o ho
  have := h o ho
  cases o <;> simp_all [isWriteOp]

/-- The effect of running a task other than a successful connect: only benign events, no new write, the write buffer kept or dropped
(dropped only by the handler of a write). -/
structure Tame (t : TTask) (v v' : Tcp) : Prop where
  log : ∃ es, v'.log = v.log ++ es ∧ ∀ e ∈ es, benign e = true
  wbuf : v'.wbuf = v.wbuf ∨ v'.wbuf = none ∧ ∃ c ok, t = .written c ok
  status : v'.status = .connecting → v.status = .connecting

theorem runTask_tame {v : Tcp} (hd : v.isShutdown = false) (t : TTask) (ht : ∀ c, t ≠ .connected c true) : Tame t v (v.runTask t) := by
  cases t with
  | shutdown => exact ⟨⟨[], by simp [Tcp.runTask, runShutdown, Tcp.abortAll], by simp⟩, Or.inl rfl, id⟩
  | close c =>
    simp only [Tcp.runTask]
    cases ho : v.isOpen with
    | true => rw [runClose_open hd ho]; exact ⟨⟨[.closed c v.conn], rfl, by simp [benign]⟩, Or.inl rfl, by intro h; cases h⟩
    | false => rw [runClose_closed hd ho]; exact ⟨⟨[.closed c v.conn], rfl, by simp [benign]⟩, Or.inl rfl, by intro h; cases h⟩
  | resolved c ok =>
    simp only [Tcp.runTask]
    cases ok with
    | true => rw [onResolved_ok hd]; exact ⟨⟨[], by simp [Tcp.abortAll], by simp⟩, Or.inl rfl, id⟩
    | false => rw [onResolved_err hd]; exact ⟨⟨[.error c v.conn], rfl, by simp [benign]⟩, Or.inl rfl, by intro h; cases h⟩
  | connected c ok =>
    cases ok with
    | true => exact absurd rfl (ht c)
    | false => simp only [Tcp.runTask]; rw [onConnected_err hd]; exact ⟨⟨[.error c v.conn], rfl, by simp [benign]⟩, Or.inl rfl, id⟩
  | read c r =>
    simp only [Tcp.runTask]
    cases r with
    | eof => rw [onRead_eof hd]; exact ⟨⟨[], by simp [Tcp.post], by simp⟩, Or.inl rfl, id⟩
    | error => rw [onRead_error hd]; exact ⟨⟨[.error c v.conn], rfl, by simp [benign]⟩, Or.inl rfl, id⟩
    | data bs =>
      rw [onRead_data hd]
      exact ⟨⟨[.receive c bs], rfl, by simp [benign]⟩, Or.inl rfl, id⟩
    | again =>
      rw [onRead_again hd]
      obtain ⟨-, h2, -, -, h5, h6⟩ := beginRead_same v
      exact ⟨⟨[], by rw [h6, List.append_nil], by simp⟩, Or.inl h5, fun h => h2 ▸ h⟩
  | written c ok =>
    simp only [Tcp.runTask]
    cases ok with
    | true => rw [onWritten_ok hd]; exact ⟨⟨[.writeDone], rfl, by simp [benign]⟩, Or.inr ⟨rfl, _, _, rfl⟩, id⟩
    | false => rw [onWritten_err hd]; exact ⟨⟨[.error c v.conn], rfl, by simp [benign]⟩, Or.inl rfl, id⟩

theorem sendBuffer_log {v : Tcp} (hd : v.isShutdown = false) :
    v.sendBuffer.log = v.log ++ (v.wbuf.map fun b => TEv.submit v.conn b.2).toList := by
  cases hw : v.wbuf with
  | none => rw [sendBuffer_none hw]; simp
  | some b =>
    obtain ⟨b, d⟩ := b
    cases ho : v.isOpen with
    | true => rw [sendBuffer_open hd ho hw]; rfl
    | false => rw [sendBuffer_closed hd ho hw]; rfl

/-- Every step, seen through the log and the write buffer. -/
theorem step_shape {v v' : Tcp} (hd : v.isShutdown = false) (op : Op) (hs : v.step op = .ret v') :
    (∃ es, v'.log = v.log ++ es ∧ tcpAsked es = [] ∧ tcpAllSubmits es = [] ∧
      (v'.wbuf = v.wbuf ∨ v'.wbuf = none ∧ ∃ c ok, TTask.written c ok ∈ v.queue) ∧
      (v'.status = .connecting → v.status = .connecting)) ∨
    (∃ c k, op = .run k ∧ v.queue[k]? = some (.connected c true) ∧
      v' = ({ v with queue := v.queue.eraseIdx k, status := .connected } : Tcp).sendBuffer.beginRead ∧ v'.wbuf = v.wbuf ∧
      v'.status = .connected ∧ v'.log = v.log ++ (v.wbuf.map fun b => TEv.submit v.conn b.2).toList) ∨
    (∃ d loc, op = .send d loc ∧ v'.wbuf = some (v.nextBuf, d) ∧ v.status ≠ .connected ∧
      (v'.log = v.log ++ [.asked d] ∨ v'.log = v.log ++ [.asked d, .gaveUp] ∨ v'.log = v.log ++ [.asked d, .attempt (v.conn + 1)])) ∨
    (∃ d loc, op = .send d loc ∧ v.status = .connected ∧ v' = (v.ask d).sendBuffer ∧ v'.status = .connected ∧ v'.wbuf = some (v.nextBuf, d) ∧
      v'.log = v.log ++ [.asked d, .submit v.conn d]) := by
  cases op with
  | send d loc =>
    right; right
    injection hs with hs
    subst hs
    cases hst : v.status with
    | notConnected =>
      left
      refine ⟨d, loc, rfl, ?_⟩
      by_cases hc : v.isOpen = true ∨ loc ≠ .ok
      · obtain ⟨o, e, -⟩ := send_gaveUp hd hst d loc hc
        rw [e]
        exact ⟨rfl, by simp, Or.inr (Or.inl (by simp [Tcp.ask, Tcp.emit]))⟩
      · push Not at hc
        obtain ⟨h1, rfl⟩ := hc
        rw [send_start hd hst (by simpa using h1)]
        exact ⟨rfl, by simp, Or.inr (Or.inr (by simp [Tcp.ask, Tcp.emit]))⟩
    | connecting =>
      left
      rw [send_connecting hd hst]
      exact ⟨d, loc, rfl, rfl, by simp, Or.inl rfl⟩
    | connected =>
      right
      rw [send_connected hd hst]
      obtain ⟨-, h2, -, -, h5⟩ := sendBuffer_same (v.ask d)
      refine ⟨d, loc, rfl, rfl, rfl, h2.trans hst, h5, ?_⟩
      rw [sendBuffer_log (v := v.ask d) hd]
      simp [Tcp.ask, Tcp.emit]
  | shutdown =>
    left
    injection hs with hs
    subst hs
    exact ⟨[], by simp [Tcp.post], rfl, rfl, Or.inl rfl, id⟩
  | complete i r =>
    left
    rcases complete_cases hs with rfl | ⟨o, t, h1, h2, h3, h4, h5, h6, h7, h8, h9, h10, h11, h12, h13, h14⟩
    · exact ⟨[], by simp, rfl, rfl, Or.inl rfl, id⟩
    · rcases h14 with ⟨h14, -⟩ | ⟨c', b, d, n, -, -, -, -, -, -, h14⟩
      · exact ⟨[], by simp [h14], rfl, rfl, Or.inl h6, fun h => h3 ▸ h⟩
      · exact ⟨_, h14, by simp [tcpAsked], by simp [tcpAllSubmits], Or.inl h6, fun h => h3 ▸ h⟩
  | run k =>
    simp only [Tcp.step] at hs
    split at hs
    · injection hs with hs; subst hs; exact Or.inl ⟨[], by simp, rfl, rfl, Or.inl rfl, id⟩
    · rename_i t ht
      injection hs with hs
      subst hs
      by_cases hc : ∃ c, t = .connected c true
      · right; left
        obtain ⟨c, rfl⟩ := hc
        refine ⟨c, k, rfl, ht, ?_⟩
        simp only [Tcp.runTask]
        rw [onConnected_ok (v := { v with queue := v.queue.eraseIdx k }) hd]
        have b := beginRead_same ({ v with queue := v.queue.eraseIdx k, status := .connected } : Tcp).sendBuffer
        have a := sendBuffer_same ({ v with queue := v.queue.eraseIdx k, status := .connected } : Tcp)
        have l := sendBuffer_log (v := { v with queue := v.queue.eraseIdx k, status := .connected }) hd
        exact ⟨rfl, b.2.2.2.2.1.trans a.2.2.2.2, b.2.1.trans a.2.1, b.2.2.2.2.2.trans l⟩
      · left
        obtain ⟨⟨es, h1, h2⟩, h3, h4⟩ := runTask_tame (v := { v with queue := v.queue.eraseIdx k }) hd t (fun c h => hc ⟨c, h⟩)
        refine ⟨es, h1, benign_asked h2, benign_allSubmits h2, h3.imp id ?_, h4⟩
        rintro ⟨h5, c, ok, rfl⟩
        exact ⟨h5, c, ok, List.mem_of_getElem? ht⟩

/-- The write buffer holds the newest data, and only the newest data is ever submitted. -/
structure Newest (v : Tcp) : Prop where
  wbuf : ∀ b d, v.wbuf = some (b, d) → (tcpAsked v.log).getLast? = some d
  submits : ∀ pre c d post, v.log = pre ++ .submit c d :: post → (tcpAsked pre).getLast? = some d

theorem append_cons_cases {α : Type} {l es pre post : List α} {x : α} (h : l ++ es = pre ++ x :: post) :
    (∃ m, l = pre ++ x :: m) ∨ ∃ es1, es = es1 ++ x :: post ∧ pre = l ++ es1 := by
  rcases List.append_eq_append_iff.1 h with ⟨m, h1, h2⟩ | ⟨m, h1, h2⟩
  · exact Or.inr ⟨m, h2, h1⟩
  · cases m with
    | nil => exact Or.inr ⟨[], by simpa using h2.symm, by simpa using h1.symm⟩
    | cons y m =>
      simp only [List.cons_append, List.cons.injEq] at h2
      obtain ⟨rfl, rfl⟩ := h2
      exact Or.inl ⟨m, h1⟩

theorem noSubmit_of {es es1 post : List TEv} {c : Nat} {d : List UInt8} (h : tcpAllSubmits es = []) (he : es = es1 ++ .submit c d :: post) : False := by
  subst he
  simp [tcpAllSubmits, List.filterMap_append] at h

theorem Newest.step {v v' : Tcp} (h : Newest v) (op : Op) (hs : v.step op = .ret v') (hq : Quiet v) : Newest v' := by
  cases hd : v.isShutdown with
  | true =>
    obtain ⟨v2, e1, e2, e3, -⟩ := shut_step hd hq op
    rw [hs] at e1
    injection e1 with e1
    subst e1
    refine ⟨fun b d hb => ?_, by rw [e3]; exact h.submits⟩
    rw [e3]
    have hw : v'.wbuf = v.wbuf := by
      cases op with
      | send data loc => simp [Tcp.step, send, hd] at hs; rw [← hs]
      | shutdown => injection hs with hs; rw [← hs]; rfl
      | complete i r =>
        rcases complete_cases hs with rfl | ⟨o, t, h1, h2, h3, h4, h5, h6, -⟩
        · rfl
        · exact h6
      | run k =>
        simp only [Tcp.step] at hs
        split at hs
        · injection hs with hs; rw [← hs]
        · rename_i t ht
          injection hs with hs
          rw [← hs]
          cases t with
          | shutdown => rfl
          | close c => simp [Tcp.runTask, runClose, hd]
          | resolved c ok => simp [Tcp.runTask, onResolved, hd]
          | connected c ok => simp [Tcp.runTask, onConnected, hd]
          | read c r => simp [Tcp.runTask, onRead, hd]
          | written c ok => simp [Tcp.runTask, onWritten, hd]
    exact h.wbuf b d (hw ▸ hb)
  | false =>
    rcases step_shape hd op hs with ⟨es, h1, h2, h3, h4, -⟩ | ⟨c, k, -, -, -, h4, -, h6⟩ | ⟨d, loc, -, h2, -, h3⟩ | ⟨d, loc, -, -, -, -, h2, h3⟩
    · refine ⟨fun b d hb => ?_, fun pre c d post hl => ?_⟩
      · rw [h1, tcpAsked_append, h2, List.append_nil]
        rcases h4 with h4 | h4
        · exact h.wbuf b d (h4 ▸ hb)
        · rw [h4.1] at hb; cases hb
      · rw [h1] at hl
        rcases append_cons_cases hl with ⟨m, hm⟩ | ⟨es1, he, -⟩
        · exact h.submits pre c d m hm
        · exact (noSubmit_of h3 he).elim
    · have hask : tcpAsked v'.log = tcpAsked v.log := by
        rw [h6, tcpAsked_append]
        cases v.wbuf <;> simp [tcpAsked]
      refine ⟨fun b d hb => ?_, fun pre c' d post hl => ?_⟩
      · rw [hask]; exact h.wbuf b d (h4 ▸ hb)
      · rw [h6] at hl
        rcases append_cons_cases hl with ⟨m, hm⟩ | ⟨es1, he, hp⟩
        · exact h.submits pre c' d m hm
        · cases hw : v.wbuf with
          | none => rw [hw] at he; simp at he
          | some b =>
            rw [hw] at he
            cases es1 with
            | nil =>
              simp at he
              obtain ⟨⟨-, rfl⟩, -⟩ := he
              rw [hp, List.append_nil]
              exact h.wbuf b.1 b.2 hw
            | cons => simp at he
    · have hask : ∃ es, v'.log = v.log ++ .asked d :: es ∧ tcpAllSubmits (.asked d :: es) = [] ∧ tcpAsked es = [] := by
        rcases h3 with h3 | h3 | h3
        · exact ⟨[], h3, rfl, rfl⟩
        · exact ⟨_, h3, by simp [tcpAllSubmits], by simp [tcpAsked]⟩
        · exact ⟨_, h3, by simp [tcpAllSubmits], by simp [tcpAsked]⟩
      obtain ⟨es, e1, e2, e3⟩ := hask
      refine ⟨fun b d' hb => ?_, fun pre c' d' post hl => ?_⟩
      · rw [h2] at hb
        injection hb with hb
        injection hb with _ hb
        subst hb
        have : tcpAsked v'.log = tcpAsked v.log ++ [d] := by
          rw [e1, tcpAsked_append]
          have : tcpAsked (.asked d :: es) = d :: tcpAsked es := by simp [tcpAsked]
          rw [this, e3]
        rw [this]; simp
      · rw [e1] at hl
        rcases append_cons_cases hl with ⟨m, hm⟩ | ⟨es1, he, -⟩
        · exact h.submits pre c' d' m hm
        · exact (noSubmit_of e2 he).elim
    · refine ⟨fun b d' hb => ?_, fun pre c' d' post hl => ?_⟩
      · rw [h2] at hb
        injection hb with hb
        injection hb with _ hb
        subst hb
        rw [h3, tcpAsked_append]
        simp [tcpAsked]
      · rw [h3] at hl
        rcases append_cons_cases hl with ⟨m, hm⟩ | ⟨es1, he, hp⟩
        · exact h.submits pre c' d' m hm
        · cases es1 with
          | nil => simp at he
          | cons e es1 =>
            cases es1 with
            | nil =>
              simp at he
              obtain ⟨rfl, ⟨-, rfl⟩, -⟩ := he
              rw [hp, tcpAsked_append]
              simp [tcpAsked]
            | cons => simp at he

theorem _root_.Modbus.Spec.TcpReach.newest {P : Tcp → Op → Prop} {v : Tcp} (h : TcpReach P v) : Newest v := by
  induction h with
  | init => exact ⟨by simp [Tcp.init], by simp [Tcp.init]⟩
  | step hr _ hs ih => exact ih.step _ hs hr.quiet

theorem _root_.Modbus.Spec.TcpReach.neat {P : Tcp → Op → Prop} (hP : ∀ v op, P v op → FreshStarts v op) {v : Tcp} (h : TcpReach P v) :
    (v.isShutdown = true ∧ TagLog v) ∨ Neat v := by
  induction h with
  | init =>
    refine Or.inr ⟨⟨?_, ?_, ?_⟩, ?_, ?_⟩ <;> simp [Tcp.init, tcpAttempts]
  | step hr hp hs ih => exact Neat.step ih _ (hP _ _ hp) hs hr.quiet

/-- Each send is submitted at most once. -/
structure Once (v : Tcp) : Prop where
  all : (tcpAllSubmits v.log).Sublist (tcpAsked v.log)
  pend : v.status = .connecting → ∀ b d, v.wbuf = some (b, d) → (tcpAllSubmits v.log ++ [d]).Sublist (tcpAsked v.log)
  holds : v.status = .connecting → ∃ b d, v.wbuf = some (b, d)

theorem Once.step {v v' : Tcp} (h : Once v) (hn : Neat v) (hd : v.isShutdown = false) (op : Op) (hs : v.step op = .ret v') : Once v' := by
  rcases step_shape hd op hs with ⟨es, h1, h2, h3, h4, h5⟩ | ⟨c, k, -, hk, -, h4, h5, h6⟩ | ⟨d, loc, -, h2, -, h3⟩ | ⟨d, loc, -, -, -, h1, h2, h3⟩
  · refine ⟨?_, fun hst b d hb => ?_, fun hst => ?_⟩
    · rw [h1, tcpAsked_append, tcpAllSubmits_append, h2, h3]; simpa using h.all
    rotate_left
    · rcases h4 with h4 | ⟨-, c, ok, h4⟩
      · rw [h4]; exact h.holds (h5 hst)
      · have h0 := (hn.connecting (h5 hst)).1
        simp only [dataOps, Nat.add_eq_zero_iff, List.countP_eq_zero] at h0
        exact absurd rfl (h0.2 _ h4)
    · rw [h1, tcpAsked_append, tcpAllSubmits_append, h2, h3]
      rcases h4 with h4 | h4
      · simpa using h.pend (h5 hst) b d (h4 ▸ hb)
      · rw [h4.1] at hb; cases hb
  · refine ⟨?_, fun hst => (by rw [h5] at hst; cases hst), fun hst => (by rw [h5] at hst; cases hst)⟩
    rw [h6, tcpAsked_append, tcpAllSubmits_append]
    have hst : v.status = .connecting := by
      by_contra hst
      have := hn.other hst
      simp only [tcpAttempts, Nat.add_eq_zero_iff, List.countP_eq_zero] at this
      exact absurd rfl (this.2 _ (List.mem_of_getElem? hk))
    cases hw : v.wbuf with
    | none => simpa [tcpAsked, tcpAllSubmits] using h.all
    | some b => simpa [tcpAsked, tcpAllSubmits] using h.pend hst b.1 b.2 hw
  · have hask : ∃ es, v'.log = v.log ++ .asked d :: es ∧ tcpAllSubmits (.asked d :: es) = [] ∧ tcpAsked es = [] := by
      rcases h3 with h3 | h3 | h3
      · exact ⟨[], h3, rfl, rfl⟩
      · exact ⟨_, h3, by simp [tcpAllSubmits], by simp [tcpAsked]⟩
      · exact ⟨_, h3, by simp [tcpAllSubmits], by simp [tcpAsked]⟩
    obtain ⟨es, e1, e2, e3⟩ := hask
    have e4 : tcpAsked v'.log = tcpAsked v.log ++ [d] := by
      rw [e1, tcpAsked_append]
      have : tcpAsked (.asked d :: es) = d :: tcpAsked es := by simp [tcpAsked]
      rw [this, e3]
    have e5 : tcpAllSubmits v'.log = tcpAllSubmits v.log := by
      rw [e1, tcpAllSubmits_append, e2, List.append_nil]
    refine ⟨?_, fun _ b d' hb => ?_, fun _ => ⟨_, _, h2⟩⟩
    · rw [e4, e5]; exact h.all.trans (List.sublist_append_left _ _)
    · rw [h2] at hb
      injection hb with hb
      injection hb with _ hb
      subst hb
      rw [e4, e5]
      exact h.all.append (List.Sublist.refl _)
  · refine ⟨?_, fun hst => (by rw [h1] at hst; cases hst), fun hst => (by rw [h1] at hst; cases hst)⟩
    rw [h3, tcpAsked_append, tcpAllSubmits_append]
    exact h.all.append (by simp [tcpAsked, tcpAllSubmits])

theorem _root_.Modbus.Spec.TcpReach.once {P : Tcp → Op → Prop} (hP : ∀ v op, P v op → FreshStarts v op) {v : Tcp} (h : TcpReach P v) :
    (v.isShutdown = false → Once v) ∧ (tcpAllSubmits v.log).Sublist (tcpAsked v.log) := by
  have : (v.isShutdown = false → Once v) ∧ (tcpAllSubmits v.log).Sublist (tcpAsked v.log) := by
    induction h with
    | init => exact ⟨fun _ => ⟨by simp [Tcp.init, tcpAllSubmits, tcpAsked], by simp [Tcp.init], by simp [Tcp.init]⟩, by simp [Tcp.init, tcpAllSubmits, tcpAsked]⟩
    | @step v v' op hr hp hs ih =>
      cases hd : v.isShutdown with
      | true =>
        obtain ⟨v2, e1, e2, e3, -⟩ := shut_step hd hr.quiet op
        rw [hs] at e1
        injection e1 with e1
        subst e1
        exact ⟨fun h => (by rw [e2] at h; cases h), by rw [e3]; exact ih.2⟩
      | false =>
        have hn := (hr.neat hP).resolve_left (by simp [hd])
        have := (ih.1 hd).step hn hd op hs
        exact ⟨fun _ => this, this.all⟩
  exact this

/-! ### Whole frames on the wire -/

structure Writes (v : Tcp) : Prop where
  one : wrs v ≤ 1
  alive : ∀ c b d, TOp.write c b d ∈ v.flying → v.wbuf = some (b, d)
  wires : ∀ c, (tcpWires c v.log ++ wrFly c v.flying).Sublist (tcpSubmits c v.log)

theorem wires_sub {v : Tcp} (h : Writes v) (c : Nat) : (tcpWires c v.log).Sublist (tcpSubmits c v.log) :=
  (List.sublist_append_left _ _).trans (h.wires c)

/-- A step that starts no write. -/
theorem Writes.tame {v v' : Tcp} (h : Writes v) (h1 : wrs v' ≤ wrs v) (h2 : ∀ c b d, TOp.write c b d ∈ v'.flying → TOp.write c b d ∈ v.flying)
    (h3 : v'.wbuf = v.wbuf ∨ v'.flying.countP isWriteOp = 0) (h4 : ∀ c, (wrFly c v'.flying).Sublist (wrFly c v.flying))
    (h5 : ∃ es, v'.log = v.log ++ es ∧ ∀ e ∈ es, benign e = true) : Writes v' := by
  obtain ⟨es, h5, h6⟩ := h5
  refine ⟨Nat.le_trans h1 h.one, fun c b d hm => ?_, fun c => ?_⟩
  · rcases h3 with h3 | h3
    · rw [h3]; exact h.alive c b d (h2 c b d hm)
    · rw [List.countP_eq_zero] at h3
      exact absurd rfl (h3 _ hm)
  · rw [h5, tcpWires_append, tcpSubmits_append, benign_wires h6, benign_submits h6, List.append_nil, List.append_nil]
    exact ((List.Sublist.refl _).append (h4 c)).trans (h.wires c)

theorem Writes.sendBuffer {v : Tcp} (h : Writes v) (h0 : wrs v = 0) : Writes v.sendBuffer := by
  cases hd : v.isShutdown with
  | true => unfold Tcp.sendBuffer; rw [if_pos hd]; exact h
  | false =>
    cases hw : v.wbuf with
    | none => rw [sendBuffer_none hw]; exact h
    | some b =>
      obtain ⟨b, d⟩ := b
      have hf : v.flying.countP isWriteOp = 0 := by simp only [wrs] at h0; omega
      have hz : ∀ c, wrFly c v.flying = [] := fun c => noWrites_fly hf c
      cases ho : v.isOpen with
      | true =>
        rw [sendBuffer_open hd ho hw]
        refine ⟨?_, fun c b' d' hm => ?_, fun c => ?_⟩
        · simp only [wrs, Tcp.emit, List.countP_append, List.countP_singleton, isWriteOp, if_true] at h0 ⊢; omega
        · simp only [List.mem_append, List.mem_singleton] at hm
          rcases hm with hm | hm
          · rw [List.countP_eq_zero] at hf
            exact absurd rfl (hf _ hm)
          · injection hm with _ h1 h2
            subst h1 h2
            exact hw
        · have hsub := wires_sub h c
          simp only [Tcp.emit]
          rw [tcpWires_append, tcpSubmits_append]
          have e1 : tcpWires c [.submit v.conn d] = [] := by simp [tcpWires]
          have e2 : wrFly c (v.flying ++ [.write v.conn b d]) = tcpSubmits c [.submit v.conn d] := by
            have : wrFly c (v.flying ++ [.write v.conn b d]) = wrFly c v.flying ++ wrFly c [.write v.conn b d] := by simp [wrFly]
            rw [this, hz]
            simp only [wrFly, tcpSubmits, List.nil_append, List.filterMap_cons, List.filterMap_nil]
          rw [e1, e2, List.append_nil]
          exact hsub.append (List.Sublist.refl _)
      | false =>
        rw [sendBuffer_closed hd ho hw]
        refine ⟨?_, fun c b' d' hm => ?_, fun c => ?_⟩
        · simp only [wrs, Tcp.emit, Tcp.post, List.countP_append, List.countP_singleton, isWrittenTask, if_true] at h0 ⊢; omega
        · rw [List.countP_eq_zero] at hf
          exact absurd rfl (hf _ hm)
        · have hsub := wires_sub h c
          simp only [Tcp.emit, Tcp.post]
          rw [tcpWires_append, tcpSubmits_append, hz]
          have e1 : tcpWires c [.submit v.conn d] = [] := by simp [tcpWires]
          rw [e1, List.append_nil, List.append_nil]
          exact hsub.trans (List.sublist_append_left _ _)

theorem Writes.beginRead {v : Tcp} (h : Writes v) : Writes v.beginRead := by
  obtain ⟨-, -, -, -, h5, h6⟩ := beginRead_same v
  refine h.tame ?_ ?_ (Or.inl h5) ?_ ⟨[], by simp [h6], by simp⟩ <;> unfold Tcp.beginRead
  · split
    · exact Nat.le_refl _
    · split <;> simp [wrs, isWriteOp, isWrittenTask, Tcp.post]
  · intro c b d
    split
    · exact id
    · split
      · simp
      · exact id
  · intro c
    split
    · exact List.Sublist.refl _
    · split
      · simp [wrFly]
      · exact List.Sublist.refl _

theorem Writes.of_eq {v v' : Tcp} (h : Writes v) (h1 : v'.flying = v.flying) (h2 : v'.queue = v.queue) (h3 : v'.wbuf = v.wbuf) (h4 : v'.log = v.log) :
    Writes v' := by
  refine ⟨?_, ?_, ?_⟩
  · simp only [wrs, h1, h2]; exact h.one
  · rw [h1, h3]; exact h.alive
  · rw [h1, h4]; exact h.wires

theorem Writes.abortAll {v : Tcp} (h : Writes v) : Writes v.abortAll := by
  have h0 := resolve_noWrites v.flying
  refine h.tame (Nat.le_of_eq (abortAll_wrs v)) (fun c b d hm => (List.mem_filter.1 hm).1) (Or.inl rfl) (fun c => ?_) ⟨[], by simp [Tcp.abortAll], by simp⟩
  have : wrFly c v.abortAll.flying = [] := noWrites_fly h0 c
  rw [this]; simp

theorem Writes.emit {v : Tcp} (h : Writes v) (e : TEv) (he : benign e = true) : Writes (v.emit e) :=
  h.tame (Nat.le_refl _) (fun _ _ _ h => h) (Or.inl rfl) (fun _ => List.Sublist.refl _) ⟨[e], rfl, by simpa using he⟩

theorem Writes.post {v : Tcp} (h : Writes v) (t : TTask) (ht : isWrittenTask t = false) : Writes (v.post t) :=
  h.tame (by simp [wrs, Tcp.post, ht]) (fun _ _ _ h => h) (Or.inl rfl) (fun _ => List.Sublist.refl _) ⟨[], by simp [Tcp.post], by simp⟩

theorem Writes.runTask {v : Tcp} {k : Nat} {t : TTask} (hd : v.isShutdown = false) (hn : Neat v) (h : Writes v) (hk : v.queue[k]? = some t) :
    Writes ({ v with queue := v.queue.eraseIdx k }.runTask t) := by
  have e1 := countP_eraseIdx isWrittenTask hk
  obtain ⟨w, hw⟩ : ∃ w, w = { v with queue := v.queue.eraseIdx k } := ⟨_, rfl⟩
  have hwd : w.isShutdown = false := by rw [hw]; exact hd
  have hcount : wrs w + (if isWrittenTask t then 1 else 0) = wrs v := by
    rw [hw]; simp only [wrs]; omega
  have hww : Writes w := by
    refine h.tame (by omega) ?_ (Or.inl (by rw [hw])) ?_ ⟨[], by simp [hw], by simp⟩
    · intro c b d; rw [hw]; exact id
    · intro c; rw [hw]
  rw [← hw]
  cases t with
  | shutdown => simp only [Tcp.runTask, runShutdown]; exact Writes.abortAll (v := { w with isShutdown := true }) (hww.of_eq rfl rfl rfl rfl)
  | close c =>
    simp only [Tcp.runTask]
    have he : Writes { w.emit (.closed c w.conn) with status := .notConnected } := (hww.emit (.closed c w.conn) rfl).of_eq rfl rfl rfl rfl
    cases ho : w.isOpen with
    | true => rw [runClose_open hwd ho]; exact he.abortAll.of_eq rfl rfl rfl rfl
    | false => rw [runClose_closed hwd ho]; exact he
  | resolved c ok =>
    simp only [Tcp.runTask]
    cases ok with
    | true =>
      rw [onResolved_ok hwd]
      refine hww.abortAll.tame ?_ ?_ (Or.inl rfl) ?_ ⟨[], by simp, by simp⟩
      · simp [wrs, isWriteOp]
      · intro c b d; simp
      · intro c; simp [wrFly]
    | false =>
      rw [onResolved_err hwd]
      exact Writes.emit (v := { w with status := .notConnected }) (hww.of_eq rfl rfl rfl rfl) _ rfl
  | connected c ok =>
    simp only [Tcp.runTask]
    cases ok with
    | true =>
      rw [onConnected_ok hwd]
      have hst : v.status = .connecting := by
        by_contra hst
        have := hn.other hst
        simp only [tcpAttempts, Nat.add_eq_zero_iff, List.countP_eq_zero] at this
        exact absurd rfl (this.2 _ (List.mem_of_getElem? hk))
      have h0 : wrs v = 0 := by
        have := (hn.connecting hst).1
        have := wrs_le_dataOps v
        omega
      exact (Writes.sendBuffer (v := { w with status := .connected }) (hww.of_eq rfl rfl rfl rfl) (by
        have : wrs { w with status := .connected } = wrs w := rfl
        omega)).beginRead
    | false =>
      rw [onConnected_err hwd]
      exact (hww.post _ rfl).emit _ rfl
  | read c r =>
    simp only [Tcp.runTask]
    cases r with
    | eof => rw [onRead_eof hwd]; exact hww.post _ rfl
    | error => rw [onRead_error hwd]; exact (hww.post _ rfl).emit _ rfl
    | data bs => rw [onRead_data hwd]; exact (hww.emit _ rfl).post _ rfl
    | again => rw [onRead_again hwd]; exact hww.beginRead
  | written c ok =>
    simp only [Tcp.runTask]
    have h0 : wrs w = 0 := by
      have := h.one
      simp only [isWrittenTask, if_true] at hcount
      omega
    have hf : w.flying.countP isWriteOp = 0 := by simp only [wrs] at h0; omega
    cases ok with
    | true =>
      rw [onWritten_ok hwd]
      exact hww.tame (Nat.le_refl _) (fun _ _ _ h => h) (Or.inr hf) (fun _ => List.Sublist.refl _) ⟨[.writeDone], rfl, by simp [benign]⟩
    | false => rw [onWritten_err hwd]; exact (hww.post _ rfl).emit _ rfl

theorem wrFly_erase {l : List TOp} {i c b : Nat} {d : List UInt8} (h : l[i]? = some (.write c b d)) (h1 : l.countP isWriteOp ≤ 1) (c' : Nat) :
    wrFly c' l = (if c = c' then [d] else []) ∧ wrFly c' (l.eraseIdx i) = [] := by
  induction l generalizing i with
  | nil => cases h
  | cons o l ih =>
    cases i with
    | zero =>
      simp only [List.getElem?_cons_zero, Option.some.injEq] at h
      subst h
      simp only [List.countP_cons, isWriteOp, if_true] at h1
      have : wrFly c' l = [] := noWrites_fly (by omega) c'
      simp only [wrFly] at this ⊢
      simp only [List.filterMap_cons, List.eraseIdx_cons_zero, this]
      split <;> simp_all
    | succ i =>
      simp only [List.getElem?_cons_succ] at h
      have hpos : 0 < l.countP isWriteOp := List.countP_pos_iff.2 ⟨_, List.mem_of_getElem? h, rfl⟩
      simp only [List.countP_cons] at h1
      have ho : isWriteOp o = false := by
        cases hc : isWriteOp o with
        | false => rfl
        | true => rw [hc] at h1; simp only [if_true] at h1; omega
      obtain ⟨i1, i2⟩ := ih h (by omega)
      simp only [wrFly] at i1 i2 ⊢
      simp only [List.eraseIdx_cons_succ, List.filterMap_cons, i1, i2]
      cases o <;> simp [isWriteOp] at ho <;> simp

theorem Writes.step {v v' : Tcp} (hd : v.isShutdown = false) (hn : Neat v) (h : Writes v) (op : Op) (hp : Patient v op) (hs : v.step op = .ret v') :
    Writes v' := by
  cases op with
  | send data loc =>
    injection hs with hs
    subst hs
    have h0 : wrs v = 0 := by
      by_contra hc
      exact hp.1 data loc rfl (busy_of_wrs hc)
    have hf : v.flying.countP isWriteOp = 0 := by simp only [wrs] at h0; omega
    have hask : Writes (v.ask data) := by
      refine ⟨h.one, fun c b d hm => ?_, fun c => ?_⟩
      · rw [List.countP_eq_zero] at hf
        exact absurd rfl (hf _ hm)
      · have := h.wires c
        simpa [Tcp.ask, Tcp.emit, tcpWires, tcpSubmits] using this
    cases hst : v.status with
    | notConnected =>
      by_cases hc : v.isOpen = true ∨ loc ≠ .ok
      · obtain ⟨o, e, -⟩ := send_gaveUp hd hst data loc hc
        rw [e]
        exact (hask.emit .gaveUp rfl).of_eq rfl rfl rfl rfl
      · push Not at hc
        obtain ⟨h1, rfl⟩ := hc
        rw [send_start hd hst (by simpa using h1)]
        refine (hask.emit (.attempt (v.conn + 1)) rfl).tame ?_ ?_ (Or.inl rfl) ?_ ⟨[], by simp, by simp⟩
        · simp [wrs, isWriteOp, Tcp.ask, Tcp.emit]
        · intro c b d; simp [Tcp.ask, Tcp.emit]
        · intro c; simp [wrFly, Tcp.ask, Tcp.emit]
    | connecting => rw [send_connecting hd hst]; exact hask
    | connected => rw [send_connected hd hst]; exact hask.sendBuffer h0
  | shutdown => injection hs with hs; subst hs; exact h.post _ rfl
  | complete i r =>
    rcases complete_cases hs with rfl | ⟨o, t, h1, h2, h3, h4, h5, h6, h7, h8, h9, h10, h11, h12, h13, h14⟩
    · exact h
    · have e1 := countP_eraseIdx isWriteOp h1
      have hwr : isWrittenTask t = isWriteOp o := by
        cases o <;> cases t <;> simp_all [isAttemptTask, isAttemptOp, isDataTask, isDataOp, isWrittenTask, isWriteOp, isCloseTask, taskTag]
        all_goals
          simp only [Tcp.step, complete, h1] at hs
          revert hs
          repeat' split
          all_goals (intro hs; first | (injection hs with hs; subst hs; simp [Tcp.post, Tcp.emit] at h9) | cases hs)
      have hc1 : wrs v' = wrs v := by
        simp only [wrs, h8, h9, List.countP_append, List.countP_singleton, hwr]; omega
      have hmem : ∀ c b d, TOp.write c b d ∈ v'.flying → TOp.write c b d ∈ v.flying := by
        intro c b d hm; rw [h8] at hm; exact List.mem_of_mem_eraseIdx hm
      rcases h14 with ⟨h14, -⟩ | ⟨c', b, d, n, rfl, rfl, rfl, hn1, hn2, hb, h14⟩
      · refine h.tame (Nat.le_of_eq hc1) hmem (Or.inl h6) (fun c => ?_) ⟨[], by simp [h14], by simp⟩
        rw [h8]
        exact (List.eraseIdx_sublist ..).filterMap _
      · have hfull : n = d.length := hp.2 i n c' b d rfl h1
        have hone := h.one
        have hz := fun c => wrFly_erase h1 (by simp only [wrs] at hone; omega) c
        refine ⟨by omega, fun c b' d' hm => by rw [h6]; exact h.alive c b' d' (hmem _ _ _ hm), fun c => ?_⟩
        have := h.wires c
        rw [(hz c).1] at this
        rw [h8, (hz c).2, h14, tcpWires_append, tcpSubmits_append, List.append_nil, hfull, List.take_length]
        have e2 : tcpSubmits c [.wire c' d] = [] := by simp [tcpSubmits]
        have e3 : tcpWires c [.wire c' d] = if c' = c then [d] else [] := by
          simp only [tcpWires, List.filterMap_cons, List.filterMap_nil]; split <;> simp_all
        rw [e2, e3, List.append_nil]
        exact this
  | run k =>
    simp only [Tcp.step] at hs
    split at hs
    · injection hs with hs; subst hs; exact h
    · rename_i t ht
      injection hs with hs; subst hs
      exact h.runTask hd hn ht

theorem _root_.Modbus.Spec.TcpReach.writes {P : Tcp → Op → Prop} (hP : ∀ v op, P v op → FreshStarts v op ∧ Patient v op) {v : Tcp} (h : TcpReach P v) :
    (∀ c b d, TOp.write c b d ∈ v.flying → v.wbuf = some (b, d)) ∧ ∀ c, (tcpWires c v.log).Sublist (tcpSubmits c v.log) := by
  have : (v.isShutdown = false → Writes v) ∧ (∀ c b d, TOp.write c b d ∈ v.flying → v.wbuf = some (b, d)) ∧
      ∀ c, (tcpWires c v.log).Sublist (tcpSubmits c v.log) := by
    induction h with
    | init =>
      refine ⟨fun _ => ⟨?_, ?_, ?_⟩, ?_, ?_⟩ <;> simp [Tcp.init, wrs, wrFly, tcpWires, tcpSubmits]
    | @step v v' op hr hp hs ih =>
      have hq' : Quiet v' := hr.quiet.step op hs
      cases hd : v.isShutdown with
      | true =>
        obtain ⟨v2, e1, e2, e3, -⟩ := shut_step hd hr.quiet op
        rw [hs] at e1
        injection e1 with e1
        subst e1
        refine ⟨fun h => (by rw [e2] at h; cases h), fun c b d hm => ?_, by rw [e3]; exact ih.2.2⟩
        have := hq' (Or.inl e2) _ hm
        cases this
      | false =>
        have hn := (hr.neat (fun v op h => (hP v op h).1)).resolve_left (by simp [hd])
        have hw := (ih.1 hd).step hd hn op (hP _ _ hp).2 hs
        exact ⟨fun _ => hw, hw.alive, fun c => wires_sub hw c⟩
  exact this.2

/-- With one write at a time and complete writes there is no undefined behaviour. -/
theorem step_noUB {v : Tcp} (h : ∀ c b d, TOp.write c b d ∈ v.flying → v.wbuf = some (b, d)) (op : Op) : ∃ v', v.step op = .ret v' := by
  cases op with
  | send => exact ⟨_, rfl⟩
  | shutdown => exact ⟨_, rfl⟩
  | run k => simp only [Tcp.step]; split <;> exact ⟨_, rfl⟩
  | complete i r =>
    simp only [Tcp.step, complete]
    repeat' split
    all_goals first
      | exact ⟨_, rfl⟩
      | (rename_i ho _ hn
         exact absurd (by rw [h _ _ _ (List.mem_of_getElem? ‹_›)]; rfl) hn)

/-! ### The dead state -/

/-- Not connected, but the socket is still open, and nothing is going on. -/
structure Dead (v : Tcp) : Prop where
  status : v.status = .notConnected
  isOpen : v.isOpen = true
  flying : v.flying = []
  queue : ∀ t ∈ v.queue, t = .shutdown

theorem Dead.step {v : Tcp} (h : Dead v) (op : Op) :
    ∃ v', v.step op = .ret v' ∧ Dead v' ∧ ∃ es, v'.log = v.log ++ es ∧ ∀ e ∈ es, (∃ d, e = .asked d) ∨ e = .gaveUp := by
  cases op with
  | send data loc =>
    refine ⟨_, rfl, ?_⟩
    cases hd : v.isShutdown with
    | true =>
      have : v.send data loc = v := by unfold send; rw [if_pos hd]
      rw [this]
      exact ⟨h, [], by simp, by simp⟩
    | false =>
      obtain ⟨o, e, ho⟩ := send_gaveUp hd h.status data loc (Or.inl h.isOpen)
      rw [e]
      refine ⟨⟨h.status, ho h.isOpen, h.flying, h.queue⟩, [.asked data, .gaveUp], by simp [Tcp.ask, Tcp.emit], by simp⟩
  | shutdown =>
    refine ⟨_, rfl, ⟨h.status, h.isOpen, h.flying, ?_⟩, [], by simp [Tcp.post], by simp⟩
    intro t ht
    rcases List.mem_append.1 ht with ht | ht
    · exact h.queue t ht
    · exact List.mem_singleton.1 ht
  | complete i r =>
    refine ⟨v, ?_, h, [], by simp, by simp⟩
    simp [Tcp.step, complete, h.flying]
  | run k =>
    simp only [Tcp.step]
    cases ht : v.queue[k]? with
    | none => exact ⟨v, rfl, h, [], by simp, by simp⟩
    | some t =>
      have := h.queue t (List.mem_of_getElem? ht)
      subst this
      refine ⟨_, rfl, ⟨h.status, h.isOpen, ?_, ?_⟩, [], by simp [Tcp.runTask, runShutdown, Tcp.abortAll], by simp⟩
      · simp [Tcp.runTask, runShutdown, Tcp.abortAll, h.flying]
      · simp only [Tcp.runTask, runShutdown, Tcp.abortAll, h.flying]
        intro t ht
        simp at ht
        exact h.queue t (List.mem_of_mem_eraseIdx ht)

theorem Dead.run {v : Tcp} (h : Dead v) (ops : List Op) :
    ∃ v', v.run ops = .ret v' ∧ Dead v' ∧ ∃ es, v'.log = v.log ++ es ∧ ∀ e ∈ es, (∃ d, e = .asked d) ∨ e = .gaveUp := by
  induction ops generalizing v with
  | nil => exact ⟨v, rfl, h, [], by simp, by simp⟩
  | cons op ops ih =>
    obtain ⟨v1, h1, h2, es1, h3, h4⟩ := h.step op
    obtain ⟨v2, g1, g2, es2, g3, g4⟩ := ih h2
    refine ⟨v2, ?_, g2, es1 ++ es2, by rw [g3, h3, List.append_assoc], ?_⟩
    · simp [Tcp.run, h1, g1]
    · intro e he
      rcases List.mem_append.1 he with he | he
      · exact h4 e he
      · exact g4 e he

theorem shut_run {v : Tcp} (hd : v.isShutdown = true) (hq : Quiet v) (ops : List Op) :
    ∃ v', v.run ops = .ret v' ∧ v'.isShutdown = true ∧ v'.log = v.log ∧ v'.flying.Sublist v.flying := by
  induction ops generalizing v with
  | nil => exact ⟨v, rfl, hd, rfl, List.Sublist.refl _⟩
  | cons op ops ih =>
    obtain ⟨v1, h1, h2, h3, h4⟩ := shut_step hd hq op
    obtain ⟨v2, g1, g2, g3, g4⟩ := ih h2 (hq.step op h1)
    exact ⟨v2, by simp [Tcp.run, h1, g1], g2, g3.trans h3, g4.trans h4⟩

/-! ### Framing across connections -/

/-- Has anything been received since the last error? -/
def rxDirty (d : Bool) (log : List TEv) : Bool :=
  log.foldl (fun d e => match e with
    | .receive _ _ => true
    | .error _ _ => false
    | _ => d) d

theorem rxDirty_append (d : Bool) (a b : List TEv) : rxDirty d (a ++ b) = rxDirty (rxDirty d a) b := by simp [rxDirty]

def hasRead (v : Tcp) : Prop := (∃ c, TOp.read c ∈ v.flying) ∨ ∃ c r, TTask.read c r ∈ v.queue

structure Rx (v : Tcp) : Prop where
  reading : rxDirty false v.log = true → hasRead v
  noEof : ∀ c, TTask.read c .eof ∉ v.queue
  clean : ∀ pre c post, v.log = pre ++ .attempt c :: post → rxDirty false pre = false

theorem rx_noAttempt {v v' : Tcp} (h : Rx v) {es : List TEv} (hl : v'.log = v.log ++ es) (he : ∀ c, TEv.attempt c ∉ es) :
    ∀ pre c post, v'.log = pre ++ .attempt c :: post → rxDirty false pre = false := by
  intro pre c post hp
  rw [hl] at hp
  rcases append_cons_cases hp with ⟨m, hm⟩ | ⟨es1, hes, -⟩
  · exact h.clean pre c m hm
  · exact absurd (by rw [hes]; simp) (he c)

/-- A step that loses no read and receives nothing. -/
theorem Rx.calm {v v' : Tcp} (h : Rx v) {es : List TEv} (hl : v'.log = v.log ++ es) (he : ∀ c, TEv.attempt c ∉ es) (hr : ∀ c bs, TEv.receive c bs ∉ es)
    (hh : hasRead v → hasRead v') (hq : ∀ c, TTask.read c .eof ∈ v'.queue → TTask.read c .eof ∈ v.queue) : Rx v' := by
  refine ⟨fun hd => ?_, fun c hc => h.noEof c (hq c hc), rx_noAttempt h hl he⟩
  apply hh
  apply h.reading
  rw [hl, rxDirty_append] at hd
  clear hl he
  induction es generalizing v with
  | nil => exact hd
  | cons e es ih =>
    by_contra hc
    have hf : rxDirty false v.log = false := by simpa using hc
    rw [hf] at hd
    have : ∀ (es : List TEv), (∀ c bs, TEv.receive c bs ∉ es) → rxDirty false es = false := by
      intro es
      induction es with
      | nil => intro _; rfl
      | cons e es ih =>
        intro he
        have h1 : rxDirty false (e :: es) = rxDirty false es := by
          cases e with
          | receive c bs => exact absurd (by simp) (he c bs)
          | _ => rfl
        rw [h1]
        exact ih (fun c bs hm => he c bs (by simp [hm]))
    rw [this _ hr] at hd
    cases hd

theorem hasRead.abortAll {v : Tcp} (h : hasRead v) : hasRead v.abortAll := by
  rcases h with ⟨c, h⟩ | ⟨c, r, h⟩
  · exact Or.inr ⟨c, .error, List.mem_append_right _ (List.mem_filterMap.2 ⟨_, h, rfl⟩)⟩
  · exact Or.inr ⟨c, r, List.mem_append_left _ h⟩

theorem hasRead.mono {v v' : Tcp} (h : hasRead v) (h1 : ∀ o ∈ v.flying, o ∈ v'.flying) (h2 : ∀ t ∈ v.queue, t ∈ v'.queue) : hasRead v' := by
  rcases h with ⟨c, h⟩ | ⟨c, r, h⟩
  · exact Or.inl ⟨c, h1 _ h⟩
  · exact Or.inr ⟨c, r, h2 _ h⟩

theorem hasRead_beginRead {v : Tcp} (hd : v.isShutdown = false) : hasRead v.beginRead := by
  cases ho : v.isOpen with
  | true => rw [beginRead_open hd ho]; exact Or.inl ⟨v.conn, by simp⟩
  | false => rw [beginRead_closed hd ho]; exact Or.inr ⟨v.conn, .error, by simp [Tcp.post]⟩

theorem beginRead_noEof {v : Tcp} {c : Nat} (h : TTask.read c .eof ∈ v.beginRead.queue) : TTask.read c .eof ∈ v.queue := by
  unfold Tcp.beginRead at h
  split at h
  · exact h
  · split at h
    · exact h
    · simpa [Tcp.post] using h

theorem sendBuffer_noEof {v : Tcp} {c : Nat} (h : TTask.read c .eof ∈ v.sendBuffer.queue) : TTask.read c .eof ∈ v.queue := by
  unfold Tcp.sendBuffer at h
  split at h
  · exact h
  · split at h
    · exact h
    · dsimp only at h
      split at h
      · exact h
      · simpa [Tcp.post, Tcp.emit] using h

theorem Rx.runTask {v : Tcp} {k : Nat} {t : TTask} (hd : v.isShutdown = false) (h : Rx v) (hk : v.queue[k]? = some t) :
    Rx ({ v with queue := v.queue.eraseIdx k }.runTask t) := by
  obtain ⟨w, hw⟩ : ∃ w, w = { v with queue := v.queue.eraseIdx k } := ⟨_, rfl⟩
  have hwd : w.isShutdown = false := by rw [hw]; exact hd
  have hwl : w.log = v.log := by rw [hw]
  have hq : ∀ t ∈ w.queue, t ∈ v.queue := by rw [hw]; intro t ht; exact List.mem_of_mem_eraseIdx ht
  have hkeep : (∀ c r, t ≠ .read c r) → hasRead v → hasRead w := by
    intro ht hr
    rw [hw]
    rcases hr with ⟨c, hr⟩ | ⟨c, r, hr⟩
    · exact Or.inl ⟨c, hr⟩
    · rcases mem_eraseIdx_or hk hr with rfl | hr
      · exact absurd rfl (ht c r)
      · exact Or.inr ⟨c, r, hr⟩
  have habort : ∀ c, TTask.read c .eof ∈ w.abortAll.queue → TTask.read c .eof ∈ v.queue := by
    intro c hc
    rcases List.mem_append.1 hc with hc | hc
    · exact hq _ hc
    · obtain ⟨o, -, ho⟩ := List.mem_filterMap.1 hc
      cases o <;> simp [aborted] at ho
  rw [← hw]
  cases t with
  | shutdown =>
    simp only [Tcp.runTask, runShutdown]
    exact h.calm (es := []) (by simp [Tcp.abortAll, hwl]) (by simp) (by simp)
      (fun hr => hasRead.abortAll (v := { w with isShutdown := true }) (hkeep (by simp) hr)) habort
  | close c =>
    simp only [Tcp.runTask]
    cases ho : w.isOpen with
    | true =>
      rw [runClose_open hwd ho]
      refine h.calm (es := [.closed c w.conn]) ?_ (by simp) (by simp) (fun hr => ?_) habort
      · rw [← hwl]; rfl
      · exact hasRead.abortAll (v := { w.emit (.closed c w.conn) with status := .notConnected }) (hkeep (by simp) hr)
    | false =>
      rw [runClose_closed hwd ho]
      exact h.calm (es := [.closed c w.conn]) (by rw [← hwl]; rfl) (by simp) (by simp) (hkeep (by simp)) (fun c hc => hq _ hc)
  | resolved c ok =>
    simp only [Tcp.runTask]
    cases ok with
    | true =>
      rw [onResolved_ok hwd]
      refine h.calm (es := []) (by simp [Tcp.abortAll, hwl]) (by simp) (by simp) (fun hr => ?_) habort
      exact (hasRead.abortAll (hkeep (by simp) hr)).mono (fun o ho => by simp [ho]) (fun t ht => ht)
    | false =>
      rw [onResolved_err hwd]
      exact h.calm (es := [.error c w.conn]) (by rw [← hwl]; rfl) (by simp) (by simp) (hkeep (by simp)) (fun c hc => hq _ hc)
  | connected c ok =>
    simp only [Tcp.runTask]
    cases ok with
    | true =>
      rw [onConnected_ok hwd]
      have b := beginRead_same ({ w with status := .connected } : Tcp).sendBuffer
      have a := sendBuffer_same ({ w with status := .connected } : Tcp)
      have l := sendBuffer_log (v := { w with status := .connected }) hwd
      refine h.calm (es := (w.wbuf.map fun b => TEv.submit w.conn b.2).toList) ?_ ?_ ?_ (fun _ => hasRead_beginRead (a.1.trans hwd))
        (fun c hc => hq _ (sendBuffer_noEof (v := { w with status := .connected }) (beginRead_noEof hc)))
      · rw [b.2.2.2.2.2, l, ← hwl]
      · intro c; cases w.wbuf <;> simp
      · intro c; cases w.wbuf <;> simp
    | false =>
      rw [onConnected_err hwd]
      refine h.calm (es := [.error c w.conn]) (by rw [← hwl]; rfl) (by simp) (by simp) (fun hr => ?_) (fun c hc => ?_)
      · exact (hkeep (by simp) hr).mono (fun _ h => h) (fun t ht => List.mem_append_left _ ht)
      · simp [Tcp.post, Tcp.emit] at hc; exact hq _ hc
  | read c r =>
    simp only [Tcp.runTask]
    cases r with
    | eof => exact absurd (List.mem_of_getElem? hk) (h.noEof c)
    | error =>
      rw [onRead_error hwd]
      refine ⟨fun hdirty => ?_, fun c hc => ?_, rx_noAttempt h (es := [.error c w.conn]) (by rw [← hwl]; rfl) (by simp)⟩
      · simp only [Tcp.emit, rxDirty_append] at hdirty
        cases hdirty
      · simp [Tcp.post, Tcp.emit] at hc; exact h.noEof _ (hq _ hc)
    | data bs =>
      rw [onRead_data hwd]
      refine ⟨fun _ => Or.inr ⟨c, .again, by simp [Tcp.post]⟩, fun c hc => h.noEof c (hq _ ?_),
        rx_noAttempt h (es := [.receive c bs]) (by rw [← hwl]; rfl) (by simp)⟩
      simpa [Tcp.post, Tcp.emit] using hc
    | again =>
      rw [onRead_again hwd]
      obtain ⟨-, -, -, -, -, h6⟩ := beginRead_same w
      refine ⟨fun _ => hasRead_beginRead hwd, fun c hc => h.noEof _ (hq _ (beginRead_noEof hc)),
        rx_noAttempt h (es := []) ?_ (by simp)⟩
      rw [h6, ← hwl, List.append_nil]
  | written c ok =>
    simp only [Tcp.runTask]
    cases ok with
    | true =>
      rw [onWritten_ok hwd]
      exact h.calm (es := [.writeDone]) (by rw [← hwl]; rfl) (by simp) (by simp) (hkeep (by simp)) (fun c hc => hq _ hc)
    | false =>
      rw [onWritten_err hwd]
      refine h.calm (es := [.error c w.conn]) (by rw [← hwl]; rfl) (by simp) (by simp) (fun hr => ?_) (fun c hc => ?_)
      · exact (hkeep (by simp) hr).mono (fun _ h => h) (fun t ht => List.mem_append_left _ ht)
      · simp [Tcp.post, Tcp.emit] at hc; exact hq _ hc

theorem Rx.step {v v' : Tcp} (hd : v.isShutdown = false) (h : Rx v) (op : Op) (hp : FreshStarts v op ∧ NoEof v op) (hs : v.step op = .ret v') : Rx v' := by
  cases op with
  | send data loc =>
    injection hs with hs
    subst hs
    cases hst : v.status with
    | notConnected =>
      by_cases hc : v.isOpen = true ∨ loc ≠ .ok
      · obtain ⟨o, e, -⟩ := send_gaveUp hd hst data loc hc
        rw [e]
        exact h.calm (es := [.asked data, .gaveUp]) (by simp [Tcp.ask, Tcp.emit]) (by simp) (by simp) id (fun _ h => h)
      · push Not at hc
        obtain ⟨h1, rfl⟩ := hc
        have h1 : v.isOpen = false := by simpa using h1
        have hset := hp.1 data .ok rfl hst h1
        have hno : rxDirty false v.log = false := by
          by_contra hcon
          rcases h.reading (by simpa using hcon) with ⟨c, hr⟩ | ⟨c, r, hr⟩
          · obtain ⟨c', hc' | hc'⟩ := hset.1 _ hr <;> cases hc'
          · rcases hset.2 _ hr with hc' | ⟨c', ok, hc'⟩ | ⟨c', ok, hc'⟩ <;> cases hc'
        rw [send_start hd hst h1]
        have hl : (((v.ask data).emit (.attempt (v.conn + 1))).log) = v.log ++ [.asked data, .attempt (v.conn + 1)] := by simp [Tcp.ask, Tcp.emit]
        refine ⟨fun hdirty => ?_, h.noEof, fun pre c post hpp => ?_⟩
        · simp only [hl, rxDirty_append, hno] at hdirty
          cases hdirty
        · simp only [hl] at hpp
          rcases append_cons_cases hpp with ⟨m, hm⟩ | ⟨es1, hes, hpre⟩
          · exact h.clean pre c m hm
          · cases es1 with
            | nil => simp at hes
            | cons e es1 =>
              cases es1 with
              | nil =>
                simp at hes
                rw [hpre, rxDirty_append, hno, ← hes.1]
                rfl
              | cons => simp at hes
    | connecting =>
      rw [send_connecting hd hst]
      exact h.calm (es := [.asked data]) rfl (by simp) (by simp) id (fun _ h => h)
    | connected =>
      rw [send_connected hd hst]
      refine h.calm (es := [.asked data, .submit v.conn data]) ?_ (by simp) (by simp) (fun hr => ?_) (fun c hc => sendBuffer_noEof (v := v.ask data) hc)
      · rw [sendBuffer_log (v := v.ask data) hd]; simp [Tcp.ask, Tcp.emit]
      · have g := Grows.sendBuffer (v.ask data)
        exact hr.mono g.flying g.queue
  | shutdown =>
    injection hs with hs
    subst hs
    refine h.calm (es := []) (by simp [Tcp.post]) (by simp) (by simp) (fun hr => hr.mono (fun _ h => h) (fun t ht => List.mem_append_left _ ht)) ?_
    intro c hc
    simpa [Tcp.post] using hc
  | complete i r =>
    rcases complete_cases hs with rfl | ⟨o, t, h1, h2, h3, h4, h5, h6, h7, h8, h9, h10, h11, h12, h13, h14⟩
    · exact h
    · have hrd : ∀ c, o = .read c → ∃ r, t = .read c r ∧ r ≠ .eof := by
        intro c ho
        subst ho
        simp only [Tcp.step, complete, h1] at hs
        cases r with
        | data bs =>
          simp only at hs
          split at hs
          · injection hs with hs; subst hs
            simp [Tcp.post] at h9; exact ⟨_, h9.symm, by simp⟩
          · injection hs with hs; subst hs
            simp at h9
        | eof => exact absurd rfl (hp.2 i)
        | error =>
          simp only [CM.ret.injEq] at hs
          subst hs; simp [Tcp.post] at h9; exact ⟨_, h9.symm, by simp⟩
        | ok => simp only [CM.ret.injEq] at hs; subst hs; simp at h9
        | sent n => simp only [CM.ret.injEq] at hs; subst hs; simp at h9
      have hne : ∀ c, t ≠ .read c .eof := by
        intro c ht
        subst ht
        cases o with
        | read c' =>
          obtain ⟨r, hr1, hr2⟩ := hrd c' rfl
          injection hr1 with _ hr1
          exact hr2 hr1.symm
        | write c' b d =>
          rcases h14 with ⟨-, -⟩ | ⟨_, _, _, _, -, -, h14, -⟩
          · simp only [Tcp.step, complete, h1] at hs
            revert hs
            repeat' split
            all_goals (intro hs; first | (injection hs with hs; subst hs; simp [Tcp.post, Tcp.emit] at h9) | cases hs)
          · cases h14
        | resolve c' => cases h11
        | connect c' => cases h11
      have hlog : ∃ es, v'.log = v.log ++ es ∧ (∀ c, TEv.attempt c ∉ es) ∧ ∀ c bs, TEv.receive c bs ∉ es := by
        rcases h14 with ⟨h14, -⟩ | ⟨_, _, _, _, -, -, -, -, -, -, h14⟩
        · exact ⟨[], by simp [h14], by simp, by simp⟩
        · exact ⟨_, h14, by simp, by simp⟩
      obtain ⟨es, e1, e2, e3⟩ := hlog
      refine h.calm e1 e2 e3 (fun hr => ?_) (fun c hc => ?_)
      · rcases hr with ⟨c, hr⟩ | ⟨c, r, hr⟩
        · rcases mem_eraseIdx_or h1 hr with ho | hr
          · obtain ⟨r, hr, -⟩ := hrd c ho.symm
            exact Or.inr ⟨c, r, by rw [h9, hr]; simp⟩
          · exact Or.inl ⟨c, by rw [h8]; exact hr⟩
        · exact Or.inr ⟨c, r, by rw [h9]; simp [hr]⟩
      · rw [h9] at hc
        rcases List.mem_append.1 hc with hc | hc
        · exact hc
        · exact absurd (List.mem_singleton.1 hc).symm (hne c)
  | run k =>
    simp only [Tcp.step] at hs
    split at hs
    · injection hs with hs; subst hs; exact h
    · rename_i t ht
      injection hs with hs; subst hs
      exact h.runTask hd ht

theorem _root_.Modbus.Spec.TcpReach.rx {P : Tcp → Op → Prop} (hP : ∀ v op, P v op → FreshStarts v op ∧ NoEof v op) {v : Tcp} (h : TcpReach P v) :
    ∀ pre c post, v.log = pre ++ .attempt c :: post → rxDirty false pre = false := by
  have : (v.isShutdown = false → Rx v) ∧ ∀ pre c post, v.log = pre ++ .attempt c :: post → rxDirty false pre = false := by
    induction h with
    | init => exact ⟨fun _ => ⟨by simp [Tcp.init, rxDirty], by simp [Tcp.init], by simp [Tcp.init]⟩, by simp [Tcp.init]⟩
    | @step v v' op hr hp hs ih =>
      cases hd : v.isShutdown with
      | true =>
        obtain ⟨v2, e1, e2, e3, -⟩ := shut_step hd hr.quiet op
        rw [hs] at e1
        injection e1 with e1
        subst e1
        exact ⟨fun h => (by rw [e2] at h; cases h), by rw [e3]; exact ih.2⟩
      | false =>
        have := (ih.1 hd).step hd op (hP _ _ hp) hs
        exact ⟨fun _ => this, this.clean⟩
  exact this.2

/-- Like `framing`, on the stretches between errors. -/
def framingSegs (p : Parser) : List (List (List UInt8)) → CM (Parser × List Mbap)
  | [] => .ret (p, [])
  | [s] => p.feed s
  | s :: ss => do
    let (p1, out1) ← p.feed s
    let (p2, out2) ← framingSegs p1.reset ss
    return (p2, out1 ++ out2)

theorem rxSegments_ne (es : List TEv) : rxSegments es ≠ [] := by
  induction es with
  | nil => simp [rxSegments]
  | cons e es ih =>
    cases e <;> simp only [rxSegments] <;> first | exact ih | (split <;> simp) | simp

theorem framing_segs (p : Parser) (es : List TEv) : framing p es = framingSegs p (rxSegments es) := by
  induction es generalizing p with
  | nil => rfl
  | cons e es ih =>
    cases e with
    | receive c bs =>
      simp only [framing, rxSegments]
      cases hs : rxSegments es with
      | nil => exact absurd hs (rxSegments_ne es)
      | cons s ss =>
        simp only [ih, hs]
        cases hp : p.parse bs with
        | ub =>
          cases ss with
          | nil => simp [framingSegs, Parser.feed, hp]
          | cons => simp [framingSegs, Parser.feed, hp]
        | ret a =>
          obtain ⟨p1, o1⟩ := a
          cases ss with
          | nil => simp [framingSegs, Parser.feed, hp]
          | cons s2 ss =>
            simp only [framingSegs, Parser.feed, hp, CM.ret_bind]
            cases hf : p1.feed s with
            | ub => simp
            | ret a =>
              obtain ⟨p2, o2⟩ := a
              simp only [CM.ret_bind, CM.pure_eq]
              cases hf2 : framingSegs p2.reset (s2 :: ss) with
              | ub => simp
              | ret a => simp
    | error c cur =>
      simp only [framing, rxSegments, ih]
      cases hs : rxSegments es with
      | nil => exact absurd hs (rxSegments_ne es)
      | cons s ss =>
        simp only [framingSegs, Parser.feed, CM.ret_bind, CM.pure_eq]
        cases framingSegs p.reset (s :: ss) with
        | ub => rfl
        | ret a => simp
    | _ => simp only [framing, rxSegments, ih]

theorem framing_append (p : Parser) (a b : List TEv) :
    framing p (a ++ b) = (framing p a).bind fun x => (framing x.1 b).bind fun y => .ret (y.1, x.2 ++ y.2) := by
  induction a generalizing p with
  | nil =>
    simp only [List.nil_append, framing, CM.bind]
    cases framing p b with
    | ub => rfl
    | ret y => rfl
  | cons e a ih =>
    cases e with
    | receive c bs =>
      simp only [List.cons_append, framing]
      cases p.parse bs with
      | ub => rfl
      | ret x =>
        obtain ⟨p1, o1⟩ := x
        simp only [CM.ret_bind, ih]
        cases framing p1 a with
        | ub => rfl
        | ret y =>
          obtain ⟨p2, o2⟩ := y
          cases hb : framing p2 b with
          | ub => simp [CM.bind, hb, bind, pure]
          | ret z => simp [CM.bind, hb, bind, pure]
    | _ => simp only [List.cons_append, framing, ih]

/-- A parser at the start of a frame that has consumed nothing. -/
def FreshParser (pol : CopyPolicy) (p : Parser) : Prop := ∃ mem, mem.length = 260 ∧ p = Parser.init pol mem

theorem feed_rep {p : Parser} {pend : List UInt8} (h : Rep p pend) (chunks : List (List UInt8)) :
    ∃ p' out pend', p.feed chunks = .ret (p', out) ∧ Rep p' pend' ∧ p'.pol = p.pol := by
  obtain ⟨p', out, fs, pend', h1, h2, h3, h4, h5, h6, h7⟩ := feed_spec chunks _ _ h
  exact ⟨p', out, pend', h1, h6, h2⟩

theorem framing_fresh {pol : CopyPolicy} (es : List TEv) (p : Parser) (d : Bool) (pend : List UInt8) (hp : Rep p pend) (hpol : p.pol = pol)
    (hd : d = false → FreshParser pol p) :
    ∃ p' out pend', framing p es = .ret (p', out) ∧ Rep p' pend' ∧ p'.pol = pol ∧ (rxDirty d es = false → FreshParser pol p') := by
  induction es generalizing p d pend with
  | nil => exact ⟨p, [], pend, rfl, hp, hpol, hd⟩
  | cons e es ih =>
    cases e with
    | receive c bs =>
      obtain ⟨p1, o1, pend1, h1, h2, h3⟩ := feed_rep hp [bs]
      have h1 : p.parse bs = .ret (p1, o1) := by
        simp only [Parser.feed] at h1
        cases hb : p.parse bs with
        | ub => simp [hb] at h1
        | ret x =>
          rw [hb] at h1
          obtain ⟨x1, x2⟩ := x
          simpa using h1
      obtain ⟨p2, o2, pend2, g1, g2, g3, g4⟩ := ih p1 true pend1 h2 (h3.trans hpol) (by simp)
      exact ⟨p2, o1 ++ o2, pend2, by simp [framing, h1, g1], g2, g3, g4⟩
    | error c cur =>
      have hf : FreshParser pol p.reset := ⟨p.view.mem, hp.mem_length, by rw [← hpol]; rfl⟩
      simp only [framing]
      exact ih p.reset false [] (rep_reset p hp.mem_length) (by rw [← hpol]; rfl) (fun _ => hf)
    | _ => simp only [framing]; exact ih p d pend hp hpol hd

theorem _root_.Modbus.Spec.TcpReach.live {P : Tcp → Op → Prop} (hP : ∀ v op, P v op → NoLocalFailure v op) {v : Tcp} (h : TcpReach P v) :
    v.isShutdown = true ∨ Live v := by
  induction h with
  | init => exact Or.inr ⟨by simp [Tcp.init], by simp [Tcp.init], by simp [Tcp.init], by simp [Tcp.init]⟩
  | step hr hp hs ih => exact Live.step ih _ (hP _ _ hp) hs hr.quiet

end Modbus.Tcp
