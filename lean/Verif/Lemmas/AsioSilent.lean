import Verif.Lemmas.AsioServer

/-! Helper lemmas: nothing is written on a connection of the server whose socket has been closed. -/

namespace Modbus.Asv

open Spec

/-- The event is about writing on connection `c`. -/
def outOn (c : Nat) : AEv → Bool
  | .submit c' _ => c' = c
  | .wire c' _ => c' = c
  | _ => false

structure Sil (v : Asv) (c : Nat) : Prop where
  fresh : (v.conns c).wbuf ≠ none → v.Live c
  ops : AEv.closed c ∈ v.log → ∀ o ∈ v.flying, onSocket c o = false
  conn : AEv.closed c ∈ v.log → (v.conns c).connected = true → ∀ bs, ATask.read c (some bs) ∉ v.queue
  quiet : ∀ a b, v.log = a ++ .closed c :: b → ∀ e ∈ b, outOn c e = false

theorem quiet_append {c : Nat} {log es : List AEv} (h : ∀ a b, log = a ++ .closed c :: b → ∀ e ∈ b, outOn c e = false)
    (hn : AEv.closed c ∉ es) (he : AEv.closed c ∈ log → ∀ e ∈ es, outOn c e = false) :
    ∀ a b, log ++ es = a ++ .closed c :: b → ∀ e ∈ b, outOn c e = false := by
  intro a b hl
  rcases List.append_eq_append_iff.1 hl with ⟨x, h1, h2⟩ | ⟨x, h1, h2⟩
  · exact absurd (by rw [h2]; simp) hn
  · cases x with
    | nil => exact absurd (by rw [← show _ = es from h2]; simp) hn
    | cons y x =>
      injection h2 with h2 h3
      subst h2
      intro e hm
      rw [h3] at hm
      rcases List.mem_append.1 hm with hm | hm
      · exact h a x h1 e hm
      · exact he (by rw [h1]; simp) e hm

theorem Sil.frame {v v' : Asv} {c : Nat} (h : Sil v c) (hlive : v.Live c → v'.Live c)
    (hw : (v'.conns c).wbuf ≠ none → (v.conns c).wbuf ≠ none ∨ v'.Live c) {es : List AEv} (hl : v'.log = v.log ++ es) (hn : AEv.closed c ∉ es)
    (he : AEv.closed c ∈ v.log → ∀ e ∈ es, outOn c e = false)
    (hf : AEv.closed c ∈ v.log → ∀ o ∈ v'.flying, o ∈ v.flying ∨ onSocket c o = false)
    (hq : AEv.closed c ∈ v.log → (v'.conns c).connected = true → ∀ bs, ATask.read c (some bs) ∈ v'.queue →
      (v.conns c).connected = true ∧ ATask.read c (some bs) ∈ v.queue) : Sil v' c := by
  have hm : AEv.closed c ∈ v'.log → AEv.closed c ∈ v.log := by
    rw [hl]; intro hh; exact (List.mem_append.1 hh).resolve_right hn
  refine ⟨fun h1 => (hw h1).elim (fun h2 => hlive (h.fresh h2)) id, fun h1 o ho => ?_, fun h1 h2 bs h3 => ?_, ?_⟩
  · exact (hf (hm h1) o ho).elim (h.ops (hm h1) o) id
  · obtain ⟨h4, h5⟩ := hq (hm h1) h2 bs h3
    exact h.conn (hm h1) h4 bs h5
  · rw [hl]; exact quiet_append h.quiet hn he

/-- Parts that do not concern writing on `c`: no new operations, no new data from it, connection state as before. -/
theorem Sil.plain {v v' : Asv} {c : Nat} (h : Sil v c) (hlive : v.Live c → v'.Live c) (hx : v'.conns c = v.conns c) {es : List AEv}
    (hl : v'.log = v.log ++ es) (hn : AEv.closed c ∉ es) (he : ∀ e ∈ es, outOn c e = false)
    (hf : ∀ o ∈ v'.flying, o ∈ v.flying ∨ onSocket c o = false)
    (hq : ∀ bs, ATask.read c (some bs) ∈ v'.queue → ATask.read c (some bs) ∈ v.queue) : Sil v' c :=
  h.frame hlive (fun h1 => Or.inl (hx ▸ h1)) hl hn (fun _ => he) (fun _ => hf) (fun _ h1 bs h2 => ⟨hx ▸ h1, hq bs h2⟩)

theorem Sil.remove {v : Asv} {c : Nat} (h : Sil v c) (d : Nat) : Sil (v.removeConnection d) c := by
  have hlive := (remove_live v d c).2
  unfold removeConnection at hlive ⊢
  split at hlive
  · rename_i hd
    rw [if_pos hd]
    exact h.plain hlive rfl (es := [.left d]) rfl (by simp) (by simp [outOn]) (fun o ho => Or.inl ho) (fun bs hb => by
      rcases List.mem_append.1 hb with hb | hb
      · exact hb
      · simp at hb)
  · rename_i hd
    rw [if_neg hd]
    exact h

theorem Sil.fail {v : Asv} {c : Nat} (h : Sil v c) (d : Nat) : Sil (v.fail d) c := by
  refine Sil.remove ?_ d
  exact h.plain (fun hl => hl.frame rfl (tok_post_close v d c)) rfl (es := [.error d]) rfl (by simp) (by simp [outOn]) (fun o ho => Or.inl ho) (fun bs hb => by
      rcases List.mem_append.1 hb with hb | hb
      · exact hb
      · simp at hb)

/-- What connection `d` does when it may write. -/
theorem Sil.sendBuffer {v : Asv} {c d : Nat} (h : Sil v c) (hd : d = c → AEv.closed c ∈ v.log → (v.conns c).connected = false ∨ (v.conns c).wbuf = none) :
    Sil (v.sendBuffer d) c := by
  have hlive : v.Live c → (v.sendBuffer d).Live c := fun hl => hl.frame (sendBuffer_next _ _) (sendBuffer_tok _ _ _)
  unfold Asv.sendBuffer at hlive ⊢
  split
  · exact h
  · rename_i b data hb
    rw [hb] at hlive
    dsimp only at hlive
    split
    · rename_i hcon
      rw [if_pos hcon] at hlive
      have hdc : d = c → AEv.closed c ∉ v.log := by
        intro e hm
        rcases hd e hm with h1 | h1
        · rw [e, h1] at hcon; cases hcon
        · rw [e, h1] at hb; cases hb
      have hout : AEv.closed c ∈ v.log → ∀ e ∈ [AEv.submit d data], outOn c e = false := by
        intro hm e he
        rw [List.mem_singleton] at he
        subst he
        simp only [outOn, decide_eq_false_iff_not]
        exact fun e => hdc e hm
      dsimp only at hlive ⊢
      split
      · rename_i ho
        rw [if_pos ho] at hlive
        refine h.frame hlive (fun h1 => Or.inl h1) (es := [.submit d data]) rfl (by simp) hout (fun hm o ho => ?_) (fun _ h1 bs h2 => ⟨h1, h2⟩)
        rcases List.mem_append.1 ho with ho | ho
        · exact Or.inl ho
        · rw [List.mem_singleton] at ho; subst ho
          refine Or.inr ?_
          simp only [onSocket, decide_eq_false_iff_not]
          exact fun e => hdc e hm
      · rename_i ho
        rw [if_neg ho] at hlive
        refine h.frame hlive (fun h1 => Or.inl h1) (es := [.submit d data]) rfl (by simp) hout (fun hm o ho => Or.inl ho) (fun _ h1 bs h2 => ⟨h1, ?_⟩)
        rcases List.mem_append.1 h2 with h2 | h2
        · exact h2
        · simp at h2
    · exact h

theorem sendBuffer_closed (v : Asv) (c d : Nat) : AEv.closed c ∈ (v.sendBuffer d).log ↔ AEv.closed c ∈ v.log := by
  unfold Asv.sendBuffer
  split
  · rfl
  · split
    · dsimp only; split <;> simp [Asv.emit, Asv.post]
    · rfl

theorem sendBuffer_conns (v : Asv) (d : Nat) : (v.sendBuffer d).conns = v.conns := by
  unfold Asv.sendBuffer
  split
  · rfl
  · split
    · dsimp only; split <;> rfl
    · rfl

theorem Sil.beginRead {v : Asv} (hi : Inv v) {c d : Nat} (h : Sil v c) : Sil (v.beginRead d) c := by
  have hlive : v.Live c → (v.beginRead d).Live c := fun hl => hl.frame (beginRead_next _ _) (beginRead_tok _ _ _)
  unfold Asv.beginRead at hlive ⊢
  split
  · rename_i hcon
    rw [if_pos hcon] at hlive
    split
    · rename_i ho
      rw [if_pos ho] at hlive
      refine h.frame hlive (fun h1 => Or.inl h1) (es := []) (by simp) (by simp) (by simp) (fun hm o ho' => ?_) (fun _ h1 bs h2 => ⟨h1, h2⟩)
      rcases List.mem_append.1 ho' with ho' | ho'
      · exact Or.inl ho'
      · rw [List.mem_singleton] at ho'; subst ho'
        refine Or.inr ?_
        simp only [onSocket, decide_eq_false_iff_not]
        rintro rfl
        rw [(hi.closedShut d hm).1] at ho
        cases ho
    · rename_i ho
      rw [if_neg ho] at hlive
      refine h.frame hlive (fun h1 => Or.inl h1) (es := []) (by simp [Asv.post]) (by simp) (by simp) (fun hm o ho => Or.inl ho) (fun _ h1 bs h2 => ⟨h1, ?_⟩)
      rcases List.mem_append.1 h2 with h2 | h2
      · exact h2
      · simp at h2
  · exact h

theorem Sil.send {v : Asv} {c d : Nat} (h : Sil v c) (hl : v.Live d) (hd : d = c → AEv.closed c ∈ v.log → (v.conns c).connected = false) (data : List UInt8) :
    Sil (v.send d data) c ∧ (d = c → AEv.closed c ∈ (v.send d data).log → ((v.send d data).conns c).connected = false) := by
  unfold Asv.send
  have h1 : Sil ({ v.emit (.asked d data) with nextBuf := v.nextBuf + 1 }.setConn d { v.conns d with wbuf := some (v.nextBuf, data) }) c := by
    refine h.frame (fun hl => hl.frame rfl rfl) (fun h1 => ?_) (es := [.asked d data]) rfl (by simp) (by simp [outOn]) (fun _ o ho => Or.inl ho) (fun _ h1 bs h2 => ⟨?_, h2⟩)
    · by_cases hdc : c = d
      · subst hdc; exact Or.inr (hl.frame rfl rfl)
      · simp only [Asv.setConn, if_neg hdc] at h1; exact Or.inl h1
    · by_cases hdc : c = d
      · subst hdc; simpa [Asv.setConn] using h1
      · simp only [Asv.setConn, if_neg hdc] at h1; exact h1
  have h2 : d = c → AEv.closed c ∈ ({ v.emit (.asked d data) with nextBuf := v.nextBuf + 1 }.setConn d { v.conns d with wbuf := some (v.nextBuf, data) }).log →
      (({ v.emit (.asked d data) with nextBuf := v.nextBuf + 1 }.setConn d { v.conns d with wbuf := some (v.nextBuf, data) }).conns c).connected = false := by
    intro e hm
    have hm' : AEv.closed c ∈ v.log := by simpa [Asv.setConn, Asv.emit] using hm
    have := hd e hm'
    subst e
    simpa [Asv.setConn] using this
  refine ⟨h1.sendBuffer fun e hm => Or.inl (h2 e hm), fun e hm => ?_⟩
  rw [sendBuffer_conns]
  exact h2 e ((sendBuffer_closed _ _ _).1 hm)

theorem Sil.sendAll {c d : Nat} (ds : List (List UInt8)) : ∀ {v : Asv}, Sil v c → Inv v → v.Live d →
    (d = c → AEv.closed c ∈ v.log → (v.conns c).connected = false) → Sil (v.sendAll d ds) c := by
  induction ds with
  | nil => intro v h _ _ _; exact h
  | cons x ds ih =>
    intro v h hi hl hd
    obtain ⟨h1, h2⟩ := h.send hl hd x
    exact ih h1 (hi.send hl x).1 (hi.send hl x).2 h2

theorem Sil.startConn {v : Asv} (hi : Inv v) {c d : Nat} (hl : v.Live d) (h : Sil v c)
    (hd : d = c → (v.conns c).wbuf = none ∧ ∀ bs, ATask.read c (some bs) ∉ v.queue) : Sil (v.startConn d) c := by
  unfold Asv.startConn
  have l1 : Asv.Live (v.setConn d { v.conns d with connected := true }) d := setConn_live hl
  have hi1 : Inv (v.setConn d { v.conns d with connected := true }) := hi.setConn rfl
  have h1 : Sil (v.setConn d { v.conns d with connected := true }) c := by
    refine h.frame (fun hl => hl.frame rfl rfl) (fun h1 => ?_) (es := []) (by simp [Asv.setConn]) (by simp) (by simp) (fun _ o ho => Or.inl ho) (fun _ h1 bs h2 => ?_)
    · by_cases hdc : c = d
      · subst hdc; exact Or.inl (by simpa [Asv.setConn] using h1)
      · simp only [Asv.setConn, if_neg hdc] at h1; exact Or.inl h1
    · by_cases hdc : c = d
      · exact absurd h2 ((hd hdc.symm).2 bs)
      · exact ⟨by simpa only [Asv.setConn, if_neg hdc] using h1, h2⟩
  refine Sil.beginRead (hi1.sendBuffer l1) (h1.sendBuffer fun e hm => Or.inr ?_)
  have := (hd e).1
  subst e
  simpa [Asv.setConn] using this

/-- A handler of an accepted connection leaves the queue. -/
theorem acceptGone {v : Asv} (h : Inv v) {k c : Nat} {ok : Bool} (hk : v.queue[k]? = some (.accepted c ok)) :
    Asv.Live { v with queue := v.queue.eraseIdx k } c := by
  have h1 : 0 < v.tok c := by
    have : 0 < v.queue.countP (tokTask c) := List.countP_pos_iff.2 ⟨_, List.mem_of_getElem? hk, by simp [tokTask]⟩
    unfold tok; omega
  have h2 := h.tok1 c
  refine ⟨?_, ?_⟩
  · refine Nat.lt_of_not_le fun hh => ?_
    have := h.tokLt c hh
    omega
  · have h3 := Tcp.countP_eraseIdx (tokTask c) hk
    have h4 : tokTask c (.accepted c ok) = true := by simp [tokTask]
    rw [h4] at h3
    simp only [tok] at h1 h2 ⊢
    simp only [if_true] at h3
    omega

/-- Completion of an operation keeps the balance of accepts. -/
theorem complete_tok {v v' : Asv} {i : Nat} {r : ARes} (hs : v.complete i r = .ret v') (c : Nat) : v'.tok c = v.tok c ∧ v'.nextConn = v.nextConn := by
  simp only [Asv.complete] at hs
  cases hf : v.flying[i]? with
  | none => rw [hf] at hs; injection hs with hs; subst hs; exact ⟨rfl, rfl⟩
  | some o =>
    rw [hf] at hs
    have hc := Tcp.countP_eraseIdx (tokOp c) hf
    cases o with
    | accept d =>
      have ht : ∀ ok, tokTask c (.accepted d ok) = tokOp c (.accept d) := fun _ => rfl
      cases r with
      | ok =>
        injection hs with hs; subst hs
        refine ⟨?_, rfl⟩
        simp only [tok, Asv.post, Asv.setConn, List.countP_append, List.countP_singleton, ht]
        omega
      | error =>
        injection hs with hs; subst hs
        refine ⟨?_, rfl⟩
        simp only [tok, Asv.post, List.countP_append, List.countP_singleton, ht]
        omega
      | sent _ => injection hs with hs; subst hs; exact ⟨rfl, rfl⟩
      | data _ => injection hs with hs; subst hs; exact ⟨rfl, rfl⟩
    | read d =>
      have h0 : tokOp c (.read d) = false := rfl
      have ht : ∀ x, tokTask c (.read d x) = false := fun _ => rfl
      rw [h0] at hc
      cases r with
      | data bs =>
        dsimp only at hs
        split at hs
        · injection hs with hs; subst hs
          refine ⟨?_, rfl⟩
          simp only [tok, Asv.post, List.countP_append, List.countP_singleton, ht]
          simp at hc ⊢; omega
        · injection hs with hs; subst hs; exact ⟨rfl, rfl⟩
      | error =>
        injection hs with hs; subst hs
        refine ⟨?_, rfl⟩
        simp only [tok, Asv.post, List.countP_append, List.countP_singleton, ht]
        simp at hc ⊢; omega
      | sent _ => injection hs with hs; subst hs; exact ⟨rfl, rfl⟩
      | ok => injection hs with hs; subst hs; exact ⟨rfl, rfl⟩
    | write d b data =>
      have h0 : tokOp c (.write d b data) = false := rfl
      have ht : ∀ x, tokTask c (.written d x) = false := fun _ => rfl
      rw [h0] at hc
      cases r with
      | sent n =>
        dsimp only at hs
        split at hs
        · split at hs
          · injection hs with hs; subst hs
            refine ⟨?_, rfl⟩
            simp only [tok, Asv.post, Asv.emit, List.countP_append, List.countP_singleton, ht]
            simp at hc ⊢; omega
          · cases hs
        · injection hs with hs; subst hs; exact ⟨rfl, rfl⟩
      | error =>
        injection hs with hs; subst hs
        refine ⟨?_, rfl⟩
        simp only [tok, Asv.post, List.countP_append, List.countP_singleton, ht]
        simp at hc ⊢; omega
      | data _ => injection hs with hs; subst hs; exact ⟨rfl, rfl⟩
      | ok => injection hs with hs; subst hs; exact ⟨rfl, rfl⟩

theorem Sil.step {v v' : Asv} {c : Nat} (h : Sil v c) (hi : Inv v) {op : Op} (hs : v.step op = .ret v') : Sil v' c := by
  cases op with
  | start =>
    injection hs with hs
    subst hs
    unfold Asv.startAccept
    split
    · exact h.plain (fun hl => hl) rfl (es := []) (by simp) (by simp) (by simp) (fun o ho => Or.inl ho) (fun _ hb => hb)
    · refine h.plain (fun hl => hl.frame rfl (by simp [tok, Asv.post, tokTask])) rfl (es := []) (by simp [Asv.post]) (by simp) (by simp) (fun o ho => Or.inl ho) (fun bs hb => ?_)
      rcases List.mem_append.1 hb with hb | hb
      · exact hb
      · simp at hb
  | shutdown =>
    injection hs with hs
    subst hs
    refine h.plain (fun hl => hl.frame rfl (by simp [tok, Asv.post, tokTask])) rfl (es := []) (by simp [Asv.post]) (by simp) (by simp) (fun o ho => Or.inl ho) (fun bs hb => ?_)
    rcases List.mem_append.1 hb with hb | hb
    · exact hb
    · simp at hb
  | complete i r =>
    have hlive : v.Live c → v'.Live c := by
      intro hl
      obtain ⟨h1, h2⟩ := complete_tok hs c
      exact hl.frame h2 h1
    simp only [Asv.step, Asv.complete] at hs
    cases hf : v.flying[i]? with
    | none => rw [hf] at hs; injection hs with hs; subst hs; exact h
    | some o =>
      rw [hf] at hs
      have hin := List.mem_of_getElem? hf
      have hfl : ∀ o ∈ v.flying.eraseIdx i, o ∈ v.flying ∨ onSocket c o = false := fun o ho => Or.inl (List.mem_of_mem_eraseIdx ho)
      cases o with
      | accept d =>
        cases r with
        | ok =>
          injection hs with hs; subst hs
          refine h.frame hlive (fun h1 => Or.inl ?_) (es := []) (by simp [Asv.post, Asv.setConn]) (by simp) (by simp) (fun _ => hfl) (fun _ h1 bs h2 => ?_)
          · by_cases hdc : c = d
            · subst hdc; simpa [Asv.setConn, Asv.post] using h1
            · simpa only [Asv.setConn, Asv.post, if_neg hdc] using h1
          · refine ⟨?_, ?_⟩
            · by_cases hdc : c = d
              · subst hdc; simpa [Asv.setConn, Asv.post] using h1
              · simpa only [Asv.setConn, Asv.post, if_neg hdc] using h1
            · rcases List.mem_append.1 h2 with h2 | h2
              · exact h2
              · simp at h2
        | error =>
          injection hs with hs; subst hs
          refine h.plain hlive rfl (es := []) (by simp [Asv.post]) (by simp) (by simp) hfl (fun bs hb => ?_)
          rcases List.mem_append.1 hb with hb | hb
          · exact hb
          · simp at hb
        | sent _ => injection hs with hs; subst hs; exact h
        | data _ => injection hs with hs; subst hs; exact h
      | read d =>
        cases r with
        | data bs =>
          dsimp only at hs
          split at hs
          · injection hs with hs; subst hs
            refine h.frame hlive (fun h1 => Or.inl h1) (es := []) (by simp [Asv.post]) (by simp) (by simp) (fun _ => hfl) (fun hm h1 bs' h2 => ⟨h1, ?_⟩)
            rcases List.mem_append.1 h2 with h2 | h2
            · exact h2
            · simp only [List.mem_singleton, ATask.read.injEq] at h2
              have := h.ops hm _ hin
              simp [onSocket, h2.1] at this
          · injection hs with hs; subst hs; exact h
        | error =>
          injection hs with hs; subst hs
          refine h.plain hlive rfl (es := []) (by simp [Asv.post]) (by simp) (by simp) hfl (fun bs hb => ?_)
          rcases List.mem_append.1 hb with hb | hb
          · exact hb
          · simp at hb
        | sent _ => injection hs with hs; subst hs; exact h
        | ok => injection hs with hs; subst hs; exact h
      | write d b data =>
        cases r with
        | sent n =>
          dsimp only at hs
          split at hs
          · split at hs
            · injection hs with hs; subst hs
              refine h.frame hlive (fun h1 => Or.inl h1) (es := [.wire d (data.take n)]) rfl (by simp) (fun hm e he => ?_) (fun _ => hfl) (fun hm h1 bs' h2 => ⟨h1, ?_⟩)
              · rw [List.mem_singleton] at he; subst he
                have := h.ops hm _ hin
                simpa [onSocket, outOn] using this
              · rcases List.mem_append.1 h2 with h2 | h2
                · exact h2
                · simp at h2
            · cases hs
          · injection hs with hs; subst hs; exact h
        | error =>
          injection hs with hs; subst hs
          refine h.plain hlive rfl (es := []) (by simp [Asv.post]) (by simp) (by simp) hfl (fun bs hb => ?_)
          rcases List.mem_append.1 hb with hb | hb
          · exact hb
          · simp at hb
        | data _ => injection hs with hs; subst hs; exact h
        | ok => injection hs with hs; subst hs; exact h
  | run k rs =>
    simp only [Asv.step] at hs
    cases hk : v.queue[k]? with
    | none => rw [hk] at hs; injection hs with hs; subst hs; exact h
    | some t =>
      rw [hk] at hs
      dsimp only at hs
      have htok : Asv.tok { v with queue := v.queue.eraseIdx k } c ≤ v.tok c := by
        have := Tcp.countP_eraseIdx (tokTask c) hk
        simp only [tok]
        omega
      have h0 : Sil { v with queue := v.queue.eraseIdx k } c := by
        refine h.plain (fun hl => ⟨hl.1, ?_⟩) rfl (es := []) (by simp) (by simp) (by simp) (fun o ho => Or.inl ho) (fun bs hb => List.mem_of_mem_eraseIdx hb)
        have := hl.2
        omega
      cases t with
      | startAccept =>
        injection hs with hs; subst hs
        unfold Asv.runStartAccept
        split
        · exact h0
        · refine h0.plain (fun hl => ⟨Nat.lt_succ_of_lt hl.1, ?_⟩) rfl (es := []) (by simp) (by simp) (by simp) (fun o ho => ?_) (fun _ hb => hb)
          · have := hl.2
            have hne : ¬v.nextConn = c := fun e => by rw [e] at hl; exact Nat.lt_irrefl _ (e ▸ hl.1)
            simpa [tok, tokOp, hne] using this
          · rcases List.mem_append.1 ho with ho | ho
            · exact Or.inl ho
            · rw [List.mem_singleton] at ho; subst ho; exact Or.inr rfl
      | shutdown =>
        injection hs with hs; subst hs
        unfold Asv.runShutdown
        refine h0.plain (fun hl => ⟨hl.1, ?_⟩) rfl (es := v.list.map .left) (by simp [Asv.abort]) (by simp) (by simp [outOn]) (fun o ho => Or.inl (List.mem_filter.1 ho).1) (fun bs hb => ?_)
        · have e := tok_abort { { v with queue := v.queue.eraseIdx k } with isShutdown := true } isAccept c
          have hl := hl.2
          simp only [tok, Asv.abort, List.countP_append] at e hl ⊢
          have : (v.list.map ATask.close).countP (tokTask c) = 0 := by
            rw [List.countP_eq_zero]; intro t ht; obtain ⟨x, -, rfl⟩ := List.mem_map.1 ht; simp [tokTask]
          omega
        · rcases List.mem_append.1 hb with hb | hb
          · rcases List.mem_append.1 hb with hb | hb
            · exact hb
            · obtain ⟨o, ho, hx⟩ := List.mem_map.1 hb
              cases o <;> simp [aborted] at hx
          · obtain ⟨x, -, hx⟩ := List.mem_map.1 hb
            cases hx
      | close d =>
        injection hs with hs; subst hs
        unfold Asv.runClose
        dsimp only
        split
        · rename_i ho
          refine Sil.remove ?_ d
          have htk : v.Live c → Asv.Live (((Asv.setConn { v with queue := v.queue.eraseIdx k } d { v.conns d with connected := false, isOpen := false }).abort (onSocket d)).emit (.closed d)) c := by
            intro hl
            refine ⟨hl.1, ?_⟩
            have e : Asv.tok (((Asv.setConn { v with queue := v.queue.eraseIdx k } d { v.conns d with connected := false, isOpen := false }).abort (onSocket d)).emit (.closed d)) c =
              Asv.tok { v with queue := v.queue.eraseIdx k } c := tok_abort (Asv.setConn { v with queue := v.queue.eraseIdx k } d { v.conns d with connected := false, isOpen := false }) (onSocket d) c
            have := hl.2
            omega
          by_cases hdc : d = c
          · subst hdc
            have hnc : AEv.closed d ∉ v.log := fun hm => by rw [(hi.closedShut d hm).1] at ho; cases ho
            refine ⟨fun h1 => htk (h.fresh ?_), fun _ o ho => ?_, fun _ h1 => ?_, fun a b hl => ?_⟩
            · simpa [Asv.emit, Asv.abort, Asv.setConn] using h1
            · have := (List.mem_filter.1 ho).2; simpa using this
            · simp [Asv.emit, Asv.abort, Asv.setConn] at h1
            · have hl : v.log ++ [.closed d] = a ++ .closed d :: b := hl
              rcases List.append_eq_append_iff.1 hl with ⟨x, e1, e2⟩ | ⟨x, e1, e2⟩
              · cases x with
                | nil => injection e2 with _ e2; subst e2; simp
                | cons y x => injection e2 with _ e2; cases x <;> cases e2
              · cases x with
                | nil => injection e2 with _ e2; subst e2; simp
                | cons y x =>
                  injection e2 with e2 e3
                  exact absurd (by rw [e1, ← e2]; simp) hnc
          · have hcd : ¬c = d := fun e => hdc e.symm
            refine h.plain htk (by simp [Asv.emit, Asv.abort, Asv.setConn, hcd]) (es := [.closed d]) rfl (by simp only [List.mem_singleton, AEv.closed.injEq]; exact hcd)
              (by simp [outOn]) (fun o ho => Or.inl (List.mem_filter.1 ho).1) (fun bs hb => ?_)
            rcases List.mem_append.1 hb with hb | hb
            · exact List.mem_of_mem_eraseIdx hb
            · obtain ⟨o, ho, hx⟩ := List.mem_map.1 hb
              cases o <;> simp [aborted] at hx
        · refine h0.frame (fun hl => hl.frame rfl rfl) (fun h1 => Or.inl ?_) (es := []) (by simp [Asv.setConn]) (by simp) (by simp) (fun _ o ho => Or.inl ho) (fun _ h1 bs h2 => ⟨?_, h2⟩)
          · by_cases hdc : c = d
            · subst hdc; simpa [Asv.setConn] using h1
            · simp only [Asv.setConn, if_neg hdc] at h1; exact h1
          · by_cases hdc : c = d
            · subst hdc; simp [Asv.setConn] at h1
            · simp only [Asv.setConn, if_neg hdc] at h1; exact h1
      | accepted d ok =>
        have hi0 : Inv { v with queue := v.queue.eraseIdx k } := hi.eraseQueue hk (fun _ => by simp)
        have hl := acceptGone hi hk
        have hd : d = c → (v.conns c).wbuf = none ∧ ∀ bs, ATask.read c (some bs) ∉ v.queue := by
          rintro rfl
          have h1 : 0 < v.tok d := by
            have : 0 < v.queue.countP (tokTask d) := List.countP_pos_iff.2 ⟨_, List.mem_of_getElem? hk, by simp [tokTask]⟩
            unfold tok; omega
          refine ⟨Classical.byContradiction fun hh => ?_, fun bs hb => ?_⟩
          · have := (h.fresh hh).2; omega
          · have := (hi.qlive _ hb d rfl).2; omega
        simp only [Asv.runTask, Asv.onAccepted] at hs
        split at hs
        · injection hs with hs; subst hs; exact h0
        · split at hs
          · have he : Sil { (Asv.emit { v with queue := v.queue.eraseIdx k } (.joined d)) with num := v.num + 1 } c :=
              h0.plain (fun hl => hl.frame rfl rfl) rfl (es := [.joined d]) rfl (by simp) (by simp [outOn]) (fun o ho => Or.inl ho) (fun _ hb => hb)
            have hie : Inv { (Asv.emit { v with queue := v.queue.eraseIdx k } (.joined d)) with num := v.num + 1 } :=
              hi0.frame rfl rfl rfl rfl (fun _ => rfl) [.joined d] rfl (by simp [neutral])
            have sa : ∀ u : Asv, Sil u c → Sil u.startAccept c := by
              intro u hu
              unfold Asv.startAccept
              split
              · exact hu
              · refine hu.plain (fun hl => hl.frame rfl (by simp [tok, Asv.post, tokTask])) rfl (es := []) (by simp [Asv.post]) (by simp) (by simp) (fun o ho => Or.inl ho) (fun bs hb => ?_)
                rcases List.mem_append.1 hb with hb | hb
                · exact hb
                · simp at hb
            split at hs
            · split at hs
              · cases hs
              · rename_i front rest hfr
                injection hs with hs; subst hs
                refine sa _ (Sil.startConn (hie.remove front) ((remove_live _ front d).2 (hl.frame rfl rfl)) (he.remove front) fun e => ⟨?_, fun bs hb => (hd e).2 bs ?_⟩)
                · unfold removeConnection; split <;> exact (hd e).1
                · unfold removeConnection at hb
                  split at hb
                  · rcases List.mem_append.1 hb with hb | hb
                    · exact List.mem_of_mem_eraseIdx hb
                    · simp at hb
                  · exact List.mem_of_mem_eraseIdx hb
            · injection hs with hs; subst hs
              exact sa _ (Sil.startConn hie (hl.frame rfl rfl) he fun e => ⟨(hd e).1, fun bs hb => (hd e).2 bs (List.mem_of_mem_eraseIdx hb)⟩)
          · injection hs with hs; subst hs
            exact h0.remove d
      | read d r =>
        injection hs with hs; subst hs
        cases r with
        | none => exact h0.fail d
        | some bs =>
          have hi0 : Inv { v with queue := v.queue.eraseIdx k } := hi.eraseQueue hk (fun _ => by simp)
          have hl : Asv.Live { v with queue := v.queue.eraseIdx k } d := by
            have h1 := hi.qlive _ (List.mem_of_getElem? hk) d rfl
            refine ⟨h1.1, ?_⟩
            have h2 := h1.2
            have := Tcp.countP_eraseIdx (tokTask d) hk
            simp only [tok] at h2 ⊢
            omega
          have he : Sil (Asv.emit { v with queue := v.queue.eraseIdx k } (.receive d bs)) c :=
            h0.plain (fun hl => hl.frame rfl rfl) rfl (es := [.receive d bs]) rfl (by simp) (by simp [outOn]) (fun o ho => Or.inl ho) (fun _ hb => hb)
          have hie : Inv (Asv.emit { v with queue := v.queue.eraseIdx k } (.receive d bs)) := hi0.emit rfl
          refine Sil.beginRead (hie.sendAll (hl.frame rfl rfl) rs).1 (Sil.sendAll rs he hie (hl.frame rfl rfl) fun e hm => ?_)
          subst e
          have hm : AEv.closed d ∈ v.log := by simpa [Asv.emit] using hm
          cases hc : (v.conns d).connected with
          | false => exact hc
          | true => exact absurd (List.mem_of_getElem? hk) (h.conn hm hc bs)
      | written d ok =>
        injection hs with hs; subst hs
        unfold Asv.onWritten
        split
        · refine h0.frame (fun hl => hl.frame rfl rfl) (fun h1 => Or.inl ?_) (es := [.writeDone d]) rfl (by simp) (by simp [outOn]) (fun _ o ho => Or.inl ho) (fun _ h1 bs h2 => ⟨?_, h2⟩)
          · by_cases hdc : c = d
            · subst hdc; simp [Asv.setConn, Asv.emit] at h1
            · simp only [Asv.setConn, Asv.emit, if_neg hdc] at h1; exact h1
          · by_cases hdc : c = d
            · subst hdc; simpa [Asv.setConn, Asv.emit] using h1
            · simp only [Asv.setConn, Asv.emit, if_neg hdc] at h1; exact h1
        · exact h0.fail d

theorem _root_.Modbus.Spec.AsvReach.sil {max : UInt32} {P : Asv → Op → Prop} {v : Asv} (h : AsvReach max P v) (c : Nat) : Sil v c := by
  induction h with
  | init => exact ⟨fun hh => absurd rfl hh, fun hm => by simp [Asv.init] at hm, fun hm => by simp [Asv.init] at hm, fun a b hl => by simp [Asv.init] at hl⟩
  | step h _ hs ih => exact ih.step (h.mono (Q := anyAsv) fun _ _ _ => trivial).inv hs

end Modbus.Asv
