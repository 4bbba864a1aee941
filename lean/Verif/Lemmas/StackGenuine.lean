import Verif.Lemmas.ClientRing

/-! Helper lemmas: a response reported to the user is a whole message in what the connection received. -/

namespace Modbus

open Spec Tcp

namespace Tcp

/-- What is in the receiver came from the newest connection. -/
structure Own (v : Tcp) : Prop where
  recv : ∀ c d, TEv.receive c d ∈ v.log → c ≤ v.conn
  errs : ∀ c cur, TEv.error c cur ∈ v.log → c ≤ v.conn
  same : (∀ cur, TEv.error v.conn cur ∉ v.log) → rxChunks v.log = tcpReceived v.conn v.log

theorem tcpReceived_quiet {c : Nat} {a b : List TEv} (h : ∀ e ∈ b, ∀ c d, e ≠ .receive c d) : tcpReceived c (a ++ b) = tcpReceived c a := by
  rw [tcpReceived_append]
  have : tcpReceived c b = [] := by
    rw [tcpReceived, List.filterMap_eq_nil_iff]
    intro e he
    have := h e he
    cases e <;> first | rfl | exact absurd rfl (this _ _)
  rw [this, List.append_nil]

theorem Own.quiet {v v' : Tcp} (h : Own v) {new : List TEv} (hl : v'.log = v.log ++ new) (hc : v'.conn = v.conn)
    (hq : ∀ e ∈ new, (∀ c d, e ≠ .receive c d) ∧ ∀ c cur, e ≠ .error c cur) : Own v' := by
  refine ⟨fun c d hm => ?_, fun c cur hm => ?_, fun hn => ?_⟩
  · rw [hl] at hm
    rcases List.mem_append.1 hm with hm | hm
    · rw [hc]; exact h.recv _ _ hm
    · exact absurd rfl ((hq _ hm).1 _ _)
  · rw [hl] at hm
    rcases List.mem_append.1 hm with hm | hm
    · rw [hc]; exact h.errs _ _ hm
    · exact absurd rfl ((hq _ hm).2 _ _)
  · rw [hl, rxChunks_quiet hq, hc, tcpReceived_quiet fun e he => (hq e he).1]
    refine h.same fun cur hm => hn cur ?_
    rw [hc, hl]; exact List.mem_append_left _ hm

theorem _root_.Modbus.Spec.TcpReach.own {P : Tcp → Op → Prop} (hP : ∀ v op, P v op → FreshStarts v op ∧ NoEof v op) {v : Tcp} (h : TcpReach P v) :
    v.isShutdown = false → Own v := by
  induction h with
  | init => intro _; exact ⟨by simp [Tcp.init], by simp [Tcp.init], fun _ => rfl⟩
  | @step v v' op hr hp hs ih =>
    intro hd'
    have hd : v.isShutdown = false := by
      cases h0 : v.isShutdown with
      | false => rfl
      | true =>
        obtain ⟨v2, a1, a2, -⟩ := shut_step h0 hr.quiet op
        rw [hs] at a1; injection a1 with a1; subst a1
        rw [a2] at hd'; cases hd'
    have ih := ih hd
    have hr' := hr.step hp hs
    have same : v'.conn = v.conn → Own v' := by
      intro hc
      obtain ⟨new, h1, h2⟩ := step_log hs
      rcases h2 with h2 | ⟨k, c, d, rfl, h3, -, rfl, -⟩ | ⟨k, c, rfl, -, rfl⟩
      · exact ih.quiet h1 hc h2
      · have htag : c = v.conn := ((hr.neat fun a o h => (hP a o h).1).resolve_left (by simp [hd])).tags.queue _ (List.mem_of_getElem? h3) c rfl
        subst htag
        refine ⟨fun c d' hm => ?_, fun c cur hm => ?_, fun hn => ?_⟩
        · rw [h1] at hm
          rcases List.mem_append.1 hm with hm | hm
          · rw [hc]; exact ih.recv _ _ hm
          · have := List.mem_singleton.1 hm
            injection this with this _
            rw [hc, this]; exact Nat.le_refl _
        · rw [h1] at hm
          rcases List.mem_append.1 hm with hm | hm
          · rw [hc]; exact ih.errs _ _ hm
          · cases List.mem_singleton.1 hm
        · rw [h1, rxChunks_receive, tcpReceived_append, hc, ih.same fun cur hm => hn cur (by rw [hc, h1]; exact List.mem_append_left _ hm)]
          simp [tcpReceived]
      · have htag : c = v.conn := by
          have hm : TEv.error c v.conn ∈ v'.log := by rw [h1]; simp
          rcases hr'.neat fun a o h => (hP a o h).1 with h | h
          · exact h.2 _ _ (Or.inl hm)
          · exact h.tags.log _ _ (Or.inl hm)
        subst htag
        refine ⟨fun c d' hm => ?_, fun c cur hm => ?_, fun hn => ?_⟩
        · rw [h1] at hm
          rcases List.mem_append.1 hm with hm | hm
          · rw [hc]; exact ih.recv _ _ hm
          · cases List.mem_singleton.1 hm
        · rw [h1] at hm
          rcases List.mem_append.1 hm with hm | hm
          · rw [hc]; exact ih.errs _ _ hm
          · have := List.mem_singleton.1 hm
            injection this with this _
            rw [hc, this]; exact Nat.le_refl _
        · exact absurd (by rw [h1, hc]; simp) (hn v.conn)
    cases op with
    | complete i r => exact same (step_dataOps (Or.inl ⟨_, _, rfl⟩) hd hs).1
    | run k => exact same (step_dataOps (Or.inr ⟨_, rfl⟩) hd hs).1
    | shutdown => injection hs with hs; subst hs; exact same rfl
    | send data loc =>
      injection hs with hs
      cases hst : v.status with
      | connecting => refine same ?_; rw [← hs, send_connecting hd hst]; rfl
      | connected => refine same ?_; rw [← hs, send_connected hd hst, (sendBuffer_same _).2.2.2.1]; rfl
      | notConnected =>
        by_cases hh : v.isOpen = true ∨ loc ≠ .ok
        · obtain ⟨o, g1, -⟩ := send_gaveUp hd hst data loc hh
          refine same ?_; rw [← hs, g1]; rfl
        · simp only [not_or, Bool.not_eq_true, ne_eq, not_not] at hh
          obtain ⟨ho, rfl⟩ := hh
          rw [send_start hd hst ho] at hs
          have hl : v'.log = v.log ++ [.asked data, .attempt (v.conn + 1)] := by rw [← hs]; simp [Tcp.emit, ask]
          have hcn : v'.conn = v.conn + 1 := by rw [← hs]
          have hx := (rxDirty_chunks _).1 (hr'.rx hP (v.log ++ [.asked data]) (v.conn + 1) [] (by rw [hl]; simp))
          have hnew : ∀ d, TEv.receive (v.conn + 1) d ∉ v.log := fun d hm => by have := ih.recv _ _ hm; omega
          refine ⟨fun c d hm => ?_, fun c cur hm => ?_, fun _ => ?_⟩
          · rw [hl] at hm
            rcases List.mem_append.1 hm with hm | hm
            · have := ih.recv _ _ hm; omega
            · simp at hm
          · rw [hl] at hm
            rcases List.mem_append.1 hm with hm | hm
            · have := ih.errs _ _ hm; omega
            · simp at hm
          · rw [rxChunks_quiet (by simp)] at hx
            rw [hl, rxChunks_quiet (by simp), tcpReceived_quiet (by simp), hx, hcn]
            symm
            rw [tcpReceived, List.filterMap_eq_nil_iff]
            intro e he
            cases e <;> try rfl
            rename_i c d
            by_cases hc : c = v.conn + 1
            · subst hc; exact absurd he (hnew d)
            · simp [hc]

end Tcp

namespace Micro

variable {env : StkEnv}

/-- The moment at which an answer is accepted. -/
theorem accepting {log t s ph} (h : Micro env log t s ph) (pre : List KEv) (u : Nat) (pdu : List UInt8) (now : Nat)
    (post : List KEv) (hl : log = pre ++ .ch (.handler u (.ok pdu) now) :: post) :
    ∃ t' s', Micro env pre t' s' .receiving ∧ (∀ x ∈ s', x ∈ s) ∧ Just env.client (chLog pre) (.handler u (.ok pdu) now) := by
  have one : ∀ {log : List KEv} {e : CEv} {pre post : List KEv}, (∀ u d n, e ≠ .handler u (.ok d) n) → log ++ [.ch e] = pre ++ .ch (.handler u (.ok pdu) now) :: post →
      ∃ m, log = pre ++ .ch (.handler u (.ok pdu) now) :: m := by
    intro log e pre post hne h
    rcases append_cons_cases h with h | ⟨es1, h1, -⟩
    · exact h
    · cases es1 with
      | nil => injection h1 with h1; injection h1 with h1; exact absurd h1 (hne _ _ _)
      | cons y es1 => cases es1 <;> simp at h1
  have nets : ∀ {es1 post : List KEv} {new : List TEv}, List.map KEv.net new = es1 ++ .ch (.handler u (.ok pdu) now) :: post → False := by
    intro es1 post new h
    have : KEv.ch (.handler u (.ok pdu) now) ∈ List.map KEv.net new := by rw [h]; simp
    obtain ⟨a, -, ha⟩ := List.mem_map.1 this
    cases ha
  have more : ∀ {s : List (Tcp × Tcp.Op)} {x : Tcp × Tcp.Op}, (∃ t' s', Micro env pre t' s' .receiving ∧ (∀ x ∈ s', x ∈ s) ∧ Just env.client (chLog pre) (.handler u (.ok pdu) now)) →
      ∃ t' s', Micro env pre t' s' .receiving ∧ (∀ y ∈ s', y ∈ s ++ [x]) ∧ Just env.client (chLog pre) (.handler u (.ok pdu) now) := by
    rintro s x ⟨t', s', h1, h2, h3⟩
    exact ⟨t', s', h1, fun y hy => List.mem_append_left _ (h2 y hy), h3⟩
  induction h generalizing post with
  | init => simp at hl
  | own _ he _ ih => obtain ⟨m, hm⟩ := one (by rintro u d n rfl; cases he) hl; exact ih m hm
  | sent _ _ _ ih =>
    rcases append_cons_cases hl with ⟨m, h⟩ | ⟨es1, h4, h5⟩
    · exact more (ih m h)
    · cases es1 with
      | nil => cases h4
      | cons y es1 =>
        rw [List.cons_append] at h4
        injection h4 with h4 h6
        exact absurd (nets h6) id
  | down _ ih => obtain ⟨m, hm⟩ := one (by simp) hl; exact more (ih m hm)
  | step _ _ _ _ ih =>
    rcases append_cons_cases hl with ⟨m, h⟩ | ⟨es1, h4, h5⟩
    · exact more (ih m h)
    · exact absurd (nets h4) id
  | data _ ih => obtain ⟨m, hm⟩ := one (by simp) hl; exact ih m hm
  | @heard log t s e hm he hj ih =>
    rcases append_cons_cases hl with ⟨m, h⟩ | ⟨es1, h4, h5⟩
    · exact ih m h
    · have hes : es1 = [] ∧ e = .handler u (.ok pdu) now := by
        cases es1 with
        | nil => injection h4 with h4; injection h4 with h4; exact ⟨rfl, h4⟩
        | cons y es1 => cases es1 <;> simp at h4
      obtain ⟨rfl, rfl⟩ := hes
      rw [List.append_nil] at h5
      subst h5
      exact ⟨t, s, hm, fun _ h => h, hj⟩
  | again _ _ _ _ ih => exact more (ih post hl)
  | fail _ ih => obtain ⟨m, hm⟩ := one (by simp) hl; exact ih m hm
  | fails _ _ ih => obtain ⟨m, hm⟩ := one (by simp) hl; exact ih m hm
  | done _ ih => exact ih post hl

/-- Every effect of the channel was justified. -/
theorem logged {log t s ph} (h : Micro env log t s ph) : Logged env.client (chLog log) := by
  induction h with
  | init => exact .nil
  | own _ _ hj ih => simpa using ih.snoc hj
  | sent _ _ hj ih =>
    simp only [chLog_append, chLog_ch, chLog_nets]
    exact ih.snoc hj
  | down _ ih => simpa using ih.snoc (e := .tcpShutdown) trivial
  | step _ _ _ _ ih => simpa using ih
  | data _ ih => simpa using ih.snoc (e := .data _) trivial
  | heard _ _ hj ih => simpa using ih.snoc hj
  | again _ _ _ _ ih => exact ih
  | fail _ ih => simpa using ih.snoc (e := .connError) trivial
  | fails _ hj ih => simpa using ih.snoc hj
  | done _ ih => exact ih

/-- After an error nothing more is received on that connection. -/
def _root_.Modbus.Spec.QuietError (log : List TEv) : Prop := ∀ a b c cur, log = a ++ .error c cur :: b → tcpReceived c b = []

/-- An answer that is accepted is a message of the connection to which the request was submitted. -/
theorem genuine {log t s ph} (h : Micro env log t s ph) (hf : ∀ x ∈ s, FreshStarts x.1 x.2 ∧ NoEof x.1 x.2) (hq : QuietError (netLog log)) (pre : List KEv)
    (u : Nat) (pdu : List UInt8) (now : Nat) (post : List KEv) (hl : log = pre ++ .ch (.handler u (.ok pdu) now) :: post) :
    ∃ c b n m out, CEv.sent u b n ∈ chLog pre ∧ KEv.net (.submit c b) ∈ pre ∧ (∃ l0, chLog pre = l0 ++ [.mbap m]) ∧ pdu = m.data ∧
      Props.FramedAs env.client.pol (tcpReceived c (netLog pre)) out ∧ m ∈ out := by
  obtain ⟨t', s', hm, hsub, hj⟩ := h.accepting pre u pdu now post hl
  have hf' : ∀ x ∈ s', FreshStarts x.1 x.2 ∧ NoEof x.1 x.2 := fun x hx => hf x (hsub x hx)
  have hff : ∀ x ∈ s', FreshStarts x.1 x.2 := fun x hx => (hf' x hx).1
  obtain ⟨hd, c, hc⟩ := hm.rest (Or.inr rfl)
  have hdata : 1 ≤ dataOps t' := by
    have : 1 ≤ t'.queue.countP isDataTask := List.one_le_countP_iff.2 ⟨_, hc, rfl⟩
    unfold dataOps; omega
  obtain ⟨-, hs, hnh, l0, m, unit, q, tmo, j1, j2, -⟩ := hj
  obtain ⟨b, n, hs⟩ := mem_sentUids.1 hs
  have hlast := hm.outstanding u b n hs hnh
  have hsubm := (hm.submitted hff hd hdata u b hlast).resolve_left hnh
  obtain ⟨x1, d, x2, h1, h2⟩ := hm.source hff (Or.inr rfl)
  have hown := hm.tcp.own (fun a op hx => hf' (a, op) hx) hd
  have hmb : Just env.client l0 (.mbap m) := by
    exact hm.logged.at j1
  obtain ⟨-, out, f1, f2⟩ := hmb
  have hch := hm.chunks.1 (by simp)
  rw [j1, chunksSince_plain (by simp) (by simp)] at hch
  simp only [owed, List.append_nil] at hch
  have hne : rxChunks (netLog pre) ≠ [] := by
    intro h0
    rw [h0] at hch
    rw [hch] at f1
    obtain ⟨mem, -, p', f1⟩ := f1
    have : out = [] := by
      simp only [Parser.feed] at f1
      injection f1 with f1; injection f1 with _ f1; exact f1.symm
    rw [this] at f2
    have := f2.length_le
    simp at this
  have hmem : ∀ {e : TEv} {l : List KEv}, e ∈ netLog l → KEv.net e ∈ l := by
    intro e l hm
    simp only [netLog, List.mem_filterMap] at hm
    obtain ⟨x, hx, hx'⟩ := hm
    cases x with
    | ch => cases hx'
    | net e' => injection hx' with hx'; rw [← hx']; exact hx
  have hpre : netLog pre = netLog x1 ++ .receive t'.conn d :: netLog x2 := by rw [h1]; simp
  have hsame := hown.same (by
    intro cur hcur
    rw [← hm.net, hpre] at hcur
    rcases List.mem_append.1 hcur with hcur | hcur
    · obtain ⟨a, b', hab⟩ := List.append_of_mem hcur
      have := hq a (b' ++ .receive t'.conn d :: (netLog x2 ++ netLog (KEv.ch (.handler u (.ok pdu) now) :: post))) t'.conn cur (by
        rw [hl, netLog_append, hpre, hab]; simp)
      rw [tcpReceived_append] at this
      simp [tcpReceived] at this
    · rcases List.mem_cons.1 hcur with hcur | hcur
      · cases hcur
      · obtain ⟨a, b', hab⟩ := List.append_of_mem hcur
        refine hne ?_
        rw [hpre, hab, show netLog x1 ++ TEv.receive t'.conn d :: (a ++ TEv.error t'.conn cur :: b') = (netLog x1 ++ TEv.receive t'.conn d :: a ++ [TEv.error t'.conn cur]) ++ b' by simp]
        have : ∀ (a b : List TEv), (∀ e ∈ b, ∀ c d, e ≠ .receive c d) → rxChunks a = [] → rxChunks (a ++ b) = [] := by
          intro a b hb h0
          induction b using List.reverseRecOn with
          | nil => simpa using h0
          | append_singleton b e ih =>
            have ih := ih fun e he => hb e (by simp [he])
            have he := hb e (by simp)
            rw [← List.append_assoc]
            cases e with
            | receive c d => exact absurd rfl (he _ _)
            | error c cur => exact rxChunks_error _ _ _
            | _ => rw [rxChunks_quiet (by simp)]; exact ih
        refine this _ _ (fun e he c d heq => ?_) (rxChunks_error _ _ _)
        subst heq
        exact h2 c d (hmem (by rw [hab]; simp [he])))
  rw [← hm.net] at hsame
  rw [hch, hsame] at f1
  refine ⟨t'.conn, b, n, m, out, hs, hmem (by rw [hm.net]; exact hsubm), ⟨l0, j1⟩, j2, f1, f2.subset (by simp)⟩

end Micro

end Modbus
