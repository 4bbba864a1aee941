import Verif.Lemmas.AsioLog

/-! Shutting down the listening server: what is left open, and that everything queued comes to an end. -/

namespace Modbus.Asv

open Spec

/-- Operations on a socket are in progress only while it is open and connected; after shutdown nothing is accepted or kept. -/
structure Dn (v : Asv) : Prop where
  fo : ∀ o ∈ v.flying, ∀ c, opConn o = some c → (v.conns c).isOpen = true ∧ (v.conns c).connected = true
  na : v.isShutdown = true → v.list = [] ∧ ∀ c, AOp.accept c ∉ v.flying

/-- Flags do not change, no operation is begun. -/
theorem Dn.mono {v v' : Asv} (h : Dn v) (h1 : ∀ c, (v'.conns c).isOpen = (v.conns c).isOpen ∧ (v'.conns c).connected = (v.conns c).connected)
    (h2 : ∀ o, o ∈ v'.flying → o ∈ v.flying) (h3 : v'.isShutdown = v.isShutdown) (h4 : ∀ c, c ∈ v'.list → c ∈ v.list) : Dn v' where
  fo := fun o ho c hc => by rw [(h1 c).1, (h1 c).2]; exact h.fo o (h2 o ho) c hc
  na := fun hd => ⟨by
    have := (h.na (h3 ▸ hd)).1
    cases hl : v'.list with
    | nil => rfl
    | cons a l => have := h4 a (by simp [hl]); simp_all, fun c hc => (h.na (h3 ▸ hd)).2 c (h2 _ hc)⟩

theorem Dn.remove {v : Asv} (h : Dn v) (c : Nat) : Dn (v.removeConnection c) := by
  unfold removeConnection
  split
  · exact h.mono (fun _ => ⟨rfl, rfl⟩) (fun _ h => h) rfl (fun d hd => List.mem_of_mem_erase hd)
  · exact h

theorem Dn.sendBuffer {v : Asv} (h : Dn v) (c : Nat) : Dn (v.sendBuffer c) := by
  unfold Asv.sendBuffer
  split
  · exact h
  · rename_i b d hw
    split
    · rename_i hc
      dsimp only
      split
      · rename_i ho
        refine ⟨fun o hm e he => ?_, fun hd => ⟨(h.na hd).1, fun e he => ?_⟩⟩
        · rcases List.mem_append.1 hm with hm | hm
          · exact h.fo o hm e he
          · rw [List.mem_singleton] at hm; subst hm
            injection he with he; subst he
            exact ⟨ho, hc⟩
        · rcases List.mem_append.1 he with he | he
          · exact (h.na hd).2 e he
          · rw [List.mem_singleton] at he; cases he
      · exact h.mono (fun _ => ⟨rfl, rfl⟩) (fun _ h => h) rfl (fun _ h => h)
    · exact h

theorem Dn.beginRead {v : Asv} (h : Dn v) (c : Nat) : Dn (v.beginRead c) := by
  unfold Asv.beginRead
  split
  · rename_i hc
    split
    · rename_i ho
      refine ⟨fun o hm e he => ?_, fun hd => ⟨(h.na hd).1, fun e he => ?_⟩⟩
      · rcases List.mem_append.1 hm with hm | hm
        · exact h.fo o hm e he
        · rw [List.mem_singleton] at hm; subst hm
          injection he with he; subst he
          exact ⟨ho, hc⟩
      · rcases List.mem_append.1 he with he | he
        · exact (h.na hd).2 e he
        · rw [List.mem_singleton] at he; cases he
    · exact h.mono (fun _ => ⟨rfl, rfl⟩) (fun _ h => h) rfl (fun _ h => h)
  · exact h

theorem Dn.startConn {v : Asv} (h : Dn v) (c : Nat) : Dn (v.startConn c) := by
  unfold Asv.startConn
  suffices h1 : Dn (v.setConn c { v.conns c with connected := true }) from (h1.sendBuffer c).beginRead c
  refine ⟨fun o ho d hd => ?_, h.na⟩
  have := h.fo o ho d hd
  simp only [Asv.setConn]
  split
  · rename_i hcd; subst hcd; exact ⟨this.1, rfl⟩
  · exact this

theorem Dn.startAccept {v : Asv} (h : Dn v) : Dn v.startAccept := by
  unfold Asv.startAccept
  split
  · exact h
  · exact h.mono (fun _ => ⟨rfl, rfl⟩) (fun _ h => h) rfl (fun _ h => h)

theorem Dn.send {v : Asv} (h : Dn v) (c : Nat) (d : List UInt8) : Dn (v.send c d) := by
  unfold Asv.send
  suffices h1 : Dn ({ v.emit (.asked c d) with nextBuf := v.nextBuf + 1 }.setConn c { v.conns c with wbuf := some (v.nextBuf, d) }) from h1.sendBuffer c
  refine h.mono (fun e => ?_) (fun _ h => h) rfl (fun _ h => h)
  simp only [Asv.setConn]
  split
  · rename_i he; subst he; exact ⟨rfl, rfl⟩
  · exact ⟨rfl, rfl⟩

theorem Dn.sendAll (c : Nat) (ds : List (List UInt8)) : ∀ {v : Asv}, Dn v → Dn (v.sendAll c ds) := by
  induction ds with
  | nil => exact fun h => h
  | cons d ds ih => exact fun h => ih (h.send c d)

theorem Dn.fail {v : Asv} (h : Dn v) (c : Nat) : Dn (v.fail c) := by
  unfold Asv.fail
  suffices h1 : Dn ((v.post (.close c)).emit (.error c)) from h1.remove c
  exact h.mono (fun _ => ⟨rfl, rfl⟩) (fun _ h => h) rfl (fun _ h => h)

theorem Dn.step {v v' : Asv} (h : Dn v) {op : Op} (hs : v.step op = .ret v') : Dn v' := by
  cases op with
  | start =>
    injection hs with hs; subst hs
    have := h.startAccept
    exact ⟨this.fo, this.na⟩
  | shutdown => injection hs with hs; subst hs; exact h.mono (fun _ => ⟨rfl, rfl⟩) (fun _ h => h) rfl (fun _ h => h)
  | complete i r =>
    have hmv : ∀ (u : Asv), u.conns = v.conns → u.flying = v.flying.eraseIdx i → u.isShutdown = v.isShutdown → u.list = v.list → Dn u := by
      intro u h1 h2 h3 h4
      exact h.mono (fun c => by rw [h1]; exact ⟨rfl, rfl⟩) (fun o hm => List.mem_of_mem_eraseIdx (h2 ▸ hm)) h3 (fun _ h => h4 ▸ h)
    simp only [Asv.step, Asv.complete] at hs
    split at hs
    · injection hs with hs; subst hs; exact h
    · rename_i c hf
      split at hs
      · injection hs with hs; subst hs
        refine ⟨fun o ho d hd => ?_, fun hd => ⟨(h.na hd).1, fun e he => (h.na hd).2 e (List.mem_of_mem_eraseIdx he)⟩⟩
        have := h.fo o (List.mem_of_mem_eraseIdx ho) d hd
        simp only [Asv.post, Asv.setConn]
        split
        · rename_i hcd; subst hcd; exact ⟨rfl, this.2⟩
        · exact this
      · injection hs with hs; subst hs; exact hmv _ rfl rfl rfl rfl
      · injection hs with hs; subst hs; exact h
    · split at hs
      · split at hs
        · injection hs with hs; subst hs; exact hmv _ rfl rfl rfl rfl
        · injection hs with hs; subst hs; exact h
      · injection hs with hs; subst hs; exact hmv _ rfl rfl rfl rfl
      · injection hs with hs; subst hs; exact h
    · split at hs
      · split at hs
        · split at hs
          · injection hs with hs; subst hs; exact hmv _ rfl rfl rfl rfl
          · cases hs
        · injection hs with hs; subst hs; exact h
      · injection hs with hs; subst hs; exact hmv _ rfl rfl rfl rfl
      · injection hs with hs; subst hs; exact h
  | run k rs =>
    simp only [Asv.step] at hs
    split at hs
    · injection hs with hs; subst hs; exact h
    · rename_i t hk
      have he : Dn { v with queue := v.queue.eraseIdx k } := ⟨h.fo, h.na⟩
      cases t with
      | startAccept =>
        injection hs with hs; subst hs
        unfold Asv.runStartAccept
        split
        · exact he
        · rename_i hd
          refine ⟨fun o hm c hc => ?_, fun hx => absurd hx hd⟩
          rcases List.mem_append.1 hm with hm | hm
          · exact h.fo o hm c hc
          · rw [List.mem_singleton] at hm; subst hm; cases hc
      | shutdown =>
        injection hs with hs; subst hs
        refine ⟨fun o hm c hc => h.fo o (List.mem_filter.1 hm).1 c hc, fun _ => ⟨rfl, fun c hc => ?_⟩⟩
        have := (List.mem_filter.1 hc).2
        simp [isAccept] at this
      | close c =>
        injection hs with hs; subst hs
        unfold Asv.runClose
        dsimp only
        split
        · suffices h1 : Dn (((({ v with queue := v.queue.eraseIdx k } : Asv).setConn c { v.conns c with connected := false, isOpen := false }).abort (onSocket c)).emit (.closed c)) from
            h1.remove c
          refine ⟨fun o ho d hd => ?_, fun hd => ⟨(h.na hd).1, fun e he => (h.na hd).2 e (List.mem_filter.1 he).1⟩⟩
          have h2 := List.mem_filter.1 ho
          have := h.fo o h2.1 d hd
          have hne : d ≠ c := by
            rintro rfl
            have h3 := h2.2
            cases o with
            | accept e => cases hd
            | read e => injection hd with hd; subst hd; simp [onSocket] at h3
            | write e b x => injection hd with hd; subst hd; simp [onSocket] at h3
          simp only [Asv.emit, Asv.abort, Asv.setConn, if_neg hne]
          exact this
        · rename_i hopen
          refine ⟨fun o ho d hd => ?_, h.na⟩
          have := h.fo o ho d hd
          have hne : d ≠ c := by
            rintro rfl
            exact hopen this.1
          simp only [Asv.setConn, if_neg hne]
          exact this
      | accepted c ok =>
        simp only [Asv.runTask, Asv.onAccepted] at hs
        split at hs
        · injection hs with hs; subst hs; exact he
        · split at hs
          · have h1 : Dn { ({ v with queue := v.queue.eraseIdx k } : Asv).emit (.joined c) with num := v.num + 1 } := ⟨h.fo, h.na⟩
            split at hs
            · split at hs
              · cases hs
              · injection hs with hs; subst hs
                exact ((h1.remove _).startConn _).startAccept
            · injection hs with hs; subst hs
              exact (h1.startConn _).startAccept
          · injection hs with hs; subst hs; exact he.remove _
      | read c r =>
        injection hs with hs; subst hs
        cases r with
        | none => exact he.fail c
        | some bytes =>
          have h1 : Dn (({ v with queue := v.queue.eraseIdx k } : Asv).emit (.receive c bytes)) := ⟨h.fo, h.na⟩
          exact (Dn.sendAll c rs h1).beginRead c
      | written c ok =>
        injection hs with hs; subst hs
        cases ok with
        | false => exact he.fail c
        | true =>
          refine he.mono (fun d => ?_) (fun _ h => h) rfl (fun _ h => h)
          simp only [Asv.onWritten, if_true, Asv.emit, Asv.setConn]
          split
          · rename_i hd; subst hd; exact ⟨rfl, rfl⟩
          · exact ⟨rfl, rfl⟩

theorem _root_.Modbus.Spec.AsvReach.dn {max : UInt32} {P : Asv → Op → Prop} {v : Asv} (h : AsvReach max P v) : Dn v := by
  induction h with
  | init => exact ⟨by simp [Asv.init], by simp [Asv.init]⟩
  | step _ _ hs ih => exact ih.step hs

/-- Every open connection is in the server's list or about to be closed. -/
def Ol (v : Asv) : Prop := ∀ c, (v.conns c).isOpen = true → c ∈ v.list ∨ ATask.close c ∈ v.queue

theorem Ol.mono {v v' : Asv} (h : Ol v) (h1 : ∀ c, (v'.conns c).isOpen = (v.conns c).isOpen) (h2 : ∀ c, c ∈ v.list → c ∈ v'.list)
    (h3 : ∀ c, ATask.close c ∈ v.queue → ATask.close c ∈ v'.queue) : Ol v' := by
  intro c hc
  rw [h1] at hc
  exact (h c hc).imp (h2 c) (h3 c)

theorem Ol.remove {v : Asv} (h : Ol v) (c : Nat) : Ol (v.removeConnection c) := by
  unfold removeConnection
  split
  · intro d hd
    rcases h d hd with hl | hq
    · by_cases hcd : d = c
      · subst hcd; exact Or.inr (List.mem_append_right _ (by simp))
      · exact Or.inl ((List.mem_erase_of_ne hcd).2 hl)
    · exact Or.inr (List.mem_append_left _ hq)
  · exact h

theorem Ol.post {v : Asv} (h : Ol v) (t : ATask) : Ol (v.post t) :=
  h.mono (fun _ => rfl) (fun _ h => h) (fun _ h => List.mem_append_left _ h)

theorem Ol.sendBuffer {v : Asv} (h : Ol v) (c : Nat) : Ol (v.sendBuffer c) := by
  unfold Asv.sendBuffer
  split
  · exact h
  · split
    · dsimp only
      split
      · exact h
      · exact Ol.post (v := v.emit _) h _
    · exact h

theorem Ol.beginRead {v : Asv} (h : Ol v) (c : Nat) : Ol (v.beginRead c) := by
  unfold Asv.beginRead
  split
  · split
    · exact h
    · exact h.post _
  · exact h

theorem Ol.startConn {v : Asv} (h : Ol v) (c : Nat) : Ol (v.startConn c) := by
  unfold Asv.startConn
  suffices h1 : Ol (v.setConn c { v.conns c with connected := true }) from (h1.sendBuffer c).beginRead c
  refine h.mono (fun d => ?_) (fun _ h => h) (fun _ h => h)
  simp only [Asv.setConn]
  split
  · rename_i hcd; subst hcd; rfl
  · rfl

theorem Ol.startAccept {v : Asv} (h : Ol v) : Ol v.startAccept := by
  unfold Asv.startAccept
  split
  · exact h
  · exact h.post _

theorem Ol.sendAll (c : Nat) (ds : List (List UInt8)) : ∀ {v : Asv}, Ol v → Ol (v.sendAll c ds) := by
  induction ds with
  | nil => exact fun h => h
  | cons d ds ih =>
    intro v h
    refine ih ?_
    unfold Asv.send
    suffices h1 : Ol ({ v.emit (.asked c d) with nextBuf := v.nextBuf + 1 }.setConn c { v.conns c with wbuf := some (v.nextBuf, d) }) from h1.sendBuffer c
    refine h.mono (fun e => ?_) (fun _ h => h) (fun _ h => h)
    simp only [Asv.setConn]
    split
    · rename_i he; subst he; rfl
    · rfl

theorem Ol.fail {v : Asv} (h : Ol v) (c : Nat) : Ol (v.fail c) :=
  Ol.remove (v := (v.post (.close c)).emit (.error c)) (h.post _) c

theorem close_eraseIdx {q : List ATask} {k : Nat} {t : ATask} (hk : q[k]? = some t) {c : Nat} (hm : ATask.close c ∈ q) (hne : t ≠ .close c) :
    ATask.close c ∈ q.eraseIdx k := by
  obtain ⟨j, hj⟩ := List.getElem?_of_mem hm
  refine List.mem_eraseIdx_iff_getElem?.mpr ⟨j, ?_, hj⟩
  rintro rfl
  rw [hk] at hj
  exact hne (Option.some.inj hj)

theorem Ol.step {v v' : Asv} (h : Ol v) {op : Op} (hs : v.step op = .ret v') (ha : ∀ c, AOp.accept c ∈ v.flying → c ∈ v.list) : Ol v' := by
  cases op with
  | start => injection hs with hs; subst hs; exact h.startAccept
  | shutdown => injection hs with hs; subst hs; exact h.post _
  | complete i r =>
    simp only [Asv.step, Asv.complete] at hs
    split at hs
    · injection hs with hs; subst hs; exact h
    · rename_i c hf
      split at hs
      · injection hs with hs; subst hs
        intro d hd
        simp only [Asv.post, Asv.setConn] at hd
        split at hd
        · rename_i hcd; subst hcd
          exact Or.inl (ha _ (List.mem_of_getElem? hf))
        · exact (h d hd).imp id (List.mem_append_left _)
      · injection hs with hs; subst hs; exact Ol.post (v := { v with flying := v.flying.eraseIdx i }) h _
      · injection hs with hs; subst hs; exact h
    · split at hs
      · split at hs
        · injection hs with hs; subst hs; exact Ol.post (v := { v with flying := v.flying.eraseIdx i }) h _
        · injection hs with hs; subst hs; exact h
      · injection hs with hs; subst hs; exact Ol.post (v := { v with flying := v.flying.eraseIdx i }) h _
      · injection hs with hs; subst hs; exact h
    · split at hs
      · split at hs
        · split at hs
          · injection hs with hs; subst hs; exact Ol.post (v := { v with flying := v.flying.eraseIdx i }.emit _) h _
          · cases hs
        · injection hs with hs; subst hs; exact h
      · injection hs with hs; subst hs; exact Ol.post (v := { v with flying := v.flying.eraseIdx i }) h _
      · injection hs with hs; subst hs; exact h
  | run k rs =>
    simp only [Asv.step] at hs
    split at hs
    · injection hs with hs; subst hs; exact h
    · rename_i t hk
      have he : (∀ c, t ≠ .close c) → Ol { v with queue := v.queue.eraseIdx k } := fun hne =>
        h.mono (fun _ => rfl) (fun _ h => h) (fun c hc => close_eraseIdx hk hc (hne c))
      cases t with
      | startAccept =>
        injection hs with hs; subst hs
        have he := he (by simp)
        unfold Asv.runStartAccept
        split
        · exact he
        · exact he.mono (fun _ => rfl) (fun _ h => List.mem_append_left _ h) (fun _ h => h)
      | shutdown =>
        injection hs with hs; subst hs
        intro c hc
        refine Or.inr ?_
        rcases he (by simp) c hc with hl | hq
        · exact List.mem_append_right _ (List.mem_map.2 ⟨c, hl, rfl⟩)
        · exact List.mem_append_left _ (List.mem_append_left _ hq)
      | close c =>
        injection hs with hs; subst hs
        have ho : ∀ d, d ≠ c → (v.conns d).isOpen = true → d ∈ v.list ∨ ATask.close d ∈ v.queue.eraseIdx k := fun d hne hd =>
          (h d hd).imp id fun hq => close_eraseIdx hk hq (fun hx => hne (by injection hx with hx; exact hx.symm))
        unfold Asv.runClose
        dsimp only
        split
        · refine Ol.remove ?_ c
          intro d hd
          simp only [Asv.emit, Asv.abort, Asv.setConn] at hd ⊢
          split at hd
          · cases hd
          · rename_i hne
            exact (ho d hne hd).imp id (List.mem_append_left _)
        · rename_i hopen
          intro d hd
          simp only [Asv.setConn] at hd ⊢
          split at hd
          · rename_i hcd; subst hcd; exact absurd hd hopen
          · rename_i hne; exact ho d hne hd
      | accepted c ok =>
        have he := he (by simp)
        simp only [Asv.runTask, Asv.onAccepted] at hs
        split at hs
        · injection hs with hs; subst hs; exact he
        · split at hs
          · have h1 : Ol { ({ v with queue := v.queue.eraseIdx k } : Asv).emit (.joined c) with num := v.num + 1 } := he
            split at hs
            · split at hs
              · cases hs
              · injection hs with hs; subst hs
                exact ((h1.remove _).startConn _).startAccept
            · injection hs with hs; subst hs
              exact (h1.startConn _).startAccept
          · injection hs with hs; subst hs; exact he.remove _
      | read c r =>
        injection hs with hs; subst hs
        replace he := he (by simp)
        cases r with
        | none => exact he.fail c
        | some bytes =>
          have h1 : Ol (({ v with queue := v.queue.eraseIdx k } : Asv).emit (.receive c bytes)) := he
          exact (Ol.sendAll c rs h1).beginRead c
      | written c ok =>
        injection hs with hs; subst hs
        replace he := he (by simp)
        cases ok with
        | false => exact he.fail c
        | true =>
          refine he.mono (fun d => ?_) (fun _ h => h) (fun _ h => h)
          simp only [Asv.onWritten, if_true, Asv.emit, Asv.setConn]
          split
          · rename_i hd; subst hd; rfl
          · rfl

theorem _root_.Modbus.Spec.AsvReach.ol {max : UInt32} (hmax : max.toNat < 4294967295) {v : Asv} (h : AsvReach max SingleStart v) : Ol v := by
  induction h with
  | init => intro c hc; simp [Asv.init] at hc
  | @step v v' op hv hp hs ih =>
    refine ih.step hs fun c hc => ?_
    cases hd : v.isShutdown with
    | true => exact absurd hc ((hv.dn.na hd).2 c)
    | false =>
      rw [((hv.ring hmax).up hd).list]
      exact List.mem_append_right _ (List.mem_append_left _ (List.mem_filterMap.2 ⟨_, hc, rfl⟩))

/-- After shutdown, when nothing is queued any more, no socket is open and no operation is in progress. -/
theorem _root_.Modbus.Spec.AsvReach.drained {max : UInt32} (hmax : max.toNat < 4294967295) {v : Asv} (h : AsvReach max SingleStart v) (hd : v.isShutdown = true)
    (hq : v.queue = []) : v.flying = [] ∧ ∀ c, (v.conns c).isOpen = false := by
  have h1 := h.dn
  have h2 : ∀ c, (v.conns c).isOpen = false := by
    intro c
    cases ho : (v.conns c).isOpen with
    | false => rfl
    | true =>
      rcases h.ol hmax c ho with hl | hx
      · rw [(h1.na hd).1] at hl; cases hl
      · rw [hq] at hx; cases hx
  refine ⟨?_, h2⟩
  cases hf : v.flying with
  | nil => rfl
  | cons o os =>
    exfalso
    have hm : o ∈ v.flying := by simp [hf]
    cases o with
    | accept c => exact (h1.na hd).2 c hm
    | read c => have := (h1.fo _ hm c rfl).1; rw [h2] at this; cases this
    | write c b x => have := (h1.fo _ hm c rfl).1; rw [h2] at this; cases this

/-- How much is left to do after shutdown. -/
def weight : ATask → Nat
  | .read _ (some _) => 4
  | .read _ none => 2
  | .written _ false => 2
  | _ => 1

def todo (v : Asv) : Nat := (v.queue.map weight).sum + 3 * v.flying.length

theorem abort_todo (v : Asv) (c : Nat) : ((v.queue ++ (v.flying.filter (onSocket c)).map aborted).map weight).sum + 3 * (v.flying.filter fun o => !onSocket c o).length ≤ v.todo := by
  have h1 : ∀ l : List AOp, (((l.filter (onSocket c)).map aborted).map weight).sum + 3 * (l.filter fun o => !onSocket c o).length ≤ 3 * l.length := by
    intro l
    induction l with
    | nil => simp
    | cons o l ih =>
      cases ho : onSocket c o with
      | false => simp only [List.filter_cons, ho, Bool.not_false, if_true, List.length_cons, Bool.false_eq_true, if_false]; omega
      | true =>
        have : weight (aborted o) = 2 := by cases o <;> simp_all [onSocket, aborted, weight]
        simp only [List.filter_cons, ho, Bool.not_true, if_true, List.length_cons, Bool.false_eq_true, if_false, List.map_cons, List.sum_cons, this]; omega
  have := h1 v.flying
  simp only [todo, List.map_append, List.sum_append]
  omega

theorem beginRead_todo (v : Asv) (c : Nat) : (v.beginRead c).isShutdown = v.isShutdown ∧ (v.beginRead c).todo ≤ v.todo + 3 := by
  unfold Asv.beginRead
  split
  · split
    · exact ⟨rfl, by simp [todo]; omega⟩
    · exact ⟨rfl, by simp [todo, Asv.post, weight]; omega⟩
  · exact ⟨rfl, by simp [todo]⟩

/-- One task less, and the rest is no more than before. -/
theorem drain_step {v : Asv} (h : Dn v) (hd : v.isShutdown = true) {t : ATask} {ts : List ATask} (hq : v.queue = t :: ts) :
    ∃ v', v.step (.run 0 []) = .ret v' ∧ v'.isShutdown = true ∧ v'.todo < v.todo := by
  have hl := (h.na hd).1
  have hn := (h.na hd).2
  have hrm : ∀ (u : Asv) (c : Nat), u.list = [] → u.removeConnection c = u := by
    intro u c hu
    unfold removeConnection
    rw [hu, if_neg (by simp)]
  have hto : v.todo = weight t + (ts.map weight).sum + 3 * v.flying.length := by simp [todo, hq]
  have hstep : v.step (.run 0 []) = { v with queue := ts }.runTask [] t := by simp [Asv.step, hq]
  rw [hstep, hto]
  have hfail : ∀ c, ∃ v' : Asv, CM.ret (({ v with queue := ts } : Asv).fail c) = .ret v' ∧ v'.isShutdown = true ∧ v'.todo < 2 + (ts.map weight).sum + 3 * v.flying.length := by
    intro c
    refine ⟨_, rfl, ?_, ?_⟩
    · unfold Asv.fail
      rw [hrm _ _ (by exact hl)]; exact hd
    · unfold Asv.fail
      rw [hrm _ _ (by exact hl)]
      simp [todo, Asv.post, Asv.emit, weight]
      omega
  cases t with
  | startAccept =>
    refine ⟨_, rfl, ?_, ?_⟩ <;> unfold Asv.runStartAccept
    · rw [if_pos hd]; exact hd
    · rw [if_pos hd]; simp [todo, weight]
  | shutdown =>
    refine ⟨_, rfl, rfl, ?_⟩
    have h1 : v.flying.filter isAccept = [] := by
      rw [List.filter_eq_nil_iff]
      intro o ho ho'
      cases o with
      | accept c => exact hn c ho
      | _ => cases ho'
    have h2 : (v.flying.filter fun o => !isAccept o).length ≤ v.flying.length := List.length_filter_le _ _
    simp only [Asv.runShutdown, Asv.abort, todo, h1, hl, List.map_nil, List.append_nil, weight]
    omega
  | close c =>
    refine ⟨_, rfl, ?_, ?_⟩
    · unfold Asv.runClose
      dsimp only
      split
      · rw [hrm _ _ (by exact hl)]; exact hd
      · exact hd
    · unfold Asv.runClose
      dsimp only
      split
      · rw [hrm _ _ (by exact hl)]
        have := abort_todo { v with queue := ts } c
        simp only [todo] at this
        simp only [todo, Asv.emit, Asv.abort, Asv.setConn, weight]
        omega
      · simp [todo, Asv.setConn, weight]
  | accepted c ok =>
    refine ⟨{ v with queue := ts }, ?_, hd, ?_⟩
    · simp [Asv.runTask, Asv.onAccepted, hd]
    · simp [todo, weight]
  | read c r =>
    cases r with
    | none => exact hfail c
    | some bytes =>
      have h1 := beginRead_todo (({ v with queue := ts } : Asv).emit (.receive c bytes)) c
      refine ⟨_, rfl, h1.1.trans hd, Nat.lt_of_le_of_lt h1.2 ?_⟩
      simp only [todo, Asv.emit, weight]
      omega
  | written c ok =>
    cases ok with
    | false => exact hfail c
    | true => exact ⟨_, rfl, hd, by simp [todo, Asv.onWritten, Asv.emit, Asv.setConn, weight]⟩

end Modbus.Asv
