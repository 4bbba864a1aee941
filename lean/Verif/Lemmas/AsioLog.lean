import Verif.Lemmas.AsioApart
import Verif.Spec.ServerStack

/-! What the steps of the listening server and its connections add to the log. -/

namespace Modbus.Asv

open Spec

/-- Events other than what passes between a connection and its listener. -/
def plain : AEv → Bool
  | .receive _ _ => false
  | .asked _ _ => false
  | .error _ => false
  | _ => true

/-- The log grows by events that satisfy `P`. -/
def Logs (P : AEv → Prop) (v v' : Asv) : Prop := ∃ es, v'.log = v.log ++ es ∧ ∀ e ∈ es, P e

variable {P : AEv → Prop}

theorem Logs.of_eq {v v' : Asv} (h : v'.log = v.log) : Logs P v v' := ⟨[], by simp [h], by simp⟩

theorem Logs.trans {u v w : Asv} (h : Logs P u v) (h' : Logs P v w) : Logs P u w := by
  obtain ⟨a, h1, h2⟩ := h
  obtain ⟨b, h3, h4⟩ := h'
  exact ⟨a ++ b, by rw [h3, h1, List.append_assoc], fun e he => (List.mem_append.1 he).elim (h2 e) (h4 e)⟩

theorem Logs.emit (v : Asv) {e : AEv} (h : P e) : Logs P v (v.emit e) := ⟨[e], rfl, by simpa using h⟩

/-- Not seen by a listener. -/
abbrev Plain : AEv → Prop := fun e => plain e = true

/-- Neither seen by a listener nor data given to a connection. -/
def quiet : AEv → Bool
  | .receive _ _ => false
  | .asked _ _ => false
  | .error _ => false
  | .submit _ _ => false
  | _ => true

theorem Logs.remove (hP : ∀ e, quiet e = true → P e) (v : Asv) (c : Nat) : Logs P v (v.removeConnection c) := by
  unfold removeConnection
  split
  · exact ⟨[.left c], rfl, by simpa using hP _ rfl⟩
  · exact .of_eq rfl

theorem Logs.runClose (hP : ∀ e, quiet e = true → P e) (v : Asv) (c : Nat) : Logs P v (v.runClose c) := by
  unfold Asv.runClose
  dsimp only
  split
  · refine Logs.trans (v := ((v.setConn c { v.conns c with connected := false, isOpen := false }).abort (onSocket c)).emit (.closed c)) ?_ (Logs.remove hP _ _)
    exact ⟨[.closed c], rfl, by simpa using hP _ rfl⟩
  · exact .of_eq rfl

theorem Logs.sendBuffer (v : Asv) (c : Nat) (hb : ∀ b d, (v.conns c).wbuf = some (b, d) → P (.submit c d)) : Logs P v (v.sendBuffer c) := by
  unfold Asv.sendBuffer
  split
  · exact .of_eq rfl
  · rename_i b d hw
    split
    · dsimp only
      split
      · exact ⟨[_], rfl, by simpa using hb _ _ hw⟩
      · exact ⟨[_], rfl, by simpa using hb _ _ hw⟩
    · exact .of_eq rfl

theorem Logs.beginRead (v : Asv) (c : Nat) : Logs P v (v.beginRead c) := by
  unfold Asv.beginRead
  split
  · split <;> exact .of_eq rfl
  · exact .of_eq rfl

theorem Logs.startConn (v : Asv) (c : Nat) (hb : ∀ b d, (v.conns c).wbuf = some (b, d) → P (.submit c d)) : Logs P v (v.startConn c) :=
  ((Logs.of_eq (v' := v.setConn c { v.conns c with connected := true }) rfl).trans (Logs.sendBuffer _ c (by simpa [Asv.setConn] using hb))).trans (Logs.beginRead _ c)

theorem Logs.startAccept (v : Asv) : Logs P v v.startAccept := by
  unfold Asv.startAccept
  split <;> exact .of_eq rfl

theorem remove_conns (v : Asv) (c : Nat) : (v.removeConnection c).conns = v.conns := by
  unfold removeConnection
  split <;> rfl

theorem Logs.onAccepted (hP : ∀ e, quiet e = true → P e) {v v' : Asv} {c : Nat} {ok : Bool} (hb : ok = true → ∀ b d, (v.conns c).wbuf = some (b, d) → P (.submit c d))
    (hs : v.onAccepted c ok = .ret v') : Logs P v v' := by
  unfold Asv.onAccepted at hs
  split at hs
  · injection hs with hs; subst hs; exact .of_eq rfl
  · split at hs
    · have h1 : Logs P v { v.emit (.joined c) with num := v.num + 1 } := ⟨[.joined c], rfl, by simpa using hP _ rfl⟩
      rename_i hok
      dsimp only at hs
      split at hs
      · split at hs
        · cases hs
        · injection hs with hs; subst hs
          exact h1.trans (((Logs.remove hP _ _).trans (Logs.startConn _ _ (by rw [remove_conns]; exact hb hok))).trans (Logs.startAccept _))
      · injection hs with hs; subst hs
        exact h1.trans ((Logs.startConn { v.emit (.joined c) with num := v.num + 1 } c (hb hok)).trans (Logs.startAccept _))
    · injection hs with hs; subst hs; exact .remove hP _ _

theorem Logs.complete (hP : ∀ e, quiet e = true → P e) {v v' : Asv} {i : Nat} {r : ARes} (hs : v.complete i r = .ret v') : Logs P v v' := by
  unfold Asv.complete at hs
  dsimp only at hs
  split at hs
  · injection hs with hs; subst hs; exact .of_eq rfl
  · split at hs <;> (injection hs with hs; subst hs; exact .of_eq rfl)
  · split at hs
    · split at hs <;> (injection hs with hs; subst hs; exact .of_eq rfl)
    · injection hs with hs; subst hs; exact .of_eq rfl
    · injection hs with hs; subst hs; exact .of_eq rfl
  · split at hs
    · split at hs
      · split at hs
        · injection hs with hs; subst hs; exact ⟨[_], rfl, by simpa using hP _ rfl⟩
        · cases hs
      · injection hs with hs; subst hs; exact .of_eq rfl
    · injection hs with hs; subst hs; exact .of_eq rfl
    · injection hs with hs; subst hs; exact .of_eq rfl

theorem fail_log (v : Asv) (c : Nat) : ∃ es, (v.fail c).log = v.log ++ .error c :: es ∧ ∀ e ∈ es, quiet e = true := by
  obtain ⟨es, h1, h2⟩ := Logs.remove (P := fun e => quiet e = true) (fun _ h => h) ((v.post (.close c)).emit (.error c)) c
  refine ⟨es, ?_, h2⟩
  unfold Asv.fail
  rw [h1]
  simp [Asv.emit, Asv.post]

/-- What the answers of a listener add to the log. -/
def SendLog (c : Nat) : List (List UInt8) → List AEv → Prop
  | [], es => es = []
  | d :: ds, es => ∃ a b, es = .asked c d :: a ++ b ∧ (a = [] ∨ a = [.submit c d]) ∧ SendLog c ds b

theorem sendAll_log (c : Nat) (ds : List (List UInt8)) : ∀ v : Asv, ∃ es, (v.sendAll c ds).log = v.log ++ es ∧ SendLog c ds es := by
  induction ds with
  | nil => exact fun v => ⟨[], by simp [Asv.sendAll], rfl⟩
  | cons d ds ih =>
    intro v
    obtain ⟨b, h1, h2⟩ := ih (v.send c d)
    have h3 : ∃ a, (v.send c d).log = v.log ++ .asked c d :: a ∧ (a = [] ∨ a = [.submit c d]) := by
      unfold Asv.send Asv.sendBuffer
      split
      · exact ⟨[], rfl, Or.inl rfl⟩
      · rename_i b data hw
        simp only [Asv.setConn, if_true] at hw
        injection hw with hw; injection hw with hw1 hw2
        split
        · dsimp only
          split
          · exact ⟨[.submit c d], by simp [Asv.emit, Asv.setConn, hw2], Or.inr rfl⟩
          · exact ⟨[.submit c d], by simp [Asv.emit, Asv.post, Asv.setConn, hw2], Or.inr rfl⟩
        · exact ⟨[], rfl, Or.inl rfl⟩
    obtain ⟨a, h3, h4⟩ := h3
    refine ⟨.asked c d :: a ++ b, ?_, a, b, rfl, h4, h2⟩
    simp only [Asv.sendAll]
    rw [h1, h3]
    simp

theorem SendLog.asked {c : Nat} {ds : List (List UInt8)} : ∀ {es : List AEv}, SendLog c ds es → ∀ c', asvAsked c' es = if c = c' then ds else [] := by
  induction ds with
  | nil => rintro es rfl c'; simp [asvAsked]
  | cons d ds ih =>
    rintro es ⟨a, b, rfl, ha, hb⟩ c'
    have := ih hb c'
    rcases ha with rfl | rfl <;> by_cases hc : c = c' <;> simp_all [asvAsked]

theorem SendLog.mem {c : Nat} {ds : List (List UInt8)} : ∀ {es : List AEv}, SendLog c ds es → ∀ e ∈ es, ∃ d, d ∈ ds ∧ (e = .asked c d ∨ e = .submit c d) := by
  induction ds with
  | nil => rintro es rfl e he; cases he
  | cons d ds ih =>
    rintro es ⟨a, b, rfl, ha, hb⟩ e he
    simp only [List.cons_append, List.mem_cons, List.mem_append] at he
    rcases he with rfl | he | he
    · exact ⟨d, by simp, Or.inl rfl⟩
    · rcases ha with rfl | rfl
      · cases he
      · rw [List.mem_singleton] at he; exact ⟨d, by simp, Or.inr he⟩
    · obtain ⟨x, h1, h2⟩ := ih hb e he
      exact ⟨x, by simp [h1], h2⟩

theorem onRead_log (v : Asv) (c : Nat) (bytes : List UInt8) (rs : List (List UInt8)) :
    ∃ es, (v.onRead c (some bytes) rs).log = v.log ++ .receive c bytes :: es ∧ SendLog c rs es := by
  obtain ⟨es, h1, h2⟩ := sendAll_log c rs (v.emit (.receive c bytes))
  refine ⟨es, ?_, h2⟩
  have h3 : ∀ u : Asv, (u.beginRead c).log = u.log := by
    intro u
    unfold Asv.beginRead
    split
    · split <;> rfl
    · rfl
  simp only [Asv.onRead]
  rw [h3, h1]
  simp [Asv.emit]

/-- What a step adds to the log: data for a listener with its answers, the report of an error, or neither. -/
inductive Adds (v : Asv) (op : Op) (es : List AEv) : Prop
  | data (k : Nat) (rs : List (List UInt8)) (c : Nat) (bytes : List UInt8) (rest : List AEv) (h1 : op = .run k rs)
      (h2 : v.queue[k]? = some (.read c (some bytes))) (h3 : es = .receive c bytes :: rest) (h4 : SendLog c rs rest)
  | error (k : Nat) (rs : List (List UInt8)) (c : Nat) (rest : List AEv) (h1 : op = .run k rs)
      (h2 : v.queue[k]? = some (.read c none) ∨ v.queue[k]? = some (.written c false)) (h3 : es = .error c :: rest) (h4 : ∀ e ∈ rest, quiet e = true)
  | other (h1 : ∀ k rs c, op = .run k rs → v.queue[k]? ≠ some (.read c none) ∧ v.queue[k]? ≠ some (.written c false) ∧
      ∀ bytes, v.queue[k]? ≠ some (.read c (some bytes)))
      (h2 : ∀ e ∈ es, quiet e = true ∨ ∃ k rs c b d, op = .run k rs ∧ v.queue[k]? = some (.accepted c true) ∧ (v.conns c).wbuf = some (b, d) ∧ e = .submit c d)

theorem step_adds {v v' : Asv} {op : Op} (hs : v.step op = .ret v') : ∃ es, v'.log = v.log ++ es ∧ Adds v op es := by
  cases op with
  | start =>
    injection hs with hs; subst hs
    refine ⟨[], ?_, .other (fun _ _ _ h => by cases h) (by simp)⟩
    simp only [Asv.startAccept]
    split <;> simp [Asv.post]
  | shutdown => injection hs with hs; subst hs; exact ⟨[], by simp [Asv.post], .other (fun _ _ _ h => by cases h) (by simp)⟩
  | complete i r =>
    obtain ⟨es, h1, h2⟩ := Logs.complete (P := fun e => quiet e = true) (fun _ h => h) hs
    exact ⟨es, h1, .other (fun _ _ _ h => by cases h) (fun e he => Or.inl (h2 e he))⟩
  | run k rs =>
    simp only [Asv.step] at hs
    split at hs
    · rename_i hk
      injection hs with hs; subst hs
      exact ⟨[], by simp, .other (fun k' rs' c h => by injection h with h; subst h; simp [hk]) (by simp)⟩
    · rename_i t hk
      let P : AEv → Prop := fun e => quiet e = true ∨ ∃ k' rs' c b d, Op.run k rs = .run k' rs' ∧ v.queue[k']? = some (.accepted c true) ∧ (v.conns c).wbuf = some (b, d) ∧ e = .submit c d
      have hP : ∀ e, quiet e = true → P e := fun _ h => Or.inl h
      have plainly : Logs P { v with queue := v.queue.eraseIdx k } v' → (∀ c, t ≠ .read c none ∧ t ≠ .written c false ∧ ∀ b, t ≠ .read c (some b)) →
          ∃ es, v'.log = v.log ++ es ∧ Adds v (.run k rs) es := by
        rintro ⟨es, h1, h2⟩ h3
        refine ⟨es, h1, .other (fun k' rs' c h => ?_) h2⟩
        injection h with h; subst h
        have := h3 c
        rw [hk]
        exact ⟨fun e => this.1 (Option.some.inj e), fun e => this.2.1 (Option.some.inj e), fun b e => this.2.2 b (Option.some.inj e)⟩
      cases t with
      | startAccept =>
        injection hs with hs; subst hs
        refine plainly (.of_eq ?_) (by simp)
        unfold Asv.runStartAccept
        split <;> rfl
      | shutdown =>
        injection hs with hs; subst hs
        refine plainly ⟨v.list.map .left, rfl, ?_⟩ (by simp)
        intro e he
        obtain ⟨x, -, rfl⟩ := List.mem_map.1 he
        exact hP _ rfl
      | close d => injection hs with hs; subst hs; exact plainly (.runClose hP _ _) (by simp)
      | accepted d ok =>
        refine plainly (.onAccepted hP (fun hok b x hw => Or.inr ⟨k, rs, d, b, x, rfl, ?_, hw, rfl⟩) hs) (by simp)
        rw [hk, hok]
      | read d r =>
        injection hs with hs; subst hs
        cases r with
        | none =>
          obtain ⟨es, h1, h2⟩ := fail_log { v with queue := v.queue.eraseIdx k } d
          exact ⟨_, h1, .error k rs d es rfl (Or.inl hk) rfl h2⟩
        | some bytes =>
          obtain ⟨es, h1, h2⟩ := onRead_log { v with queue := v.queue.eraseIdx k } d bytes rs
          exact ⟨_, h1, .data k rs d bytes es rfl hk rfl h2⟩
      | written d ok =>
        injection hs with hs; subst hs
        cases ok with
        | true => exact plainly ⟨[.writeDone d], rfl, by simpa using hP _ rfl⟩ (by simp)
        | false =>
          obtain ⟨es, h1, h2⟩ := fail_log { v with queue := v.queue.eraseIdx k } d
          exact ⟨_, h1, .error k rs d es rfl (Or.inr hk) rfl h2⟩

theorem quiet_plain {es : List AEv} (h : ∀ e ∈ es, quiet e = true) : ∀ e ∈ es, Plain e := by
  intro e he
  have := h e he
  cases e <;> simp_all [quiet, Plain, plain]

theorem Adds.plain {v : Asv} {op : Op} {es : List AEv}
    (h2 : ∀ e ∈ es, quiet e = true ∨ ∃ k rs c b d, op = .run k rs ∧ v.queue[k]? = some (.accepted c true) ∧ (v.conns c).wbuf = some (b, d) ∧ e = .submit c d) :
    ∀ e ∈ es, Plain e := by
  intro e he
  rcases h2 e he with h | ⟨k, rs, c, b, d, -, -, -, rfl⟩
  · cases e <;> simp_all [quiet, Plain, Asv.plain]
  · rfl

theorem quiet_submits {es : List AEv} (h : ∀ e ∈ es, quiet e = true) (c : Nat) : asvSubmits c es = [] := by
  simp only [asvSubmits, List.filterMap_eq_nil_iff]
  intro e he
  have := h e he
  cases e <;> simp_all [quiet]

theorem SendLog.submits {c : Nat} {ds : List (List UInt8)} : ∀ {es : List AEv}, SendLog c ds es → ∀ c', (asvSubmits c' es).Sublist (asvAsked c' es) := by
  induction ds with
  | nil => rintro es rfl c'; simp [asvAsked, asvSubmits]
  | cons d ds ih =>
    rintro es ⟨a, b, rfl, ha, hb⟩ c'
    have := ih hb c'
    rcases ha with rfl | rfl
    · by_cases hc : c = c'
      · simp only [asvAsked, asvSubmits, List.cons_append, List.nil_append, List.filterMap_cons, if_pos hc] at this ⊢
        exact List.Sublist.cons _ this
      · simpa [asvAsked, asvSubmits, hc] using this
    · by_cases hc : c = c'
      · simp only [asvAsked, asvSubmits, List.cons_append, List.nil_append, List.filterMap_cons, if_pos hc] at this ⊢
        exact List.Sublist.cons_cons _ this
      · simpa [asvAsked, asvSubmits, hc] using this

theorem plain_received {es : List AEv} (h : ∀ e ∈ es, Plain e) (c : Nat) : asvReceived c es = [] := by
  simp only [asvReceived, List.filterMap_eq_nil_iff]
  intro e he
  have := h e he
  cases e <;> simp_all [Plain, plain]

theorem plain_asked {es : List AEv} (h : ∀ e ∈ es, Plain e) (c : Nat) : asvAsked c es = [] := by
  simp only [asvAsked, List.filterMap_eq_nil_iff]
  intro e he
  have := h e he
  cases e <;> simp_all [Plain, plain]

@[simp] theorem received_append (c : Nat) (a b : List AEv) : asvReceived c (a ++ b) = asvReceived c a ++ asvReceived c b := by simp [asvReceived]
@[simp] theorem asked_append (c : Nat) (a b : List AEv) : asvAsked c (a ++ b) = asvAsked c a ++ asvAsked c b := by simp [asvAsked]

theorem SendLog.received {c : Nat} {ds : List (List UInt8)} {es : List AEv} (h : SendLog c ds es) (c' : Nat) : asvReceived c' es = [] := by
  simp only [asvReceived, List.filterMap_eq_nil_iff]
  intro e he
  obtain ⟨d, -, rfl | rfl⟩ := h.mem e he <;> rfl

/-- Something about the data path of connection `c` is going on. -/
def Wired (v : Asv) (c : Nat) : Prop := (v.conns c).connected = true ∨ (∃ o ∈ v.flying, opConn o = some c) ∨ ∃ t ∈ v.queue, taskConn t = some c

theorem Apart.wired {c : Nat} {v v' : Asv} (h : Apart false c v v') (hw : Wired v' c) : Wired v c := by
  rcases hw with hw | ⟨o, ho, hc⟩ | ⟨t, ht, hc⟩
  · exact Or.inl (h.conns ▸ hw)
  · have : o ∈ v'.flying.filter (relOp false c) := List.mem_filter.2 ⟨ho, by simp [relOp, hc]⟩
    rw [h.flying] at this
    exact Or.inr (Or.inl ⟨o, (List.mem_filter.1 this).1, hc⟩)
  · have : t ∈ v'.queue.filter (relTask false c) := List.mem_filter.2 ⟨ht, by simp [relTask, hc]⟩
    rw [h.queue] at this
    exact Or.inr (Or.inr ⟨t, (List.mem_filter.1 this).1, hc⟩)

/-- Only accepting a connection makes it begin to exchange data. -/
theorem step_wired {v v' : Asv} {op : Op} (hs : v.step op = .ret v') {c : Nat} (hw : Wired v' c) :
    Wired v c ∨ ∃ k rs, op = .run k rs ∧ v.queue[k]? = some (.accepted c true) ∧ v.isShutdown = false := by
  by_cases ht : Touches false v c op
  · cases op with
    | start => exact ht.elim
    | shutdown => exact ht.elim
    | complete i r =>
      obtain ⟨o, ho, hc⟩ := ht
      cases o with
      | read d => exact Or.inl (Or.inr (Or.inl ⟨_, List.mem_of_getElem? ho, congrArg some hc⟩))
      | write d b x => exact Or.inl (Or.inr (Or.inl ⟨_, List.mem_of_getElem? ho, congrArg some hc⟩))
      | accept d =>
        left
        have hc : d = c := hc
        subst hc
        have he : ∀ t : ATask, taskConn t = none → Wired { (v.setConn d { v.conns d with isOpen := true }) with flying := v.flying.eraseIdx i, queue := v.queue ++ [t] } d → Wired v d := by
          rintro t ht (h | ⟨o, h1, h2⟩ | ⟨x, h1, h2⟩)
          · exact Or.inl (by simpa [Asv.setConn] using h)
          · exact Or.inr (Or.inl ⟨o, List.mem_of_mem_eraseIdx h1, h2⟩)
          · rcases List.mem_append.1 h1 with h1 | h1
            · exact Or.inr (Or.inr ⟨x, h1, h2⟩)
            · rw [List.mem_singleton.1 h1, ht] at h2; cases h2
        have he' : ∀ t : ATask, taskConn t = none → Wired { v with flying := v.flying.eraseIdx i, queue := v.queue ++ [t] } d → Wired v d := by
          rintro t ht (h | ⟨o, h1, h2⟩ | ⟨x, h1, h2⟩)
          · exact Or.inl h
          · exact Or.inr (Or.inl ⟨o, List.mem_of_mem_eraseIdx h1, h2⟩)
          · rcases List.mem_append.1 h1 with h1 | h1
            · exact Or.inr (Or.inr ⟨x, h1, h2⟩)
            · rw [List.mem_singleton.1 h1, ht] at h2; cases h2
        simp only [Asv.step, Asv.complete, ho] at hs
        split at hs
        · injection hs with hs; subst hs; exact he _ rfl hw
        · injection hs with hs; subst hs; exact he' _ rfl hw
        · injection hs with hs; subst hs; exact hw
    | run k rs =>
      obtain ⟨t, hk, h | h⟩ := ht
      on_goal 2 => exact absurd h.1 (by simp)
      cases t with
      | startAccept => cases h
      | shutdown => cases h
      | read d r => exact Or.inl (Or.inr (Or.inr ⟨_, List.mem_of_getElem? hk, h⟩))
      | written d ok => exact Or.inl (Or.inr (Or.inr ⟨_, List.mem_of_getElem? hk, h⟩))
      | close d =>
        left
        injection h with h; subst h
        simp only [Asv.step, hk, Asv.runTask] at hs
        injection hs with hs; subst hs
        have hrem : ∀ u : Asv, Wired (u.removeConnection d) d → Wired u d := fun u h => (Apart.remove u (fun h => by cases h)).wired h
        have herase : ∀ x ∈ v.queue.eraseIdx k, x ∈ v.queue := fun x hx => List.mem_of_mem_eraseIdx hx
        unfold Asv.runClose at hw
        dsimp only at hw
        split at hw
        · have hw := hrem _ hw
          rcases hw with hw | ⟨o, h1, h2⟩ | ⟨x, h1, h2⟩
          · simp [Asv.emit, Asv.abort, Asv.setConn] at hw
          · exact Or.inr (Or.inl ⟨o, (List.mem_filter.1 h1).1, h2⟩)
          · rcases List.mem_append.1 h1 with h1 | h1
            · exact Or.inr (Or.inr ⟨x, herase x h1, h2⟩)
            · obtain ⟨o, ho, rfl⟩ := List.mem_map.1 h1
              refine Or.inr (Or.inl ⟨o, (List.mem_filter.1 ho).1, ?_⟩)
              cases o <;> simpa [aborted, taskConn, opConn] using h2
        · rcases hw with hw | ⟨o, h1, h2⟩ | ⟨x, h1, h2⟩
          · simp [Asv.setConn] at hw
          · exact Or.inr (Or.inl ⟨o, h1, h2⟩)
          · exact Or.inr (Or.inr ⟨x, herase x h1, h2⟩)
      | accepted d ok =>
        injection h with h; subst h
        simp only [Asv.step, hk, Asv.runTask, Asv.onAccepted] at hs
        have hstay : Wired { v with queue := v.queue.eraseIdx k } d → Wired v d := by
          rintro (h | ⟨o, h1, h2⟩ | ⟨x, h1, h2⟩)
          · exact Or.inl h
          · exact Or.inr (Or.inl ⟨o, h1, h2⟩)
          · exact Or.inr (Or.inr ⟨x, List.mem_of_mem_eraseIdx h1, h2⟩)
        cases hd : v.isShutdown with
        | true => simp only [hd, if_true] at hs; injection hs with hs; subst hs; exact Or.inl (hstay hw)
        | false =>
          cases ok with
          | true => exact Or.inr ⟨k, rs, rfl, hk, rfl⟩
          | false =>
            simp only [hd, if_false, Bool.false_eq_true] at hs
            injection hs with hs; subst hs
            have hw' := (Apart.remove (full := false) (c := d) { v with isShutdown := false, queue := v.queue.eraseIdx k } (fun h => by cases h)).wired hw
            exact Or.inl (hstay hw')
  · exact Or.inl ((step_apart hs ht).wired hw)

/-- Where data on its way out comes from. -/
structure Sb (v : Asv) : Prop where
  buf : ∀ c b d, (v.conns c).wbuf = some (b, d) → AEv.asked c d ∈ v.log
  sub : ∀ c d, AEv.submit c d ∈ v.log → AEv.asked c d ∈ v.log
  fly : ∀ c b d, AOp.write c b d ∈ v.flying → AEv.submit c d ∈ v.log
  wire : ∀ c x, AEv.wire c x ∈ v.log → ∃ d, AEv.submit c d ∈ v.log ∧ x <+: d

/-- Neither buffers nor writes change, and nothing is added to the log that matters. -/
theorem Sb.mono {v v' : Asv} (h : Sb v) (h1 : ∀ c, (v'.conns c).wbuf = (v.conns c).wbuf ∨ (v'.conns c).wbuf = none)
    (h2 : ∀ c b d, AOp.write c b d ∈ v'.flying → AOp.write c b d ∈ v.flying)
    (h3 : ∃ es, v'.log = v.log ++ es ∧ ∀ e ∈ es, (∀ c d, e ≠ .submit c d) ∧ ∀ c d, e ≠ .wire c d) : Sb v' := by
  obtain ⟨es, h3, h4⟩ := h3
  have hm : ∀ e, e ∈ v.log → e ∈ v'.log := fun e he => h3 ▸ List.mem_append_left _ he
  have hs : ∀ c d, AEv.submit c d ∈ v'.log → AEv.submit c d ∈ v.log := by
    intro c d he
    rw [h3] at he
    exact (List.mem_append.1 he).elim id fun he => absurd rfl ((h4 _ he).1 c d)
  have hw : ∀ c d, AEv.wire c d ∈ v'.log → AEv.wire c d ∈ v.log := by
    intro c d he
    rw [h3] at he
    exact (List.mem_append.1 he).elim id fun he => absurd rfl ((h4 _ he).2 c d)
  refine ⟨fun c b d hb => ?_, fun c d he => hm _ (h.sub c d (hs c d he)), fun c b d hf => hm _ (h.fly c b d (h2 c b d hf)), fun c x he => ?_⟩
  · rcases h1 c with e | e
    · exact hm _ (h.buf c b d (e ▸ hb))
    · rw [e] at hb; cases hb
  · obtain ⟨d, h5, h6⟩ := h.wire c x (hw c x he)
    exact ⟨d, hm _ h5, h6⟩

theorem Sb.sendBuffer {v : Asv} (h : Sb v) (c : Nat) : Sb (v.sendBuffer c) := by
  unfold Asv.sendBuffer
  split
  · exact h
  · rename_i b d hw
    split
    · have h1 : Sb (v.emit (.submit c d)) := by
        refine ⟨fun e b x hx => List.mem_append_left _ (h.buf e b x hx), fun e x hx => ?_, fun e b x hx => List.mem_append_left _ (h.fly e b x hx), fun e x hx => ?_⟩
        · rcases List.mem_append.1 hx with hx | hx
          · exact List.mem_append_left _ (h.sub e x hx)
          · rw [List.mem_singleton] at hx
            injection hx with e1 e2; subst e1 e2
            exact List.mem_append_left _ (h.buf _ b _ hw)
        · rcases List.mem_append.1 hx with hx | hx
          · obtain ⟨y, h5, h6⟩ := h.wire e x hx
            exact ⟨y, List.mem_append_left _ h5, h6⟩
          · rw [List.mem_singleton] at hx; cases hx
      dsimp only
      split
      · refine ⟨h1.buf, h1.sub, fun e b' x hx => ?_, h1.wire⟩
        rcases List.mem_append.1 hx with hx | hx
        · exact h1.fly e b' x hx
        · rw [List.mem_singleton] at hx
          injection hx with e1 e2 e3; subst e1 e2 e3
          exact List.mem_append_right _ (by simp)
      · exact ⟨h1.buf, h1.sub, h1.fly, h1.wire⟩
    · exact h

theorem Sb.send {v : Asv} (h : Sb v) (c : Nat) (data : List UInt8) : Sb (v.send c data) := by
  unfold Asv.send
  suffices h1 : Sb ({ v.emit (.asked c data) with nextBuf := v.nextBuf + 1 }.setConn c { v.conns c with wbuf := some (v.nextBuf, data) }) from h1.sendBuffer c
  refine ⟨fun e b x hx => ?_, fun e x hx => ?_, fun e b x hx => List.mem_append_left _ (h.fly e b x hx), fun e x hx => ?_⟩
  · simp only [Asv.setConn] at hx
    split at hx
    · rename_i he
      injection hx with hx; injection hx with e1 e2; subst e2 he
      exact List.mem_append_right _ (by simp)
    · exact List.mem_append_left _ (h.buf e b x hx)
  · rcases List.mem_append.1 hx with hx | hx
    · exact List.mem_append_left _ (h.sub e x hx)
    · rw [List.mem_singleton] at hx; cases hx
  · rcases List.mem_append.1 hx with hx | hx
    · obtain ⟨y, h5, h6⟩ := h.wire e x hx
      exact ⟨y, List.mem_append_left _ h5, h6⟩
    · rw [List.mem_singleton] at hx; cases hx

theorem Sb.sendAll (c : Nat) (ds : List (List UInt8)) : ∀ {v : Asv}, Sb v → Sb (v.sendAll c ds) := by
  induction ds with
  | nil => exact fun h => h
  | cons d ds ih => exact fun h => ih (h.send c d)

theorem Sb.beginRead {v : Asv} (h : Sb v) (c : Nat) : Sb (v.beginRead c) := by
  unfold Asv.beginRead
  split
  · split
    · refine h.mono (fun _ => Or.inl rfl) (fun e b d hm => ?_) ⟨[], by simp, by simp⟩
      rcases List.mem_append.1 hm with hm | hm
      · exact hm
      · rw [List.mem_singleton] at hm; cases hm
    · exact h.mono (fun _ => Or.inl rfl) (fun e b d hm => hm) ⟨[], by simp [Asv.post], by simp⟩
  · exact h

theorem Sb.remove {v : Asv} (h : Sb v) (c : Nat) : Sb (v.removeConnection c) := by
  refine h.mono (fun d => Or.inl (by rw [remove_conns])) (fun e b d hm => ?_) ?_
  · unfold removeConnection at hm
    split at hm <;> exact hm
  · unfold removeConnection
    split
    · exact ⟨[.left c], rfl, by simp⟩
    · exact ⟨[], by simp, by simp⟩

theorem Sb.startConn {v : Asv} (h : Sb v) (c : Nat) : Sb (v.startConn c) := by
  unfold Asv.startConn
  suffices h1 : Sb (v.setConn c { v.conns c with connected := true }) from (h1.sendBuffer c).beginRead c
  refine h.mono (fun d => Or.inl ?_) (fun e b d hm => hm) ⟨[], by simp [Asv.setConn], by simp⟩
  simp only [Asv.setConn]
  split
  · rename_i hd; rw [hd]
  · rfl

theorem Sb.startAccept {v : Asv} (h : Sb v) : Sb v.startAccept := by
  unfold Asv.startAccept
  split
  · exact h
  · exact h.mono (fun _ => Or.inl rfl) (fun e b d hm => hm) ⟨[], by simp [Asv.post], by simp⟩

theorem Sb.fail {v : Asv} (h : Sb v) (c : Nat) : Sb (v.fail c) := by
  unfold Asv.fail
  suffices h1 : Sb ((v.post (.close c)).emit (.error c)) from h1.remove c
  exact h.mono (fun _ => Or.inl rfl) (fun e b d hm => hm) ⟨[.error c], by simp [Asv.post, Asv.emit], by simp⟩

theorem Sb.step {v v' : Asv} (h : Sb v) {op : Op} (hs : v.step op = .ret v') : Sb v' := by
  cases op with
  | start =>
    injection hs with hs; subst hs
    have := h.startAccept
    exact ⟨this.buf, this.sub, this.fly, this.wire⟩
  | shutdown => injection hs with hs; subst hs; exact h.mono (fun _ => Or.inl rfl) (fun e b d hm => hm) ⟨[], by simp [Asv.post], by simp⟩
  | complete i r =>
    have hmv : ∀ (u : Asv), (∀ c, (u.conns c).wbuf = (v.conns c).wbuf) → u.flying = v.flying.eraseIdx i → u.log = v.log → Sb u := by
      intro u h1 h2 h3
      exact h.mono (fun c => Or.inl (h1 c)) (fun e b d hm => List.mem_of_mem_eraseIdx (h2 ▸ hm)) ⟨[], by simp [h3], by simp⟩
    simp only [Asv.step, Asv.complete] at hs
    split at hs
    · injection hs with hs; subst hs; exact h
    · rename_i c hf
      split at hs
      · injection hs with hs; subst hs
        refine hmv _ (fun d => ?_) rfl rfl
        simp only [Asv.post, Asv.setConn]
        split
        · rename_i hd; rw [hd]
        · rfl
      · injection hs with hs; subst hs; exact hmv _ (fun _ => rfl) rfl rfl
      · injection hs with hs; subst hs; exact h
    · split at hs
      · split at hs
        · injection hs with hs; subst hs; exact hmv _ (fun _ => rfl) rfl rfl
        · injection hs with hs; subst hs; exact h
      · injection hs with hs; subst hs; exact hmv _ (fun _ => rfl) rfl rfl
      · injection hs with hs; subst hs; exact h
    · rename_i c b data hf
      split at hs
      · rename_i n
        split at hs
        · split at hs
          · injection hs with hs; subst hs
            have hd := h.fly c b data (List.mem_of_getElem? hf)
            refine ⟨fun e b x hx => List.mem_append_left _ (h.buf e b x hx), fun e x hx => ?_,
              fun e b x hx => List.mem_append_left _ (h.fly e b x (List.mem_of_mem_eraseIdx hx)), fun e x hx => ?_⟩
            · rcases List.mem_append.1 hx with hx | hx
              · exact List.mem_append_left _ (h.sub e x hx)
              · rw [List.mem_singleton] at hx; cases hx
            · rcases List.mem_append.1 hx with hx | hx
              · obtain ⟨y, h5, h6⟩ := h.wire e x hx
                exact ⟨y, List.mem_append_left _ h5, h6⟩
              · rw [List.mem_singleton] at hx
                injection hx with e1 e2; subst e1 e2
                exact ⟨data, List.mem_append_left _ hd, List.take_prefix _ _⟩
          · cases hs
        · injection hs with hs; subst hs; exact h
      · injection hs with hs; subst hs; exact hmv _ (fun _ => rfl) rfl rfl
      · injection hs with hs; subst hs; exact h
  | run k rs =>
    simp only [Asv.step] at hs
    split at hs
    · injection hs with hs; subst hs; exact h
    · rename_i t hk
      have he : Sb { v with queue := v.queue.eraseIdx k } := ⟨h.buf, h.sub, h.fly, h.wire⟩
      cases t with
      | startAccept =>
        injection hs with hs; subst hs
        unfold Asv.runStartAccept
        split
        · exact he
        · refine he.mono (fun _ => Or.inl rfl) (fun e b d hm => ?_) ⟨[], by simp, by simp⟩
          rcases List.mem_append.1 hm with hm | hm
          · exact hm
          · rw [List.mem_singleton] at hm; cases hm
      | shutdown =>
        injection hs with hs; subst hs
        refine he.mono (fun _ => Or.inl rfl) (fun e b d hm => (List.mem_filter.1 hm).1) ⟨v.list.map .left, rfl, ?_⟩
        intro e he
        obtain ⟨x, -, rfl⟩ := List.mem_map.1 he
        simp
      | close c =>
        injection hs with hs; subst hs
        unfold Asv.runClose
        dsimp only
        split
        · refine Sb.remove (he.mono (fun d => Or.inl ?_) (fun e b d hm => (List.mem_filter.1 hm).1) ⟨[.closed c], rfl, by simp⟩) c
          simp only [Asv.emit, Asv.abort, Asv.setConn]
          split
          · rename_i hd; rw [hd]
          · rfl
        · refine he.mono (fun d => Or.inl ?_) (fun e b d hm => hm) ⟨[], by simp [Asv.setConn], by simp⟩
          simp only [Asv.setConn]
          split
          · rename_i hd; rw [hd]
          · rfl
      | accepted c ok =>
        simp only [Asv.runTask, Asv.onAccepted] at hs
        split at hs
        · injection hs with hs; subst hs; exact he
        · split at hs
          · have h1 : Sb { ({ v with queue := v.queue.eraseIdx k } : Asv).emit (.joined c) with num := v.num + 1 } :=
              he.mono (fun _ => Or.inl rfl) (fun e b d hm => hm) ⟨[.joined c], rfl, by simp⟩
            split at hs
            · split at hs
              · cases hs
              · injection hs with hs; subst hs
                exact ((h1.remove _).startConn _).startAccept
            · injection hs with hs; subst hs
              exact (h1.startConn _).startAccept
          · injection hs with hs; subst hs; exact he.remove _
      | read c r =>
        injection hs with hs; subst hs
        cases r with
        | none => exact he.fail c
        | some bytes =>
          exact (Sb.sendAll c rs (he.mono (v' := ({ v with queue := v.queue.eraseIdx k } : Asv).emit (.receive c bytes)) (fun _ => Or.inl rfl) (fun e b d hm => hm)
            ⟨[.receive c bytes], rfl, by simp⟩)).beginRead c
      | written c ok =>
        injection hs with hs; subst hs
        cases ok with
        | false => exact he.fail c
        | true =>
          refine he.mono (fun d => ?_) (fun e b d hm => hm) ⟨[.writeDone c], rfl, by simp⟩
          simp only [Asv.onWritten, if_true, Asv.emit, Asv.setConn]
          split
          · exact Or.inr rfl
          · exact Or.inl rfl

theorem _root_.Modbus.Spec.AsvReach.sb {max : UInt32} {P : Asv → Op → Prop} {v : Asv} (h : AsvReach max P v) : Sb v := by
  induction h with
  | init => exact ⟨by simp [Asv.init], by simp [Asv.init], by simp [Asv.init], by simp [Asv.init]⟩
  | step _ _ hs ih => exact ih.step hs

theorem _root_.Modbus.Spec.AsvReach.subAsked {max : UInt32} {v : Asv} (h : AsvReach max PatientClients v) :
    ∀ c, (asvSubmits c v.log).Sublist (asvAsked c v.log) := by
  induction h with
  | init => intro c; simp [Asv.init, asvSubmits]
  | @step v v' op hv hp hs ih =>
    intro c
    obtain ⟨es, h1, h2⟩ := step_adds hs
    rw [h1, submits_append, asked_append]
    refine (ih c).append ?_
    cases h2 with
    | data k rs d bytes rest h1 h2 h3 h4 => subst h3; simpa [asvSubmits, asvAsked] using h4.submits c
    | error k rs d rest h1 h2 h3 h4 =>
      subst h3
      have e1 : asvSubmits c (.error d :: rest) = asvSubmits c rest := rfl
      rw [e1, quiet_submits h4 c]
      exact List.nil_sublist _
    | other h1 h2 =>
      rw [quiet_submits (fun e he => ?_) c]
      · exact List.nil_sublist _
      · rcases h2 e he with h | ⟨k, rs, c, b, d, -, hk, hw, -⟩
        · exact h
        · exfalso
          have := hv.wr.fresh c (Or.inr ?_)
          · rw [hw] at this; cases this
          · have : 0 < v.queue.countP (tokTask c) := List.countP_pos_iff.2 ⟨_, List.mem_of_getElem? hk, by simp [tokTask]⟩
            simp only [tok]; omega

end Modbus.Asv
