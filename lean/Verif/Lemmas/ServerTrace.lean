import Verif.Lemmas.System
import Verif.Lemmas.ServerStack

/-! Helper lemmas: where the answers a server sends come from, and what the messages it takes have to do with the bytes received. -/

namespace Modbus.Srv

open Spec

variable {W : Type}

/-- What precedes an answer in the log. -/
def Caused (env : ServerEnv W) (w : W) (l0 : List SEv) (c : ConnId) (b : List UInt8) : Prop :=
  ∃ (l00 : List SEv) (m : Mbap) (pdu : List UInt8), Ordinary ⟨m.unit, m.tid, pdu⟩ ∧ b = (frameOf ⟨m.unit, m.tid, pdu⟩).bytes ∧
    (l0 = l00 ++ [.mbap c m] ∨ ∃ s k q, l0 = l00 ++ [.mbap c m, .request s k q]) ∧
    ∀ k q, Denotes k m.data q → ∃ s, l0 = l00 ++ [.mbap c m, .request s k q] ∧ ReplyPdu k (env.onRequest s k q (played env.onRequest w l00)).2 pdu

/-- What the log of a server says about its answers and calls of sessions. -/
structure Traced (env : ServerEnv W) (w : W) (v : Srv W) : Prop where
  world : v.world = played env.onRequest w v.log
  sends : ∀ l0 c b l1, v.log = l0 ++ .send c b :: l1 → Caused env w l0 c b
  calls : ∀ l0 s k q l1, v.log = l0 ++ .request s k q :: l1 → ∃ l00 c m, l0 = l00 ++ [.mbap c m] ∧ Denotes k m.data q

theorem played_append (f : SessId → (k : Kind) → Req k → W → W × Expected (Resp k)) (w : W) (a b : List SEv) :
    played f w (a ++ b) = played f (played f w a) b := by simp [played]

theorem Traced.extend {env : ServerEnv W} {w : W} {v v' : Srv W} (h : Traced env w v) (new : List SEv) (hl : v'.log = v.log ++ new)
    (hw : v'.world = played env.onRequest v.world new) (hs : ∀ n0 c b n1, new = n0 ++ .send c b :: n1 → Caused env w (v.log ++ n0) c b)
    (hc : ∀ n0 s k q n1, new = n0 ++ .request s k q :: n1 → ∃ l00 c m, v.log ++ n0 = l00 ++ [.mbap c m] ∧ Denotes k m.data q) : Traced env w v' where
  world := by rw [hw, hl, played_append, h.world]
  sends := fun l0 c b l1 he => by
    rw [hl] at he
    rcases Tcp.append_cons_cases he with ⟨m, hm⟩ | ⟨n0, h1, rfl⟩
    · exact h.sends _ _ _ _ hm
    · exact hs _ _ _ _ h1
  calls := fun l0 s k q l1 he => by
    rw [hl] at he
    rcases Tcp.append_cons_cases he with ⟨m, hm⟩ | ⟨n0, h1, rfl⟩
    · exact h.calls _ _ _ _ _ hm
    · exact hc _ _ _ _ _ h1

theorem Traced.same {env : ServerEnv W} {w : W} {v v' : Srv W} (h : Traced env w v) (hl : v'.log = v.log) (hw : v'.world = v.world) : Traced env w v' :=
  h.extend [] (by simp [hl]) (by simp [hw, played]) (by simp) (by simp)

theorem Traced.onMbap {env : ServerEnv W} {w : W} {v v' : Srv W} (h : Traced env w v) {c : ConnId} {m : Mbap} (hs : v.onMbap env c m = .ret v') : Traced env w v' := by
  by_cases hd : ∃ k q, Denotes k m.data q
  · obtain ⟨k, q, hd⟩ := hd
    obtain ⟨u, h1, -, h3⟩ := react_request env v c m k q hd
    rw [hs] at h1; injection h1 with h1; subst h1
    rcases h3 with ⟨e1, e2, -⟩ | ⟨s, -, -, e2, ⟨e1, -⟩ | ⟨pdu, e3, e4, e1⟩⟩
    · refine h.extend _ e1 (by simp [e2, played]) (fun n0 c' b n1 hn => ?_) (fun n0 s' k' q' n1 hn => ?_)
      · rcases n0 with _ | ⟨x, _ | ⟨y, n0⟩⟩ <;> simp at hn
      · rcases n0 with _ | ⟨x, _ | ⟨y, n0⟩⟩ <;> simp at hn
    · refine h.extend _ e1 (by simp [e2, played]) (fun n0 c' b n1 hn => ?_) (fun n0 s' k' q' n1 hn => ?_)
      · rcases n0 with _ | ⟨x, _ | ⟨y, n0⟩⟩ <;> simp at hn
      · rcases n0 with _ | ⟨x, _ | ⟨y, n0⟩⟩
        · simp at hn
        · simp at hn
          obtain ⟨rfl, ⟨rfl, hn⟩, -⟩ := hn
          obtain ⟨rfl, hn⟩ := hn
          cases hn
          exact ⟨v.log, c, m, rfl, hd⟩
        · simp at hn
    · refine h.extend _ e1 (by simp [e2, played]) (fun n0 c' b n1 hn => ?_) (fun n0 s' k' q' n1 hn => ?_)
      · rcases n0 with _ | ⟨x, _ | ⟨y, _ | ⟨z, n0⟩⟩⟩
        · simp at hn
        · simp at hn
        · simp at hn
          obtain ⟨rfl, rfl, ⟨rfl, rfl⟩, -⟩ := hn
          refine ⟨v.log, m, pdu, e3, rfl, Or.inr ⟨s, k, q, rfl⟩, fun k' q' hd' => ?_⟩
          cases Props.denotes_unique hd hd'
          exact ⟨s, rfl, h.world ▸ e4⟩
        · simp at hn
      · rcases n0 with _ | ⟨x, _ | ⟨y, _ | ⟨z, n0⟩⟩⟩
        · simp at hn
        · simp at hn
          obtain ⟨rfl, ⟨rfl, hn⟩, -⟩ := hn
          obtain ⟨rfl, hn⟩ := hn
          cases hn
          exact ⟨v.log, c, m, rfl, hd⟩
        · simp at hn
        · simp at hn
  · have hno : ∀ k q, ¬ Denotes k m.data q := fun k q hx => hd ⟨k, q, hx⟩
    obtain ⟨u, h1, h2⟩ := onMbap_reacts env v c m
    rw [hs] at h1; injection h1 with h1; subst h1
    cases h2 with
    | silent =>
      refine h.extend [.mbap c m] rfl rfl (fun n0 c' b n1 hn => ?_) (fun n0 s' k' q' n1 hn => ?_)
      · rcases n0 with _ | ⟨x, _ | ⟨y, n0⟩⟩ <;> simp at hn
      · rcases n0 with _ | ⟨x, _ | ⟨y, n0⟩⟩ <;> simp at hn
    | refuse s fc t hr hl hfc =>
      refine h.extend [.mbap c m, .send c (frameOf ⟨m.unit, m.tid, [fc ||| 0x80, t.toByte]⟩).bytes] ?_ rfl (fun n0 c' b n1 hn => ?_) (fun n0 s' k' q' n1 hn => ?_)
      · rw [Props.exceptionMsg_frame]; simp [emit]
      · rcases n0 with _ | ⟨x, _ | ⟨y, n0⟩⟩
        · simp at hn
        · simp at hn
          obtain ⟨rfl, ⟨rfl, rfl⟩, -⟩ := hn
          exact ⟨v.log, m, _, ⟨by simp, by simp⟩, rfl, Or.inl rfl, fun k q hx => absurd hx (hno k q)⟩
        · simp at hn
      · rcases n0 with _ | ⟨x, _ | ⟨y, n0⟩⟩ <;> simp at hn
    | call s k r hp => exact absurd ((Props.C02_accepts_iff_denotes k m.data r).1 hp) (hno k r)
    | answer s k r hp => exact absurd ((Props.C02_accepts_iff_denotes k m.data r).1 hp) (hno k r)

theorem Traced.onMbaps {env : ServerEnv W} {w : W} {c : ConnId} (ms : List Mbap) : ∀ {v v' : Srv W}, Traced env w v → v.onMbaps env c ms = .ret v' → Traced env w v' := by
  induction ms with
  | nil => intro v v' h hs; injection hs with hs; subst hs; exact h
  | cons m ms ih =>
    intro v v' h hs
    simp only [Srv.onMbaps] at hs
    cases h1 : v.onMbap env c m with
    | ub => rw [h1] at hs; cases hs
    | ret u => rw [h1] at hs; exact ih (h.onMbap h1) hs

theorem Traced.step {env : ServerEnv W} {w : W} {v v' : Srv W} (h : Traced env w v) {op : Op} (hs : v.step env op = .ret v') : Traced env w v' := by
  by_cases hop : ∃ c d, op = .receive c d
  · obtain ⟨c, d, rfl⟩ := hop
    simp only [Srv.step] at hs
    cases hl : v.listeners.lookup c with
    | none => rw [hl] at hs; injection hs with hs; subst hs; exact h
    | some p =>
      rw [hl] at hs
      simp only at hs
      cases hp : p.parse d with
      | ub => rw [hp] at hs; cases hs
      | ret x =>
        rw [hp] at hs
        simp only [CM.ret_bind] at hs
        exact Traced.onMbaps _ (h.same (v' := { v with listeners := setListener v.listeners c x.1 }) rfl rfl) hs
  · rcases step_cases hs with ⟨t, ts, rfl, -, rfl⟩ | ⟨c, d, p, p', ms, rfl, -⟩ | ⟨h1, h2, -⟩
    · cases t with
      | start =>
        simp only [runTask]
        split
        · exact h.same rfl rfl
        · refine h.extend [.serverStart] rfl rfl (fun n0 c' b n1 hn => ?_) (fun n0 s' k' q' n1 hn => ?_)
          · rcases n0 with _ | ⟨x, _ | ⟨y, n0⟩⟩ <;> simp at hn
          · rcases n0 with _ | ⟨x, _ | ⟨y, n0⟩⟩ <;> simp at hn
      | shutdown =>
        have hmem : ∀ e ∈ (if v.isStarted then [SEv.serverShutdown] else []) ++ v.sessions.map (fun x => SEv.sessionShutdown x.2), (∀ c b, e ≠ .send c b) ∧ ∀ s k q, e ≠ .request s k q := by
          intro e he
          rcases List.mem_append.1 he with he | he
          · split at he
            · rw [List.mem_singleton] at he; subst he; simp
            · cases he
          · obtain ⟨x, -, rfl⟩ := List.mem_map.1 he; simp
        have hpl : ∀ (l : List SEv) (w' : W), (∀ e ∈ l, ∀ s k q, e ≠ .request s k q) → played env.onRequest w' l = w' := by
          intro l
          induction l with
          | nil => intro w' _; rfl
          | cons e l ih =>
            intro w' hl
            have := hl e (by simp)
            simp only [played, List.foldl_cons]
            cases e with
            | request s k q => exact absurd rfl (this s k q)
            | _ => exact ih w' fun e he => hl e (by simp [he])
        refine h.extend ((if v.isStarted then [.serverShutdown] else []) ++ v.sessions.map fun x => .sessionShutdown x.2) ?_ ?_ (fun n0 c' b n1 hn => ?_) (fun n0 s' k' q' n1 hn => ?_)
        · simp only [runTask]; split <;> simp [emit]
        · rw [hpl _ _ (fun e he => (hmem e he).2)]
          simp only [runTask]; split <;> rfl
        · exact absurd rfl ((hmem (.send c' b) (by rw [hn]; simp)).1 c' b)
        · exact absurd rfl ((hmem (.request s' k' q') (by rw [hn]; simp)).2 s' k' q')
      | addSession u s =>
        simp only [runTask]
        split
        · exact h.same rfl rfl
        · split <;> exact h.same rfl rfl
    · exact absurd ⟨c, d, rfl⟩ hop
    · exact h.same h1 h2

theorem Traced.run {env : ServerEnv W} {w : W} (ops : List Op) : ∀ {v v' : Srv W}, Traced env w v → v.run env ops = .ret v' → Traced env w v' := by
  induction ops with
  | nil => intro v v' h hs; injection hs with hs; subst hs; exact h
  | cons op ops ih =>
    intro v v' h hs
    simp only [Srv.run] at hs
    cases h1 : v.step env op with
    | ub => rw [h1] at hs; cases hs
    | ret u => rw [h1] at hs; exact ih (h.step h1) hs

theorem traced_init (env : ServerEnv W) (w : W) : Traced env w (Srv.init w) := ⟨rfl, by simp [Srv.init], by simp [Srv.init]⟩

end Modbus.Srv

namespace Modbus.Svk

open Spec
open Props (msgsOf sendsOf msgsOf_append msgsOf_reacts)

variable {W : Type}

theorem Ok.traced {env : ServerEnv W} {w : W} {max : UInt32} {v : Svk W} (h : Ok env w max v) : Srv.Traced env w v.srv := by
  obtain ⟨ops, hops⟩ := h.srv
  exact Srv.Traced.run ops (Srv.traced_init env w) hops

/-- Each step either receives nothing and takes no message, or is the handling of data received on one connection. -/
theorem step_kinds {env : ServerEnv W} {w : W} {max : UInt32} {v v' : Svk W} (h : Ok env w max v) {op : Op} (hs : v.step env op = .ret v') :
    ∃ es, v'.asv.log = v.asv.log ++ es ∧ (((∀ c, asvReceived c es = []) ∧ ∀ c, msgsOf c v'.srv.log = msgsOf c v.srv.log) ∨
      ∃ c b rest, es = .receive c b :: rest ∧ (∀ c', AEv.error c' ∉ es) ∧ ∀ c', c ≠ c' → asvReceived c' es = [] ∧ msgsOf c' v'.srv.log = msgsOf c' v.srv.log) := by
  have hnet : ∀ (aop : Asv.Op) (u : Svk W), v.net aop = .ret u → (∀ k, aop = .run k [] → ∀ c b, v.asv.queue[k]? ≠ some (.read c (some b))) → (∀ k rs, aop = .run k rs → rs = []) →
      u.srv = v.srv ∧ ∃ es, u.asv.log = v.asv.log ++ es ∧ ∀ c, asvReceived c es = [] := by
    intro aop u hu hk hrs
    obtain ⟨a, es, h1, h2, h3, rfl⟩ := net_spec hu
    refine ⟨rfl, es, h2, fun c => ?_⟩
    cases h3 with
    | data k rs c b rest hop hk' => obtain rfl := hrs k rs hop; exact absurd hk' (hk k hop c b)
    | error k rs c' rest hop hk' he hr =>
      rw [he]
      have := Asv.plain_received (Asv.quiet_plain hr) c
      simpa [asvReceived] using this
    | other h4 h5 => exact Asv.plain_received (Asv.Adds.plain h5) c
  cases op with
  | chan op =>
    simp only [Svk.step] at hs
    split at hs
    · rename_i ho
      simp only [chan] at hs
      cases hst : v.srv.step env op with
      | ub => rw [hst] at hs; cases hs
      | ret s =>
        rw [hst] at hs
        obtain ⟨h1, new, h2, h3⟩ := own_step ho hst
        simp only [CM.ret_bind, h2, List.drop_left] at hs
        obtain ⟨u, b1, b2, b3, b4, b5, b6, b7, -⟩ := relay_spec new ({ v with srv := s } : Svk W)
        rw [b1] at hs; injection hs with hs; subst hs
        refine ⟨[], by simp [b5.log], Or.inl ⟨fun _ => rfl, fun c => ?_⟩⟩
        rw [b2]
        show msgsOf c s.log = _
        rw [h2, msgsOf_append, (noTraffic_msgs h3 c).1, List.append_nil]
    · injection hs with hs; subst hs; exact ⟨[], by simp, Or.inl ⟨fun _ => rfl, fun _ => rfl⟩⟩
  | complete i r =>
    obtain ⟨h1, es, h2, h3⟩ := hnet _ _ hs (fun k hk => by cases hk) (fun k rs hk => by cases hk)
    exact ⟨es, h2, Or.inl ⟨h3, fun c => by rw [h1]⟩⟩
  | run k mem =>
    have hlis : ∀ o : Srv.Op, ((∃ c mem, o = .opened c mem) ∨ ∃ c, o = .error c) → (∀ c b, v.asv.queue[k]? ≠ some (.read c (some b))) →
        (do let w ← v.net (.run k []); w.chan env o) = .ret v' → ∃ es, v'.asv.log = v.asv.log ++ es ∧ (((∀ c, asvReceived c es = []) ∧ ∀ c, msgsOf c v'.srv.log = msgsOf c v.srv.log) ∨
      ∃ c b rest, es = .receive c b :: rest ∧ (∀ c', AEv.error c' ∉ es) ∧ ∀ c', c ≠ c' → asvReceived c' es = [] ∧ msgsOf c' v'.srv.log = msgsOf c' v.srv.log) := by
      intro o ho hk hx
      cases hn : v.net (.run k []) with
      | ub => rw [hn] at hx; cases hx
      | ret u =>
        rw [hn] at hx
        simp only [CM.ret_bind] at hx
        obtain ⟨h1, es, h2, h3⟩ := hnet _ _ hn (fun k' hk' => by injection hk' with e1; subst e1; exact hk) (fun k rs hk => by injection hk with _ e; exact e.symm)
        obtain ⟨s, h4, h5, rfl⟩ := listener_spec ho hx
        refine ⟨es, h2, Or.inl ⟨h3, fun c => ?_⟩⟩
        show msgsOf c s.log = _
        rw [h5, h1]
    have hplain : (∀ c b, v.asv.queue[k]? ≠ some (.read c (some b))) → ∀ u, v.net (.run k []) = .ret u → ∃ es, u.asv.log = v.asv.log ++ es ∧ (((∀ c, asvReceived c es = []) ∧ ∀ c, msgsOf c u.srv.log = msgsOf c v.srv.log) ∨
      ∃ c b rest, es = .receive c b :: rest ∧ (∀ c', AEv.error c' ∉ es) ∧ ∀ c', c ≠ c' → asvReceived c' es = [] ∧ msgsOf c' u.srv.log = msgsOf c' v.srv.log) := by
      intro hk u hu
      obtain ⟨h1, es, h2, h3⟩ := hnet _ _ hu (fun k' hk' => by injection hk' with e1; subst e1; exact hk) (fun k rs hk => by injection hk with _ e; exact e.symm)
      exact ⟨es, h2, Or.inl ⟨h3, fun c => by rw [h1]⟩⟩
    simp only [Svk.step] at hs
    split at hs
    · rename_i c hk
      by_cases hd : v.asv.isShutdown = true
      · cases hn : v.net (.run k []) with
        | ub => rw [hn] at hs; cases hs
        | ret u =>
          rw [hn] at hs
          simp only [CM.ret_bind, CM.pure_eq, hd, if_true] at hs
          injection hs with hs; subst hs
          exact hplain (fun c' b => by rw [hk]; simp) _ hn
      · simp only [hd, if_false] at hs
        exact hlis _ (Or.inl ⟨c, mem, rfl⟩) (fun c' b => by rw [hk]; simp) hs
    · rename_i c bytes hk
      simp only [receive] at hs
      cases hst : v.srv.step env (.receive c bytes) with
      | ub => rw [hst] at hs; cases hs
      | ret s =>
        rw [hst] at hs
        simp only [CM.ret_bind] at hs
        cases ha : v.asv.step (.run k (answers c (s.log.drop v.srv.log.length))) with
        | ub => rw [ha] at hs; cases hs
        | ret a =>
          rw [ha] at hs
          simp only [CM.ret_bind, CM.pure_eq] at hs
          injection hs with hs; subst hs
          obtain ⟨es, h2, h3⟩ := Asv.step_adds ha
          obtain ⟨rest, rfl, hsl⟩ : ∃ rest, es = .receive c bytes :: rest ∧ Asv.SendLog c (answers c (s.log.drop v.srv.log.length)) rest := by
            cases h3 with
            | data k' rs c' b rest hop hk' he hr =>
              injection hop with e1 e2; subst e1 e2
              rw [hk] at hk'; injection hk' with hk'; injection hk' with e3 e4
              injection e4 with e4; subst e3 e4
              exact ⟨rest, he, hr⟩
            | error k' rs c' rest hop hk' => injection hop with e1 e2; subst e1; rw [hk] at hk'; simp at hk'
            | other h6 h7 => exact absurd hk ((h6 k _ c rfl).2.2 bytes)
          refine ⟨_, h2, Or.inr ⟨c, bytes, rest, rfl, fun c' he => ?_, fun c' hcc => ⟨?_, ?_⟩⟩⟩
          · rcases List.mem_cons.1 he with he | he
            · cases he
            · obtain ⟨d, -, hd | hd⟩ := hsl.mem _ he <;> cases hd
          · have := hsl.received c'
            simp only [asvReceived, List.filterMap_cons] at this ⊢
            rw [this]; simp [hcc]
          · obtain ⟨rfl, -⟩ | ⟨p0, p', ms, new, hp', hparse, hre, hls, hlog⟩ := receive_step hst
            · rfl
            · rw [msgsOf_reacts hre c', if_neg hcc, List.append_nil]
    · rename_i c hk; exact hlis _ (Or.inr ⟨c, rfl⟩) (fun c' b => by rw [hk]; simp) hs
    · rename_i c hk; exact hlis _ (Or.inr ⟨c, rfl⟩) (fun c' b => by rw [hk]; simp) hs
    · rename_i g1 g2 g3 g4
      exact hplain (fun c b => g2 c b) _ hs

theorem _root_.Modbus.Spec.QuietAfterError.pre {c : Nat} {l es : List AEv} (h : QuietAfterError c (l ++ es)) : QuietAfterError c l := by
  intro a b hab
  have := h a (b ++ es) (by simp [hab])
  rw [Asv.received_append] at this
  exact (List.append_eq_nil_iff.1 this).1

/-- If nothing is received after an error, the messages taken from a connection are those its parser finds in the bytes received. -/
theorem _root_.Modbus.Spec.VReach.framed {env : ServerEnv W} {w : W} {max : UInt32} {v : Svk W} (h : VReach env w max v) (c : Nat)
    (hc : QuietAfterError c v.asv.log) : (asvReceived c v.asv.log = [] ∧ msgsOf c v.srv.log = []) ∨
      ∃ mem p, mem.length = 260 ∧ (Parser.init env.pol mem).feed (asvReceived c v.asv.log) = .ret (p, msgsOf c v.srv.log) := by
  induction h with
  | init => exact Or.inl ⟨rfl, rfl⟩
  | @step v v' op h hs ih =>
    obtain ⟨es, h1, h2⟩ := step_kinds h.ok hs
    rw [h1] at hc
    have ih := ih hc.pre
    have hsame : asvReceived c es = [] → msgsOf c v'.srv.log = msgsOf c v.srv.log → (asvReceived c v'.asv.log = [] ∧ msgsOf c v'.srv.log = []) ∨
      ∃ mem p, mem.length = 260 ∧ (Parser.init env.pol mem).feed (asvReceived c v'.asv.log) = .ret (p, msgsOf c v'.srv.log) := by
      intro e1 e2
      rw [h1, Asv.received_append, e1, List.append_nil, e2]; exact ih
    rcases h2 with ⟨e1, e2⟩ | ⟨c0, b0, rest, e0, e1, e2⟩
    · exact hsame (e1 c) (e2 c)
    · by_cases hcc : c0 = c
      · subst hcc
        have hr : asvReceived c0 es ≠ [] := by rw [e0]; simp [asvReceived]
        · have hne : AEv.error c0 ∉ v'.asv.log := by
            rw [h1]
            intro he
            rcases List.mem_append.1 he with he | he
            · obtain ⟨a, b, hab⟩ := List.append_of_mem he
              have := hc a (b ++ es) (by simp [hab])
              rw [Asv.received_append] at this
              exact hr (List.append_eq_nil_iff.1 this).2
            · exact e1 _ he
          have := (h.step hs).ok.frm c0 hne
          cases hl : v'.srv.listeners.lookup c0 with
          | none => exact Or.inl (this.1 hl)
          | some p => obtain ⟨mem, hm, hf⟩ := this.2 p hl; exact Or.inr ⟨mem, p, hm, hf⟩
      · exact hsame (e2 c hcc).1 (e2 c hcc).2

end Modbus.Svk
