import Verif.Model.ServerThrowing
import Verif.Lemmas.Mbap
import Verif.Lemmas.WorldParts
import Verif.Props.ServerLife

/-! Lemmas on the server channel with sessions that may throw. -/

namespace Modbus

variable {W : Type}

/-- The user's program with sessions that, instead of throwing, change the state in the same way and fail with an exception that is no Modbus exception. -/
def SThrows.caught (th : SThrows W) (env : ServerEnv W) : ServerEnv W :=
  { env with onRequest := fun s k r w => ((env.onRequest s k r w).1, if th.request s k r w then .error (.other 0) else (env.onRequest s k r w).2) }

namespace Parser

theorem sendData_one {p p' : Parser} {o : List Mbap} (h : p.sendData = .ret (p', o)) : o.length ≤ 1 := by
  unfold sendData at h
  obtain ⟨x, -, h⟩ := CM.bind_eq_ret.1 h
  obtain ⟨y, -, h⟩ := CM.bind_eq_ret.1 h
  obtain ⟨z, -, h⟩ := CM.bind_eq_ret.1 h
  obtain ⟨u, -, h⟩ := CM.bind_eq_ret.1 h
  simp only [CM.pure_eq] at h
  split at h <;> (injection h with h; injection h with _ h; subst h; simp)

theorem prefix_of_drop {α : Type} {d l : List α} {n : Nat} (h : d <+: l.drop n) : l.take n ++ d <+: l := by
  obtain ⟨t, ht⟩ := h
  exact ⟨t, by rw [List.append_assoc, ht, List.take_append_drop]⟩

/-- Data can be cut after any message they contain. -/
theorem parse_cut (p : Parser) (data : List UInt8) : ∀ p' ms, p.parse data = .ret (p', ms) → ∀ n, 1 ≤ n → n ≤ ms.length →
    ∃ d p2, d <+: data ∧ p.parse d = .ret (p2, ms.take n) := by
  fun_induction Parser.parse p data with
  | case1 p =>
    intro p' ms h n h1 h2
    injection h with h; injection h with _ h; subst h; simp at h2; omega
  | case2 => intro p' ms h; cases h
  | case3 p data hd read data' p1 hn hb p2 hf ih =>
    intro p' ms h n h1 h2
    have hlen : p.num ≤ data.length := by
      have : p.num - (data.take p.num).length = 0 := hn
      rw [List.length_take] at this; omega
    have hr : read.length = p.num := by show (data.take p.num).length = _; rw [List.length_take]; omega
    obtain ⟨d, p3, k1, k2⟩ := ih p' ms h n h1 h2
    have hdn : d ≠ [] := by
      rintro rfl
      rw [parse_nil] at k2
      injection k2 with k2; injection k2 with _ k2
      have := congrArg List.length k2
      rw [List.length_take] at this
      simp at this; omega
    have k1' : d <+: data.drop p.num := by have := k1; rwa [show data' = data.drop p.num from by rw [← hr]] at this
    have hlt : (data.take p.num).length = p.num := hr
    refine ⟨data.take p.num ++ d, p3, prefix_of_drop k1', ?_⟩
    rw [parse_head p p2 (data.take p.num ++ d) (by simp [hdn]) (by rw [List.length_append, hlt]; omega) hb ?_]
    · rw [List.drop_left' hlt]; exact k2
    · rw [List.take_left' hlt, ← hf]
      show _ = findBodySize { p with num := p.num - read.length, view := p.view.copyFrom p.pol read }
      rw [hr, Nat.sub_self]
  | case4 => intro p' ms h; cases h
  | case5 p data hd read data' p1 hn hb p2 out hs ih =>
    intro p' ms h n h1 h2
    have hlen : p.num ≤ data.length := by
      have : p.num - (data.take p.num).length = 0 := hn
      rw [List.length_take] at this; omega
    have hr : read.length = p.num := by show (data.take p.num).length = _; rw [List.length_take]; omega
    have hb' : p.readingBody = true := by simpa using hb
    have hs' : sendData { p with num := 0, view := p.view.copyFrom p.pol (data.take p.num) } = .ret (p2, out) := by
      rw [← hs]
      show _ = sendData { p with num := p.num - read.length, view := p.view.copyFrom p.pol read }
      rw [hr, Nat.sub_self]
    obtain ⟨⟨p3, out'⟩, h3, h4⟩ := CM.bind_eq_ret.1 h
    simp only [CM.pure_eq] at h4
    injection h4 with h4; injection h4 with _ h4
    subst h4
    have hlt : (data.take p.num).length = p.num := hr
    by_cases hno : n ≤ out.length
    · have := sendData_one hs
      have hl : 0 < data.length := List.length_pos_iff.2 hd
      have hn1 : n = out.length := by omega
      have key : ∀ d, p.num ≤ d.length → d ≠ [] → d.take p.num = data.take p.num → (d.drop p.num).length < 7 → ∃ p4, p.parse d = .ret (p4, out) := by
        intro d g1 g2 g3 g4
        rw [parse_body p p2 out d g2 g1 hb' (by rw [g3]; exact hs')]
        by_cases hz : d.drop p.num = []
        · rw [hz, parse_nil]; exact ⟨p2, by simp⟩
        · rw [parse_short p2 _ hz (by rw [sendData_progress hs]; exact g4)]
          simp only [CM.ret_bind, List.append_nil]
          exact ⟨_, rfl⟩
      obtain ⟨p4, hp4⟩ := key (data.take (max p.num 1)) (by rw [List.length_take]; omega) (by rw [← List.length_pos_iff, List.length_take]; omega)
        (by rw [List.take_take]; congr 1; omega) (by rw [List.length_drop, List.length_take]; omega)
      refine ⟨data.take (max p.num 1), p4, List.take_prefix _ _, ?_⟩
      rw [hp4, hn1, List.take_left]
    · obtain ⟨d, p4, k1, k2⟩ := ih p3 out' h3 (n - out.length) (by omega) (by rw [List.length_append] at h2; omega)
      have hdn : d ≠ [] := by
        rintro rfl
        rw [parse_nil] at k2
        injection k2 with k2; injection k2 with _ k2
        have := congrArg List.length k2
        rw [List.length_take] at this
        rw [List.length_append] at h2
        simp at this; omega
      have k1' : d <+: data.drop p.num := by have := k1; rwa [show data' = data.drop p.num from by rw [← hr]] at this
      refine ⟨data.take p.num ++ d, p4, prefix_of_drop k1', ?_⟩
      rw [parse_body p p2 out (data.take p.num ++ d) (by simp [hdn]) (by rw [List.length_append, hlt]; omega) hb' (by rw [List.take_left' hlt]; exact hs'),
        List.drop_left' hlt, k2]
      simp only [CM.ret_bind]
      rw [List.take_append, List.take_of_length_le (by omega : out.length ≤ n)]
  | case6 p data hd read data' p1 hn ih =>
    intro p' ms h n h1 h2
    have : data' = [] := by
      have h0 : p.num - (data.take p.num).length ≠ 0 := hn
      rw [List.length_take] at h0
      show data.drop (data.take p.num).length = []
      rw [List.length_take]
      exact List.drop_of_length_le (by omega)
    rw [this, parse_nil] at h
    injection h with h; injection h with _ h; subst h; simp at h2; omega

end Parser

namespace Srv

theorem processMessageT_caught {env : ServerEnv W} {th : SThrows W} {v v' : Srv W} {k : Kind} {s : SessId} {m : Mbap} {fc : UInt8} {c : ConnId} {b : Bool}
    (h : v.processMessageT env th k s m fc c = .ret (v', b)) : v.processMessage (th.caught env) k s m fc c = .ret v' := by
  unfold processMessageT at h
  unfold processMessage
  obtain ⟨x, hx, h⟩ := CM.bind_eq_ret.1 h
  rw [hx, CM.ret_bind]
  cases x with
  | error e => cases e <;> (simp only [CM.pure_eq] at h ⊢; injection h with h; injection h with h _; rw [← h]; try rfl)
  | ok r =>
    simp only [CM.pure_eq, SThrows.caught] at h ⊢
    rcases hq : env.onRequest s k r v.world with ⟨w', res⟩
    simp only [hq] at h ⊢
    cases hth : th.request s k r v.world with
    | true =>
      simp only [hth, if_true] at h ⊢
      injection h with h; injection h with h _; rw [← h]
    | false =>
      simp only [hth, Bool.false_eq_true, if_false] at h ⊢
      cases res with
      | error e => cases e <;> (simp only at h ⊢; injection h with h; injection h with h _; rw [← h]; try rfl)
      | ok y => simp only at h ⊢; injection h with h; injection h with h _; rw [← h]; rfl

theorem onMbapT_caught {env : ServerEnv W} {th : SThrows W} {v v' : Srv W} {m : Mbap} {c : ConnId} {b : Bool} (h : v.onMbapT env th c m = .ret (v', b)) :
    v.onMbap (th.caught env) c m = .ret v' := by
  unfold onMbapT at h
  unfold onMbap
  simp only at h ⊢
  split at h
  · rename_i hs; injection h with h; injection h with h _; rw [if_pos hs, h]
  · rename_i hs
    rw [if_neg hs]
    split at h
    · rename_i hl; injection h with h; injection h with h _; rw [hl]; exact congrArg CM.ret h
    · rename_i s hl
      rw [hl]
      simp only
      split at h
      · rename_i hd; injection h with h; injection h with h _; rw [if_pos hd, h]
      · rename_i hd
        rw [if_neg hd]
        obtain ⟨x, hx, h⟩ := CM.bind_eq_ret.1 h
        rw [hx, CM.ret_bind]
        split at h
        · rename_i k hk; rw [hk]; exact processMessageT_caught h
        · rename_i hk; rw [hk]; simp only [CM.pure_eq] at h ⊢; injection h with h; injection h with h _; rw [← h]; rfl

theorem onMbapsT_caught {env : ServerEnv W} {th : SThrows W} {c : ConnId} (ms : List Mbap) : ∀ {v v' : Srv W} {b : Bool}, v.onMbapsT env th c ms = .ret (v', b) →
    ∃ n ≤ ms.length, (b = false → n = ms.length) ∧ (b = true → 1 ≤ n) ∧ v.onMbaps (th.caught env) c (ms.take n) = .ret v' := by
  induction ms with
  | nil =>
    intro v v' b h
    injection h with h; injection h with h1 h2
    exact ⟨0, Nat.le_refl _, fun _ => rfl, (by intro h; rw [← h2] at h; cases h), by rw [h1]; rfl⟩
  | cons m ms ih =>
    intro v v' b h
    obtain ⟨⟨v1, b1⟩, h1, h⟩ := CM.bind_eq_ret.1 h
    simp only at h
    cases b1 with
    | true =>
      simp only [if_true, CM.pure_eq] at h
      injection h with h; injection h with h2 h3
      refine ⟨1, by simp, (by intro hb; rw [← h3] at hb; cases hb), fun _ => Nat.le_refl _, ?_⟩
      simp only [List.take_succ_cons, List.take_zero, onMbaps, onMbapT_caught h1, CM.ret_bind, h2]
    | false =>
      simp only [Bool.false_eq_true, if_false] at h
      obtain ⟨n, k1, k2, k3, k4⟩ := ih h
      refine ⟨n + 1, by simpa using k1, (by intro hb; simp [k2 hb]), (by intro _; omega), ?_⟩
      simp only [List.take_succ_cons, onMbaps, onMbapT_caught h1, CM.ret_bind, k4]

theorem onMbapsT_total (env : ServerEnv W) (th : SThrows W) (c : ConnId) (ms : List Mbap) : ∀ v : Srv W, ∃ x, v.onMbapsT env th c ms = .ret x := by
  induction ms with
  | nil => intro v; exact ⟨_, rfl⟩
  | cons m ms ih =>
    intro v
    have hone : ∃ x, v.onMbapT env th c m = .ret x := by
      obtain ⟨v', h, -⟩ := onMbap_reacts (th.caught env) v c m
      unfold onMbap at h
      unfold onMbapT
      simp only at h ⊢
      split
      · exact ⟨_, rfl⟩
      · rename_i hs
        rw [if_neg hs] at h
        split
        · exact ⟨_, rfl⟩
        · rename_i s hl
          rw [hl] at h
          simp only at h
          split
          · exact ⟨_, rfl⟩
          · rename_i hd
            rw [if_neg hd] at h
            obtain ⟨x, hx, h⟩ := CM.bind_eq_ret.1 h
            rw [hx, CM.ret_bind]
            split
            · rename_i k hk
              rw [hk] at h
              simp only at h
              unfold processMessage at h
              unfold processMessageT
              obtain ⟨y, hy, h⟩ := CM.bind_eq_ret.1 h
              rw [hy, CM.ret_bind]
              cases y with
              | error e => cases e <;> exact ⟨_, rfl⟩
              | ok r =>
                simp only
                split
                · exact ⟨_, rfl⟩
                · split <;> exact ⟨_, rfl⟩
            · exact ⟨_, rfl⟩
    obtain ⟨⟨v1, b⟩, h1⟩ := hone
    simp only [onMbapsT, h1, CM.ret_bind]
    split
    · exact ⟨_, rfl⟩
    · exact ih v1

/-- What happens after the shutdown is only that messages arrive. -/
theorem onMbaps_down (env : ServerEnv W) (c : ConnId) (ms : List Mbap) : ∀ {v : Srv W}, v.isShutdown = true →
    v.onMbaps env c ms = .ret { v with log := v.log ++ ms.map (SEv.mbap c) } := by
  induction ms with
  | nil => intro v _; simp [onMbaps]
  | cons m ms ih =>
    intro v h
    have h1 : v.onMbap env c m = .ret (v.emit (.mbap c m)) := by simp [onMbap, emit, h]
    simp only [onMbaps, h1, CM.ret_bind]
    rw [ih (by simpa [emit] using h)]
    simp [emit]

theorem keys_setListener (ls : List (ConnId × Parser)) (c : ConnId) (p : Parser) : (setListener ls c p).map (·.1) = ls.map (·.1) := by
  induction ls with
  | nil => rfl
  | cons x ls ih =>
    obtain ⟨a, b⟩ := x
    simp only [setListener]
    split
    · rename_i h; simp [h]
    · simp [ih]

theorem lookup_isSome_keys (ls : List (ConnId × Parser)) (c : ConnId) : (ls.lookup c).isSome = true ↔ c ∈ ls.map (·.1) := by
  induction ls with
  | nil => simp
  | cons x ls ih =>
    obtain ⟨a, b⟩ := x
    by_cases h : c = a
    · subst h; simp
    · rw [List.lookup_cons, show (c == a) = false by simpa using h]
      simp only [ih, List.map_cons, List.mem_cons, h, false_or]

/-- The effects other than telling sessions to shut down. -/
def unshut (l : List SEv) : List SEv := l.filter fun e => match e with | .sessionShutdown _ => false | _ => true

theorem unshut_append (a b : List SEv) : unshut (a ++ b) = unshut a ++ unshut b := List.filter_append ..

theorem unshut_told (l : List (UInt8 × SessId)) : unshut (l.map fun x => SEv.sessionShutdown x.2) = [] := by
  rw [unshut, List.filter_eq_nil_iff]
  intro e he
  obtain ⟨x, -, rfl⟩ := List.mem_map.1 he
  simp

theorem unshut_mbaps (c : ConnId) (ms : List Mbap) : unshut (ms.map (SEv.mbap c)) = ms.map (SEv.mbap c) := by
  rw [unshut, List.filter_eq_self]
  intro e he
  obtain ⟨x, -, rfl⟩ := List.mem_map.1 he
  rfl

/-- The sessions that are told to shut down: all up to the first one that throws. -/
theorem tellSessions_spec (th : SThrows W) (l : List (UInt8 × SessId)) : ∀ (v : Srv W), ∃ n ≤ l.length,
    (v.tellSessions th l).1 = { v with log := v.log ++ (l.take n).map fun x => SEv.sessionShutdown x.2 } ∧
    ((v.tellSessions th l).2 = false → n = l.length) ∧
    ((v.tellSessions th l).2 = true → ∃ x ∈ (l.take n).getLast?, th.shutdown x.2 v.world = true) ∧
    (∀ x ∈ l.take (n - 1), th.shutdown x.2 v.world = false) := by
  induction l with
  | nil => intro v; exact ⟨0, Nat.le_refl _, by simp [tellSessions], fun _ => rfl, by simp [tellSessions], by simp⟩
  | cons x l ih =>
    intro v
    simp only [tellSessions]
    split
    · rename_i h
      exact ⟨1, by simp, by simp [emit], by simp, fun _ => ⟨x, by simp, by simpa [emit] using h⟩, by simp⟩
    · rename_i h
      obtain ⟨n, h1, h2, h3, h4, h5⟩ := ih (v.emit (.sessionShutdown x.2))
      refine ⟨n + 1, by simpa using h1, by rw [h2]; simp [emit], (by intro hb; simp [h3 hb]), fun hb => ?_, ?_⟩
      · obtain ⟨y, hy, hy2⟩ := h4 hb
        refine ⟨y, ?_, by simpa [emit] using hy2⟩
        rw [List.take_succ_cons, List.getLast?_cons]
        simp only [Option.mem_def] at hy ⊢
        rw [hy]; rfl
      · intro y hy
        cases n with
        | zero => simp at hy
        | succ n =>
          simp only [Nat.add_sub_cancel, List.take_succ_cons, List.mem_cons] at hy
          rcases hy with rfl | hy
          · simpa [emit] using h
          · simpa [emit] using h5 y (by simpa using hy)

end Srv

/-- `op'` is `op`, or receives a beginning of the data only. -/
inductive CutOp : Srv.Op → Srv.Op → Prop where
  | same (op : Srv.Op) : CutOp op op
  | cut (c : ConnId) (data d : List UInt8) (h : d <+: data) : CutOp (.receive c data) (.receive c d)

/-- The channel with throwing sessions, and the channel with sessions that fail instead and connections whose data end where the exception came. -/
structure SimS (th : SThrows W) (u : Srv W) (v : SrvT W) : Prop where
  sd : u.isShutdown = v.srv.isShutdown
  st : u.isStarted = v.srv.isStarted
  ts : u.tasks = v.srv.tasks
  wd : u.world = v.srv.world
  ns : u.nsend = v.srv.nsend
  keys : u.listeners.map (·.1) = v.srv.listeners.map (·.1)
  ls : ∀ c ∉ v.deaf, u.listeners.lookup c = v.srv.listeners.lookup c
  same : v.srv.isShutdown = false ∨ (∀ s w, th.shutdown s w = false) → u.sessions = v.srv.sessions ∧ u.log = v.srv.log
  log : Srv.unshut u.log = Srv.unshut v.srv.log

namespace SimS

open Srv

theorem init (th : SThrows W) (w : W) : SimS th (Srv.init w) (SrvT.init w) :=
  ⟨rfl, rfl, rfl, rfl, rfl, rfl, fun _ _ => rfl, fun _ => ⟨rfl, rfl⟩, rfl⟩

theorem isSome {th : SThrows W} {u : Srv W} {v : SrvT W} (h : SimS th u v) (c : ConnId) : (u.listeners.lookup c).isSome = (v.srv.listeners.lookup c).isSome := by
  rw [Bool.eq_iff_iff, lookup_isSome_keys, lookup_isSome_keys, h.keys]

/-- A task. -/
theorem task {th : SThrows W} {u : Srv W} {v : SrvT W} (h : SimS th u v) (t : STask) : SimS th (u.runTask t) { v with srv := v.srv.runTaskT th t } := by
  obtain ⟨⟨sd, st, ss, ts, ls, w, ns, lg⟩, df⟩ := v
  obtain ⟨usd, ust, uss, uts, uls, uw, uns, ulg⟩ := u
  obtain ⟨h1, h2, h3, h4, h5, h6, h7, h8, h9⟩ := h
  simp only at h1 h2 h3 h4 h5 h6 h7 h8 h9
  subst h1; subst h2; subst h3; subst h4; subst h5
  cases t with
  | start =>
    simp only [runTaskT, runTask]
    cases usd with
    | true => simp only [if_true]; exact ⟨rfl, rfl, rfl, rfl, rfl, h6, h7, h8, h9⟩
    | false =>
      simp only [Bool.false_eq_true, if_false]
      obtain ⟨g1, g2⟩ := h8 (.inl rfl)
      subst g1; subst g2
      exact ⟨rfl, rfl, rfl, rfl, rfl, h6, h7, fun _ => ⟨rfl, rfl⟩, rfl⟩
  | addSession x s =>
    simp only [runTaskT, runTask]
    cases usd with
    | true => simp only [if_true]; exact ⟨rfl, rfl, rfl, rfl, rfl, h6, h7, h8, h9⟩
    | false =>
      simp only [Bool.false_eq_true, if_false]
      obtain ⟨g1, g2⟩ := h8 (.inl rfl)
      subst g1; subst g2
      split
      · exact ⟨rfl, rfl, rfl, rfl, rfl, h6, h7, fun _ => ⟨rfl, rfl⟩, rfl⟩
      · exact ⟨rfl, rfl, rfl, rfl, rfl, h6, h7, fun _ => ⟨rfl, rfl⟩, rfl⟩
  | shutdown =>
    simp only [runTaskT, runTask]
    have key : ∀ (st' : Bool) (e : List SEv) (x : Srv W) (b : Bool), (Srv.mk true st' ss uts ls uw uns (lg ++ e)).tellSessions th ss = (x, b) → SimS th
        { isShutdown := true, isStarted := st', sessions := [], tasks := uts, listeners := uls, world := uw, nsend := uns,
          log := (ulg ++ e) ++ uss.map fun x => .sessionShutdown x.2 }
        ⟨if b then x else { x with sessions := [] }, df⟩ := by
      intro st' e x b hx
      obtain ⟨n, k1, k2, k3, k4, k5⟩ := tellSessions_spec th ss (Srv.mk true st' ss uts ls uw uns (lg ++ e))
      have hsh : ∀ l : List (UInt8 × SessId), unshut ((ulg ++ e) ++ uss.map fun x => .sessionShutdown x.2) = unshut ((lg ++ e) ++ l.map fun x => .sessionShutdown x.2) := by
        intro l
        simp only [unshut_append, unshut_told, h9, List.append_nil]
      rw [hx] at k2 k3 k4
      simp only at k2 k3 k4
      subst k2
      cases b with
      | true =>
        refine ⟨rfl, rfl, rfl, rfl, rfl, h6, h7, fun hq => ?_, hsh _⟩
        rcases hq with hq | hq
        · cases hq
        · obtain ⟨y, -, hy⟩ := k4 rfl
          rw [hq] at hy; cases hy
      | false =>
        refine ⟨rfl, rfl, rfl, rfl, rfl, h6, h7, fun hq => ?_, hsh _⟩
        rcases hq with hq | hq
        · cases hq
        · obtain ⟨g1, g2⟩ := h8 (.inr hq)
          subst g1; subst g2
          rw [k3 rfl, List.take_length]
          exact ⟨rfl, rfl⟩
    cases ust with
    | true =>
      simp only [emit, if_true]
      rcases hx : (Srv.mk true false ss uts ls uw uns (lg ++ [.serverShutdown])).tellSessions th ss with ⟨x, b⟩
      have := key false [.serverShutdown] x b hx
      simp only [hx]
      cases b <;> exact this
    | false =>
      simp only [Bool.false_eq_true, if_false]
      rcases hx : (Srv.mk true false ss uts ls uw uns lg).tellSessions th ss with ⟨x, b⟩
      have := key false [] x b (by rw [List.append_nil]; exact hx)
      rw [List.append_nil] at this
      cases b <;> exact this

/-- One step. -/
theorem step {env : ServerEnv W} {th : SThrows W} {u : Srv W} {v : SrvT W} (h : SimS th u v) (hwf : WF (th.caught env) u) (op : Op) :
    ∃ op' u' v', v.step env th op = .ret v' ∧ u.step (th.caught env) op' = .ret u' ∧ SimS th u' v' ∧ CutOp op op' ∧
      (op' ≠ op → ∃ c d, op = .receive c d ∧ c ∈ v'.deaf) := by
  cases op with
  | start =>
    simp only [SrvT.step, Srv.step, ← h.sd]
    cases hd : u.isShutdown with
    | true =>
      refine ⟨.start, u, v, by simp, by simp [Srv.step, hd], h, .same _, by simp⟩
    | false =>
      refine ⟨.start, { u with tasks := u.tasks ++ [.start] }, ⟨{ v.srv with tasks := v.srv.tasks ++ [.start] }, v.deaf⟩, by simp [← h.sd, hd], by simp [Srv.step, hd], ⟨h.sd, h.st, ?_, h.wd, h.ns, h.keys, h.ls, h.same, h.log⟩, .same _, by simp⟩
      simp [h.ts]
  | shutdown =>
    refine ⟨.shutdown, _, _, rfl, rfl, ⟨h.sd, h.st, by simp [h.ts], h.wd, h.ns, h.keys, h.ls, h.same, h.log⟩, .same _, by simp⟩
  | addSession x s =>
    simp only [SrvT.step, Srv.step, ← h.sd]
    cases hd : u.isShutdown with
    | true =>
      refine ⟨.addSession x s, u, v, by simp, by simp [Srv.step, hd], h, .same _, by simp⟩
    | false =>
      refine ⟨.addSession x s, { u with tasks := u.tasks ++ [.addSession x s] }, ⟨{ v.srv with tasks := v.srv.tasks ++ [.addSession x s] }, v.deaf⟩, by simp [← h.sd, hd], by simp [Srv.step, hd], ⟨h.sd, h.st, ?_, h.wd, h.ns, h.keys, h.ls, h.same, h.log⟩, .same _, by simp⟩
      simp [h.ts]
  | runTask =>
    simp only [SrvT.step]
    cases ht : v.srv.tasks with
    | nil =>
      refine ⟨.runTask, u, v, rfl, ?_, h, .same _, by simp⟩
      simp only [Srv.step, h.ts, ht]
    | cons t ts =>
      refine ⟨.runTask, _, _, rfl, by simp only [Srv.step, h.ts, ht]; rfl, ?_, .same _, by simp⟩
      exact task (u := { u with tasks := ts }) (v := ⟨{ v.srv with tasks := ts }, v.deaf⟩) ⟨h.sd, h.st, rfl, h.wd, h.ns, h.keys, h.ls, h.same, h.log⟩ t
  | opened c mem =>
    simp only [SrvT.step, Srv.step, ← h.isSome]
    cases hl : (u.listeners.lookup c).isSome with
    | true => refine ⟨.opened c mem, u, v, by simp, by simp [Srv.step, hl], h, .same _, by simp⟩
    | false =>
      refine ⟨.opened c mem, { u with listeners := u.listeners ++ [(c, Parser.init env.pol mem.toList)] },
        ⟨{ v.srv with listeners := v.srv.listeners ++ [(c, Parser.init env.pol mem.toList)] }, v.deaf⟩, by simp, by simp only [Srv.step, hl, Bool.false_eq_true, if_false]; rfl,
        ⟨h.sd, h.st, h.ts, h.wd, h.ns, by simp [h.keys], fun c' hc' => ?_, h.same, h.log⟩, .same _, by simp⟩
      simp only [lookup_append_single]
      rw [h.ls c' hc']
  | error c =>
    by_cases hc : (u.listeners.lookup c).isSome = true
    · have hc' := hc
      rw [h.isSome] at hc'
      obtain ⟨p, hp⟩ := Option.isSome_iff_exists.1 hc
      obtain ⟨q, hq⟩ := Option.isSome_iff_exists.1 hc'
      refine ⟨.error c, { u with listeners := setListener u.listeners c p.reset }, ⟨{ v.srv with listeners := setListener v.srv.listeners c q.reset }, v.deaf⟩,
        by simp only [SrvT.step, Srv.step, hq, CM.ret_bind]; rfl, by simp only [Srv.step, hp],
        ⟨h.sd, h.st, h.ts, h.wd, h.ns, by simp [keys_setListener, h.keys], fun c' hc' => ?_, h.same, h.log⟩, .same _, by simp⟩
      by_cases hcc : c = c'
      · subst hcc
        have : p = q := by have := h.ls c hc'; rw [hp, hq] at this; injection this
        subst this
        simp only [lookup_setListener_same _ _ _ _ hp, lookup_setListener_same _ _ _ _ hq]
      · simp only [lookup_setListener_other _ _ _ _ hcc]
        exact h.ls c' hc'
    · have hc' := hc
      rw [h.isSome] at hc'
      simp only [Option.isSome_iff_ne_none, ne_eq, not_not] at hc hc'
      exact ⟨.error c, u, v, by simp only [SrvT.step, Srv.step, hc', CM.ret_bind]; rfl, by simp only [Srv.step, hc], h, .same _, by simp⟩
  | dropped c =>
    refine ⟨.dropped c, _, _, rfl, rfl, ⟨h.sd, h.st, h.ts, h.wd, h.ns, ?_, fun c' hc' => ?_, h.same, h.log⟩, .same _, by simp⟩
    · have : ∀ l : List (ConnId × Parser), (l.filter fun x => x.1 ≠ c).map (·.1) = (l.map (·.1)).filter fun x => x ≠ c := by
        intro l; rw [List.filter_map]; rfl
      simp only [this, h.keys]
    · by_cases hcc : c = c'
      · subst hcc; simp only [lookup_filter_same]
      · simp only [lookup_filter_other _ _ _ hcc]
        exact h.ls c' fun hm => hc' (List.mem_filter.2 ⟨hm, by simpa using fun e => hcc e.symm⟩)
  | receive c data =>
    by_cases hdf : c ∈ v.deaf
    · -- nothing is received
      refine ⟨.receive c [], ?_⟩
      have hv : v.step env th (.receive c data) = .ret v := by simp [SrvT.step, hdf]
      cases hl : u.listeners.lookup c with
      | none => exact ⟨u, v, hv, by simp only [Srv.step, hl], h, .cut c _ _ (List.nil_prefix), fun _ => ⟨c, data, rfl, hdf⟩⟩
      | some p =>
        refine ⟨{ u with listeners := setListener u.listeners c p }, v, hv, by simp only [Srv.step, hl, parse_nil, CM.ret_bind, onMbaps],
          ⟨h.sd, h.st, h.ts, h.wd, h.ns, by simp [keys_setListener, h.keys], fun c' hc' => ?_, h.same, h.log⟩, .cut c _ _ (List.nil_prefix), fun _ => ⟨c, data, rfl, hdf⟩⟩
        have hcc : c ≠ c' := by rintro rfl; exact hc' hdf
        simp only [lookup_setListener_other _ _ _ _ hcc]
        exact h.ls c' hc'
    · simp only [SrvT.step, if_neg hdf]
      rw [← h.ls c hdf]
      cases hl : u.listeners.lookup c with
      | none => exact ⟨.receive c data, u, v, rfl, by simp only [Srv.step, hl], h, .same _, by simp⟩
      | some p =>
        obtain ⟨-, pend, hrep⟩ := hwf c p hl
        obtain ⟨p', ms, -, hp, -⟩ := Srv.parse_total hrep data
        simp only [hp, CM.ret_bind]
        obtain ⟨⟨s', b⟩, hs⟩ := onMbapsT_total env th c ms { v.srv with listeners := setListener v.srv.listeners c p' }
        simp only [hs, CM.ret_bind, CM.pure_eq]
        obtain ⟨n, n1, n2, n3, n4⟩ := onMbapsT_caught ms hs
        obtain ⟨d, p2, hd1, hd2, hd3⟩ : ∃ d p2, d <+: data ∧ p.parse d = .ret (p2, ms.take n) ∧ (b = false → d = data ∧ p2 = p') := by
          cases b with
          | false => rw [n2 rfl, List.take_length]; exact ⟨data, p', List.prefix_refl _, hp, fun _ => ⟨rfl, rfl⟩⟩
          | true =>
            obtain ⟨d, p2, k1, k2⟩ := Parser.parse_cut p data p' ms hp n (n3 rfl) n1
            exact ⟨d, p2, k1, k2, (by intro h; cases h)⟩
        have hcut : CutOp (.receive c data) (.receive c d) := .cut c _ _ hd1
        have hus : ∃ u', Srv.onMbaps (th.caught env) { u with listeners := setListener u.listeners c p2 } c (ms.take n) = .ret u' ∧
            u'.isShutdown = s'.isShutdown ∧ u'.isStarted = s'.isStarted ∧ u'.tasks = s'.tasks ∧ u'.world = s'.world ∧ u'.nsend = s'.nsend ∧
            u'.listeners = setListener u.listeners c p2 ∧ s'.listeners = setListener v.srv.listeners c p' ∧
            (s'.isShutdown = false ∨ (∀ s w, th.shutdown s w = false) → u'.sessions = s'.sessions ∧ u'.log = s'.log) ∧ unshut u'.log = unshut s'.log := by
          cases hsd : v.srv.isShutdown with
          | false =>
            obtain ⟨g1, g2⟩ := h.same (.inl hsd)
            have hu : u = { v.srv with listeners := u.listeners } := by
              obtain ⟨⟨_, _, _, _, _, _, _, _⟩, _⟩ := v
              obtain ⟨_, _, _, _, _, _, _, _⟩ := u
              obtain ⟨h1, h2, h3, h4, h5, -, -, -, -⟩ := h
              simp only at h1 h2 h3 h4 h5 g1 g2
              simp only [h1, h2, h3, h4, h5, g1, g2]
            rw [Props.onMbaps_ls] at n4
            obtain ⟨x, x1, x2⟩ := CM.bind_eq_ret.1 n4
            injection x2 with x2
            have hu2 : ({ u with listeners := setListener u.listeners c p2 } : Srv W) = { v.srv with listeners := setListener u.listeners c p2 } := by
              conv_lhs => rw [hu]
            rw [hu2, Props.onMbaps_ls, x1, CM.ret_bind]
            subst x2
            exact ⟨_, rfl, rfl, rfl, rfl, rfl, rfl, rfl, rfl, fun _ => ⟨rfl, rfl⟩, rfl⟩
          | true =>
            rw [onMbaps_down _ _ _ (by simpa using h.sd.trans hsd)]
            rw [onMbaps_down _ _ _ (by simpa using hsd)] at n4
            injection n4 with n4
            subst n4
            refine ⟨_, rfl, h.sd, h.st, h.ts, h.wd, h.ns, rfl, rfl, fun hq => ?_, by simp only [unshut_append, h.log]⟩
            obtain ⟨g1, g2⟩ := h.same hq
            exact ⟨g1, by simp only [g2]⟩
        obtain ⟨u', hu', e1, e2, e3, e4, e5, e6, e7, e8, e9⟩ := hus
        refine ⟨.receive c d, u', _, rfl, by simp only [Srv.step, hl, hd2, CM.ret_bind, hu'],
          ⟨e1, e2, e3, e4, e5, by simp only [e6, e7, keys_setListener, h.keys], fun c' hc' => ?_, e8, e9⟩, hcut, fun hne => ?_⟩
        · simp only [e6, e7]
          cases b with
          | true =>
            simp only [if_true, List.mem_cons, not_or] at hc'
            have hcc : c ≠ c' := fun e => hc'.1 e.symm
            simp only [lookup_setListener_other _ _ _ _ hcc]
            exact h.ls c' hc'.2
          | false =>
            simp only [Bool.false_eq_true, if_false] at hc'
            rw [(hd3 rfl).2]
            by_cases hcc : c = c'
            · subst hcc
              have hq := h.ls c hdf
              rw [hl] at hq
              rw [lookup_setListener_same _ _ _ _ hl, lookup_setListener_same _ _ _ _ hq.symm]
            · simp only [lookup_setListener_other _ _ _ _ hcc]
              exact h.ls c' hc'
        · cases b with
          | true => exact ⟨c, data, rfl, by simp⟩
          | false => rw [(hd3 rfl).1] at hne; exact absurd rfl hne

/-- A connection that is not read any more stays so as long as it exists. -/
theorem _root_.Modbus.SrvT.step_deaf {env : ServerEnv W} {th : SThrows W} {v v' : SrvT W} {op : Op} {c : ConnId} (h : v.step env th op = .ret v') (hc : c ∈ v.deaf)
    (ho : op ≠ .dropped c) : c ∈ v'.deaf := by
  cases op with
  | receive c' data =>
    simp only [SrvT.step] at h
    split at h
    · injection h with h; subst h; exact hc
    · split at h
      · injection h with h; subst h; exact hc
      · obtain ⟨x, -, h⟩ := CM.bind_eq_ret.1 h
        obtain ⟨y, -, h⟩ := CM.bind_eq_ret.1 h
        simp only [CM.pure_eq] at h
        injection h with h; subst h
        simp only
        split
        · exact List.mem_cons_of_mem _ hc
        · exact hc
  | runTask =>
    simp only [SrvT.step] at h
    split at h <;> (injection h with h; subst h; exact hc)
  | dropped c' =>
    obtain ⟨x, -, h⟩ := CM.bind_eq_ret.1 h
    simp only [CM.pure_eq] at h
    injection h with h; subst h
    exact List.mem_filter.2 ⟨hc, by simpa using fun e => ho (by rw [e])⟩
  | _ =>
    obtain ⟨x, -, h⟩ := CM.bind_eq_ret.1 h
    simp only [CM.pure_eq] at h
    injection h with h; subst h
    exact hc

theorem _root_.Modbus.SrvT.run_deaf {env : ServerEnv W} {th : SThrows W} {c : ConnId} (ops : List Op) : ∀ {v v' : SrvT W}, v.run env th ops = .ret v' → c ∈ v.deaf →
    Op.dropped c ∉ ops → c ∈ v'.deaf := by
  induction ops with
  | nil => intro v v' h hc _; injection h with h; subst h; exact hc
  | cons op ops ih =>
    intro v v' h hc ho
    obtain ⟨v1, h1, h2⟩ := CM.bind_eq_ret.1 h
    simp only [List.mem_cons, not_or] at ho
    exact ih h2 (SrvT.step_deaf h1 hc (fun e => ho.1 e.symm)) ho.2

/-- A history. -/
theorem run {env : ServerEnv W} {th : SThrows W} (ops : List Op) : ∀ {u : Srv W} {v : SrvT W}, SimS th u v → WF (th.caught env) u →
    ∃ ops' u' v', v.run env th ops = .ret v' ∧ u.run (th.caught env) ops' = .ret u' ∧ SimS th u' v' ∧ WF (th.caught env) u' ∧ List.Forall₂ CutOp ops ops' ∧
      ∀ c, c ∉ v'.deaf → Op.dropped c ∉ ops → ∀ cur, Props.phases c cur ops' = Props.phases c cur ops := by
  induction ops with
  | nil => intro u v h hw; exact ⟨[], u, v, rfl, rfl, h, hw, .nil, fun _ _ _ _ => rfl⟩
  | cons op ops ih =>
    intro u v h hw
    obtain ⟨op', u1, v1, h1, h2, h3, h4, h5⟩ := h.step hw op
    obtain ⟨u1', w1, w2⟩ := step_total hw op'
    rw [h2] at w1; injection w1 with w1; subst w1
    obtain ⟨ops', u', v', k1, k2, k3, k4, k5, k6⟩ := ih h3 w2
    refine ⟨op' :: ops', u', v', by simp only [SrvT.run, h1, CM.ret_bind, k1], by simp only [Srv.run, h2, CM.ret_bind, k2], k3, k4, .cons h4 k5, ?_⟩
    intro c hc ho cur
    simp only [List.mem_cons, not_or] at ho
    have ih' := k6 c hc ho.2
    cases h4 with
    | same =>
      cases op <;> cases cur <;> simp only [Props.phases, ih']
    | cut c' data d hd =>
      by_cases hdd : d = data
      · subst hdd
        cases cur <;> simp only [Props.phases, ih']
      · obtain ⟨c1, d1, e1, e2⟩ := h5 (by simpa using hdd)
        injection e1 with e1 _
        subst e1
        have hne : c' ≠ c := by
          rintro rfl
          exact hc (SrvT.run_deaf ops k1 e2 ho.2)
        cases cur <;> simp only [Props.phases, if_neg hne, ih']

end SimS

namespace Srv

/-- What ends at an exception: the call of the session that threw is the last thing that happened. -/
theorem onMbapT_thrown {env : ServerEnv W} {th : SThrows W} {v v' : Srv W} {m : Mbap} {c : ConnId} (h : v.onMbapT env th c m = .ret (v', true)) :
    ∃ s k r, v.sessions.lookup m.unit = some s ∧ parseReq k m.data = .ret (.ok r) ∧ th.request s k r v.world = true ∧
      v'.log = v.log ++ [.mbap c m, .request s k r] ∧ v'.world = (env.onRequest s k r v.world).1 := by
  unfold onMbapT at h
  simp only at h
  split at h
  · injection h with h; injection h with _ h; cases h
  · split at h
    · injection h with h; injection h with _ h; cases h
    · rename_i s hl
      split at h
      · injection h with h; injection h with _ h; cases h
      · obtain ⟨x, -, h⟩ := CM.bind_eq_ret.1 h
        split at h
        · rename_i k hk
          unfold processMessageT at h
          obtain ⟨y, hy, h⟩ := CM.bind_eq_ret.1 h
          cases y with
          | error e => cases e <;> (simp only [CM.pure_eq] at h; injection h with h; injection h with _ h; cases h)
          | ok r =>
            refine ⟨s, k, r, hl, hy, ?_⟩
            simp only [CM.pure_eq] at h
            split at h
            · rename_i ht
              injection h with h; injection h with h _
              subst h
              exact ⟨ht, by simp [emit], rfl⟩
            · split at h <;> (injection h with h; injection h with _ h; cases h)
        · simp only [CM.pure_eq] at h; injection h with h; injection h with _ h; cases h

theorem onMbapsT_thrown {env : ServerEnv W} {th : SThrows W} {c : ConnId} (ms : List Mbap) : ∀ {v v' : Srv W}, v.onMbapsT env th c ms = .ret (v', true) →
    ∃ (x : Srv W) (m : Mbap) (s : SessId) (k : Kind) (r : Req k), m ∈ ms ∧ parseReq k m.data = .ret (.ok r) ∧ th.request s k r x.world = true ∧
      v'.log = x.log ++ [.mbap c m, .request s k r] ∧ v'.world = (env.onRequest s k r x.world).1 := by
  induction ms with
  | nil => intro v v' h; injection h with h; injection h with _ h; cases h
  | cons m ms ih =>
    intro v v' h
    obtain ⟨⟨v1, b⟩, h1, h⟩ := CM.bind_eq_ret.1 h
    cases b with
    | true =>
      simp only [if_true, CM.pure_eq] at h
      injection h with h; injection h with h _
      subst h
      obtain ⟨s, k, r, -, k2, k3, k4, k5⟩ := onMbapT_thrown h1
      exact ⟨v, m, s, k, r, by simp, k2, k3, k4, k5⟩
    | false =>
      simp only [Bool.false_eq_true, if_false] at h
      obtain ⟨x, m', s, k, r, g1, g⟩ := ih h
      exact ⟨x, m', s, k, r, List.mem_cons_of_mem _ g1, g⟩

/-- A message that denotes no request for which its session throws. -/
theorem onMbapT_calmly {env : ServerEnv W} {th : SThrows W} {v : Srv W} {m : Mbap} {c : ConnId}
    (h : ∀ s, v.sessions.lookup m.unit = some s → ∀ k r, parseReq k m.data = .ret (.ok r) → th.request s k r v.world = false) : v.onMbapT env th c m = (v.onMbap env c m >>= fun x => .ret (x, false)) := by
  unfold onMbapT onMbap
  simp only
  split
  · rfl
  · cases hl : (v.emit (.mbap c m)).sessions.lookup m.unit with
    | none => rfl
    | some s =>
      simp only
      split
      · rfl
      · cases getU8 m.data with
        | ub => rfl
        | ret x =>
          simp only [CM.ret_bind]
          cases kindOf x.1 with
          | none => rfl
          | some k =>
            simp only [processMessageT, processMessage]
            cases hpr : parseReq k m.data with
            | ub => rfl
            | ret y =>
              simp only [CM.ret_bind]
              cases y with
              | error e => cases e <;> rfl
              | ok r =>
                have hw : th.request s k r (v.emit (SEv.mbap c m)).world = false := h s (by simpa [emit] using hl) k r hpr
                simp only [hw, Bool.false_eq_true, if_false]
                cases (env.onRequest s k r (v.emit (SEv.mbap c m)).world).2 with
                | error e => cases e <;> rfl
                | ok z => rfl

/-- A message for a session that does not throw. -/
theorem onMbapT_calm {env : ServerEnv W} {th : SThrows W} {v : Srv W} {m : Mbap} {c : ConnId}
    (h : ∀ s, v.sessions.lookup m.unit = some s → ∀ k r w, th.request s k r w = false) : v.onMbapT env th c m = (v.onMbap env c m >>= fun x => .ret (x, false)) :=
  onMbapT_calmly fun s hs k r _ => h s hs k r _

theorem onMbapsT_calm {env : ServerEnv W} {th : SThrows W} {c : ConnId} (ms : List Mbap) : ∀ {v : Srv W},
    (∀ m ∈ ms, ∀ s, v.sessions.lookup m.unit = some s → ∀ k r w, th.request s k r w = false) → v.onMbapsT env th c ms = (v.onMbaps env c ms >>= fun x => .ret (x, false)) := by
  induction ms with
  | nil => intro v _; rfl
  | cons m ms ih =>
    intro v h
    simp only [onMbapsT, onMbaps]
    rw [onMbapT_calm (h m (by simp))]
    obtain ⟨v', h1, h2⟩ := onMbap_reacts env v c m
    rw [h1]
    simp only [CM.ret_bind, Bool.false_eq_true, if_false]
    exact ih fun m' hm' s hs => h m' (List.mem_cons_of_mem _ hm') s (by rw [← h2.same.sessions]; exact hs)

end Srv

end Modbus
