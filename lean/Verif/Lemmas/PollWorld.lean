import Verif.Spec.PollWorld
import Verif.Props.Polling
import Verif.Lemmas.World

/-!
A client with sessions and scheduled requests, sessions and scheduled requests left out, is a client as in Model/Stack.lean; so what is
known of those (C101 to C110) is known of these.
-/

namespace Modbus

open Spec

def PKEv.flat : PKEv → Option KEv
  | .up (.ch e) => some (.ch e)
  | .up _ => none
  | .net e => some (.net e)

namespace Plk

/-- What the client does, without the connection. -/
def ups (log : List PKEv) : List LEv :=
  log.filterMap fun e => match e with
    | .up e => some e
    | .net _ => none

@[simp] theorem ups_append (a b : List PKEv) : ups (a ++ b) = ups a ++ ups b := List.filterMap_append

theorem ups_nets (es : List TEv) : ups (es.map .net) = [] := by
  induction es with
  | nil => rfl
  | cons e es ih => exact ih

theorem flat_nets (es : List TEv) : (es.map PKEv.net).filterMap PKEv.flat = es.map KEv.net := by
  induction es with
  | nil => rfl
  | cons e es ih => simp only [List.map_cons, List.filterMap_cons, PKEv.flat, ih]

/-- The client without its sessions and scheduled requests. -/
def flat (v : Plk) : Stk := { cli := v.pcl.cli, tcp := v.tcp, log := v.log.filterMap PKEv.flat, steps := v.steps }

/-- `w` comes after `v`, with these effects of the client. -/
def After (v w : Plk) (es : List LEv) : Prop := ∃ new, w.log = v.log ++ new ∧ ups new = es

theorem After.trans {u v w : Plk} {a b : List LEv} (h : After u v a) (h' : After v w b) : After u w (a ++ b) := by
  obtain ⟨x, h1, h2⟩ := h
  obtain ⟨y, h3, h4⟩ := h'
  exact ⟨x ++ y, by rw [h3, h1, List.append_assoc], by rw [ups_append, h2, h4]⟩

theorem After.rfl {v : Plk} : After v v [] := ⟨[], by simp, by simp [ups]⟩

theorem net_flat {v w : Plk} {op : Tcp.Op} (h : v.net op = .ret w) : v.flat.net op = .ret w.flat ∧ w.pcl = v.pcl ∧ After v w [] := by
  obtain ⟨t, h1, h2⟩ := CM.bind_eq_ret.1 h
  injection h2 with h2; subst h2
  refine ⟨?_, by rfl, ⟨_, by rfl, ups_nets _⟩⟩
  simp only [Stk.net, flat, h1, CM.ret_bind, CM.pure_eq, List.filterMap_append, flat_nets]

theorem relay1_flat {env : StkEnv} {v w : Plk} {e : LEv} (h : v.relay1 env e = .ret w) :
    v.flat.relay env (ofChannel [e]) = .ret w.flat ∧ w.pcl = v.pcl ∧ After v w [e] := by
  have hone : ∀ (e : LEv), After v { v with log := v.log ++ [.up e] } [e] := fun e => ⟨[.up e], by rfl, by simp [ups]⟩
  have hret : ∀ (w : Stk), (w.relay env []) = .ret w := fun _ => by rfl
  cases e with
  | ch e =>
    have hof : ofChannel [LEv.ch e] = [e] := by rfl
    rw [hof]
    have hlog : ({ v with log := v.log ++ [.up (.ch e)] } : Plk).flat = { v.flat with log := v.flat.log ++ [.ch e] } := by
      simp [flat, PKEv.flat]
    simp only [Stk.relay]
    cases e with
    | sent u b t =>
      obtain ⟨h1, h2, h3⟩ := net_flat (v := { v with log := v.log ++ [.up (.ch (.sent u b t))] }) h
      rw [hlog] at h1
      exact ⟨by simp only [Stk.relay1]; exact CM.bind_eq_ret.2 ⟨_, h1, by rfl⟩, h2, by simpa using (hone _).trans h3⟩
    | tcpShutdown =>
      obtain ⟨h1, h2, h3⟩ := net_flat (v := { v with log := v.log ++ [.up (.ch .tcpShutdown)] }) h
      rw [hlog] at h1
      exact ⟨by simp only [Stk.relay1]; exact CM.bind_eq_ret.2 ⟨_, h1, by rfl⟩, h2, by simpa using (hone _).trans h3⟩
    | _ => injection h with h; subst h; exact ⟨by rw [hlog]; rfl, by rfl, hone _⟩
  | _ =>
    injection h with h; subst h
    refine ⟨?_, by rfl, hone _⟩
    simp [ofChannel, Stk.relay, flat, PKEv.flat]

theorem stk_relay_append (env : StkEnv) (a b : List CEv) : ∀ v : Stk, v.relay env (a ++ b) = (do let v ← v.relay env a; v.relay env b) := by
  induction a with
  | nil => intro v; rfl
  | cons e a ih =>
    intro v
    simp only [List.cons_append, Stk.relay]
    cases v.relay1 env e with
    | ub => rfl
    | ret x => simp only [CM.ret_bind]; exact ih x

theorem relay_flat {env : StkEnv} (es : List LEv) : ∀ {v w : Plk}, v.relay env es = .ret w →
    v.flat.relay env (ofChannel es) = .ret w.flat ∧ w.pcl = v.pcl ∧ After v w es := by
  induction es with
  | nil => intro v w h; injection h with h; subst h; exact ⟨by rfl, by rfl, .rfl⟩
  | cons e es ih =>
    intro v w h
    obtain ⟨x, h1, h2⟩ := CM.bind_eq_ret.1 h
    obtain ⟨a1, a2, a3⟩ := relay1_flat h1
    obtain ⟨b1, b2, b3⟩ := ih h2
    refine ⟨?_, by rw [b2, a2], a3.trans b3⟩
    have : ofChannel (e :: es) = ofChannel [e] ++ ofChannel es := ofChannel_append [e] es
    rw [this, stk_relay_append, a1, CM.ret_bind, b1]

/-- What is known of a client: its part without the connection is as in Model/Polling.lean, and its log is kept. -/
structure Good (env : StkEnv) (v : Plk) : Prop where
  reach : Props.LReach env.client v.pcl
  log : v.pcl.log = ups v.log

theorem Good.net {env : StkEnv} {v w : Plk} {op : Tcp.Op} (h : Good env v) (hn : v.net op = .ret w) : Good env w := by
  obtain ⟨-, h2, new, h3, h4⟩ := net_flat hn
  exact ⟨by rw [h2]; exact h.reach, by rw [h2, h3, ups_append, h4, h.log, List.append_nil]⟩

theorem Good.up {env : StkEnv} {v w : Plk} {op : Pcl.Op} (h : Good env v) (hu : v.up env op = .ret w) :
    Good env w ∧ (∃ es, After v w es) ∧ ∃ cop, v.flat.chan env cop = .ret w.flat ∧ (∀ c, op = .chan c → Pcl.ownChan c = true → cop = c) ∧
      (Pcl.ownChan cop = true → op = .chan cop) := by
  obtain ⟨p, h1, h2⟩ := CM.bind_eq_ret.1 hu
  obtain ⟨new, hst⟩ := h.reach.stepped h1
  have hreach := h.reach.step h1
  have hdrop : p.log.drop v.pcl.log.length = new := by rw [hst.follows.log]; simp
  rw [hdrop] at h2
  obtain ⟨a1, a2, a3⟩ := relay_flat new h2
  simp only at a2
  have ha3 : After v w new := a3
  refine ⟨⟨by rw [a2]; exact hreach, ?_⟩, ⟨new, ha3⟩, ?_⟩
  · obtain ⟨l, b1, b2⟩ := ha3
    rw [a2, b1, ups_append, b2, hst.follows.log, h.log]
  · obtain ⟨cop, c1, c2, c3⟩ := hst.chan
    refine ⟨cop, ?_, c2, c3⟩
    have hlog : p.cli.log.drop v.pcl.cli.log.length = ofChannel new := by
      rw [hreach.chan.2, h.reach.chan.2, hst.follows.log, ofChannel_append]; simp
    simp only [Stk.chan, flat, c1, CM.ret_bind, hlog]
    exact a1

theorem Good.deliver {env : StkEnv} (es : List TEv) : ∀ {v w : Plk}, Good env v → v.deliver env es = .ret w →
    Good env w ∧ (∃ es, After v w es) ∧ v.flat.deliver env es = .ret w.flat := by
  induction es with
  | nil => intro v w h hd; injection hd with hd; subst hd; exact ⟨h, ⟨_, .rfl⟩, by rfl⟩
  | cons e es ih =>
    intro v w h hd
    cases e with
    | receive c b =>
      obtain ⟨x, h1, h2⟩ := CM.bind_eq_ret.1 hd
      obtain ⟨a1, ⟨l1, a2⟩, cop, a3, a4, -⟩ := h.up h1
      obtain ⟨b1, ⟨l2, b2⟩, b3⟩ := ih a1 h2
      refine ⟨b1, ⟨_, a2.trans b2⟩, ?_⟩
      rw [a4 _ (by rfl) (by rfl)] at a3
      simp only [Stk.deliver, a3, CM.ret_bind, b3]
    | error c cur =>
      obtain ⟨x, h1, h2⟩ := CM.bind_eq_ret.1 hd
      obtain ⟨a1, ⟨l1, a2⟩, cop, a3, a4, -⟩ := h.up h1
      obtain ⟨b1, ⟨l2, b2⟩, b3⟩ := ih a1 h2
      refine ⟨b1, ⟨_, a2.trans b2⟩, ?_⟩
      rw [a4 _ (by rfl) (by rfl)] at a3
      simp only [Stk.deliver, a3, CM.ret_bind, b3]
    | _ =>
      obtain ⟨b1, b2, b3⟩ := ih h (by exact hd)
      exact ⟨b1, b2, b3⟩

/-- Each step of the client is a step of the client without sessions and scheduled requests; data arrives in the one when it arrives in
the other. -/
theorem Good.step {env : StkEnv} {v w : Plk} {op : Op} (h : Good env v) (hs : v.step env op = .ret w) :
    Good env w ∧ (∃ es, After v w es) ∧ ∃ op', v.flat.step env op' = .ret w.flat ∧ (∀ i r, op = .complete i r → op' = .complete i r) ∧
      (∀ i r, op' = .complete i r → op = .complete i r) := by
  cases op with
  | up op =>
    simp only [Plk.step] at hs
    cases ho : own op with
    | false =>
      rw [ho] at hs
      injection hs with hs; subst hs
      exact ⟨h, ⟨_, .rfl⟩, .chan (.receive []), by rfl, by simp, by simp⟩
    | true =>
      rw [ho] at hs
      obtain ⟨a1, a2, cop, a3, a4, a5⟩ := h.up (by simpa using hs)
      refine ⟨a1, a2, .chan cop, ?_, by simp, by simp⟩
      have : Stk.own cop = true := by
        cases cop with
        | receive b => rw [a5 (by rfl)] at ho; cases ho
        | error => rw [a5 (by rfl)] at ho; cases ho
        | _ => rfl
      simp only [Stk.step, this, if_true, a3]
  | complete i r =>
    obtain ⟨h1, -, h3⟩ := net_flat hs
    exact ⟨h.net hs, ⟨_, h3⟩, .complete i r, h1, fun _ _ he => by cases he; rfl, fun _ _ he => by cases he; rfl⟩
  | run k =>
    obtain ⟨x, h1, h2⟩ := CM.bind_eq_ret.1 hs
    obtain ⟨y, h3, h4⟩ := CM.bind_eq_ret.1 h2
    obtain ⟨a1, -, a3⟩ := net_flat h1
    obtain ⟨b1, ⟨l, b2⟩, b3⟩ := (h.net h1).deliver _ h3
    have hfl : v.flat.step env (.run k) = (match v.tcp.queue[k]? with
      | some t => if Stk.TTask.isData t ∧ x.tcp.isShutdown = false then y.flat.net (.run (x.tcp.queue.length - 1)) else .ret y.flat
      | none => .ret y.flat) := by
      simp only [Stk.step, a1, CM.ret_bind]
      rw [show x.flat.tcp.log.drop v.flat.tcp.log.length = x.tcp.log.drop v.tcp.log.length from rfl, b3]
      rfl
    cases hq : v.tcp.queue[k]? with
    | none =>
      rw [hq] at h4 hfl
      injection h4 with h4; subst h4
      exact ⟨b1, ⟨_, a3.trans b2⟩, .run k, hfl, by simp, by simp⟩
    | some t =>
      rw [hq] at h4 hfl
      by_cases hc : Stk.TTask.isData t ∧ x.tcp.isShutdown = false
      · simp only [hc, and_self, if_true] at h4 hfl
        obtain ⟨c1, -, c3⟩ := net_flat h4
        exact ⟨b1.net h4, ⟨_, (a3.trans b2).trans c3⟩, .run k, by rw [hfl, c1], by simp, by simp⟩
      · simp only [hc, if_false] at h4 hfl
        injection h4 with h4; subst h4
        exact ⟨b1, ⟨_, a3.trans b2⟩, .run k, hfl, by simp, by simp⟩

theorem Good.init (env : StkEnv) : Good env (init env) := ⟨⟨[], by rfl⟩, by rfl⟩

end Plk

namespace PWorld

variable {W : Type}

@[simp] theorem flatLog_append (a b : List PWEv) : flatLog (a ++ b) = flatLog a ++ flatLog b := List.filterMap_append

@[simp] theorem atClient_append (j : Nat) (a b : List PWEv) : atClient j (a ++ b) = atClient j a ++ atClient j b := List.filterMap_append

theorem flatLog_cli (j : Nat) (l : List PKEv) : flatLog (l.map (.cli j)) = (l.filterMap PKEv.flat).map (.cli j) := by
  induction l with
  | nil => rfl
  | cons e l ih =>
    cases e with
    | up e =>
      cases e with
      | ch e => simp only [List.map_cons, flatLog, List.filterMap_cons, flatEv, PKEv.flat] at ih ⊢; rw [ih]
      | _ => simp only [List.map_cons, flatLog, List.filterMap_cons, flatEv, PKEv.flat] at ih ⊢; rw [ih]
    | net e => simp only [List.map_cons, flatLog, List.filterMap_cons, flatEv, PKEv.flat] at ih ⊢; rw [ih]

theorem flatLog_srv (l : List VEv) : flatLog (l.map .srv) = l.map .srv := by
  induction l with
  | nil => rfl
  | cons e l ih => simp only [List.map_cons, flatLog, List.filterMap_cons, flatEv] at ih ⊢; rw [ih]

theorem atServer_flat (l : List PWEv) : inServer (flatLog l) = atServer l := by
  induction l with
  | nil => rfl
  | cons e l ih =>
    cases e with
    | srv e => simp only [flatLog, atServer, inServer, List.filterMap_cons, flatEv] at ih ⊢; rw [ih]
    | cli j e =>
      cases e with
      | net e => simp only [flatLog, atServer, inServer, List.filterMap_cons, flatEv] at ih ⊢; rw [ih]
      | up e => cases e <;> simp only [flatLog, atServer, inServer, List.filterMap_cons, flatEv] at ih ⊢ <;> rw [ih]

theorem atClient_cli (i j : Nat) (l : List PKEv) : atClient i (l.map (.cli j)) = if j = i then Plk.ups l else [] := by
  induction l with
  | nil => by_cases h : j = i <;> simp [h, atClient, Plk.ups]
  | cons e l ih =>
    by_cases h : j = i
    · subst h
      simp only [if_true] at ih ⊢
      cases e with
      | net e => simp only [List.map_cons, atClient, Plk.ups, List.filterMap_cons] at ih ⊢; exact ih
      | up e => simp only [List.map_cons, atClient, Plk.ups, List.filterMap_cons, if_true] at ih ⊢; rw [ih]
    · simp only [h, if_false] at ih ⊢
      cases e with
      | net e => simp only [List.map_cons, atClient, List.filterMap_cons] at ih ⊢; exact ih
      | up e => simp only [List.map_cons, atClient, List.filterMap_cons, h, if_false] at ih ⊢; exact ih

theorem atClient_srv (i : Nat) (l : List VEv) : atClient i (l.map .srv) = [] := by
  induction l with
  | nil => rfl
  | cons e l ih => exact ih

theorem chLog_flat (j : Nat) (l : List PWEv) : Spec.chLog (inClient j (flatLog l)) = ofChannel (atClient j l) := by
  induction l with
  | nil => rfl
  | cons e l ih =>
    cases e with
    | srv e => exact ih
    | cli i e =>
      by_cases h : i = j
      · subst h
        cases e with
        | net e =>
          rw [show flatLog (.cli i (.net e) :: l) = .cli i (.net e) :: flatLog l from rfl]
          rw [show inClient i (.cli i (.net e) :: flatLog l) = .net e :: inClient i (flatLog l) by simp [inClient]]
          exact ih
        | up e =>
          rw [show atClient i (.cli i (.up e) :: l) = e :: atClient i l by simp [atClient]]
          cases e with
          | ch e =>
            rw [show flatLog (.cli i (.up (.ch e)) :: l) = .cli i (.ch e) :: flatLog l from rfl]
            rw [show inClient i (.cli i (.ch e) :: flatLog l) = .ch e :: inClient i (flatLog l) by simp [inClient]]
            rw [show ofChannel (.ch e :: atClient i l) = e :: ofChannel (atClient i l) by rfl, ← ih]; rfl
          | _ => exact ih
      · cases e with
        | net e =>
          rw [show flatLog (.cli i (.net e) :: l) = .cli i (.net e) :: flatLog l from rfl]
          rw [show inClient j (.cli i (.net e) :: flatLog l) = inClient j (flatLog l) by simp [inClient, h]]
          exact ih
        | up e =>
          rw [show atClient j (.cli i (.up e) :: l) = atClient j l by simp [atClient, h]]
          cases e with
          | ch e =>
            rw [show flatLog (.cli i (.up (.ch e)) :: l) = .cli i (.ch e) :: flatLog l from rfl]
            rw [show inClient j (.cli i (.ch e) :: flatLog l) = inClient j (flatLog l) by simp [inClient, h]]
            exact ih
          | _ => exact ih

/-- All clients without their sessions and scheduled requests, and the server. -/
def flat (v : PWorld W) : World W :=
  { cli := fun j => (v.cli j).flat, srv := v.srv, up := v.up, down := v.down, log := flatLog v.log }

/-- What is known of every reachable state. -/
structure Good (env : WorldEnv W) (w : W) (v : PWorld W) : Prop where
  flat : WReach env w v.flat
  cli : ∀ j, Plk.Good (env.client j) (v.cli j)
  log : ∀ j, atClient j v.log = Plk.ups (v.cli j).log

theorem clientStep_flat {env : WorldEnv W} {v v' : PWorld W} {j : Nat} {op : Plk.Op} (hg : ∀ j, Plk.Good (env.client j) (v.cli j))
    (hl : ∀ j, atClient j v.log = Plk.ups (v.cli j).log) (h : v.clientStep env j op = .ret v') :
    (∀ j, Plk.Good (env.client j) (v'.cli j)) ∧ (∀ j, atClient j v'.log = Plk.ups (v'.cli j).log) ∧
      ∃ op', v.flat.clientStep env j op' = .ret v'.flat ∧ (∀ i r, op = .complete i r → op' = .complete i r) ∧ (∀ i r, op' = .complete i r → op = .complete i r) := by
  obtain ⟨k, h1, h2⟩ := CM.bind_eq_ret.1 h
  injection h2 with h2; subst h2
  obtain ⟨a1, ⟨es, new, a2, a3⟩, op', a4, a5⟩ := (hg j).step h1
  have hdrop : k.log.drop (v.cli j).log.length = new := by rw [a2]; simp
  refine ⟨fun i => ?_, fun i => ?_, op', ?_, a5⟩
  · by_cases hi : i = j
    · subst hi; simpa using a1
    · simpa [hi] using hg i
  · simp only [atClient_append, hdrop, atClient_cli, hl]
    by_cases hi : j = i
    · subst hi; simp [a2]
    · have : i ≠ j := fun e => hi e.symm
      simp [hi, this]
  · simp only [World.clientStep]
    rw [show (v.flat.cli j) = (v.cli j).flat from rfl, a4]
    simp only [CM.ret_bind, CM.pure_eq, CM.ret.injEq]
    have : k.flat.log.drop (v.cli j).flat.log.length = new.filterMap PKEv.flat := by
      simp only [Plk.flat, a2, List.filterMap_append]; simp
    rw [this]
    simp only [flat, flatLog_append, hdrop, flatLog_cli, World.mk.injEq, and_true]
    funext i
    by_cases hi : i = j <;> simp [hi]

theorem serverStep_flat {env : WorldEnv W} {v v' : PWorld W} {op : Svk.Op} (h : v.serverStep env op = .ret v') :
    v.flat.serverStep env op = .ret v'.flat ∧ v'.cli = v.cli ∧ ∀ j, atClient j v'.log = atClient j v.log := by
  obtain ⟨s, h1, h2⟩ := CM.bind_eq_ret.1 h
  injection h2 with h2; subst h2
  refine ⟨?_, by rfl, fun j => by rw [atClient_append, atClient_srv, List.append_nil]⟩
  simp only [World.serverStep]
  rw [show v.flat.srv = v.srv from rfl, h1]
  simp only [CM.ret_bind, CM.pure_eq, flat, flatLog_append, flatLog_srv]

theorem Good.stay {env : WorldEnv W} {w : W} {v v' : PWorld W} (h : Good env w v) (he : CM.ret v = CM.ret v') : Good env w v' := by
  injection he with he; subst he; exact h

theorem Good.step {env : WorldEnv W} {w : W} {v v' : PWorld W} (h : Good env w v) {op : Op} (hs : v.step env op = .ret v') : Good env w v' := by
  cases op with
  | client j op =>
    simp only [PWorld.step] at hs
    cases hg : givesClient op with
    | true => rw [hg] at hs; exact h.stay hs
    | false =>
      rw [hg] at hs
      obtain ⟨a1, a2, op', a3, -, a5⟩ := clientStep_flat h.cli h.log (by simpa using hs)
      refine ⟨h.flat.step (op := .client j op') ?_, a1, a2⟩
      have : World.givesClient op' = false := by
        cases op' with
        | complete i r =>
          rw [a5 i r rfl] at hg
          cases r <;> first | rfl | cases hg
        | _ => rfl
      simp only [World.step, this]; simpa using a3
  | server op =>
    simp only [PWorld.step] at hs
    cases hg : World.givesServer op with
    | true => rw [hg] at hs; exact h.stay hs
    | false =>
      rw [hg] at hs
      obtain ⟨a1, a2, a3⟩ := serverStep_flat (v := v) (by simpa using hs)
      refine ⟨h.flat.step (op := .server op) (by simp only [World.step, hg]; simpa using a1), by rw [a2]; exact h.cli, fun j => by rw [a3, a2, h.log]⟩
  | arrive i d =>
    simp only [PWorld.step] at hs
    split at hs
    · rename_i c hc
      cases hm : v.mayArrive env c d with
      | false => rw [hm] at hs; exact h.stay (by simpa using hs)
      | true =>
        rw [hm] at hs
        simp only [if_true] at hs
        obtain ⟨a1, a2, a3⟩ := serverStep_flat hs
        refine ⟨h.flat.step (op := .arrive i d) ?_, by rw [a2]; exact h.cli, fun j => by rw [a3, a2, h.log]⟩
        simp only [World.step, show v.flat.srv = v.srv from rfl, hc]
        have : v.flat.mayArrive env c d = true := hm
        simp only [this, if_true]
        exact a1
    · exact h.stay hs
  | hear j i c d =>
    simp only [PWorld.step] at hs
    split at hs
    · rename_i n hc
      cases hm : v.mayHear env j n c d with
      | false => rw [hm] at hs; exact h.stay (by simpa using hs)
      | true =>
        rw [hm] at hs
        simp only [if_true] at hs
        obtain ⟨a1, a2, op', a3, a4, -⟩ := clientStep_flat (v := { v with down := fun j' n' => if j' = j ∧ n' = n then v.down j n ++ d else v.down j' n' })
          h.cli h.log hs
        obtain rfl := a4 _ _ rfl
        refine ⟨h.flat.step (op := .hear j i c d) ?_, a1, a2⟩
        simp only [World.step, show (v.flat.cli j).tcp = (v.cli j).tcp from rfl, hc]
        have : v.flat.mayHear env j n c d = true := hm
        simp only [this, if_true]
        exact a3
    · exact h.stay hs

theorem _root_.Modbus.Spec.PWReach.good {env : WorldEnv W} {w : W} {v : PWorld W} (h : PWReach env w v) : Good env w v := by
  induction h with
  | init => exact ⟨.init, fun j => Plk.Good.init _, fun j => by rfl⟩
  | step _ hs ih => exact ih.step hs

/-- Each client is a client with scheduled requests as in Model/Polling.lean. -/
theorem Good.client {env : WorldEnv W} {w : W} {v : PWorld W} (h : Good env w v) (j : Nat) :
    Props.LReach (env.client j).client (v.cli j).pcl ∧ (v.cli j).pcl.log = atClient j v.log :=
  ⟨(h.cli j).reach, by rw [h.log]; exact (h.cli j).log⟩

theorem _root_.Modbus.Spec.CalmPolling.flat {env : WorldEnv W} {j : Nat} {v : PWorld W} (h : CalmPolling env j v) : Calm env j v.flat :=
  ⟨h.steps, h.quiet, fun c n hp => by
    have := h.server c n hp
    refine ⟨this.1, ?_⟩
    rw [show v.flat.log = flatLog v.log from rfl, atServer_flat]
    exact this.2⟩

theorem _root_.Modbus.Spec.CalmPollingSending.flat {env : WorldEnv W} {j : Nat} {v : PWorld W} (h : CalmPollingSending env j v) : CalmSending env j v.flat :=
  ⟨h.steps, fun c n hp => by
    rw [show v.flat.log = flatLog v.log from rfl, atServer_flat]
    exact h.quiet c n hp⟩

end PWorld

end Modbus
