import Verif.Lemmas.PollingParts
import Verif.Props.ClientTime
import Verif.Spec.Polling

/-! Helper lemmas about polling clients: the log is made of blocks (a scheduled request's sending is a call of the channel, the
channel's call of a handler that belongs to a scheduled request is that request's handling), kept by every step. -/

namespace Modbus

open Spec

@[simp] theorem ofChannel_append (a b : List LEv) : ofChannel (a ++ b) = ofChannel a ++ ofChannel b := by simp [ofChannel]
@[simp] theorem ofSession_append (s : Nat) (a b : List LEv) : ofSession s (a ++ b) = ofSession s a ++ ofSession s b := by simp [ofSession]
@[simp] theorem effectsOf_append (i : Nat) (a b : List SessEv) : effectsOf i (a ++ b) = effectsOf i a ++ effectsOf i b := by simp [effectsOf]
@[simp] theorem ofPoll_append (s i : Nat) (a b : List LEv) : ofPoll s i (a ++ b) = ofPoll s i a ++ ofPoll s i b := by simp [ofPoll]
@[simp] theorem openings_append (a b : List LEv) : openings (a ++ b) = openings a ++ openings b := by simp [openings]
@[simp] theorem schedulings_append (s : Nat) (a b : List LEv) : schedulings s (a ++ b) = schedulings s a ++ schedulings s b := by
  simp [schedulings]

theorem mem_ofChannel {l : List LEv} {e : CEv} : e ∈ ofChannel l ↔ LEv.ch e ∈ l := by
  simp only [ofChannel, List.mem_filterMap]
  constructor
  · rintro ⟨x, hx, h⟩
    cases x <;> simp at h
    subst h; exact hx
  · intro h; exact ⟨_, h, rfl⟩

theorem mem_ofSession {s : Nat} {l : List LEv} {e : SessEv} : e ∈ ofSession s l ↔ LEv.sess s e ∈ l := by
  simp only [ofSession, List.mem_filterMap]
  constructor
  · rintro ⟨x, hx, h⟩
    cases x <;> simp at h
    obtain ⟨rfl, rfl⟩ := h; exact hx
  · intro h; exact ⟨_, h, by simp⟩

theorem mem_effectsOf {i : Nat} {l : List SessEv} {e : PEv} : e ∈ effectsOf i l ↔ SessEv.poll i e ∈ l := by
  simp only [effectsOf, List.mem_filterMap]
  constructor
  · rintro ⟨x, hx, h⟩
    cases x <;> simp at h
    obtain ⟨rfl, rfl⟩ := h; exact hx
  · intro h; exact ⟨_, h, by simp⟩

theorem mem_ofPoll {s i : Nat} {l : List LEv} {e : PEv} : e ∈ ofPoll s i l ↔ LEv.sess s (.poll i e) ∈ l := by
  rw [ofPoll, mem_effectsOf, mem_ofSession]

theorem mem_pollsSent {l : List PEv} {id : Nat} : id ∈ pollsSent l ↔ ∃ t, PEv.sent id t ∈ l := by
  simp only [pollsSent, List.mem_filterMap]
  constructor
  · rintro ⟨x, hx, h⟩
    cases x <;> simp at h
    subst h; exact ⟨_, hx⟩
  · rintro ⟨t, h⟩; exact ⟨_, h, rfl⟩

theorem mem_pollsHandled {l : List PEv} {id : Nat} : id ∈ pollsHandled l ↔ ∃ t, PEv.handled id t ∈ l := by
  simp only [pollsHandled, List.mem_filterMap]
  constructor
  · rintro ⟨x, hx, h⟩
    cases x <;> simp at h
    subst h; exact ⟨_, hx⟩
  · rintro ⟨t, h⟩; exact ⟨_, h, rfl⟩

/-- Events that are alone. -/
def LEv.plain : LEv → Bool
  | .ch (.call ..) => false
  | .ch (.handler ..) => false
  | .sess _ (.poll _ (.sent _ _)) => false
  | .sess _ (.poll _ (.handled _ _)) => false
  | _ => true

/-- Logs made of blocks, with the owners of calls. -/
inductive Blocks : List LEv → List (Nat × Nat × Nat × Nat) → Prop where
  | nil : Blocks [] []
  | plain {l : List LEv} {o : List (Nat × Nat × Nat × Nat)} {e : LEv} : Blocks l o → e.plain = true → Blocks (l ++ [e]) o
  | call {l : List LEv} {o : List (Nat × Nat × Nat × Nat)} {uid : Nat} {unit : UInt8} {q : AnyReq} {tmo : Nat} : Blocks l o →
      (∀ a b c, LEv.ch (.call uid a b c) ∉ l) → Blocks (l ++ [.ch (.call uid unit q tmo)]) o
  | poll {l : List LEv} {o : List (Nat × Nat × Nat × Nat)} {uid : Nat} {unit : UInt8} {q : AnyReq} {tmo f s i id t : Nat} : Blocks l o →
      (∀ a b c, LEv.ch (.call uid a b c) ∉ l) → LEv.opened s unit ∈ l → LEv.scheduled s i q tmo f ∈ l →
      (∀ t, LEv.sess s (.poll i (.sent id t)) ∉ l) →
      Blocks (l ++ [.sess s (.poll i (.sent id t)), .ch (.call uid unit q tmo)]) (o ++ [(uid, s, i, id)])
  | handler {l : List LEv} {o : List (Nat × Nat × Nat × Nat)} {uid : Nat} {x : Expected (List UInt8)} {t : Nat} : Blocks l o →
      o.lookup uid = none → (∃ a b c, LEv.ch (.call uid a b c) ∈ l) → (∀ x t, LEv.ch (.handler uid x t) ∉ l) →
      Blocks (l ++ [.ch (.handler uid x t)]) o
  | answer {l : List LEv} {o : List (Nat × Nat × Nat × Nat)} {uid s i id : Nat} {x : Expected (List UInt8)} {t : Nat} : Blocks l o →
      o.lookup uid = some (s, i, id) → (∀ x t, LEv.ch (.handler uid x t) ∉ l) →
      Blocks (l ++ [.ch (.handler uid x t), .sess s (.poll i (.handled id t))]) o

namespace Blocks

theorem plains {l : List LEv} {o : List (Nat × Nat × Nat × Nat)} (h : Blocks l o) : ∀ (es : List LEv), (∀ e ∈ es, e.plain = true) →
    Blocks (l ++ es) o := by
  intro es
  induction es generalizing l with
  | nil => intro _; simpa using h
  | cons e es ih =>
    intro he
    have := ih (h.plain (he e (.head _))) fun x hx => he x (.tail _ hx)
    simpa using this

/-- Every owned call is in the log, right after the sending. -/
theorem owned {l : List LEv} {o : List (Nat × Nat × Nat × Nat)} (h : Blocks l o) {uid s i id : Nat} (hm : (uid, s, i, id) ∈ o) :
    ∃ a t unit q tmo f b, l = a ++ .sess s (.poll i (.sent id t)) :: .ch (.call uid unit q tmo) :: b ∧ LEv.opened s unit ∈ a ∧
      LEv.scheduled s i q tmo f ∈ a := by
  have ext : ∀ {l : List LEv} (x : List LEv), (∃ a t unit q tmo f b, l = a ++ .sess s (.poll i (.sent id t)) :: .ch (.call uid unit q tmo) :: b ∧
      LEv.opened s unit ∈ a ∧ LEv.scheduled s i q tmo f ∈ a) → ∃ a t unit q tmo f b,
      l ++ x = a ++ .sess s (.poll i (.sent id t)) :: .ch (.call uid unit q tmo) :: b ∧ LEv.opened s unit ∈ a ∧ LEv.scheduled s i q tmo f ∈ a := by
    rintro l x ⟨a, t, unit, q, tmo, f, b, rfl, h1, h2⟩
    exact ⟨a, t, unit, q, tmo, f, b ++ x, by simp, h1, h2⟩
  induction h with
  | nil => cases hm
  | plain _ _ ih => exact ext _ (ih hm)
  | call _ _ ih => exact ext _ (ih hm)
  | handler _ _ _ _ ih => exact ext _ (ih hm)
  | answer _ _ _ ih => exact ext _ (ih hm)
  | @poll l o uid' unit q tmo f s' i' id' t _ hf h1 h2 h3 ih =>
    rcases List.mem_append.1 hm with hm | hm
    · exact ext _ (ih hm)
    · simp only [List.mem_singleton, Prod.mk.injEq] at hm
      obtain ⟨rfl, rfl, rfl, rfl⟩ := hm
      exact ⟨l, t, unit, q, tmo, f, [], rfl, h1, h2⟩

theorem owned_call {l : List LEv} {o : List (Nat × Nat × Nat × Nat)} (h : Blocks l o) {uid s i id : Nat} (hm : (uid, s, i, id) ∈ o) :
    (∃ a b c, LEv.ch (.call uid a b c) ∈ l) ∧ ∃ t, LEv.sess s (.poll i (.sent id t)) ∈ l := by
  obtain ⟨a, t, unit, q, tmo, f, b, rfl, -, -⟩ := h.owned hm
  exact ⟨⟨unit, q, tmo, by simp⟩, t, by simp⟩

/-- No call has two owners, and no sending owns two calls. -/
theorem owner_unique {l : List LEv} {o : List (Nat × Nat × Nat × Nat)} (h : Blocks l o) : (o.map (·.1)).Nodup ∧ (o.map (·.2)).Nodup := by
  induction h with
  | nil => exact ⟨List.nodup_nil, List.nodup_nil⟩
  | plain _ _ ih => exact ih
  | call _ _ ih => exact ih
  | handler _ _ _ _ ih => exact ih
  | answer _ _ _ ih => exact ih
  | @poll l o uid unit q tmo f s i id t hb hf h1 h2 h3 ih =>
    simp only [List.map_append, List.map_cons, List.map_nil]
    refine ⟨List.nodup_append.2 ⟨ih.1, List.nodup_singleton _, ?_⟩, List.nodup_append.2 ⟨ih.2, List.nodup_singleton _, ?_⟩⟩
    · intro x hx y hy
      rw [List.mem_singleton] at hy
      obtain ⟨⟨u, s', i', id'⟩, hm, rfl⟩ := List.mem_map.1 hx
      rintro rfl
      subst hy
      obtain ⟨⟨a, b, c, hc⟩, -⟩ := hb.owned_call hm
      exact hf a b c hc
    · intro x hx y hy
      rw [List.mem_singleton] at hy
      obtain ⟨⟨u, s', i', id'⟩, hm, rfl⟩ := List.mem_map.1 hx
      rintro rfl
      simp only [Prod.mk.injEq] at hy
      obtain ⟨rfl, rfl, rfl⟩ := hy
      obtain ⟨-, t', ht⟩ := hb.owned_call hm
      exact h3 t' ht

/-- Where an event of a log with one more block is. -/
theorem _root_.Modbus.split_block {α : Type} {l blk a b : List α} {e : α} (h : l ++ blk = a ++ e :: b) :
    (∃ b', b = b' ++ blk ∧ l = a ++ e :: b') ∨ ∃ x, blk = x ++ e :: b ∧ a = l ++ x := by
  rcases List.append_eq_append_iff.1 h with ⟨x, h1, h2⟩ | ⟨x, h1, h2⟩
  · exact .inr ⟨x, h2, h1⟩
  · cases x with
    | nil => exact .inr ⟨[], by simpa using h2.symm, by simpa using h1.symm⟩
    | cons y ys =>
      simp only [List.cons_append, List.cons.injEq] at h2
      obtain ⟨rfl, rfl⟩ := h2
      exact .inl ⟨ys, rfl, h1⟩

/-- Handling in the log comes from the channel's call of the handler of an owned call. -/
theorem handled {l : List LEv} {o : List (Nat × Nat × Nat × Nat)} (h : Blocks l o) : ∀ {a b : List LEv} {s i id t : Nat},
    l = a ++ .sess s (.poll i (.handled id t)) :: b →
    ∃ a' uid x o', a = a' ++ [.ch (.handler uid x t)] ∧ Blocks a' o' ∧ o' <+: o ∧ o'.lookup uid = some (s, i, id) := by
  induction h with
  | nil => intro a b s i id t he; simp at he
  | @plain l o e hb hp ih =>
    intro a b s i id t he
    rcases split_block he with ⟨b', -, h1⟩ | ⟨x, hx, -⟩
    · exact ih h1
    · cases x with
      | nil => injection hx with hx; subst hx; cases hp
      | cons y ys => simp at hx
  | @call l o uid unit q tmo hb hf ih =>
    intro a b s i id t he
    rcases split_block he with ⟨b', -, h1⟩ | ⟨x, hx, -⟩
    · exact ih h1
    · cases x with
      | nil => injection hx with hx; cases hx
      | cons y ys => simp at hx
  | @handler l o uid x t' hb hl hc hn ih =>
    intro a b s i id t he
    rcases split_block he with ⟨b', -, h1⟩ | ⟨x, hx, -⟩
    · exact ih h1
    · cases x with
      | nil => injection hx with hx; cases hx
      | cons y ys => simp at hx
  | @poll l o uid unit q tmo f s' i' id' t' hb hf h1 h2 h3 ih =>
    intro a b s i id t he
    rcases split_block he with ⟨b', -, h1⟩ | ⟨x, hx, -⟩
    · obtain ⟨a', uid', x, o', e1, e2, e3, e4⟩ := ih h1
      exact ⟨a', uid', x, o', e1, e2, e3.trans (List.prefix_append _ _), e4⟩
    · rcases x with _ | ⟨y, _ | ⟨z, zs⟩⟩ <;> simp at hx
  | @answer l o uid s' i' id' x t' hb hl hn ih =>
    intro a b s i id t he
    rcases split_block he with ⟨b', -, h1⟩ | ⟨y, hx, ha⟩
    · exact ih h1
    · rcases y with _ | ⟨y, _ | ⟨z, zs⟩⟩ <;> simp at hx
      obtain ⟨rfl, ⟨rfl, rfl, rfl, rfl⟩, -⟩ := hx
      exact ⟨l, uid, x, o, ha, hb, List.prefix_rfl, hl⟩

/-- A scheduled request's sending is a call of the channel, which it owns. -/
theorem sending {l : List LEv} {o : List (Nat × Nat × Nat × Nat)} (h : Blocks l o) : ∀ {a b : List LEv} {s i id t : Nat},
    l = a ++ .sess s (.poll i (.sent id t)) :: b →
    ∃ uid unit q tmo f b', b = .ch (.call uid unit q tmo) :: b' ∧ (uid, s, i, id) ∈ o ∧ LEv.opened s unit ∈ a ∧
      LEv.scheduled s i q tmo f ∈ a := by
  induction h with
  | nil => intro a b s i id t he; simp at he
  | @plain l o e hb hp ih =>
    intro a b s i id t he
    rcases split_block he with ⟨b', rfl, h1⟩ | ⟨x, hx, -⟩
    · obtain ⟨uid, unit, q, tmo, f, c, rfl, h2⟩ := ih h1
      exact ⟨uid, unit, q, tmo, f, c ++ [e], by simp, h2⟩
    · cases x with
      | nil => injection hx with hx; subst hx; cases hp
      | cons y ys => simp at hx
  | @call l o uid unit q tmo hb hf ih =>
    intro a b s i id t he
    rcases split_block he with ⟨b', rfl, h1⟩ | ⟨x, hx, -⟩
    · obtain ⟨uid, unit, q, tmo, f, c, rfl, h2⟩ := ih h1
      exact ⟨uid, unit, q, tmo, f, _, rfl, h2⟩
    · cases x with
      | nil => injection hx with hx; cases hx
      | cons y ys => simp at hx
  | @handler l o uid x t' hb hl hc hn ih =>
    intro a b s i id t he
    rcases split_block he with ⟨b', rfl, h1⟩ | ⟨x, hx, -⟩
    · obtain ⟨uid, unit, q, tmo, f, c, rfl, h2⟩ := ih h1
      exact ⟨uid, unit, q, tmo, f, _, rfl, h2⟩
    · cases x with
      | nil => injection hx with hx; cases hx
      | cons y ys => simp at hx
  | @poll l o uid unit q tmo f s' i' id' t' hb hf h1 h2 h3 ih =>
    intro a b s i id t he
    rcases split_block he with ⟨b', rfl, h1⟩ | ⟨x, hx, ha⟩
    · obtain ⟨uid, unit, q, tmo, f, c, rfl, h2, h3⟩ := ih h1
      exact ⟨uid, unit, q, tmo, f, _, rfl, List.mem_append_left _ h2, h3⟩
    · rcases x with _ | ⟨y, _ | ⟨z, zs⟩⟩ <;> simp at hx
      obtain ⟨⟨rfl, rfl, rfl, rfl⟩, rfl⟩ := hx
      simp only [List.append_nil] at ha
      subst ha
      exact ⟨uid, unit, q, tmo, f, [], rfl, by simp, h1, h2⟩
  | @answer l o uid s' i' id' x t' hb hl hn ih =>
    intro a b s i id t he
    rcases split_block he with ⟨b', rfl, h1⟩ | ⟨y, hx, ha⟩
    · obtain ⟨uid, unit, q, tmo, f, c, rfl, h2⟩ := ih h1
      exact ⟨uid, unit, q, tmo, f, _, rfl, h2⟩
    · rcases y with _ | ⟨y, _ | ⟨z, zs⟩⟩ <;> simp at hx

/-- The channel's call of the handler of an owned call is the owner's handling. -/
theorem handling {l : List LEv} {o : List (Nat × Nat × Nat × Nat)} (h : Blocks l o) : ∀ {a b : List LEv} {uid : Nat} {x : Expected (List UInt8)}
    {s i id t : Nat}, (uid, s, i, id) ∈ o → l = a ++ .ch (.handler uid x t) :: b → ∃ b', b = .sess s (.poll i (.handled id t)) :: b' := by
  induction h with
  | nil => intro a b uid x s i id t hm; cases hm
  | @plain l o e hb hp ih =>
    intro a b uid x s i id t hm he
    rcases split_block he with ⟨b', rfl, h1⟩ | ⟨x, hx, -⟩
    · obtain ⟨c, rfl⟩ := ih hm h1
      exact ⟨_, rfl⟩
    · cases x with
      | nil => injection hx with hx; subst hx; cases hp
      | cons y ys => simp at hx
  | @call l o uid unit q tmo hb hf ih =>
    intro a b uid x s i id t hm he
    rcases split_block he with ⟨b', rfl, h1⟩ | ⟨x, hx, -⟩
    · obtain ⟨c, rfl⟩ := ih hm h1
      exact ⟨_, rfl⟩
    · cases x with
      | nil => injection hx with hx; cases hx
      | cons y ys => simp at hx
  | @handler l o uid' x t' hb hl hc hn ih =>
    intro a b uid x s i id t hm he
    rcases split_block he with ⟨b', rfl, h1⟩ | ⟨x, hx, -⟩
    · obtain ⟨c, rfl⟩ := ih hm h1
      exact ⟨_, rfl⟩
    · cases x with
      | nil =>
        simp only [List.nil_append, List.cons.injEq, LEv.ch.injEq, CEv.handler.injEq] at hx
        obtain ⟨⟨rfl, -⟩, -⟩ := hx
        rw [Poll.lookup_of_mem hb.owner_unique.1 hm] at hl
        cases hl
      | cons y ys => simp at hx
  | @poll l o uid' unit q tmo f s' i' id' t' hb hf h1 h2 h3 ih =>
    intro a b uid x s i id t hm he
    rcases split_block he with ⟨b', rfl, h4⟩ | ⟨x, hx, ha⟩
    · rcases List.mem_append.1 hm with hm | hm
      · obtain ⟨c, rfl⟩ := ih hm h4
        exact ⟨_, rfl⟩
      · simp only [List.mem_singleton, Prod.mk.injEq] at hm
        obtain ⟨rfl, rfl, rfl, rfl⟩ := hm
        exfalso
        have hh : LEv.ch (.handler uid x t) ∈ l := by rw [h4]; simp
        clear ih he h4 h1 h2 h3
        have key : ∀ {l : List LEv} {o : List (Nat × Nat × Nat × Nat)}, Blocks l o → LEv.ch (.handler uid x t) ∈ l →
            ∃ a b c, LEv.ch (.call uid a b c) ∈ l := by
          intro l o hb
          induction hb with
          | nil => intro hm; cases hm
          | @plain l o e hb hp ih =>
            intro hm
            rcases List.mem_append.1 hm with hm | hm
            · obtain ⟨a, b, c, h⟩ := ih hm
              exact ⟨a, b, c, List.mem_append_left _ h⟩
            · rw [List.mem_singleton] at hm; subst hm; cases hp
          | call _ _ ih =>
            intro hm
            rcases List.mem_append.1 hm with hm | hm
            · obtain ⟨a, b, c, h⟩ := ih hm
              exact ⟨a, b, c, List.mem_append_left _ h⟩
            · simp at hm
          | handler _ _ hc _ ih =>
            intro hm
            rcases List.mem_append.1 hm with hm | hm
            · obtain ⟨a, b, c, h⟩ := ih hm
              exact ⟨a, b, c, List.mem_append_left _ h⟩
            · simp only [List.mem_singleton, LEv.ch.injEq, CEv.handler.injEq] at hm
              obtain ⟨rfl, -⟩ := hm
              obtain ⟨a, b, c, h⟩ := hc
              exact ⟨a, b, c, List.mem_append_left _ h⟩
          | poll _ _ _ _ _ ih =>
            intro hm
            rcases List.mem_append.1 hm with hm | hm
            · obtain ⟨a, b, c, h⟩ := ih hm
              exact ⟨a, b, c, List.mem_append_left _ h⟩
            · simp at hm
          | answer hb hl hn ih =>
            intro hm
            rcases List.mem_append.1 hm with hm | hm
            · obtain ⟨a, b, c, h⟩ := ih hm
              exact ⟨a, b, c, List.mem_append_left _ h⟩
            · simp at hm
              obtain ⟨rfl, -⟩ := hm
              obtain ⟨⟨a, b, c, h⟩, -⟩ := hb.owned_call (Poll.lookup_mem _ _ _ hl)
              exact ⟨a, b, c, List.mem_append_left _ h⟩
        obtain ⟨a, b, c, h⟩ := key hb hh
        exact hf a b c h
    · rcases x with _ | ⟨y, _ | ⟨z, zs⟩⟩ <;> simp at hx
  | @answer l o uid' s' i' id' x t' hb hl hn ih =>
    intro a b uid x s i id t hm he
    rcases split_block he with ⟨b', rfl, h1⟩ | ⟨y, hx, ha⟩
    · obtain ⟨c, rfl⟩ := ih hm h1
      exact ⟨_, rfl⟩
    · rcases y with _ | ⟨y, _ | ⟨z, zs⟩⟩ <;> simp at hx
      obtain ⟨⟨rfl, rfl, rfl⟩, rfl⟩ := hx
      rw [Poll.lookup_of_mem hb.owner_unique.1 hm] at hl
      injection hl with hl
      simp only [Prod.mk.injEq] at hl
      obtain ⟨rfl, rfl, rfl⟩ := hl
      exact ⟨[], rfl⟩

/-- What is handled was sent, by the call whose handler was called. -/
theorem handled_owner {l : List LEv} {o : List (Nat × Nat × Nat × Nat)} (h : Blocks l o) {s i id t : Nat}
    (hm : LEv.sess s (.poll i (.handled id t)) ∈ l) : ∃ uid x, (uid, s, i, id) ∈ o ∧ LEv.ch (.handler uid x t) ∈ l := by
  obtain ⟨a, b, rfl⟩ := List.append_of_mem hm
  obtain ⟨a', uid, x, o', rfl, -, hp, hl⟩ := h.handled rfl
  exact ⟨uid, x, hp.subset (Poll.lookup_mem _ _ _ hl), by simp⟩

end Blocks

end Modbus
