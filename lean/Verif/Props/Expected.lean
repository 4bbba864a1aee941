import Verif.Model.Expected

/-! C74: an `Expected` is a value or an exception. -/

namespace Modbus.Props

open Modbus

/-- What an `Expected` is supposed to hold. -/
inductive Content (T : Type) where
  | value (t : T)
  | error (e : ExcObj)

/-- `c` is `E`, or derives from it directly or indirectly. -/
inductive DerivesFrom : ExcClass → ExcClass → Prop where
  | refl (c : ExcClass) : DerivesFrom c c
  | step {c b E : ExcClass} : c.base = some b → DerivesFrom b E → DerivesFrom c E

/-- `x` was made to hold `c`: from a value, from an exception, or by any chain of copies and moves from such objects. -/
inductive Made {T : Type} (moved : T → T) : Exp T → Content T → Prop where
  | value (t : T) : Made moved (.ofValue t) (.value t)
  /-- From an exception given with its own class. -/
  | exception (e : ExcObj) (x : Exp T) : Exp.ofException e.cls e = .ok x → Made moved x (.error e)
  /-- From a (non-null) pointer to an exception, as obtained from `get_exception`. -/
  | pointer (e : ExcObj) : Made moved (.ofPtr (some e)) (.error e)
  | copy {x y : Exp T} {c : Content T} : Made moved x c → x.copy = .ret y → Made moved y c
  | move {x y z : Exp T} {c : Content T} : Made moved x c → x.move moved = .ret (y, z) → Made moved y c

namespace ExpAux

variable {T : Type}

/-- The object with content `c`. -/
def of : Content T → Exp T
  | .value t => { slot := .value t, hasValue := some true }
  | .error e => { slot := .exc (some e), hasValue := some false }

theorem made_eq {moved : T → T} {x : Exp T} {c : Content T} (h : Made moved x c) : x = of c := by
  induction h with
  | value t => rfl
  | exception e x hx =>
    simp only [Exp.ofException, ite_self, ne_eq, not_true, if_false, Except.ok.injEq] at hx
    rw [← hx]; rfl
  | pointer e => rfl
  | @copy x y c _ hc ih =>
    subst ih
    cases c <;> · cases hc; rfl
  | @move x y z c _ hm ih =>
    subst ih
    cases c <;> · cases hm; rfl

theorem caughtBy_iff (c E : ExcClass) : c.caughtBy E = true ↔ DerivesFrom c E := by
  constructor
  · intro h
    induction c with
    | derived n b ih =>
      unfold ExcClass.caughtBy at h
      simp only [Bool.or_eq_true, beq_iff_eq] at h
      rcases h with h | h
      · subst h; exact .refl _
      · exact .step rfl (ih h)
    | connection | malformedRequest | malformedResponse | modbus | timeout =>
      unfold ExcClass.caughtBy at h
      simp only [Bool.or_eq_true, beq_iff_eq] at h
      rcases h with h | h
      · subst h; exact .refl _
      · subst h; exact .step rfl (.refl _)
    | iException | invalidArgument | user _ _ =>
      unfold ExcClass.caughtBy at h
      simp only [Bool.or_false, beq_iff_eq] at h
      subst h; exact .refl _
  · intro h
    induction h with
    | refl c => unfold ExcClass.caughtBy; simp
    | @step c b E hb hd ih =>
      have root : ∀ E, DerivesFrom .iException E → E = .iException := by
        intro E h
        cases h with
        | refl => rfl
        | step hb _ => cases hb
      cases c with
      | derived n b' =>
        cases hb
        unfold ExcClass.caughtBy
        simp [ih]
      | connection | malformedRequest | malformedResponse | modbus | timeout =>
        cases hb
        rw [root _ hd]; rfl
      | iException | invalidArgument | user _ _ => cases hb

end ExpAux

/-- C74: an `Expected` made from a value is valid, `get` returns that value, no exception is reported whatever the class asked for, and
asking for the exception raises `std::invalid_argument`. -/
theorem C74_value {T : Type} (moved : T → T) (x : Exp T) (t : T) (h : Made moved x (.value t)) :
    x.isValid = .ret true ∧ x.get = .ret (.ok t) ∧ (∀ E, x.hasException E = .ret false) ∧
    (∃ e, x.getPtr = .ret (.error e) ∧ e.cls = .invalidArgument) ∧
    (∀ E, ∃ e, x.getAs E = .ret (.error e) ∧ e.cls = .invalidArgument) := by
  rw [ExpAux.made_eq h]
  exact ⟨rfl, rfl, fun _ => rfl, ⟨_, rfl, rfl⟩, fun _ => ⟨_, rfl, rfl⟩⟩

/-- C74: an `Expected` made from an exception is not valid, `get` raises exactly that exception, `has_exception<E>` holds exactly if the
exception's class is `E` or derives from it, and `get_exception<E>` then returns it as an `E`. -/
theorem C74_exception {T : Type} (moved : T → T) (x : Exp T) (e : ExcObj) (h : Made moved x (.error e)) :
    x.isValid = .ret false ∧ x.get = .ret (.error e) ∧ x.getPtr = .ret (.ok (some e)) ∧
    (∀ E, ∃ b, x.hasException E = .ret b ∧ (b = true ↔ DerivesFrom e.cls E)) ∧
    (∀ E, DerivesFrom e.cls E → x.getAs E = .ret (.ok { cls := E, content := e.content })) ∧
    (∀ E, ¬ DerivesFrom e.cls E → ∃ e', x.getAs E = .ret (.error e') ∧ e'.cls = .invalidArgument) := by
  rw [ExpAux.made_eq h]
  refine ⟨rfl, rfl, rfl, fun E => ⟨_, rfl, ExpAux.caughtBy_iff _ _⟩, fun E hE => ?_, fun E hE => ?_⟩
  · have := (ExpAux.caughtBy_iff e.cls E).2 hE
    simp [ExpAux.of, Exp.getAs, Exp.flag, Exp.readExc, this]
  · have : e.cls.caughtBy E = false := by
      cases hh : e.cls.caughtBy E with
      | false => rfl
      | true => exact absurd ((ExpAux.caughtBy_iff e.cls E).1 hh) hE
    exact ⟨{ cls := .invalidArgument, content := 0 }, by simp [ExpAux.of, Exp.getAs, Exp.flag, Exp.readExc, this], rfl⟩

/-- C74: such objects can be copied, moved and destroyed without undefined behaviour, and what a move leaves behind can be destroyed. -/
theorem C74_lifetime {T : Type} (moved : T → T) (x : Exp T) (c : Content T) (h : Made moved x c) :
    (∃ y, x.copy = .ret y ∧ Made moved y c) ∧
    (∃ y z, x.move moved = .ret (y, z) ∧ Made moved y c ∧ z.destroy = .ret ()) ∧ x.destroy = .ret () := by
  have hx := ExpAux.made_eq h
  have h1 : ∃ y, x.copy = .ret y := by rw [hx]; cases c <;> exact ⟨_, rfl⟩
  have h2 : ∃ y z, x.move moved = .ret (y, z) ∧ z.destroy = .ret () := by
    rw [hx]; cases c <;> exact ⟨_, _, rfl, rfl⟩
  obtain ⟨y, hy⟩ := h1
  obtain ⟨y', z, hm, hz⟩ := h2
  refine ⟨⟨y, hy, .copy h hy⟩, ⟨y', z, hm, .move h hm, hz⟩, ?_⟩
  rw [hx]; cases c <;> rfl

/-- An exception given through a reference to a base class: the check for slicing only works if the class is polymorphic; the
library's classes are not, so a `TimeoutException` passed as an `IException` is stored as a mere `IException`. -/
theorem C74_slicing_not_detected (T : Type) : ∃ x : Exp T, Exp.ofException .iException { cls := .timeout, content := 5 } = .ok x ∧
    x.hasException .timeout = .ret false ∧ x.hasException .iException = .ret true :=
  ⟨_, rfl, rfl, rfl⟩

/-- For polymorphic classes slicing is refused. -/
theorem C74_slicing_detected (T : Type) (E : ExcClass) (obj : ExcObj) (hp : E.polymorphic = true) (hne : obj.cls ≠ E) :
    ∃ e, (Exp.ofException E obj : Except ExcObj (Exp T)) = .error e ∧ e.cls = .invalidArgument := by
  refine ⟨{ cls := .invalidArgument, content := 0 }, ?_, rfl⟩
  simp [Exp.ofException, hp, hne]

/-- What is left after moving from an exception must not be asked: `is_valid` still answers, `get` and `has_exception` are undefined. -/
theorem C74_moved_from (T : Type) (moved : T → T) (e : ExcObj) (E : ExcClass) :
    ∃ y z : Exp T, (Exp.ofPtr (some e)).move moved = .ret (y, z) ∧ z.isValid = .ret false ∧ z.get = .ub ∧ z.hasException E = .ub :=
  ⟨_, _, rfl, rfl, rfl, rfl⟩

/-- A moved copy of a timeout. -/
theorem madeDemo : Made (T := Nat) id { slot := .exc (some ⟨.timeout, 3⟩), hasValue := some false } (.error ⟨.timeout, 3⟩) :=
  .move (z := { slot := .exc none, hasValue := some false })
    (.copy (x := { slot := .exc (some ⟨.timeout, 3⟩), hasValue := some false }) (.exception ⟨.timeout, 3⟩ _ rfl) rfl) rfl

example : DerivesFrom (ExcClass.derived 4 .timeout) .iException := .step rfl (.step rfl (.refl _))

example : ∃ b, Exp.hasException (T := Nat) { slot := .exc (some ⟨.timeout, 3⟩), hasValue := some false } .iException = .ret b ∧
    (b = true ↔ DerivesFrom .timeout .iException) := (C74_exception id _ _ madeDemo).2.2.2.1 .iException

example : (Exp.ofValue 12).get = .ret (.ok 12) := (C74_value id _ 12 (.value 12)).2.1

example : ExcClass.invalidArgument.polymorphic = true ∧ (ExcObj.mk (.derived 1 .invalidArgument) 0).cls ≠ .invalidArgument := by decide

end Modbus.Props
