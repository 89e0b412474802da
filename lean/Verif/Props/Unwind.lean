import Verif.Model.Unwind
/-!
# C61: statements that are completed take effect
-/
namespace FakeIt
namespace Spec

/-- How test code is meant to run: a statement acts exactly if it is completed, that is, if no exception ends what happens while its object lives. No exceptions
are counted. -/
def ideal : TestCode → TestRun
  | .skip => .ended false []
  | .raise => .ended true []
  | .seq a b =>
    match ideal a with
    | .terminated => .terminated
    | .ended true l => .ended true l
    | .ended false l =>
      match ideal b with
      | .terminated => .terminated
      | .ended t l' => .ended t (l ++ l')
  | .statement id fails during =>
    match ideal during with
    | .terminated => .terminated
    | .ended true l => .ended true l
    | .ended false l => .ended fails (l ++ [id])
  | .object body dtor =>
    match ideal body, ideal dtor with
    | .ended t l, .ended false l' => .ended t (l ++ l')
    | _, _ => .terminated
  | .attempt body handler =>
    match ideal body with
    | .terminated => .terminated
    | .ended false l => .ended false l
    | .ended true l =>
      match ideal handler with
      | .terminated => .terminated
      | .ended t l' => .ended t (l ++ l')

/-- Does the code have FakeIt statements? -/
def hasStatement : TestCode → Bool
  | .skip => false
  | .raise => false
  | .seq a b => hasStatement a || hasStatement b
  | .statement _ _ _ => true
  | .object body dtor => hasStatement body || hasStatement dtor
  | .attempt body handler => hasStatement body || hasStatement handler

/-- No destructor has FakeIt statements. -/
def plainDestructors : TestCode → Bool
  | .skip => true
  | .raise => true
  | .seq a b => plainDestructors a && plainDestructors b
  | .statement _ _ during => plainDestructors during
  | .object body dtor => plainDestructors body && plainDestructors dtor && !hasStatement dtor
  | .attempt body handler => plainDestructors body && plainDestructors handler

/-- Does the code throw by itself? -/
def hasRaise : TestCode → Bool
  | .skip => false
  | .raise => true
  | .seq a b => hasRaise a || hasRaise b
  | .statement _ _ during => hasRaise during
  | .object body dtor => hasRaise body || hasRaise dtor
  | .attempt body handler => hasRaise body || hasRaise handler

end Spec

open Spec

private theorem run_no_statement : ∀ (c : TestCode) (k : Nat), hasStatement c = false → c.run k = ideal c := by
  intro c
  induction c with
  | skip => intros; rfl
  | raise => intros; rfl
  | seq a b iha ihb =>
    intro k h
    simp only [hasStatement, Bool.or_eq_false_iff] at h
    simp only [TestCode.run, ideal, iha k h.1, ihb k h.2]
    cases ideal a with
    | terminated => rfl
    | ended t l => cases t <;> cases ideal b <;> rfl
  | statement id f d ih => intro k h; simp [hasStatement] at h
  | object b d ihb ihd =>
    intro k h
    simp only [hasStatement, Bool.or_eq_false_iff] at h
    simp only [TestCode.run, ideal, ihb k h.1]
    cases ideal b with
    | terminated => rfl
    | ended t l =>
      simp only [ihd _ h.2]
      cases ideal d with
      | terminated => rfl
      | ended t' l' => cases t' <;> rfl
  | attempt b h ihb ihh =>
    intro k hh
    simp only [hasStatement, Bool.or_eq_false_iff] at hh
    simp only [TestCode.run, ideal, ihb k hh.1, ihh k hh.2]
    cases ideal b with
    | terminated => rfl
    | ended t l => cases t <;> cases ideal h <;> rfl

/-- **C61** (partial). A `When`, `Verify` or `VerifyNoOtherInvocations` statement that is completed has its effect, one that an exception ends has none, and the
statements act in the order in which they are completed; this in all code with exceptions, handlers (which may use statements) and destructors. Missing:
statements in destructors, for which it is false (`C61_statements_in_destructors_are_skipped`). -/
theorem C61_completed_statements_act_partial : ∀ (c : TestCode), plainDestructors c = true → c.run 0 = ideal c := by
  intro c
  induction c with
  | skip => intros; rfl
  | raise => intros; rfl
  | seq a b iha ihb =>
    intro h
    simp only [plainDestructors, Bool.and_eq_true] at h
    simp only [TestCode.run, ideal, iha h.1, ihb h.2]
    cases ideal a with
    | terminated => rfl
    | ended t l => cases t <;> cases ideal b <;> rfl
  | statement id f d ih =>
    intro h
    simp only [plainDestructors] at h
    simp only [TestCode.run, ideal, ih h]
    cases ideal d with
    | terminated => rfl
    | ended t l => cases t <;> simp [actsAtEnd, uncaughtException]
  | object b d ihb ihd =>
    intro h
    simp only [plainDestructors, Bool.and_eq_true, Bool.not_eq_true'] at h
    simp only [TestCode.run, ideal, ihb h.1.1]
    cases ideal b with
    | terminated => rfl
    | ended t l =>
      simp only [run_no_statement d _ h.2]
      cases ideal d with
      | terminated => rfl
      | ended t' l' => cases t' <;> rfl
  | attempt b h ihb ihh =>
    intro hh
    simp only [plainDestructors, Bool.and_eq_true] at hh
    simp only [TestCode.run, ideal, ihb hh.1, ihh hh.2]
    cases ideal b with
    | terminated => rfl
    | ended t l => cases t <;> cases ideal h <;> rfl

/-- **C61** (negation). A statement in a destructor that runs because of an exception is completed and has no effect: a failing verification there goes unnoticed. -/
theorem C61_statements_in_destructors_are_skipped (id : Nat) (fails : Bool) (k : Nat) :
    TestCode.run k (.object .raise (.statement id fails .skip)) = .ended true [] ∧
    (.statement id fails .skip : TestCode).run 0 = .ended fails [id] := by
  simp [TestCode.run, actsAtEnd, uncaughtException]

/-- **C61**. FakeIt statements never end the program: whatever statements run while an exception propagates, and whether or not their verifications would fail,
nothing is thrown (and nothing is done). -/
theorem C61_statements_do_not_terminate : ∀ (c : TestCode) (k : Nat), 0 < k → hasRaise c = false → c.run k = .ended false [] := by
  intro c
  induction c with
  | skip => intros; rfl
  | raise => intro k _ h; simp [hasRaise] at h
  | seq a b iha ihb =>
    intro k hk h
    simp only [hasRaise, Bool.or_eq_false_iff] at h
    simp [TestCode.run, iha k hk h.1, ihb k hk h.2]
  | statement id f d ih =>
    intro k hk h
    simp only [hasRaise] at h
    have : 1 ≤ k := hk
    simp [TestCode.run, ih k hk h, actsAtEnd, uncaughtException, this]
  | object b d ihb ihd =>
    intro k hk h
    simp only [hasRaise, Bool.or_eq_false_iff] at h
    simp [TestCode.run, ihb k hk h.1, ihd k hk h.2]
  | attempt b h ihb ihh =>
    intro k hk hh
    simp only [hasRaise, Bool.or_eq_false_iff] at hh
    simp [TestCode.run, ihb k hk hh.1]

namespace Demo

/-- A statement, a scope left by an exception with a statement cut short in it, a handler with a statement. -/
def unwindCode : TestCode :=
  .attempt (.seq (.statement 1 false .skip) (.object (.statement 2 false .raise) .skip)) (.statement 3 true .skip)

example : plainDestructors unwindCode = true ∧ unwindCode.run 0 = .ended true [1, 3] := by decide

example : TestCode.run 1 (.seq (.statement 1 true .skip) (.object (.statement 2 false .skip) (.statement 3 true .skip))) = .ended false [] := by decide

end Demo
end FakeIt
