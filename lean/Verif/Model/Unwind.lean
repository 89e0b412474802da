import Verif.Model.Result
/-!
# FakeIt statements and propagating exceptions

`When(...)`, `Verify(...)` and `VerifyNoOtherInvocations(...)` act in the destructor of the object they make, unless `UncaughtException()`
(include/fakeit/FakeitExceptions.hpp 17-25). This is a model of test code with exceptions, destructors and handlers around such statements.
-/
namespace FakeIt

/-- Test code, as far as exceptions are concerned (C++; what include/fakeit/WhenFunctor.hpp 27-34, include/fakeit/SequenceVerificationExpectation.hpp 15-20 and include/fakeit/FakeitExceptions.hpp 17-25 are used in). -/
inductive TestCode where
  | skip
  /-- code that throws -/
  | raise
  | seq (a b : TestCode)
  /-- a FakeIt statement (or a FakeIt handle kept in a variable): its object lives while `during` runs. `fails`: acting throws, as a failing verification does -/
  | statement (id : Nat) (fails : Bool) (during : TestCode)
  /-- `body` runs while an object lives whose (non-throwing) destructor runs `dtor` -/
  | object (body dtor : TestCode)
  /-- `try { body } catch (...) { handler }` -/
  | attempt (body handler : TestCode)
  deriving DecidableEq

/-- How test code ends: `terminated` is `std::terminate`. `acted` are the statements that had their effect, in order (C++; what include/fakeit/WhenFunctor.hpp 27-34, include/fakeit/SequenceVerificationExpectation.hpp 15-20 and include/fakeit/FakeitExceptions.hpp 17-25 are used in). -/
inductive TestRun where
  | terminated
  | ended (threw : Bool) (acted : List Nat)
  deriving DecidableEq

/-- `UncaughtException()` (include/fakeit/FakeitExceptions.hpp 17-25), given `std::uncaught_exceptions()`, the number of exceptions thrown and not yet caught. -/
def uncaughtException (count : Nat) : Bool := decide (1 ≤ count)

/-- The destructors of the statement objects: `~StubbingChange` (include/fakeit/WhenFunctor.hpp 27-34), `~SequenceVerificationExpectation`
(include/fakeit/SequenceVerificationExpectation.hpp 15-20), `~VerifyNoOtherInvocationsExpectation`
(include/fakeit/VerifyNoOtherInvocationsVerificationProgress.hpp 25-31): does the statement act? -/
def actsAtEnd (count : Nat) : Bool := !uncaughtException count

/-- Run of test code that is begun while `k` exceptions propagate (C++ exception handling; the statements by `actsAtEnd`). An exception that leaves a
destructor that is not meant to throw, or that leaves a destructor during stack unwinding, terminates the program (C++; what include/fakeit/WhenFunctor.hpp 27-34, include/fakeit/SequenceVerificationExpectation.hpp 15-20 and include/fakeit/FakeitExceptions.hpp 17-25 are used in). -/
def TestCode.run (k : Nat) : TestCode → TestRun
  | .skip => .ended false []
  | .raise => .ended true []
  | .seq a b =>
    match a.run k with
    | .ended false l =>
      match b.run k with
      | .ended t l' => .ended t (l ++ l')
      | .terminated => .terminated
    | r => r
  | .statement id fails during =>
    match during.run k with
    | .terminated => .terminated
    | .ended true l =>
      -- the object is destroyed while the exception propagates
      if actsAtEnd (k + 1) then (if fails then .terminated else .ended true (l ++ [id])) else .ended true l
    | .ended false l =>
      if actsAtEnd k then .ended fails (l ++ [id]) else .ended false l
  | .object body dtor =>
    match body.run k with
    | .terminated => .terminated
    | .ended t l =>
      match dtor.run (if t then k + 1 else k) with
      | .ended false l' => .ended t (l ++ l')
      | _ => .terminated
  | .attempt body handler =>
    match body.run k with
    | .ended true l =>
      match handler.run k with
      | .ended t l' => .ended t (l ++ l')
      | .terminated => .terminated
    | r => r

end FakeIt
