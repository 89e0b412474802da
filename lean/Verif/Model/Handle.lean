import Verif.Model.Api
/-!
# Verification objects

`Verify(...)`, `Using(...).Verify(...)` and `VerifyNoOtherInvocations(...)` create one expectation object on the heap, shared by reference counted
handles (`SequenceVerificationProgress`, its `Terminator`s, `VerifyNoOtherInvocationsVerificationProgress`).
The sequence expressions and sources the expectation points to are assumed to outlive it (they are temporaries of the statement).
-/
namespace FakeIt
variable {V E : Type}

/-- An expectation object (include/fakeit/SequenceVerificationExpectation.hpp 13-64,
include/fakeit/VerifyNoOtherInvocationsVerificationProgress.hpp 21-57). -/
inductive Check (V : Type) where
  | seq (scope : Scope V) (pat : List (Seq (Leaf V))) (e : Expectation)
  | noOther (srcs : List (Source V)) (isVerified : Bool)

/-- `VerifyExpectation` (include/fakeit/SequenceVerificationExpectation.hpp 67-86,
include/fakeit/VerifyNoOtherInvocationsVerificationProgress.hpp 59-81): at most once per object; `some evt` is handed to the handler. -/
def Check.verify (P : Prog V E) (w : World V E) : Check V → R (Check V × World V E × Option (Event V))
  | .seq scope pat e => do
    let (e', w', evt) ← verifyExpectation P w scope pat e
    .done (.seq scope pat e', w', evt)
  | .noOther srcs true => .done (.noOther srcs true, w, none)
  | .noOther srcs false => .done (.noOther srcs true, w, FakeIt.noOther P w srcs)

/-- The state of the shared object: the reference count (include/mockutils/smart_ptr.hpp 16-28); `obj` is the object until it is deleted. -/
structure Handles (V : Type) where
  refs : Nat
  obj : Check V

/-- What can happen to the handles of one expectation (include/fakeit/SequenceVerificationProgress.hpp 39-122). -/
inductive HOp where
  /-- a handle is copied (include/mockutils/smart_ptr.hpp 47-49) -/
  | copy
  /-- a quantifier member function, which returns a new handle (include/fakeit/SequenceVerificationProgress.hpp 73-122) -/
  | quant (q : Quant)
  /-- `operator bool` / `operator!` (include/fakeit/SequenceVerificationProgress.hpp 42-51, 67-71) -/
  | toBool
  /-- a handle is destroyed (include/mockutils/smart_ptr.hpp 51-56), possibly while an exception is propagating -/
  | drop (uncaught : Bool)
  deriving DecidableEq

/-- What the test sees (include/fakeit/SequenceVerificationExpectation.hpp 67-86). -/
inductive HOut where
  | unit
  | bool (b : Bool)
  | threw
  deriving DecidableEq, Repr

/-- One operation on a handle. Using a handle when none is left is undefined behaviour (include/fakeit/SequenceVerificationProgress.hpp 39-122, include/mockutils/smart_ptr.hpp 47-56). -/
def hstep (P : Prog V E) (w : World V E) (h : Handles V) : HOp → R (World V E × Handles V × HOut)
  | .copy => if h.refs = 0 then .ub else .done (w, { h with refs := h.refs + 1 }, .unit)
  | .quant q =>
    if h.refs = 0 then .ub
    else
      match h.obj with
      | .seq scope pat e =>
        match e.quant q with
        | none => .done (w, h, .threw)
        | some e' => .done (w, { refs := h.refs + 1, obj := .seq scope pat e' }, .unit)
      | .noOther _ _ => .ub
  | .toBool =>
    if h.refs = 0 then .ub
    else do
      let (c, w', evt) ← h.obj.verify P w
      .done (w', { h with obj := c }, .bool evt.isNone)
  | .drop uncaught =>
    match h.refs with
    | 0 => .ub
    | 1 =>
      if uncaught then .done (w, { h with refs := 0 }, .unit)
      else do
        let (c, w', evt) ← h.obj.verify P w
        match evt with
        | none => .done (w', { refs := 0, obj := c }, .unit)
        | some evt => .done (w'.fire evt, { refs := 0, obj := c }, .unit)
    | n + 2 => .done (w, { h with refs := n + 1 }, .unit)

/-- Several operations one after the other (include/fakeit/SequenceVerificationProgress.hpp 39-122). -/
def hrun (P : Prog V E) : World V E → Handles V → List HOp → R (World V E × Handles V × List HOut)
  | w, h, [] => .done (w, h, [])
  | w, h, op :: ops => do
    let (w1, h1, o) ← hstep P w h op
    let (w2, h2, os) ← hrun P w1 h1 ops
    .done (w2, h2, o :: os)

/-- A freshly created `SequenceVerificationProgress` (include/fakeit/SequenceVerificationProgress.hpp 25-33, include/fakeit/UsingProgress.hpp 33-38). -/
def Handles.ofVerify (scope : Scope V) (pat : List (Seq (Leaf V))) : Handles V := { refs := 1, obj := .seq scope pat Expectation.init }

/-- A freshly created `VerifyNoOtherInvocationsVerificationProgress` (include/fakeit/VerifyNoOtherInvocationsVerificationProgress.hpp 87-96). -/
def Handles.ofNoOther (srcs : List (Source V)) : Handles V := { refs := 1, obj := .noOther srcs false }

end FakeIt
