import Verif.Model.Sequence
/-!
# Test programs

What a test (or a user callback, which is just more test code) can do with FakeIt: API operations and calls of
mocked methods. `Body` is the code of a user callable as FakeIt can observe it.
-/
namespace FakeIt

variable {V E : Type}

/-- Which virtual method an expression `Method(mock, f)` / `Dtor(mock)` denotes.
`meth off ctr`: the method at vtable offset `off`, in a macro expansion whose `__COUNTER__` value is `ctr`
(include/fakeit/api_macros.hpp 28-50; the id is a template argument of `Mock::stub`, include/fakeit/Mock.hpp).
`dtor`: `Dtor(mock)`. -/
inductive SlotRef where
  | meth (off ctr : Nat)
  | dtor
  deriving DecidableEq, Repr

/-- A method expression used in a stubbing statement: mock, method and the matcher chosen with
`Using`/`Matching`/`operator()` (include/fakeit/MethodMockingContext.hpp 300-319). -/
structure Target (V : Type) where
  m : MockId
  slot : SlotRef
  kind : MatcherKind V

/-- A method expression used in a verification. `addr = none`: an expression made for this statement (its matcher
object is new); `addr = some a`: a saved expression object whose matcher is the one at `a` (include/fakeit/MethodMockingContext.hpp 113-133). -/
structure Leaf (V : Type) where
  m : MockId
  slot : SlotRef
  kind : MatcherKind V
  addr : Option Addr

/-- `ActualInvocationsSource`s a user can name (include/fakeit/ActualInvocationsSource.hpp):
a mock, a method expression, `Unverified(...)` (36-53), and several sources aggregated (55-83; a list is folded with `union`). -/
inductive Source (V : Type) where
  | empty
  | mock (m : MockId)
  | ctx (l : Leaf V)
  | unverified (s : Source V)
  | union (s t : Source V)

/-- Where a sequence verification looks: `Verify(...)` = the involved mocks (include/fakeit/VerifyFunctor.hpp 33-43),
`Using(...).Verify(...)` (include/fakeit/UsingFunctor.hpp 31-37, UsingProgress.hpp 33-38),
`Unverified.Verify(...)` (include/fakeit/UnverifiedFunctor.hpp 21-34). -/
inductive Scope (V : Type) where
  | involved
  | using_ (s : Source V)
  | unverified

/-- The count part of a verification statement (include/fakeit/SequenceVerificationProgress.hpp 73-122);
`dflt` is no quantifier at all. -/
inductive Quant where
  | dflt
  | any
  | never
  | once
  | twice
  | atLeastOnce
  | exactly (n : Int)
  | atLeast (n : Int)
  deriving DecidableEq, Repr

/-- How a verification object is used: as a statement (runs in its destructor; `uncaught` says whether an exception is
propagating at that point), or converted to `bool` once (include/fakeit/SequenceVerificationProgress.hpp 42-71). -/
inductive VMode where
  | stmt (uncaught : Bool)
  | asBool
  deriving DecidableEq, Repr

/-- One API operation.
`newMock`/`newSpy`: `Mock<C> m;` / `Mock<C> m(obj);`; `destroy`: end of the mock's life; `touch`: evaluating
`Method(mock, f)` and doing nothing with it; `when_`: a whole `When(...).a1.a2...;` statement with the actions appended in order
(`uncaught`: it ends by a propagating exception); `fake`, `spy` (`move = true` is `SpyWithoutVerify`), `assign`: `Method(mock,f) = fn`;
`stubData`: `mock.Stub(&C::member, v)`; `writeData`: the program under test writes a data member; `reset`, `clear`:
`Reset()`, `ClearInvocationHistory()`; `write`: the test writes one of its own variables (which by-reference arguments may refer to);
`verify`, `verifyNoOther`: verification statements (include/fakeit/Mock.hpp 43-141, include/fakeit/WhenFunctor.hpp 82-87, include/fakeit/VerifyFunctor.hpp 33-43, include/fakeit/UsingFunctor.hpp 31-37, include/fakeit/UnverifiedFunctor.hpp 21-34). -/
inductive Api (V E : Type) where
  | newMock (cls : Nat)
  | newSpy (cls : Nat)
  | destroy (m : MockId)
  | touch (m : MockId) (slot : SlotRef)
  | when_ (t : Target V) (acts : List (Act V E)) (uncaught : Bool)
  | fake (ts : List (Target V))
  | spy (move : Bool) (ts : List (Target V))
  | assign (t : Target V) (f : Fn V E)
  | stubData (m : MockId) (cell : Nat) (v : Int)
  | writeData (m : MockId) (cell : Nat) (v : Int)
  | reset (m : MockId)
  | clear (m : MockId)
  | write (a : Addr) (v : V)
  | verify (scope : Scope V) (pat : List (Seq (Leaf V))) (q : Quant) (mode : VMode)
  | verifyNoOther (srcs : List (Source V)) (mode : VMode)

/-- What an API operation tells its caller: nothing, a new mock, the address of the matcher it committed,
an exception thrown by the API (`invalid_argument`, `NoVirtualDtor`), or the verdict of a verification
(`verdict true` = passed; `skipped` = not performed because an exception was propagating) (same places as `Api`, e.g. include/fakeit/SequenceVerificationExpectation.hpp 67-86). -/
inductive ApiOut where
  | unit
  | mockId (m : MockId)
  | matcher (a : Addr)
  | threw
  | verdict (ok : Bool)
  | skipped
  deriving DecidableEq, Repr

/-- Code of a user callable, as far as FakeIt can observe it.
`done o`: return or throw; `setArg i v k`: assign `v` to the `i`-th parameter (callables receive references to the recorded tuple's
elements: include/mockutils/type_utils.hpp 39-41 `test_arg`, include/mockutils/TupleDispatcher.hpp 37-41);
`call`: call virtual method number `off` of mock `m`'s object and continue with its outcome; `api`: use the FakeIt API.
Not observable and hence absent: everything else the callable computes. -/
inductive Body (V E : Type) where
  | done (o : Outcome V E)
  | setArg (i : Nat) (v : V) (k : Body V E)
  | call (m : MockId) (off : Nat) (args : List (Arg V)) (k : Outcome V E → Body V E)
  | api (a : Api V E) (k : ApiOut → Body V E)

/-- `DefaultValue<R>` (include/mockutils/DefaultValue.hpp 33-148) for the return type of one method: a default constructed
value, an exception (not constructible), or a null reference (reference to a non constructible type). -/
inductive Dflt (V : Type) where
  | value (v : V)
  | throws
  | nullRef
  deriving DecidableEq, Repr

/-- A mocked class: number of vtable entries (`VTUtils::getVTSize`, include/mockutils/VTUtils.hpp 67-76), offset of the virtual
destructor if any (40-53), defaults of the return types, the real implementations (used when an object is spied),
number of data members. -/
structure ClassDecl (V : Type) where
  size : Nat
  dtor : Option Nat
  dflt : Nat → Dflt V
  impl : Nat → FnId
  dataSize : Nat

/-- The program text: user callables by name, classes, the value returned by `void` methods, the exception of
include/mockutils/DefaultValue.hpp 41-51, and what a moved-from argument looks like. -/
structure Prog (V E : Type) where
  fn : FnId → List V → Body V E
  cls : Nat → ClassDecl V
  void : V
  dfltExc : E
  movedFrom : V → V

/-- One step of the main test program (test code; the places cited at `Api`, calls: include/mockutils/MethodProxyCreator.hpp 44-56). -/
inductive Op (V E : Type) where
  | call (m : MockId) (off : Nat) (args : List (Arg V))
  | api (a : Api V E)

end FakeIt
