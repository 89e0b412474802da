import Verif.Model.Result
/-!
# Data of the model

`V` is one type standing for every C++ argument and return type, `E` for every C++ exception a user may throw.
Everything here is data; the code that works on it is in the other `Model` files.
-/
namespace FakeIt

variable {V E : Type}

/-- A mock in the test program (its position in `World.mocks`) (include/fakeit/MockImpl.hpp 118-120). -/
abbrev MockId := Nat
/-- An object address.  Addresses are never reused in the model: see `Handler` (e.g. include/fakeit/RecordedMethodBody.hpp 62-63). -/
abbrev Addr := Nat
/-- Name of a user supplied callable (lambda, original member function) (include/fakeit/StubbingProgress.hpp 146, include/fakeit/MockImpl.hpp 183-213). -/
abbrev FnId := Nat

/-- One element of the `ArgumentsTuple` of a recorded invocation
(include/mockutils/type_utils.hpp 36-37 `ArgumentsTuple`, include/fakeit/ActualInvocation.hpp 36-40):
a by-value parameter is stored as a value, a reference parameter as a reference to the caller's object. -/
inductive Arg (V : Type) where
  | val (v : V)
  | ref (a : Addr)
  deriving DecidableEq, Repr

/-- How a virtual call ends for its caller.
* `ret v`  normal return;
* `exc e`  a user exception propagates;
* `unexpected`  `UnexpectedMethodCallException`, or whatever the event handlers threw instead
  (include/fakeit/RecordedMethodBody.hpp 145-149, include/fakeit/MockImpl.hpp 273-282);
* `noMore`  `NoMoreRecordedActionException` (include/fakeit/FakeitExceptions.hpp, thrown by
  include/fakeit/ActionSequence.hpp 66-68). -/
inductive Outcome (V E : Type) where
  | ret (v : V)
  | exc (e : E)
  | unexpected
  | noMore
  deriving DecidableEq, Repr

/-- The function object `f` inside an action (include/fakeit/Action.hpp 53, 75): the lambdas that
include/fakeit/StubbingProgress.hpp builds for `Return` (50-60) and `Throw` (107-111), or the user's own
callable given to `Do`/assignment (145-149). -/
inductive Fn (V E : Type) where
  | ret (v : V)
  | thr (e : E)
  | user (f : FnId)
  deriving DecidableEq, Repr

/-- An action object.
`rep` = `Repeat` (include/fakeit/Action.hpp 32-55; `times` is a C++ `long`, here an unbounded integer),
`forever` = `RepeatForever` (58-76), `dflt` = `ReturnDefaultValue` (79-89),
`deleg` = `ReturnDelegateValue` (92-108) around the original method, `move = true` for `SpyWithoutVerify`'s
argument forwarding (include/fakeit/MockImpl.hpp 205-213),
`noMore` = the sentinel `NoMoreRecordedAction` (include/fakeit/ActionSequence.hpp 58-73). -/
inductive Act (V E : Type) where
  | rep (times : Int) (f : Fn V E)
  | forever (f : Fn V E)
  | dflt
  | deleg (move : Bool)
  | noMore
  deriving DecidableEq, Repr

/-- `ActionSequence` (include/fakeit/ActionSequence.hpp 29-89).  `recorded` and `used` are the vectors
`_recordedActions` and `_usedActions` of shared pointers; a pointer is an index into `objs`, the action objects
created so far (an action object keeps its mutable `times` even after being erased from `recorded`). -/
structure ActionSeq (V E : Type) where
  objs : List (Act V E)
  recorded : List Nat
  used : List Nat
  deriving DecidableEq, Repr

/-- The three invocation matchers (include/fakeit/invocation_matchers.hpp):
`any` = `DefaultInvocationMatcher` (145-166), `args` = `ArgumentsMatcherInvocationMatcher` (25-86),
`user` = `UserDefinedInvocationMatcher` (119-143). Argument matchers and user predicates are pure functions here. -/
inductive MatcherKind (V : Type) where
  | any
  | args (ms : List (V → Bool))
  | user (p : List V → Bool)

/-- A matcher object with its address (`getActualMatcher() == this` compares addresses) (include/fakeit/invocation_matchers.hpp 37-41). -/
structure Matcher (V : Type) where
  addr : Addr
  kind : MatcherKind V

/-- `ActualInvocation` (include/fakeit/ActualInvocation.hpp 27-68, include/fakeit/Invocation.hpp 21-66).
`uid` is the object's address; `ordinal` the 32-bit ordinal; `method` the `MethodInfo` id;
`matcher` is `_matcher` (null or the matcher of the handler that served the call). -/
structure Invocation (V : Type) where
  uid : Nat
  ordinal : Nat
  method : Nat
  args : List (Arg V)
  verified : Bool
  matcher : Option Addr
  deriving DecidableEq, Repr

/-- `MatchedInvocationHandler` (include/fakeit/RecordedMethodBody.hpp 31-56), with its own address. -/
structure Handler (V E : Type) where
  addr : Addr
  matcher : Matcher V
  seq : ActionSeq V E

/-- `RecordedMethodBody` (include/fakeit/RecordedMethodBody.hpp 28-171): `_method.id()`, `_invocationHandlers`,
`_actualInvocations` (both in push order).  The method's printable name is not kept here. -/
structure MBody (V E : Type) where
  method : Nat
  handlers : List (Handler V E)
  invs : List (Invocation V)

/-- A function pointer stored in a virtual table.
`unmocked`/`unmockedDtor`: include/fakeit/MockImpl.hpp 271-282; `proxy id`: the generated
`methodProxyX<id>` (include/mockutils/MethodProxyCreator.hpp 44-56); `dtorThunk`: `VirtualTable::dtor`
(include/mockutils/gcc/VirtualTable.hpp 95-104); `native f`: an original member function. -/
inductive Code where
  | unmocked
  | unmockedDtor
  | dtorThunk
  | proxy (id : Nat)
  | native (f : FnId)
  deriving DecidableEq, Repr

/-- `MockImpl` with its `DynamicProxy` (include/fakeit/MockImpl.hpp 118-120, include/mockutils/DynamicProxy.hpp 209-216).
`cls` names the mocked class, `owner` is `_instanceOwner != nullptr` (a plain `Mock<C>`; false for a spied object),
`alive` = not destroyed, `orig`/`vt` the method entries of `originalVtHandle` and `_cloneVt`,
`mocks` = `_methodMocks`, `offsets` = `_offsets`, `data` the object's data member area (one cell per member),
`members` = `_members` (the cells holding a stubbed, still alive data member, in stubbing order).
`gone` is not a member: the action sequences that were destroyed by `Reset` or with the mock, by method and address of their handlers, as they were then. A call
in progress holds the action object it performs (include/fakeit/ActionSequence.hpp 42) and looks at it when it ends (46). -/
structure Mock (V E : Type) where
  cls : Nat
  owner : Bool
  alive : Bool
  orig : List Code
  vt : List Code
  mocks : List (Option (MBody V E))
  offsets : List Nat
  data : List Int
  members : List Nat
  gone : Nat → Addr → Option (ActionSeq V E) := fun _ _ => none

/-- `UnexpectedType` (include/fakeit/FakeitEvents.hpp 22-24). -/
inductive UnexpectedType where
  | unmocked
  | unmatched
  deriving DecidableEq, Repr

/-- `VerificationType` (include/fakeit/FakeitEvents.hpp 18-20). -/
inductive VerificationType where
  | exact
  | atLeast
  | noMoreInvocations
  deriving DecidableEq, Repr

/-- Events handed to `FakeitContext::handle` (include/fakeit/FakeitEvents.hpp 26-143).
File information is left out; the expected pattern of a sequence event is given by the caller of the verification. -/
inductive Event (V : Type) where
  | unexpectedCall (ty : UnexpectedType) (inv : Invocation V)
  | sequence (ty : VerificationType) (expected : Int) (actual : Nat) (actualSeq : List (Invocation V))
  | noMoreInvocations (all unverified : List (Invocation V))
  deriving DecidableEq, Repr

/-- The whole test program's state as far as FakeIt is concerned.
`heap`: objects that by-reference arguments refer to.
`invTotal`: how often `Invocation::nextInvocationOrdinal` ran; the `atomic_uint` itself (include/fakeit/Invocation.hpp 23-26)
holds `invTotal % 2^32`.
`methTotal`: same for `MethodInfo::nextMethodOrdinal` (include/fakeit/DomainObjects.hpp 27-30).
`alloc`: allocator for addresses of matchers and handlers. `log`: events handed to the context so far. -/
structure World (V E : Type) where
  mocks : List (Mock V E)
  heap : Addr → V
  invTotal : Nat
  methTotal : Nat
  alloc : Nat
  log : List (Event V)

end FakeIt
