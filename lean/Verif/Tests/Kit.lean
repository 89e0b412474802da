import Verif.Model.Machine
/-!
# The library's own tests, for the model

The files of this directory write down tests of /repo/tests as programs of the model and run them.  They are examples, not proofs: they compare the model with what the authors of the library
say the library does.  This file has the notation.
-/
namespace FakeIt.Tests

/-- What a line of a test demands: a statement that passes (or gives nothing), a failing verification or a conversion to `false`, an exception of the library about a wrong use, a value returned by a
call, an exception of the test, `UnexpectedMethodCallException`, that the matcher of the statement is the object at an address (for expressions kept in variables)
(tests/tpunit++.hpp 56-120: `ASSERT_THROW`, `ASSERT_EQUAL`). -/
inductive Want where
  | ok
  | fails
  | invalid
  | returns (v : Int)
  | throws (e : Int)
  | unexpected
  | matcher (a : Addr)

/-- Is it so? (tests/tpunit++.hpp 56-120) -/
def Want.met : Want → OpOut Int Int → Bool
  | .ok, .api .unit => true
  | .ok, .api (.mockId _) => true
  | .ok, .api (.matcher _) => true
  | .ok, .api (.verdict true) => true
  | .ok, .api .skipped => true
  | .ok, .call (.ret _) => true
  | .fails, .api (.verdict false) => true
  | .invalid, .api .threw => true
  | .returns v, .call (.ret r) => r == v
  | .throws e, .call (.exc x) => x == e
  | .unexpected, .call .unexpected => true
  | .matcher a, .api (.matcher b) => a == b
  | _, _ => false

/-- A line: an operation with what it demands, or a look at a variable of the test or at a data member of a mock's object (tests/tpunit++.hpp 56-120). -/
inductive Line where
  | op (o : Op Int Int) (want : Want)
  | var (a : Addr) (v : Int)
  | member (m cell : Nat) (v : Int)

/-- The test passes from here on; undefined behaviour does not pass (tests/tpunit++.hpp 56-120). -/
def passesFrom (P : Prog Int Int) : World Int Int → List Line → Bool
  | _, [] => true
  | w, .op o want :: rest =>
    match opStep P 9 w o with
    | .done (out, w') => want.met out && passesFrom P w' rest
    | _ => false
  | w, .var a v :: rest => w.heap a == v && passesFrom P w rest
  | w, .member m cell v :: rest => ((w.mocks[m]?).bind fun k => k.data[cell]?) == some v && passesFrom P w rest

/-- Each expression of a method gets its own number, as `__COUNTER__` does (include/fakeit/api_macros.hpp 31-32). -/
def SlotRef.number (n : Nat) : SlotRef → SlotRef
  | .meth off _ => .meth off n
  | .dtor => .dtor

/-- The same for expressions in a list (include/fakeit/api_macros.hpp 31-32). -/
def numberTargets : Nat → List (Target Int) → Nat × List (Target Int)
  | n, [] => (n, [])
  | n, t :: ts => ((numberTargets (n + 1) ts).1, { t with slot := SlotRef.number n t.slot } :: (numberTargets (n + 1) ts).2)

/-- The same for sequences (include/fakeit/api_macros.hpp 31-32). -/
def numberSeq : Nat → Seq (Leaf Int) → Nat × Seq (Leaf Int)
  | n, .leaf l => (n + 1, .leaf { l with slot := SlotRef.number n l.slot })
  | n, .cat s t => ((numberSeq (numberSeq n s).1 t).1, .cat (numberSeq n s).2 (numberSeq (numberSeq n s).1 t).2)
  | n, .rep s k => ((numberSeq n s).1, .rep (numberSeq n s).2 k)

/-- The same for several sequences (include/fakeit/api_macros.hpp 31-32). -/
def numberSeqs : Nat → List (Seq (Leaf Int)) → Nat × List (Seq (Leaf Int))
  | n, [] => (n, [])
  | n, s :: ss => ((numberSeqs (numberSeq n s).1 ss).1, (numberSeq n s).2 :: (numberSeqs (numberSeq n s).1 ss).2)

/-- The same for sources (include/fakeit/api_macros.hpp 31-32). -/
def numberSource : Nat → Source Int → Nat × Source Int
  | n, .ctx l => (n + 1, .ctx { l with slot := SlotRef.number n l.slot })
  | n, .unverified s => ((numberSource n s).1, .unverified (numberSource n s).2)
  | n, .union s t => ((numberSource (numberSource n s).1 t).1, .union (numberSource n s).2 (numberSource (numberSource n s).1 t).2)
  | n, s => (n, s)

/-- The same for several sources (include/fakeit/api_macros.hpp 31-32). -/
def numberSources : Nat → List (Source Int) → Nat × List (Source Int)
  | n, [] => (n, [])
  | n, s :: ss => ((numberSources (numberSource n s).1 ss).1, (numberSource n s).2 :: (numberSources (numberSource n s).1 ss).2)

/-- The same for statements (include/fakeit/api_macros.hpp 31-32). -/
def numberApi (n : Nat) : Api Int Int → Nat × Api Int Int
  | .touch m slot => (n + 1, .touch m (SlotRef.number n slot))
  | .when_ t acts u => (n + 1, .when_ { t with slot := SlotRef.number n t.slot } acts u)
  | .fake ts => ((numberTargets n ts).1, .fake (numberTargets n ts).2)
  | .spy move ts => ((numberTargets n ts).1, .spy move (numberTargets n ts).2)
  | .assign t f => (n + 1, .assign { t with slot := SlotRef.number n t.slot } f)
  | .verify (.using_ s) pat q mode => ((numberSeqs (numberSource n s).1 pat).1, .verify (.using_ (numberSource n s).2) (numberSeqs (numberSource n s).1 pat).2 q mode)
  | .verify scope pat q mode => ((numberSeqs n pat).1, .verify scope (numberSeqs n pat).2 q mode)
  | .verifyNoOther srcs mode => ((numberSources n srcs).1, .verifyNoOther (numberSources n srcs).2 mode)
  | a => (n, a)

/-- The same for tests (include/fakeit/api_macros.hpp 31-32). -/
def number : Nat → List Line → List Line
  | _, [] => []
  | n, .op (.api a) want :: rest => .op (.api (numberApi n a).2) want :: number (numberApi n a).1 rest
  | n, l :: rest => l :: number n rest

/-- The test passes; variables begin as 0 (tests/tpunit++.hpp 56-120). -/
def passes (P : Prog Int Int) (test : List Line) : Bool := passesFrom P (World.start fun _ => 0) (number 0 test)

/-! ## Notation -/

/-- `Method(mock, f)` (include/fakeit/api_macros.hpp 31-32). -/
def method (m f : Nat) : Leaf Int := ⟨m, .meth f 0, .any, none⟩

/-- `Dtor(mock)` (include/fakeit/api_macros.hpp 28-29). -/
def dtor (m : Nat) : Leaf Int := ⟨m, .dtor, .any, none⟩

/-- `.Using(v, …)` with values (include/fakeit/MethodMockingContext.hpp 300-304). -/
def using_ (l : Leaf Int) (vs : List Int) : Leaf Int := { l with kind := .args (vs.map fun v x => x == v) }

/-- `.Matching(predicate)` (include/fakeit/MethodMockingContext.hpp 306-309). -/
def matching (l : Leaf Int) (p : List Int → Bool) : Leaf Int := { l with kind := .user p }

/-- The expression was kept in a variable and its matcher is at an address (include/fakeit/MethodMockingContext.hpp 113-133). -/
def kept (l : Leaf Int) (a : Addr) : Leaf Int := { l with addr := some a }

/-- As the target of a stubbing statement (include/fakeit/MethodMockingContext.hpp 135-138). -/
def target (l : Leaf Int) : Target Int := ⟨l.m, l.slot, l.kind⟩

/-- `Mock<C> mock;` (include/fakeit/Mock.hpp 27-29). -/
def mock (cls : Nat) : Line := .op (.api (.newMock cls)) .ok

/-- `Mock<C> mock(object);` (include/fakeit/Mock.hpp 46-47). -/
def spyOn (cls : Nat) : Line := .op (.api (.newSpy cls)) .ok

/-- `Fake(…)` (include/fakeit/FakeFunctor.hpp 19-35). -/
def fake (ls : List (Leaf Int)) : Line := .op (.api (.fake (ls.map target))) .ok

/-- `Spy(…)` (include/fakeit/SpyFunctor.hpp 22-28). -/
def spy (ls : List (Leaf Int)) : Line := .op (.api (.spy false (ls.map target))) .ok

/-- `SpyWithoutVerify(…)` (include/fakeit/SpyWithoutVerifyFunctor.hpp 12-18). -/
def spyWithoutVerify (ls : List (Leaf Int)) : Line := .op (.api (.spy true (ls.map target))) .ok

/-- `When(…)…` (include/fakeit/WhenFunctor.hpp 82-87). -/
def when_ (l : Leaf Int) (acts : List (Act Int Int)) : Line := .op (.api (.when_ (target l) acts false)) .ok

/-- The same for an expression kept in a variable: its matcher will be the object at the address (include/fakeit/MethodMockingContext.hpp 135-138). -/
def whenKept (l : Leaf Int) (acts : List (Act Int Int)) (a : Addr) : Line := .op (.api (.when_ (target l) acts false)) (.matcher a)

/-- `Return(v)` (include/fakeit/StubbingProgress.hpp 50-60). -/
def ret (v : Int) : Act Int Int := .rep 1 (.ret v)

/-- `AlwaysReturn(v)` (include/fakeit/StubbingProgress.hpp 86-96). -/
def always (v : Int) : Act Int Int := .forever (.ret v)

/-- `Throw(e)` (include/fakeit/StubbingProgress.hpp 107-110). -/
def thr (e : Int) : Act Int Int := .rep 1 (.thr e)

/-- `Do(f)` (include/fakeit/StubbingProgress.hpp 145-148). -/
def do_ (f : FnId) : Act Int Int := .rep 1 (.user f)

/-- `AlwaysDo(f)` (include/fakeit/StubbingProgress.hpp 163-165). -/
def alwaysDo (f : FnId) : Act Int Int := .forever (.user f)

/-- `Method(mock, f) = lambda` (include/fakeit/MethodMockingContext.hpp 321-323). -/
def assign (l : Leaf Int) (f : FnId) : Line := .op (.api (.assign (target l) (.user f))) .ok

/-- `Method(mock, f) = value` (include/fakeit/MethodMockingContext.hpp 325-335). -/
def assignValue (l : Leaf Int) (v : Int) : Line := .op (.api (.assign (target l) (.ret v))) .ok

/-- A call with arguments passed by value (include/mockutils/MethodProxyCreator.hpp 44-56). -/
def call (m f : Nat) (vs : List Int) (want : Want := .ok) : Line := .op (.call m f (vs.map .val)) want

/-- A call with other arguments (include/mockutils/MethodProxyCreator.hpp 44-56). -/
def callWith (m f : Nat) (args : List (Arg Int)) (want : Want := .ok) : Line := .op (.call m f args) want

/-- An expected sequence of one call (include/fakeit/MethodMockingContext.hpp 191-206). -/
def one (l : Leaf Int) : Seq (Leaf Int) := .leaf l

/-- `s * n` with a number that is allowed; with another one the expression throws (include/fakeit/Sequence.hpp 133-143). -/
def times (s : Seq (Leaf Int)) (n : Int) : Seq (Leaf Int) := (s.opStar n).getD s

/-- `Verify(…)…;` as a statement (include/fakeit/VerifyFunctor.hpp 33-43). -/
def verify (pat : List (Seq (Leaf Int))) (q : Quant := .dflt) (want : Want := .ok) : Line := .op (.api (.verify .involved pat q (.stmt false))) want

/-- `Using(…).Verify(…)…;` (include/fakeit/UsingFunctor.hpp 31-37). -/
def usingVerify (srcs : List (Source Int)) (pat : List (Seq (Leaf Int))) (q : Quant := .dflt) (want : Want := .ok) : Line :=
  .op (.api (.verify (.using_ (aggregate srcs)) pat q (.stmt false))) want

/-- `Unverified.Verify(…)…;` (include/fakeit/UnverifiedFunctor.hpp 21-34). -/
def unverifiedVerify (pat : List (Seq (Leaf Int))) (q : Quant := .dflt) (want : Want := .ok) : Line := .op (.api (.verify .unverified pat q (.stmt false))) want

/-- `bool(Verify(…)…)` (include/fakeit/SequenceVerificationProgress.hpp 42-51). -/
def asBool (pat : List (Seq (Leaf Int))) (q : Quant := .dflt) (want : Want := .ok) : Line := .op (.api (.verify .involved pat q .asBool)) want

/-- `VerifyNoOtherInvocations(…);` (include/fakeit/VerifyNoOtherInvocationsFunctor.hpp 37-44). -/
def noOther (srcs : List (Source Int)) (want : Want := .ok) : Line := .op (.api (.verifyNoOther srcs (.stmt false))) want

/-- `bool(VerifyNoOtherInvocations(…))` (include/fakeit/VerifyNoOtherInvocationsVerificationProgress.hpp 98-123). -/
def noOtherAsBool (srcs : List (Source Int)) (want : Want := .ok) : Line := .op (.api (.verifyNoOther srcs .asBool)) want

/-- A class of the tests: its methods, where its destructor is, and the default values of its methods are 0; real implementations of method `i` are the callables `100 + i`
(include/mockutils/VTUtils.hpp 30-76, include/mockutils/DefaultValue.hpp 55-61). -/
def plainClass (size : Nat) (dtor : Option Nat := none) (dataSize : Nat := 0) : ClassDecl Int := { size, dtor, dflt := fun _ => .value 0, impl := fun i => 100 + i, dataSize }

/-- A program with one class and callables (tests/tpunit++.hpp 56-120). -/
def program (c : ClassDecl Int) (fn : FnId → List Int → Body Int Int := fun _ _ => .done (.ret 0)) : Prog Int Int :=
  { fn, cls := fun _ => c, void := 0, dfltExc := -1, movedFrom := fun _ => 0 }

end FakeIt.Tests
