import Verif.Model.Tuple
/-!
# Argument matchers (include/fakeit/argument_matchers.hpp, MatchersCollector.hpp, invocation_matchers.hpp)

`A` is one type holding the arguments of all positions (the code has one type per position; the position's type only decides at compile time
which overloads exist). `matches` may have undefined behaviour (`strcmp` on a bad pointer, signed overflow), hence `A → R Bool`.
-/
namespace FakeIt

variable {A : Type}

/-- The comparison operators of the argument type, as C++ code finds them (include/fakeit/argument_matchers.hpp 101, 131, 161, 191, 221, 251 use
one each, with the actual argument on the left). They need not be related to each other. -/
structure Ops (A : Type) where
  eq : A → A → Bool
  ne : A → A → Bool
  lt : A → A → Bool
  le : A → A → Bool
  gt : A → A → Bool
  ge : A → A → Bool

/-- `Eq`, `Ne`, `Lt`, `Le`, `Gt`, `Ge` and their `Str` variants (include/fakeit/argument_matchers.hpp 79-437, 499-593). -/
inductive Cmp where
  | eq | ne | lt | le | gt | ge
  deriving Repr, DecidableEq

/-- `Matcher::matches` of the comparison matchers (include/fakeit/argument_matchers.hpp 100-102, 130-132, 160-162, 190-192, 220-222, 250-252):
`actual op _expected`. -/
def Cmp.matches (ops : Ops A) (c : Cmp) (expected actual : A) : Bool :=
  match c with
  | .eq => ops.eq actual expected
  | .ne => ops.ne actual expected
  | .lt => ops.lt actual expected
  | .le => ops.le actual expected
  | .gt => ops.gt actual expected
  | .ge => ops.ge actual expected

/-- `std::strcmp` on two pointers, each given by the bytes readable from it: compares `unsigned char`s, stops at the first difference or at the
common NUL; reading past the readable bytes is undefined. (C library function called at include/fakeit/argument_matchers.hpp 281, 311, 341, 371,
401, 431; only the sign of the result is specified and used.) -/
def strcmp : List UInt8 → List UInt8 → R Int
  | a :: as, b :: bs => if a = b then (if a = 0 then .done 0 else strcmp as bs) else .done ((a.toNat : Int) - (b.toNat : Int))
  | _, _ => .ub

/-- Bytes readable from `std::string::c_str()` of a string with the given bytes (the actual string of include/fakeit/argument_matchers.hpp 280-282, 310-312). -/
def cStr (s : List UInt8) : List UInt8 := s ++ [0]

/-- `Matcher::matches` of the `Str` matchers (include/fakeit/argument_matchers.hpp 280-282, 310-312, 340-342, 370-372, 400-402, 430-432):
`std::strcmp(actual, _expected.c_str()) op 0`. A null `actual` is `none`. -/
def Cmp.matchesStr (c : Cmp) (expected : List UInt8) (actual : Option (List UInt8)) : R Bool := do
  let mem ← R.ofOption actual
  let d ← strcmp mem (cStr expected)
  match c with
  | .eq => .done (d == 0)
  | .ne => .done (d != 0)
  | .lt => .done (decide (d < 0))
  | .le => .done (decide (d ≤ 0))
  | .gt => .done (decide (d > 0))
  | .ge => .done (decide (d ≥ 0))

/-- Least value of the two's complement integer type of `w` bits (types compared in include/fakeit/argument_matchers.hpp 100-102, 130-132). -/
def sMin (w : Nat) : Int := -(2 ^ (w - 1))
/-- Greatest value of the two's complement integer type of `w` bits (types compared in include/fakeit/argument_matchers.hpp 100-102, 130-132). -/
def sMax (w : Nat) : Int := 2 ^ (w - 1) - 1

/-- `Matcher::matches` of `ApproxEq` (include/fakeit/argument_matchers.hpp 474-476) when argument, expected value and margin have the signed
integer type of `w` bits: `std::abs(actual - _expected) <= _expectedMargin`. The subtraction and `std::abs` overflow are undefined behaviour.
For floating point arguments (rounding, NaN) see `approxEqFloat` in Model/Float.lean. -/
def approxEqMatches (w : Nat) (expected margin actual : Int) : R Bool :=
  let d := actual - expected
  if d < sMin w ∨ sMax w < d then .ub
  else if d = sMin w then .ub
  else .done (decide ((if d < 0 then -d else d) ≤ margin))

/-- One argument of `Using(...)`: the placeholder `_`, a matcher creator, or a plain value (the three overloads of `CollectMatchers`,
include/fakeit/MatchersCollector.hpp 50-75). `creator` carries the `matches` of the matcher it creates. -/
inductive UsingArg (A : Type) where
  | underscore
  | creator (m : A → R Bool)
  | value (v : A)

/-- The matcher pushed for one argument of `Using` (include/fakeit/MatchersCollector.hpp 50-75): a plain value means `Eq(value)`, `_` means
`Any()`, whose `matches` is `true` (include/fakeit/argument_matchers.hpp 66-68). -/
def UsingArg.matcher (ops : Ops A) : UsingArg A → A → R Bool
  | .underscore => fun _ => .done true
  | .creator m => m
  | .value v => fun a => .done (Cmp.eq.matches ops v a)

/-- `MatchersCollector<index, arglist...>::CollectMatchers(head, tail...)` (include/fakeit/MatchersCollector.hpp 47-82): pushes the matcher of
the head, then goes on with the tail at `index + 1`. -/
def collectMatchers (ops : Ops A) : List (UsingArg A) → List (A → R Bool) → List (A → R Bool)
  | [], acc => acc
  | u :: us, acc => collectMatchers ops us (acc ++ [u.matcher ops])

/-- State of `MatchingLambda` (include/fakeit/invocation_matchers.hpp 57-77): the flag `_matching`. `asked` is a ghost: the positions whose
matcher was consulted so far. -/
structure MatchingState where
  matching : Bool := true
  asked : List Nat := []
  deriving Repr, DecidableEq

/-- `MatchingLambda::operator()(index, actualArg)` (include/fakeit/invocation_matchers.hpp 62-68). The `dynamic_cast` succeeds because the
collector created the matcher of that position for the position's type; indexing outside the vector is undefined behaviour. -/
def matchingLambda (ms : List (A → R Bool)) (s : MatchingState) (index : Nat) (actual : A) : R MatchingState := do
  let m ← R.ofOption ms[index]?
  if s.matching then
    let b ← m actual
    .done { matching := b, asked := s.asked ++ [index] }
  else .done s

/-- `ArgumentsMatcherInvocationMatcher::matches(tuple)` (include/fakeit/invocation_matchers.hpp 79-83) for the matchers collected by
`Using(us...)` (include/fakeit/MethodMockingContext.hpp 253-263), with the ghost. -/
def usingMatches (ops : Ops A) (us : List (UsingArg A)) (args : List A) : R MatchingState :=
  forEach (matchingLambda (collectMatchers ops us [])) args {}

end FakeIt
