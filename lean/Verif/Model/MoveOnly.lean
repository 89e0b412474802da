/-!
# Which methods can be mocked and spied: the copy trait

`MockImpl` contains, for every method that is mocked, a function that would copy the arguments (`getOriginalMethodCopyArgs`, used by `Spy` only). As it is virtual,
it is compiled for every mocked method. Which of two bodies it has depends on the trait `smart_is_copy_constructible`. This file models the trait and the
question whether the compiler accepts the result.
-/
namespace FakeIt.MoveOnly

/-- Types of values. Not code of FakeIt: what the trait of `type_utils.hpp` 95-102 is applied to. Simplified: a class with several members is built of `both`. -/
inductive Ty where
  /-- can be copied: numbers, strings, shared pointers, functions, raw pointers -/
  | plain
  /-- can be moved but not copied: `unique_ptr`, streams, threads -/
  | unique
  /-- can be neither copied nor moved: mutexes, atomics -/
  | fixed
  /-- `std::vector<T, A>` -/
  | vector (t : Ty)
  /-- another standard container: list, deque, map, set -/
  | list (t : Ty)
  /-- a class with two members, a pair, a tuple: the compiler generates its copy and move constructor -/
  | both (a b : Ty)
  deriving DecidableEq, Repr

/-- `std::is_copy_constructible<T>` (standard library, used in `type_utils.hpp` 102): is there a copy constructor that is not deleted? The copy constructor of a container
is declared whatever its elements are; a generated one is deleted if that of a member is missing or deleted. -/
def Ty.isCopyConstructible : Ty → Bool
  | .plain => true
  | .unique => false
  | .fixed => false
  | .vector _ => true
  | .list _ => true
  | .both a b => a.isCopyConstructible && b.isCopyConstructible

/-- `std::is_move_constructible<T>` (C++ standard): containers hand over their memory (asked by include/mockutils/type_utils.hpp 95-102, include/fakeit/StubbingProgress.hpp 63, include/fakeit/SpyFunctor.hpp 22). -/
def Ty.isMoveConstructible : Ty → Bool
  | .plain => true
  | .unique => true
  | .fixed => false
  | .vector _ => true
  | .list _ => true
  | .both a b => a.isMoveConstructible && b.isMoveConstructible

/-- Does the definition of the copy constructor compile (C++ standard)? That of a container copies the elements, a generated one the members (asked by include/mockutils/type_utils.hpp 95-102, include/fakeit/StubbingProgress.hpp 63, include/fakeit/SpyFunctor.hpp 22). -/
def Ty.copyCompiles : Ty → Bool
  | .plain => true
  | .unique => false
  | .fixed => false
  | .vector t => t.copyCompiles
  | .list t => t.copyCompiles
  | .both a b => a.copyCompiles && b.copyCompiles

/-- `smart_test<std::is_copy_constructible, T>` (`type_utils.hpp` 95-102): the specialisation for `std::vector` asks the element type. -/
def smartTest : Ty → Bool
  | .vector t => smartTest t
  | t => t.isCopyConstructible

/-- A parameter of a method: `T`, `T&` or `const T&`, `T&&` (the argument types of include/fakeit/SpyFunctor.hpp 22). -/
inductive Param where
  | value (t : Ty)
  | lref (t : Ty)
  | rref (t : Ty)
  deriving DecidableEq, Repr

/-- `smart_is_copy_constructible<T>` of a parameter type (`type_utils.hpp` 101-102): for references this is the general case of `smart_test`, where an lvalue reference
can be made from an lvalue and an rvalue reference cannot. -/
def Param.smart : Param → Bool
  | .value t => smartTest t
  | .lref _ => true
  | .rref _ => false

/-- `all_true<smart_is_copy_constructible<T>::value...>` (`type_utils.hpp` 19-22): all values are `true`, stated as equality of the packs `true, v...` and `v..., true`. -/
def allTrue (vs : List Bool) : Bool := (true :: vs) == (vs ++ [true])

/-- Does `(instance->*mPtr)(args...)` with lvalues `args` compile (`MockImpl.hpp` 190) at this parameter? -/
def Param.takesLvalue : Param → Bool
  | .value t => t.isCopyConstructible && t.copyCompiles
  | .lref _ => true
  | .rref _ => false

/-- Does `(instance->*mPtr)(std::forward<arglist>(args)...)` compile (`MockImpl.hpp` 211) at this parameter? The proxy of the method and the record of its calls need
the same of a parameter (`MethodProxyCreator.hpp` 44-70, `ActualInvocation.hpp` 36-40). -/
def Param.takesForwarded : Param → Bool
  | .value t => t.isMoveConstructible
  | .lref _ => true
  | .rref _ => true

/-- What the compiler says (of include/fakeit/SpyFunctor.hpp 22, include/fakeit/MockImpl.hpp 183-199). -/
inductive Verdict where
  | accepted
  /-- the message of the `static_assert` of `SpyFunctor.hpp` 32 -/
  | explained
  /-- some error inside FakeIt or the standard library -/
  | error
  deriving DecidableEq, Repr

/-- `getOriginalMethodCopyArgs` (`MockImpl.hpp` 183-203) is compiled: with the first body of `getOriginalMethodCopyArgsInternal` if all parameters pass the trait,
otherwise with the second, which only aborts. -/
def copyArgsCompiles (ps : List Param) : Bool :=
  if allTrue (ps.map Param.smart) then ps.all Param.takesLvalue else true

/-- `Method(mock, f)` with `When`, `Fake`, `Verify` (`MockImpl.hpp` 171-214, `MethodProxyCreator.hpp` 44-70, `ActualInvocation.hpp` 36-40): the class
`MethodMockingContextImpl` is instantiated with all its virtual functions. -/
def mocking (ps : List Param) : Verdict :=
  if ps.all Param.takesForwarded && copyArgsCompiles ps then .accepted else .error

/-- `Spy(Method(mock, f))` (`SpyFunctor.hpp` 22-33): the first overload if all parameters pass the trait, otherwise the second with its `static_assert`. Simplified: of
several errors only the one that is no explanation counts. -/
def spying (ps : List Param) : Verdict :=
  match mocking ps with
  | .accepted => if allTrue (ps.map Param.smart) then .accepted else .explained
  | v => v

/-- `SpyWithoutVerify(Method(mock, f))` (`SpyWithoutVerifyFunctor.hpp` 12-18, `MockImpl.hpp` 205-213). -/
def spyingWithoutVerify (ps : List Param) : Verdict := mocking ps

end FakeIt.MoveOnly
