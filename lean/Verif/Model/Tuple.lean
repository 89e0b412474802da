import Verif.Model.Result
/-!
# Unpacking argument tuples (include/mockutils/TupleDispatcher.hpp)

A `std::tuple` is a list here; `std::get<I>` outside the tuple, which does not compile, is `R.ub`, so that a theorem saying `R.done` also says
that every index used is in range.
-/
namespace FakeIt

variable {A B S O : Type}

/-- `std::get<I>(t)` (used throughout include/mockutils/TupleDispatcher.hpp) (lines 14-76). -/
def tupleGet (t : List A) (i : Nat) : R A := R.ofOption t[i]?

/-- `apply_func<N>::applyTuple(f, t, args...)` (include/mockutils/TupleDispatcher.hpp 14-28): `get<N-1>(t)` is put in front of the arguments
collected so far; at `N = 0` the function is called with them. The function may itself end in undefined behaviour. -/
def applyFunc (f : List A → R O) (t : List A) : (n : Nat) → (args : List A) → R O
  | 0, args => f args
  | n + 1, args => do
    let a ← tupleGet t n
    applyFunc f t n (a :: args)

/-- `TupleDispatcher::invoke` / `applyTuple(f, t)` (include/mockutils/TupleDispatcher.hpp 32-41): starts with `sizeof...(ArgsT)` and no
arguments. -/
def invokeTuple (f : List A → R O) (t : List A) : R O := applyFunc f t t.length []

/-- `TupleDispatcher::for_each(t, f, integral_constant<I>)` (include/mockutils/TupleDispatcher.hpp 43-53): `left` counts the elements from `I` to
the end of the tuple, so `left = 0` is the overload for `I = tuple_size`. The visitor's own state is threaded through. -/
def forEachFrom (visit : S → Nat → A → R S) (t : List A) : (left i : Nat) → S → R S
  | 0, _, s => .done s
  | left + 1, i, s => do
    let a ← tupleGet t i
    let s ← visit s i a
    forEachFrom visit t left (i + 1) s

/-- `TupleDispatcher::for_each(t, f)` (include/mockutils/TupleDispatcher.hpp 55-58). -/
def forEach (visit : S → Nat → A → R S) (t : List A) (s : S) : R S := forEachFrom visit t t.length 0 s

/-- `TupleDispatcher::for_each(t, t2, f, integral_constant<I>)` (include/mockutils/TupleDispatcher.hpp 60-70); the length of the first tuple is
the one that counts. -/
def forEach2From (visit : S → Nat → A → B → R S) (t : List A) (t2 : List B) : (left i : Nat) → S → R S
  | 0, _, s => .done s
  | left + 1, i, s => do
    let a ← tupleGet t i
    let b ← tupleGet t2 i
    let s ← visit s i a b
    forEach2From visit t t2 left (i + 1) s

/-- `TupleDispatcher::for_each(t, t2, f)` (include/mockutils/TupleDispatcher.hpp 72-75). -/
def forEach2 (visit : S → Nat → A → B → R S) (t : List A) (t2 : List B) (s : S) : R S := forEach2From visit t t2 t.length 0 s

end FakeIt
