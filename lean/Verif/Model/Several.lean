import Verif.Model.Building
/-!
# Exceptions anywhere in `Fake(...)`, `Spy(...)`, `SpyWithoutVerify(...)` of several methods

All method expressions of the statement are made first; then the methods get their action and are committed, one after the other.  As in `Model/Building.lean` the n-th step that may throw throws `th n`, and the heap objects are counted.
The stubbings of all methods are kept in one list, in the order in which they were made: the j-th stubbing of a statement belongs to its j-th method.
-/
namespace FakeIt.Several
open FakeIt.Building

variable {X : Type}

/-- `Fake` (include/fakeit/FakeFunctor.hpp 19-24), or `Spy` (include/fakeit/SpyFunctor.hpp 22-28) and `SpyWithoutVerify` (include/fakeit/SpyWithoutVerifyFunctor.hpp 12-18), which make the same objects. -/
inductive Kind where
  | fake
  | spy
  deriving DecidableEq, Repr

/-- The expressions of the statement go at its end, the last one first (C++: temporaries of a full expression; include/fakeit/MethodMockingContext.hpp 94-101, 275). -/
def dropAll (committed : Bool) : List Expr → St → R St
  | [], s => .done s
  | e :: es, s => dropAll committed es s >>= e.drop committed

section
variable (th : Nat → Option X)

/-- One argument of the statement: a method and, if wanted, which calls (include/fakeit/api_macros.hpp 31-32; include/fakeit/MethodMockingContext.hpp 300-319). -/
def argument (c : Crit) : M X Expr := do
  let e ← expression th
  narrow th c e

/-- The arguments of the statement, `es` being those made already. C++ leaves the order open; here it is left to right (include/fakeit/FakeFunctor.hpp 32, SpyFunctor.hpp 41, SpyWithoutVerifyFunctor.hpp 26). -/
def arguments : List Expr → List Crit → M X (List Expr)
  | es, [] => pure es
  | es, c :: cs => do
    let e ← (argument th c).unwinding (dropAll false es)
    arguments (es ++ [e]) cs

/-- What is made before the action: a spy asks for the original method, a `std::function` (include/fakeit/SpyFunctor.hpp 25, SpyWithoutVerifyFunctor.hpp 15; include/fakeit/MockImpl.hpp 183-213). -/
def original (k : Nat) : Kind → M X Unit
  | .fake => pure ()
  | .spy => op th (.memory (.function k))

/-- The action of a spy keeps a copy of it (include/fakeit/Action.hpp 94). -/
def delegate (k : Nat) : Kind → M X Unit
  | .fake => pure ()
  | .spy => op th (.memory (.delegate k))

/-- The action of the `k`-th method is made and appended (include/fakeit/FakeFunctor.hpp 22, SpyFunctor.hpp 25-26, SpyWithoutVerifyFunctor.hpp 15-16; include/fakeit/ActionSequence.hpp 75-78). -/
def action (kind : Kind) (k : Nat) : M X Nat := do
  original th k kind
  op th (.memory (.action k))
  delegate th k kind
  let a ← fresh
  (op th (.memory (.owner k))).unwinding (destroy a)
  (op th (.memory (.insert k))).unwinding (destroy a)
  pure a

/-- What goes when an exception passes by while the expression `e` is stubbed: the expressions after it, itself, and those before it, which are committed (C++; include/fakeit/MethodMockingContext.hpp 94-101, 275). -/
def abandon (done : List Expr) (e : Expr) (todo : List Expr) (s : St) : R St :=
  dropAll false todo s >>= fun s => e.drop false s >>= dropAll true done

/-- The methods from number `k` on are stubbed (include/fakeit/FakeFunctor.hpp 19-35, SpyFunctor.hpp 22-44, SpyWithoutVerifyFunctor.hpp 12-29). -/
def each (kind : Kind) : (k : Nat) → List Expr → List Expr → M X Unit
  | _, done, [] => quiet (dropAll true done)
  | k, done, e :: todo => do
    let a ← (action th kind k).unwinding (abandon done e todo)
    (commit th { e with acts := e.acts ++ [a] }).unwinding (abandon done { e with acts := e.acts ++ [a] } todo)
    each kind (k + 1) (done ++ [{ e with acts := e.acts ++ [a] }]) todo

/-- A whole statement, `Fake(Method(mock, f), Method(mock, g).Using(1))` (include/fakeit/FakeFunctor.hpp 31-35, SpyFunctor.hpp 40-44, SpyWithoutVerifyFunctor.hpp 25-29). -/
def statement (kind : Kind) (cs : List Crit) : M X Unit := do
  let es ← arguments th [] cs
  each th kind 0 [] es

end
end FakeIt.Several
