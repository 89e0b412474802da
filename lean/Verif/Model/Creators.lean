import Verif.Model.ArgMatchers
/-!
# What argument matchers compare with (include/fakeit/argument_matchers.hpp 28-56, 79-107, 484-601; include/fakeit/MatchersCollector.hpp 47-82)

`Eq(x)`, `Gt(x)`, ... return a *creator* that refers to `x`; `Using(...)` lets each creator make a *matcher*, which has a value of its own. This is a model of the
variables and temporaries involved.
-/
namespace FakeIt

variable {A : Type}

/-- What `Eq(...)`, `Gt(...)` etc. are given: a variable, a variable given up by `std::move`, a temporary (include/fakeit/argument_matchers.hpp 500-601). -/
inductive Given (A : Type) where
  | var (c : Nat)
  | moved (c : Nat)
  | temp (v : A)

/-- Where a value is: in a variable or in a temporary (what include/fakeit/argument_matchers.hpp 28-37 refers to). -/
inductive Place where
  | var (c : Nat)
  | temp (t : Nat)

/-- A creator (include/fakeit/argument_matchers.hpp 28-37): the comparison, where `_expectedRef` refers to, and whether `ExpectedTRef` is an rvalue reference. -/
structure Creator where
  cmp : Cmp
  place : Place
  rvalue : Bool

/-- A matcher (include/fakeit/argument_matchers.hpp 39-46): the comparison and the `_expected` of its own. Arrays (48-55) are copied in the same way. -/
structure MadeMatcher (A : Type) where
  cmp : Cmp
  expected : A

/-- Variables and temporaries (`none`: no longer alive), creators, matchers, and what the matchers have said (model state, no counterpart in /repo) (the creators: include/fakeit/argument_matchers.hpp 28-37). -/
structure CreatorState (A : Type) where
  vars : List (Option A) := []
  temps : List (Option A) := []
  creators : List Creator := []
  matchers : List (MadeMatcher A) := []
  said : List Bool := []

/-- The value at a place; none if its life is over (include/fakeit/argument_matchers.hpp 39-46, 100-102). -/
def CreatorState.read (s : CreatorState A) : Place → Option A
  | .var c => s.vars[c]?.join
  | .temp t => s.temps[t]?.join

/-- A place gets another value (C++; what include/fakeit/argument_matchers.hpp 39-46 reads). -/
def CreatorState.write (s : CreatorState A) (v : A) : Place → CreatorState A
  | .var c => { s with vars := s.vars.set c (some v) }
  | .temp t => { s with temps := s.temps.set t (some v) }

/-- What test code does (`make`: `Eq(...)`, `Gt(...)` etc.; `collect i`: `Using(...)` comes to creator `i`; `semicolon`: a full expression ends; `ask`: an
argument is compared by a matcher) (include/fakeit/argument_matchers.hpp 500-601, include/fakeit/MatchersCollector.hpp 47-82). -/
inductive CreatorOp (A : Type) where
  | declare (v : A)
  | assign (c : Nat) (v : A)
  | leave (c : Nat)
  | make (cmp : Cmp) (g : Given A)
  | collect (i : Nat)
  | semicolon
  | ask (m : Nat) (actual : A)

/-- The factory functions (include/fakeit/argument_matchers.hpp 500-601): the creator refers to what it is given, the value is not looked at. A temporary lives
until the full expression ends. -/
def CreatorState.make (s : CreatorState A) (cmp : Cmp) : Given A → CreatorState A
  | .var c => { s with creators := s.creators ++ [⟨cmp, .var c, false⟩] }
  | .moved c => { s with creators := s.creators ++ [⟨cmp, .var c, true⟩] }
  | .temp v => { s with temps := s.temps ++ [some v], creators := s.creators ++ [⟨cmp, .temp s.temps.length, true⟩] }

/-- `CollectMatchers` (include/fakeit/MatchersCollector.hpp 61-67) calls `createMatcher` (include/fakeit/argument_matchers.hpp 91-106): the matcher's value is
initialised with `std::forward<ExpectedTRef>(_expectedRef)`, that is copied, or moved away if the creator was given an rvalue. `after` is what is left behind. A
plain value instead of a creator (MatchersCollector.hpp 50-59) is `Eq(std::forward<Head>(value))`, made and collected at once. -/
def CreatorState.collect (after : A → A) (s : CreatorState A) (i : Nat) : R (CreatorState A) := do
  let k ← R.ofOption s.creators[i]?
  let v ← R.ofOption (s.read k.place)
  let s := if k.rvalue then s.write (after v) k.place else s
  .done { s with matchers := s.matchers ++ [⟨k.cmp, v⟩] }

/-- One step. Assigning to a variable whose life is over is undefined, as is using a value whose life is over (`collect`). The last line is `matches`
(include/fakeit/argument_matchers.hpp 100-102 etc.). -/
def CreatorState.step (ops : Ops A) (after : A → A) (s : CreatorState A) : CreatorOp A → R (CreatorState A)
  | .declare v => .done { s with vars := s.vars ++ [some v] }
  | .assign c v => do
    let _ ← R.ofOption (s.read (.var c))
    .done (s.write v (.var c))
  | .leave c => .done { s with vars := s.vars.set c none }
  | .make cmp g => .done (s.make cmp g)
  | .collect i => s.collect after i
  | .semicolon => .done { s with temps := s.temps.map fun _ => none }
  | .ask m a => do
    let k ← R.ofOption s.matchers[m]?
    .done { s with said := s.said ++ [k.cmp.matches ops k.expected a] }

/-- Several steps (include/fakeit/argument_matchers.hpp 28-107). -/
def CreatorState.run (ops : Ops A) (after : A → A) : CreatorState A → List (CreatorOp A) → R (CreatorState A)
  | s, [] => .done s
  | s, o :: os => do
    let s ← s.step ops after o
    CreatorState.run ops after s os

end FakeIt
