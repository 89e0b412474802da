import Verif.Model.Creators
/-!
# What `Return(x)` and `Throw(x)` keep (include/fakeit/StubbingProgress.hpp 50-76, 86-96, 107-130)
-/
namespace FakeIt

variable {A : Type}

/-- The overloads of `Return`: methods that return copyable values (50-54; also `Return(n_Times(x))` 71-76, `AlwaysReturn` 86-90, `Throw` 107-130), references
(56-60, 92-96), values that can only be moved (62-69) (lines of include/fakeit/StubbingProgress.hpp 50-130). -/
inductive GiveKind where
  | value
  | reference
  | moveOnly

/-- What the function object of the action holds: a copy, a reference, or a shared pointer to a value moved there (include/fakeit/StubbingProgress.hpp 53, 59, 65-68). -/
inductive KeptValue (A : Type) where
  | copy (v : A)
  | ref (p : Place)
  | store (v : A)

/-- Variables and temporaries (`none`: no longer alive), function objects, and what the callers of the stubbed method have read (model state, no counterpart in
/repo) (the function objects: include/fakeit/StubbingProgress.hpp 53, 59, 65-68). -/
structure ReturnState (A : Type) where
  vars : List (Option A) := []
  temps : List (Option A) := []
  kept : List (KeptValue A) := []
  read : List A := []

/-- What test code does (`give`: `Return(x)` etc. in a stubbing statement; `semicolon`: a full expression ends; `answer i`: a call is answered by function object `i`
and the caller reads the result) (include/fakeit/StubbingProgress.hpp 50-130). -/
inductive ReturnOp (A : Type) where
  | declare (v : A)
  | assign (c : Nat) (v : A)
  | leave (c : Nat)
  | give (k : GiveKind) (g : Given A)
  | semicolon
  | answer (i : Nat)

/-- The value at a place; none if its life is over (include/fakeit/StubbingProgress.hpp 53, 59). -/
def ReturnState.at_ (s : ReturnState A) : Place → Option A
  | .var c => s.vars[c]?.join
  | .temp t => s.temps[t]?.join

/-- The lambdas (include/fakeit/StubbingProgress.hpp 53 `[r]`, 59 `[&r]`, 65-68 `store`). The argument is an object that lives at least until the end of the
statement; copying from a variable whose life is over is undefined. A variable given up by `std::move` to a method that returns copyable values is copied (the
parameter is `const R&`); `after` is what moving leaves behind. -/
def ReturnState.give (after : A → A) (s : ReturnState A) (k : GiveKind) (g : Given A) : R (ReturnState A) := do
  let (s, p) : ReturnState A × Place := match g with
    | .var c => (s, .var c)
    | .moved c => (s, .var c)
    | .temp v => ({ s with temps := s.temps ++ [some v] }, .temp s.temps.length)
  match k with
  | .value => do
    let v ← R.ofOption (s.at_ p)
    .done { s with kept := s.kept ++ [.copy v] }
  | .reference => .done { s with kept := s.kept ++ [.ref p] }
  | .moveOnly => do
    let v ← R.ofOption (s.at_ p)
    let s := match p with
      | .var c => { s with vars := s.vars.set c (some (after v)) }
      | .temp t => { s with temps := s.temps.set t (some (after v)) }
    .done { s with kept := s.kept ++ [.store v] }

/-- Calling a function object and reading the result: a copy of the copy, the object referred to, or what is moved out of the store
(include/fakeit/StubbingProgress.hpp 53, 59, 66-68). -/
def ReturnState.answer (after : A → A) (s : ReturnState A) (i : Nat) : R (ReturnState A) := do
  match ← R.ofOption s.kept[i]? with
  | .copy v => .done { s with read := s.read ++ [v] }
  | .ref p => do
    let v ← R.ofOption (s.at_ p)
    .done { s with read := s.read ++ [v] }
  | .store v => .done { s with kept := s.kept.set i (.store (after v)), read := s.read ++ [v] }

/-- One step (include/fakeit/StubbingProgress.hpp 50-130). -/
def ReturnState.step (after : A → A) (s : ReturnState A) : ReturnOp A → R (ReturnState A)
  | .declare v => .done { s with vars := s.vars ++ [some v] }
  | .assign c v => do
    let _ ← R.ofOption (s.at_ (.var c))
    .done { s with vars := s.vars.set c (some v) }
  | .leave c => .done { s with vars := s.vars.set c none }
  | .give k g => s.give after k g
  | .semicolon => .done { s with temps := s.temps.map fun _ => none }
  | .answer i => s.answer after i

/-- Several steps (include/fakeit/StubbingProgress.hpp 50-130). -/
def ReturnState.run (after : A → A) : ReturnState A → List (ReturnOp A) → R (ReturnState A)
  | s, [] => .done s
  | s, o :: os => do
    let s ← s.step after o
    ReturnState.run after s os

end FakeIt
