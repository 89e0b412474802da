import Verif.Model.Types
/-!
# Expected sequences (include/fakeit/Sequence.hpp)

`L` is the type of a single expected invocation (a `MethodMockingContext` used as `Sequence`).
-/
namespace FakeIt

/-- A `Sequence` object: a single method expression (include/fakeit/MethodMockingContext.hpp 191-206),
`ConcatenatedSequence` (include/fakeit/Sequence.hpp 48-86) or `RepeatedSequence` (88-127). -/
inductive Seq (L : Type) where
  | leaf (l : L)
  | cat (s1 s2 : Seq L)
  | rep (s : Seq L) (times : Int)
  deriving DecidableEq, Repr

namespace Seq
variable {L : Type}

/-- `size()`: 1 for a method expression (include/fakeit/MethodMockingContext.hpp 191-193), the sum for a
concatenation (include/fakeit/Sequence.hpp 63-65), `_s.size() * times` for a repetition (103-105).
C++ `unsigned int`; here without wrap-around. -/
def size : Seq L → Nat
  | leaf _ => 1
  | cat s1 s2 => s1.size + s2.size
  | rep s times => s.size * times.toNat

/-- `getExpectedSequence`: include/fakeit/MethodMockingContext.hpp 202-206 (one element),
include/fakeit/Sequence.hpp 75-78 (first `s1`, then `s2`), 115-118 (`for (int i = 0; i < times; i++)` appends the
expansion of `_s`). -/
def expected : Seq L → List L
  | leaf l => [l]
  | cat s1 s2 => s1.expected ++ s2.expected
  | rep s times => (List.replicate times.toNat s.expected).flatten

/-- `getInvolvedMocks`: include/fakeit/MethodMockingContext.hpp 153-155/198-200, include/fakeit/Sequence.hpp 80-83
(both parts), 111-113 (the repeated part once). `mockOf` gives the mock of a method expression. -/
def involved {M : Type} (mockOf : L → M) : Seq L → List M
  | leaf l => [mockOf l]
  | cat s1 s2 => s1.involved mockOf ++ s2.involved mockOf
  | rep s _ => s.involved mockOf

/-- `operator+` (include/fakeit/Sequence.hpp 129-131). -/
def opPlus (s1 s2 : Seq L) : Seq L := cat s1 s2

/-- `operator*` (include/fakeit/Sequence.hpp 133-143): `none` is the `invalid_argument` exception for `times <= 0`. -/
def opStar (s : Seq L) (times : Int) : Option (Seq L) :=
  if times ≤ 0 then none else some (rep s times)

end Seq
end FakeIt
