import Verif.Model.Sequence
/-!
# Specification: sequence expressions a user can write
-/
namespace FakeIt.Spec

/-- Sequence expressions that can be built with the API: a method expression, `s + t`, and `s * n` when it does not throw. -/
inductive Writable {L : Type} : Seq L → Prop
  | method (l : L) : Writable (.leaf l)
  | plus {s t : Seq L} : Writable s → Writable t → Writable (s.opPlus t)
  | star {s r : Seq L} {n : Int} : Writable s → s.opStar n = some r → Writable r

/-- A pattern a user can write: `Verify(s1, ..., sk)` with k >= 1. -/
def WritablePattern {L : Type} (pat : List (Seq L)) : Prop := pat ≠ [] ∧ ∀ s ∈ pat, Writable s

end FakeIt.Spec
