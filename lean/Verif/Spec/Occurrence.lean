/-!
# Specification: occurrences of a pattern in a history

Written without reference to the model: a pattern is a list of blocks (each a list of expected invocations), a history a list.
-/
namespace FakeIt.Spec

variable {L I : Type}

/-- The block `e` is found in `actual` at index `i`: consecutive elements, each accepted. -/
def BlockAt (mt : L → I → Prop) (actual : List I) (e : List L) (i : Nat) : Prop :=
  ∀ j l, e[j]? = some l → ∃ a, actual[i + j]? = some a ∧ mt l a

/-- `PatAt mt actual pat start stop idx`: the whole pattern is found in `actual` at or after `start`: its blocks one after the other,
gaps allowed between blocks; `stop` is the end of the last block, `idx` are the indices the blocks occupy. -/
inductive PatAt (mt : L → I → Prop) (actual : List I) : List (List L) → Nat → Nat → List Nat → Prop
  | nil (i : Nat) : PatAt mt actual [] i i []
  | cons {e es start i stop idx} : start ≤ i → BlockAt mt actual e i → PatAt mt actual es (i + e.length) stop idx →
      PatAt mt actual (e :: es) start stop (List.range' i e.length ++ idx)

/-- `Occurs mt actual pat k start stop idx`: `k` occurrences of the whole pattern, one after the other without overlap,
at or after index `start`, the last one ending at `stop`; `idx` are the indices they occupy. -/
inductive Occurs (mt : L → I → Prop) (actual : List I) (pat : List (List L)) : Nat → Nat → Nat → List Nat → Prop
  | zero (start : Nat) : Occurs mt actual pat 0 start start []
  | succ {k start mid stop idx idx'} : PatAt mt actual pat start mid idx → Occurs mt actual pat k mid stop idx' →
      Occurs mt actual pat (k + 1) start stop (idx ++ idx')

/-- `k` is the largest number of disjoint in-order occurrences. -/
def IsMaxCount (mt : L → I → Prop) (actual : List I) (pat : List (List L)) (k : Nat) : Prop :=
  (∃ stop idx, Occurs mt actual pat k 0 stop idx) ∧ ∀ k' stop idx, Occurs mt actual pat k' 0 stop idx → k' ≤ k

end FakeIt.Spec
