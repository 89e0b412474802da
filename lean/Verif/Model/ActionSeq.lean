import Verif.Model.Program
/-!
# Action and ActionSequence (include/fakeit/Action.hpp, include/fakeit/ActionSequence.hpp)
-/
namespace FakeIt

variable {V E : Type}

/-- `Action::isDone`: `times == 0` for `Repeat` (include/fakeit/Action.hpp 48-50), `false` for the others
(70-72, 86-88, 102-104; include/fakeit/ActionSequence.hpp 70-72). -/
def Act.isDone : Act V E → Bool
  | .rep times _ => times == 0
  | .forever _ => false
  | .dflt => false
  | .deleg _ => false
  | .noMore => false

/-- The state change at the start of `Repeat::invoke`: `times--` (include/fakeit/Action.hpp 44). Other actions have no state.
(`long` overflow after 2^63 decrements is not modelled.) -/
def Act.tick : Act V E → Act V E
  | .rep times f => .rep (times - 1) f
  | a => a

namespace ActionSeq

/-- `ActionSequence()` / `clear()` (include/fakeit/ActionSequence.hpp 32-34, 80-85): one sentinel. -/
def init : ActionSeq V E := { objs := [.noMore], recorded := [0], used := [] }

/-- `append` (include/fakeit/ActionSequence.hpp 75-78): insert before the last element of `_recordedActions`
(`insert(end() - 1, ...)`). On an empty vector `end() - 1` would be undefined; the API appends only before the sequence is
committed, when the sentinel is there. -/
def append (s : ActionSeq V E) (a : Act V E) : ActionSeq V E :=
  { s with
    objs := s.objs ++ [a]
    recorded := s.recorded.dropLast ++ [s.objs.length] ++ s.recorded.drop (s.recorded.length - 1) }

/-- `_recordedActions.front()` (include/fakeit/ActionSequence.hpp 42): undefined on an empty vector. -/
def front (s : ActionSeq V E) : R (Nat × Act V E) :=
  match s.recorded with
  | [] => .ub
  | i :: _ => do
    let a ← R.ofOption s.objs[i]?
    .done (i, a)

/-- The `times--` of the action object `i` (include/fakeit/Action.hpp 44). -/
def tick (s : ActionSeq V E) (i : Nat) : ActionSeq V E :=
  { s with objs := s.objs.modify i Act.tick }

/-- The `finallyClause` (include/fakeit/ActionSequence.hpp 45-51), run when `action.invoke` returns or throws: if the
action object that was run is done, erase the *first* recorded action (undefined on an empty vector) and keep the action that was run in
`_usedActions`. -/
def finallyClause (s : ActionSeq V E) (i : Nat) : R (ActionSeq V E) :=
  match s.objs[i]? with
  | none => .ub
  | some a =>
    if a.isDone then
      match s.recorded with
      | [] => .ub
      | _ :: rest => .done { s with recorded := rest, used := s.used ++ [i] }
    else .done s

end ActionSeq

/-- The action list of a stubbing statement: `appendAction` for each action in order on a new sequence
(include/fakeit/MethodMockingContext.hpp 140-142, include/fakeit/WhenFunctor.hpp 68-71). -/
def ActionSeq.ofActs (acts : List (Act V E)) : ActionSeq V E :=
  acts.foldl ActionSeq.append ActionSeq.init

end FakeIt
