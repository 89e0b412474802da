import Verif.Spec.Building
import Verif.Model.Several
/-!
# What `Fake(...)` and `Spy(...)` of several methods do, and what is left when one of their steps throws
-/
namespace FakeIt.Spec.Several
open FakeIt.Building FakeIt.Spec.Building FakeIt.Several

/-- The steps of one argument. -/
def argumentSteps (c : Crit) : List Op := methodSteps ++ critSteps c

/-- The steps of all arguments. -/
def prepareSteps : List Crit → List Op
  | [] => []
  | c :: cs => argumentSteps c ++ prepareSteps cs

/-- The steps that make the action of the `k`-th method. -/
def makeSteps (k : Nat) : Kind → List Op
  | .fake => [.memory (.action k), .memory (.owner k), .memory (.insert k)]
  | .spy => [.memory (.function k), .memory (.action k), .memory (.delegate k), .memory (.owner k), .memory (.insert k)]

/-- The steps that stub `n` methods, the first being number `k`. -/
def stubSteps (kind : Kind) : (k n : Nat) → List Op
  | _, 0 => []
  | k, n + 1 => makeSteps k kind ++ (endSteps ++ stubSteps kind (k + 1) n)

/-- All steps of a statement, in order. -/
def steps (kind : Kind) (cs : List Crit) : List Op := prepareSteps cs ++ stubSteps kind 0 cs.length

/-- The stubbings are of these kinds, in this order; each has one action. -/
def Made (cs : List Crit) (ts : List Stub) : Prop :=
  ts.map (fun t => (t.parts.length, t.acts.length)) = cs.map (fun c => (arity c, 1))

/-- What these stubbings consist of. -/
def ownedAll (ts : List Stub) : List Nat := ts.flatMap owned

/-- The step `o`, after the steps `before`, is one in which the argument `c` is made, after `n` other arguments. -/
def InArgument (cs : List Crit) (n : Nat) (c : Crit) (before : List Op) (o : Op) : Prop :=
  cs[n]? = some c ∧ ∃ b r, before = prepareSteps (cs.take n) ++ b ∧ argumentSteps c = b ++ o :: r

/-- The step `o`, after the steps `before`, is one in which a method is stubbed, after `n` other methods. -/
def InStubbing (kind : Kind) (cs : List Crit) (n : Nat) (before : List Op) (o : Op) : Prop :=
  n < cs.length ∧ ∃ b r, before = prepareSteps cs ++ (stubSteps kind 0 n ++ b) ∧ makeSteps n kind ++ endSteps = b ++ o :: r

end FakeIt.Spec.Several
