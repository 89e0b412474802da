import Verif.Spec.Checks
/-!
# C102: checks that can be left out: specification
-/
namespace FakeIt.Spec.LeftOut

variable {V E : Type}

/-- The mock is neither reset nor destroyed by the step. -/
def Keeps (m : MockId) : Op V E → Prop
  | .api (.reset m') => m' ≠ m
  | .api (.destroy m') => m' ≠ m
  | _ => True

/-- An operation of the test has named the method and has not thrown an exception, and the mock has not been reset or destroyed since. -/
def Seen (pre : List (Op V E)) (outs : List (OpOut V E)) (x : MockId × SlotRef) : Prop :=
  ∃ (p1 p2 : List (Op V E)) (b : Api V E) (q1 q2 : List (OpOut V E)) (o : ApiOut), pre = p1 ++ .api b :: p2 ∧ outs = q1 ++ .api o :: q2 ∧ q1.length = p1.length ∧ o ≠ .threw ∧ x ∈ b.slots ∧ ∀ op ∈ p2, Keeps x.1 op

end FakeIt.Spec.LeftOut
