import Verif.Spec.Reorder
/-!
# C98: a stubbing statement may be moved across steps that do not concern its method: specification
-/
namespace FakeIt.Spec.Moving
open FakeIt.Spec.Reorder (Stmt)

variable {V E : Type}

/-- The step does not concern the method of the statement: a call of another method, any verification, any access to data members and variables, `Clear`, a new mock, a method expression; `Reset` and the end of another mock. (Other stubbings: see C97.) -/
def Unconcerned (x : Stmt V E) : Op V E → Prop
  | .call m off _ => m = x.m → off ≠ x.off
  | .api (.when_ _ _ _) => False
  | .api (.fake _) => False
  | .api (.spy _ _) => False
  | .api (.assign _ _) => False
  | .api (.destroy m) => m ≠ x.m
  | .api (.reset m) => m ≠ x.m
  | _ => True

end FakeIt.Spec.Moving
