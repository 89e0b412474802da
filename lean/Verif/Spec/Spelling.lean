import Verif.Spec.AbstractMock
/-!
# C95: how a script is written does not matter: specification
-/
namespace FakeIt.Spec.Spelling

variable {V E : Type}

/-- A script written out: what is to be done `n` times is written `n` times, and nothing is written behind what is done for ever. -/
def spelled : List (Act V E) → List (Act V E)
  | [] => []
  | .rep n f :: l => List.replicate (max 1 n.toNat) (.rep 1 f) ++ spelled l
  | a :: _ => [a]

/-- The same for an operation: only the scripts of `When` can be written in several ways. -/
def spelledApi : Api V E → Api V E
  | .when_ t acts uncaught => .when_ t (spelled acts) uncaught
  | a => a

/-- The same for a step of a test. -/
def spelledOp : Op V E → Op V E
  | .api a => .api (spelledApi a)
  | op => op

/-- The scripts in the step can be written: multiplicities of at least one. -/
def WellWritten : Op V E → Prop
  | .api (.when_ _ acts _) => writable acts = true
  | _ => True

end FakeIt.Spec.Spelling
