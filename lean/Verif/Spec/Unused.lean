import Verif.Spec.Reorder
/-!
# C99: a stubbing of a method that is not called any more changes nothing: specification
-/
namespace FakeIt.Spec.Unused
open FakeIt.Spec.Reorder (Stmt)

variable {V E : Type}

/-- The step is not a call of the method of the statement, nor the reset or the end of its mock. It may be anything else: a verification, another stubbing, also of the same method, the use of other methods and mocks. -/
def Idle (x : Stmt V E) : Op V E → Prop
  | .call m off _ => m = x.m → off ≠ x.off
  | .api (.reset m) => m ≠ x.m
  | .api (.destroy m) => m ≠ x.m
  | _ => True

/-- `mock.Reset()` or the end of the mock of the statement. -/
def Forgets (x : Stmt V E) : Op V E → Prop
  | .api (.reset m) => m = x.m
  | .api (.destroy m) => m = x.m
  | _ => False

/-- A stubbing statement for the same method that accepts all arguments (`When(Method(mock, f))` without `Using` and `Matching`, or an assignment to it), whatever its script is. -/
def Hides (x : Stmt V E) (op : Op V E) : Prop := ∃ c : Stmt V E, op = c.op ∧ c.m = x.m ∧ c.off = x.off ∧ c.what.kind = .any

/-- The method of the statement is not called, or not before its mock is reset or ends, or before it gets a stubbing that accepts all arguments. -/
def Unused (x : Stmt V E) : List (Op V E) → Prop
  | [] => True
  | op :: ops => Forgets x op ∨ Hides x op ∨ (Idle x op ∧ Unused x ops)

/-- The addresses from `a` on are two higher: there is one more stubbing. -/
def shift (a n : Nat) : Nat := if n < a then n else n + 2

end FakeIt.Spec.Unused
