import Verif.Spec.AbstractMock
/-!
# C101: checks that only look: specification
-/
namespace FakeIt.Spec.Checks

variable {V E : Type}

/-- The outcome of a check that neither marks calls as verified nor reports anything: a verification used as a bool that fails, `VerifyNoOtherInvocations` that passes, or that is used as a bool, and a statement that is skipped because an exception is propagating. -/
def OnlyLooks : Api V E → ApiOut → Prop
  | .verify _ _ _ .asBool, .verdict b => b = false
  | .verify _ _ _ _, .skipped => True
  | .verifyNoOther _ mode, .verdict b => b = true ∨ mode = .asBool
  | .verifyNoOther _ _, .skipped => True
  | _, _ => False

/-- The method expressions of the operation are evaluated, and nothing is done with them. -/
def glances (a : Api V E) : List (Op V E) := a.slots.map fun x => .api (.touch x.1 x.2)

end FakeIt.Spec.Checks
