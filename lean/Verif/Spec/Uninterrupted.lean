import Verif.Spec.Checking
import Verif.Spec.AbstractMock
/-!
# Verifications that nothing interrupts: the same statement in two models

A verification statement of the model of exceptions in verifications (`Model/Checking.lean`) as a statement of a test of the model of the whole library, and recorded calls as both see them.
-/
namespace FakeIt.Checking.Spec
open FakeIt.Building (Res)

variable {V E X : Type}

section
variable (kinds : Nat → MatcherKind V) (ctr : Nat → Nat → Nat)

/-- The method expression: `kinds` are the matchers, `ctr` tells apart the places where a method is named. -/
def leafOf (l : Leaf) : FakeIt.Leaf V := ⟨l.mock, .meth l.meth (ctr l.mock l.meth), kinds l.pred, none⟩

/-- The sequence. -/
def seqOf : Seq Leaf → Seq (FakeIt.Leaf V)
  | .leaf l => .leaf (leafOf kinds ctr l)
  | .cat s t => .cat (seqOf s) (seqOf t)
  | .rep s n => .rep (seqOf s) n

/-- The source of calls. -/
def sourceOf : Src → Source V
  | .nothing => .empty
  | .mock m => .mock m
  | .method l => .ctx (leafOf kinds ctr l)
  | .unverified s => .unverified (sourceOf s)
  | .group s => sourceOf s
  | .also s t => .union (sourceOf s) (sourceOf t)

/-- Where the verification looks. -/
def scopeOf : Scope → FakeIt.Scope V
  | .involved => .involved
  | .unverified => .unverified
  | .using src => .using_ (sourceOf kinds ctr src)

/-- The statement. -/
def apiOf (c : Check) (q : Quant) (mode : VMode) : Api V E :=
  match c with
  | .pattern scope pat => .verify (scopeOf kinds ctr scope) (pat.map (seqOf kinds ctr)) q mode
  | .noOther src => .verifyNoOther [sourceOf kinds ctr src] mode

end

/-- The same calls are recorded, with the same arguments, and the same ones are verified. -/
def SameRecords (s : FakeIt.Spec.AState V E) (recs : List (Rec (List V))) : Prop :=
  recs.map (fun c => (some (c.mock, c.meth), c.arg, c.verified)) = s.calls.map fun r => (r.meth, FakeIt.Spec.valuesOf s.heap r.args, r.verified)

/-- What the test sees of a statement. -/
def seenOf : ApiOut → Option (Res (Exc X) Unit)
  | .verdict true => some (.ok ())
  | .verdict false => some (.exc .failed)
  | .threw => some (.exc .invalid)
  | _ => none

/-- What the test sees of a statement that is converted to `bool`. -/
def answerOf : ApiOut → Option (Res (Exc X) Bool)
  | .verdict b => some (.ok b)
  | .threw => some (.exc .invalid)
  | _ => none

end FakeIt.Checking.Spec
