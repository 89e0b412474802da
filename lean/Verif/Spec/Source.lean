import Verif.Model.Program
import Verif.Spec.History
import Verif.Spec.Select
/-!
# Specification: which invocations a verification looks at
-/
namespace FakeIt.Spec
variable {V E : Type}

/-- The invocation is in some history. -/
def Recorded (w : World V E) (i : Invocation V) : Prop := ∃ m off, i ∈ history w m off

/-- A method expression recognises an invocation of its method: it is the very expression that stubbed the call, or it accepts the argument values (by
value: as recorded, by reference: as they are now). -/
def Recognises (l : Leaf V) (heap : Addr → V) (i : Invocation V) : Prop :=
  (l.addr ≠ none ∧ i.matcher = l.addr) ∨ Accepts l.kind (valuesOf heap i.args)

/-- Invocation `i` belongs to the source. -/
def InSource (P : Prog V E) (w : World V E) : Source V → Invocation V → Prop
  | .empty, _ => False
  | .mock m, i => ∃ off, i ∈ history w m off
  | .ctx l, i => ∃ k off, w.mock? l.m = some k ∧ l.slot.off (P.cls k.cls) = some off ∧ i ∈ history w l.m off ∧ Recognises l w.heap i
  | .unverified s, i => InSource P w s i ∧ i.verified = false
  | .union s t, i => InSource P w s i ∨ InSource P w t i

/-- Call order: each element was called before the next. -/
def InCallOrder (l : List (Invocation V)) : Prop := l.Pairwise fun i j => i.uid < j.uid

end FakeIt.Spec
