import Verif.Model.World
/-!
# Specification of histories
-/
namespace FakeIt.Spec
variable {V E : Type}

/-- The recorded invocations of method `off` of mock `m`, oldest first. -/
def history (w : World V E) (m : MockId) (off : Nat) : List (Invocation V) :=
  match w.body? m off with
  | none => []
  | some b => b.invs

/-- The same recorded invocation at a later time: identity, number, method and serving stubbing are unchanged, a verified mark is
never taken away. (What may happen to the recorded arguments is the subject of C10.) -/
structure Same (i i' : Invocation V) : Prop where
  uid : i'.uid = i.uid
  ordinal : i'.ordinal = i.ordinal
  method : i'.method = i.method
  matcher : i'.matcher = i.matcher
  verified : i.verified = true → i'.verified = true

/-- History `l'` is history `l`, nothing removed or reordered or un-verified, possibly with more invocations after it. -/
inductive Extends : List (Invocation V) → List (Invocation V) → Prop where
  | nil (l' : List (Invocation V)) : Extends [] l'
  | cons {i i' : Invocation V} {l l' : List (Invocation V)} : Same i i' → Extends l l' → Extends (i :: l) (i' :: l')

end FakeIt.Spec
