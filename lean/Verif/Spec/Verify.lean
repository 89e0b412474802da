import Verif.Spec.Source
import Verif.Spec.Occurrence
import Verif.Spec.Writable
/-!
# Specification: what a verification statement decides
-/
namespace FakeIt.Spec
variable {V E : Type}

/-- The method expression denotes the invocation: it is a recorded invocation of that method which the expression's matcher recognises. -/
def Denotes (P : Prog V E) (w : World V E) (l : Leaf V) (i : Invocation V) : Prop := InSource P w (.ctx l) i

/-- The invocation belongs to one of the mocks named in the pattern. -/
def Involved (w : World V E) (pat : List (Seq (Leaf V))) (i : Invocation V) : Prop :=
  ∃ s ∈ pat, ∃ l ∈ s.expected, ∃ off, i ∈ history w l.m off

/-- The invocations a statement looks at: `Verify(p)`, `Using(source).Verify(p)`, `Unverified.Verify(p)`. -/
def InScope (P : Prog V E) (w : World V E) (pat : List (Seq (Leaf V))) : Scope V → Invocation V → Prop
  | .involved, i => Involved w pat i
  | .using_ src, i => InSource P w src i
  | .unverified, i => Involved w pat i ∧ i.verified = false

/-- The sequence a statement looks at: the invocations in its scope, each once, in call order. -/
structure IsActual (P : Prog V E) (w : World V E) (scope : Scope V) (pat : List (Seq (Leaf V))) (actual : List (Invocation V)) : Prop where
  order : InCallOrder actual
  mem : ∀ i, i ∈ actual ↔ InScope P w pat scope i

/-- The pattern, blocks of expected invocations. -/
def blocks (pat : List (Seq (Leaf V))) : List (List (Leaf V)) := pat.map Seq.expected

/-- The number of matches of the pattern. -/
def MatchCount (P : Prog V E) (w : World V E) (scope : Scope V) (pat : List (Seq (Leaf V))) (n : Nat) : Prop :=
  ∃ actual, IsActual P w scope pat actual ∧ IsMaxCount (Denotes P w) actual (blocks pat) n

/-- What the quantifiers promise. -/
def Passes : Quant → Nat → Prop
  | .dflt, n => 1 ≤ n
  | .any, _ => True
  | .never, n => n = 0
  | .once, n => n = 1
  | .twice, n => n = 2
  | .atLeastOnce, n => 1 ≤ n
  | .exactly k, n => (n : Int) = k
  | .atLeast k, n => k ≤ (n : Int)

/-- The expected count and kind of verification a failure reports. -/
def Expects : Quant → VerificationType × Int
  | .dflt => (.atLeast, 1)
  | .any => (.atLeast, 1)
  | .never => (.exact, 0)
  | .once => (.exact, 1)
  | .twice => (.exact, 2)
  | .atLeastOnce => (.atLeast, 1)
  | .exactly k => (.exact, k)
  | .atLeast k => (.atLeast, k)

/-- Quantifiers that do not throw. -/
def LegalQuant : Quant → Prop
  | .exactly k => 0 ≤ k
  | .atLeast k => 0 ≤ k
  | _ => True

/-- Fewer than 2^32 calls and methods have been recorded so far (the two global 32-bit counters have not wrapped). -/
def Unwrapped (w : World V E) : Prop := w.invTotal < wrap32 ∧ w.methTotal < wrap32

/-- The method expression can be evaluated: the mock is alive, the method is one of its class (the destructor is virtual). -/
def Mentionable (P : Prog V E) (w : World V E) (m : MockId) : SlotRef → Prop
  | .meth off _ => ∃ k, w.mock? m = some k ∧ off < (P.cls k.cls).size
  | .dtor => ∃ k d, w.mock? m = some k ∧ (P.cls k.cls).dtor = some d ∧ d + 1 < (P.cls k.cls).size

end FakeIt.Spec
