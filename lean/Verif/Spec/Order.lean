import Verif.Model.ArgMatchers
/-!
# Specification: totally ordered argument types, byte strings
-/
namespace FakeIt.Spec
variable {A : Type}

/-- The operators of the argument type are those of the strict total order `lt`. -/
structure TotalOrder (ops : Ops A) (lt : A → A → Prop) : Prop where
  irrefl : ∀ a, ¬ lt a a
  trans : ∀ a b c, lt a b → lt b c → lt a c
  total : ∀ a b, lt a b ∨ a = b ∨ lt b a
  eq : ∀ a b, ops.eq a b = true ↔ a = b
  ne : ∀ a b, ops.ne a b = true ↔ a ≠ b
  ltOp : ∀ a b, ops.lt a b = true ↔ lt a b
  leOp : ∀ a b, ops.le a b = true ↔ lt a b ∨ a = b
  gtOp : ∀ a b, ops.gt a b = true ↔ lt b a
  geOp : ∀ a b, ops.ge a b = true ↔ lt b a ∨ a = b

/-- Exactly one of three. -/
def ExactlyOne (p q r : Prop) : Prop := (p ∧ ¬ q ∧ ¬ r) ∨ (¬ p ∧ q ∧ ¬ r) ∨ (¬ p ∧ ¬ q ∧ r)

/-- The string in memory at a pointer: the bytes before the first NUL. -/
def text : List UInt8 → List UInt8
  | [] => []
  | b :: bs => if b = 0 then [] else b :: text bs

/-- Byte-wise lexicographic order. -/
inductive LexLt : List UInt8 → List UInt8 → Prop where
  | nil {b : UInt8} {bs : List UInt8} : LexLt [] (b :: bs)
  | head {a b : UInt8} {as bs : List UInt8} : a.toNat < b.toNat → LexLt (a :: as) (b :: bs)
  | tail {a : UInt8} {as bs : List UInt8} : LexLt as bs → LexLt (a :: as) (a :: bs)

/-- What each comparison means for an order. -/
def Means (lt : A → A → Prop) : Cmp → A → A → Prop
  | .eq, x, a => a = x
  | .ne, x, a => a ≠ x
  | .lt, x, a => lt a x
  | .le, x, a => lt a x ∨ a = x
  | .gt, x, a => lt x a
  | .ge, x, a => lt x a ∨ a = x

/-- What an argument of `Using` accepts, when no matcher has undefined behaviour. -/
def UsingAccepts (ops : Ops A) : UsingArg A → A → Prop
  | .underscore, _ => True
  | .creator m, a => m a = .done true
  | .value v, a => ops.eq a v = true

end FakeIt.Spec
