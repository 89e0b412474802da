import Verif.Spec.Interrupted
/-!
# C97: stubbing statements for different methods may be written in any order: specification

The address of a stubbing's matcher (what a saved method expression is recognised by, C40) depends on the order of the statements; a test that saves expressions has the other addresses in the other order.
-/
namespace FakeIt.Spec.Reorder
open FakeIt.Spec.Interrupted (Stubbing stubOp)

variable {V E : Type}

/-- Two addresses are exchanged. -/
def swap (a b n : Nat) : Nat := if n = a then b else if n = b then a else n

/-- A method expression with other addresses. -/
def renLeaf (σ : Nat → Nat) (l : Leaf V) : Leaf V := { l with addr := l.addr.map σ }

/-- The same for sequences. -/
def renSeq (σ : Nat → Nat) : Seq (Leaf V) → Seq (Leaf V)
  | .leaf l => .leaf (renLeaf σ l)
  | .cat s t => .cat (renSeq σ s) (renSeq σ t)
  | .rep s n => .rep (renSeq σ s) n

/-- The same for sources. -/
def renSource (σ : Nat → Nat) : Source V → Source V
  | .empty => .empty
  | .mock m => .mock m
  | .ctx l => .ctx (renLeaf σ l)
  | .unverified s => .unverified (renSource σ s)
  | .union s t => .union (renSource σ s) (renSource σ t)

/-- The same for scopes. -/
def renScope (σ : Nat → Nat) : Scope V → Scope V
  | .using_ s => .using_ (renSource σ s)
  | sc => sc

/-- A step of a test with other addresses: only verifications have saved expressions. -/
def renOp (σ : Nat → Nat) : Op V E → Op V E
  | .api (.verify scope pat q mode) => .api (.verify (renScope σ scope) (pat.map (renSeq σ)) q mode)
  | .api (.verifyNoOther srcs mode) => .api (.verifyNoOther (srcs.map (renSource σ)) mode)
  | op => op

/-- A recorded call with other addresses. -/
def renRec (σ : Nat → Nat) (r : Rec V) : Rec V := { r with served := r.served.map σ }

/-- A report with other addresses. -/
def renReport (σ : Nat → Nat) : Report V → Report V
  | .unexpected ty r => .unexpected ty (renRec σ r)
  | .mismatch ty n k l => .mismatch ty n k (l.map (renRec σ))
  | .others l u => .others (l.map (renRec σ)) (u.map (renRec σ))

/-- A stubbing statement for a method. -/
structure Stmt (V E : Type) where
  m : Nat
  off : Nat
  ctr : Nat
  what : Stubbing V E

/-- The statement in a test. -/
def Stmt.op (x : Stmt V E) : Op V E := stubOp x.m x.off x.ctr x.what

/-- The statements are about different methods. -/
def Stmt.Apart (x y : Stmt V E) : Prop := x.m = y.m → x.off ≠ y.off

/-- An outcome: addresses of new stubbings are `2 * d` higher (there are `d` more stubbings). -/
def renApiOut (d : Nat) : ApiOut → ApiOut
  | .matcher a => .matcher (a + 2 * d)
  | o => o

/-- The same for steps. -/
def renOut (d : Nat) : OpOut V E → OpOut V E
  | .api o => .api (renApiOut d o)
  | o => o

end FakeIt.Spec.Reorder
