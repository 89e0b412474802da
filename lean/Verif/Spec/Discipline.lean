import Verif.Model.Machine
/-!
# Specification: programs and reachable states

`Method(mock, f)` expands to an expression containing `__COUNTER__`; the number identifies the expansion, hence (for a given mock) the
method. `nm m ctr` is the vtable offset of the method named by expansion `ctr` on mock `m`.
-/
namespace FakeIt
variable {V E : Type}

/-- The method expression is consistent with the naming `nm`, and `__COUNTER__` is below `INT_MAX - 1`. -/
def SlotRef.Named (nm : MockId → Nat → Nat) (m : MockId) : SlotRef → Prop
  | .meth off ctr => nm m ctr = off ∧ ctr + 1 < intMax
  | .dtor => True

/-- The method expressions an operation evaluates. -/
def Api.slots : Api V E → List (MockId × SlotRef)
  | .touch m s => [(m, s)]
  | .when_ t _ _ => [(t.m, t.slot)]
  | .fake ts => ts.map fun t => (t.m, t.slot)
  | .spy _ ts => ts.map fun t => (t.m, t.slot)
  | .assign t _ => [(t.m, t.slot)]
  | .verify scope pat _ _ => (verifyLeaves scope pat).map fun l => (l.m, l.slot)
  | .verifyNoOther srcs _ => (aggregate srcs).leaves.map fun l => (l.m, l.slot)
  | _ => []

/-- The stubbings an operation installs: method expression and script. -/
def Api.stubs : Api V E → List (Target V × List (Act V E))
  | .when_ t acts false => [(t, acts)]
  | .fake ts => ts.map fun t => (t, [.dflt])
  | .spy move ts => ts.map fun t => (t, [.deleg move])
  | .assign t f => [(t, [.forever f])]
  | _ => []

/-- API operations whose method expressions are consistently named. -/
def Api.Named (nm : MockId → Nat → Nat) (a : Api V E) : Prop := ∀ x ∈ a.slots, SlotRef.Named nm x.1 x.2

/-- The code only uses API operations in `A` and calls methods in `C`. -/
def Body.Within (A : Api V E → Prop) (C : MockId → Nat → Prop) : Body V E → Prop
  | .done _ => True
  | .setArg _ _ k => k.Within A C
  | .call m off _ k => C m off ∧ ∀ o, (k o).Within A C
  | .api a k => A a ∧ ∀ o, (k o).Within A C

/-- Code that makes no calls and no API operations. -/
def Body.Simple (b : Body V E) : Prop := b.Within (fun _ => False) (fun _ _ => False)

/-- All user callables of the program only use API operations in `A` and call methods in `C`. -/
def Prog.Within (A : Api V E → Prop) (C : MockId → Nat → Prop) (P : Prog V E) : Prop := ∀ f vs, (P.fn f vs).Within A C

/-- A step of the main program only uses API operations in `A` and calls methods in `C`. -/
def Op.Within (A : Api V E → Prop) (C : MockId → Nat → Prop) : Op V E → Prop
  | .call m off _ => C m off
  | .api a => A a

/-- Calls that do not go to method `off` of mock `m` (of class `c`): neither through its own entry nor, for a destructor, through the
deleting destructor's entry that follows it. -/
def Apart (c : ClassDecl V) (m : MockId) (off : Nat) : MockId → Nat → Prop :=
  fun m' off' => m' = m → off' ≠ off ∧ (c.dtor = some off → off' ≠ off + 1)

/-- API operations other than `Reset` and destruction of mock `m`. -/
def Api.Spares (m : MockId) : Api V E → Prop
  | .reset m' => m' ≠ m
  | .destroy m' => m' ≠ m
  | _ => True

/-- API operations other than `Reset`, `ClearInvocationHistory` and destruction of mock `m`. -/
def Api.KeepsHistory (m : MockId) : Api V E → Prop
  | .reset m' => m' ≠ m
  | .destroy m' => m' ≠ m
  | .clear m' => m' ≠ m
  | _ => True

/-- The stubbings the operation installs for method `off` of mock `m` (of class `c`) all have a matcher in `Φ`. -/
def Api.StubsOn (c : ClassDecl V) (m : MockId) (off : Nat) (Φ : MatcherKind V → Prop) (a : Api V E) : Prop :=
  ∀ x ∈ a.stubs, x.1.m = m → x.1.slot.off c = some off → Φ x.1.kind

/-- API operations that name methods consistently, do not reset or destroy mock `m` and stub its method `off` only with matchers in `Φ`. -/
def Api.Gentle (nm : MockId → Nat → Nat) (c : ClassDecl V) (m : MockId) (off : Nat) (Φ : MatcherKind V → Prop) (a : Api V E) : Prop :=
  a.Named nm ∧ a.Spares m ∧ a.StubsOn c m off Φ

/-- User callables that never call method `off` of mock `m` themselves, never reset or destroy the mock and stub the method only with matchers
in `Φ` (`fun _ => True`: no restriction). Apart from that they may do anything. -/
def Prog.NonReentrant (nm : MockId → Nat → Nat) (c : ClassDecl V) (m : MockId) (off : Nat) (Φ : MatcherKind V → Prop) (P : Prog V E) : Prop :=
  P.Within (Api.Gentle nm c m off Φ) (Apart c m off)

/-- A program all of whose callables name methods consistently; otherwise they may do anything. -/
def Prog.Named (nm : MockId → Nat → Nat) (P : Prog V E) : Prop := P.Within (Api.Named nm) (fun _ _ => True)

/-- The worlds that test programs can reach between two of their steps. Steps are arbitrary API operations and calls, the
callables run by the calls are arbitrary programs (with nested calls and API operations). -/
inductive Reach (P : Prog V E) (nm : MockId → Nat → Nat) : World V E → Prop where
  | start (heap : Addr → V) : Reach P nm (World.start heap)
  | step {w w' : World V E} {fuel : Nat} {op : Op V E} {out : OpOut V E} : Reach P nm w →
      op.Within (Api.Named nm) (fun _ _ => True) → opStep P fuel w op = .done (out, w') → Reach P nm w'

end FakeIt
