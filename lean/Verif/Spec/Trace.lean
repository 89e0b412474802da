import Verif.Spec.Select
import Verif.Spec.Discipline
/-!
# Specification: calls served by one stubbing

The stubbings of a method are numbered 0, 1, 2, ... in the order in which they were installed.
-/
namespace FakeIt.Spec
variable {V E : Type}

/-- The stubbings of method `off` of mock `m`, oldest first. -/
def stubbings (w : World V E) (m : MockId) (off : Nat) : List (Handler V E) :=
  match w.body? m off with
  | none => []
  | some b => b.handlers

/-- A call of method `off` of mock `m` with `args` would now be served by stubbing number `j`: it accepts the arguments and no later one does. -/
def Picks (w : World V E) (m : MockId) (off : Nat) (args : List (Arg V)) (j : Nat) : Prop :=
  ∃ older h newer, stubbings w m off = older ++ h :: newer ∧ older.length = j ∧
    Accepts h.matcher.kind (valuesOf w.heap args) ∧ ∀ g ∈ newer, ¬ Accepts g.matcher.kind (valuesOf w.heap args)

/-- A method other than the destructor (which has its own entries in the virtual table, see C33). -/
def Plain (c : ClassDecl V) (off : Nat) : Prop := ∀ d, c.dtor = some d → off ≠ d ∧ off ≠ d + 1

/-- In the reachable world `w` a stubbing statement (`When`, `Fake`, `Spy`, `SpyWithoutVerify` or an assignment) for method `off` of mock `m`, with
matcher `kind` and script `acts`, is executed, which leads to `w'`. It is stubbing number `j` of the method.
`c` is the mocked class, `spied` says whether the mock spies a real object. -/
structure Stubbed (P : Prog V E) (nm : MockId → Nat → Nat) (c : ClassDecl V) (spied : Bool) (m : MockId) (off : Nat) (kind : MatcherKind V)
    (acts : List (Act V E)) (j : Nat) (w w' : World V E) : Prop where
  reach : Reach P nm w
  mock : ∃ k, w.mock? m = some k ∧ P.cls k.cls = c ∧ k.owner = !spied
  plain : Plain c off
  stmt : ∃ op slot out, op.stubs = [(⟨m, slot, kind⟩, acts)] ∧ op.Named nm ∧ slot.off c = some off ∧ apiStep P w op = .done (w', out)
  number : (stubbings w m off).length = j

/-- `Trace ... w n w'`: the test program goes from `w` to `w'` and `n` of the calls it makes on the way are served by stubbing number `j` of method
`off` of mock `m`. The program may do anything except reset or destroy the mock; it installs new stubbings of the method only with matchers in `Φ`. -/
inductive Trace (P : Prog V E) (nm : MockId → Nat → Nat) (c : ClassDecl V) (m : MockId) (off : Nat) (Φ : MatcherKind V → Prop) (j : Nat) :
    World V E → Nat → World V E → Prop where
  | nil (w : World V E) : Trace P nm c m off Φ j w 0 w
  | api {w w1 w2 : World V E} {n : Nat} {a : Api V E} {out : ApiOut} : Trace P nm c m off Φ j w n w1 →
      a.Gentle nm c m off Φ → apiStep P w1 a = .done (w2, out) → Trace P nm c m off Φ j w n w2
  | other {w w1 w2 : World V E} {n fuel : Nat} {m' : MockId} {off' : Nat} {args : List (Arg V)} {o : Outcome V E} :
      Trace P nm c m off Φ j w n w1 → Apart c m off m' off' → callSlot P fuel w1 m' off' args = .done (o, w2) →
      Trace P nm c m off Φ j w n w2
  | miss {w w1 w2 : World V E} {n fuel : Nat} {args : List (Arg V)} {o : Outcome V E} : Trace P nm c m off Φ j w n w1 →
      ¬ Picks w1 m off args j → callSlot P fuel w1 m off args = .done (o, w2) → Trace P nm c m off Φ j w n w2
  | pick {w w1 w2 : World V E} {n fuel : Nat} {args : List (Arg V)} {o : Outcome V E} : Trace P nm c m off Φ j w n w1 →
      Picks w1 m off args j → callSlot P fuel w1 m off args = .done (o, w2) → Trace P nm c m off Φ j w (n + 1) w2

end FakeIt.Spec
