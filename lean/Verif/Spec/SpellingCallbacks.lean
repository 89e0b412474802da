import Verif.Spec.Spelling
import Verif.Spec.ReentrantMock
/-!
# C96: how a script is written, in tests whose callbacks use mocks: specification
-/
namespace FakeIt.Spec.Spelling

variable {V E : Type}

/-- Code with all scripts written out. -/
def spelledBody : Body V E → Body V E
  | .done o => .done o
  | .setArg i v k => .setArg i v (spelledBody k)
  | .call m off args k => .call m off args fun o => spelledBody (k o)
  | .api a k => .api (spelledApi a) fun o => spelledBody (k o)

/-- A program with all scripts in its callbacks written out. -/
def spelledProg (P : Prog V E) : Prog V E := { P with fn := fun f vs => spelledBody (P.fn f vs) }

/-- The operation can be written: multiplicities of at least one. -/
def WrittenApi (a : Api V E) : Prop := WellWritten (.api a)

/-- The operation can be written and ends no mock. -/
def Keeps (a : Api V E) : Prop := WrittenApi a ∧ (∀ m, a ≠ .reset m) ∧ ∀ m, a ≠ .destroy m

/-- All a test can see is the same in two states of the library: the recorded calls of all methods, the reports, the test's variables, the mocks and their data members. `names`: which methods have been mentioned, in this order. -/
structure Indistinct (names : List (MockId × Nat)) (w w' : World V E) : Prop where
  calls : ∀ m off, (history w m off).map (recOf names) = (history w' m off).map (recOf names)
  log : w.log.map (reportOf names) = w'.log.map (reportOf names)
  heap : w.heap = w'.heap
  mocks : w.mocks.map (fun k => (k.cls, k.alive, k.data)) = w'.mocks.map fun k => (k.cls, k.alive, k.data)

/-- What C96 asks for, for one program: whenever a test ends, so does a test that differs from it only in how its scripts are written, with the same outcomes. -/
def WritingDoesNotMatter (P : Prog V E) (heap : Addr → V) : Prop :=
  ∀ (ops ops' : List (Op V E)) (fuel : Nat) (outs : List (OpOut V E)) (w : World V E), ops.map spelledOp = ops'.map spelledOp → (∀ op ∈ ops, WellWritten op) → (∀ op ∈ ops', WellWritten op) →
    runOps P fuel (World.start heap) ops = .done (outs, w) → ∃ fuel' w', runOps P fuel' (World.start heap) ops' = .done (outs, w')

end FakeIt.Spec.Spelling
