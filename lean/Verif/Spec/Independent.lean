import Verif.Spec.AbstractMock
/-!
# Specification: a part of a test program that has nothing to do with the rest

`mine` is a set of mocks, `vars` a set of variables of the test. The steps of a program are tagged: `true` for the steps of the part in question and for the
creation of mocks, `false` for the steps of the rest.
-/
namespace FakeIt.Spec
variable {V E : Type}

/-- The operation uses only mocks in `mine` and writes only variables in `vars`; it does not create mocks. -/
def _root_.FakeIt.Api.On (mine : MockId → Bool) (vars : Addr → Bool) : Api V E → Prop
  | .newMock _ => False
  | .newSpy _ => False
  | .destroy m => mine m = true
  | .touch m _ => mine m = true
  | .when_ t _ _ => mine t.m = true
  | .fake ts => ∀ t ∈ ts, mine t.m = true
  | .spy _ ts => ∀ t ∈ ts, mine t.m = true
  | .assign t _ => mine t.m = true
  | .stubData m _ _ => mine m = true
  | .writeData m _ _ => mine m = true
  | .reset m => mine m = true
  | .clear m => mine m = true
  | .write a _ => vars a = true
  | .verify scope pat _ _ => (∀ l ∈ mentionedBy scope pat, mine l.m = true) ∧ ∀ m ∈ looksAt pat scope, mine m = true
  | .verifyNoOther srcs _ => ∀ m ∈ mocksOf (allOf srcs), mine m = true

/-- Reference arguments refer to variables in `vars` only. -/
def refsIn (vars : Addr → Bool) (args : List (Arg V)) : Prop := ∀ a, Arg.ref a ∈ args → vars a = true

/-- The step uses only mocks in `mine` and variables in `vars`; it does not create mocks. -/
def _root_.FakeIt.Op.On (mine : MockId → Bool) (vars : Addr → Bool) : Op V E → Prop
  | .call m _ args => mine m = true ∧ refsIn vars args
  | .api a => a.On mine vars

/-- The step creates a mock. -/
def _root_.FakeIt.Op.Creates : Op V E → Prop
  | .api (.newMock _) => True
  | .api (.newSpy _) => True
  | _ => False

/-- Verification statements are written with method expressions of their own, not with saved ones (whose names depend on how many stubbings there are). -/
def _root_.FakeIt.Op.Unsaved : Op V E → Prop
  | .api (.verify scope pat _ _) => ∀ l ∈ mentionedBy scope pat, l.addr = none
  | .api (.verifyNoOther srcs _) => ∀ l ∈ leavesOf (allOf srcs), l.addr = none
  | _ => True

/-- The two parts of the program have nothing to do with each other: no mocks and no variables in common. -/
def Separate (mine : MockId → Bool) (vars : Addr → Bool) (ops : List (Bool × Op V E)) : Prop :=
  ∀ x ∈ ops, match x.1 with
    | true => x.2.Creates ∨ (x.2.On mine vars ∧ x.2.Unsaved)
    | false => x.2.On (fun m => !mine m) (fun a => !vars a)

/-- What is left of a list if only the entries tagged `true` are kept. -/
def keep {α : Type} : List (Bool × α) → List α
  | [] => []
  | (true, x) :: l => x :: keep l
  | (false, _) :: l => keep l

/-- An outcome without the name of the stubbing. -/
def unnamed : OpOut V E → OpOut V E
  | .api (.matcher _) => .api (.matcher 0)
  | o => o

/-- A recorded call without running number and stubbing: method, arguments, verified mark. -/
def Rec.plain (r : Rec V) : Option (MockId × Nat) × List (Arg V) × Bool := (r.meth, r.args, r.verified)

/-- A report without running numbers and stubbings. -/
inductive Told (V : Type) where
  | unexpected (ty : UnexpectedType) (call : Option (MockId × Nat) × List (Arg V) × Bool)
  | mismatch (ty : VerificationType) (expected : Int) (actual : Nat) (calls : List (Option (MockId × Nat) × List (Arg V) × Bool))
  | others (all unverified : List (Option (MockId × Nat) × List (Arg V) × Bool))
  deriving DecidableEq, Repr

/-- See `Told`. -/
def Report.told : Report V → Told V
  | .unexpected ty r => .unexpected ty r.plain
  | .mismatch ty ex n l => .mismatch ty ex n (l.map Rec.plain)
  | .others l k => .others (l.map Rec.plain) (k.map Rec.plain)

/-- The abstract mock runs a program; the result of every step comes with the reports made by it. -/
def aTraced (P : Prog V E) : AState V E → List (Op V E) → Option (List (OpOut V E × List (Report V)) × AState V E)
  | s, [] => some ([], s)
  | s, op :: ops => do
    let (o, s') ← aStep P s op
    let (os, s'') ← aTraced P s' ops
    some ((o, s'.log.drop s.log.length) :: os, s'')

/-- The library runs a program; the result of every step comes with the events it led to. -/
def traced (P : Prog V E) (fuel : Nat) : World V E → List (Op V E) → R (List (OpOut V E × List (Event V)) × World V E)
  | w, [] => .done ([], w)
  | w, op :: ops => do
    let (o, w') ← opStep P fuel w op
    let (os, w'') ← traced P fuel w' ops
    .done ((o, w'.log.drop w.log.length) :: os, w'')

/-- An event without running numbers, method numbers and stubbings: for each call its arguments and its verified mark. -/
inductive Shown (V : Type) where
  | unexpected (ty : UnexpectedType) (call : List (Arg V) × Bool)
  | mismatch (ty : VerificationType) (expected : Int) (actual : Nat) (calls : List (List (Arg V) × Bool))
  | others (all unverified : List (List (Arg V) × Bool))
  deriving DecidableEq, Repr

/-- See `Shown`. -/
def displayed : Event V → Shown V
  | .unexpectedCall ty i => .unexpected ty (i.args, i.verified)
  | .sequence ty ex n l => .mismatch ty ex n (l.map fun i => (i.args, i.verified))
  | .noMoreInvocations l k => .others (l.map fun i => (i.args, i.verified)) (k.map fun i => (i.args, i.verified))

end FakeIt.Spec
