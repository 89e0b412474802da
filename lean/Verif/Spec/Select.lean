import Verif.Spec.Script
import Verif.Spec.Discipline
/-!
# Specification: which stubbing serves a call, and what the caller may get
-/
namespace FakeIt.Spec
variable {V E : Type}

/-- Acceptance of an argument list, position by position. -/
def Accepts : MatcherKind V → List V → Prop
  | .any, _ => True
  | .args ms, vs => ms.length = vs.length ∧ ∀ (i : Nat) m v, ms[i]? = some m → vs[i]? = some v → m v = true
  | .user p, vs => p vs = true

/-- Argument values at the time of the call. -/
def valuesOf (heap : Addr → V) (args : List (Arg V)) : List V :=
  args.map fun a => match a with | .val v => v | .ref r => heap r

/-- `h` is the most recent stubbing (they are listed oldest first) whose matcher accepts the arguments. -/
def Selected (stubs : List (Handler V E)) (vs : List V) (h : Handler V E) : Prop :=
  ∃ older newer, stubs = older ++ h :: newer ∧ Accepts h.matcher.kind vs ∧ ∀ g ∈ newer, ¬ Accepts g.matcher.kind vs

/-- No stubbing accepts the arguments. -/
def NoneAccepts (stubs : List (Handler V E)) (vs : List V) : Prop := ∀ h ∈ stubs, ¬ Accepts h.matcher.kind vs

/-- The outcomes a user callable can have, whatever the calls and API operations it makes answer. -/
inductive Ends : Body V E → Outcome V E → Prop where
  | done (o : Outcome V E) : Ends (.done o) o
  | setArg {i : Nat} {v : V} {k : Body V E} {o : Outcome V E} : Ends k o → Ends (.setArg i v k) o
  | call {m : MockId} {off : Nat} {args : List (Arg V)} {k : Outcome V E → Body V E} {o : Outcome V E} (x : Outcome V E) :
      Ends (k x) o → Ends (.call m off args k) o
  | api {a : Api V E} {k : ApiOut → Body V E} {o : Outcome V E} (x : ApiOut) : Ends (k x) o → Ends (.api a k) o

/-- What the caller of the mocked method sees: a `NoMoreRecordedActionException` leaving an action, even one thrown by the user's own code,
is reported as an unexpected call; everything else goes through. -/
def seen : Outcome V E → Outcome V E
  | .noMore => .unexpected
  | o => o

/-- The outcomes the caller can see when function object `f` is run on `vs`. -/
def Gives (P : Prog V E) (vs : List V) : Fn V E → Outcome V E → Prop
  | .ret v, o => o = .ret v
  | .thr e, o => o = .exc e
  | .user f, o => ∃ x, Ends (P.fn f vs) x ∧ o = seen x

/-- The outcomes the caller can see for a call of method `off` of a mock of class `c` (`spied`: the mock spies a real object) with argument values
`vs`, when the stubbing's script says `p` (`none`: exhausted). -/
def Answers (P : Prog V E) (c : ClassDecl V) (spied : Bool) (off : Nat) (vs : List V) : Option (Perf V E) → Outcome V E → Prop
  | none, o => o = .unexpected
  | some (.fn f), o => Gives P vs f o
  | some .dflt, o => match c.dflt off with
    | .value v => o = .ret v
    | .throws => o = .exc P.dfltExc
    | .nullRef => False
  | some (.deleg _), o =>
    if c.dtor = some off then o = .ret P.void
    else if spied then Gives P vs (.user (c.impl off)) o
    else o = .unexpected

/-- Performing `p` surely finishes: it runs no user code, or user code that makes no calls and no API operations of its own; and it is not the
default answer of a reference to a type that cannot be constructed. -/
def Finishes (P : Prog V E) (c : ClassDecl V) (spied : Bool) (off : Nat) (vs : List V) : Option (Perf V E) → Prop
  | none => True
  | some (.fn (.user f)) => (P.fn f vs).Simple
  | some (.fn _) => True
  | some .dflt => c.dflt off ≠ .nullRef
  | some (.deleg _) => c.dtor ≠ some off → spied = true → (P.fn (c.impl off) vs).Simple

end FakeIt.Spec
