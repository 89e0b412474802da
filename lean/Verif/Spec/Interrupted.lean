import Verif.Spec.AbstractMock
import Verif.Spec.Throwing
import Verif.Spec.Building
/-!
# Calls that exceptions interrupt: the same method in two models

A method of a mock of the model of the whole library as the model of exceptions in calls (`Model/Throwing.lean`) sees it: what its stubbings still have to do, and how many calls are recorded.
-/
namespace FakeIt.Spec.Interrupted
open FakeIt.Throwing (Kind St Call)

variable {V E : Type}

/-- What an entry of a script consists of: what a function object does (nothing that could throw, the copy of a value, code of the user), what happens for a default value, and which arguments are passed on to the original method. -/
structure Doing (V E : Type) where
  fn : Fn V E → Kind
  dflt : Kind
  params : List Nat

/-- The steps of an entry of a script. -/
def kindOf (d : Doing V E) : Act V E → Kind
  | .rep _ f => d.fn f
  | .forever f => d.fn f
  | .dflt => d.dflt
  | .deleg _ => .spy d.params
  | .noMore => .plain

/-- How often it may still be used. -/
def timesOf : Act V E → Option Int
  | .rep n _ => some n
  | _ => none

/-- An entry of a script in the other model. -/
def actOf (d : Doing V E) (a : Act V E) : FakeIt.Throwing.Act := ⟨kindOf d a, timesOf a⟩

/-- `st` shows method `off` of mock `m` in the state `s`: its stubbings have the same actions left, and as many calls are recorded. -/
def Shows (d : Doing V E) (s : AState V E) (m off : Nat) (st : St) : Prop :=
  (∃ k l, s.mocks[m]? = some k ∧ k.stubs off = some l ∧ st.stubs = l.map fun x => x.script.map (actOf d)) ∧ st.hist.length = (callsTo s m off).length

/-- A call with these arguments (by value) in the other model: `copied` are the arguments that are objects; the stubbings `l` are asked. -/
def callOf (l : List (Stub V E)) (copied : List Nat) (vs : List V) : Call := ⟨copied, fun h => (l[h]?).any fun x => accepts x.kind vs⟩

/-- The same call in a test. -/
def callOp (m off : Nat) (vs : List V) : Op V E := .call m off (vs.map .val)

/-- The method can be called: the object exists, the class has the method, calling it does not mean deleting the object, and its default value is not a reference to a type that cannot be constructed. -/
def Callable (P : Prog V E) (k : AMock V E) (off : Nat) : Prop :=
  (k.alive = true ∨ k.spied = true) ∧ off < (P.cls k.cls).size ∧ (∀ d, (P.cls k.cls).dtor = some d → off ≠ d + 1) ∧ (P.cls k.cls).dflt off ≠ .nullRef

/-- Of what happened from `st` to `st'`, nothing threw but the action itself. -/
def OnlyTheAction {X : Type} (th : Nat → Option X) (st st' : St) : Prop :=
  ∀ n o, st.log.length ≤ n → st'.log[n]? = some o → th n ≠ none → o = .result ∨ o = .body ∨ o = .original

/-! ## Stubbing statements -/

/-- A stubbing statement: `When(Method(mock, f)...)` with actions, or an assignment. -/
inductive Stubbing (V E : Type) where
  | when_ (kind : MatcherKind V) (acts : List (Act V E))
  | assign (kind : MatcherKind V) (f : Fn V E)

/-- Which calls are meant, in the model of exceptions in stubbing statements (`Model/Building.lean`). -/
def critOf : MatcherKind V → FakeIt.Building.Crit
  | .any => .all
  | .args ms => .using ms.length
  | .user _ => .matching

/-- The matcher of a statement. -/
def Stubbing.kind : Stubbing V E → MatcherKind V
  | .when_ kind _ => kind
  | .assign kind _ => kind

/-- The actions of a statement. -/
def Stubbing.acts : Stubbing V E → List (Act V E)
  | .when_ _ acts => acts
  | .assign _ f => [.forever f]

/-- The form of a statement in that model. -/
def Stubbing.form : Stubbing V E → FakeIt.Building.Form
  | .when_ _ acts => .when acts.length
  | .assign _ _ => .assign

/-- The statement in a test; `ctr` is the place where the method is named. -/
def stubOp (m off ctr : Nat) : Stubbing V E → Op V E
  | .when_ kind acts => .api (.when_ ⟨m, .meth off ctr, kind⟩ acts false)
  | .assign kind f => .api (.assign ⟨m, .meth off ctr, kind⟩ f)

/-- The test makes the statements one after the other and catches what they throw; which of them passed. -/
def attempts {X : Type} (th : Nat → Option X) : List (Stubbing V E) → FakeIt.Building.St → R (List Bool × FakeIt.Building.St)
  | [], st => .done ([], st)
  | x :: xs, st =>
    FakeIt.Building.statement th (critOf x.kind) x.form st >>= fun
      | (.ok _, st) => attempts th xs st >>= fun (bs, st) => .done (true :: bs, st)
      | (.exc _, st) => attempts th xs st >>= fun (bs, st) => .done (false :: bs, st)

/-- Those that passed. -/
def passed : List (Stubbing V E) → List Bool → List (Stubbing V E)
  | x :: xs, b :: bs => if b then x :: passed xs bs else passed xs bs
  | _, _ => []

/-- `st` has the stubbings of method `off` of mock `m` in the state `s`: as many, in this order, each with as many matchers of arguments and as many actions. -/
def HasStubs (s : AState V E) (m off : Nat) (st : FakeIt.Building.St) : Prop :=
  ∃ k l, s.mocks[m]? = some k ∧ k.stubs off = some l ∧
    st.stubs.reverse.map (fun t => (t.parts.length, t.acts.length)) = l.map fun x => (FakeIt.Spec.Building.arity (critOf x.kind), x.script.length)

/-- The method can be stubbed: the mock exists, the class has the method, and it is not a destructor. -/
def Stubbable (P : Prog V E) (k : AMock V E) (off : Nat) : Prop :=
  k.alive = true ∧ off < (P.cls k.cls).size ∧ ∀ d ∈ (P.cls k.cls).dtor, off ≠ d ∧ off ≠ d + 1

end FakeIt.Spec.Interrupted
