import Verif.Spec.Interrupted
import Verif.Spec.Several
/-!
# C94: `Fake` and `Spy` on several methods, interrupted by exceptions: specification

The model of exceptions in these statements (`Model/Several.lean`) has one list of stubbings for all methods, in the order in which they were made; the model of the whole library has a list for each method. They are compared here.
-/
namespace FakeIt.Spec.Interrupted

variable {V E : Type}

/-- A method in such a statement: its mock, its number, the place where it is named, which calls are meant. -/
structure Aim (V : Type) where
  m : Nat
  off : Nat
  ctr : Nat
  kind : MatcherKind V

/-- The method. -/
def Aim.key (a : Aim V) : Nat × Nat := (a.m, a.off)

/-- The same in a test. -/
def Aim.target (a : Aim V) : Target V := ⟨a.m, .meth a.off a.ctr, a.kind⟩

/-- Which calls are meant, in the model of exceptions. -/
def Aim.crit (a : Aim V) : FakeIt.Building.Crit := critOf a.kind

/-- What the statement makes the methods do. -/
inductive Manner where
  | fake
  | spy (withoutVerify : Bool)

/-- The same in the model of exceptions. -/
def Manner.kind : Manner → FakeIt.Several.Kind
  | .fake => .fake
  | .spy _ => .spy

/-- The statement in a test. -/
def fakeOp (how : Manner) (as : List (Aim V)) : Op V E :=
  match how with
  | .fake => .api (.fake (as.map Aim.target))
  | .spy b => .api (.spy b (as.map Aim.target))

/-- The method exists and can be stubbed. -/
def Able (P : Prog V E) (s : AState V E) (a : Aim V) : Prop := ∃ k, s.mocks[a.m]? = some k ∧ Stubbable P k a.off

/-- The method exists, can be stubbed, and was named before. -/
def Known (P : Prog V E) (s : AState V E) (a : Aim V) : Prop :=
  ∃ k, s.mocks[a.m]? = some k ∧ Stubbable P k a.off ∧ (k.stubs a.off).isSome = true

/-- The stubbings of one method among all, newest first; `keys`: whose stubbing each of them is. -/
def ofMethod (keys : List (Nat × Nat)) (stubs : List FakeIt.Building.Stub) (key : Nat × Nat) : List FakeIt.Building.Stub :=
  (((keys.zip stubs).filter fun p => p.1 == key).map Prod.snd).reverse

/-- Each method has, in the library, as many stubbings as there are among all, in this order, each with as many matchers of arguments and as many actions. -/
def HasAll (s : AState V E) (keys : List (Nat × Nat)) (st : FakeIt.Building.St) : Prop :=
  keys.length = st.stubs.length ∧ ∀ m off k l, s.mocks[m]? = some k → k.stubs off = some l →
    (ofMethod keys st.stubs (m, off)).map (fun t => (t.parts.length, t.acts.length)) = l.map fun x => (FakeIt.Spec.Building.arity (critOf x.kind), x.script.length)

end FakeIt.Spec.Interrupted
