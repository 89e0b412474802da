import Verif.Spec.AbstractMock
import Verif.Spec.RacesMock
/-!
# The steps of a thread, for a single-threaded test and as accesses to memory

What one thread does with mocks that exist already, written down once and read in two ways: as steps of a test of the model of the whole library
(`Step.test`), and as operations made of single reads and writes of memory (`Step.op`).
-/
namespace FakeIt.OneThread

open FakeIt.Spec

variable {V E : Type}

/-- A step: a call with arguments passed by value; `When(Method(mock, f)…)` with actions; `Fake`; `Spy`; `Verify(Method(mock, f)…)` with a count;
`VerifyNoOtherInvocations(mock)`; `mock.Reset()`; `mock.ClearInvocationHistory()`.  `ctr` tells apart the places where a method is named. -/
inductive Step (V E : Type) where
  | call (m off : Nat) (vs : List V)
  | when_ (m off ctr : Nat) (kind : MatcherKind V) (acts : List (Act V E))
  | fake (m off ctr : Nat) (kind : MatcherKind V)
  | spy (m off ctr : Nat) (kind : MatcherKind V)
  | verify (m off ctr : Nat) (kind : MatcherKind V) (q : Quant)
  | noOther (m : Nat)
  | reset (m : Nat)
  | clear (m : Nat)

/-- The step in a single-threaded test. -/
def Step.test : Step V E → Op V E
  | .call m off vs => .call m off (vs.map .val)
  | .when_ m off ctr kind acts => .api (.when_ ⟨m, .meth off ctr, kind⟩ acts false)
  | .fake m off ctr kind => .api (.fake [⟨m, .meth off ctr, kind⟩])
  | .spy m off ctr kind => .api (.spy false [⟨m, .meth off ctr, kind⟩])
  | .verify m off ctr kind q => .api (.verify .involved [.leaf ⟨m, .meth off ctr, kind, none⟩] q (.stmt false))
  | .noOther m => .api (.verifyNoOther [.mock m] (.stmt false))
  | .reset m => .api (.reset m)
  | .clear m => .api (.clear m)

/-- The parameters after code that only assigns to parameters. -/
def after : Body V E → List V → List V
  | .setArg i v k, vs => after k (vs.set i v)
  | _, vs => vs

/-- How code that only assigns to parameters ends. -/
def ends : Body V E → Option (Outcome V E)
  | .done o => some o
  | .setArg _ _ k => ends k
  | _ => none

/-- What a function object does with the recorded arguments. -/
def effectOf (P : Prog V E) : Fn V E → Races.Kind (List V)
  | .user f => .sets fun vs => after (P.fn f vs) vs
  | _ => .gives

/-- An action as the accesses to memory know it. -/
def actionOf (P : Prog V E) : Act V E → Races.Action (List V)
  | .rep n f => ⟨some n, effectOf P f⟩
  | .forever f => ⟨none, effectOf P f⟩
  | .deleg _ => ⟨none, .spies⟩
  | _ => ⟨none, .gives⟩

/-- The number of calls found is as the count says. -/
def asExpected (q : Quant) (n : Nat) : Bool :=
  match expects q with
  | none => false
  | some ex => fulfils ex n

/-- The step as accesses to memory. -/
def Step.op (P : Prog V E) : Step V E → Races.Op (List V)
  | .call m off vs => .call m off vs
  | .when_ m off ctr kind acts => .stub m off ctr (accepts kind) (acts.map (actionOf P))
  | .fake m off ctr kind => .stub m off ctr (accepts kind) [⟨none, .gives⟩]
  | .spy m off ctr kind => .stub m off ctr (accepts kind) [⟨none, .spies⟩]
  | .verify m off ctr kind q => .verify m off ctr (accepts kind) (asExpected q)
  | .noOther m => .noOther m
  | .reset m => .reset m
  | .clear m => .clear m

/-- The mock of a step. -/
def Step.mock : Step V E → Nat
  | .call m _ _ => m
  | .when_ m _ _ _ _ => m
  | .fake m _ _ _ => m
  | .spy m _ _ _ => m
  | .verify m _ _ _ _ => m
  | .noOther m => m
  | .reset m => m
  | .clear m => m

/-- The method of a step. -/
def Step.meth : Step V E → Option Nat
  | .call _ off _ => some off
  | .when_ _ off _ _ _ => some off
  | .fake _ off _ _ => some off
  | .spy _ off _ _ => some off
  | .verify _ off _ _ _ => some off
  | _ => none

/-- Actions a test can write after `When`: with multiplicities of at least one. -/
def Scripted (acts : List (Act V E)) : Prop := ∀ a ∈ acts, (∃ n f, a = .rep n f ∧ 1 ≤ n) ∨ ∃ f, a = .forever f

/-- The step is made on one of the mocks (given by their classes, and whether they were made for an object) and names one of its methods; `Fake` of a method
whose default value exists, `Spy` of a mock made for an object, a legal count. -/
def Step.Fit (P : Prog V E) (cs : List (Nat × Bool)) (st : Step V E) : Prop :=
  ∃ c, cs[st.mock]? = some c ∧ (∀ off, st.meth = some off → off < (P.cls c.1).size) ∧
    match st with
    | .when_ _ _ _ _ acts => Scripted acts
    | .fake _ off _ _ => (P.cls c.1).dflt off ≠ .nullRef
    | .spy _ _ _ _ => c.2 = true
    | .verify _ _ _ _ q => expects q ≠ none
    | _ => True

/-- Classes without virtual destructors, and callables that only assign to their parameters and end by returning or with an exception of their own. -/
structure Tame (P : Prog V E) (cs : List (Nat × Bool)) : Prop where
  dtor : ∀ c ∈ cs, (P.cls c.1).dtor = none
  fn : ∀ f vs, ∃ o, ends (P.fn f vs) = some o ∧ ((∃ v, o = .ret v) ∨ ∃ e, o = .exc e)

/-- The mocks are made. -/
def setup (cs : List (Nat × Bool)) : List (Op V E) := cs.map fun c => .api (if c.2 then .newSpy c.1 else .newMock c.1)

/-- How making the mocks ends. -/
def setupOuts (cs : List (Nat × Bool)) : List (OpOut V E) := (List.range cs.length).map fun i => .api (.mockId i)

/-- The original tables: the object's own methods, or functions that report an unexpected call. -/
def origOf (cs : List (Nat × Bool)) (m _ : Nat) : Races.Entry :=
  match cs[m]? with
  | some (_, true) => .original
  | _ => .unmocked

/-- How many methods the mocks have. -/
def sizeOf (P : Prog V E) (cs : List (Nat × Bool)) (m : Nat) : Nat :=
  match cs[m]? with
  | some c => (P.cls c.1).size
  | none => 0

/-- How an action ends a call of method `off` with these arguments. -/
def gives (P : Prog V E) (c : ClassDecl V) (off : Nat) (vs : List V) : Act V E → Option (Outcome V E)
  | .rep _ (.ret v) => some (.ret v)
  | .rep _ (.thr e) => some (.exc e)
  | .rep _ (.user f) => ends (P.fn f vs)
  | .forever (.ret v) => some (.ret v)
  | .forever (.thr e) => some (.exc e)
  | .forever (.user f) => ends (P.fn f vs)
  | .dflt =>
    match c.dflt off with
    | .value v => some (.ret v)
    | .throws => some (.exc P.dfltExc)
    | .nullRef => none
  | .deleg _ => ends (P.fn (c.impl off) vs)
  | .noMore => none

/-- The stubbings of each method since the last `Reset`, oldest first, each with what is left of the actions it was given. -/
abbrev Given (V E : Type) : Type := Nat → Nat → List (List (Act V E))

/-- One more stubbing. -/
def Given.add (g : Given V E) (m off : Nat) (acts : List (Act V E)) : Given V E :=
  fun m' k => if m' = m ∧ k = off then g m' k ++ [acts] else g m' k

/-- The stubbings after a step with this result. -/
def Given.step (g : Given V E) : Step V E → Races.Result → Given V E
  | .call m off _, .served h => fun m' k => if m' = m ∧ k = off then (g m' k).modify h rest else g m' k
  | .when_ m off _ _ acts, _ => g.add m off acts
  | .fake m off _ _, _ => g.add m off [.dflt]
  | .spy m off _ _, _ => g.add m off [.deleg false]
  | .reset m, _ => fun m' k => if m' = m then [] else g m' k
  | _, _ => g

/-- The result of a step as an operation on memory says the same as its outcome in a single-threaded test: a call answered by stubbing number `h` of its method
ends as the next action of that stubbing says; a call that the object's own method answers ends as this does. -/
def Same (P : Prog V E) (cs : List (Nat × Bool)) (g : Given V E) (st : Step V E) : Races.Result → OpOut V E → Prop
  | .original, .call o => ∃ m off vs c, st = .call m off vs ∧ cs[m]? = some c ∧ ends (P.fn ((P.cls c.1).impl off) vs) = some o
  | .served h, .call o => ∃ m off vs c a l, st = .call m off vs ∧ cs[m]? = some c ∧ (g m off)[h]? = some (a :: l) ∧ gives P (P.cls c.1) off vs a = some o
  | .unexpected, .call o => o = .unexpected
  | .held, .api o => o = .verdict true
  | .failed, .api o => o = .verdict false
  | .done, .api o => o = .unit ∨ ∃ a, o = .matcher a
  | _, _ => False

/-- The same of steps one after the other. -/
def AllSame (P : Prog V E) (cs : List (Nat × Bool)) : Given V E → List (Step V E) → List Races.Result → List (OpOut V E) → Prop
  | _, [], [], [] => True
  | g, st :: sts, r :: rs, o :: os => Same P cs g st r o ∧ AllSame P cs (g.step st r) sts rs os
  | _, _, _, _ => False

/-- The recorded calls of a method: arguments, and whether verified.  (None if the method is not known.) -/
def recorded (M : Races.Spec.Mocks (List V)) (m off : Nat) : List (List V × Bool) :=
  match M m off with
  | none => []
  | some x => x.calls.map fun c => (c.args, c.verified)

/-- The same in the model of the whole library. -/
def recordedIn (w : World V E) (m off : Nat) : List (List V × Bool) :=
  (history w m off).map fun i => (valuesOf w.heap i.args, i.verified)

end FakeIt.OneThread
