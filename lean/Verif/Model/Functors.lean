import Verif.Model.Result
/-!
# Function objects given to the library

`Do(f)`, `Do(n_Times(f))`, `AlwaysDo(f)`, `Method(mock, m) = f` and `Matching(p)` take function objects, which may have a state of their own (a `mutable` lambda, a class with `operator()`).  The library copies them several times on the way to the
place where they stay, and destroys the copies.  Here every copy is an object with a name; using or destroying one that does not exist is undefined.

Not modelled here: function objects that use mocks (see `Model/Machine.lean`), copies and destructors that throw (see `Model/Building.lean`), moves instead of copies (a moved function object is a copy whose original is not looked at any more), several methods (they have nothing in common, C30).
-/
namespace FakeIt.Functors

variable {S V E A : Type}

/-- A function object: which class it is of, and its data members (the classes are those of the user; the library stores them in `std::function`, e.g. include/fakeit/Action.hpp 53). -/
structure Fn (S : Type) where
  code : Nat
  st : S
  deriving DecidableEq, Repr

/-- How a function object ends: `return` or `throw` (C++ semantics, e.g. include/fakeit/Action.hpp 45). -/
inductive Out (V E : Type) where
  | ret (v : V)
  | exc (e : E)
  deriving DecidableEq, Repr

/-- An action: `Repeat` with its counter, or `RepeatForever` (include/fakeit/Action.hpp 31-76). -/
structure Act where
  fn : Nat
  times : Option Int
  deriving DecidableEq, Repr

/-- A stubbing: the predicate, if there is one (include/fakeit/invocation_matchers.hpp 120-143, 146), the actions before the sentinel and the used ones (include/fakeit/ActionSequence.hpp 87-88). -/
structure Stub where
  pred : Option Nat
  acts : List Act
  used : List Act
  deriving DecidableEq, Repr

/-- The function objects that exist, by name; the next name; those that were destroyed; the variables of the test; the stubbings of the method, oldest first (include/fakeit/RecordedMethodBody.hpp 62); the arguments of the recorded calls (63); is there a mock? -/
structure St (S A : Type) where
  objs : Nat → Option (Fn S) := fun _ => none
  next : Nat := 0
  died : List Nat := []
  vars : List (Option Nat) := []
  stubs : List Stub := []
  hist : List A := []
  alive : Bool := true

/-- How an action is given: `Do(f)`, `Do(n_Times(f))`, `AlwaysDo(f)` (include/fakeit/StubbingProgress.hpp 145-165). -/
inductive How where
  | once
  | times (n : Int)
  | always
  deriving DecidableEq, Repr

/-- What the test does: makes a function object in a new variable, calls it itself, ends the variable's life; `When(Method(mock, m).Matching(p)).Do(f)...;` with the actions in order (`uncaught`: an exception is on its way at the end, include/fakeit/WhenFunctor.hpp 29-33); `Method(mock, m) = f;`; calls the method;
`Verify(Method(mock, m).Matching(p))` with any quantifier; `Reset`, `ClearInvocationHistory`, end of the mock (include/fakeit/Mock.hpp 61-67). -/
inductive Op (S A : Type) where
  | make (f : Fn S)
  | run (x : Nat) (a : A)
  | drop (x : Nat)
  | stub (pred : Option Nat) (acts : List (How × Nat)) (uncaught : Bool)
  | assign (x : Nat)
  | call (a : A)
  | count (pred : Nat)
  | reset
  | clear
  | finish
  deriving DecidableEq, Repr

/-- What the test sees: nothing, how a function object ended, that the call was unexpected (include/fakeit/RecordedMethodBody.hpp 145-149), the number of matches. -/
inductive Ans (V E : Type) where
  | nothing
  | out (o : Out V E)
  | unexpected
  | count (n : Nat)
  deriving DecidableEq, Repr

/-! ## Objects -/

/-- One name's object changes (C++ memory; used by all below, e.g. include/fakeit/Action.hpp 36). -/
def upd (m : Nat → Option (Fn S)) (id : Nat) (o : Option (Fn S)) : Nat → Option (Fn S) := fun x => if x = id then o else m x

/-- The copy constructor (of `std::function`, which copies the function object in it; e.g. include/fakeit/Action.hpp 35-37). -/
def copy (id : Nat) (s : St S A) : R (Nat × St S A) :=
  match s.objs id with
  | none => .ub
  | some f => .done (s.next, { s with objs := upd s.objs s.next (some f), next := s.next + 1 })

/-- The destructor (e.g. of the parameter at include/fakeit/Action.hpp 35, of the member at 53). -/
def destroy (id : Nat) (s : St S A) : R (St S A) :=
  match s.objs id with
  | none => .ub
  | some _ => .done { s with objs := upd s.objs id none, died := s.died ++ [id] }

/-- The destructors of several objects (e.g. of a vector of actions, include/fakeit/ActionSequence.hpp 87-88). -/
def destroyAll : List Nat → St S A → R (St S A)
  | [], s => .done s
  | id :: ids, s => destroy id s >>= destroyAll ids

/-- A function object is copied into `n` parameters by value, one from the other, and at last into a member; the parameters are destroyed (e.g. include/fakeit/StubbingProgress.hpp 145-148, include/fakeit/Action.hpp 35-37: two parameters and a member). -/
def pass : Nat → Nat → St S A → R (Nat × St S A)
  | 0, id, s => copy id s
  | n + 1, id, s => do
    let (p, s) ← copy id s
    let (m, s) ← pass n p s
    let s ← destroy p s
    .done (m, s)

/-- A variable of the test (the expression given at include/fakeit/StubbingProgress.hpp 146); its life must not be over. -/
def var (x : Nat) (s : St S A) : R Nat :=
  match s.vars[x]? with
  | some (some id) => .done id
  | _ => .ub

section
variable (beh : Nat → S → A → S × Out V E) (truth : V → Bool)

/-- `operator()` of a function object, which may change its state; `std::function` calls the object it holds, not a copy (include/mockutils/TupleDispatcher.hpp 14-41, include/fakeit/Action.hpp 45, 67, include/fakeit/invocation_matchers.hpp 139). -/
def perform (id : Nat) (a : A) (s : St S A) : R (Out V E × St S A) :=
  match s.objs id with
  | none => .ub
  | some f => .done ((beh f.code f.st a).2, { s with objs := upd s.objs id (some { f with st := (beh f.code f.st a).1 }) })

/-! ## Stubbing -/

/-- `Do(f)`: the parameter of `Do`, the one of the constructor, the member (include/fakeit/StubbingProgress.hpp 145-148, include/fakeit/Action.hpp 35-37); `Do(n_Times(f))`: the parameter of the constructor and the member (include/fakeit/StubbingProgress.hpp 150-154,
include/fakeit/Action.hpp 39-41); `AlwaysDo(f)` like `Do(f)` (include/fakeit/StubbingProgress.hpp 163-165, include/fakeit/Action.hpp 62-64). -/
def give (h : How) (x : Nat) (s : St S A) : R (Act × St S A) := do
  let id ← var x s
  match h with
  | .once => do
    let (m, s) ← pass 2 id s
    .done (⟨m, some 1⟩, s)
  | .times n => do
    let (m, s) ← pass 1 id s
    .done (⟨m, some n⟩, s)
  | .always => do
    let (m, s) ← pass 2 id s
    .done (⟨m, none⟩, s)

/-- The actions of a statement, one after the other (include/fakeit/StubbingProgress.hpp 156-161, include/fakeit/ActionSequence.hpp 75-78). -/
def giveAll : List (How × Nat) → St S A → R (List Act × St S A)
  | [], s => .done ([], s)
  | (h, x) :: rest, s => do
    let (m, s) ← give h x s
    let (ms, s) ← giveAll rest s
    .done (m :: ms, s)

/-- `Matching(p)`: the `std::function` that the parameter refers to, which lives to the end of the statement, and the member of the matcher (include/fakeit/MethodMockingContext.hpp 306-309, 230-234, include/fakeit/invocation_matchers.hpp 123-125). -/
def matching : Option Nat → St S A → R (Option (Nat × Nat) × St S A)
  | none, s => .done (none, s)
  | some x, s => do
    let id ← var x s
    let (p, s) ← copy id s
    let (m, s) ← copy p s
    .done (some (p, m), s)

/-- The function objects of a stubbing, in the order in which they are destroyed (include/fakeit/RecordedMethodBody.hpp 54-55, include/fakeit/ActionSequence.hpp 87-88: members in reverse order). -/
def Stub.fns (t : Stub) : List Nat := t.used.map Act.fn ++ t.acts.map Act.fn ++ t.pred.toList

/-- A `When` statement (include/fakeit/WhenFunctor.hpp 27-34, 82-87): at its end the stubbing is added (include/fakeit/RecordedMethodBody.hpp 110-115), or its parts are destroyed if an exception is on its way
(include/fakeit/WhenFunctor.hpp 29-31, include/fakeit/MethodMockingContext.hpp 94-101). -/
def stub (pred : Option Nat) (acts : List (How × Nat)) (uncaught : Bool) (s : St S A) : R (St S A) := do
  let (p, s) ← matching pred s
  let (as, s) ← giveAll acts s
  let t : Stub := { pred := p.map Prod.snd, acts := as, used := [] }
  let s ← if uncaught then destroyAll t.fns s else .done { s with stubs := s.stubs ++ [t] }
  destroyAll (p.map Prod.fst).toList s

/-- `Method(mock, m) = f`: three parameters of functions, the one of the constructor, the member (include/fakeit/MethodMockingContext.hpp 321-323, 249-251, 144-147, include/fakeit/Action.hpp 62-64). Simplified: the stubbing is added when the parameters are gone. -/
def assign (x : Nat) (s : St S A) : R (St S A) := do
  let id ← var x s
  let (m, s) ← pass 4 id s
  .done { s with stubs := s.stubs ++ [{ pred := none, acts := [⟨m, none⟩], used := [] }] }

/-! ## Calls -/

/-- Who serves a call: nobody, a stubbing, or a predicate threw (include/fakeit/RecordedMethodBody.hpp 71-81). -/
inductive Found (E : Type) where
  | nobody
  | stub (i : Nat)
  | threw (e : E)
  deriving DecidableEq, Repr

/-- `getInvocationHandlerForActualArgs` (include/fakeit/RecordedMethodBody.hpp 71-81): the stubbings before the `n`-th, newest first. -/
def choose (a : A) : Nat → St S A → R (Found E × St S A)
  | 0, s => .done (.nobody, s)
  | n + 1, s =>
    match s.stubs[n]? with
    | none => .ub
    | some t =>
      match t.pred with
      | none => .done (.stub n, s)
      | some id => do
        let (o, s) ← perform beh id a s
        match o with
        | .exc e => .done (.threw e, s)
        | .ret v => if truth v then .done (.stub n, s) else choose a n s

/-- `handleMethodInvocation` of a stubbing (include/fakeit/ActionSequence.hpp 40-54, include/fakeit/Action.hpp 43-50): the counter is decremented, the function called, and a done action moves to the used ones; with no action left there is the sentinel (66-68). -/
def serve (i : Nat) (a : A) (s : St S A) : R (Ans V E × St S A) :=
  match s.stubs[i]? with
  | none => .ub
  | some t =>
    match t.acts with
    | [] => .done (.unexpected, s)
    | act :: rest =>
      let act' : Act := { act with times := act.times.map (· - 1) }
      perform beh act.fn a { s with stubs := s.stubs.set i { t with acts := act' :: rest } } >>= fun (o, s) =>
        if act'.times = some 0 then .done (.out o, { s with stubs := s.stubs.set i { t with acts := rest, used := t.used ++ [act'] } })
        else .done (.out o, s)

/-- A call of the method (include/fakeit/RecordedMethodBody.hpp 126-150): it is recorded if a stubbing serves it. -/
def call (a : A) (s : St S A) : R (Ans V E × St S A) := do
  let (f, s) ← choose beh truth a s.stubs.length s
  match f with
  | .nobody => .done (.unexpected, s)
  | .threw e => .done (.out (.exc e), s)
  | .stub i => serve beh i a { s with hist := s.hist ++ [a] }

/-! ## Verifying -/

/-- The recorded calls are shown to a predicate in order (include/fakeit/MatchAnalysis.hpp 72-92, with a pattern of one method). -/
def askAll (id : Nat) : List A → Nat → St S A → R (Ans V E × St S A)
  | [], n, s => .done (.count n, s)
  | a :: as, n, s => do
    let (o, s) ← perform beh id a s
    match o with
    | .exc e => .done (.out (.exc e), s)
    | .ret v => askAll id as (if truth v then n + 1 else n) s

/-- `Verify(Method(mock, m).Matching(p))` (include/fakeit/MethodMockingContext.hpp 306-309, 230-234, include/fakeit/SequenceVerificationExpectation.hpp 67-86): what it counts. The function objects go at the end of the statement, also if the predicate throws. -/
def count (x : Nat) (s : St S A) : R (Ans V E × St S A) := do
  let id ← var x s
  let (p, s) ← copy id s
  let (m, s) ← copy p s
  let (r, s) ← askAll beh truth m s.hist 0 s
  let s ← destroyAll [m, p] s
  .done (r, s)

/-! ## Programs -/

/-- The stubbings go (include/mockutils/DynamicProxy.hpp 91-98). -/
def forget (s : St S A) : R (St S A) := do
  let s ← destroyAll (s.stubs.flatMap Stub.fns) s
  .done { s with stubs := [], hist := [] }

/-- The mock exists (include/fakeit/Mock.hpp 36-39). -/
def needMock (s : St S A) (k : R (Ans V E × St S A)) : R (Ans V E × St S A) := if s.alive then k else .ub

/-- One operation (the places cited at `Op` and at the functions used here, e.g. include/fakeit/Mock.hpp 61-67). -/
def step (s : St S A) : Op S A → R (Ans V E × St S A)
  | .make f => .done (.nothing, { s with objs := upd s.objs s.next (some f), next := s.next + 1, vars := s.vars ++ [some s.next] })
  | .run x a => do
    let id ← var x s
    let (o, s) ← perform beh id a s
    .done (.out o, s)
  | .drop x => do
    let id ← var x s
    let s ← destroy id s
    .done (.nothing, { s with vars := s.vars.set x none })
  | .stub p as u => needMock s do
    let s ← stub p as u s
    .done (.nothing, s)
  | .assign x => needMock s do
    let s ← assign x s
    .done (.nothing, s)
  | .call a => needMock s (call beh truth a s)
  | .count x => needMock s (count beh truth x s)
  | .reset => needMock s do
    let s ← forget s
    .done (.nothing, s)
  | .clear => needMock s (.done (.nothing, { s with hist := [] }))
  | .finish => needMock s do
    let s ← forget s
    .done (.nothing, { s with alive := false })

/-- A program (a test; C++ semantics, see the places cited at `Op`, e.g. include/fakeit/Mock.hpp 61-67). -/
def run : St S A → List (Op S A) → R (List (Ans V E) × St S A)
  | s, [] => .done ([], s)
  | s, o :: os => do
    let (r, s) ← step beh truth s o
    let (rs, s) ← run s os
    .done (r :: rs, s)

end
end FakeIt.Functors
