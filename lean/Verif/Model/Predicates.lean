import Verif.Model.Result
/-!
# Predicates of `Matching` that do something (RecordedMethodBody.hpp, invocation_matchers.hpp)

In the core model predicates are functions.  Here they are programs: they may look at and assign to the arguments, call the mocked method, stub it, reset the mock, throw.
One method of one mock.
-/
namespace FakeIt.Predicates

variable {V : Type}

/-- How a call ends: answered by a stubbing (which, with which arguments), an exception of a predicate, unexpected call, method not stubbed at all (include/fakeit/RecordedMethodBody.hpp 126-150). -/
inductive Out (V : Type) where
  | answered (handler : Nat) (args : List V)
  | threw (e : Nat)
  | unexpected
  | unmocked
  deriving DecidableEq

/-- The code of a predicate, `std::function<bool(arglist &...)>` (invocation_matchers.hpp 119-143): look at the arguments, assign to them, stub the method with another predicate, `Reset`, `ClearInvocationHistory`,
call the method and go on depending on how the call ends, throw, answer. -/
inductive Code (V : Type) where
  | answer (b : Bool)
  | throw (e : Nat)
  | look (k : List V → Code V)
  | assign (f : List V → List V) (k : Code V)
  | stub (pred : Nat) (k : Code V)
  | reset (k : Code V)
  | clear (k : Code V)
  | call (args : List V) (k : Out V → Code V)

/-- What a predicate says (include/fakeit/invocation_matchers.hpp 127-140). -/
inductive Res where
  | says (b : Bool)
  | threw (e : Nat)
  deriving DecidableEq

/-- A stubbing: a name for it and its predicate (RecordedMethodBody.hpp 31-56). Its action returns its name and the arguments it gets. -/
structure Hd where
  id : Nat
  pred : Nat
  deriving DecidableEq

/-- A recorded call (RecordedMethodBody.hpp 138). -/
structure Rec (V : Type) where
  ord : Nat
  args : List V
  handler : Nat
  deriving DecidableEq

/-- `RecordedMethodBody` (RecordedMethodBody.hpp 59-63): the vector of stubbings (oldest first, the array it lives in, the capacity of the array), the recorded calls. -/
structure Body (V : Type) where
  handlers : List Hd
  buf : Nat
  cap : Nat
  calls : List (Rec V)

/-- A predicate was asked about a call (for the statements only) (include/fakeit/invocation_matchers.hpp 138-140). -/
structure Ask (V : Type) where
  ord : Nat
  handler : Nat
  args : List V
  res : Res
  deriving DecidableEq

/-- `body`: none if the method is not stubbed; `gen`: how often the mock was reset, tells bodies apart; `next`: number of calls so far; `names`: number of stubbings so far (DynamicProxy.hpp 91-98, Invocation.hpp 23-26). -/
structure St (V : Type) where
  body : Option (Body V)
  gen : Nat
  next : Nat
  names : Nat
  trace : List (Ask V)

/-- `push_back`: a full array is replaced by one of twice the size (RecordedMethodBody.hpp 110-115; the growth of `std::vector` in libstdc++). -/
def Body.push (b : Body V) (h : Hd) : Body V :=
  if b.handlers.length = b.cap then { b with handlers := b.handlers ++ [h], buf := b.buf + 1, cap := if b.cap = 0 then 1 else 2 * b.cap } else { b with handlers := b.handlers ++ [h] }

/-- `When(Method(mock, f).Matching(pred)).…` (MockImpl.hpp 314-323, RecordedMethodBody.hpp 110-115). -/
def St.stub (s : St V) (pred : Nat) : St V :=
  let b := match s.body with
    | some b => b
    | none => ⟨[], 0, 0, []⟩
  { s with body := some (b.push ⟨s.names, pred⟩), names := s.names + 1 }

/-- `Reset`: the body is destroyed (DynamicProxy.hpp 91-98). -/
def St.reset (s : St V) : St V := { s with body := none, gen := s.gen + 1 }

/-- `ClearInvocationHistory` (RecordedMethodBody.hpp 122-124). -/
def St.clear (s : St V) : St V := { s with body := s.body.map fun b => { b with calls := [] } }

/-- Running a predicate on the arguments of a call; they are passed by reference (invocation_matchers.hpp 138-140, TupleDispatcher.hpp 37-41). `call`: what a call of the method does. -/
def exec (call : List V → St V → R (St V × Out V)) : Code V → List V → St V → R (St V × List V × Res)
  | .answer b, args, s => .done (s, args, .says b)
  | .throw e, args, s => .done (s, args, .threw e)
  | .look k, args, s => exec call (k args) args s
  | .assign f k, args, s => exec call k (f args) s
  | .stub p k, args, s => exec call k args (s.stub p)
  | .reset k, args, s => exec call k args s.reset
  | .clear k, args, s => exec call k args s.clear
  | .call as k, args, s => do
    let (s, o) ← call as s
    exec call (k o) args s

/-- Is the reverse iterator that stands at the element before position `n` still valid? `n0`: number of stubbings when the loop began. A new array invalidates all iterators, `push_back` without a
new one only those past the end ([vector.modifiers]; RecordedMethodBody.hpp 72-79). -/
def valid (gen buf n0 n : Nat) (s : St V) : Bool :=
  match s.body with
  | none => false
  | some b => s.gen == gen && b.buf == buf && (decide (n < n0) || b.handlers.length == n0)

/-- What the search finds (include/fakeit/RecordedMethodBody.hpp 71-81). -/
inductive Found where
  | handler (h : Hd)
  | none
  | threw (e : Nat)

/-- `getInvocationHandlerForActualArgs` (RecordedMethodBody.hpp 71-81). The call has no matcher yet, so every predicate is asked (invocation_matchers.hpp 127-131). -/
def scan (P : Nat → Code V) (call : List V → St V → R (St V × Out V)) (gen buf n0 ord : Nat) : Nat → List V → St V → R (St V × List V × Found)
  | 0, args, s => .done (s, args, .none)
  | n + 1, args, s => do
    let b ← R.ofOption s.body
    let h ← R.ofOption b.handlers[n]?
    let (s, args', r) ← exec call (P h.pred) args s
    let s := { s with trace := s.trace ++ [⟨ord, h.id, args, r⟩] }
    match r with
    | .threw e => .done (s, args', .threw e)
    | .says true => .done (s, args', .handler h)
    | .says false => if valid gen buf n0 (n + 1) s then scan P call gen buf n0 ord n args' s else .ub

/-- A call of the method: `handleMethodInvocation`, or `unmocked` (RecordedMethodBody.hpp 126-150, MockImpl.hpp 273-282). The stubbing found lives in the body: undefined if the body is gone. `fuel`: depth of calls made
by predicates. -/
def call (P : Nat → Code V) : Nat → List V → St V → R (St V × Out V)
  | 0, _, _ => .oof
  | fuel + 1, args, s =>
    match s.body with
    | none => .done ({ s with next := s.next + 1 }, .unmocked)
    | some b => do
      let (s', args', f) ← scan P (call P fuel) s.gen b.buf b.handlers.length s.next b.handlers.length args { s with next := s.next + 1 }
      match f with
      | .threw e => .done (s', .threw e)
      | .none => .done (s', .unexpected)
      | .handler h =>
        if s'.gen = s.gen then do
          let b' ← R.ofOption s'.body
          .done ({ s' with body := some { b' with calls := b'.calls ++ [⟨s.next, args', h.id⟩] } }, .answered h.id args')
        else .ub

end FakeIt.Predicates
