/-!
# What the operations on mocks read and write (include/fakeit/RecordedMethodBody.hpp, include/fakeit/MockImpl.hpp, include/mockutils/DynamicProxy.hpp)

The operations of the library as programs of single reads and writes of memory locations, so that the accesses of several threads can be interleaved.
A location is a member of an object of the library (or a vector with its elements, where the code never touches one without the other).
The atomic counters (include/fakeit/Invocation.hpp 23-26, include/fakeit/DomainObjects.hpp 27-30) are no locations: `inc` gives any number.
Locations which no operation described here writes (virtual table pointers, cookies, the original tables, method ids, ordinals of recorded calls) are left out.
Reference counts of `std::shared_ptr` are atomic and left out.  Left out too: construction and destruction of mocks, destructors and data members as mocked
members, patterns of several calls in `Verify`, callables that use mocks.
-/
namespace FakeIt.Races

/-- An entry of the virtual table of a mock's object: the original function of the object given to the constructor, `MockImpl::unmocked`
(include/fakeit/MockImpl.hpp 273-282), or the proxy made for this method (include/mockutils/MethodProxyCreator.hpp 32-35). -/
inductive Entry where
  | original
  | unmocked
  | proxy
  deriving DecidableEq, Repr

/-- What an action does with the recorded arguments and the virtual table: nothing, write the arguments through reference parameters
(include/fakeit/Action.hpp 43-46, 66-68), or call the original method (include/fakeit/MockImpl.hpp 183-213). -/
inductive Kind (V : Type) where
  | gives
  | sets (f : V → V)
  | spies

/-- An action with the number of uses left, `none` for ever (include/fakeit/Action.hpp 31-108). -/
structure Action (V : Type) where
  times : Option Int
  kind : Kind V

/-- Memory locations of mock `m`, method number `off` (its offset in the virtual table):
`vecs` the vectors `_methodMocks` and `_offsets` themselves (include/mockutils/DynamicProxy.hpp 213-215), `body` and `ident` their elements at `off`;
`entry` the entry of the virtual table (211); `name`, `stubs`, `recs`: `_method`'s name, `_invocationHandlers`, `_actualInvocations` of the method's
`RecordedMethodBody` (include/fakeit/RecordedMethodBody.hpp 59-63); `seq`: the action sequence of stubbing number `h` (include/fakeit/ActionSequence.hpp
87-88); `args`, `flag`: the arguments and `_isVerified` of recorded call number `k` (include/fakeit/ActualInvocation.hpp 67,
include/fakeit/Invocation.hpp 65); `ctx`: listeners, handlers and formatter of the context (include/fakeit/FakeitContext.hpp 69-74). -/
inductive Loc where
  | vecs (m : Nat)
  | entry (m off : Nat)
  | body (m off : Nat)
  | ident (m off : Nat)
  | name (m off : Nat)
  | stubs (m off : Nat)
  | recs (m off : Nat)
  | seq (m off h : Nat)
  | args (m off k : Nat)
  | flag (m off k : Nat)
  | ctx
  deriving DecidableEq, Repr

/-- What a location holds.  `vecs`: the size; `body`: whether the pointer is set; `ident`: the method whose proxy's number it holds (the numbers of different
methods of a class are different in one translation unit, include/fakeit/api_macros.hpp 31-32); `name`: a text, as a number; `stubs`: the matchers in the
order they were added; `seq`: the actions before the final `NoMoreRecordedAction`; `recs`: how many calls are recorded
(include/mockutils/DynamicProxy.hpp 209-216, include/fakeit/RecordedMethodBody.hpp 59-63). -/
@[reducible] def Val (V : Type) : Loc → Type
  | .vecs _ => Nat
  | .entry _ _ => Entry
  | .body _ _ => Bool
  | .ident _ _ => Option Nat
  | .name _ _ => Nat
  | .stubs _ _ => List (V → Bool)
  | .recs _ _ => Nat
  | .seq _ _ _ => List (Action V)
  | .args _ _ _ => V
  | .flag _ _ _ => Bool
  | .ctx => Unit

/-- The memory (include/mockutils/DynamicProxy.hpp 209-216). -/
abbrev Mem (V : Type) : Type := (l : Loc) → Val V l

/-- The memory after a write (include/mockutils/DynamicProxy.hpp 222-226). -/
def Mem.set {V : Type} (μ : Mem V) (l : Loc) (v : Val V l) : Mem V :=
  fun l' => if h : l' = l then h ▸ v else μ l'

/-- A program of single accesses: `rd` reads a location, `wr` writes one, `inc` increments an atomic counter (include/fakeit/Invocation.hpp 23-26,
include/fakeit/DomainObjects.hpp 27-30); `ub` is undefined behaviour other than a race. -/
inductive Prog (V : Type) (α : Type) where
  | ret (a : α)
  | rd (l : Loc) (k : Val V l → Prog V α)
  | wr (l : Loc) (v : Val V l) (k : Prog V α)
  | inc (k : Nat → Prog V α)
  | ub

namespace Prog

variable {V α β : Type}

/-- One program after the other (C++'s sequencing; no line of its own, used for include/fakeit/RecordedMethodBody.hpp 126-150). -/
def bind : Prog V α → (α → Prog V β) → Prog V β
  | ret a, f => f a
  | rd l k, f => rd l fun v => (k v).bind f
  | wr l v k, f => wr l v (k.bind f)
  | inc k, f => inc fun n => (k n).bind f
  | ub, _ => ub

instance : Monad (Prog V) where
  pure := ret
  bind := bind

end Prog

variable {V : Type}

/-- Reads one location (a member access; include/mockutils/DynamicProxy.hpp 141, 236, 253). -/
def get (l : Loc) : Prog V (Val V l) := .rd l .ret

/-- Writes one location (include/mockutils/DynamicProxy.hpp 222-226). -/
def put (l : Loc) (v : Val V l) : Prog V Unit := .wr l v (.ret ())

/-- The next number of an atomic counter (include/fakeit/Invocation.hpp 23-26, include/fakeit/DomainObjects.hpp 27-30). -/
def next : Prog V Nat := .inc .ret

/-- A loop over the numbers `0 … n-1` (the range `for` loops of include/mockutils/DynamicProxy.hpp 164-169, include/fakeit/MockImpl.hpp 72-74). -/
def loop : Nat → (Nat → Prog V Unit) → Prog V Unit
  | 0, _ => pure ()
  | n + 1, f => do loop n f; f n

/-- How an operation ends, as far as the library decides it.  A call: the object's own method ran; an action of the stubbing `h` ran; an
`UnexpectedMethodCallException` was thrown (include/fakeit/RecordedMethodBody.hpp 133-149, include/fakeit/MockImpl.hpp 273-282).  A verification held or
failed (include/fakeit/SequenceVerificationExpectation.hpp 67-86); another operation is done. -/
inductive Result where
  | original
  | served (h : Nat)
  | unexpected
  | held
  | failed
  | done
  deriving DecidableEq, Repr

/-- `InvocationHandlers::getOffset` (include/mockutils/DynamicProxy.hpp 33-42), from position `k` with `n` positions left: the first position holding the
proxy's number. -/
def getOffset (m off : Nat) : Nat → Nat → Prog V (Option Nat)
  | _, 0 => pure none
  | k, n + 1 => do
    let v ← get (.ident m k)
    if v = some off then pure (some k) else getOffset m off (k + 1) n

/-- The newest stubbing whose matcher accepts the arguments (include/fakeit/RecordedMethodBody.hpp 71-82).  The matchers are functions of the arguments and do
not use mocks. -/
def findStub (a : V) (ss : List (V → Bool)) : Option Nat :=
  (List.range ss.length).reverse.find? fun h => match ss[h]? with | some p => p a | none => false

/-- Handling of an unexpected call of a stubbed method: the listeners and the handler are asked, the method's name is printed
(include/fakeit/RecordedMethodBody.hpp 145-149, include/fakeit/FakeitContext.hpp 24-31, 45-48, include/fakeit/ActualInvocation.hpp 57-62). -/
def unexpected (m off : Nat) : Prog V Result := do
  let _ ← get .ctx
  let _ ← get (.name m off)
  pure .unexpected

/-- What the action does (include/fakeit/Action.hpp 31-108).  A spying action puts the original function into the virtual table, calls through the table and
puts back what was there (include/fakeit/MockImpl.hpp 183-213, include/mockutils/DynamicProxy.hpp 177-187); should the entry not be the original one by then
the call would go back to the mock, which is not described. -/
def act (m off k : Nat) (orig : Entry) : Kind V → Prog V Unit
  | .gives => pure ()
  | .sets f => do
    let v ← get (.args m off k)
    put (.args m off k) (f v)
  | .spies => do
    let e ← get (.entry m off)
    put (.entry m off) orig
    let o ← get (.entry m off)
    if o = orig then put (.entry m off) e else .ub

/-- `ActionSequence::handleMethodInvocation` (include/fakeit/ActionSequence.hpp 40-54) of stubbing `h` for the recorded call number `k`; the first action is
counted (include/fakeit/Action.hpp 43-46), and removed when it is used up.  `false`: no action was left. -/
def handle (m off h k : Nat) (orig : Entry) : Prog V Bool := do
  let q ← get (.seq m off h)
  match q with
  | [] => pure false
  | x :: rest =>
    match x.times with
    | none =>
      act m off k orig x.kind
      pure true
    | some t =>
      put (.seq m off h) ({ x with times := some (t - 1) } :: rest)
      act m off k orig x.kind
      let q' ← get (.seq m off h)
      match q' with
      | [] => .ub
      | y :: rest' =>
        if y.times = some 0 then
          put (.seq m off h) rest'
          pure true
        else pure true

/-- `RecordedMethodBody::handleMethodInvocation` (include/fakeit/RecordedMethodBody.hpp 126-150).  The call's own object is numbered like the place it gets in
`_actualInvocations`; its members are written before it is reachable from there. -/
def invoke (m off : Nat) (orig : Entry) (a : V) : Prog V Result := do
  let _ ← next
  let ss ← get (.stubs m off)
  match findStub a ss with
  | none => unexpected m off
  | some h =>
    let n ← get (.recs m off)
    put (.args m off n) a
    put (.flag m off n) false
    put (.recs m off) (n + 1)
    let ok ← handle m off h n orig
    if ok then pure (.served h) else unexpected m off

/-- Handling of a call of a method never stubbed, on an object made by the mock (include/fakeit/MockImpl.hpp 273-282).  What is printed is a constant. -/
def unmocked : Prog V Result := do
  let _ ← next
  let _ ← get .ctx
  pure .unexpected

/-- A call of method `off` of mock `m`'s object: dispatch through the virtual table, then `MethodProxyCreator::methodProxy`
(include/mockutils/MethodProxyCreator.hpp 44-56) and `getInvocatoinHandlerPtrById` (include/mockutils/DynamicProxy.hpp 55-59).
`orig` is what the original table holds at `off`. -/
def call (orig : Nat → Nat → Entry) (m off : Nat) (a : V) : Prog V Result := do
  let e ← get (.entry m off)
  match e with
  | .original => pure .original
  | .unmocked => unmocked
  | .proxy =>
    let n ← get (.vecs m)
    let o ← getOffset m off 0 n
    match o with
    | none => .ub
    | some p =>
      let b ← get (.body m p)
      if b then invoke m p (orig m p) a else .ub

/-- `DynamicProxy::stubMethod` and `bind` with a new `RecordedMethodBody` (include/mockutils/DynamicProxy.hpp 104-109, 222-226,
include/fakeit/RecordedMethodBody.hpp 95-96). -/
def bindMethod (m off : Nat) : Prog V Unit := do
  let _ ← next
  put (.name m off) 0
  put (.stubs m off) []
  put (.recs m off) 0
  put (.entry m off) .proxy
  put (.body m off) true
  put (.ident m off) (some off)

/-- `MockImpl::stubMethodIfNotStubbed` (include/fakeit/MockImpl.hpp 314-323), `isMethodStubbed`, `getMethodMock` (include/mockutils/DynamicProxy.hpp 127-131,
138-143, 252-255).  `off` is within the table, by the class (include/mockutils/VTUtils.hpp 30-35, 67-76). -/
def recordedBody (m off : Nat) : Prog V Unit := do
  let n ← get (.vecs m)
  if off < n then
    let b ← get (.body m off)
    (if b then pure () else bindMethod m off)
    let b' ← get (.body m off)
    if b' then pure () else .ub
  else .ub

/-- The expression `Method(mock, method)` (include/fakeit/api_macros.hpp 31-32, include/fakeit/MockImpl.hpp 152-154,
include/fakeit/RecordedMethodBody.hpp 166-169): `txt` is the text given as the method's name. -/
def methodExpr (m off txt : Nat) : Prog V Unit := do
  recordedBody m off
  put (.name m off) txt

/-- A stubbing statement, `When(Method(…)…)….`, `Fake` or `Spy`, with the matcher and the actions it makes
(include/fakeit/MethodMockingContext.hpp 135-138, include/fakeit/MockImpl.hpp 143-146, include/fakeit/RecordedMethodBody.hpp 110-115). -/
def stub (m off txt : Nat) (p : V → Bool) (q : List (Action V)) : Prog V Result := do
  methodExpr m off txt
  recordedBody m off
  let ss ← get (.stubs m off)
  put (.seq m off ss.length) q
  put (.stubs m off) (ss ++ [p])
  pure .done

/-- How many calls of each method are recorded, the methods from `0` to `n-1` (`MockImpl::getActualInvocations`, include/fakeit/MockImpl.hpp 47-53,
include/mockutils/DynamicProxy.hpp 162-170, include/fakeit/RecordedMethodBody.hpp 159-164). -/
def gather (m : Nat) : Nat → Prog V (List (Nat × Nat))
  | 0 => pure []
  | n + 1 => do
    let l ← gather m n
    let b ← get (.body m n)
    if b then
      let r ← get (.recs m n)
      pure (l ++ [(n, r)])
    else pure l

/-- Printing recorded calls, each given as method and number: names and arguments (include/fakeit/DefaultEventFormatter.hpp 111-126,
include/fakeit/ActualInvocation.hpp 57-62).  The code stops after fifty calls, which is not described here. -/
def printAll (m : Nat) : List (Nat × Nat) → Prog V Unit
  | [] => pure ()
  | (off, k) :: l => do
    let _ ← get (.name m off)
    let _ ← get (.args m off k)
    printAll m l

/-- The recorded calls one by one (include/fakeit/RecordedMethodBody.hpp 159-164). -/
def each (all : List (Nat × Nat)) : List (Nat × Nat) :=
  all.flatMap fun x => (List.range x.2).map fun k => (x.1, k)

/-- Which of the first `r` recorded calls of the method are accepted (include/fakeit/MatchAnalysis.hpp 46-92 with a pattern of one call,
include/fakeit/MethodMockingContext.hpp 125-133): asking whether a call is of this method looks the method up again
(include/fakeit/MockImpl.hpp 156-158). -/
def matching (m off : Nat) (p : V → Bool) : Nat → Prog V (List Nat)
  | 0 => pure []
  | r + 1 => do
    let l ← matching m off p r
    recordedBody m off
    let v ← get (.args m off r)
    if p v then pure (l ++ [r]) else pure l

/-- The search through all recorded calls of the mock, method by method: of a call of another method only the lookup is made
(include/fakeit/MethodMockingContext.hpp 125-133, include/fakeit/MockImpl.hpp 156-158, include/fakeit/MatchAnalysis.hpp 72-92). -/
def search (m off : Nat) (p : V → Bool) : List (Nat × Nat) → Prog V (List Nat)
  | [] => pure []
  | (o, r) :: l => do
    if o = off then
      let x ← matching m off p r
      let y ← search m off p l
      pure (x ++ y)
    else
      loop r fun _ => recordedBody m off
      search m off p l

/-- `markAsVerified` for every call found (include/fakeit/SequenceVerificationExpectation.hpp 100-104). -/
def markAll (m off : Nat) : List Nat → Prog V Unit
  | [] => pure ()
  | k :: l => do
    put (.flag m off k) true
    markAll m off l

/-- `Verify(Method(mock, method)…)` with what is expected of the number of calls found (include/fakeit/VerifyFunctor.hpp 33-43,
include/fakeit/SequenceVerificationExpectation.hpp 67-86).  Simplified: a pattern of one call; the recorded calls are looked at method by method, not in the
order of their ordinals, which makes no difference to what is read. -/
def verify (m off txt : Nat) (p : V → Bool) (expect : Nat → Bool) : Prog V Result := do
  methodExpr m off txt
  let n ← get (.vecs m)
  let all ← gather m n
  let found ← search m off p all
  if expect found.length then
    markAll m off found
    pure .held
  else
    let _ ← get .ctx
    recordedBody m off
    let _ ← get (.name m off)
    printAll m (each all)
    pure .failed

/-- Those of the recorded calls that are not verified; all are asked (include/fakeit/SortInvocations.hpp 40-47). -/
def openOf (m : Nat) : List (Nat × Nat) → Prog V (List (Nat × Nat))
  | [] => pure []
  | (off, k) :: l => do
    let v ← get (.flag m off k)
    let r ← openOf m l
    if v then pure r else pure ((off, k) :: r)

/-- `VerifyNoOtherInvocations(mock)` (include/fakeit/VerifyNoOtherInvocationsVerificationProgress.hpp 59-81). -/
def noOther (m : Nat) : Prog V Result := do
  let n ← get (.vecs m)
  let all ← gather m n
  let rest ← openOf m (each all)
  if rest = [] then pure .held
  else
    let _ ← get .ctx
    printAll m rest
    pure .failed

/-- `mock.Reset()` (include/mockutils/DynamicProxy.hpp 91-98): new vectors, the original table.  The destroyed `RecordedMethodBody` objects are written here as
emptied; their action sequences and recorded calls are destroyed with them and not written here. -/
def reset (orig : Nat → Nat → Entry) (m : Nat) : Prog V Result := do
  let n ← get (.vecs m)
  put (.vecs m) n
  loop n fun k => do
    put (.name m k) 0
    put (.stubs m k) []
    put (.recs m k) 0
    put (.body m k) false
    put (.ident m k) none
    put (.entry m k) (orig m k)
  pure .done

/-- `mock.ClearInvocationHistory()` (include/fakeit/MockImpl.hpp 68-76, include/fakeit/RecordedMethodBody.hpp 122-124). -/
def clear (m : Nat) : Prog V Result := do
  let n ← get (.vecs m)
  loop n fun k => do
    let b ← get (.body m k)
    if b then put (.recs m k) 0 else pure ()
  pure .done

/-- What a thread can do with mock `m` (the functions above): include/fakeit/RecordedMethodBody.hpp 126-150, include/fakeit/MockImpl.hpp 47-76,
include/fakeit/MethodMockingContext.hpp 135-138. -/
inductive Op (V : Type) where
  | call (m off : Nat) (a : V)
  | stub (m off txt : Nat) (p : V → Bool) (q : List (Action V))
  | verify (m off txt : Nat) (p : V → Bool) (expect : Nat → Bool)
  | noOther (m : Nat)
  | reset (m : Nat)
  | clear (m : Nat)

/-- The program of an operation (see the functions above; include/fakeit/RecordedMethodBody.hpp 126-150). -/
def Op.prog (orig : Nat → Nat → Entry) : Op V → Prog V Result
  | .call m off a => Races.call orig m off a
  | .stub m off txt p q => Races.stub m off txt p q
  | .verify m off txt p e => Races.verify m off txt p e
  | .noOther m => Races.noOther m
  | .reset m => Races.reset orig m
  | .clear m => Races.clear m

/-- A thread: operations one after the other, with their results (include/fakeit/RecordedMethodBody.hpp 126-150 for each call). -/
def thread (orig : Nat → Nat → Entry) : List (Op V) → Prog V (List Result)
  | [] => pure []
  | o :: os => do
    let r ← o.prog orig
    let rs ← thread orig os
    pure (r :: rs)

end FakeIt.Races
