import Verif.Model.Result
/-!
# Handlers of events that use and change mocks

When a call is unexpected or a verification fails the library makes an event object that refers to recorded calls and to the bodies of methods, and shows it to the listeners and to the adapter
of the testing framework, which are code of the user: before they return they may call mocked methods, stub, verify, clear, reset and end mocks, and have the event formatted.
Here recorded calls and bodies are objects with a name of their own; reading one that has been deleted is undefined.

`Model/Handlers.lean` (C81) has handlers that change the list of listeners, the adapter and the formatter; here these stay the same. Simplified: mocks that are not spies, stubbings that answer
with values, verifications of one method with a number of calls, the default formatter whose text is kept as what it is made of, and all recorded calls in one list in the order of the calls
(include/fakeit/SortInvocations.hpp 20-31 sorts them).
-/
namespace FakeIt.Inside

variable {A V X : Type}

/-- The name of a method: `typeid(vMethod).name()` at first (include/fakeit/MockImpl.hpp 337), then what the macros give (include/fakeit/RecordedMethodBody.hpp 166-169). -/
inductive Name where
  | compiler (mock method : Nat)
  | given (n : Nat)
  deriving DecidableEq, Repr

/-- A stubbing: which arguments it accepts, the values of its actions, and the value of an action that repeats forever at the end (include/fakeit/RecordedMethodBody.hpp 31-56; include/fakeit/ActionSequence.hpp 40-54). -/
structure Stub (A V : Type) where
  accepts : A → Bool
  script : List V
  always : Option V := none

/-- `RecordedMethodBody` (include/fakeit/RecordedMethodBody.hpp 59-63) without the recorded calls: an object `uid`, the name in its `MethodInfo`, the stubbings, newest first (73 goes backwards). -/
structure Body (A V : Type) where
  uid : Nat
  name : Name
  stubs : List (Stub A V)

/-- `ActualInvocation` (include/fakeit/ActualInvocation.hpp 28-68): an object `uid` with a reference to the method object in the body `body` (include/fakeit/Invocation.hpp 64) and its arguments. -/
structure Inv (A : Type) where
  uid : Nat
  mock : Nat
  method : Nat
  body : Nat
  args : A
  verified : Bool := false
  deriving DecidableEq, Repr

/-- What a text made by the default formatter says (include/fakeit/DefaultEventFormatter.hpp 18-69): the unexpected call, or the expected pattern, the number of calls found and the calls shown with their total number. `nothing`: there is no event. -/
inductive Report (A : Type) where
  | nothing
  | unmocked
  | unexpected (name : Name) (args : A)
  | failed (pattern : Name) (count total : Nat) (shown : List (Name × A))
  | noMore (total : Nat) (shown : List (Name × A))
  deriving DecidableEq, Repr

/-- The mocks: the bodies of known methods (include/mockutils/DynamicProxy.hpp 213), the recorded calls (include/fakeit/RecordedMethodBody.hpp 63), the mocks whose life is over, the next name of an object,
how many events there have been (for handlers that count), what handlers have printed (include/fakeit/DefaultEventLogger.hpp 21-31). -/
structure World (A V : Type) where
  bodies : Nat → Nat → Option (Body A V) := fun _ _ => none
  recs : List (Inv A) := []
  ended : Nat → Bool := fun _ => false
  next : Nat := 0
  events : Nat := 0
  printed : List (Report A) := []

/-- The event objects (include/fakeit/FakeitEvents.hpp 63-143). An unexpected call refers to the invocation the running call keeps alive (include/fakeit/RecordedMethodBody.hpp 132, 145); the events of verifications have pointers to recorded calls,
of which the formatter follows the first fifty (include/fakeit/DefaultEventFormatter.hpp 111-126). -/
inductive Event (A : Type) where
  | unmocked
  | unexpected (inv : Inv A)
  | failed (mock method : Nat) (count total : Nat) (shown : List Nat)
  | noMore (total : Nat) (shown : List Nat)
  deriving DecidableEq, Repr

/-- What an event is about: `handle` is overloaded for the types of events (include/fakeit/EventHandler.hpp 14-24), and the type of an unexpected call can be asked (include/fakeit/FakeitEvents.hpp 137-139). -/
inductive Kind where
  | unmocked
  | unmatched
  | failed
  | noMore
  deriving DecidableEq, Repr

/-- The kind of an event (include/fakeit/FakeitEvents.hpp 63-143). -/
def Event.kind : Event A → Kind
  | .unmocked => .unmocked
  | .unexpected _ => .unmatched
  | .failed .. => .failed
  | .noMore .. => .noMore

/-- Exceptions: those of the user's code and frameworks, and `UnexpectedMethodCallException` with its text (include/fakeit/FakeitExceptions.hpp 43-55). -/
inductive Exn (A X : Type) where
  | user (x : X)
  | unexpected (r : Report A)
  deriving DecidableEq, Repr

/-- How code ends: it returns, throws, or an assertion fails and the program stops (include/fakeit/FakeitContext.hpp 27-29). -/
inductive Out (A X : Type) where
  | returned
  | thrown (e : Exn A X)
  | aborted
  deriving DecidableEq, Repr

/-- How a call of a mocked method ends (include/fakeit/RecordedMethodBody.hpp 126-150). -/
inductive Ans (A V X : Type) where
  | value (v : V)
  | thrown (e : Exn A X)
  | aborted
  deriving DecidableEq, Repr

/-- Code of the user, in tests and in handlers (called by include/fakeit/FakeitContext.hpp 78, 83, 88, 30, 36, 42). After each step it goes on knowing what it got; exceptions are caught by what goes on.
`stub`: `When(Method(mock, f)...)`, with the name the macro gives the method; `verify`: `Verify(Method(mock, f)...)` with a matcher and the numbers of calls that are all right; `clear`, `reset`, `destroy`: `ClearInvocationHistory`, `Reset` and the end of a mock (include/fakeit/Mock.hpp 61-67);
`format`: the event at hand is formatted (include/fakeit/FakeitContext.hpp 45-58), `print`: something is written out (include/fakeit/DefaultEventLogger.hpp 22). -/
inductive Code (A V X : Type) where
  | done
  | throw (e : Exn A X)
  | format (k : Report A → Code A V X)
  | print (r : Report A) (k : Code A V X)
  | call (mock method : Nat) (args : A) (k : Sum V (Exn A X) → Code A V X)
  | stub (mock method name : Nat) (s : Stub A V) (k : Code A V X)
  | verify (mock method name : Nat) (matcher : A → Bool) (ok : Nat → Bool) (k : Option (Exn A X) → Code A V X)
  | verifyNoOther (mock : Nat) (k : Option (Exn A X) → Code A V X)
  | clear (mock : Nat) (k : Code A V X)
  | reset (mock : Nat) (k : Code A V X)
  | destroy (mock : Nat) (k : Code A V X)

/-- The configuration: the listeners in order (include/fakeit/FakeitContext.hpp 74), the adapter (include/fakeit/DefaultFakeit.hpp 58-62), whether `FAKEIT_ASSERT_ON_UNEXPECTED_METHOD_INVOCATION` is defined (include/fakeit/FakeitContext.hpp 27-29),
and what the handlers do, given the kind of the event and how many events there were before. -/
structure Config (A V X : Type) where
  listeners : List Nat
  adapter : Nat
  asserting : Bool := false
  react : Nat → Kind → Nat → Code A V X

/-- The body of a method is replaced (include/mockutils/DynamicProxy.hpp 222-226). -/
def World.put (w : World A V) (m f : Nat) (b : Body A V) : World A V :=
  { w with bodies := fun m' f' => if m' = m ∧ f' = f then some b else w.bodies m' f' }

/-- `stubMethodIfNotStubbed` (include/fakeit/MockImpl.hpp 314-323, 334-338): the body, made if there is none. -/
def World.known (w : World A V) (m f : Nat) : Body A V × World A V :=
  match w.bodies m f with
  | some b => (b, w)
  | none => let b : Body A V := ⟨w.next, .compiler m f, []⟩; (b, { w.put m f b with next := w.next + 1 })

/-- `Method(mock, f)` (include/fakeit/Mock.hpp 100-105; `setMethodDetails`, include/fakeit/MockImpl.hpp 152-154): the method is known and named afterwards. -/
def World.named (w : World A V) (m f n : Nat) : Body A V × World A V :=
  let (b, w) := w.known m f
  let b := { b with name := .given n }
  (b, w.put m f b)

/-- `ActualInvocation::format` (include/fakeit/ActualInvocation.hpp 57-62): reads the name in the method object, which lives in the body. -/
def World.line (w : World A V) (i : Inv A) : R (Name × A) :=
  match w.bodies i.mock i.method with
  | some b => if b.uid = i.body then .done (b.name, i.args) else .ub
  | none => .ub

/-- A pointer to a recorded call is followed (include/fakeit/DefaultEventFormatter.hpp 118-119). -/
def World.follow (w : World A V) (p : Nat) : R (Name × A) :=
  match w.recs.find? (fun i => i.uid == p) with
  | some i => w.line i
  | none => .ub

/-- `formatInvocationList` (include/fakeit/DefaultEventFormatter.hpp 111-126). -/
def World.followAll (w : World A V) : List Nat → R (List (Name × A))
  | [] => .done []
  | p :: ps => do
    let l ← w.follow p
    let ls ← w.followAll ps
    .done (l :: ls)

/-- `DefaultEventFormatter::format` (include/fakeit/DefaultEventFormatter.hpp 18-69). The expected pattern is made from the name of the method, for which the method is looked up in the mock and made known again if it is not (71-98; include/fakeit/MethodMockingContext.hpp 107-111;
include/fakeit/MockImpl.hpp 164-166, 221-225). -/
def World.format (w : World A V) : Event A → R (Report A × World A V)
  | .unmocked => .done (.unmocked, w)
  | .unexpected i => do
    let (n, a) ← w.line i
    .done (.unexpected n a, w)
  | .failed m f count total shown =>
    if w.ended m then .ub
    else
      let (b, w) := w.known m f
      do
        let ls ← w.followAll shown
        .done (.failed b.name count total ls, w)
  | .noMore total shown => do
    let ls ← w.followAll shown
    .done (.noMore total ls, w)

/-- An action sequence is used (include/fakeit/ActionSequence.hpp 40-54); `none`: `NoMoreRecordedActionException` (75). -/
def Stub.use (s : Stub A V) : Option V × Stub A V :=
  match s.script with
  | v :: vs => (some v, { s with script := vs })
  | [] => (s.always, s)

/-- `getInvocationHandlerForActualArgs` (include/fakeit/RecordedMethodBody.hpp 71-81) and the use of what it finds (140): `none` if nothing accepts the arguments. -/
def useNewest (a : A) : List (Stub A V) → Option (Option V × List (Stub A V))
  | [] => none
  | s :: rest =>
    if s.accepts a then some (s.use.1, s.use.2 :: rest)
    else (useNewest a rest).map fun (v, rest) => (v, s :: rest)

/-- An event is handled and, if the handlers return, formatted and thrown (include/fakeit/RecordedMethodBody.hpp 145-149, include/fakeit/MockImpl.hpp 274-281). -/
def unexpected (handle : Event A → World A V → R (Out A X × World A V)) (e : Event A) (w : World A V) : R (Ans A V X × World A V) := do
  let (o, w) ← handle e w
  match o with
  | .returned => do
    let (r, w) ← w.format e
    .done (.thrown (.unexpected r), w)
  | .thrown x => .done (.thrown x, w)
  | .aborted => .done (.aborted, w)

/-- A call of a mocked method (include/fakeit/RecordedMethodBody.hpp 126-150; `unmocked`, include/fakeit/MockImpl.hpp 273-282). The invocation is an object of its own before it is recorded (include/fakeit/RecordedMethodBody.hpp 129-132). -/
def callMethod (handle : Event A → World A V → R (Out A X × World A V)) (m f : Nat) (a : A) (w : World A V) : R (Ans A V X × World A V) :=
  if w.ended m then .ub
  else
    match w.bodies m f with
    | none => unexpected handle .unmocked { w with next := w.next + 1 }
    | some b =>
      let i : Inv A := { uid := w.next, mock := m, method := f, body := b.uid, args := a }
      let w := { w with next := w.next + 1 }
      match useNewest a b.stubs with
      | none => unexpected handle (.unexpected i) w
      | some (v, stubs) =>
        let w := { (w.put m f { b with stubs := stubs }) with recs := w.recs ++ [i] }
        match v with
        | some v => .done (.value v, w)
        | none => unexpected handle (.unexpected i) w

/-- A verification of calls of one method (include/fakeit/SequenceVerificationExpectation.hpp 67-86): the calls are marked (100-104) or an event is handled (127-141), with pointers to all recorded calls of the mock. Calls are of the method if they refer to the same method object (include/fakeit/MethodMockingContext.hpp 125-133; include/fakeit/RecordedMethodBody.hpp 105-108). -/
def verifyMethod (handle : Event A → World A V → R (Out A X × World A V)) (m f n : Nat) (matcher : A → Bool) (ok : Nat → Bool) (w : World A V) : R (Out A X × World A V) :=
  if w.ended m then .ub
  else
    let (b, w) := w.named m f n
    let hit := fun i : Inv A => i.mock == m && i.body == b.uid && matcher i.args
    let count := (w.recs.filter hit).length
    if ok count then .done (.returned, { w with recs := w.recs.map fun i => if hit i then { i with verified := true } else i })
    else
      let all := w.recs.filter fun i => i.mock == m
      handle (.failed m f count all.length ((all.take 50).map Inv.uid)) w

/-- `VerifyNoOtherInvocations(mock)` (include/fakeit/VerifyNoOtherInvocationsVerificationProgress.hpp 59-81). -/
def verifyRest (handle : Event A → World A V → R (Out A X × World A V)) (m : Nat) (w : World A V) : R (Out A X × World A V) :=
  if w.ended m then .ub
  else
    let rest := w.recs.filter fun i => i.mock == m && !i.verified
    if rest.isEmpty then .done (.returned, w)
    else handle (.noMore rest.length ((rest.take 50).map Inv.uid)) w

/-- `ClearInvocationHistory` (include/fakeit/MockImpl.hpp 68-76): the recorded calls are deleted. -/
def World.clear (w : World A V) (m : Nat) : World A V := { w with recs := w.recs.filter fun i => i.mock != m }

/-- `Reset` (include/mockutils/DynamicProxy.hpp 91-98): the bodies are deleted, with the recorded calls. -/
def World.reset (w : World A V) (m : Nat) : World A V :=
  { w.clear m with bodies := fun m' f' => if m' = m then none else w.bodies m' f' }

/-- The end of a mock (include/fakeit/MockImpl.hpp 40-42; include/mockutils/DynamicProxy.hpp 83-85). -/
def World.destroy (w : World A V) (m : Nat) : World A V :=
  { w.reset m with ended := fun m' => if m' = m then true else w.ended m' }

/-- Code of the user runs (called by include/fakeit/FakeitContext.hpp 78, 83, 88, 30, 36, 42). `handle` is how events it causes are handled, `e` the event it is called with. -/
def run (handle : Event A → World A V → R (Out A X × World A V)) (e : Option (Event A)) : Code A V X → World A V → R (Out A X × World A V)
  | .done, w => .done (.returned, w)
  | .throw x, w => .done (.thrown x, w)
  | .format k, w =>
    match e with
    | none => run handle e (k .nothing) w
    | some ev => do
      let (r, w) ← w.format ev
      run handle e (k r) w
  | .print r k, w => run handle e k { w with printed := w.printed ++ [r] }
  | .call m f a k, w => do
    let (r, w) ← callMethod handle m f a w
    match r with
    | .value v => run handle e (k (.inl v)) w
    | .thrown x => run handle e (k (.inr x)) w
    | .aborted => .done (.aborted, w)
  | .stub m f n s k, w =>
    if w.ended m then .ub
    else
      let (b, w) := w.named m f n
      run handle e k (w.put m f { b with stubs := s :: b.stubs })
  | .verify m f n matcher ok k, w => do
    let (o, w) ← verifyMethod handle m f n matcher ok w
    match o with
    | .returned => run handle e (k none) w
    | .thrown x => run handle e (k (some x)) w
    | .aborted => .done (.aborted, w)
  | .verifyNoOther m k, w => do
    let (o, w) ← verifyRest handle m w
    match o with
    | .returned => run handle e (k none) w
    | .thrown x => run handle e (k (some x)) w
    | .aborted => .done (.aborted, w)
  | .clear m k, w => if w.ended m then .ub else run handle e k (w.clear m)
  | .reset m k, w => if w.ended m then .ub else run handle e k (w.reset m)
  | .destroy m k, w => if w.ended m then .ub else run handle e k (w.destroy m)

/-- `fireEvent` (include/fakeit/FakeitContext.hpp 76-89). -/
def tellAll (tell : Nat → World A V → R (Out A X × World A V)) : List Nat → World A V → R (Out A X × World A V)
  | [], w => .done (.returned, w)
  | l :: ls, w => do
    let (o, w) ← tell l w
    match o with
    | .returned => tellAll tell ls w
    | o => .done (o, w)

/-- Does the assertion fail? Only for unexpected calls (include/fakeit/FakeitContext.hpp 27-29; 33-43 have none). -/
def Config.stops (c : Config A V X) : Kind → Bool
  | .unmocked => c.asserting
  | .unmatched => c.asserting
  | .failed => false
  | .noMore => false

/-- `FakeitContext::handle` (include/fakeit/FakeitContext.hpp 24-43), with events inside of events at most `fuel` deep. -/
def handle (c : Config A V X) : Nat → Event A → World A V → R (Out A X × World A V)
  | 0, _, _ => .oof
  | fuel + 1, e, w =>
    let serial := w.events
    let tell := fun h => run (handle c fuel) (some e) (c.react h e.kind serial)
    do
      let (o, w) ← tellAll tell c.listeners { w with events := serial + 1 }
      match o with
      | .returned => if c.stops e.kind then .done (.aborted, w) else tell c.adapter w
      | o => .done (o, w)

/-- A test (its code is the user's; the library's part is reached from include/fakeit/RecordedMethodBody.hpp 126, include/fakeit/SequenceVerificationExpectation.hpp 67). -/
def test (c : Config A V X) (fuel : Nat) (code : Code A V X) (w : World A V) : R (Out A X × World A V) :=
  run (handle c fuel) none code w

end FakeIt.Inside
