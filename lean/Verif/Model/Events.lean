import Verif.Model.Result
/-!
# Delivery of events to listeners and the testing framework (include/fakeit/FakeitContext.hpp, DefaultFakeit.hpp)

Handlers are named by numbers; what a handler does with an event is given by a function. A handler may register or clear listeners while it runs and
may throw. Handlers that themselves use the library (and so fire nested events): `Model/Handlers.lean`.
-/
namespace FakeIt

/-- What a handler may do to the list of listeners (include/fakeit/FakeitContext.hpp 60-66). -/
inductive RegOp where
  | add (listener : Nat)
  | clear
  deriving Repr, DecidableEq

/-- Reaction of a handler to an event: registrations it makes, then whether it throws (what is called by include/fakeit/FakeitContext.hpp 24-43, 76-89). -/
structure Reaction (X : Type) where
  ops : List RegOp := []
  throws : Option X := none
  deriving Repr, DecidableEq

/-- `FakeitContext` with `DefaultFakeit` (include/fakeit/FakeitContext.hpp 74; include/fakeit/DefaultFakeit.hpp 26-36): the registered listeners, the
custom testing framework adapter if one is set, and the framework's own adapter. -/
structure EventCtx where
  listeners : List Nat := []
  custom : Option Nat := none
  builtin : Nat
  deriving Repr, DecidableEq

/-- `addEventHandler` and `clearEventHandlers` (include/fakeit/FakeitContext.hpp 60-66). -/
def EventCtx.reg (c : EventCtx) : RegOp → EventCtx
  | .add l => { c with listeners := c.listeners ++ [l] }
  | .clear => { c with listeners := [] }

/-- Several registrations (include/fakeit/FakeitContext.hpp 60-66). -/
def EventCtx.regs (c : EventCtx) (ops : List RegOp) : EventCtx := ops.foldl EventCtx.reg c

/-- `getTestingFrameworkAdapter` (include/fakeit/DefaultFakeit.hpp 58-62). -/
def EventCtx.adapter (c : EventCtx) : Nat :=
  match c.custom with
  | some a => a
  | none => c.builtin

/-- Who was told of an event (include/fakeit/FakeitContext.hpp 24-43, 76-89). -/
inductive Told where
  | listener (l : Nat)
  | adapter (a : Nat)
  deriving Repr, DecidableEq

variable {Ev X : Type}

/-- `fireEvent` (include/fakeit/FakeitContext.hpp 76-89): the range-based `for` over the vector; `rest` are the elements not yet visited. A
registration made by a listener changes the vector the loop iterates over (`push_back` and `clear` invalidate its end iterator), so going on with the
loop afterwards is undefined behaviour; leaving it by an exception is not. -/
def fireEvent (react : Nat → Ev → Reaction X) (e : Ev) : (rest : List Nat) → EventCtx → List Told → R (Option X × EventCtx × List Told)
  | [], c, log => .done (none, c, log)
  | l :: rest, c, log =>
    let r := react l e
    let c := c.regs r.ops
    let log := log ++ [.listener l]
    match r.throws with
    | some x => .done (some x, c, log)
    | none => if r.ops = [] then fireEvent react e rest c log else .ub

/-- `FakeitContext::handle(event)` (include/fakeit/FakeitContext.hpp 24-43): the listeners, then the adapter current at that time. With
`FAKEIT_ASSERT_ON_UNEXPECTED_METHOD_INVOCATION` (27-29, not modelled) the program stops before the adapter. -/
def handleEvent (react : Nat → Ev → Reaction X) (e : Ev) (c : EventCtx) : R (Option X × EventCtx × List Told) := do
  let (thrown, c, log) ← fireEvent react e c.listeners c []
  match thrown with
  | some x => .done (some x, c, log)
  | none =>
    let a := c.adapter
    let r := react a e
    .done (r.throws, c.regs r.ops, log ++ [.adapter a])

end FakeIt
