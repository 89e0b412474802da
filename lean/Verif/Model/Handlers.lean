import Verif.Model.Events
/-!
# Handlers of events that use the library (include/fakeit/FakeitContext.hpp, DefaultFakeit.hpp)

`Model/Events.lean` has handlers that only register listeners. Here listeners and testing framework adapters are programs: they may register and clear listeners, set and reset the custom
adapter and the custom formatter, have an event formatted, and do something (call a mocked method, verify) that makes the library handle another event, which is delivered before they go on.
Handlers and formatters are named by numbers. Formatters do not use the library.
-/
namespace FakeIt.Handlers

/-- What may be changed in the context (include/fakeit/FakeitContext.hpp 60-66, include/fakeit/DefaultFakeit.hpp 26-72). -/
inductive Op where
  /-- `addEventHandler` (include/fakeit/FakeitContext.hpp 60-62) -/
  | add (listener : Nat)
  /-- `clearEventHandlers` (include/fakeit/FakeitContext.hpp 64-66) -/
  | clear
  /-- `setTestingFrameworkAdapter` (include/fakeit/DefaultFakeit.hpp 48-50) -/
  | setAdapter (a : Nat)
  /-- `resetTestingFrameworkAdapter` (include/fakeit/DefaultFakeit.hpp 52-54) -/
  | resetAdapter
  /-- `setCustomEventFormatter` (include/fakeit/DefaultFakeit.hpp 40-42) -/
  | setFormatter (f : Nat)
  /-- `resetCustomEventFormatter` (include/fakeit/DefaultFakeit.hpp 44-46) -/
  | resetFormatter
  deriving Repr, DecidableEq

/-- What a handler does (called by include/fakeit/FakeitContext.hpp 24-43, 76-89). -/
inductive Code (Ev X : Type) where
  /-- it returns -/
  | done
  /-- it throws -/
  | throw (x : X)
  /-- it changes the context -/
  | op (o : Op) (k : Code Ev X)
  /-- it has an event formatted (as include/fakeit/DefaultEventLogger.hpp 21-31 do) and goes on, knowing by which formatter -/
  | format (k : Nat → Code Ev X)
  /-- it makes the library handle an event (an unexpected call: include/fakeit/RecordedMethodBody.hpp 145-146, include/fakeit/MockImpl.hpp 274-277; a verification that fails:
  include/fakeit/SequenceVerificationExpectation.hpp 127-141) and goes on with what the handling threw, if anything -/
  | fire (e : Ev) (k : Option X → Code Ev X)

/-- `FakeitContext` with `DefaultFakeit` (include/fakeit/FakeitContext.hpp 74; include/fakeit/DefaultFakeit.hpp 26-36). `ver` counts the changes to the vector of listeners: an iterator obtained
before a change may not be used after it (standard library, not in /repo). -/
structure Ctx where
  listeners : List Nat := []
  ver : Nat := 0
  custom : Option Nat := none
  builtin : Nat
  customFormatter : Option Nat := none
  builtinFormatter : Nat
  deriving Repr, DecidableEq

/-- `getTestingFrameworkAdapter` (include/fakeit/DefaultFakeit.hpp 58-62). -/
def Ctx.adapter (c : Ctx) : Nat :=
  match c.custom with
  | some a => a
  | none => c.builtin

/-- `getEventFormatter` (include/fakeit/DefaultFakeit.hpp 64-72). -/
def Ctx.formatter (c : Ctx) : Nat :=
  match c.customFormatter with
  | some f => f
  | none => c.builtinFormatter

/-- The changes (include/fakeit/FakeitContext.hpp 60-66; include/fakeit/DefaultFakeit.hpp 40-54). -/
def Ctx.apply (c : Ctx) : Op → Ctx
  | .add l => { c with listeners := c.listeners ++ [l], ver := c.ver + 1 }
  | .clear => { c with listeners := [], ver := c.ver + 1 }
  | .setAdapter a => { c with custom := some a }
  | .resetAdapter => { c with custom := none }
  | .setFormatter f => { c with customFormatter := some f }
  | .resetFormatter => { c with customFormatter := none }

/-- What can be seen: somebody is told of an event (include/fakeit/FakeitContext.hpp 78, 83, 88, 30, 36, 42) inside of `depth` other events; a handler changes the context. -/
inductive Note (Ev : Type) where
  | told (depth : Nat) (who : Told) (ev : Ev)
  | did (o : Op)
  deriving Repr, DecidableEq

variable {Ev X : Type}

/-- A handler runs. `handle` is how the events it causes are handled. The result: what it throws, the context afterwards, what happened meanwhile (called by include/fakeit/FakeitContext.hpp 78, 83, 88, 30, 36, 42). -/
def run (handle : Ev → Ctx → R (Option X × Ctx × List (Note Ev))) : Code Ev X → Ctx → R (Option X × Ctx × List (Note Ev))
  | .done, c => .done (none, c, [])
  | .throw x, c => .done (some x, c, [])
  | .op o k, c => do
    let (x, c, log) ← run handle k (c.apply o)
    .done (x, c, .did o :: log)
  | .format k, c => run handle (k c.formatter) c
  | .fire e k, c => do
    let (x, c, log) ← handle e c
    let (y, c, log') ← run handle (k x) c
    .done (y, c, log ++ log')

/-- `fireEvent` (include/fakeit/FakeitContext.hpp 76-89): the range-based `for` over the vector as it was at the beginning (`ver`); `rest` are the elements not yet visited. -/
def loop (tell : Nat → Ctx → R (Option X × Ctx × List (Note Ev))) (depth : Nat) (e : Ev) (ver : Nat) : List Nat → Ctx → R (Option X × Ctx × List (Note Ev))
  | [], c => .done (none, c, [])
  | l :: rest, c => do
    let (x, c, log) ← tell l c
    match x with
    | some x => .done (some x, c, .told depth (.listener l) e :: log)
    | none =>
      if c.ver = ver then do
        let (y, c, log') ← loop tell depth e ver rest c
        .done (y, c, .told depth (.listener l) e :: log ++ log')
      else .ub

/-- The rest of `FakeitContext::handle(event)` (include/fakeit/FakeitContext.hpp 26-30, 35-36, 41-42) when the listeners have been told: the adapter current then. With
`FAKEIT_ASSERT_ON_UNEXPECTED_METHOD_INVOCATION` (27-29, not modelled) the program stops before the adapter. -/
def tellAdapter (tell : Nat → Ctx → R (Option X × Ctx × List (Note Ev))) (depth : Nat) (e : Ev) (c : Ctx) : R (Option X × Ctx × List (Note Ev)) := do
  let (x, c', log) ← tell c.adapter c
  .done (x, c', .told depth (.adapter c.adapter) e :: log)

/-- `FakeitContext::handle(event)` (include/fakeit/FakeitContext.hpp 24-43), with events inside of events at most `fuel` deep. `react` is what the handlers do. -/
def handle (react : Nat → Ev → Code Ev X) : (fuel depth : Nat) → Ev → Ctx → R (Option X × Ctx × List (Note Ev))
  | 0, _, _, _ => .oof
  | fuel + 1, depth, e, c => do
    let (x, c, log) ← loop (fun h c => run (handle react fuel (depth + 1)) (react h e) c) depth e c.ver c.listeners c
    match x with
    | some x => .done (some x, c, log)
    | none => do
      let (y, c, log') ← tellAdapter (fun h c => run (handle react fuel (depth + 1)) (react h e) c) depth e c
      .done (y, c, log ++ log')

/-- How an unexpected call ends: with what a handler threw, or with the library's own exception, whose text is by the given formatter (include/fakeit/RecordedMethodBody.hpp 145-149). -/
inductive Ending (X : Type) where
  | thrown (x : X)
  | unexpected (formatter : Nat)
  deriving Repr, DecidableEq

/-- An unexpected call (include/fakeit/RecordedMethodBody.hpp 145-149; include/fakeit/MockImpl.hpp 274-281): the event is handled, formatted, and thrown. -/
def unexpectedCall (react : Nat → Ev → Code Ev X) (fuel : Nat) (e : Ev) (c : Ctx) : R (Ending X × Ctx × List (Note Ev)) := do
  let (x, c, log) ← handle react fuel 0 e c
  match x with
  | some x => .done (.thrown x, c, log)
  | none => .done (.unexpected c.formatter, c, log)

end FakeIt.Handlers
