import Verif.Model.Result
/-!
# Default answers (include/mockutils/DefaultValue.hpp, include/fakeit/Action.hpp 79-89)
-/
namespace FakeIt

/-- How a method returns (include/mockutils/DefaultValue.hpp 31-71). -/
inductive ReturnKind where
  | void
  | value
  | reference
  | constReference
  deriving DecidableEq

/-- A return type `C`: how it returns, the type left after removing reference and const (`naked_type`, include/mockutils/type_utils.hpp 24-27), and
`is_constructible_type<C>` (include/mockutils/DefaultValue.hpp 23-28). -/
structure ReturnType where
  kind : ReturnKind
  naked : Nat
  constructible : Bool
  deriving DecidableEq

/-- The function-local statics `val`, one per instantiation `DefaultValue<C>`, initialised at the first use
(include/mockutils/DefaultValue.hpp 55-61; the specialisations for built-in types 64-142 do the same). -/
abbrev DefaultStatics := ReturnType → Option Int

/-- What a call gives its caller: a copy, or a reference to the static of an instantiation (include/mockutils/DefaultValue.hpp 24-71). -/
inductive DefaultAnswer where
  | nothing
  | copy (v : Int)
  | refersTo (static : ReturnType)
  | thrown
  deriving DecidableEq

/-- `DefaultValue<C>::value()` (include/mockutils/DefaultValue.hpp 33-61, 64-69) as returned by `ReturnDefaultValue::invoke`
(include/fakeit/Action.hpp 82-84), by `Return()` and by `AlwaysReturn()` (include/fakeit/StubbingProgress.hpp 99-105). `dflt` gives the value of `val{}`.
A type that cannot be constructed: a reference made from a null pointer (undefined), an exception for a value. -/
def defaultAnswer (dflt : Nat → Int) (s : DefaultStatics) (t : ReturnType) : R (DefaultAnswer × DefaultStatics) :=
  match t.kind with
  | .void => .done (.nothing, s)
  | .value =>
    if t.constructible then
      let v := (s t).getD (dflt t.naked)
      .done (.copy v, fun x => if x = t then some v else s x)
    else .done (.thrown, s)
  | _ =>
    if t.constructible then .done (.refersTo t, fun x => if x = t then some ((s t).getD (dflt t.naked)) else s x) else .ub

/-- What callers do: call a method whose answer is the default answer, or write through a reference they got (include/fakeit/StubbingProgress.hpp 99-105, include/fakeit/Action.hpp 79-89). -/
inductive CallerOp where
  | call (t : ReturnType)
  | write (t : ReturnType) (v : Int)

/-- One step. Writing through a reference that was never handed out, or to a const object, is not a thing callers can do (include/fakeit/Action.hpp 79-89). -/
def callerStep (dflt : Nat → Int) (s : DefaultStatics) : CallerOp → R DefaultStatics
  | .call t => do
    let (_, s) ← defaultAnswer dflt s t
    .done s
  | .write t v =>
    match t.kind, s t with
    | .reference, some _ => .done fun x => if x = t then some v else s x
    | _, _ => .ub

/-- A history (include/fakeit/Action.hpp 79-89). -/
def callerRun (dflt : Nat → Int) : DefaultStatics → List CallerOp → R DefaultStatics
  | s, [] => .done s
  | s, o :: os => do
    let s ← callerStep dflt s o
    callerRun dflt s os

end FakeIt
