import Verif.Model.Format
import Verif.Model.Result
/-!
# Testing framework adapters (config/*/*Fakeit.hpp) and what happens around them

The frameworks themselves are not in /repo: whether a framework's failure function returns or throws is a parameter.
-/
namespace FakeIt

/-- The configurations (directories of config/). Boost has two versions of `boost_fail` (config/boost/BoostTestFakeit.hpp 45-64). -/
inductive Framework where
  | boost
  | boostOld
  | catch2
  | cute
  | doctest
  | gtest
  | mettle
  | mstest
  | nunit
  | qtest
  | standalone
  | tpunit
  deriving DecidableEq, Repr

/-- What `setFileInfo(__FILE__, __LINE__, __func__)` stored (include/fakeit/FakeitEvents.hpp 38-42); the calling function is not modelled. -/
structure Position where
  file : Text
  line : Int
  deriving DecidableEq

/-- How a failure reaches the framework: an exception thrown by the adapter itself, or a call of a failure function of the framework (e.g. config/standalone/StandaloneFakeit.hpp 74-92, config/tpunit/TpUnitFakeit.hpp 24-52, config/qtest/QTestFakeit.hpp 16-32). -/
inductive Delivery where
  | throws (message : Text) (position : Option Position)
  | calls (message : Text) (position : Option Position)
  deriving DecidableEq

/-- The text handed over (plumbing) (same places as `Delivery`, e.g. config/qtest/QTestFakeit.hpp 16-32). -/
def Delivery.message : Delivery → Text
  | .throws m _ => m
  | .calls m _ => m

/-- The position handed over beside the text (plumbing) (same places as `Delivery`, e.g. config/qtest/QTestFakeit.hpp 16-32). -/
def Delivery.position : Delivery → Option Position
  | .throws _ p => p
  | .calls _ p => p

/-- `text.c_str()` read by someone else: up to the first NUL (standard library, not in /repo) (used e.g. in config/qtest/QTestFakeit.hpp 16-32). -/
def cText (t : Text) : Text := t.takeWhile (· ≠ Char.ofNat 0)

/-- `formatLineNumber`, `formatLineNumner` (config/catch/CatchFakeit.hpp 26-32, config/mettle/MettleFakeit.hpp 10-16,
config/standalone/StandaloneFakeit.hpp 60-66, config/tpunit/TpUnitFakeit.hpp 13-19); `gnu`: `__GNUG__` is defined. -/
def lineNumber (gnu : Bool) (p : Position) : Text :=
  if gnu then p.file ++ [':'] ++ decimalInt p.line else p.file ++ ['('] ++ decimalInt p.line ++ [')']

/-- The `handle` overloads of the adapters. `formatted` is `_formatter.format(evt)`; `position` is `none` for unexpected calls, which have none (config/standalone/StandaloneFakeit.hpp 74-92, config/tpunit/TpUnitFakeit.hpp 24-52, config/qtest/QTestFakeit.hpp 16-32 and the files cited at `Framework`). -/
def Framework.handle (gnu : Bool) (formatted : Text) : Framework → (position : Option Position) → Delivery
  -- config/boost/BoostTestFakeit.hpp 24-37, 43-66
  | .boost, none => .throws formatted none
  | .boost, some p => .calls formatted (some p)
  | .boostOld, none => .throws formatted none
  | .boostOld, some p => .calls formatted (some p)
  -- config/catch/CatchFakeit.hpp 68-83; the verification type and the expected pattern, also handed over, are not modelled
  | .catch2, none => .calls formatted (some ⟨str "Unknown file", 0⟩)
  | .catch2, some p => .calls (lineNumber gnu p ++ [':', ' '] ++ formatted) (some p)
  -- config/cute/CuteFakeit.hpp 15-28
  | .cute, none => .throws formatted none
  | .cute, some p => .throws formatted (some p)
  -- config/doctest/DoctestFakeit.hpp 20-48; fatal for unexpected calls only
  | .doctest, none => .calls formatted (some ⟨str "Unknown file", 0⟩)
  | .doctest, some p => .calls formatted (some p)
  -- config/gtest/GTestFakeit.hpp 15-28; the position of an unexpected call is that of the adapter's own source (not modelled)
  | .gtest, none => .calls (cText formatted) none
  | .gtest, some p => .calls (cText formatted) (some p)
  -- config/mettle/MettleFakeit.hpp 24-38
  | .mettle, none => .throws formatted none
  | .mettle, some p => .throws (lineNumber gnu p ++ [':', ' '] ++ formatted) none
  -- config/mstest/MsTestFakeit.hpp 20-45; the conversion to wide characters is not modelled
  | .mstest, _ => .calls (cText formatted) none
  -- config/nunit/NUnitFakeit.hpp 14-31
  | .nunit, _ => .calls (cText formatted) none
  -- config/qtest/QTestFakeit.hpp 16-32
  | .qtest, _ => .calls (cText formatted) none
  -- config/standalone/StandaloneFakeit.hpp 74-92; `what()` is `_format.c_str()` (43-45) for verifications only: an
  -- `UnexpectedMethodCallException` (include/fakeit/FakeitExceptions.hpp 43-55) gives the string
  | .standalone, none => .throws formatted none
  | .standalone, some p => .throws (cText (lineNumber gnu p ++ [':', ' '] ++ formatted)) (some p)
  -- config/tpunit/TpUnitFakeit.hpp 24-52; `what()` is `_msg.c_str()`
  | .tpunit, none => .throws (cText formatted) none
  | .tpunit, some p => .throws (cText (lineNumber gnu p ++ [':', ' '] ++ formatted)) none

/-- A formatter: the text of an event (include/fakeit/FakeitContext.hpp 45-58). -/
abbrev EventText (V : Type) := Event V → Text

/-- The formatter an adapter was given: `*this`, which forwards to `getEventFormatter` (include/fakeit/FakeitContext.hpp 45-58,
include/fakeit/DefaultFakeit.hpp 64-68), except in config/catch/CatchFakeit.hpp 95, where it is the `_formatter` of line 115. -/
def Framework.formatter {V : Type} (dflt : EventText V) (custom : Option (EventText V)) : Framework → EventText V
  | .catch2 => dflt
  | _ => match custom with
    | some f => f
    | none => dflt

/-- `FakeitContext::format` (include/fakeit/FakeitContext.hpp 45-58) with `getEventFormatter` (include/fakeit/DefaultFakeit.hpp 64-68). -/
def contextFormat {V : Type} (dflt : EventText V) (custom : Option (EventText V)) (e : Event V) : Text :=
  match custom with
  | some f => f e
  | none => dflt e

/-- How the mocked call or the verification statement ends (include/fakeit/RecordedMethodBody.hpp 145-149, include/fakeit/SequenceVerificationExpectation.hpp 127-141). -/
inductive Ending where
  /-- normally -/
  | returns
  /-- by what the adapter or the framework throws -/
  | thrown
  /-- by an `UnexpectedMethodCallException` with this text -/
  | unexpected (text : Text)
  deriving DecidableEq

variable {V : Type}

/-- The end of `handleMethodInvocation` and `unmocked` (include/fakeit/RecordedMethodBody.hpp 145-149, include/fakeit/MockImpl.hpp 273-282) with no listener
registered and no custom adapter: what is handed over, and how the call ends. `throws` tells whether the framework's failure function throws. -/
def reportUnexpected (fw : Framework) (gnu : Bool) (throws : Delivery → Bool) (dflt : EventText V) (custom : Option (EventText V)) (ty : UnexpectedType)
    (inv : Invocation V) : List Delivery × Ending :=
  let e := Event.unexpectedCall ty inv
  let d := fw.handle gnu (fw.formatter dflt custom e) none
  match d with
  | .throws _ _ => ([d], .thrown)
  | .calls _ _ => ([d], if throws d then .thrown else .unexpected (contextFormat dflt custom e))

/-- `handleExactVerificationEvent`, `handleAtLeastVerificationEvent` and the end of `VerifyNoOtherInvocationsExpectation::VerifyExpectation`
(include/fakeit/SequenceVerificationExpectation.hpp 127-141, include/fakeit/VerifyNoOtherInvocationsVerificationProgress.hpp 77-79), with no listener
registered and no custom adapter. Without `setFileInfo`, which only the macros call (include/fakeit/api_macros.hpp 52-59), the members `_file`, `_testMethod`
have no value and reading them is undefined behaviour. -/
def reportVerification (fw : Framework) (gnu : Bool) (throws : Delivery → Bool) (dflt : EventText V) (custom : Option (EventText V))
    (position : Option Position) (e : Event V) : R (List Delivery × Ending) := do
  let p ← R.ofOption position
  let d := fw.handle gnu (fw.formatter dflt custom e) (some p)
  match d with
  | .throws _ _ => .done ([d], .thrown)
  | .calls _ _ => .done ([d], if throws d then .thrown else .returns)

end FakeIt
