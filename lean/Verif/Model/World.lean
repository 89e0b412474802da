import Verif.Model.Matching
/-!
# Primitive reads and updates of the world
-/
namespace FakeIt

variable {V E : Type}

/-- Modulus of the 32-bit counters (`std::atomic_uint`, include/fakeit/Invocation.hpp 24, include/fakeit/DomainObjects.hpp 28). -/
def wrap32 : Nat := 4294967296

namespace Mock

/-- `_methodMocks[off]` when the index is valid and the pointer not null
(include/mockutils/DynamicProxy.hpp 138-143, 252-255). -/
def body? (k : Mock V E) (off : Nat) : Option (MBody V E) := (k.mocks[off]?).join

/-- Update of the method body object behind `_methodMocks[off]` (no effect if null). Plumbing for
include/fakeit/RecordedMethodBody.hpp's member updates (include/fakeit/RecordedMethodBody.hpp 59-63). -/
def updBody (k : Mock V E) (off : Nat) (f : MBody V E → MBody V E) : Mock V E :=
  { k with mocks := k.mocks.modify off (Option.map f) }

/-- `InvocationHandlers::getOffset` (include/mockutils/DynamicProxy.hpp 33-42): first offset whose entry is `id`, else the size. -/
def getOffset (offsets : List Nat) (id : Nat) : Nat := offsets.findIdx (· == id)

end Mock

namespace World

/-- The mock `m` if it has not been destroyed; using a destroyed `Mock` is undefined behaviour for all API calls (include/fakeit/MockImpl.hpp 118-120). -/
def mock? (w : World V E) (m : MockId) : Option (Mock V E) :=
  match w.mocks[m]? with
  | some k => if k.alive then some k else none
  | none => none

/-- Plumbing: update of mock `m`'s object (models member updates of include/fakeit/MockImpl.hpp 118-120). -/
def updMock (w : World V E) (m : MockId) (f : Mock V E → Mock V E) : World V E :=
  { w with mocks := w.mocks.modify m f }

/-- The `RecordedMethodBody` of method `off` of mock `m`, if any (include/mockutils/DynamicProxy.hpp 138-143). -/
def body? (w : World V E) (m : MockId) (off : Nat) : Option (MBody V E) :=
  (w.mocks[m]?).bind (·.body? off)

/-- Plumbing: update of one `RecordedMethodBody` (include/fakeit/RecordedMethodBody.hpp 59-63). -/
def updBody (w : World V E) (m : MockId) (off : Nat) (f : MBody V E → MBody V E) : World V E :=
  w.updMock m (·.updBody off f)

/-- The handler object at address `h` if it still exists (include/fakeit/RecordedMethodBody.hpp 62). -/
def handler? (w : World V E) (m : MockId) (off : Nat) (h : Addr) : Option (Handler V E) :=
  (w.body? m off).bind fun b => b.handlers.find? (·.addr == h)

/-- Plumbing: replace the action sequence of the handler at address `h` (include/fakeit/ActionSequence.hpp 45-52, 75-78). -/
def updSeq (w : World V E) (m : MockId) (off : Nat) (h : Addr) (f : ActionSeq V E → ActionSeq V E) : World V E :=
  w.updBody m off fun b =>
    { b with handlers := b.handlers.map fun x => if x.addr == h then { x with seq := f x.seq } else x }

/-- `_actualInvocations.push_back` (include/fakeit/RecordedMethodBody.hpp 138). -/
def pushInv (w : World V E) (m : MockId) (off : Nat) (inv : Invocation V) : World V E :=
  w.updBody m off fun b => { b with invs := b.invs ++ [inv] }

/-- Change of the recorded invocation object with address `uid` in the history of (`m`, `off`); plumbing (include/fakeit/RecordedMethodBody.hpp 63, 138). -/
def updInv (w : World V E) (m : MockId) (off : Nat) (uid : Nat) (f : Invocation V → Invocation V) : World V E :=
  w.updBody m off fun b => { b with invs := b.invs.map fun i => if i.uid == uid then f i else i }

/-- `Invocation::nextInvocationOrdinal()`: `++` on a 32-bit atomic (include/fakeit/Invocation.hpp 23-26). -/
def bumpInv (w : World V E) : World V E := { w with invTotal := w.invTotal + 1 }

/-- The value `nextInvocationOrdinal` returned when `bumpInv` produced this world (include/fakeit/Invocation.hpp 25). -/
def lastOrdinal (w : World V E) : Nat := w.invTotal % wrap32

/-- Write to a caller's object (through a reference parameter or by the test itself) (C++; e.g. include/fakeit/StubbingProgress.hpp 417-431). -/
def write (w : World V E) (a : Addr) (v : V) : World V E :=
  { w with heap := fun b => if b = a then v else w.heap b }

/-- An event is handed to `FakeitContext::handle` (include/fakeit/FakeitContext.hpp 24-43); what listeners and the test framework
adapter do with it is modelled in `Verif/Model/Events.lean`. -/
def fire (w : World V E) (e : Event V) : World V E := { w with log := w.log ++ [e] }

/-- `getFake().setMethod(off, c)` (include/mockutils/FakeObject.hpp 66-69): the object's current virtual table is the clone. -/
def setVt (w : World V E) (m : MockId) (off : Nat) (c : Code) : World V E :=
  w.updMock m fun k => { k with vt := k.vt.set off c }

end World
end FakeIt
