import Verif.Model.Result
/-!
# Copies of mocks (Mock.hpp, MockImpl.hpp, DynamicProxy.hpp, gcc/VirtualTable.hpp)

`Mock`, `MockImpl` and `DynamicProxy` declare destructors and no copy constructor, so the compiler makes one that copies member by member (include/fakeit/Mock.hpp 35-51,
include/fakeit/MockImpl.hpp 27-42, 118-120, include/mockutils/DynamicProxy.hpp 63-85, 209-216).  There is no move constructor, so `std::move(mock)` copies, too.  Mocks cannot be
assigned, because they have members that are references.

This is the model of one mock object, made by `Mock<C> mock;` or `Mock<C> mock(object);`, and all its copies, the copies of copies included.  Destructors of `C`, data members and
arguments are left out; all stubbings are `AlwaysReturn` for all arguments.
-/
namespace FakeIt.Copies

/-- Entries of the virtual tables: an implementation, `MockImpl::unmocked`, `methodProxyX<id>` (include/fakeit/MockImpl.hpp 273-292, include/mockutils/MethodProxyCreator.hpp 44-56). -/
inductive Code where
  | native
  | unmocked
  | proxy (id : Nat)
  deriving DecidableEq, Repr

/-- A `RecordedMethodBody`: the values of the stubbings, newest first, and the number of recorded calls (include/fakeit/RecordedMethodBody.hpp 59-63, 110-115; matchers and scripts are left
out). Bodies are shared by copies (`std::shared_ptr`). -/
structure Body where
  answers : List Nat
  calls : Nat
  deriving DecidableEq, Repr

/-- One of the copies: for each slot the id and the body bound to it (`_offsets`, `_methodMocks`, include/mockutils/DynamicProxy.hpp 213-215). -/
structure Mck where
  slots : List (Option (Nat × Nat))
  live : Bool
  deriving DecidableEq, Repr

/-- Memory. The array of `_cloneVt`, which all copies point to, until it is freed; its cookies are the handlers and the address of the first mock (include/mockutils/DynamicProxy.hpp 74-76,
include/fakeit/MockImpl.hpp 37). The entries of the table the object had before: the compiler's (`spied`) or one of the fake object, whose cookies are null
(include/mockutils/gcc/VirtualTable.hpp 141-149). Whether the object points to the former, and whether it is alive. -/
structure State where
  clone : Option (List Code)
  original : List Code
  spied : Bool
  attached : Bool
  object : Bool
  bodies : List Body
  mocks : List Mck
  deriving DecidableEq, Repr

/-- What a test sees: nothing, the value of a stubbing, `UnexpectedMethodCallException`, the object's own implementation, the number of recorded calls (include/mockutils/MethodProxyCreator.hpp 44-56, include/fakeit/MockImpl.hpp 273-282). -/
inductive Ans where
  | nothing
  | value (v : Nat)
  | unexpected
  | native
  | count (n : Nat)
  deriving DecidableEq, Repr

/-- What tests do: copy a mock, `When(Method(mock, f)).AlwaysReturn(v)`, count the recorded calls by verifying `Method(mock, f)`, call a method, `Reset`, the end of a mock's life. Mocks are
numbered in the order they are made; `id` is the `__COUNTER__` value of the method expression (copying: the implicit copy constructor of include/mockutils/DynamicProxy.hpp 63-85). -/
inductive Op where
  | copy (m : Nat)
  | stub (m slot id v : Nat)
  | count (m slot id : Nat)
  | call (slot : Nat)
  | reset (m : Nat)
  | destroy (m : Nat)
  deriving DecidableEq, Repr

/-- The first mock, of a class with `size` virtual functions (include/fakeit/MockImpl.hpp 30-38, 122-125, 284-292, include/mockutils/DynamicProxy.hpp 68-77). -/
def start (size : Nat) (spied : Bool) : State :=
  let es := List.replicate size (if spied then Code.native else .unmocked)
  ⟨some es, es, spied, true, true, [], [⟨List.replicate size none, true⟩]⟩

/-- A mock that is alive; using another one is undefined (C++) (include/mockutils/DynamicProxy.hpp 63-85). -/
def State.mock (s : State) (m : Nat) : R Mck := do
  let k ← R.ofOption s.mocks[m]?
  if k.live then .done k else .ub

/-- The copy constructor: vectors are copied, their shared pointers shared; the table, the object and the handlers are those of the original (include/mockutils/DynamicProxy.hpp 30-31,
208-216, include/fakeit/MockImpl.hpp 118-120). -/
def State.copy (s : State) (m : Nat) : R State := do
  let k ← s.mock m
  .done { s with mocks := s.mocks ++ [k] }

/-- `getFake().setMethod` (include/mockutils/FakeObject.hpp 66-69, include/mockutils/gcc/VirtualTable.hpp 39-41): writes to the table the object points to; a compiler's table cannot be written. -/
def State.setMethod (s : State) (slot : Nat) (c : Code) : R State :=
  if s.object then
    if s.attached then do
      let es ← R.ofOption s.clone
      if slot < es.length then .done { s with clone := some (es.set slot c) } else .ub
    else if s.spied then .ub
    else if slot < s.original.length then .done { s with original := s.original.set slot c } else .ub
  else .ub

/-- `stubMethodIfNotStubbed`, `bind` (include/fakeit/MockImpl.hpp 314-323, include/mockutils/DynamicProxy.hpp 104-109, 222-226): the body for the method, which is made if the mock has none. -/
def State.mention (s : State) (m slot id : Nat) : R (State × Nat) := do
  let k ← s.mock m
  let bound ← R.ofOption k.slots[slot]?
  match bound with
  | some (_, b) => .done (s, b)
  | none =>
    let s ← s.setMethod slot (.proxy id)
    let b := s.bodies.length
    .done ({ s with bodies := s.bodies ++ [⟨[], 0⟩], mocks := s.mocks.set m { k with slots := k.slots.set slot (some (id, b)) } }, b)

/-- `_offsets[offset] == id` (include/mockutils/DynamicProxy.hpp 37). -/
def isId (id : Nat) : Option (Nat × Nat) → Bool
  | some (i, _) => i == id
  | none => false

/-- The body in the first slot of a mock that has the id; `none`: no slot has it, so the index is the size of the vector (include/mockutils/DynamicProxy.hpp 33-42, 55-59). -/
def Mck.find (k : Mck) (id : Nat) : Option Nat := (k.slots.find? (isId id)).join.map Prod.snd

/-- The table the object points to (include/mockutils/gcc/VirtualTable.hpp 71-74); reading a freed one is undefined. -/
def State.table (s : State) : R (List Code) := if s.attached then R.ofOption s.clone else .done s.original

/-- A virtual call. `unmocked` needs the mock in the second cookie of the table the object points to, a proxy the handlers in the first one, which refer to the vectors of the first mock; an id
that is not there leads to an element behind the end of the vector (include/fakeit/MockImpl.hpp 262-282, include/mockutils/MethodProxyCreator.hpp 16-21, include/mockutils/DynamicProxy.hpp
33-59, include/fakeit/RecordedMethodBody.hpp 126-150). -/
def State.call (s : State) (slot : Nat) : R (State × Ans) :=
  if s.object then do
    let es ← s.table
    let c ← R.ofOption es[slot]?
    match c with
    | .native => .done (s, .native)
    | .unmocked =>
      if s.attached then do
        let _ ← s.mock 0
        .done (s, .unexpected)
      else .ub
    | .proxy id =>
      if s.attached then do
        let k ← s.mock 0
        let b ← R.ofOption (k.find id)
        let body ← R.ofOption s.bodies[b]?
        match body.answers with
        | [] => .done (s, .unexpected)
        | v :: _ => .done ({ s with bodies := s.bodies.set b { body with calls := body.calls + 1 } }, .value v)
      else .ub
  else .ub

/-- `DynamicProxy::Reset` (include/mockutils/DynamicProxy.hpp 91-98). -/
def State.reset (s : State) (m : Nat) : R State := do
  let k ← s.mock m
  let _ ← R.ofOption s.clone
  .done { s with clone := some s.original, mocks := s.mocks.set m { k with slots := k.slots.map fun _ => none } }

/-- `~MockImpl`: `detach`, `_cloneVt.dispose()`, which frees the array, and the end of the fake object with the last copy (include/fakeit/MockImpl.hpp 40-42, include/mockutils/DynamicProxy.hpp
79-85, include/mockutils/gcc/VirtualTable.hpp 88-93). -/
def State.destroy (s : State) (m : Nat) : R State := do
  let k ← s.mock m
  if s.object then do
    let _ ← R.ofOption s.clone
    let mocks := s.mocks.set m { k with live := false }
    .done { s with clone := none, attached := false, mocks := mocks, object := s.spied || mocks.any (·.live) }
  else .ub

/-- One step of a test (Mock.hpp 61-67, `copy` and `destroy` as above). -/
def State.step (s : State) : Op → R (State × Ans)
  | .copy m => do
    let s ← s.copy m
    .done (s, .nothing)
  | .stub m slot id v => do
    let (s, b) ← s.mention m slot id
    let body ← R.ofOption s.bodies[b]?
    .done ({ s with bodies := s.bodies.set b { body with answers := v :: body.answers } }, .nothing)
  | .count m slot id => do
    let (s, b) ← s.mention m slot id
    let body ← R.ofOption s.bodies[b]?
    .done (s, .count body.calls)
  | .call slot => s.call slot
  | .reset m => do
    let s ← s.reset m
    .done (s, .nothing)
  | .destroy m => do
    let s ← s.destroy m
    .done (s, .nothing)

/-- A test (no counterpart; a list of the steps above, e.g. include/mockutils/DynamicProxy.hpp 63-98). -/
def State.run : State → List Op → R (State × List Ans)
  | s, [] => .done (s, [])
  | s, op :: ops => do
    let (s, a) ← s.step op
    let (s, as) ← State.run s ops
    .done (s, a :: as)

end FakeIt.Copies
