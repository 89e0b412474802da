import Verif.Model.Result
/-!
# Stubbed data members (include/mockutils/DynamicProxy.hpp 151-160, 191-205; include/fakeit/MockImpl.hpp 55-76)

The model of whole programs has the values of data members. This one has the objects: when they are constructed and destroyed.
-/
namespace FakeIt

/-- The storage of one data member: the object living there, if any, and its value; `none` stands for bytes that are all zero (include/mockutils/FakeObject.hpp 23-29). -/
structure DCell where
  obj : Option Nat := none
  value : Option Int := none

/-- Constructions and destructions of data member objects (include/fakeit/MockImpl.hpp 55-76). -/
inductive DLog where
  | constructed (obj : Nat)
  | destroyed (obj : Nat)
  deriving DecidableEq

/-- A mock (`alive`) with the mocked object's data members; `owner`: the mock created the object (`isOwner`, include/fakeit/MockImpl.hpp); `wrappers`:
`_members`, the cells of the `DataMemeberWrapper`s in order (include/mockutils/DynamicProxy.hpp 211); `next`, `log`: bookkeeping of objects. -/
structure DState where
  owner : Bool
  alive : Bool := true
  cells : Nat → DCell := fun _ => {}
  wrappers : List Nat := []
  next : Nat := 0
  log : List DLog := []

/-- What happens to data members (include/fakeit/MockImpl.hpp 40-76, include/mockutils/DynamicProxy.hpp 91-98, 151-160). -/
inductive DOp where
  /-- `mock.Stub(&C::member, v)` -/
  | stub (c : Nat) (v : Int)
  /-- someone assigns to the member -/
  | write (c : Nat) (v : Int)
  /-- `mock.ClearInvocationHistory()` -/
  | clear
  /-- `mock.Reset()` -/
  | reset
  /-- the mock is destroyed -/
  | destroyMock
  /-- the real object behind a spying mock is destroyed; it has `n` data members -/
  | destroyObject (n : Nat)

/-- The cells with one changed (plumbing) (include/mockutils/DynamicProxy.hpp 191-205). -/
def DState.setCell (s : DState) (c : Nat) (x : DCell) : DState := { s with cells := fun d => if d = c then x else s.cells d }

/-- `new(dataMember) DataType{initargs ...}` (include/mockutils/DynamicProxy.hpp 196-199): an object that was there is not destroyed. -/
def DState.construct (s : DState) (c : Nat) (v : Int) : DState :=
  { s.setCell c { obj := some s.next, value := some v } with next := s.next + 1, log := s.log ++ [.constructed s.next] }

/-- `dataMember->~DataType()` (include/mockutils/DynamicProxy.hpp 201-204). For types with a destructor that does something (`trivial c = false`) there must
be an object, and its bytes must not have been overwritten. -/
def DState.destroyCell (trivial : Nat → Bool) (s : DState) (c : Nat) : R DState :=
  match (s.cells c).obj, (s.cells c).value with
  | some o, some v => .done { s.setCell c { obj := none, value := some v } with log := s.log ++ [.destroyed o] }
  | some o, none => if trivial c then .done { s.setCell c { obj := none, value := none } with log := s.log ++ [.destroyed o] } else .ub
  | none, _ => if trivial c then .done s else .ub

/-- Several destructors (include/mockutils/DynamicProxy.hpp 196-204). -/
def DState.destroyCells (trivial : Nat → Bool) : DState → List Nat → R DState
  | s, [] => .done s
  | s, c :: cs => do
    let s ← s.destroyCell trivial c
    destroyCells trivial s cs

/-- `initializeDataMembersArea` for owned objects (include/fakeit/MockImpl.hpp 55-61; include/mockutils/FakeObject.hpp 23-29): zero bytes, no destructors. -/
def DState.initData (s : DState) : DState :=
  if s.owner then { s with cells := fun c => { s.cells c with value := none } } else s

/-- One operation. Using a destroyed mock is undefined (include/fakeit/MockImpl.hpp 40-76). -/
def DState.step (trivial : Nat → Bool) (s : DState) : DOp → R DState
  -- include/mockutils/DynamicProxy.hpp 151-160
  | .stub c v => if s.alive then .done { s.construct c v with wrappers := s.wrappers ++ [c] } else .ub
  -- assignment to an object of a non-trivial type needs the object
  | .write c v =>
    if trivial c ∨ ((s.cells c).obj ≠ none ∧ (s.cells c).value ≠ none) then .done (s.setCell c { s.cells c with value := some v }) else .ub
  -- include/fakeit/MockImpl.hpp 68-76
  | .clear => if s.alive then .done s.initData else .ub
  -- include/mockutils/DynamicProxy.hpp 91-98 (`_members = {}`), include/fakeit/MockImpl.hpp 63-66
  | .reset =>
    if s.alive then do
      let s ← s.destroyCells trivial s.wrappers
      .done { s with wrappers := [] }.initData
    else .ub
  -- include/fakeit/MockImpl.hpp 40-42, 118-120: the proxy with `_members` first, then the object, if owned
  | .destroyMock =>
    if s.alive then do
      let s ← s.destroyCells trivial s.wrappers
      .done { s with wrappers := [], alive := false }
    else .ub
  -- the destructor of the real class destroys every member
  | .destroyObject n => s.destroyCells trivial (List.range n)

/-- A history (include/fakeit/MockImpl.hpp 40-76). -/
def DState.run (trivial : Nat → Bool) : List DOp → DState → R DState
  | [], s => .done s
  | o :: os, s => do
    let s ← s.step trivial o
    DState.run trivial os s

/-- A mock with an object of its own: zero bytes (include/fakeit/MockImpl.hpp 34-38; include/mockutils/FakeObject.hpp 53-56). -/
def DState.fake : DState := { owner := true }

/-- A mock spying on an object whose constructor has constructed its members with `vs` (include/fakeit/MockImpl.hpp 34-38). -/
def DState.spying (vs : List Int) : DState :=
  { owner := false, cells := fun c => match vs[c]? with | some v => { obj := some c, value := some v } | none => {},
    next := vs.length, log := (List.range vs.length).map .constructed }

end FakeIt
