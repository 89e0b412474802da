/-!
# Owners of mocked objects (MockImpl.hpp, DynamicProxy.hpp, RecordedMethodBody.hpp)

A test may hand the object of a mock to code that wants an owner: `std::shared_ptr<I> p(&mock.get())` (tests/default_behaviore_tests.cpp 231-238).  Recorded arguments are copies, so records own
the object, too, and so do stubbings like `AlwaysReturn(p)`.  When the last owner goes, the virtual destructor of the object is called.  It may be mocked, and the last owner may be a record of the
same mock that is just being cleared, reset or destroyed (include/fakeit/MockImpl.hpp 109-117 is about the last case).

This is a model of mocks of classes with virtual destructors and of groups of owners (the `shared_ptr`s that share one count).  Every mock has one object, made by the mock or passed to it.  All
stubbings of methods are for all arguments and for ever; parameters are `shared_ptr`s passed by value.  Code that the user runs in `Do`, exceptions other than unexpected calls, and destructors of
passed objects that use mocks are left out.
-/
namespace FakeIt.Owners

/-- What becomes of a step: `terminate` is `std::terminate`, since an exception leaves the destructor of a `shared_ptr`, which may not throw (the destructors run by
include/fakeit/RecordedMethodBody.hpp 122-124, include/mockutils/DynamicProxy.hpp 83-85, 92). -/
inductive Res (α : Type) where
  | done (a : α)
  | ub
  | terminate
  deriving DecidableEq, Repr

/-- Sequencing of two pieces of code (plumbing; e.g. include/mockutils/DynamicProxy.hpp 91-98). -/
def Res.bind {α β : Type} : Res α → (α → Res β) → Res β
  | .done a, f => f a
  | .ub, _ => .ub
  | .terminate, _ => .terminate

/-- Sequencing (plumbing; e.g. include/mockutils/DynamicProxy.hpp 91-98). -/
instance : Monad Res where
  pure := Res.done
  bind := Res.bind

/-- Plumbing: an access with no object behind it is undefined (e.g. include/mockutils/DynamicProxy.hpp 57). -/
def Res.ofOption {α : Type} : Option α → Res α
  | some a => .done a
  | none => .ub

/-- `RecordedMethodBody` of a method: is there a stubbing, the owners (by their groups) in stubbings, and those in the arguments of each record (include/fakeit/RecordedMethodBody.hpp 62-63). -/
structure Body where
  stubbed : Bool
  kept : List Nat
  records : List (List Nat)
  deriving DecidableEq, Repr

/-- `RecordedMethodBody` of the destructor: the actions left in the newest stubbing (`none`: no end), and the number of records (include/fakeit/RecordedMethodBody.hpp 62-63, include/fakeit/MockImpl.hpp 340-342). -/
structure Dtor where
  left : Option Nat
  calls : Nat
  deriving DecidableEq, Repr

/-- A mock is in use, is being reset, or its destructor has begun: then the object has its first table again (include/fakeit/MockImpl.hpp 40-42, 63-66). -/
inductive Phase where
  | live
  | resetting
  | ended
  deriving DecidableEq, Repr

/-- A mock with its object. `fake`: the mock made the object; `methods`: the bodies of the methods without the destructor, whose place in the table is before method `dtorAt`; `object`: the object
exists (include/fakeit/MockImpl.hpp 118-120, include/mockutils/DynamicProxy.hpp 209-216). -/
structure Mck where
  fake : Bool
  methods : List (Option Body)
  dtorAt : Nat
  dtor : Option Dtor
  phase : Phase
  object : Bool
  deriving DecidableEq, Repr

/-- For each group of owners the mock whose object it owns and the count; the variables of the test; the mocks (`std::shared_ptr` as used in tests/default_behaviore_tests.cpp 231-238; include/fakeit/MockImpl.hpp 118-120). -/
structure State where
  objs : List Nat
  counts : List Nat
  vars : List (Option Nat)
  mocks : List Mck
  deriving DecidableEq, Repr

/-- `delete p` for the object of a mock (include/mockutils/gcc/VirtualTable.hpp 95-104, 107-115: the deleting destructor calls the entry for the destructor).  If it is mocked, the call is recorded and
answered (include/fakeit/RecordedMethodBody.hpp 126-150); without an action an exception leaves the destructor of the `shared_ptr`.  If it is not, nothing happens to an object made by a mock
(`unmockedDtor`, include/fakeit/MockImpl.hpp 271, 284-292), and another one is destroyed.  While `_methodMocks` is being emptied by `Reset` it must not be read (include/mockutils/DynamicProxy.hpp
57, 92); after the destructor of the mock has begun it is not read (include/fakeit/MockImpl.hpp 40-42). -/
def Mck.destructor (k : Mck) : Res Mck :=
  if k.object then
    match k.phase, k.dtor with
    | .live, some d =>
      match d.left with
      | none => .done { k with dtor := some { d with calls := d.calls + 1 } }
      | some 0 => .terminate
      | some (n + 1) => .done { k with dtor := some ⟨some n, d.calls + 1⟩ }
    | .resetting, some _ => .ub
    | _, _ => .done { k with object := k.fake }
  else .ub

/-- The destructor of a `shared_ptr` (run by include/fakeit/RecordedMethodBody.hpp 122-124, include/mockutils/DynamicProxy.hpp 83-85, 92). -/
def State.release (s : State) (g : Nat) : Res State := do
  let c ← Res.ofOption s.counts[g]?
  if c = 0 then .ub
  else if c = 1 then do
    let m ← Res.ofOption s.objs[g]?
    let k ← Res.ofOption s.mocks[m]?
    let k ← k.destructor
    .done { s with counts := s.counts.set g 0, mocks := s.mocks.set m k }
  else .done { s with counts := s.counts.set g (c - 1) }

/-- The destructors of several (run by include/fakeit/RecordedMethodBody.hpp 122-124, include/mockutils/DynamicProxy.hpp 83-85, 92). The order of the arguments of one call is not fixed by the standard. -/
def State.releaseAll : List Nat → State → Res State
  | [], s => .done s
  | g :: gs, s => do
    let s ← s.release g
    State.releaseAll gs s

/-- Copying a `shared_ptr` (include/fakeit/ActualInvocation.hpp 31-33, include/fakeit/StubbingProgress.hpp 86-90). -/
def State.addRef (s : State) (g : Nat) : Res State := do
  let c ← Res.ofOption s.counts[g]?
  .done { s with counts := s.counts.set g (c + 1) }

/-- One argument, moved or copied (include/mockutils/MethodProxyCreator.hpp 16-21). -/
def State.argument (s : State) (v g : Nat) (moved : Bool) : Res State := if moved then .done { s with vars := s.vars.set v none } else s.addRef g

/-- Arguments are variables, copied or moved; null ones own nothing (include/mockutils/MethodProxyCreator.hpp 16-21, include/fakeit/ActualInvocation.hpp 31-33). -/
def State.pass : List (Nat × Bool) → State → Res (State × List Nat)
  | [], s => .done (s, [])
  | (v, moved) :: as, s => do
    let o ← Res.ofOption s.vars[v]?
    match o with
    | none => State.pass as s
    | some g => do
      let s ← s.argument v g moved
      let (s, gs) ← State.pass as s
      .done (s, g :: gs)

/-- The owners in the records of a body (include/fakeit/RecordedMethodBody.hpp 63). -/
def Body.recorded (b : Body) : List Nat := b.records.flatten

/-- `clear` (include/fakeit/RecordedMethodBody.hpp 122-124). -/
def Body.cleared (b : Body) : Body := { b with records := [] }

/-- The owners in a body in the order in which its destructor destroys them: records first (include/fakeit/RecordedMethodBody.hpp 62-63, 98-99). -/
def Body.shares (b : Body) : List Nat := b.recorded ++ b.kept

/-- The owners in some bodies' records, by slot (`_methodMocks`, include/mockutils/DynamicProxy.hpp 213). -/
def recordsOf (bs : List (Option Body)) : List Nat := bs.flatMap fun b => (b.map Body.recorded).getD []

/-- The owners in some bodies, by slot (`_methodMocks`, include/mockutils/DynamicProxy.hpp 213). -/
def sharesOf (bs : List (Option Body)) : List Nat := bs.flatMap fun b => (b.map Body.shares).getD []

/-- A mock that is in use; using another one is undefined (C++) (include/mockutils/DynamicProxy.hpp 68-77, 87-98). -/
def State.mock (s : State) (m : Nat) : Res Mck := do
  let k ← Res.ofOption s.mocks[m]?
  if k.phase = .live then .done k else .ub

/-- What a test does. `own`: `std::shared_ptr<I> p(&mock.get())`; `copy`, `drop`: of a variable; `stub m f v`: `AlwaysReturn` of a copy of the variable, or `Fake`; `stubDtor m n`: with `n` actions or
without end; `count`, `countDtor`: `Verify(…)` and how many calls there are (tests/default_behaviore_tests.cpp 231-238, include/fakeit/api_macros.hpp 31-40). -/
inductive Op where
  | mock (fake : Bool) (size dtorAt : Nat)
  | own (m : Nat)
  | copy (v : Nat)
  | drop (v : Nat)
  | stub (m f : Nat) (v : Option Nat)
  | stubDtor (m : Nat) (n : Option Nat)
  | call (m f : Nat) (args : List (Nat × Bool))
  | count (m f : Nat)
  | countDtor (m : Nat)
  | clear (m : Nat)
  | reset (m : Nat)
  | destroy (m : Nat)
  deriving DecidableEq, Repr

/-- What the test sees (tests/default_behaviore_tests.cpp 231-238, include/fakeit/RecordedMethodBody.hpp 126-150). -/
inductive Ans where
  | nothing
  | answered
  | unexpected
  | native
  | count (n : Nat)
  deriving DecidableEq, Repr

/-- The owner in a variable is copied, if there is one (include/fakeit/StubbingProgress.hpp 86-90). -/
def State.share (s : State) (v : Option Nat) : Res (State × List Nat) :=
  match v with
  | none => .done (s, [])
  | some v => s.pass [(v, false)]

/-- The body of a method, made if there is none: this writes to the object's table (include/fakeit/MockImpl.hpp 314-323, include/mockutils/DynamicProxy.hpp 222-226). -/
def Mck.body (k : Mck) (f : Nat) : Res Body := do
  let b ← Res.ofOption k.methods[f]?
  match b with
  | some b => .done b
  | none => if k.object then .done ⟨false, [], []⟩ else .ub

/-- The body of the destructor, made if there is none, without actions (include/fakeit/MockImpl.hpp 325-332, include/mockutils/DynamicProxy.hpp 228-232). -/
def Mck.dtorBody (k : Mck) : Res Dtor :=
  match k.dtor with
  | some d => .done d
  | none => if k.object then .done ⟨some 0, 0⟩ else .ub

/-- `When(Method(mock, f)).AlwaysReturn(p)` or `Fake(Method(mock, f))` (include/fakeit/MockImpl.hpp 314-323, include/fakeit/RecordedMethodBody.hpp 110-115). -/
def State.stub (s : State) (m f : Nat) (v : Option Nat) : Res (State × Ans) := do
  let (s, gs) ← s.share v
  let k ← s.mock m
  let b ← k.body f
  .done ({ s with mocks := s.mocks.set m { k with methods := k.methods.set f (some { b with stubbed := true, kept := b.kept ++ gs }) } }, .nothing)

/-- A call of a method (include/fakeit/RecordedMethodBody.hpp 126-150, include/fakeit/MockImpl.hpp 273-282): the record gets the arguments; if there is none, they end with the call.
After the end of its mock an object has its own methods. -/
def State.call (s : State) (m f : Nat) (args : List (Nat × Bool)) : Res (State × Ans) := do
  let (s, gs) ← s.pass args
  let k ← Res.ofOption s.mocks[m]?
  if k.object then
    match k.phase with
    | .live => do
      let b ← Res.ofOption k.methods[f]?
      match b with
      | some b =>
        if b.stubbed then .done ({ s with mocks := s.mocks.set m { k with methods := k.methods.set f (some { b with records := b.records ++ [gs] }) } }, .answered)
        else do
          let s ← s.releaseAll gs
          .done (s, .unexpected)
      | none => do
        let s ← s.releaseAll gs
        .done (s, if k.fake then .unexpected else .native)
    | .resetting => .ub
    | .ended => do
      let s ← s.releaseAll gs
      .done (s, .native)
  else .ub

/-- `ClearInvocationHistory` (include/fakeit/MockImpl.hpp 68-76): the bodies one after the other, by slot, the destructor's in its place (include/fakeit/RecordedMethodBody.hpp 122-124). -/
def State.clear (s : State) (m : Nat) : Res State := do
  let k ← s.mock m
  let first := k.methods.take k.dtorAt
  let s ← State.releaseAll (recordsOf first) { s with mocks := s.mocks.set m { k with methods := first.map (Option.map Body.cleared) ++ k.methods.drop k.dtorAt } }
  let k ← s.mock m
  let rest := k.methods.drop k.dtorAt
  State.releaseAll (recordsOf rest) { s with mocks := s.mocks.set m { k with methods := k.methods.take k.dtorAt ++ rest.map (Option.map Body.cleared), dtor := k.dtor.map fun d => { d with calls := 0 } } }

/-- `Reset` (include/fakeit/MockImpl.hpp 63-66, include/mockutils/DynamicProxy.hpp 91-98): the bodies are destroyed by slot.  (No body is looked at in between but the destructor's, so all are taken
away first here.) -/
def State.reset (s : State) (m : Nat) : Res State := do
  let k ← s.mock m
  let s ← State.releaseAll (sharesOf k.methods) { s with mocks := s.mocks.set m { k with phase := .resetting, methods := k.methods.map fun _ => none } }
  let k ← Res.ofOption s.mocks[m]?
  .done { s with mocks := s.mocks.set m { k with phase := .live, dtor := none } }

/-- The end of a mock (include/fakeit/MockImpl.hpp 40-42, 109-120, include/mockutils/DynamicProxy.hpp 79-85, 209-216): the object gets its first table, which is a write to the object, the bodies are
destroyed, and at last the object the mock made. -/
def State.destroy (s : State) (m : Nat) : Res State := do
  let k ← s.mock m
  if k.object then do
    let s ← State.releaseAll (sharesOf k.methods) { s with mocks := s.mocks.set m { k with phase := .ended, dtor := none, methods := k.methods.map fun _ => none } }
    let k ← Res.ofOption s.mocks[m]?
    .done { s with mocks := s.mocks.set m { k with object := k.object && !k.fake } }
  else .ub

/-- One operation (include/fakeit/Mock.hpp 43-70, include/fakeit/MockImpl.hpp 30-76). -/
def State.step (s : State) : Op → Res (State × Ans)
  | .mock fake size dtorAt => .done ({ s with mocks := s.mocks ++ [⟨fake, List.replicate size none, dtorAt, none, .live, true⟩] }, .nothing)
  | .own m => do
    let k ← Res.ofOption s.mocks[m]?
    if k.object then .done ({ s with objs := s.objs ++ [m], counts := s.counts ++ [1], vars := s.vars ++ [some s.objs.length] }, .nothing) else .ub
  | .copy v => do
    let o ← Res.ofOption s.vars[v]?
    let (s, _) ← s.share (some v)
    .done ({ s with vars := s.vars ++ [o] }, .nothing)
  | .drop v => do
    let o ← Res.ofOption s.vars[v]?
    let s ← State.releaseAll o.toList { s with vars := s.vars.set v none }
    .done (s, .nothing)
  | .stub m f v => s.stub m f v
  | .stubDtor m n => do
    let k ← s.mock m
    let d ← k.dtorBody
    .done ({ s with mocks := s.mocks.set m { k with dtor := some { d with left := n } } }, .nothing)
  | .call m f args => s.call m f args
  | .count m f => do
    let k ← s.mock m
    let b ← k.body f
    .done ({ s with mocks := s.mocks.set m { k with methods := k.methods.set f (some b) } }, .count b.records.length)
  | .countDtor m => do
    let k ← s.mock m
    let d ← k.dtorBody
    .done ({ s with mocks := s.mocks.set m { k with dtor := some d } }, .count d.calls)
  | .clear m => do
    let s ← s.clear m
    .done (s, .nothing)
  | .reset m => do
    let s ← s.reset m
    .done (s, .nothing)
  | .destroy m => do
    let s ← s.destroy m
    .done (s, .nothing)

/-- A test (e.g. tests/default_behaviore_tests.cpp 231-238). -/
def State.run : List Op → State → Res (State × List Ans)
  | [], s => .done (s, [])
  | op :: ops, s => do
    let (s, a) ← s.step op
    let (s, as) ← State.run ops s
    .done (s, a :: as)

/-- The beginning of a test (e.g. tests/default_behaviore_tests.cpp 231-238). -/
def start : State := ⟨[], [], [], []⟩

end FakeIt.Owners
