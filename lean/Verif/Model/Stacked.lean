import Verif.Model.Result
/-!
# Objects, their virtual tables and the mocks attached to them (DynamicProxy.hpp, FakeObject.hpp, gcc/VirtualTable.hpp)

Several mocks may be attached to one object.  Every mock has a table of its own (`_cloneVt`); the object points to one table at a time.
-/
namespace FakeIt.Stacked

/-- Tables in memory: the compiler's table of a class, the table a fake object is made with, the table of a mock. New arrays are different from all others; that memory of freed ones is
used again is not modelled, using freed ones is undefined (gcc/VirtualTable.hpp 141-149, DynamicProxy.hpp 68-77). -/
inductive TName where
  | native (cls : Nat)
  | own (m : Nat)
  | clone (m : Nat)
  deriving DecidableEq

/-- Entries of tables: the implementation of a class, `MockImpl::unmocked`, `methodProxyX<id>` (MockImpl.hpp 273-292, MethodProxyCreator.hpp 44-56). Destructors are not part of this model. -/
inductive Code where
  | native (cls slot : Nat)
  | unmocked
  | proxy (id : Nat)
  deriving DecidableEq

/-- A table: entries, cookie 0 (the handlers of a mock), cookie 1 (the mock of a fake object), `type_info` (gcc/VirtualTable.hpp 18-45, 141-149). -/
structure Table where
  entries : List Code
  handlers : Option Nat
  impl : Option Nat
  typeId : Nat
  deriving DecidableEq

/-- An object: the pointer to its table (FakeObject.hpp 31-45). -/
structure Obj where
  table : TName
  live : Bool
  deriving DecidableEq

/-- A mock: `instance`, the class `C`, `originalVtHandle`, `_offsets` (the id bound to a slot, if any), `_instanceOwner` (DynamicProxy.hpp 209-216, MockImpl.hpp 118-125). -/
structure Mck where
  obj : Nat
  cls : Nat
  orig : TName
  offsets : List (Option Nat)
  owner : Bool
  live : Bool
  deriving DecidableEq

/-- Memory (tables and objects of include/mockutils/DynamicProxy.hpp 63-98, include/mockutils/gcc/VirtualTable.hpp 18-45). -/
structure State where
  tables : TName → Option Table
  objs : List Obj
  mocks : List Mck

/-- What happens in a call, or the answer of `typeid` (include/fakeit/MockImpl.hpp 262-282, include/mockutils/gcc/VirtualTable.hpp 141-149). -/
inductive Ans where
  | nothing
  | native (cls slot : Nat)
  | unmocked (m : Nat)
  | handled (m slot : Nat)
  | type (cls : Nat)
  deriving DecidableEq

/-- What tests do: make an object of class `d`, `Mock<C> m`, `Mock<C> m(object)`, mention a method in a stubbing, `Reset`, end of a mock's life, end of an object's life, virtual call, a spied method
running the original, `typeid` (include/fakeit/MockImpl.hpp 30-42, 118-125, include/mockutils/DynamicProxy.hpp 63-98). -/
inductive Op where
  | make (d : Nat)
  | fake (c : Nat)
  | spy (o c : Nat)
  | stub (m slot id : Nat)
  | reset (m : Nat)
  | destroy (m : Nat)
  | delete (o : Nat)
  | call (o slot : Nat)
  | original (m slot : Nat)
  | typeId (o : Nat)

/-- The tables the compiler makes. `size`: number of virtual functions of a class (VTUtils.hpp 67-76). -/
def nativeTable (size : Nat → Nat) (d : Nat) : Table := ⟨(List.range (size d)).map (Code.native d), none, none, d⟩

/-- At first there are only the compiler's tables (what include/mockutils/DynamicProxy.hpp 68-77 finds). -/
def init (size : Nat → Nat) : State := ⟨fun | .native d => some (nativeTable size d) | _ => none, [], []⟩

/-- Writing or freeing a table (plumbing) (include/mockutils/gcc/VirtualTable.hpp 20-23, 88-93). -/
def State.setTable (s : State) (n : TName) (t : Option Table) : State := { s with tables := fun x => if x = n then t else s.tables x }

/-- `getVTable(instance)` (gcc/VirtualTable.hpp 20-23, 71-74): the table an object points to. -/
def State.tableOf (s : State) (o : Nat) : R (TName × Table) := do
  let ob ← R.ofOption s.objs[o]?
  if ob.live then
    let t ← R.ofOption (s.tables ob.table)
    .done (ob.table, t)
  else .ub

/-- `copyFrom` (gcc/VirtualTable.hpp 76-82): reads as many entries as class `C` has; undefined if there are fewer. -/
def copyFrom (n : Nat) (t : Table) : R (List Code) := if n ≤ t.entries.length then .done (t.entries.take n) else .ub

/-- A mock that is alive (using another one is undefined) (include/fakeit/MockImpl.hpp 118-125). -/
def State.mock (s : State) (m : Nat) : R Mck := do
  let k ← R.ofOption s.mocks[m]?
  if k.live then .done k else .ub

/-- The constructor of `DynamicProxy`, and `setCookie(1, this)` of `MockImpl` for fake objects (DynamicProxy.hpp 68-77, MockImpl.hpp 30-38, 122-125). -/
def State.attach (size : Nat → Nat) (s : State) (o c : Nat) (owner : Bool) : R State := do
  let (tn, t) ← s.tableOf o
  let es ← copyFrom (size c) t
  let m := s.mocks.length
  let s := s.setTable (.clone m) (some ⟨es, some m, if owner then some m else none, c⟩)
  .done { s with objs := s.objs.set o ⟨.clone m, true⟩, mocks := s.mocks ++ [⟨o, c, tn, List.replicate (size c) none, owner, true⟩] }

/-- `getFake().setMethod(offset, code)` (FakeObject.hpp 66-69): through the table the object points to. The compiler's tables cannot be written. -/
def State.setMethod (s : State) (o slot : Nat) (c : Code) : R State := do
  let (tn, t) ← s.tableOf o
  match tn with
  | .native _ => .ub
  | _ => if slot < t.entries.length then .done (s.setTable tn (some { t with entries := t.entries.set slot c })) else .ub

/-- `stubMethodIfNotStubbed`, `bind` (MockImpl.hpp 314-323, DynamicProxy.hpp 104-109, 222-226). -/
def State.stub (s : State) (m slot id : Nat) : R State := do
  let k ← s.mock m
  let bound ← R.ofOption k.offsets[slot]?
  match bound with
  | some _ => .done s
  | none =>
    let s ← s.setMethod k.obj slot (.proxy id)
    .done { s with mocks := s.mocks.set m { k with offsets := k.offsets.set slot (some id) } }

/-- `DynamicProxy::Reset` (DynamicProxy.hpp 91-98). -/
def State.reset (size : Nat → Nat) (s : State) (m : Nat) : R State := do
  let k ← s.mock m
  let from_ ← R.ofOption (s.tables k.orig)
  let es ← copyFrom (size k.cls) from_
  let t ← R.ofOption (s.tables (.clone m))
  let s := s.setTable (.clone m) (some { t with entries := es })
  .done { s with mocks := s.mocks.set m { k with offsets := List.replicate (size k.cls) none } }

/-- `~MockImpl`: `detach`, then `_cloneVt.dispose()`, then the fake object with the table it points to is deleted (MockImpl.hpp 40-42, DynamicProxy.hpp 79-85, FakeObject.hpp 61-64). -/
def State.destroy (s : State) (m : Nat) : R State := do
  let k ← s.mock m
  let ob ← R.ofOption s.objs[k.obj]?
  if ob.live then
    let s := { s with objs := s.objs.set k.obj ⟨k.orig, true⟩, mocks := s.mocks.set m { k with live := false } }
    let s := s.setTable (.clone m) none
    if k.owner then
      match k.orig with
      | .native _ => .ub
      | tn => .done { s.setTable tn none with objs := s.objs.set k.obj ⟨tn, false⟩ }
    else .done s
  else .ub

/-- A virtual call: the code in the slot. `unmocked` finds its mock in cookie 1, a proxy finds the handlers in cookie 0 of the table the object points to and looks its id up there
(MockImpl.hpp 262-282, MethodProxyCreator.hpp 16-21, 44-51, DynamicProxy.hpp 33-59). -/
def State.call (s : State) (o slot : Nat) : R Ans := do
  let (_, t) ← s.tableOf o
  let c ← R.ofOption t.entries[slot]?
  match c with
  | .native d i => .done (.native d i)
  | .unmocked => do
    let m ← R.ofOption t.impl
    let _ ← s.mock m
    .done (.unmocked m)
  | .proxy id => do
    let m ← R.ofOption t.handlers
    let k ← s.mock m
    let i ← R.ofOption (k.offsets.findIdx? (· == some id))
    .done (.handled m i)

/-- A spied method: `createRaiiMethodSwapper`, virtual call, swapper's destructor (DynamicProxy.hpp 177-187, MockImpl.hpp 183-192). -/
def State.original (s : State) (m slot : Nat) : R (State × Ans) := do
  let k ← s.mock m
  let (_, t) ← s.tableOf k.obj
  let fake ← R.ofOption t.entries[slot]?
  let from_ ← R.ofOption (s.tables k.orig)
  let code ← R.ofOption from_.entries[slot]?
  let s ← s.setMethod k.obj slot code
  let a ← s.call k.obj slot
  let s ← s.setMethod k.obj slot fake
  .done (s, a)

/-- One step of a test (the places cited at the functions called here, e.g. include/mockutils/DynamicProxy.hpp 68-98). -/
def State.step (size : Nat → Nat) (s : State) : Op → R (State × Ans)
  | .make d => .done ({ s with objs := s.objs ++ [⟨.native d, true⟩] }, .nothing)
  | .fake c => do
    let m := s.mocks.length
    let s := s.setTable (.own m) (some ⟨List.replicate (size c) .unmocked, none, none, c⟩)
    let s ← State.attach size { s with objs := s.objs ++ [⟨.own m, true⟩] } s.objs.length c true
    .done (s, .nothing)
  | .spy o c => do
    let s ← s.attach size o c false
    .done (s, .nothing)
  | .stub m slot id => do
    let s ← s.stub m slot id
    .done (s, .nothing)
  | .reset m => do
    let s ← s.reset size m
    .done (s, .nothing)
  | .destroy m => do
    let s ← s.destroy m
    .done (s, .nothing)
  | .delete o => do
    let ob ← R.ofOption s.objs[o]?
    if ob.live then .done ({ s with objs := s.objs.set o { ob with live := false } }, .nothing) else .ub
  | .call o slot => do
    let a ← s.call o slot
    .done (s, a)
  | .original m slot => s.original m slot
  | .typeId o => do
    let (_, t) ← s.tableOf o
    .done (s, .type t.typeId)

/-- A test (as `State.step`, e.g. include/mockutils/DynamicProxy.hpp 68-98). -/
def State.run (size : Nat → Nat) : State → List Op → R (List Ans)
  | _, [] => .done []
  | s, op :: ops => do
    let (s, a) ← s.step size op
    let as ← State.run size s ops
    .done (a :: as)

end FakeIt.Stacked
