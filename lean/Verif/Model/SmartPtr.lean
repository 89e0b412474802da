import Verif.Model.Result
/-!
# Shared handles (include/mockutils/smart_ptr.hpp)

The handles `When`, `Verify` and `VerifyNoOtherInvocations` return hold a `smart_ptr` to the statement object, whose destructor does the work of the
statement and may throw. Handles are named by numbers. Objects and reference counters get fresh numbers.
The default constructor (37-40), which the library does not use, is not modelled.
-/
namespace FakeIt

/-- The two fields of a handle (include/mockutils/smart_ptr.hpp 33-34). -/
structure SPtr where
  data : Nat
  ref : Nat
  deriving Repr, DecidableEq

/-- State: the live handles; the reference counters (`none`: freed or never allocated); the statement objects alive; next fresh number; the
statement objects destroyed so far, in order (include/mockutils/smart_ptr.hpp 16-82). -/
structure SPState where
  handles : List (Nat × SPtr) := []
  refs : Nat → Option Int := fun _ => none
  objs : Nat → Bool := fun _ => false
  next : Nat := 0
  destroyed : List Nat := []

/-- What a program does with handles (include/mockutils/smart_ptr.hpp 16-82). -/
inductive SPOp where
  /-- a handle to a new statement object (include/mockutils/smart_ptr.hpp 42-45) -/
  | make (h : Nat)
  /-- copy construction of `h` from `g` (47-49) -/
  | copy (h g : Nat)
  /-- assignment `h = g` (66-82) -/
  | assign (h g : Nat)
  /-- destruction of `h` (51-56) -/
  | destroy (h : Nat)
  /-- access to the statement object through `h` (58-64) -/
  | use (h : Nat)
  deriving Repr, DecidableEq

/-- The fields of a handle (plumbing) (include/mockutils/smart_ptr.hpp 16-82). -/
def SPState.handle? (s : SPState) (h : Nat) : Option SPtr := (s.handles.find? (·.1 = h)).map (·.2)

/-- Remove a handle (plumbing) (include/mockutils/smart_ptr.hpp 16-82). -/
def SPState.drop (s : SPState) (h : Nat) : SPState := { s with handles := s.handles.filter (·.1 ≠ h) }

/-- Write a counter (plumbing) (include/mockutils/smart_ptr.hpp 16-82). -/
def SPState.setRef (s : SPState) (r : Nat) (c : Option Int) : SPState := { s with refs := fun x => if x = r then c else s.refs x }

/-- `RefCount::AddRef` (include/mockutils/smart_ptr.hpp 21-23): the counter is an `int`; incrementing a freed counter or overflowing is undefined. -/
def SPState.addRef (s : SPState) (r : Nat) : R SPState := do
  let c ← R.ofOption (s.refs r)
  if c + 1 ≤ 2147483647 then .done (s.setRef r (some (c + 1))) else .ub

/-- `if (reference->Release() == 0) { delete reference; delete pData; }` (include/mockutils/smart_ptr.hpp 51-56, 70-73; `Release` 25-27). The flag says
whether the destructor of the statement object threw (`throws`); deleting an object that is not alive is undefined. -/
def SPState.release (throws : Nat → Bool) (s : SPState) (p : SPtr) : R (SPState × Bool) := do
  let c ← R.ofOption (s.refs p.ref)
  if c - 1 = 0 then
    let s := s.setRef p.ref none
    if s.objs p.data then
      .done ({ s with objs := fun x => if x = p.data then false else s.objs x, destroyed := s.destroyed ++ [p.data] }, throws p.data)
    else .ub
  else .done (s.setRef p.ref (some (c - 1)), false)

/-- One step of the program (include/mockutils/smart_ptr.hpp 36-82); the flag says whether it ended with an exception. When the assignment is left by an
exception the handle keeps its old fields, since they are written after the deletion (70-79). Naming a handle that does not exist is undefined. -/
def SPState.step (throws : Nat → Bool) (s : SPState) : SPOp → R (SPState × Bool)
  | .make h =>
    let n := s.next
    .done ({ s with handles := (h, ⟨n, n⟩) :: s.handles, refs := fun x => if x = n then some 1 else s.refs x,
                    objs := fun x => if x = n then true else s.objs x, next := n + 1 }, false)
  | .copy h g => do
    let p ← R.ofOption (s.handle? g)
    let s ← s.addRef p.ref
    .done ({ s with handles := (h, p) :: s.handles }, false)
  | .assign h g => do
    if h = g then .done (s, false) else
    let old ← R.ofOption (s.handle? h)
    let (s, threw) ← s.release throws old
    if threw then .done (s, true) else
    let p ← R.ofOption (s.handle? g)
    let s ← s.addRef p.ref
    .done ({ s with handles := (h, p) :: s.handles.filter (·.1 ≠ h) }, false)
  | .destroy h => do
    let p ← R.ofOption (s.handle? h)
    let (s, threw) ← s.release throws p
    .done (s.drop h, threw)
  | .use h => do
    let p ← R.ofOption (s.handle? h)
    if s.objs p.data then .done (s, false) else .ub

/-- A program: exceptions are caught by the caller and the program goes on (include/mockutils/smart_ptr.hpp 16-82). -/
def SPState.run (throws : Nat → Bool) : List SPOp → SPState → R SPState
  | [], s => .done s
  | o :: os, s => do
    let (s, _) ← s.step throws o
    SPState.run throws os s

end FakeIt
