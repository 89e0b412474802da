import Verif.Model.Result
/-!
# Virtual tables as raw arrays (include/mockutils/gcc/VirtualTable.hpp, include/mockutils/mscpp/VirtualTable.hpp)

The model of whole mocks (`World`) keeps a mock's virtual table as a list of entries and has fields for what the library stores in "cookies". Here the
table is what it is in memory: one array of pointers with a pointer `_firstMethod` into its middle. An access outside the array is undefined behaviour.
`P` is the type of the pointers stored.
-/
namespace FakeIt
variable {P : Type}

/-- The two layouts: gcc/VirtualTable.hpp and mscpp/VirtualTable.hpp (include/mockutils/gcc/VirtualTable.hpp 18-154, include/mockutils/mscpp/VirtualTable.hpp 138-276). -/
inductive Abi where
  | itanium
  | msvc
  deriving Repr, DecidableEq

/-- `numOfCookies` (gcc/VirtualTable.hpp 139; mscpp/VirtualTable.hpp 261). -/
def Abi.numOfCookies : Abi → Nat
  | .itanium => 2
  | .msvc => 3

/-- `dtorCookieIndex` (mscpp/VirtualTable.hpp 262). -/
def dtorCookieIndex : Nat := Abi.msvc.numOfCookies - 1

/-- A table: the array and the position of `_firstMethod` in it (gcc/VirtualTable.hpp 43-44; mscpp/VirtualTable.hpp 163-164). -/
structure VTab (P : Type) where
  cells : List P
  first : Int

/-- `_firstMethod[off]` read (plumbing) (include/mockutils/gcc/VirtualTable.hpp 35-45). -/
def VTab.read (t : VTab P) (off : Int) : R P :=
  if 0 ≤ t.first + off then R.ofOption t.cells[(t.first + off).toNat]? else .ub

/-- `_firstMethod[off] = v` (plumbing) (include/mockutils/gcc/VirtualTable.hpp 35-45). -/
def VTab.write (t : VTab P) (off : Int) (v : P) : R (VTab P) :=
  if 0 ≤ t.first + off ∧ (t.first + off).toNat < t.cells.length then .done { t with cells := t.cells.set (t.first + off).toNat v } else .ub

/-- Index of cookie `i` relative to `_firstMethod` (gcc/VirtualTable.hpp 27-33; mscpp/VirtualTable.hpp 147-153). -/
def Abi.cookieOff (abi : Abi) (i : Nat) : Int :=
  match abi with
  | .itanium => -3 - i
  | .msvc => -2 - i

/-- `getCookie` (gcc/VirtualTable.hpp 27-29; mscpp/VirtualTable.hpp 147-149). -/
def VTab.getCookie (abi : Abi) (t : VTab P) (i : Nat) : R P := t.read (abi.cookieOff i)
/-- `setCookie` (gcc/VirtualTable.hpp 31-33; mscpp/VirtualTable.hpp 151-153). -/
def VTab.setCookie (abi : Abi) (t : VTab P) (i : Nat) (v : P) : R (VTab P) := t.write (abi.cookieOff i) v
/-- `getMethod` (gcc/VirtualTable.hpp 35-37; mscpp/VirtualTable.hpp 155-157). -/
def VTab.getMethod (t : VTab P) (i : Nat) : R P := t.read i
/-- `setMethod` (gcc/VirtualTable.hpp 39-41; mscpp/VirtualTable.hpp 159-161). -/
def VTab.setMethod (t : VTab P) (i : Nat) (v : P) : R (VTab P) := t.write i v

/-- `buildVTArray` (gcc/VirtualTable.hpp 141-149; mscpp/VirtualTable.hpp 264-273): allocate (zeroed), skip the cookies (and, gcc, `top_offset`), store the
run-time type information (`rtti`: the `type_info` or the object locator), step over it. -/
def buildVTArray (abi : Abi) (size : Nat) (null rtti : P) : R (VTab P) :=
  match abi with
  | .itanium => do
    let t : VTab P := { cells := List.replicate (size + 2 + Abi.itanium.numOfCookies) null, first := 0 }
    let t := { t with first := t.first + Abi.itanium.numOfCookies }
    let t := { t with first := t.first + 1 }
    let t ← t.write 0 rtti
    .done { t with first := t.first + 1 }
  | .msvc => do
    let t : VTab P := { cells := List.replicate (size + Abi.msvc.numOfCookies + 1) null, first := 0 }
    let t := { t with first := t.first + Abi.msvc.numOfCookies }
    let t ← t.write 0 rtti
    .done { t with first := t.first + 1 }

/-- `dispose` (gcc/VirtualTable.hpp 88-93; mscpp/VirtualTable.hpp 207-213): step back to the beginning of the array and free it. The result is the object
locator deleted on the way (msvc). Freeing anything but the beginning of the block is undefined behaviour. -/
def VTab.dispose (abi : Abi) (t : VTab P) : R (Option P) :=
  match abi with
  | .itanium =>
    let p := t.first - 1 - 1 - Abi.itanium.numOfCookies
    if p = 0 then .done none else .ub
  | .msvc => do
    let locator ← VTab.read { t with first := t.first - 1 } 0
    let p := t.first - 1 - Abi.msvc.numOfCookies
    if p = 0 then .done (some locator) else .ub

/-- `setDtor(method)` (gcc/VirtualTable.hpp 107-115; mscpp/VirtualTable.hpp 226-236); `idx` is `getDestructorOffset`, `wrapper` the address of `dtor`. -/
def VTab.setDtor (abi : Abi) (t : VTab P) (idx : Nat) (method wrapper : P) : R (VTab P) :=
  match abi with
  | .itanium => do
    let t ← t.write idx method
    t.write (idx + 1 : Nat) wrapper
  | .msvc => do
    let t ← t.write idx wrapper
    t.setCookie .msvc dtorCookieIndex method

/-- What the wrapper `dtor` calls (gcc/VirtualTable.hpp 95-104; mscpp/VirtualTable.hpp 216-224). -/
def VTab.dtorTarget (abi : Abi) (t : VTab P) (idx : Nat) : R P :=
  match abi with
  | .itanium => t.getMethod idx
  | .msvc => t.getCookie .msvc dtorCookieIndex

/-- The loop of `initAll` (gcc/VirtualTable.hpp 122-127; mscpp/VirtualTable.hpp 242-247), from entry `i`, `left` entries to go. -/
def VTab.initFrom (v : P) : (left i : Nat) → VTab P → R (VTab P)
  | 0, _, t => .done t
  | left + 1, i, t => do
    let t ← t.setMethod i v
    VTab.initFrom v left (i + 1) t

/-- `initAll` (gcc/VirtualTable.hpp 122-127; mscpp/VirtualTable.hpp 242-247). -/
def VTab.initAll (t : VTab P) (size : Nat) (v : P) : R (VTab P) := VTab.initFrom v size 0 t

/-- The loop of `copyFrom` (gcc/VirtualTable.hpp 79-81; mscpp/VirtualTable.hpp 193-195). -/
def VTab.copyLoop (src : VTab P) : (left i : Nat) → VTab P → R (VTab P)
  | 0, _, t => .done t
  | left + 1, i, t => do
    let v ← src.getMethod i
    let t ← t.write i v
    VTab.copyLoop src left (i + 1) t

/-- `copyFrom` (gcc/VirtualTable.hpp 76-82; mscpp/VirtualTable.hpp 191-198); `hasDtor` is `hasVirtualDestructor`. -/
def VTab.copyFrom (abi : Abi) (t src : VTab P) (size : Nat) (hasDtor : Bool) : R (VTab P) := do
  let t ← VTab.copyLoop src size 0 t
  match abi, hasDtor with
  | .msvc, true => do
    let c ← src.getCookie .msvc dtorCookieIndex
    t.setCookie .msvc dtorCookieIndex c
  | _, _ => .done t

/-- The writes the library makes to a table (include/mockutils/gcc/VirtualTable.hpp 76-127). -/
inductive VOp (P : Type) where
  | setCookie (i : Nat) (v : P)
  | setMethod (i : Nat) (v : P)
  | setDtor (idx : Nat) (method wrapper : P)
  | initAll (v : P)

/-- One write (dispatch to the functions above) (include/mockutils/gcc/VirtualTable.hpp 76-127). -/
def VTab.step (abi : Abi) (size : Nat) (t : VTab P) : VOp P → R (VTab P)
  | .setCookie i v => t.setCookie abi i v
  | .setMethod i v => t.setMethod i v
  | .setDtor idx m w => t.setDtor abi idx m w
  | .initAll v => t.initAll size v

/-- A sequence of writes (include/mockutils/gcc/VirtualTable.hpp 76-127). -/
def VTab.run (abi : Abi) (size : Nat) : List (VOp P) → VTab P → R (VTab P)
  | [], t => .done t
  | o :: os, t => do
    let t ← t.step abi size o
    VTab.run abi size os t

end FakeIt
