import Verif.Model.Result
/-!
# The bytes of a fake object (include/mockutils/FakeObject.hpp; include/mockutils/DynamicProxy.hpp 207, 218-220)
-/
namespace FakeIt

/-- What FakeIt needs to know of the platform: size of a pointer (`sizeof(VirtualTable<C>)`: one pointer, include/mockutils/gcc/VirtualTable.hpp 43), its
alignment being the same, and the alignment of what `new` returns for types without an extended alignment (`__STDCPP_DEFAULT_NEW_ALIGNMENT__`). -/
structure Platform where
  ptr : Nat
  newAlign : Nat

/-- Rounding up to a multiple of an alignment (C++ layout of the class in include/mockutils/FakeObject.hpp 19-46). -/
def roundUp (n align : Nat) : Nat := (n + align - 1) / align * align

/-- The template argument `sizeof(C) - sizeof(VirtualTable<C>)` (include/mockutils/FakeObject.hpp 50). -/
def areaSize (p : Platform) (sizeofC : Nat) : Nat := sizeofC - p.ptr

/-- `sizeof(FakeObject<C>)` (include/mockutils/FakeObject.hpp 19-46): the pointer, the array of `char` (none if its size were 0), aligned like the pointer. -/
def fakeSize (p : Platform) (sizeofC : Nat) : Nat := roundUp (p.ptr + areaSize p sizeofC) p.ptr

/-- The static assertion (include/mockutils/DynamicProxy.hpp 207). -/
def sizeAssertion (p : Platform) (sizeofC : Nat) : Bool := sizeofC == fakeSize p sizeofC

/-- Memory (written by include/mockutils/FakeObject.hpp 23-29). -/
abbrev Bytes := Nat → UInt8

/-- Storing bytes from an address on (include/mockutils/FakeObject.hpp 23-29). -/
def Bytes.store (mem : Bytes) (at_ : Nat) (bs : List UInt8) : Bytes :=
  fun a => if at_ ≤ a then (match bs[a - at_]? with | some b => b | none => mem a) else mem a

/-- Reading `n` bytes (include/mockutils/DynamicProxy.hpp 218-220). -/
def Bytes.load (mem : Bytes) (at_ n : Nat) : List UInt8 := (List.range n).map fun i => mem (at_ + i)

/-- `initializeDataMembersArea` (include/mockutils/FakeObject.hpp 23-29, 39-40), one `char` after the other. -/
def initArea (p : Platform) (sizeofC this : Nat) (mem : Bytes) : Bytes :=
  (List.range (areaSize p sizeofC)).foldl (fun mem i => mem.store (this + p.ptr + i) [0]) mem

/-- `new FakeObject<C>()` at address `this` (include/mockutils/FakeObject.hpp 56-59): the virtual table pointer, then the data members. -/
def newFake (p : Platform) (sizeofC this : Nat) (vt : List UInt8) (mem : Bytes) : Bytes := initArea p sizeofC this (mem.store this vt)

/-- `setVirtualTable` (include/mockutils/FakeObject.hpp 76-79), also on spied objects (include/mockutils/DynamicProxy.hpp 218-220). -/
def setVirtualTable (this : Nat) (vt : List UInt8) (mem : Bytes) : Bytes := mem.store this vt

/-- Addresses at which `new FakeObject<C>` may put the object: `FakeObject<C>` is aligned like a pointer (its members are a pointer and an array of `char`),
whatever the alignment of `C` (include/mockutils/FakeObject.hpp 19-50). -/
def mayAllocate (p : Platform) (this : Nat) : Prop := p.newAlign ∣ this

end FakeIt
