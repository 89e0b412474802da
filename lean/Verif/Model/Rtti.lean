/-!
# Run-time type information of fake objects (include/mockutils/gcc/VirtualTable.hpp, include/mockutils/mscpp/VirtualTable.hpp)

Classes are numbers. Classes with more than one base cannot be mocked, so a class and its bases form a chain, the nearest base first (`Model/Layout.lean` models that check). All
inheritance is public, no class has the same base twice. What is modelled is the information the library stores in front of the table and what the compilers' run-time libraries make
of it in `typeid(x)` and `dynamic_cast<T*>(p)`.
-/
namespace FakeIt.Rtti

/-- GCC and Clang; Microsoft's compiler for 32 and for 64 bits (include/mockutils/mscpp/VirtualTable.hpp 105, `_WIN64`). -/
inductive Target where
  | itanium
  | msvc32
  | msvc64
  deriving DecidableEq, Repr

/-- The bases of each class, nearest first (the program's class definitions) (described by include/mockutils/mscpp/VirtualTable.hpp 103-134). -/
abbrev Classes := Nat → List Nat

/-- `std::is_base_of<b, d>` (a class counts as its own base) (include/mockutils/mscpp/VirtualTable.hpp 103-134). -/
def isBaseOf (h : Classes) (b d : Nat) : Bool := b == d || (h d).contains b

/-- `RTTIBaseClassDescriptor`: the class and `numContainedBases` (include/mockutils/mscpp/VirtualTable.hpp 47-56; displacements and attributes are always those of single inheritance). -/
structure Desc where
  type : Nat
  contained : Nat
  deriving DecidableEq, Repr

/-- `addBaseClass<BaseType>` (include/mockutils/mscpp/VirtualTable.hpp 82-92); `none`: the `static_assert` fails. The array has room for all entries (65). -/
def addOne (h : Classes) (c t : Nat) (arr : List Desc) : Option (List Desc) :=
  if isBaseOf h t c then some (arr.map (fun d => { d with contained := d.contained + 1 }) ++ [⟨t, 0⟩]) else none

/-- `addBaseClass<head, Base1, tail...>` (include/mockutils/mscpp/VirtualTable.hpp 94-99). -/
def addAll (h : Classes) (c : Nat) : Nat → List Nat → List Desc → Option (List Desc)
  | head, [], arr => addOne h c head arr
  | head, b :: bs, arr =>
    if isBaseOf h b head then
      match addOne h c head arr with
      | some arr => addAll h c b bs arr
      | none => none
    else none

/-- The constructor of `RTTIClassHierarchyDescriptor<C, baseclasses...>` (include/mockutils/mscpp/VirtualTable.hpp 60-67). -/
def hierarchy (h : Classes) (c : Nat) (bases : List Nat) : Option (List Desc) := addAll h c c bases []

/-- What is in front of the table: the compiler's `type_info` of `C` (include/mockutils/gcc/VirtualTable.hpp 141-149); a locator with the `type_info` and a description of the bases, or, for 64
bits, one in which all fields are zero (include/mockutils/mscpp/VirtualTable.hpp 103-134, 264-273). -/
inductive Info where
  | typeInfo (c : Nat)
  | locator (c : Nat) (arr : List Desc)
  | zeros
  deriving DecidableEq, Repr

/-- `buildVTArray` for `Mock<C, baseclasses...>`; `none`: does not compile (include/mockutils/gcc/VirtualTable.hpp 141-149, include/mockutils/mscpp/VirtualTable.hpp 264-273). The template
`RTTIClassHierarchyDescriptor` is not instantiated for 64 bits. -/
def build (t : Target) (h : Classes) (c : Nat) (bases : List Nat) : Option Info :=
  match t with
  | .itanium => some (.typeInfo c)
  | .msvc32 => (hierarchy h c bases).map (.locator c)
  | .msvc64 => some .zeros

/-- Answers of the run-time libraries; `failed`: no information is found, an exception or a crash (what reads the tables of include/mockutils/gcc/VirtualTable.hpp 141-149, include/mockutils/mscpp/VirtualTable.hpp 264-273). -/
inductive Ans where
  | type (c : Nat)
  | object
  | null
  | failed
  deriving DecidableEq, Repr

/-- `typeid(object)` (run-time libraries; the information of include/mockutils/gcc/VirtualTable.hpp 146 and include/mockutils/mscpp/VirtualTable.hpp 121, 108). -/
def typeId : Info → Ans
  | .typeInfo c => .type c
  | .locator c _ => .type c
  | .zeros => .failed

/-- The search of Microsoft's run-time library for single inheritance: the entry of the target, and the source in one of the entries behind it. Simplified: access rights, displacements (reads what include/mockutils/mscpp/VirtualTable.hpp 47-99 describes). -/
def search (src target : Nat) : List Desc → Bool
  | [] => false
  | d :: ds => if d.type == target then ds.any (fun e => e.type == src) else search src target ds

/-- `dynamic_cast<Target*>(p)` where `p` is a `Source*` to the object. A cast to the class itself or one of its bases needs no information (C++). GCC's run-time library knows the bases of the
class from the compiler's `type_info` (include/mockutils/gcc/VirtualTable.hpp 146), Microsoft's searches the array of include/mockutils/mscpp/VirtualTable.hpp 80. -/
def dynamicCast (h : Classes) (info : Info) (src target : Nat) : Ans :=
  if isBaseOf h target src then .object
  else
    match info with
    | .typeInfo c => if isBaseOf h target c then .object else .null
    | .locator _ arr => if search src target arr then .object else .null
    | .zeros => .failed

end FakeIt.Rtti
