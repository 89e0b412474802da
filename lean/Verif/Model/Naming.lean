/-!
# Naming the method to stub: `Method`, `OverloadedMethod` and its relatives

`include/fakeit/api_macros.hpp` 7-50, `include/fakeit/Prototype.hpp`, the eight `stub` functions of `include/fakeit/Mock.hpp` 75-137. The compiler decides which
method `&C::f` means; its rules (C++17 [class.member.lookup], [over.over], [temp.deduct.call]/6, [over.match.best]) are modelled for classes with one base each.
Not modelled: access control, member templates, several bases (see `Layout.lean`), covariant return types, the slots of destructors (they shift the numbers).
-/
namespace FakeIt.Naming

/-- Reference qualifier of a member function (C++ [dcl.fct]; the distinction made by include/fakeit/Mock.hpp 107-137). -/
inductive RefQ where
  | none | lref | rref
  deriving DecidableEq, Repr

/-- What may follow the parameter list of a member function (C++ [dcl.fct]) (resolved for include/fakeit/Mock.hpp 75-137 and include/fakeit/api_macros.hpp 31-50). -/
structure Qual where
  isConst : Bool
  isVolatile : Bool
  ref : RefQ
  deriving DecidableEq, Repr

/-- Return types: the kinds of void (include/fakeit/Mock.hpp 22-32), and all others by number. -/
inductive Ret where
  | void (isConst isVolatile : Bool)
  | val (t : Nat)
  deriving DecidableEq, Repr

/-- A declaration of a member function in a class (input of the macros, not code of FakeIt). `ellipsis`: C-style variable arguments. `virt`: declared `virtual` (resolved for include/fakeit/Mock.hpp 75-137 and include/fakeit/api_macros.hpp 31-50). -/
structure Decl where
  name : Nat
  params : List Nat
  ellipsis : Bool
  qual : Qual
  ret : Ret
  virt : Bool
  deriving DecidableEq, Repr

/-- What distinguishes member functions of a class and what makes one override another (C++ [over.load], [class.virtual]) (resolved for include/fakeit/Mock.hpp 75-137 and include/fakeit/api_macros.hpp 31-50). -/
structure Key where
  name : Nat
  params : List Nat
  ellipsis : Bool
  qual : Qual
  deriving DecidableEq, Repr

/-- The key of a declaration (C++ [class.virtual]) (resolved for include/fakeit/Mock.hpp 75-137 and include/fakeit/api_macros.hpp 31-50). -/
def Decl.key (d : Decl) : Key := { name := d.name, params := d.params, ellipsis := d.ellipsis, qual := d.qual }

/-- A class: its member functions in order, and the names it repeats from its base (`using Base::f;`) (resolved for include/fakeit/Mock.hpp 75-137 and include/fakeit/api_macros.hpp 31-50). -/
structure Cls where
  decls : List Decl
  usings : List Nat

/-- The functions `&C::f` may mean (C++ [class.member.lookup]: the first class that declares the name; [namespace.udecl]: what a using declaration brings in
is hidden by the class' own function of the same kind). The class comes first, then its base, and so on (resolved for include/fakeit/Mock.hpp 75-137 and include/fakeit/api_macros.hpp 31-50). -/
def lookup : List Cls → Nat → List Decl
  | [], _ => []
  | c :: bases, f =>
    let own := c.decls.filter fun d => d.name == f
    if c.usings.contains f then own ++ (lookup bases f).filter fun d => own.all fun e => e.key != d.key
    else if own.isEmpty then lookup bases f
    else own

/-- The virtual functions in the order of the virtual table (Itanium ABI 2.5.3): those of the base, then the new ones (resolved for include/fakeit/Mock.hpp 75-137 and include/fakeit/api_macros.hpp 31-50). -/
def slots : List Cls → List Key
  | [] => []
  | c :: bases => slots bases ++ ((c.decls.filter fun d => d.virt && !(slots bases).contains d.key).map Decl.key)

/-- The offset `VTUtils::getOffset` (include/mockutils/VTUtils.hpp 31-35) finds for a member function pointer; `none`: it is not virtual,
calling it on the selector object is undefined. -/
def offset (c : List Cls) (d : Decl) : Option Nat :=
  if (slots c).contains d.key then some ((slots c).idxOf d.key) else none

/-- The member function pointer type in the eight `stub` functions, in their order (include/fakeit/Mock.hpp 75-81, 83-89, 91-97, 99-105, 107-113, 115-121,
122-128, 130-136). -/
def stubQuals : List Qual :=
  [ ⟨true, false, .none⟩, ⟨false, true, .none⟩, ⟨true, true, .none⟩, ⟨false, false, .none⟩,
    ⟨false, false, .lref⟩, ⟨true, false, .lref⟩, ⟨false, false, .rref⟩, ⟨true, false, .rref⟩ ]

/-- Trial deduction of `R (T::*)(arglist...) q` from one function (C++ [temp.deduct.call]/6) (resolved for include/fakeit/Mock.hpp 75-137 and include/fakeit/api_macros.hpp 31-50). -/
def deduces (q : Qual) (d : Decl) : Bool := d.qual == q && !d.ellipsis

/-- The compiler accepts a choice only if there is exactly one candidate (C++ [over.match.best], [over.over]) (resolved for include/fakeit/Mock.hpp 75-137 and include/fakeit/api_macros.hpp 31-50). -/
def only {α : Type} : List α → Option α
  | [x] => some x
  | _ => none

/-- Is the `stub` function for `q` viable for `&C::f`, and with which function? Only if exactly one of the functions fits (C++ [temp.deduct.call]/6);
the condition `is_base_of<T, C>` (include/fakeit/Mock.hpp 76) always holds. -/
def viable (fs : List Decl) (q : Qual) : Option Decl := only (fs.filter (deduces q))

/-- `(mock).stub<...>(&C::f)` (include/fakeit/api_macros.hpp 31-32): the call must not be ambiguous. -/
def pick (fs : List Decl) : Option Decl := only (stubQuals.filterMap (viable fs))

/-- `WithCommonVoid_t` (include/fakeit/Mock.hpp 17-32). -/
def commonVoid : Ret → Ret
  | .void _ _ => .void false false
  | .val t => .val t

/-- The six macros that take a prototype (include/fakeit/api_macros.hpp 34-50). -/
inductive Proto where
  | plain | const_ | ref | constRef | rvalRef | constRvalRef
  deriving DecidableEq, Repr

/-- The member function type of `get`, `getConst`, ... (include/fakeit/Prototype.hpp 14-19 and 21-43). -/
def Proto.qual : Proto → Qual
  | .plain => ⟨false, false, .none⟩
  | .const_ => ⟨true, false, .none⟩
  | .ref => ⟨false, false, .lref⟩
  | .constRef => ⟨true, false, .lref⟩
  | .rvalRef => ⟨false, false, .rref⟩
  | .constRvalRef => ⟨true, false, .rref⟩

/-- `get(&C::f)` (include/fakeit/Prototype.hpp 21-43): the function whose type is that of the parameter (C++ [over.over]). -/
def select (fs : List Decl) (p : Proto) (r : Ret) (params : List Nat) : Option Decl :=
  only (fs.filter fun d => d.qual == p.qual && d.ret == r && d.params == params && !d.ellipsis)

/-- What becomes of a method expression: the compiler refuses it, it is undefined, or it stands for a slot of the virtual table, to be stubbed with actions of the given
return type (include/fakeit/Mock.hpp 75-137). -/
inductive Named where
  | refused
  | undefined
  | slot (n : Nat) (ret : Ret)
  deriving DecidableEq, Repr

/-- From the chosen function to the slot (include/fakeit/Mock.hpp 78-81: the cast does not change which function the pointer means;
include/fakeit/MockImpl.hpp 92-96, 314-323). -/
def toSlot (c : List Cls) : Option Decl → Named
  | none => .refused
  | some d =>
    match offset c d with
    | none => .undefined
    | some n => .slot n (commonVoid d.ret)

/-- `Method(mock, f)` (include/fakeit/api_macros.hpp 31-32). -/
def method (c : List Cls) (f : Nat) : Named := toSlot c (pick (lookup c f))

/-- `OverloadedMethod(mock, f, R(params))`, `ConstOverloadedMethod`, ... (include/fakeit/api_macros.hpp 10-26, 34-50): the function chosen by the prototype
is then passed to `stub`, where it is the only candidate. -/
def overloaded (c : List Cls) (f : Nat) (p : Proto) (r : Ret) (params : List Nat) : Named :=
  toSlot c ((select (lookup c f) p r params).bind fun d => pick [d])

end FakeIt.Naming
