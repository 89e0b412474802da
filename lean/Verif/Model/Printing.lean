import Verif.Model.Result
/-!
# How an argument is printed, by its type

When a mocked method is compiled, the library decides for every argument type how a value of it is printed in reports: texts for `bool`, `char` and C strings, `<<` if the trait `is_ostreamable` says there is
one, a question mark otherwise. The decision (include/mockutils/type_utils.hpp 47-84, include/mockutils/Formatter.hpp 15-89) depends on the overload resolution of the language and on the operators of
the standard library, which are modelled as far as they matter here and are not code of FakeIt.

`Model/ArgText.lean` (C59) has the texts of values; here is which kind of text a type gets and what goes wrong. Simplified: all integer types other than characters are one type with one operator, and so are
the floating-point types; class templates, arrays and references to functions are left out.
-/
namespace FakeIt.Printing

/-- What a pointer points to (types that include/mockutils/type_utils.hpp 60-64 is applied to): the character types, other data (and `void`), functions, and functions that are manipulators of streams (68-84). -/
inductive Obj where
  | char
  | schar
  | uchar
  | wide
  | data
  | fn
  | manip
  deriving DecidableEq, Repr

/-- Built-in types (arguments of include/mockutils/Formatter.hpp 15-89). `wide`: `wchar_t`, `char8_t`, `char16_t`, `char32_t`. Pointers to `volatile` data are told apart, `const` makes no difference. -/
inductive Builtin where
  | bool
  | char
  | schar
  | uchar
  | wide
  | int
  | float
  | nullptr
  | memberPtr
  | ptr (to : Obj) (vol : Bool)
  deriving DecidableEq, Repr

/-- An `operator<<` of the user for a class or an enumeration: does it take constants, does it return `std::ostream&`, is it deleted, does its body compile when it is a template (asked by include/mockutils/type_utils.hpp 55, 63-64). -/
structure Own where
  takesConst : Bool
  returnsStream : Bool
  deleted : Bool
  bodyCompiles : Bool
  deriving DecidableEq, Repr

/-- A conversion function of a class to a built-in type; values are numbers here (what include/mockutils/type_utils.hpp 55 may use for `s << t`). -/
structure Conv where
  to : Builtin
  give : Nat → Nat

/-- Argument types without references and `const` (`naked_type`, include/mockutils/type_utils.hpp 24-27). -/
inductive Ty where
  | builtin (b : Builtin)
  | enum (strong : Bool) (ops : List Own)
  | cls (ops : List Own) (convs : List Conv)

/-- The standard library: C++17 prints `nullptr`, C++20 has deleted operators for wide characters and wide strings, C++23 prints pointers to `volatile` (what include/mockutils/Formatter.hpp 82 finds). -/
structure Library where
  printsNullptr : Bool
  deletesWide : Bool
  printsVolatile : Bool

/-- The functions `os << value` can mean (what include/mockutils/Formatter.hpp 82 finds): operators of the user, by number, and those of the standard library, by parameter. -/
inductive Cand where
  | own (i : Nat)
  | bool
  | char
  | schar
  | uchar
  | int
  | float
  | address
  | text
  | stext
  | utext
  | manip
  | nullptr
  | wide
  | wtext
  | vaddress
  deriving DecidableEq, Repr

/-- The operators of the standard library (what include/mockutils/Formatter.hpp 82 finds). -/
def Library.cands (l : Library) : List Cand :=
  [.bool, .char, .schar, .uchar, .int, .float, .address, .text, .stext, .utext, .manip] ++ (if l.printsNullptr then [.nullptr] else []) ++
    (if l.deletesWide then [.wide, .wtext] else []) ++ (if l.printsVolatile then [.vaddress] else [])

/-- Parameters of an arithmetic type (language rules used by include/mockutils/type_utils.hpp 55). -/
def Cand.arithmetic : Cand → Bool
  | .bool => true
  | .char => true
  | .schar => true
  | .uchar => true
  | .int => true
  | .float => true
  | .wide => true
  | _ => false

/-- Arithmetic types (`std::is_arithmetic`, include/mockutils/type_utils.hpp 61). -/
def Builtin.arithmetic : Builtin → Bool
  | .bool => true
  | .char => true
  | .schar => true
  | .uchar => true
  | .wide => true
  | .int => true
  | .float => true
  | _ => false

/-- The operator whose parameter has just this type (language rules used by include/mockutils/type_utils.hpp 55). -/
def Builtin.exact : Builtin → Option Cand
  | .bool => some .bool
  | .char => some .char
  | .schar => some .schar
  | .uchar => some .uchar
  | .wide => some .wide
  | .int => some .int
  | .float => some .float
  | .nullptr => some .nullptr
  | .memberPtr => none
  | .ptr .char false => some .text
  | .ptr .schar false => some .stext
  | .ptr .uchar false => some .utext
  | .ptr .wide false => some .wtext
  | .ptr .manip _ => some .manip
  | .ptr _ _ => none

/-- Is it a pointer to data (language rules used by include/mockutils/type_utils.hpp 55)? -/
def Obj.isData : Obj → Bool
  | .fn => false
  | .manip => false
  | _ => true

/-- How good a standard conversion is (language rules used by include/mockutils/type_utils.hpp 55): 0 none needed, 1 promotion, 2 conversion, 3 conversion that adds more qualifiers, 4 pointer to `bool`. -/
def Builtin.rank (b : Builtin) (c : Cand) : Option Nat :=
  if b.exact = some c then some 0
  else
    match b with
    | .nullptr => if c ∈ [Cand.address, .text, .stext, .utext, .wtext, .manip, .vaddress] then some 2 else none
    | .memberPtr => if c = .bool then some 4 else none
    | .ptr o vol =>
      if c = .bool then some 4
      else if c = .address && o.isData && !vol then some 2
      else if c = .vaddress && o.isData then some (if vol then 2 else 3)
      else none
    | b =>
      if c.arithmetic then
        (if c = .int && b != .float then some 1 else some 2)
      else none

/-- A conversion of the argument to the parameter: a standard one, one with conversion function `f`, or one for which several functions are equally good (language rules used by include/mockutils/type_utils.hpp 55). -/
inductive Seq where
  | std (rank : Nat)
  | user (f : Nat) (rank : Nat)
  | ambiguous
  deriving DecidableEq, Repr

/-- Is the first conversion better (language rules used by include/mockutils/type_utils.hpp 55)? -/
def Seq.better : Seq → Seq → Bool
  | .std r, .std r' => decide (r < r')
  | .std _, _ => true
  | .user f r, .user f' r' => decide (f = f' ∧ r < r')
  | _, _ => false

/-- The conversion with one of several conversion functions, numbered from `i`: the best, if it is better than all others (language rules used by include/mockutils/type_utils.hpp 55). `none`: there is none. -/
def viaConv (c : Cand) (i : Nat) : List Conv → Option Seq
  | [] => none
  | v :: vs =>
    match v.to.rank c, viaConv c (i + 1) vs with
    | none, s => s
    | some r, none => some (.user i r)
    | some r, some (.user j r') => if r < r' then some (.user i r) else if r' < r then some (.user j r') else some .ambiguous
    | some _, some s => some s

/-- The conversion of a value of the type to the parameter of an operator of the standard library (language rules used by include/mockutils/type_utils.hpp 55). -/
def Ty.seq (t : Ty) (c : Cand) : Option Seq :=
  match t with
  | .builtin b => (b.rank c).map Seq.std
  | .enum strong _ => if strong then none else if c.arithmetic then some (.std (if c = .int then 1 else 2)) else none
  | .cls _ convs => viaConv c 0 convs

/-- The user's operators (looked up by include/mockutils/type_utils.hpp 55). -/
def Ty.ops : Ty → List Own
  | .builtin _ => []
  | .enum _ ops => ops
  | .cls ops _ => ops

/-- The functions that could be called for `s << t` with a constant `t` (language rules used by include/mockutils/type_utils.hpp 55). -/
def Ty.viable (l : Library) (t : Ty) : List (Cand × Seq) :=
  ((List.range t.ops.length).filterMap fun i => if (t.ops[i]?.map Own.takesConst).getD false then some (Cand.own i, Seq.std 0) else none) ++
    l.cands.filterMap fun c => (t.seq c).map fun s => (c, s)

/-- Overload resolution (language rules used by include/mockutils/type_utils.hpp 55): the function that is better than all others, if there is one and it is known how to convert the value. -/
def resolve (l : Library) (t : Ty) : Option (Cand × Seq) :=
  (t.viable l).find? fun x => decide (x.2 ≠ .ambiguous) && (t.viable l).all fun y => decide (y.1 = x.1) || x.2.better y.2

/-- Is the function deleted (language rules used by include/mockutils/type_utils.hpp 55)? -/
def Ty.deleted (t : Ty) : Cand → Bool
  | .own i => (t.ops[i]?.map Own.deleted).getD true
  | .wide => true
  | .wtext => true
  | _ => false

/-- Does it return `std::ostream&` (include/mockutils/type_utils.hpp 63-64)? -/
def Ty.returnsStream (t : Ty) : Cand → Bool
  | .own i => (t.ops[i]?.map Own.returnsStream).getD false
  | _ => true

/-- Does its body compile (include/mockutils/Formatter.hpp 82)? -/
def Ty.bodyCompiles (t : Ty) : Cand → Bool
  | .own i => (t.ops[i]?.map Own.bodyCompiles).getD false
  | _ => true

/-- `std::is_pointer` (include/mockutils/type_utils.hpp 62). -/
def Ty.isPointer : Ty → Bool
  | .builtin (.ptr _ _) => true
  | _ => false

/-- `std::is_arithmetic` (include/mockutils/type_utils.hpp 61). -/
def Ty.isArithmetic : Ty → Bool
  | .builtin b => b.arithmetic
  | _ => false

/-- `decltype(test(...))` is `std::ostream&` (include/mockutils/type_utils.hpp 54-57, 63-64): if `s << t` is not valid, or the type is another one, it is not. -/
def tested (l : Library) (t : Ty) : Bool :=
  match resolve l t with
  | some (c, _) => !t.deleted c && t.returnsStream c
  | none => false

/-- `is_ostreamable<T>::value` (include/mockutils/type_utils.hpp 47-65; the specialisations for manipulators, 68-84, are pointers). -/
def isOstreamable (l : Library) (t : Ty) : Bool := t.isArithmetic || t.isPointer || tested l t

/-- The specialisations of `Formatter` (include/mockutils/Formatter.hpp 18-85). -/
inductive Choice where
  | bool
  | char
  | cstring
  | question
  | stream
  deriving DecidableEq, Repr

/-- Which one is used for a type (include/mockutils/Formatter.hpp 18-19, 27-28, 40-41, 60-61, 69-75, 77-85). -/
def choose (l : Library) : Ty → Choice
  | .builtin .bool => .bool
  | .builtin .char => .char
  | .builtin (.ptr .char false) => .cstring
  | t => if isOstreamable l t then .stream else .question

/-- Does the code for printing compile (include/mockutils/Formatter.hpp 77-85)? It is compiled for every method that is mocked, because `ActualInvocation::format` is virtual (include/fakeit/ActualInvocation.hpp 57-62). -/
def compiles (l : Library) (t : Ty) : Bool :=
  match choose l t with
  | .stream =>
    match resolve l t with
    | some (c, _) => !t.deleted c && t.bodyCompiles c
    | none => false
  | _ => true

/-- What is printed (include/mockutils/Formatter.hpp 15-85). `flag`: `1` or `0`; `own i v`: what operator `i` of the user writes for `v`; `raw`, `rawText`: characters without quotes. -/
inductive Shown where
  | word (b : Bool)
  | quoted (c : Nat)
  | quotedText (s : List Nat)
  | null
  | question
  | flag (b : Bool)
  | raw (c : Nat)
  | number (n : Nat)
  | address (p : Nat)
  | rawText (s : List Nat)
  | nothing
  | nullptr
  | own (i v : Nat)
  deriving DecidableEq, Repr

/-- A C string is read, given the bytes that can be read from its address on (the loops in the standard library behind include/mockutils/Formatter.hpp 49, 82): up to the first zero, `none` if there is none. -/
def cstring : List Nat → Option (List Nat)
  | [] => none
  | b :: bs => if b = 0 then some [] else (cstring bs).map (b :: ·)

/-- `os << v` with the function found (standard library, called by include/mockutils/Formatter.hpp 82). Null is not a C string. -/
def write (mem : Nat → List Nat) (c : Cand) (v : Nat) : R Shown :=
  let text : R Shown := if v = 0 then .ub else (R.ofOption (cstring (mem v))).bind fun s => .done (.rawText s)
  match c with
  | .own i => .done (.own i v)
  | .bool => .done (.flag (decide (v ≠ 0)))
  | .char => .done (.raw v)
  | .schar => .done (.raw v)
  | .uchar => .done (.raw v)
  | .int => .done (.number v)
  | .float => .done (.number v)
  | .address => .done (.address v)
  | .text => text
  | .stext => text
  | .utext => text
  | .manip => .done .nothing
  | .nullptr => .done .nullptr
  | .wide => .done (.raw v)
  | .wtext => text
  | .vaddress => .done (.address v)

/-- The value passed to the function found (language rules used by include/mockutils/Formatter.hpp 82). -/
def Ty.converted (t : Ty) (s : Seq) (v : Nat) : Nat :=
  match t, s with
  | .cls _ convs, .user f _ => ((convs[f]?).map fun k => k.give v).getD v
  | _, _ => v

/-- `TypeFormatter<T>::format(v)` (include/mockutils/Formatter.hpp 15-89). `none`: it does not compile. -/
def format (l : Library) (mem : Nat → List Nat) (t : Ty) (v : Nat) : Option (R Shown) :=
  match choose l t with
  -- 23
  | .bool => some (.done (.word (decide (v ≠ 0))))
  -- 32-36
  | .char => some (.done (.quoted v))
  -- 46-56, 65
  | .cstring => some (if v ≠ 0 then (R.ofOption (cstring (mem v))).bind fun s => .done (.quotedText s) else .done .null)
  -- 73
  | .question => some (.done .question)
  -- 81-83
  | .stream =>
    match resolve l t with
    | some (c, s) => if !t.deleted c && t.bodyCompiles c then some (write mem c (t.converted s v)) else none
    | none => none

end FakeIt.Printing
