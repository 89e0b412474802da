import Verif.Model.Format
import Verif.Model.Result
import Verif.Model.ArgMatchers
/-!
# Texts of arguments and argument matchers (include/mockutils/Formatter.hpp, include/fakeit/argument_matchers.hpp)
-/
namespace FakeIt

/-- The types of arguments as far as their text is concerned (the specialisations of include/mockutils/Formatter.hpp 15-81). Other streamable types, such as
addresses and floating point numbers, are not modelled. -/
inductive TextType where
  | bool
  | char
  /-- `char const*`, `char*` -/
  | cstring
  /-- types without `operator<<` -/
  | opaque
  /-- integers, printed by `operator<<` -/
  | int
  /-- `signed char`, `unsigned char`, printed by `operator<<` -/
  | byte
  /-- `std::string`, printed by `operator<<` -/
  | string
  deriving DecidableEq, Repr

/-- Argument values. A C string is an address, zero for the null pointer (what include/mockutils/Formatter.hpp 15-81 distinguishes). -/
inductive TextVal where
  | bool (b : Bool)
  | char (c : Char)
  | cstring (p : Nat)
  | opaque (state : Int)
  | int (n : Int)
  | byte (c : Char)
  | string (s : Text)
  deriving DecidableEq

/-- The type of a value (plumbing) (include/mockutils/Formatter.hpp 15-81). -/
def TextVal.type : TextVal → TextType
  | .bool _ => .bool
  | .char _ => .char
  | .cstring _ => .cstring
  | .opaque _ => .opaque
  | .int _ => .int
  | .byte _ => .byte
  | .string _ => .string

/-- `Formatter<T>::format` (include/mockutils/Formatter.hpp 15-81). `mem` gives the C string at an address; reading from an address where there is none is
undefined. -/
def TextVal.format (mem : Nat → Option Text) : TextVal → R Text
  -- 21-24
  | .bool b => .done (if b then str "true" else str "false")
  -- 30-37
  | .char c => .done (['\''] ++ [c] ++ ['\''])
  -- 43-57, 63-66
  | .cstring p => if p ≠ 0 then do
      let s ← R.ofOption (mem p)
      .done (['"'] ++ s ++ ['"'])
    else .done (str "[nullptr]")
  -- 69-75
  | .opaque _ => .done ['?']
  -- 77-85
  | .int n => .done (decimalInt n)
  | .byte c => .done [c]
  | .string s => .done s

/-- Texts of several values, in order (`TuplePrinter`, include/mockutils/TuplePrinter.hpp 19-40). -/
def formatAll (mem : Nat → Option Text) : List TextVal → R (List Text)
  | [] => .done []
  | v :: vs => do
    let t ← v.format mem
    let ts ← formatAll mem vs
    .done (t :: ts)

/-- `ActualInvocation::format` (include/fakeit/ActualInvocation.hpp 57-62): the arguments are formatted when the text is needed, not when the call is made. -/
def callText (mem : Nat → Option Text) (name : Text) (args : List TextVal) : R Text := do
  let ts ← formatAll mem args
  .done (invocationText name ts)

/-- Argument matchers with their expected values; `approx` is `ApproxEq` (include/fakeit/argument_matchers.hpp 79-482). -/
inductive ArgMatcher where
  | any
  | cmp (c : Cmp) (expected : TextVal)
  | approx (expected margin : TextVal)
  deriving DecidableEq

/-- `Matcher::format` (include/fakeit/argument_matchers.hpp 70-72, 96-98, 126-128, 156-158, 186-188, 216-218, 246-248, 470-472; the `Str` variants 276-278,
306-308, 336-338, 366-368, 396-398, 426-428 are the same with a `std::string`). -/
def ArgMatcher.format (mem : Nat → Option Text) : ArgMatcher → R Text
  | .any => .done (str "Any")
  | .cmp c v => do
    let t ← v.format mem
    .done ((match c with
      | .eq => []
      | .gt => ['>']
      | .ge => ['>', '=']
      | .lt => ['<']
      | .le => ['<', '=']
      | .ne => ['!', '=']) ++ t)
  | .approx v m => do
    let t ← v.format mem
    let u ← m.format mem
    .done (t ++ ['+', '/', '-'] ++ u)

end FakeIt
