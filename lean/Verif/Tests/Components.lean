import Verif.Tests.Kit
import Verif.Model.ArgText
import Verif.Model.Adapters
import Verif.Model.Assign
import Verif.Model.Events
import Verif.Model.Naming
/-!
# Tests that also use the models of arguments, messages, `ReturnAndSet`, listeners and overloads

tests/argument_matching_tests.cpp, tests/default_event_formatting_tests.cpp, the `ReturnAndSet` tests of tests/stubbing_tests.cpp, tests/event_notification_tests.cpp,
tests/overloadded_methods_tests.cpp.
-/
namespace FakeIt.Tests.Components

/-! ## tests/argument_matching_tests.cpp -/

/-- The comparisons of `int` (tests/argument_matching_tests.cpp 84). -/
def intOps : Ops Int := { eq := fun a b => a == b, ne := fun a b => a != b, lt := fun a b => a < b, le := fun a b => a ≤ b, gt := fun a b => a > b, ge := fun a b => a ≥ b }

/-- `.Using(Gt(v))` and the like (tests/argument_matching_tests.cpp 138). -/
def usingCmp (l : Leaf Int) (c : Cmp) (v : Int) : Leaf Int := { l with kind := .args [c.matches intOps v] }

/-- `.Using(…)` with some values and `_` elsewhere (tests/argument_matching_tests.cpp 98-101). -/
def usingSome (l : Leaf Int) (vs : List (Option Int)) : Leaf Int := { l with kind := .args (vs.map fun | some v => fun x => x == v | none => fun _ => true) }

/-- `SomeInterface` (tests/argument_matching_tests.cpp 83-93). -/
def P : Prog Int Int := program (plainClass 9)

/-- `Method(mock, func)` (tests/argument_matching_tests.cpp 84). -/
def func : Leaf Int := method 0 0
/-- `Method(mock, func2)` (tests/argument_matching_tests.cpp 85). -/
def func2 : Leaf Int := method 0 1
/-- `i.func(v)` (tests/argument_matching_tests.cpp 127). -/
def c (v r : Int) : Line := call 0 0 [v] (.returns r)
/-- `i.func2(v, s)`; strings are numbers here (tests/argument_matching_tests.cpp 105). -/
def c2 (v s r : Int) : Line := call 0 1 [v, s] (.returns r)

/-- mixed_matchers (tests/argument_matching_tests.cpp 95-117). -/
example : passes P
    [mock 0, when_ (usingSome func2 [none, none]) [ret 0], when_ (usingSome func2 [some 1, none]) [ret 1], when_ (usingSome func2 [some 2, none]) [ret 2],
     when_ (usingSome func2 [none, some 3]) [ret 3], c2 10 2 0, c2 1 2 1, c2 2 2 2, c2 1 3 3,
     when_ (usingSome func2 [some 4, some 4]) [ret 4], when_ (usingSome func2 [some 5, some 5]) [ret 5], when_ (usingSome func2 [some 6, some 6]) [ret 6],
     c2 4 4 4, c2 5 5 5, c2 6 6 6] = true := by decide +kernel

/-- test_eq_matcher (tests/argument_matching_tests.cpp 119-132). -/
example : passes P
    [mock 0, when_ (usingCmp func .eq 1) [ret 1], when_ (usingCmp func .eq 2) [ret 2], c 1 1, c 2 2, verify [one (usingCmp func .eq 1)] .once,
     verify [one (usingCmp func .eq 2)] .once] = true := by decide +kernel

/-- test_gt_matcher (tests/argument_matching_tests.cpp 134-147). -/
example : passes P
    [mock 0, when_ (usingCmp func .gt 1) [always 1], when_ (usingCmp func .gt 2) [always 2], c 2 1, c 3 2, verify [one (usingCmp func .gt 2)] .once,
     verify [one (usingCmp func .gt 3)] .never] = true := by decide +kernel

/-- test_ge_matcher (tests/argument_matching_tests.cpp 149-164). -/
example : passes P
    [mock 0, when_ func [always (-1)], when_ (usingCmp func .ge 1) [always 1], when_ (usingCmp func .ge 2) [always 2], c 0 (-1), c 1 1, c 2 2,
     verify [one (usingCmp func .ge 1)] .twice, verify [one (usingCmp func .ge 2)] .once] = true := by decide +kernel

/-- test_lt_matcher (tests/argument_matching_tests.cpp 166-179). -/
example : passes P
    [mock 0, when_ (usingCmp func .lt 1) [always 1], when_ (usingCmp func .lt 2) [always 2], c 1 2, c 0 2, verify [one (usingCmp func .lt 2)] .twice,
     verify [one (usingCmp func .lt 1)] .once] = true := by decide +kernel

/-- test_le_matcher (tests/argument_matching_tests.cpp 181-196). -/
example : passes P
    [mock 0, when_ func [always (-1)], when_ (usingCmp func .le 1) [always 1], when_ (usingCmp func .le 2) [always 2], c 2 2, c 1 2, c 3 (-1),
     verify [one (usingCmp func .le 2)] .twice, verify [one (usingCmp func .le 1)] .once] = true := by decide +kernel

/-- test_ne_matcher (tests/argument_matching_tests.cpp 198-211). -/
example : passes P
    [mock 0, when_ func [always (-1)], when_ (usingCmp func .ne 1) [always 1], c 2 1, c 1 (-1), verify [one (usingCmp func .ne 1)] .once,
     verify [one (usingCmp func .ne 10)] .twice] = true := by decide +kernel

/-- test_any_matcher, test_any_matcher2 and test_any_matcher3 (tests/argument_matching_tests.cpp 323-360). -/
example : passes P [mock 0, when_ (usingSome func [none]) [always 1], c 2 1, c 1 1, verify [one (usingSome func [none])] .twice] = true := by decide +kernel

/-- test_any_matcher_weird_constructor (tests/argument_matching_tests.cpp 362-374). -/
example : passes P
    [mock 0, when_ (usingSome func2 [some 1, none]) [always 1], when_ (usingSome func2 [some 5, none]) [always 5], c2 1 10 1, c2 5 50 5,
     verify [one (usingSome func2 [some 1, none])] .once, verify [one (usingSome func2 [some 5, none])] .once] = true := by decide +kernel

/-- The strings of the tests below: 0 to 8 are aa, ab, ba, bb, bc, cb, cc, first, second (tests/argument_matching_tests.cpp 213-307). -/
def strings : Int → List UInt8
  | 0 => [97, 97] | 1 => [97, 98] | 2 => [98, 97] | 3 => [98, 98] | 4 => [98, 99] | 5 => [99, 98] | 6 => [99, 99]
  | 7 => [102, 105, 114, 115, 116]
  | _ => [115, 101, 99, 111, 110, 100]

/-- `.Using(StrGt(s))` and the like (tests/argument_matching_tests.cpp 234). -/
def usingStr (c : Cmp) (s : Int) : Leaf Int :=
  { method 0 3 with kind := .args [fun a => match c.matchesStr (strings s) (some (cStr (strings a))) with | .done b => b | _ => false] }

/-- Two stubs, two calls, two verifications: the form of the tests of strings (tests/argument_matching_tests.cpp 229-243). -/
def strTest (c : Cmp) (s1 s2 a1 a2 : Int) (q1 q2 : Quant) : Bool :=
  passes P [mock 0, when_ (usingStr c s1) [ret 1], when_ (usingStr c s2) [ret 2], call 0 3 [a1] (.returns 1), call 0 3 [a2] (.returns 2), verify [one (usingStr c s1)] q1,
    verify [one (usingStr c s2)] q2]

/-- test_str_eq_matcher (tests/argument_matching_tests.cpp 213-227). -/
example : strTest .eq 7 8 7 8 .once .once = true := by decide +kernel
/-- test_str_gt_matcher (tests/argument_matching_tests.cpp 229-243). -/
example : strTest .gt 0 3 1 4 .twice .once = true := by decide +kernel
/-- test_str_ge_matcher (tests/argument_matching_tests.cpp 245-259). -/
example : strTest .ge 0 3 1 3 .twice .once = true := by decide +kernel
/-- test_str_lt_matcher (tests/argument_matching_tests.cpp 261-275). -/
example : strTest .lt 6 3 5 2 .twice .once = true := by decide +kernel
/-- test_str_le_matcher (tests/argument_matching_tests.cpp 277-291). -/
example : strTest .le 6 3 6 2 .twice .once = true := by decide +kernel
/-- test_str_ne_matcher (tests/argument_matching_tests.cpp 293-307). -/
example : strTest .ne 7 8 8 7 .once .once = true := by decide +kernel

/-! ## Messages: tests/default_event_formatting_tests.cpp and the `format_` tests of tests/argument_matching_tests.cpp -/

/-- The state after the lines of a test, whatever they give (tests/default_event_formatting_tests.cpp 76-86). -/
def after (P : Prog Int Int) : World Int Int → List Line → World Int Int
  | w, [] => w
  | w, .op o _ :: rest =>
    match opStep P 9 w o with
    | .done (_, w') => after P w' rest
    | _ => after P w rest
  | w, _ :: rest => after P w rest

/-- The text of the last event, with the position that the macros (here `setFileInfo`) give to verifications; `names` are the names of methods in the order in which they are first used, and the
verification that failed had the pattern `pat` (tests/default_event_formatting_tests.cpp 105-120). -/
def message (names : Nat → String) (pat : List (Seq Text)) (test : List Line) : Option String :=
  let w := after P (World.start fun _ => 0) (number 0 test)
  let invText (i : Invocation Int) : Text := invocationText (str (names i.method)) (i.args.map fun | .val v => decimalInt v | .ref _ => str "?")
  w.log.getLast?.map fun e => String.ofList (match e with
    | .unexpectedCall _ _ => (Framework.handle true (formatEvent id pat invText e) .standalone none).message
    | _ => (Framework.handle true (formatEvent id pat invText e) .standalone (some { file := str "test file", line := 1 })).message)

/-- The unknown method, and the first one (tests/default_event_formatting_tests.cpp 82, 99). -/
def names : Nat → String
  | 0 => "unknown"
  | _ => "mock.func"

/-- `mock.func( Any arguments )` in a pattern (tests/default_event_formatting_tests.cpp 113). -/
def anyFunc : Seq Text := .leaf (leafText (str "mock.func") .any)

/-- `mock.func(v)` (tests/default_event_formatting_tests.cpp 262). -/
def named (f : String) (v : Int) : Seq Text := .leaf (leafText (str f) (.args [decimalInt v]))

/-- format_UnmockedMethodCallEvent (tests/default_event_formatting_tests.cpp 73-87). -/
example : message names [] [mock 0, call 0 0 [1]] =
    some "Unexpected method invocation: unknown()\n  An unmocked method was invoked. All used virtual methods must be stubbed!" := by decide +kernel

/-- format_UnmatchedMethodCallEvent (tests/default_event_formatting_tests.cpp 89-103). -/
example : message names [] [mock 0, fake [using_ func [3]], call 0 0 [1]] =
    some "Unexpected method invocation: mock.func(1)\n  Could not find any recorded behavior to support this method call." := by decide +kernel

/-- format_AnyArguments and format_Exactly_Once (tests/default_event_formatting_tests.cpp 105-138). -/
example : message names [anyFunc] [mock 0, verify [one func] (.exactly 1)] =
    some ("test file:1: Verification error\nExpected pattern: mock.func( Any arguments )\nExpected matches: exactly 1\nActual matches  : 0\n" ++
      "Actual sequence : total of 0 actual invocations.") := by decide +kernel

/-- format_Atleast_Once (tests/default_event_formatting_tests.cpp 140-156). -/
example : message names [anyFunc] [mock 0, verify [one func] (.atLeast 1)] =
    some ("test file:1: Verification error\nExpected pattern: mock.func( Any arguments )\nExpected matches: at least 1\nActual matches  : 0\n" ++
      "Actual sequence : total of 0 actual invocations.") := by decide +kernel

/-- format_NoMoreInvocations_VerificationFailure (tests/default_event_formatting_tests.cpp 158-177). -/
example : message names [] [mock 0, fake [func], call 0 0 [1], call 0 0 [2], verify [one (using_ func [1])], noOther [.ctx func]] =
    some "test file:1: Verification error\nExpected no more invocations!! but the following unverified invocations were found:\n  mock.func(2)" := by decide +kernel

/-- format_UserDefinedMatcher_in_expected_pattern (tests/default_event_formatting_tests.cpp 179-200). -/
example : message names [.leaf (leafText (str "mock.func") .user)] [mock 0, when_ func [ret 0], verify [one (matching func fun _ => true)] (.exactly 2)] =
    some ("test file:1: Verification error\nExpected pattern: mock.func( user defined matcher )\nExpected matches: exactly 2\nActual matches  : 0\n" ++
      "Actual sequence : total of 0 actual invocations.") := by decide +kernel

/-- The arguments of `all_types`; the last two are floating point numbers, which the model does not print, here integers (tests/default_event_formatting_tests.cpp 207). -/
def allTypes : List TextVal := [.char 'a', .bool true, .int 1, .int 1, .int 1, .int 1, .int 0, .int 0]

/-- format_actual_arguments: the line of the call (tests/default_event_formatting_tests.cpp 202-226). -/
example : (match callText (fun _ => none) (str "mock.all_types") allTypes with | .done t => String.ofList t | _ => "") = "mock.all_types('a', true, 1, 1, 1, 1, 0, 0)" := by decide +kernel

/-- What argument matchers print, one after the other (tests/default_event_formatting_tests.cpp 233). -/
def matcherTexts : List ArgMatcher → List Text
  | [] => []
  | m :: ms => (match m.format (fun _ => none) with | .done t => t | _ => []) :: matcherTexts ms

/-- format_expected_arguments: the pattern (tests/default_event_formatting_tests.cpp 228-248). -/
example : String.ofList (leafText (str "mock.all_types") (.args (matcherTexts (allTypes.map (.cmp .eq))))) = "mock.all_types('a', true, 1, 1, 1, 1, 0, 0)" := by decide +kernel

/-- format_expected_concatenated_sequence (tests/default_event_formatting_tests.cpp 250-269). -/
example : message names [.opPlus (named "mock.func" 1) (named "mock.proc" 2)] [mock 0, verify [.opPlus (one (using_ func [1])) (one (using_ func2 [2]))]] =
    some ("test file:1: Verification error\nExpected pattern: mock.func(1) + mock.proc(2)\nExpected matches: at least 1\nActual matches  : 0\n" ++
      "Actual sequence : total of 0 actual invocations.") := by decide +kernel

/-- format_expected_repeated_sequence (tests/default_event_formatting_tests.cpp 271-290). -/
example : message names [.rep (named "mock.func" 1) 2] [mock 0, verify [times (one (using_ func [1])) 2]] =
    some ("test file:1: Verification error\nExpected pattern: mock.func(1) * 2\nExpected matches: at least 1\nActual matches  : 0\n" ++
      "Actual sequence : total of 0 actual invocations.") := by decide +kernel

/-- format_complex_sequence: the two patterns (tests/default_event_formatting_tests.cpp 292-330). -/
example : String.ofList (formatPattern id [.rep (.opPlus (named "mock.func" 1) (named "mock.proc" 1)) 2]) = "(mock.func(1) + mock.proc(1)) * 2" ∧
    String.ofList (formatPattern id [.rep (.rep (named "mock.func" 1) 2) 2]) = "(mock.func(1) * 2) * 2" := by decide +kernel

/-- format_Any, format_Eq, format_Gt, format_Ge, format_Lt, format_Le and format_Ne: what is in the parentheses (tests/argument_matching_tests.cpp 388-498). -/
example : (matcherTexts [.any, .cmp .eq (.int 1), .cmp .gt (.int 1), .cmp .ge (.int 1), .cmp .lt (.int 1), .cmp .le (.int 1), .cmp .ne (.int 1)]).map String.ofList =
    ["Any", "1", ">1", ">=1", "<1", "<=1", "!=1"] := by decide +kernel

/-- format_StrEq, format_StrGt, format_StrGe, format_StrLt, format_StrLe and format_StrNe: what is in the parentheses (tests/argument_matching_tests.cpp 500-594). -/
example : (matcherTexts [.cmp .eq (.string (str "first")), .cmp .gt (.string (str "first")), .cmp .ge (.string (str "first")), .cmp .lt (.string (str "first")),
      .cmp .le (.string (str "first")), .cmp .ne (.string (str "first"))]).map String.ofList =
    ["first", ">first", ">=first", "<first", "<=first", "!=first"] := by decide +kernel

/-- format_ApproxEq: the margin 0.1 is given as its text (tests/argument_matching_tests.cpp 596-610). -/
example : (matcherTexts [.approx (.int 5) (.string (str "0.1"))]).map String.ofList = ["5+/-0.1"] := by decide +kernel

/-! ## `ReturnAndSet`: tests/stubbing_tests.cpp -/

/-- What the actions return and leave in the variables `a` (at address 0) and `b` (at address 1), for one call after the other (tests/stubbing_tests.cpp 146-149). -/
def sets : List (Mem Int → R (Int × Mem Int)) → Mem Int → List (Int × Option Int × Option Int)
  | [], _ => []
  | f :: fs, m =>
    match f m with
    | .done (r, m') => (r, m' 0, m' 1) :: sets fs m'
    | _ => []

/-- `int a = 0, b = 0;` (tests/stubbing_tests.cpp 146). -/
def vars : Mem Int := fun a => if a < 2 then some 0 else none

/-- Pointer to `a` and reference to `b` (tests/stubbing_tests.cpp 147). -/
def params : List (Option Addr) := [some 0, some 1]

/-- A method returning nothing, for `sets` (tests/stubbing_tests.cpp 156). -/
def proc (f : Mem Int → R (Mem Int)) (m : Mem Int) : R (Int × Mem Int) := do
  let m ← f m
  .done (0, m)

/-- stub_a_function_to_set_specified_values_once: `ReturnAndSet(1, 2, 3)`, then `(4, 5)`, `(6, 7)`, `(8)` (tests/stubbing_tests.cpp 139-170). -/
example : sets [assigner 1 [.lit 2, .lit 3] params, proc (assignerVoid [.lit 4, .lit 5] params), proc (assignerVoid [.lit 6, .lit 7] params), proc (assignerVoid [.lit 8] params)] vars =
    [(1, some 2, some 3), (0, some 4, some 5), (0, some 6, some 7), (0, some 8, some 7)] := by decide +kernel

/-- stub_a_function_to_set_specified_values_once_form2 (tests/stubbing_tests.cpp 172-203). -/
example : sets [assignerIndexed 1 [(2, .lit 3), (1, .lit 2)] params, proc (assignIndexed [(1, .lit 4), (2, .lit 5)] 1 params), proc (assignIndexed [(2, .lit 6), (1, .lit 7)] 1 params),
      proc (assignIndexed [(2, .lit 8)] 1 params)] vars =
    [(1, some 2, some 3), (0, some 4, some 5), (0, some 7, some 6), (0, some 7, some 8)] := by decide +kernel

/-- stub_a_function_to_set_specified_values_once_form2_convertible_not_assignable: only the first and only the second parameter are set (tests/stubbing_tests.cpp 205-225). -/
example : sets [assignerIndexed 1 [(1, .lit 3)] params] vars = [(1, some 3, some 0)] ∧ sets [proc (assignIndexed [(2, .lit 5)] 1 params)] vars = [(0, some 0, some 5)] := by decide +kernel

/-- stub_a_function_to_set_specified_values_always (tests/stubbing_tests.cpp 249-274). -/
example : sets [assigner 1 [.lit 2, .lit 3] params, proc (assignerVoid [.lit 4, .lit 5] params), assigner 1 [.lit 2, .lit 3] params, proc (assignerVoid [.lit 4, .lit 5] params)] vars =
    [(1, some 2, some 3), (0, some 4, some 5), (1, some 2, some 3), (0, some 4, some 5)] := by decide +kernel

/-- stub_a_function_to_set_specified_values_always_form2: of several values for a parameter the last one counts (tests/stubbing_tests.cpp 276-306). -/
example : sets [assignerIndexed 1 [(1, .lit 2), (2, .lit 3)] params, proc (assignIndexed [(1, .lit 40), (2, .lit 50), (1, .lit 4), (2, .lit 5)] 1 params),
      assignerIndexed 1 [(2, .lit 3)] params, proc (assignIndexed [(1, .lit 40), (2, .lit 50), (1, .lit 4), (2, .lit 5)] 1 params), assignerIndexed 1 [(1, .lit 2)] params] vars =
    [(1, some 2, some 3), (0, some 4, some 5), (1, some 4, some 3), (0, some 4, some 5), (1, some 2, some 5)] := by decide +kernel

/-! ## tests/event_notification_tests.cpp -/

/-- The kinds of events (tests/event_notification_tests.cpp 45-55). -/
def kind : Event Int → String
  | .unexpectedCall _ _ => "UnexpectedMethodCallEvent"
  | .sequence _ _ _ _ => "SequenceVerificationEvent"
  | .noMoreInvocations _ _ => "NoMoreInvocationsVerificationEvent"

/-- What is thrown to the test when the listener of the tests (number 7) is registered, and who was told; the framework's adapter is number 0 (tests/event_notification_tests.cpp 34-56, 100-103). -/
def listened (test : List Line) : Option (Option String × List Told) :=
  ((after P (World.start fun _ => 0) (number 0 test)).log.getLast?).bind fun e =>
    match handleEvent (fun h e => { throws := if h = 7 then some (kind e) else some "adapter" }) e { listeners := [7], builtin := 0 } with
    | .done (x, _, told) => some (x, told)
    | _ => none

/-- handle_UnexpectedMethodCallEvent (tests/event_notification_tests.cpp 110-122). -/
example : listened [mock 0, call 0 0 [1]] = some (some "UnexpectedMethodCallEvent", [.listener 7]) := by decide +kernel

/-- handle_SequenceVerificationEvent (tests/event_notification_tests.cpp 124-134). -/
example : listened [mock 0, verify [one func] (.exactly 1)] = some (some "SequenceVerificationEvent", [.listener 7]) := by decide +kernel

/-- handle_NoMoreInvocationsVerificationEvent (tests/event_notification_tests.cpp 136-152). -/
example : listened [mock 0, fake [func], call 0 0 [1], call 0 0 [2], verify [one (using_ func [1])], noOther [.ctx func]] =
    some (some "NoMoreInvocationsVerificationEvent", [.listener 7]) := by decide +kernel

/-- ShouldThrow_UnexpectedMethodCallException_IfAdapterDidNotThrowException_WhenHandlingAnUnmatchedInvocation (tests/event_notification_tests.cpp 154-167). -/
example : listened [mock 0, fake [using_ func [1]], call 0 0 [100]] = some (some "UnexpectedMethodCallEvent", [.listener 7]) := by decide +kernel

/-- ShouldThrow_UnexpectedMethodCallException_IfAdapterDidNotThrowException_WhenHandlingNoMoreRecordedActionException (tests/event_notification_tests.cpp 169-183). -/
example : listened [mock 0, when_ func [ret 0], call 0 0 [1], call 0 0 [1]] = some (some "UnexpectedMethodCallEvent", [.listener 7]) := by decide +kernel

/-! ## tests/overloadded_methods_tests.cpp -/

open FakeIt.Naming

/-- A virtual member function; name 0 is `func`, 1 is `proc`; types: 1 int, 2 std::string, 3 double, 4 int&, 5 int*, 6 const int, 7 const int&, 8 std::string*
(tests/overloadded_methods_tests.cpp 18-37). -/
def member (name : Nat) (ret : Ret) (params : List Nat) (q : Proto := .plain) : Decl := { name, params, ellipsis := false, qual := q.qual, ret, virt := true }

/-- Nothing is returned (tests/overloadded_methods_tests.cpp 33). -/
def nothing : Ret := .void false false

/-- `SomeInterface` (tests/overloadded_methods_tests.cpp 18-37). -/
def someInterface : List Cls :=
  [{ decls := [member 0 (.val 1) [], member 0 (.val 1) [] .const_, member 0 (.val 1) [1], member 0 (.val 1) [1, 2], member 0 (.val 6) [3], member 0 (.val 4) [1, 1],
      member 0 (.val 5) [1, 1, 1], member 1 nothing [], member 1 nothing [7, 8]], usings := [] }]

/-- stub_overloaded_methods, stub_const_overloaded_methods and stub_overloaded_methods_with_templates: each expression names the method in the order of the class
(tests/overloadded_methods_tests.cpp 51-100). -/
example :
    overloaded someInterface 0 .plain (.val 1) [] = .slot 0 (.val 1) ∧ overloaded someInterface 0 .const_ (.val 1) [] = .slot 1 (.val 1) ∧
    overloaded someInterface 0 .plain (.val 1) [1] = .slot 2 (.val 1) ∧ overloaded someInterface 0 .plain (.val 1) [1, 2] = .slot 3 (.val 1) ∧
    overloaded someInterface 0 .plain (.val 6) [3] = .slot 4 (.val 6) ∧ overloaded someInterface 0 .plain (.val 4) [1, 1] = .slot 5 (.val 4) ∧
    overloaded someInterface 0 .plain (.val 5) [1, 1, 1] = .slot 6 (.val 5) ∧ overloaded someInterface 1 .plain nothing [] = .slot 7 nothing ∧
    overloaded someInterface 1 .plain nothing [7, 8] = .slot 8 nothing := by decide +kernel

/-- `SomeModernCppInterface` (tests/overloadded_methods_tests.cpp 102-114). -/
def modern : List Cls :=
  [{ decls := [member 0 (.val 1) [] .ref, member 0 (.val 1) [1] .ref, member 0 (.val 1) [1] .constRef, member 0 (.val 1) [1] .rvalRef, member 0 (.val 1) [1] .constRvalRef,
      member 1 nothing [1] .ref, member 1 nothing [1] .constRef, member 1 nothing [1] .rvalRef, member 1 nothing [1] .constRvalRef], usings := [] }]

/-- stub_modern_overloaded_methods, stub_modern_rvalref_overloaded_method, stub_modern_constrvalref_overloaded_method and stub_modern_overloaded_proc
(tests/overloadded_methods_tests.cpp 116-188). -/
example :
    overloaded modern 0 .ref (.val 1) [1] = .slot 1 (.val 1) ∧ overloaded modern 0 .constRef (.val 1) [1] = .slot 2 (.val 1) ∧
    overloaded modern 0 .rvalRef (.val 1) [1] = .slot 3 (.val 1) ∧ overloaded modern 0 .constRvalRef (.val 1) [1] = .slot 4 (.val 1) ∧
    overloaded modern 1 .ref nothing [1] = .slot 5 nothing ∧ overloaded modern 1 .constRef nothing [1] = .slot 6 nothing ∧
    overloaded modern 1 .rvalRef nothing [1] = .slot 7 nothing ∧ overloaded modern 1 .constRvalRef nothing [1] = .slot 8 nothing := by decide +kernel

end FakeIt.Tests.Components
