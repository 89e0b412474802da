import Verif.Tests.Kit
/-!
# tests/stubbing_tests.cpp and tests/gcc_stubbing_multiple_values_tests.cpp

`ReturnAndSet` has its own model (`FakeIt.Assign`); its tests are in `Verif.Tests.Components`.
-/
namespace FakeIt.Tests.Stubbing

/-- The callables of the tests: 0 and 1 return their argument and one more (tests/stubbing_tests.cpp 337-339, 354-356), 2 and 3 assign them to `a` (340-342, 357-359), 4 throws its argument
(429-431), 5 is `(*x)++` on a pointer to a variable that is 0 (846-849), 6 writes the sum to the third parameter (864-867), 7 and 8 return 1 and 2 (761-765), 9 throws a string, here 77 (497-499). -/
def fn : FnId → List Int → Body Int Int
  | 0, [v] => .done (.ret v)
  | 1, [v] => .done (.ret (v + 1))
  | 2, [v] => .api (.write 0 v) fun _ => .done (.ret 0)
  | 3, [v] => .api (.write 0 (v + 1)) fun _ => .done (.ret 0)
  | 4, [v] => .done (.exc v)
  | 5, [v] => .setArg 0 (v + 1) (.done (.ret 0))
  | 6, [a, b, _] => .setArg 2 (a + b) (.done (.ret 1))
  | 7, _ => .done (.ret 1)
  | 8, _ => .done (.ret 2)
  | 9, _ => .done (.exc 77)
  | _, _ => .done (.ret 0)

/-- `SomeInterface`: func is number 0, proc number 1; the methods for `ReturnAndSet` are elsewhere (tests/stubbing_tests.cpp 62-73). -/
def P : Prog Int Int := program (plainClass 9 none 1) fn

/-- `Method(mock, func)` (tests/stubbing_tests.cpp 63). -/
def func : Leaf Int := method 0 0
/-- `Method(mock, proc)` (tests/stubbing_tests.cpp 69). -/
def proc : Leaf Int := method 0 1
/-- `i.func(v)` (tests/stubbing_tests.cpp 79). -/
def c (v : Int) (want : Want) : Line := call 0 0 [v] want
/-- `i.proc(v)` (tests/stubbing_tests.cpp 94). -/
def d (v : Int) (want : Want := .ok) : Line := call 0 1 [v] want
/-- `a = 0` (tests/stubbing_tests.cpp 390). -/
def zero : Line := .op (.api (.write 0 0)) .ok

/-- calling_an_unstubbed_method_should_raise_UnmockedMethodCallException (tests/stubbing_tests.cpp 75-83). -/
example : passes P [mock 0, c 1 .unexpected] = true := by decide +kernel

/-- stub_method_to_default_behaviore_will_always_return_the_default_behaviore (tests/stubbing_tests.cpp 85-98). -/
example : passes P [mock 0, fake [func], fake [proc], c 1 (.returns 0), d 1, c 1 (.returns 0), d 1] = true := by decide +kernel

/-- stub_multiple_methods_to_default_behaviore (tests/stubbing_tests.cpp 100-112). -/
example : passes P [mock 0, fake [func, proc], c 1 (.returns 0), d 1, c 1 (.returns 0), d 1] = true := by decide +kernel

/-- stub_a_function_to_return_a_specified_value_once (tests/stubbing_tests.cpp 114-126). -/
example : passes P [mock 0, when_ func [ret 1], c 1 (.returns 1), c 1 .unexpected] = true := by decide +kernel

/-- stub_a_function_to_return_a_specified_value_always (tests/stubbing_tests.cpp 128-137). -/
example : passes P [mock 0, when_ func [always 1], c 1 (.returns 1), c 1 (.returns 1)] = true := by decide +kernel

/-- stub_a_method_to_throw_a_specified_exception_once (tests/stubbing_tests.cpp 308-330). -/
example : passes P [mock 0, when_ func [thr 70], when_ proc [thr 71], c 1 (.throws 70), d 1 (.throws 71), c 1 .unexpected, d 1 .unexpected] = true := by decide +kernel

/-- stub_a_method_with_lambda_delegate_once (tests/stubbing_tests.cpp 332-368). -/
example : passes P
    [mock 0, when_ func [do_ 0], when_ proc [do_ 2], c 3 (.returns 3), d 3, .var 0 3, c 3 .unexpected, d 3 .unexpected,
     when_ func [do_ 1], when_ proc [do_ 3], c 3 (.returns 4), d 3, .var 0 4, c 3 .unexpected, d 3 .unexpected] = true := by decide +kernel

/-- stub_a_method_with_lambda_delegate_always (tests/stubbing_tests.cpp 370-410). -/
example : passes P
    [mock 0, when_ func [alwaysDo 0], when_ proc [alwaysDo 2], c 3 (.returns 3), c 3 (.returns 3), d 3, .var 0 3, zero, d 3, .var 0 3,
     when_ func [alwaysDo 1], when_ proc [alwaysDo 3], c 3 (.returns 4), c 3 (.returns 4), d 3, .var 0 4, zero, d 3, .var 0 4] = true := by decide +kernel

/-- stub_a_method_with_static_method_delegate (tests/stubbing_tests.cpp 433-450). -/
example : passes P [mock 0, when_ func [do_ 0], when_ proc [do_ 4], c 3 (.returns 3), c 3 .unexpected, d 1 (.throws 1), d 1 .unexpected] = true := by decide +kernel

/-- stub_by_assignment_with_lambda_delegate (tests/stubbing_tests.cpp 452-486). -/
example : passes P
    [mock 0, assign func 0, assign proc 2, c 3 (.returns 3), c 4 (.returns 4), d 3, d 3, .var 0 3, assign func 1, assign proc 3, c 3 (.returns 4), c 4 (.returns 5), d 3, d 3,
     .var 0 4] = true := by decide +kernel

/-- stub_only_specified_calls_by_assignment (tests/stubbing_tests.cpp 488-513). -/
example : passes P
    [mock 0, fake [func], fake [proc], assign (using_ func [1]) 7, assign (using_ proc [1]) 9, c 1 (.returns 1), c 1 (.returns 1), c 2 (.returns 0), c 2 (.returns 0),
     d 1 (.throws 77), d 1 (.throws 77), d 2, d 2] = true := by decide +kernel

/-- stub_by_assignment_with_static_method_delegate (tests/stubbing_tests.cpp 515-538). -/
example : passes P [mock 0, assign func 0, assign proc 4, c 3 (.returns 3), c 4 (.returns 4), d 1 (.throws 1), d 1 (.throws 1)] = true := by decide +kernel

/-- stub_return_value_by_assignment (tests/stubbing_tests.cpp 540-551). -/
example : passes P [mock 0, assignValue func 1, assignValue (using_ func [2]) 2, c 3 (.returns 1), c 4 (.returns 1), c 2 (.returns 2)] = true := by decide +kernel

/-- stub_to_default_behavior_with_filter (tests/stubbing_tests.cpp 553-566). -/
example : passes P [mock 0, fake [using_ func [1]], fake [using_ proc [1]], c 1 (.returns 0), c 2 .unexpected, d 1, d 2 .unexpected] = true := by decide +kernel

/-- change_method_behavior_with_filter and change_method_behavior_with_functor_filter (tests/stubbing_tests.cpp 568-601). -/
example : passes P
    [mock 0, when_ (using_ func [1]) [ret 1], when_ (using_ proc [1]) [thr 70], c 1 (.returns 1), c 2 .unexpected, d 1 (.throws 70), d 2 .unexpected] = true := by decide +kernel

/-- change_method_behavior_with_matcher, change_method_behavior_with_functor_matcher and change_method_behavior_with_by_ref_arguments_matcher (tests/stubbing_tests.cpp 603-667). -/
example : passes P
    [mock 0, when_ (matching func fun vs => vs == [1]) [ret 1], when_ (matching proc fun vs => vs == [1]) [thr 70], c 1 (.returns 1), c 2 .unexpected, d 1 (.throws 70),
     d 2 .unexpected] = true := by decide +kernel

/-- stub_multiple_return_values (tests/stubbing_tests.cpp 670-682). -/
example : passes P [mock 0, when_ func [ret 1, ret 2], c 0 (.returns 1), c 0 (.returns 2), c 0 .unexpected, c 0 .unexpected] = true := by decide +kernel

/-- stub_multiple_throws (tests/stubbing_tests.cpp 701-733). -/
example : passes P
    [mock 0, when_ func [thr 70, thr 71], when_ proc [thr 70, thr 71], c 0 (.throws 70), c 0 (.throws 71), d 0 (.throws 70), d 0 (.throws 71)] = true := by decide +kernel

/-- stub_multiple_return_values_with_list (tests/stubbing_tests.cpp 735-743). -/
example : passes P [mock 0, when_ func [ret 1, ret 2], c 1 (.returns 1), c 1 (.returns 2), c 1 .unexpected] = true := by decide +kernel

/-- stub_multiple_throws_with_list (tests/stubbing_tests.cpp 745-758). -/
example : passes P
    [mock 0, when_ func [thr 1, thr 2], when_ proc [thr 1, thr 2], c 1 (.throws 1), c 1 (.throws 2), c 1 .unexpected, d 1 (.throws 1), d 1 (.throws 2), d 1 .unexpected] = true := by
  decide +kernel

/-- stub_multiple_do_with_list (tests/stubbing_tests.cpp 760-779). -/
example : passes P
    [mock 0, when_ func [do_ 7, do_ 8], when_ proc [do_ 10, do_ 10], c 1 (.returns 1), c 1 (.returns 2), c 1 .unexpected, d 1, d 1, d 1 .unexpected] = true := by decide +kernel

/-- exception_while_stubbing_should_cancel_stubbing (tests/stubbing_tests.cpp 781-793). -/
example : passes P [mock 0, .op (.api (.when_ (target func) [] true)) .ok, c 1 .unexpected] = true := by decide +kernel

/-- reset_mock_to_initial_state (tests/stubbing_tests.cpp 801-834); the data member's value is checked as well. -/
example : passes P
    [mock 0, when_ func [always 0], when_ (using_ func [1]) [always 1], .op (.api (.stubData 0 0 5)) .ok, .member 0 0 5, c 0 (.returns 0), c 1 (.returns 1),
     verify [one func], verify [one (using_ func [1])], .op (.api (.reset 0)) .ok, c 0 .unexpected, c 1 .unexpected, verify [one func] .dflt .fails,
     verify [one (using_ func [1])] .dflt .fails, when_ func [always 0], when_ (using_ func [1]) [always 1], c 0 (.returns 0), c 1 (.returns 1), verify [one func],
     verify [one (using_ func [1])], .member 0 0 0] = true := by decide +kernel

/-- use_lambda_to_change_ptr_value (tests/stubbing_tests.cpp 840-854): the pointer argument refers to the variable. -/
example : passes P [mock 0, when_ func [alwaysDo 5], callWith 0 0 [.ref 0] (.returns 0), .var 0 1] = true := by decide +kernel

/-- assingOutParamsWithLambda (tests/stubbing_tests.cpp 859-871). -/
example : passes P [mock 0, when_ func [alwaysDo 6], callWith 0 0 [.val 1, .val 2, .ref 5] (.returns 1), .var 5 3] = true := by decide +kernel

/-! ## tests/gcc_stubbing_multiple_values_tests.cpp -/

/-- stub_multiple_return_values_with_quantifier (tests/gcc_stubbing_multiple_values_tests.cpp 37-52). -/
example : passes P
    [mock 0, when_ func [.rep 2 (.ret 1), .rep 2 (.ret 2)], when_ proc [.rep 2 (.ret 0)], c 1 (.returns 1), c 1 (.returns 1), c 1 (.returns 2), c 1 (.returns 2), c 1 .unexpected,
     d 1, d 1, d 1 .unexpected] = true := by decide +kernel

/-- stub_multiple_return_values_with_mixed_values_and_quantifiers (tests/gcc_stubbing_multiple_values_tests.cpp 54-63). -/
example : passes P
    [mock 0, when_ func [ret 0, .rep 2 (.ret 1), ret 2], c 1 (.returns 0), c 1 (.returns 1), c 1 (.returns 1), c 1 (.returns 2), c 1 .unexpected] = true := by decide +kernel

/-- stub_multiple_throws_with_quantifier (tests/gcc_stubbing_multiple_values_tests.cpp 65-80). -/
example : passes P
    [mock 0, when_ func [.rep 2 (.thr 70), .rep 1 (.thr 1)], when_ proc [.rep 2 (.thr 70), .rep 1 (.thr 1)], c 1 (.throws 70), c 1 (.throws 70), c 1 (.throws 1), c 1 .unexpected,
     d 1 (.throws 70), d 1 (.throws 70), d 1 (.throws 1), d 1 .unexpected] = true := by decide +kernel

/-- stub_multiple_throws_and_returns (tests/gcc_stubbing_multiple_values_tests.cpp 82-99). -/
example : passes P
    [mock 0, when_ func [thr 70, .rep 1 (.thr 1), ret 1, .rep 1 (.ret 2)], when_ proc [thr 70, .rep 1 (.thr 1), .rep 2 (.ret 0)], c 1 (.throws 70), c 1 (.throws 1), c 1 (.returns 1),
     c 1 (.returns 2), c 1 .unexpected, d 1 (.throws 70), d 1 (.throws 1), d 1, d 2, d 1 .unexpected] = true := by decide +kernel

/-- stub_multiple_do_with_list_of_mixed_quatifiers_and_values (tests/gcc_stubbing_multiple_values_tests.cpp 101-114). -/
example : passes P
    [mock 0, when_ func [.rep 1 (.user 7), do_ 8], when_ proc [.rep 1 (.user 10), do_ 10], c 1 (.returns 1), c 1 (.returns 2), c 1 .unexpected, d 1, d 1, d 1 .unexpected] = true := by
  decide +kernel

end FakeIt.Tests.Stubbing
