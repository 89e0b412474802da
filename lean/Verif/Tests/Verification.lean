import Verif.Tests.Kit
/-!
# tests/sequence_verification_tests.cpp and tests/verification_tests.cpp
-/
namespace FakeIt.Tests.Verification

/-! ## tests/sequence_verification_tests.cpp -/

/-- `SomeInterface`: func, proc, func2 (tests/sequence_verification_tests.cpp 32-36). -/
def P : Prog Int Int := program (plainClass 3)

/-- `Method(mock, func)` (tests/sequence_verification_tests.cpp 33). -/
def func (m : Nat := 0) : Leaf Int := method m 0
/-- `Method(mock, proc)` (tests/sequence_verification_tests.cpp 34). -/
def proc (m : Nat := 0) : Leaf Int := method m 1
/-- `Method(mock, func).Using(v)` (tests/sequence_verification_tests.cpp 57). -/
def f (v : Int) : Seq (Leaf Int) := one (using_ func [v])
/-- `Method(mock, func)` as a sequence (tests/sequence_verification_tests.cpp 60). -/
def F : Seq (Leaf Int) := one func
/-- `i.func(v)` (tests/sequence_verification_tests.cpp 52). -/
def c (v : Int) : Line := call 0 0 [v] (.returns 0)

/-- verify_with_user_types (tests/sequence_verification_tests.cpp 38-45): the user's object is passed by reference. -/
example : passes P [mock 0, fake [method 0 2], callWith 0 2 [.ref 0, .val 1], verify [times (one (method 0 2)) 2] .dflt .fails] = true := by decide +kernel

/-- verify_concatenated_sequence (tests/sequence_verification_tests.cpp 47-64). -/
example : passes P
    [mock 0, fake [func, proc], c 1, c 2, c 3, c 4,
     verify [.opPlus (f 1) (f 2)] .once,
     verify [.opPlus (f 2) (f 3)] .atLeastOnce,
     verify [.opPlus (f 3) (f 4)] .once,
     verify [.opPlus F F] .twice,
     verify [.opPlus (f 1) (f 3)] .never,
     verify [.opPlus (f 1) (f 3)] .dflt .fails] = true := by decide +kernel

/-- verify_repeated_sequence (tests/sequence_verification_tests.cpp 66-90). -/
example : passes P
    [mock 0, fake [func, proc], c 1, c 2, c 3, c 1, c 2, c 3,
     verify [times F 1] (.exactly 6), verify [times F 2] (.exactly 3), verify [times F 3] (.exactly 2), verify [times F 4] (.exactly 1),
     verify [times F 5] (.exactly 1), verify [times F 6] (.exactly 1),
     verify [.opPlus (.opPlus (f 1) (f 2)) (f 3)] .twice,
     verify [times (.opPlus (.opPlus (f 1) (f 2)) (f 3)) 2] .once,
     verify [times (f 1) 2] .never,
     verify [times (f 1) 2] .dflt .fails] = true := by decide +kernel

/-- verify_repeated_sequence_2 (tests/sequence_verification_tests.cpp 92-113); `n * s` is `s * n` (include/fakeit/Sequence.hpp 139-143). -/
example : passes P
    [mock 0, fake [func, proc], c 1, c 2, c 3, c 1, c 2, c 3,
     verify [times F 1] (.exactly 6), verify [times F 2] (.exactly 3), verify [times F 3] (.exactly 2), verify [times F 4] (.exactly 1),
     verify [times F 5] (.exactly 1), verify [times F 6] (.exactly 1),
     verify [times (f 1) 2] .never,
     verify [times (f 1) 2] .dflt .fails] = true := by decide +kernel

/-- verify_multi_sequences_in_order (tests/sequence_verification_tests.cpp 115-180). -/
example : passes P
    [mock 0, fake [func, proc], c 1, c 2, c 3, c 1, c 2, c 3,
     verify [F, F] (.exactly 100) .fails,
     verify [F, F, F, F, F, F] (.exactly 1),
     verify [F, F] (.exactly 100) .fails,
     verify [F, F, F, F, F] (.exactly 1),
     verify [F, F, F, F] (.exactly 1),
     verify [F, F, F] (.exactly 2),
     verify [F, F] (.exactly 3),
     verify [F] (.exactly 6),
     verify [.opPlus (.opPlus (f 1) (f 2)) (f 3)] (.exactly 2),
     verify [.opPlus (f 1) (f 2)] (.exactly 2),
     verify [.opPlus (f 2) (f 3)] (.exactly 2),
     verify [f 1] (.exactly 2),
     verify [.opPlus (f 2) (f 1)] .never] = true := by decide +kernel

/-- should_throw_argument_exception_on_invalid_repetiotions_number (tests/sequence_verification_tests.cpp 182-189). -/
example : F.opStar 0 = none ∧ F.opStar (-1) = none := ⟨rfl, rfl⟩

/-- use_only_mocks_that_are_involved_in_verifed_sequence_for_verification (tests/sequence_verification_tests.cpp 191-217). -/
example : passes P
    [mock 0, mock 0, fake [func 0, func 1], call 0 0 [1], call 1 0 [2], call 0 0 [1], call 1 0 [2],
     verify [one (func 0)], verify [times (one (func 0)) 2],
     verify [one (func 1)], verify [times (one (func 1)) 2],
     usingVerify [.mock 0, .mock 1] [one (func 0)],
     usingVerify [.mock 0, .mock 1] [one (func 1)],
     usingVerify [.mock 0, .mock 1] [.opPlus (one (func 0)) (one (func 1))],
     usingVerify [.mock 0, .mock 1] [times (.opPlus (one (func 0)) (one (func 1))) 2],
     usingVerify [.mock 0, .mock 1] [times (one (func 0)) 2] .dflt .fails,
     usingVerify [.mock 0, .mock 1] [times (one (func 1)) 2] .dflt .fails,
     usingVerify [.mock 0] [one (func 1)] .dflt .fails,
     usingVerify [.mock 1] [one (func 0)] .dflt .fails] = true := by decide +kernel

/-- use_only_filters_that_are_involved_in_verifed_sequence_for_verification (tests/sequence_verification_tests.cpp 219-231). -/
example : passes P
    [mock 0, fake [func], c 1, c 2,
     usingVerify [.ctx func] [times F 2] (.exactly 1),
     usingVerify [.ctx func] [F] (.exactly 2),
     usingVerify [.ctx (using_ func [1])] [F] (.exactly 1),
     usingVerify [.ctx (using_ func [1])] [f 2] .dflt .fails,
     usingVerify [.ctx (using_ func [1])] [times F 2] .dflt .fails] = true := by decide +kernel

/-! ## tests/verification_tests.cpp -/

/-- `SomeInterface`: func, proc, proc2, proc3, proc4 (tests/verification_tests.cpp 74-80). -/
def Q : Prog Int Int := program (plainClass 5)

/-- `Method(mock, proc)` as a sequence (tests/verification_tests.cpp 76). -/
def G : Seq (Leaf Int) := one proc
/-- `i.proc(v)` (tests/verification_tests.cpp 118). -/
def d (v : Int) : Line := call 0 1 [v]

/-- verify_no_invocations (tests/verification_tests.cpp 82-90). -/
example : passes Q [mock 0, verify [F] .never, verify [G] .never, verify [one (method 0 2)] .never, verify [one (method 0 3)] .never, verify [one (method 0 4)] .never] = true := by
  decide +kernel

/-- verify_with_matcher (tests/verification_tests.cpp 92-98). -/
example : passes Q [mock 0, when_ (matching func fun _ => true) [ret 0], c 1, verify [times (one (matching func fun _ => true)) 2] .dflt .fails] = true := by decide +kernel

/-- verify_should_throw_VerificationException_if_method_was_not_called (tests/verification_tests.cpp 100-105). -/
example : passes Q [mock 0, fake [func, proc], verify [F] .dflt .fails, verify [G] .dflt .fails] = true := by decide +kernel

/-- verify_should_throw_VerificationException_if_method_was_not_stubbed (tests/verification_tests.cpp 107-111). -/
example : passes Q [mock 0, verify [F] .dflt .fails, verify [G] .dflt .fails] = true := by decide +kernel

/-- verify_should_not_throw_exception_if_method_was_called (tests/verification_tests.cpp 113-121). -/
example : passes Q [mock 0, fake [func, proc], c 1, d 1, verify [F], verify [G]] = true := by decide +kernel

/-- verify_method_was_called_at_least_once (tests/verification_tests.cpp 123-142). -/
example : passes Q
    [mock 0, verify [F] .dflt .fails, verify [G] .dflt .fails, fake [func, proc], c 1, d 2, verify [F], verify [G], c 1, d 2, verify [F], verify [G]] = true := by decide +kernel

/-- verify_method_was_called_at_least_twice and verify_method_was_called_at_least_X_with_quantifier (tests/verification_tests.cpp 144-208). -/
example : passes Q
    [mock 0, verify [F] (.atLeast 2) .fails, verify [G] (.atLeast 2) .fails, fake [func, proc], c 1, d 2, verify [F] (.atLeast 2) .fails, verify [G] (.atLeast 2) .fails,
     c 1, d 2, verify [F] (.atLeast 2), verify [G] (.atLeast 2), c 1, d 2, verify [F] (.atLeast 2), verify [G] (.atLeast 2)] = true := by decide +kernel

/-- verify_method_was_called_exactly_once (tests/verification_tests.cpp 210-233). -/
example : passes Q
    [mock 0, verify [F] .once .fails, verify [G] .once .fails, fake [func, proc], verify [F] .once .fails, verify [G] .once .fails, c 1, d 1,
     verify [F] .once, verify [G] .once, c 1, d 1, verify [F] .once .fails, verify [G] .once .fails] = true := by decide +kernel

/-- verify_method_was_never_called (tests/verification_tests.cpp 235-252). -/
example : passes Q
    [mock 0, verify [F] .never, verify [G] .never, fake [func, proc], verify [F] .never, verify [G] .never, c 1, d 1, verify [F] .never .fails, verify [G] .never .fails] = true := by
  decide +kernel

/-- verify_method_was_called_exactly_x_times_with_quantifier (tests/verification_tests.cpp 254-294); `2_Time` is in C50. -/
example : passes Q
    [mock 0, fake [func, proc], verify [F] (.exactly 1) .fails, verify [G] (.exactly 1) .fails, c 1, d 1, verify [F] (.exactly 1), verify [G] (.exactly 1),
     c 1, d 1, verify [F] (.exactly 2), verify [G] (.exactly 2)] = true := by decide +kernel

/-- verify_method_was_called_exactly_x_times (tests/verification_tests.cpp 296-321). -/
example : passes Q
    [mock 0, verify [F] (.exactly 2) .fails, verify [G] (.exactly 2) .fails, fake [func, proc], verify [F] (.exactly 2) .fails, verify [G] (.exactly 2) .fails,
     c 1, c 1, d 1, d 1, verify [F] (.exactly 2), verify [G] (.exactly 2), c 1, d 1, verify [F] (.exactly 2) .fails, verify [G] (.exactly 2) .fails] = true := by decide +kernel

/-- should_throw_IllegalArgumentException_on_negative_times_argument (tests/verification_tests.cpp 323-328). -/
example : passes Q [mock 0, verify [F] (.exactly (-1)) .invalid, verify [G] (.exactly (-1)) .invalid, verify [G] (.atLeast (-1)) .invalid] = true := by decide +kernel

/-- verify_with_filter (tests/verification_tests.cpp 330-337). -/
example : passes Q [mock 0, fake [func, proc], c 1, verify [f 1], verify [f 2] .dflt .fails] = true := by decide +kernel

/-- verify_no_other_invocations_for_mock (tests/verification_tests.cpp 339-361). -/
example : passes Q
    [mock 0, fake [func, method 0 2], noOther [.mock 0], c 1, c 1, noOther [.mock 0] .fails, verify [F] .atLeastOnce, noOther [.mock 0], c 1, c 1, noOther [.mock 0] .fails,
     verify [times F 3], noOther [.mock 0] .fails, verify [times F 4], noOther [.mock 0]] = true := by decide +kernel

/-- verify_no_other_invocations_for_method_filter (tests/verification_tests.cpp 363-385). -/
example : passes Q
    [mock 0, fake [func, method 0 2], noOther [.ctx func], c 1, c 1, noOther [.ctx func, .ctx (method 0 2)] .fails, verify [F] .atLeastOnce, noOther [.ctx func], c 1, c 1,
     noOther [.ctx func] .fails, verify [times F 3], noOther [.ctx func] .fails, verify [times F 4], noOther [.ctx (using_ func [1])]] = true := by decide +kernel

/-- exception_while_verifying_no_more_interactions_should_cancel_verification (tests/verification_tests.cpp 387-399). -/
example : passes Q [mock 0, fake [func], c 1, .op (.api (.verifyNoOther [.ctx func] (.stmt true))) .ok] = true := by decide +kernel

/-- exception_while_verifying_should_cancel_verification (tests/verification_tests.cpp 401-413). -/
example : passes Q [mock 0, fake [func], .op (.api (.verify .involved [F] .dflt (.stmt true))) .ok] = true := by decide +kernel

/-- use_same_filter_for_both_stubbing_and_verification (tests/verification_tests.cpp 415-437). -/
example : passes Q
    [mock 0, whenKept func [always 1] 0, whenKept proc [always 0] 2, call 0 0 [1] (.returns 1), call 0 0 [1] (.returns 1), d 1, d 1,
     verify [one (kept func 0)], verify [one (kept proc 2)],
     verify [times (one (kept func 0)) 2], verify [times (one (kept proc 2)) 2],
     verify [.opPlus (times (one (kept func 0)) 2) (times (one (kept proc 2)) 2)]] = true := by decide +kernel

/-- verify_after_paramter_was_changed__with_Matching (tests/verification_tests.cpp 439-455): the object at address 0 is passed by reference and changed afterwards.  `Fake` is `When` with the default
action here, for the address of the matcher. -/
example : passes Q
    [mock 0, whenKept (matching (method 0 2) fun vs => vs == [1]) [.dflt] 0, .op (.api (.write 0 1)) .ok, callWith 0 2 [.ref 0], callWith 0 2 [.ref 0], .op (.api (.write 0 2)) .ok,
     verify [times (one (kept (matching (method 0 2) fun vs => vs == [1]) 0)) 2]] = true := by decide +kernel

/-- verify_after_paramter_was_changed_with_Using and verify_after_paramter_was_changed_with_argument_matcher (tests/verification_tests.cpp 457-495). -/
example : passes Q
    [mock 0, whenKept (using_ (method 0 2) [1]) [.dflt] 0, .op (.api (.write 0 1)) .ok, callWith 0 2 [.ref 0], callWith 0 2 [.ref 0], .op (.api (.write 0 2)) .ok,
     verify [times (one (kept (using_ (method 0 2) [1]) 0)) 2]] = true := by decide +kernel

/-- What these three tests are about: with another expression the changed object is seen (C40). -/
example : passes Q
    [mock 0, whenKept (using_ (method 0 2) [1]) [.dflt] 0, .op (.api (.write 0 1)) .ok, callWith 0 2 [.ref 0], callWith 0 2 [.ref 0], .op (.api (.write 0 2)) .ok,
     verify [times (one (using_ (method 0 2) [1])) 2] .dflt .fails] = true := by decide +kernel

/-- verifyWithUnverifiedFunctor (tests/verification_tests.cpp 501-521). -/
example : passes Q
    [mock 0, when_ func [always 0], c 1, unverifiedVerify [F] .once, unverifiedVerify [F] .once .fails, c 1, c 1, verify [times F 3], unverifiedVerify [F] .dflt .fails,
     c 1, c 1, verify [F], unverifiedVerify [F] .dflt .fails] = true := by decide +kernel

/-- verifyWithUnverifiedFunctorWithUsing (tests/verification_tests.cpp 523-533). -/
example : passes Q
    [mock 0, when_ func [always 0], c 1, usingVerify [.unverified (.mock 0)] [F] .once, usingVerify [.unverified (.mock 0)] [F] .once .fails] = true := by decide +kernel

/-- verificationProgressShouldBeConvertibleToBool (tests/verification_tests.cpp 535-566). -/
example : passes Q
    [mock 0, when_ func [always 0], c 1,
     noOtherAsBool [.ctx func] .fails, asBool [F], asBool [f 1], asBool [f 2] .dflt .fails, asBool [f 1] (.atLeast 1), asBool [f 1] .atLeastOnce, asBool [f 1] (.exactly 1),
     asBool [f 1] .once, asBool [f 1] .twice .fails, asBool [f 1] .never .fails, noOtherAsBool [.ctx func],
     asBool [F], asBool [f 1], asBool [f 2] .dflt .fails, asBool [f 1] (.atLeast 1), asBool [f 1] .atLeastOnce, asBool [f 1] (.exactly 1), asBool [f 1] .once,
     asBool [f 1] .twice .fails, asBool [f 1] .never .fails, noOtherAsBool [.ctx func]] = true := by decide +kernel

/-- verificationShouldTolerateNullString (tests/verification_tests.cpp 573-591): 0 is the null pointer (that it can be printed: C59, C89). -/
example : passes Q
    [mock 0, when_ func [always 0], when_ proc [always 0], d 0, d 7, c 0, c 8, verify [F] (.exactly 2), verify [G] (.exactly 2), verify [F] (.exactly 3) .fails,
     verify [G] (.exactly 3) .fails] = true := by decide +kernel

/-- verify_any_for_no_invocations (tests/verification_tests.cpp 593-598). -/
example : passes Q [mock 0, verify [F] .any, noOther [.mock 0]] = true := by decide +kernel

/-- verify_any_for_all_invocations (tests/verification_tests.cpp 600-610). -/
example : passes Q [mock 0, fake [func, proc], c 5, d 10, verify [F] .any, verify [G] .any, noOther [.mock 0]] = true := by decide +kernel

/-- verify_any_for_only_some_invocations (tests/verification_tests.cpp 612-621). -/
example : passes Q [mock 0, fake [func, proc], c 5, d 10, verify [F] .any, noOther [.mock 0] .fails] = true := by decide +kernel

end FakeIt.Tests.Verification
