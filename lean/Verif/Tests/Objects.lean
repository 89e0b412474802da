import Verif.Tests.Kit
/-!
# tests/spying_tests.cpp, tests/dtor_mocking_tests.cpp, tests/default_behaviore_tests.cpp, tests/miscellaneous_tests.cpp
-/
namespace FakeIt.Tests.Objects

/-! ## tests/spying_tests.cpp -/

/-- The methods of `SomeClass` return their argument; `proc` (number 3) nothing (tests/spying_tests.cpp 51-77). -/
def impls : FnId → List Int → Body Int Int
  | _, [v] => .done (.ret v)
  | _, _ => .done (.ret 0)

/-- `SomeClass`: func1, func2, func3, proc and methods with other argument types; one data member (tests/spying_tests.cpp 48-78). -/
def P : Prog Int Int := program (plainClass 8 none 1) impls

/-- useOriginalClassMethodIfNotFaked (tests/spying_tests.cpp 93-100). -/
example : passes P [spyOn 0, fake [method 0 0], call 0 0 [1] (.returns 0), call 0 1 [1] (.returns 1)] = true := by decide +kernel

/-- useOriginalClassMethodIfStubbed (tests/spying_tests.cpp 102-109). -/
example : passes P [spyOn 0, when_ (method 0 0) [always 10], call 0 0 [1] (.returns 10), call 0 1 [1] (.returns 1)] = true := by decide +kernel

/-- returnToOrignalClassMethodsOnReset (tests/spying_tests.cpp 111-120). -/
example : passes P
    [spyOn 0, when_ (method 0 0) [always 10], when_ (method 0 1) [always 10], .op (.api (.reset 0)) .ok, call 0 0 [1] (.returns 1), call 0 1 [1] (.returns 1)] = true := by decide +kernel

/-- dataMembersAreNotChangedOnReset (tests/spying_tests.cpp 122-132). -/
example : passes P [spyOn 0, .op (.api (.writeData 0 0 10)) .ok, .op (.api (.reset 0)) .ok, .member 0 0 10] = true := by decide +kernel

/-- verifySpyiedMethodWasCalled (tests/spying_tests.cpp 134-142). -/
example : passes P
    [spyOn 0, fake [method 0 0, method 0 1], call 0 0 [1], verify [one (method 0 0)], verify [one (method 0 1)] .dflt .fails] = true := by decide +kernel

/-- canVerifyMethodAfterSpying (tests/spying_tests.cpp 166-175). -/
example : passes P
    [spyOn 0, spy [method 0 0], call 0 0 [1] (.returns 1), verify [one (method 0 0)], verify [one (method 0 0)] (.exactly 1), noOther [.mock 0]] = true := by decide +kernel

/-- canVerifyProcedureAfterSpying (tests/spying_tests.cpp 177-186). -/
example : passes P
    [spyOn 0, spy [method 0 3], call 0 3 [], verify [one (method 0 3)], verify [one (method 0 3)] (.exactly 1), noOther [.mock 0]] = true := by decide +kernel

/-- spyMultipleMethods (tests/spying_tests.cpp 188-198). -/
example : passes P
    [spyOn 0, spy [method 0 0, method 0 3], call 0 0 [1], call 0 3 [], verify [one (method 0 3)] (.exactly 1), verify [one (method 0 0)] (.exactly 1), noOther [.mock 0]] = true := by
  decide +kernel

/-- restoreObjectOnMockDelete (tests/spying_tests.cpp 200-205): the object outlives the mock. -/
example : passes P [spyOn 0, fake [method 0 0], call 0 0 [1] (.returns 0), .op (.api (.destroy 0)) .ok, call 0 0 [1] (.returns 1)] = true := by decide +kernel

/-- `Dummy`: `callMethod` (number 1) calls `method` (number 0) of its own object (tests/spying_tests.cpp 215-225). -/
def dummy : Prog Int Int := program (plainClass 2) fun
  | 101, _ => .call 0 0 [] fun _ => .done (.ret 0)
  | _, _ => .done (.ret 0)

/-- callMemberMethodFromSpiedMethod (tests/spying_tests.cpp 227-235). -/
example : passes dummy
    [spyOn 0, spy [method 0 0], spy [method 0 1], call 0 1 [], call 0 1 [], verify [one (method 0 0)], verify [one (method 0 0)] (.exactly 2)] = true := by decide +kernel

/-- spyThenVerifyValueArg (tests/spying_tests.cpp 237-247). -/
example : passes P [spyOn 0, spy [method 0 4], call 0 4 [6] (.returns 6), verify [one (using_ (method 0 4) [6])] .once] = true := by decide +kernel

/-- spyMoveOnlyPassedByRef (tests/spying_tests.cpp 249-260). -/
example : passes P [spyOn 0, spy [method 0 5], .op (.api (.write 0 5)) .ok, callWith 0 5 [.ref 0] (.returns 5), verify [one (using_ (method 0 5) [5])] .once] = true := by decide +kernel

/-- spyMoveOnlyWithoutVerify (tests/spying_tests.cpp 262-270). -/
example : passes P [spyOn 0, spyWithoutVerify [method 0 6], call 0 6 [10] (.returns 10)] = true := by decide +kernel

/-- `DerivedClass` (tests/spying_tests.cpp 80-91). -/
def derived : Prog Int Int := program (plainClass 8 none 1) fun
  | _, [v] => .done (.ret (v * 2))
  | _, _ => .done (.ret 0)

/-- spyWorksWithDerivedClasses (tests/spying_tests.cpp 282-295). -/
example : passes derived
    [spyOn 0, spy [method 0 0], fake [method 0 1], call 0 0 [1] (.returns 2), call 0 1 [1] (.returns 0), call 0 2 [1] (.returns 2),
     verify [one (using_ (method 0 0) [1])] .once, verify [one (using_ (method 0 1) [1])] .once, noOther [.mock 0]] = true := by decide +kernel

/-! ## tests/dtor_mocking_tests.cpp -/

/-- `SomeInterface` with only a virtual destructor, two entries of the table: `delete i` uses the second one and `i->~SomeInterface()` the first one; callable 0 is `a++` the first time,
callable 1 the second time (tests/dtor_mocking_tests.cpp 35-38, 59). -/
def Q : Prog Int Int := program (plainClass 2 (some 0)) fun
  | 0, _ => .api (.write 0 1) fun _ => .done (.ret 0)
  | 1, _ => .api (.write 0 2) fun _ => .done (.ret 0)
  | _, _ => .done (.ret 0)

/-- `delete i` (tests/dtor_mocking_tests.cpp 43). -/
def delete : Line := call 0 1 []

/-- mock_virtual_dtor_no_mocks (tests/dtor_mocking_tests.cpp 40-44). -/
example : passes Q [mock 0, delete] = true := by decide +kernel

/-- mock_virtual_dtor_with_fake (tests/dtor_mocking_tests.cpp 46-54). -/
example : passes Q [mock 0, fake [dtor 0], delete, delete, verify [one (dtor 0)] .twice, verify [one (dtor 0)] .once .fails] = true := by decide +kernel

/-- mock_virtual_dtor_with_when (tests/dtor_mocking_tests.cpp 56-64). -/
example : passes Q [mock 0, when_ (dtor 0) [ret 0, do_ 0], delete, .var 0 0, delete, .var 0 1] = true := by decide +kernel

/-- mock_virtual_dtor_by_assignment (tests/dtor_mocking_tests.cpp 66-74): `a++` is assigned once; here the second run is another assignment, since callables of the model keep no state. -/
example : passes Q [mock 0, assign (dtor 0) 0, delete, .var 0 1, assign (dtor 0) 1, delete, .var 0 2] = true := by decide +kernel

/-- production_takes_ownwership_with_uniqe_ptr (tests/dtor_mocking_tests.cpp 76-81). -/
example : passes Q [mock 0, fake [dtor 0], delete, .op (.api (.destroy 0)) .ok] = true := by decide +kernel

/-- call_dtor_without_delete (tests/dtor_mocking_tests.cpp 83-90). -/
example : passes Q [mock 0, fake [dtor 0], call 0 0 [], verify [one (dtor 0)] .once, verify [one (dtor 0)] .twice .fails] = true := by decide +kernel

/-- spy_dtor (tests/dtor_mocking_tests.cpp 96-105). -/
example : passes Q [spyOn 0, spy [dtor 0], delete, delete, verify [one (dtor 0)] .twice, verify [one (dtor 0)] .once .fails] = true := by decide +kernel

/-- spy_without_verify_dtor (tests/dtor_mocking_tests.cpp 107-116). -/
example : passes Q [spyOn 0, spyWithoutVerify [dtor 0], delete, delete, verify [one (dtor 0)] .twice, verify [one (dtor 0)] .once .fails] = true := by decide +kernel

/-- production_takes_ownership_interface_with_more_methods (tests/dtor_mocking_tests.cpp 124-132). -/
example : passes (program (plainClass 3 (some 1))) [mock 0, fake [method 0 0], fake [dtor 0], call 0 2 []] = true := by decide +kernel

/-- should_fail_faking_when_no_virtual_dtor_exists (tests/dtor_mocking_tests.cpp 139-142). -/
example : passes (program (plainClass 1)) [mock 0, .op (.api (.fake [target (dtor 0)])) .invalid] = true := by decide +kernel

/-! ## tests/default_behaviore_tests.cpp -/

/-- Classes with methods of the given defaults (tests/default_behaviore_tests.cpp 42-96). -/
def defaults (ds : Nat → Dflt Int) : Prog Int Int := program { plainClass 17 with dflt := ds }

/-- scalar_types_should_return_zero and ReturnByValue_ReturnDefaultConstructedObject: every method is faked (tests/default_behaviore_tests.cpp 97-160). -/
example : passes (defaults fun _ => .value 0)
    (mock 0 :: (List.range 17).map (fun i => fake [method 0 i]) ++ (List.range 17).map (fun i => call 0 i [] (.returns 0))) = true := by decide +kernel

/-- DefaultBeaviorOfVoidFunctionsIsToDoNothing (tests/default_behaviore_tests.cpp 146-153). -/
example : passes (defaults fun _ => .value 0) [mock 0, fake [method 0 0], fake [method 0 1], call 0 0 [], call 0 1 [1]] = true := by decide +kernel

/-- ReturnByReference_ReturnReferenceToDefaultConstructedObject (tests/default_behaviore_tests.cpp 162-169). -/
example : passes (defaults fun _ => .value 0) [mock 0, fake [method 0 0], fake [method 0 1], call 0 0 [] (.returns 0), call 0 1 [] (.returns 0)] = true := by decide +kernel

/-- ReturnByValue_ThrowExceptionIfNotDefaultConstructible: -1 is the exception `DefaultValueInstatiationException` (tests/default_behaviore_tests.cpp 171-186). -/
example : passes (defaults fun _ => .throws) [mock 0, fake [method 0 0], call 0 0 [] (.throws (-1))] = true := by decide +kernel

/-- ReturnByReference_ReturnReferenceToNullIfNotDefaultConstructible and ReturnByReference_ReturnReferenceToNullIfAbstract depend on a reference to no object, which the model has as undefined
behaviour; the tests have a macro that leaves them out of builds that detect it (tests/default_behaviore_tests.cpp 188-200, 25-31). -/
example : passes (defaults fun _ => .nullRef) [mock 0, fake [method 0 0], call 0 0 []] = false := by decide +kernel

/-! ## tests/miscellaneous_tests.cpp -/

/-- can_mock_class_without_default_constructor and can_mock_class_with_protected_constructor (tests/miscellaneous_tests.cpp 45-64). -/
example : passes (program (plainClass 1)) [mock 0, fake [method 0 0]] = true := by decide +kernel

/-- pass_mock_by_ref (tests/miscellaneous_tests.cpp 89-96). -/
example : passes (program (plainClass 1)) [mock 0, when_ (method 0 0) [always 0], call 0 0 [1, 2, 3], verify [one (using_ (method 0 0) [1, 2, 3])]] = true := by decide +kernel

/-- mock_virtual_methods_of_base_class: the table of `B` has a1, a2, two entries for the destructor, b1, b2 (tests/miscellaneous_tests.cpp 112-123). -/
example : passes (program (plainClass 6 (some 2)))
    [mock 0, when_ (method 0 4) [ret 1], when_ (method 0 5) [ret 2], when_ (method 0 0) [ret 3], when_ (method 0 1) [ret 4], call 0 4 [] (.returns 1), call 0 5 [] (.returns 2),
     call 0 0 [] (.returns 3), call 0 1 [] (.returns 4)] = true := by decide +kernel

/-- The callables of the two tests below (tests/miscellaneous_tests.cpp 136-137, 160-162). -/
def consts : FnId → List Int → Body Int Int
  | 2, _ => .done (.ret 2)
  | 3, _ => .done (.ret 3)
  | 13, _ => .api (.write 3 3) fun _ => .done (.ret 0)
  | 14, _ => .api (.write 4 4) fun _ => .done (.ret 0)
  | 15, _ => .api (.write 5 5) fun _ => .done (.ret 0)
  | _, _ => .done (.ret 0)

/-- testStubFuncWithRightValueParameter (tests/miscellaneous_tests.cpp 129-145). -/
example : passes (program (plainClass 1) consts)
    [mock 0, when_ (method 0 0) [always 100], when_ (using_ (method 0 0) [1]) [always 1], when_ (using_ (method 0 0) [2]) [alwaysDo 2], when_ (using_ (method 0 0) [3]) [do_ 3],
     assignValue (using_ (method 0 0) [4]) 4, call 0 0 [5] (.returns 100), call 0 0 [1] (.returns 1), call 0 0 [2] (.returns 2), call 0 0 [3] (.returns 3),
     call 0 0 [4] (.returns 4)] = true := by decide +kernel

/-- testStubProcWithRightValueParameter (tests/miscellaneous_tests.cpp 151-172). -/
example : passes (program (plainClass 1) consts)
    [mock 0, when_ (using_ (method 0 0) [1]) [ret 0], when_ (method 0 0) [always 0], when_ (using_ (method 0 0) [3]) [alwaysDo 13], when_ (using_ (method 0 0) [4]) [do_ 14],
     assign (using_ (method 0 0) [5]) 15, call 0 0 [1], call 0 0 [2], call 0 0 [3], .var 3 3, call 0 0 [4], .var 4 4, call 0 0 [5], .var 5 5] = true := by decide +kernel

/-- can_stub_method_after_reset: the destructor of `foo_bar` is before `foo` and `bar` (tests/miscellaneous_tests.cpp 180-314). -/
example : passes (program (plainClass 4 (some 0)))
    [mock 0, .op (.api (.reset 0)) .ok, when_ (method 0 3) [ret 42], call 0 3 [] (.returns 42), verify [one (method 0 3)] .once] = true := by decide +kernel

/-- method_is_still_stubbed_after_clear (tests/miscellaneous_tests.cpp 188-193). -/
example : passes (program (plainClass 4 (some 0))) [mock 0, when_ (method 0 3) [ret 42], .op (.api (.clear 0)) .ok, call 0 3 [] (.returns 42)] = true := by decide +kernel

/-- method_is_not_verified_after_clear (tests/miscellaneous_tests.cpp 195-201). -/
example : passes (program (plainClass 4 (some 0)))
    [mock 0, when_ (method 0 3) [ret 42], call 0 3 [] (.returns 42), .op (.api (.clear 0)) .ok, verify [one (method 0 3)] .never] = true := by decide +kernel

end FakeIt.Tests.Objects
