import Verif.Props.SingleHeader
/-!
# C60 on the include lines of the repository

The include lines of the files that config/gtest/fakeit.hpp 1-7 includes, directly or not, with the conditional directives around them; the rest of a file is one
line. The line include/fakeit/WhenFunctor.hpp 17 is left out: the generator drops it (`C60_bare_names_are_dropped`).
-/
namespace FakeIt.Demo
open SingleHeader Spec

/-- The files of the Google Test configuration (config/gtest/fakeit.hpp 1-7 and what it includes). -/
def gtestTree : List (Path × List Line) :=
  [(["config", "gtest", "fakeit.hpp"], [.ifdef "ifndef fakeit_h__", .incl ["fakeit_instance.hpp"], .incl ["fakeit", "fakeit_root.hpp"], .endif, .text "gtest/fakeit.hpp"]),
   (["config", "gtest", "fakeit_instance.hpp"], [.once, .incl ["GTestFakeit.hpp"], .text "gtest/fakeit_instance.hpp"]),
   (["config", "gtest", "GTestFakeit.hpp"], [.once, .incl ["fakeit", "DefaultFakeit.hpp"], .text "gtest/GTestFakeit.hpp"]),
   (["include", "fakeit", "DefaultFakeit.hpp"], [.incl ["fakeit", "EventHandler.hpp"], .incl ["fakeit", "FakeitContext.hpp"], .incl ["fakeit", "DefaultEventLogger.hpp"], .incl ["fakeit", "DefaultEventFormatter.hpp"], .text "fakeit/DefaultFakeit.hpp"]),
   (["include", "fakeit", "EventHandler.hpp"], [.once, .incl ["fakeit", "FakeitEvents.hpp"], .text "fakeit/EventHandler.hpp"]),
   (["include", "fakeit", "FakeitEvents.hpp"], [.once, .incl ["fakeit", "Sequence.hpp"], .incl ["fakeit", "DomainObjects.hpp"], .text "fakeit/FakeitEvents.hpp"]),
   (["include", "fakeit", "Sequence.hpp"], [.once, .incl ["mockutils", "Macros.hpp"], .incl ["fakeit", "ActualInvocation.hpp"], .incl ["fakeit", "ActualInvocationsSource.hpp"], .text "fakeit/Sequence.hpp"]),
   (["include", "mockutils", "Macros.hpp"], [.once, .text "mockutils/Macros.hpp"]),
   (["include", "fakeit", "ActualInvocation.hpp"], [.once, .incl ["mockutils", "type_utils.hpp"], .incl ["mockutils", "Macros.hpp"], .incl ["fakeit", "Invocation.hpp"], .incl ["mockutils", "TuplePrinter.hpp"], .text "fakeit/ActualInvocation.hpp"]),
   (["include", "mockutils", "type_utils.hpp"], [.once, .text "mockutils/type_utils.hpp"]),
   (["include", "fakeit", "Invocation.hpp"], [.once, .incl ["fakeit", "DomainObjects.hpp"], .incl ["mockutils", "Destructible.hpp"], .text "fakeit/Invocation.hpp"]),
   (["include", "fakeit", "DomainObjects.hpp"], [.once, .text "fakeit/DomainObjects.hpp"]),
   (["include", "mockutils", "Destructible.hpp"], [.once, .text "mockutils/Destructible.hpp"]),
   (["include", "mockutils", "TuplePrinter.hpp"], [.once, .incl ["mockutils", "Formatter.hpp"], .text "mockutils/TuplePrinter.hpp"]),
   (["include", "mockutils", "Formatter.hpp"], [.once, .incl ["mockutils", "type_utils.hpp"], .text "mockutils/Formatter.hpp"]),
   (["include", "fakeit", "ActualInvocationsSource.hpp"], [.incl ["fakeit", "Invocation.hpp"], .text "fakeit/ActualInvocationsSource.hpp"]),
   (["include", "fakeit", "FakeitContext.hpp"], [.once, .incl ["fakeit", "EventHandler.hpp"], .incl ["fakeit", "EventFormatter.hpp"], .text "fakeit/FakeitContext.hpp"]),
   (["include", "fakeit", "EventFormatter.hpp"], [.once, .text "fakeit/EventFormatter.hpp"]),
   (["include", "fakeit", "DefaultEventLogger.hpp"], [.once, .incl ["fakeit", "EventHandler.hpp"], .incl ["fakeit", "DefaultEventFormatter.hpp"], .incl ["fakeit", "FakeitExceptions.hpp"], .text "fakeit/DefaultEventLogger.hpp"]),
   (["include", "fakeit", "DefaultEventFormatter.hpp"], [.once, .incl ["fakeit", "EventFormatter.hpp"], .incl ["fakeit", "FakeitEvents.hpp"], .text "fakeit/DefaultEventFormatter.hpp"]),
   (["include", "fakeit", "FakeitExceptions.hpp"], [.once, .incl ["mockutils", "Macros.hpp"], .incl ["fakeit", "FakeitEvents.hpp"], .text "fakeit/FakeitExceptions.hpp"]),
   (["include", "fakeit", "fakeit_root.hpp"], [.once, .incl ["fakeit", "Mock.hpp"], .incl ["fakeit", "WhenFunctor.hpp"], .incl ["fakeit", "FakeFunctor.hpp"], .incl ["fakeit", "UsingFunctor.hpp"], .incl ["fakeit", "VerifyFunctor.hpp"], .incl ["fakeit", "VerifyNoOtherInvocationsFunctor.hpp"], .incl ["fakeit", "SpyFunctor.hpp"], .incl ["fakeit", "api_functors.hpp"], .incl ["fakeit", "api_macros.hpp"], .text "fakeit/fakeit_root.hpp"]),
   (["include", "fakeit", "Mock.hpp"], [.once, .incl ["fakeit", "DomainObjects.hpp"], .incl ["fakeit", "MockImpl.hpp"], .incl ["fakeit", "ActualInvocation.hpp"], .incl ["fakeit", "Prototype.hpp"], .text "fakeit/Mock.hpp"]),
   (["include", "fakeit", "MockImpl.hpp"], [.once, .incl ["mockutils", "type_utils.hpp"], .incl ["mockutils", "DynamicProxy.hpp"], .incl ["fakeit", "StubbingImpl.hpp"], .incl ["fakeit", "MethodMockingContext.hpp"], .incl ["fakeit", "DomainObjects.hpp"], .incl ["fakeit", "FakeitContext.hpp"], .incl ["fakeit", "ActualInvocationHandler.hpp"], .text "fakeit/MockImpl.hpp"]),
   (["include", "mockutils", "DynamicProxy.hpp"], [.once, .incl ["mockutils", "VirtualTable.hpp"], .incl ["mockutils", "union_cast.hpp"], .incl ["mockutils", "MethodInvocationHandler.hpp"], .incl ["mockutils", "VTUtils.hpp"], .incl ["mockutils", "FakeObject.hpp"], .incl ["mockutils", "Finally.hpp"], .incl ["mockutils", "MethodProxy.hpp"], .incl ["mockutils", "MethodProxyCreator.hpp"], .text "mockutils/DynamicProxy.hpp"]),
   (["include", "mockutils", "VirtualTable.hpp"], [.once, .incl ["mockutils", "VTUtils.hpp"], .ifdef "ifdef _MSC_VER", .incl ["mockutils", "mscpp", "VirtualTable.hpp"], .els, .incl ["mockutils", "gcc", "VirtualTable.hpp"], .endif, .text "mockutils/VirtualTable.hpp"]),
   (["include", "mockutils", "VTUtils.hpp"], [.once, .incl ["mockutils", "Macros.hpp"], .incl ["mockutils", "VirtualOffestSelector.hpp"], .incl ["mockutils", "union_cast.hpp"], .text "mockutils/VTUtils.hpp"]),
   (["include", "mockutils", "VirtualOffestSelector.hpp"], [.once, .text "mockutils/VirtualOffestSelector.hpp"]),
   (["include", "mockutils", "union_cast.hpp"], [.once, .text "mockutils/union_cast.hpp"]),
   (["include", "mockutils", "mscpp", "VirtualTable.hpp"], [.once, .text "mockutils/mscpp/VirtualTable.hpp"]),
   (["include", "mockutils", "gcc", "VirtualTable.hpp"], [.once, .ifdef "ifndef __clang__", .incl ["mockutils", "gcc", "is_simple_inheritance_layout.hpp"], .endif, .text "mockutils/gcc/VirtualTable.hpp"]),
   (["include", "mockutils", "gcc", "is_simple_inheritance_layout.hpp"], [.once, .text "mockutils/gcc/is_simple_inheritance_layout.hpp"]),
   (["include", "mockutils", "MethodInvocationHandler.hpp"], [.once, .incl ["mockutils", "Destructible.hpp"], .incl ["mockutils", "type_utils.hpp"], .text "mockutils/MethodInvocationHandler.hpp"]),
   (["include", "mockutils", "FakeObject.hpp"], [.once, .incl ["mockutils", "VirtualTable.hpp"], .text "mockutils/FakeObject.hpp"]),
   (["include", "mockutils", "Finally.hpp"], [.once, .text "mockutils/Finally.hpp"]),
   (["include", "mockutils", "MethodProxy.hpp"], [.once, .incl ["mockutils", "union_cast.hpp"], .text "mockutils/MethodProxy.hpp"]),
   (["include", "mockutils", "MethodProxyCreator.hpp"], [.once, .incl ["mockutils", "type_utils.hpp"], .incl ["mockutils", "VirtualTable.hpp"], .incl ["mockutils", "MethodProxy.hpp"], .incl ["mockutils", "Destructible.hpp"], .text "mockutils/MethodProxyCreator.hpp"]),
   (["include", "fakeit", "StubbingImpl.hpp"], [.once, .incl ["fakeit", "RecordedMethodBody.hpp"], .incl ["fakeit", "StubbingProgress.hpp"], .incl ["fakeit", "Sequence.hpp"], .incl ["fakeit", "ActualInvocation.hpp"], .incl ["fakeit", "EventHandler.hpp"], .incl ["fakeit", "ActionSequence.hpp"], .text "fakeit/StubbingImpl.hpp"]),
   (["include", "fakeit", "RecordedMethodBody.hpp"], [.once, .incl ["mockutils", "TupleDispatcher.hpp"], .incl ["fakeit", "DomainObjects.hpp"], .incl ["fakeit", "ActualInvocation.hpp"], .incl ["fakeit", "ActualInvocationHandler.hpp"], .incl ["fakeit", "invocation_matchers.hpp"], .incl ["fakeit", "FakeitEvents.hpp"], .incl ["fakeit", "FakeitExceptions.hpp"], .incl ["mockutils", "MethodInvocationHandler.hpp"], .text "fakeit/RecordedMethodBody.hpp"]),
   (["include", "mockutils", "TupleDispatcher.hpp"], [.once, .text "mockutils/TupleDispatcher.hpp"]),
   (["include", "fakeit", "ActualInvocationHandler.hpp"], [.once, .incl ["mockutils", "Destructible.hpp"], .incl ["mockutils", "type_utils.hpp"], .text "fakeit/ActualInvocationHandler.hpp"]),
   (["include", "fakeit", "invocation_matchers.hpp"], [.once, .incl ["mockutils", "TupleDispatcher.hpp"], .incl ["mockutils", "TuplePrinter.hpp"], .incl ["mockutils", "DefaultValue.hpp"], .incl ["mockutils", "type_utils.hpp"], .incl ["fakeit", "ActualInvocation.hpp"], .incl ["fakeit", "argument_matchers.hpp"], .text "fakeit/invocation_matchers.hpp"]),
   (["include", "mockutils", "DefaultValue.hpp"], [.once, .incl ["mockutils", "type_utils.hpp"], .text "mockutils/DefaultValue.hpp"]),
   (["include", "fakeit", "argument_matchers.hpp"], [.once, .incl ["mockutils", "type_utils.hpp"], .text "fakeit/argument_matchers.hpp"]),
   (["include", "fakeit", "StubbingProgress.hpp"], [.once, .incl ["mockutils", "DefaultValue.hpp"], .incl ["mockutils", "Macros.hpp"], .incl ["mockutils", "type_utils.hpp"], .incl ["fakeit", "FakeitExceptions.hpp"], .incl ["fakeit", "ActualInvocation.hpp"], .incl ["fakeit", "Quantifier.hpp"], .incl ["fakeit", "Action.hpp"], .text "fakeit/StubbingProgress.hpp"]),
   (["include", "fakeit", "Quantifier.hpp"], [.once, .text "fakeit/Quantifier.hpp"]),
   (["include", "fakeit", "Action.hpp"], [.once, .incl ["mockutils", "DefaultValue.hpp"], .incl ["mockutils", "Destructible.hpp"], .incl ["mockutils", "type_utils.hpp"], .incl ["mockutils", "TupleDispatcher.hpp"], .incl ["fakeit", "FakeitExceptions.hpp"], .text "fakeit/Action.hpp"]),
   (["include", "fakeit", "ActionSequence.hpp"], [.once, .incl ["fakeit", "DomainObjects.hpp"], .incl ["fakeit", "ActualInvocation.hpp"], .incl ["fakeit", "Action.hpp"], .incl ["fakeit", "invocation_matchers.hpp"], .incl ["fakeit", "ActualInvocationHandler.hpp"], .incl ["mockutils", "Finally.hpp"], .incl ["mockutils", "MethodInvocationHandler.hpp"], .text "fakeit/ActionSequence.hpp"]),
   (["include", "fakeit", "MethodMockingContext.hpp"], [.once, .incl ["fakeit", "RecordedMethodBody.hpp"], .incl ["fakeit", "StubbingProgress.hpp"], .incl ["fakeit", "Sequence.hpp"], .incl ["fakeit", "ActualInvocation.hpp"], .incl ["fakeit", "ActualInvocationHandler.hpp"], .incl ["fakeit", "EventHandler.hpp"], .incl ["fakeit", "ActionSequence.hpp"], .incl ["fakeit", "DomainObjects.hpp"], .incl ["fakeit", "SpyingContext.hpp"], .incl ["fakeit", "StubbingContext.hpp"], .incl ["fakeit", "MatchersCollector.hpp"], .incl ["mockutils", "type_utils.hpp"], .text "fakeit/MethodMockingContext.hpp"]),
   (["include", "fakeit", "SpyingContext.hpp"], [.once, .incl ["mockutils", "type_utils.hpp"], .incl ["fakeit", "Xaction.hpp"], .text "fakeit/SpyingContext.hpp"]),
   (["include", "fakeit", "Xaction.hpp"], [.once, .text "fakeit/Xaction.hpp"]),
   (["include", "fakeit", "StubbingContext.hpp"], [.once, .incl ["fakeit", "Xaction.hpp"], .text "fakeit/StubbingContext.hpp"]),
   (["include", "fakeit", "MatchersCollector.hpp"], [.once, .incl ["mockutils", "Destructible.hpp"], .incl ["mockutils", "type_utils.hpp"], .incl ["fakeit", "argument_matchers.hpp"], .text "fakeit/MatchersCollector.hpp"]),
   (["include", "fakeit", "Prototype.hpp"], [.once, .text "fakeit/Prototype.hpp"]),
   (["include", "fakeit", "WhenFunctor.hpp"], [.once, .incl ["fakeit", "StubbingImpl.hpp"], .incl ["fakeit", "StubbingProgress.hpp"], .incl ["fakeit", "FakeitContext.hpp"], .incl ["fakeit", "FakeitExceptions.hpp"], .incl ["mockutils", "smart_ptr.hpp"], .incl ["mockutils", "Destructible.hpp"], .text "fakeit/WhenFunctor.hpp"]),
   (["include", "mockutils", "smart_ptr.hpp"], [.once, .incl ["mockutils", "Macros.hpp"], .text "mockutils/smart_ptr.hpp"]),
   (["include", "fakeit", "FakeFunctor.hpp"], [.once, .incl ["fakeit", "StubbingProgress.hpp"], .incl ["fakeit", "StubbingImpl.hpp"], .incl ["fakeit", "StubbingContext.hpp"], .incl ["fakeit", "FakeitContext.hpp"], .text "fakeit/FakeFunctor.hpp"]),
   (["include", "fakeit", "UsingFunctor.hpp"], [.once, .incl ["fakeit", "Sequence.hpp"], .incl ["fakeit", "SortInvocations.hpp"], .incl ["fakeit", "FakeitContext.hpp"], .incl ["fakeit", "UsingProgress.hpp"], .text "fakeit/UsingFunctor.hpp"]),
   (["include", "fakeit", "SortInvocations.hpp"], [.once, .incl ["fakeit", "Invocation.hpp"], .incl ["fakeit", "ActualInvocation.hpp"], .incl ["fakeit", "Sequence.hpp"], .text "fakeit/SortInvocations.hpp"]),
   (["include", "fakeit", "UsingProgress.hpp"], [.once, .incl ["fakeit", "FakeitContext.hpp"], .incl ["fakeit", "SequenceVerificationProgress.hpp"], .text "fakeit/UsingProgress.hpp"]),
   (["include", "fakeit", "SequenceVerificationProgress.hpp"], [.once, .incl ["fakeit", "FakeitExceptions.hpp"], .incl ["fakeit", "SequenceVerificationExpectation.hpp"], .incl ["fakeit", "ThrowFalseEventHandler.hpp"], .incl ["mockutils", "smart_ptr.hpp"], .incl ["mockutils", "to_string.hpp"], .text "fakeit/SequenceVerificationProgress.hpp"]),
   (["include", "fakeit", "SequenceVerificationExpectation.hpp"], [.once, .incl ["mockutils", "smart_ptr.hpp"], .incl ["fakeit", "FakeitExceptions.hpp"], .incl ["fakeit", "FakeitContext.hpp"], .incl ["fakeit", "SortInvocations.hpp"], .incl ["fakeit", "MatchAnalysis.hpp"], .text "fakeit/SequenceVerificationExpectation.hpp"]),
   (["include", "fakeit", "MatchAnalysis.hpp"], [.once, .text "fakeit/MatchAnalysis.hpp"]),
   (["include", "fakeit", "ThrowFalseEventHandler.hpp"], [.once, .incl ["fakeit", "EventHandler.hpp"], .text "fakeit/ThrowFalseEventHandler.hpp"]),
   (["include", "mockutils", "to_string.hpp"], [.once, .text "mockutils/to_string.hpp"]),
   (["include", "fakeit", "VerifyFunctor.hpp"], [.once, .incl ["fakeit", "StubbingImpl.hpp"], .incl ["fakeit", "StubbingProgress.hpp"], .incl ["fakeit", "Sequence.hpp"], .incl ["fakeit", "SortInvocations.hpp"], .incl ["fakeit", "UsingFunctor.hpp"], .incl ["fakeit", "UsingProgress.hpp"], .incl ["fakeit", "FakeitContext.hpp"], .incl ["fakeit", "SequenceVerificationProgress.hpp"], .text "fakeit/VerifyFunctor.hpp"]),
   (["include", "fakeit", "VerifyNoOtherInvocationsFunctor.hpp"], [.once, .incl ["fakeit", "StubbingImpl.hpp"], .incl ["fakeit", "StubbingProgress.hpp"], .incl ["fakeit", "Sequence.hpp"], .incl ["fakeit", "SortInvocations.hpp"], .incl ["fakeit", "UsingFunctor.hpp"], .incl ["fakeit", "VerifyNoOtherInvocationsVerificationProgress.hpp"], .incl ["mockutils", "smart_ptr.hpp"], .incl ["mockutils", "Macros.hpp"], .incl ["fakeit", "FakeitContext.hpp"], .text "fakeit/VerifyNoOtherInvocationsFunctor.hpp"]),
   (["include", "fakeit", "VerifyNoOtherInvocationsVerificationProgress.hpp"], [.once, .incl ["fakeit", "FakeitExceptions.hpp"], .incl ["fakeit", "FakeitContext.hpp"], .incl ["fakeit", "ThrowFalseEventHandler.hpp"], .text "fakeit/VerifyNoOtherInvocationsVerificationProgress.hpp"]),
   (["include", "fakeit", "SpyFunctor.hpp"], [.once, .incl ["fakeit", "StubbingProgress.hpp"], .incl ["fakeit", "StubbingImpl.hpp"], .incl ["fakeit", "SpyingContext.hpp"], .incl ["mockutils", "type_utils.hpp"], .text "fakeit/SpyFunctor.hpp"]),
   (["include", "fakeit", "api_functors.hpp"], [.once, .incl ["fakeit", "UsingFunctor.hpp"], .incl ["fakeit", "VerifyFunctor.hpp"], .incl ["fakeit", "VerifyNoOtherInvocationsFunctor.hpp"], .incl ["fakeit", "SpyFunctor.hpp"], .incl ["fakeit", "SpyWithoutVerifyFunctor.hpp"], .incl ["fakeit", "FakeFunctor.hpp"], .incl ["fakeit", "WhenFunctor.hpp"], .incl ["fakeit", "UnverifiedFunctor.hpp"], .text "fakeit/api_functors.hpp"]),
   (["include", "fakeit", "SpyWithoutVerifyFunctor.hpp"], [.once, .incl ["fakeit", "StubbingProgress.hpp"], .incl ["fakeit", "StubbingImpl.hpp"], .incl ["fakeit", "SpyingContext.hpp"], .text "fakeit/SpyWithoutVerifyFunctor.hpp"]),
   (["include", "fakeit", "UnverifiedFunctor.hpp"], [.once, .incl ["fakeit", "SortInvocations.hpp"], .text "fakeit/UnverifiedFunctor.hpp"]),
   (["include", "fakeit", "api_macros.hpp"], [.once, .text "fakeit/api_macros.hpp"])]

/-- GCC: no `_MSC_VER`, no `__clang__`. -/
def gccMacros : String → Bool := fun c => c ≠ "ifdef _MSC_VER"

/-- MSVC. -/
def msvcMacros : String → Bool := fun _ => true

/-- The tree is tidy for GCC. -/
theorem gtestTree_gcc : tidyB gtestTree "gtest" gtestPath gccMacros ["config", "gtest", "fakeit.hpp"] [["include", "mockutils", "mscpp", "VirtualTable.hpp"]] = true := by
  decide +kernel

/-- The tree is tidy for MSVC. -/
theorem gtestTree_msvc : tidyB gtestTree "gtest" gtestPath msvcMacros ["config", "gtest", "fakeit.hpp"]
    [["include", "mockutils", "gcc", "VirtualTable.hpp"], ["include", "mockutils", "gcc", "is_simple_inheritance_layout.hpp"]] = true := by
  decide +kernel

/-- What GCC makes of the single header for Google Test is what it makes of the source files. -/
example {n : Nat} {header : List Line} (h : singleHeader (filesOf gtestTree) "gtest" n = some header) :
    ∃ text, program (filesOf gtestTree) gccMacros gtestPath n ["config", "gtest", "fakeit.hpp"] = some text ∧
      ∀ (fs' : Files) (dirs' : List Path) (p : Path) (k : Nat), fs' p = some header → program fs' gccMacros dirs' (k + 1) p = some text :=
  C60_single_header_is_the_same_program_partial (tidy_of_tidyB gtestTree_gcc) (by decide +kernel) h

/-- What MSVC makes of the single header for Google Test is what it makes of the source files. -/
example {n : Nat} {header : List Line} (h : singleHeader (filesOf gtestTree) "gtest" n = some header) :
    ∃ text, program (filesOf gtestTree) msvcMacros gtestPath n ["config", "gtest", "fakeit.hpp"] = some text ∧
      ∀ (fs' : Files) (dirs' : List Path) (p : Path) (k : Nat), fs' p = some header → program fs' msvcMacros dirs' (k + 1) p = some text :=
  C60_single_header_is_the_same_program_partial (tidy_of_tidyB gtestTree_msvc) (by decide +kernel) h

end FakeIt.Demo
