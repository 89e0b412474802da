{"id": "C01", "title": "Latest matching stubbing wins", "statement": "When a mocked method is called, the behaviour performed is the one of the most recently committed stubbing (When/Fake/Spy/assignment) whose argument matcher accepts the actual arguments; stubbings committed earlier, and later ones whose matcher rejects the arguments, have no influence on the outcome.", "quantifier": "every mock state reachable or not, every list of stubbings, every argument list, every matcher predicate", "why_tests_cant": "The number and interleaving of stubbings and the matcher predicates are unbounded; tests only try a handful of overlapping stubbings.", "anchors": ["include/fakeit/RecordedMethodBody.hpp: getInvocationHandlerForActualArgs, addMethodInvocationHandler", "include/fakeit/RecordedMethodBody.hpp: MatchedInvocationHandler"]}
{"id": "C02", "title": "Scripted actions are performed in order, then the stub is exhausted", "statement": "After When(m).A1.A2...Ak the i-th call selecting this stubbing performs the i-th action (counted with its n_Times multiplicity, n >= 1); once all finite actions are used, every further call selecting it is reported as unexpected and throws, and no earlier stubbing of the method is consulted as a fallback.", "quantifier": "every list of actions with multiplicities, every number of calls, every interleaving with calls that select other stubbings", "why_tests_cant": "Script length, multiplicities and number of calls are unbounded.", "anchors": ["include/fakeit/ActionSequence.hpp: handleMethodInvocation, append, clear", "include/fakeit/Action.hpp: Repeat", "include/fakeit/StubbingProgress.hpp: Return, Throw, Do"]}
{"id": "C03", "title": "n_Times performs the action exactly n times", "statement": "Return/Throw/Do with quantity n performs its action for exactly n selecting calls, for every n including 0.", "quantifier": "every integer quantity n and every number of calls", "why_tests_cant": "Boundary n = 0 and negative quantities are not covered by any test, and the count ranges over all integers.", "anchors": ["include/fakeit/Action.hpp: Repeat::invoke, Repeat::isDone", "include/fakeit/Quantifier.hpp: Quantity, operator\"\" _Times"]}
{"id": "C04", "title": "Always-actions are never exhausted", "statement": "Once an AlwaysReturn/AlwaysThrow/AlwaysDo/Fake/Spy/assignment action is reached, it is performed for every later call selecting this stubbing, for ever, and actions appended after it are never performed.", "quantifier": "every number of calls, every suffix of appended actions, every outcome of the action including exceptions", "why_tests_cant": "Claims about infinitely many calls cannot be settled by finitely many calls.", "anchors": ["include/fakeit/Action.hpp: RepeatForever, ReturnDefaultValue, ReturnDelegateValue", "include/fakeit/ActionSequence.hpp"]}
{"id": "C05", "title": "An action that throws is consumed exactly like one that returns", "statement": "The stubbing's remaining script after a call does not depend on whether the performed action returned or threw.", "quantifier": "every script, every action, every outcome (value or exception)", "why_tests_cant": "Needs every crash point of user callbacks.", "anchors": ["include/fakeit/ActionSequence.hpp: handleMethodInvocation (Finally)", "include/mockutils/Finally.hpp"]}
{"id": "C06", "title": "Re-entrant calls consume one action per call", "statement": "When a Do action itself calls the same mocked method (any depth of nesting), each call still consumes exactly one action of the script, so the k-th started call performs the k-th action and no call has undefined behaviour.", "quantifier": "every user callback program (arbitrary nested mock calls), every script, every nesting depth", "why_tests_cant": "Callbacks and nesting depth are unbounded; the interesting states only exist in the middle of a call.", "anchors": ["include/fakeit/ActionSequence.hpp: handleMethodInvocation", "include/fakeit/Action.hpp: Repeat"]}
{"id": "C07", "title": "An unexpected call is never silently answered", "statement": "A call to a method that was never mentioned, or whose arguments no stubbing accepts, or whose selected stubbing is exhausted, fires exactly one UnexpectedMethodCall event and never returns normally to the caller; a call whose selected stubbing still has an action fires no event of its own.", "quantifier": "every state, every method slot, every argument list", "why_tests_cant": "Quantifies over all stubbing histories and arguments.", "anchors": ["include/fakeit/RecordedMethodBody.hpp: handleMethodInvocation", "include/fakeit/MockImpl.hpp: unmocked", "include/fakeit/FakeitContext.hpp: handle"]}
{"id": "C08", "title": "Every handled call is recorded exactly once, before its action runs", "statement": "Each call accepted by some stubbing appends exactly one invocation (with its arguments, not verified) to the method's history, whether the action returns, throws or turns out to be exhausted; nested calls made by the action are recorded after it; calls accepted by no stubbing append nothing.", "quantifier": "every state, every argument list, every callback program including re-entrant ones, every outcome", "why_tests_cant": "Needs all crash points and all nested call trees.", "anchors": ["include/fakeit/RecordedMethodBody.hpp: handleMethodInvocation", "include/fakeit/ActualInvocation.hpp"]}
{"id": "C09", "title": "History is append-only between clears", "statement": "As long as the mock is not reset, cleared or destroyed, no API call or mocked call ever removes, reorders or un-verifies a recorded invocation; only new ones are appended and marks added.", "quantifier": "every history of API operations and (re-entrant) calls", "why_tests_cant": "A temporal property over all histories.", "anchors": ["include/fakeit/RecordedMethodBody.hpp: _actualInvocations", "include/fakeit/Invocation.hpp: markAsVerified"]}
{"id": "C10", "title": "Recorded arguments: by-value snapshot, by-reference alias", "statement": "An argument passed by value is verified against the value it had when the call was made (as possibly modified by the stub action itself), whatever the test does to its own variables afterwards; an argument passed by reference is verified against the value of the referenced object at verification time.", "quantifier": "every argument list mixing values and references, every later sequence of writes to test variables", "why_tests_cant": "All subsequent mutation histories.", "anchors": ["include/fakeit/ActualInvocation.hpp: actualArguments", "include/mockutils/type_utils.hpp: ArgumentsTuple/tuple_arg", "include/fakeit/RecordedMethodBody.hpp"]}
{"id": "C11", "title": "Invocation order is the real call order", "statement": "The ordinals given to invocations are pairwise distinct and increase in the order in which the calls were started, across all mocks and methods.", "quantifier": "every history of calls, of any length, on any number of mocks", "why_tests_cant": "Ordinals are 32-bit; only a proof exposes the wrap-around bound.", "anchors": ["include/fakeit/Invocation.hpp: nextInvocationOrdinal", "include/fakeit/RecordedMethodBody.hpp: handleMethodInvocation"]}
{"id": "C12", "title": "Ordinals under concurrency", "statement": "If several threads call mocked methods concurrently, any two calls get different ordinals, ordinals of one thread increase in its program order, and a call that finished before another one started has the smaller ordinal.", "quantifier": "every number of threads, every program per thread, every interleaving (schedule)", "why_tests_cant": "Tests see only a few schedules.", "anchors": ["include/fakeit/Invocation.hpp: invocationOrdinal (std::atomic_uint)"]}
{"id": "C13", "title": "The verified sequence is exactly the recorded history in call order", "statement": "The actual sequence a verification works on contains every invocation of its sources exactly once, ordered by call order, and does not depend on the iteration order of the hash sets used internally or on the order or multiplicity in which sources are named.", "quantifier": "every set of recorded invocations, every hash iteration order, every list of sources", "why_tests_cant": "Hash order is unspecified; all permutations must be covered.", "anchors": ["include/fakeit/SortInvocations.hpp: sortByInvocationOrder, collectActualInvocations", "include/fakeit/ActualInvocationsSource.hpp"]}
{"id": "C14", "title": "Verification always terminates and never reads out of bounds", "statement": "For every pattern that can be written with the API and every recorded history, the match analysis terminates and never accesses an invocation outside the recorded sequence.", "quantifier": "every non-empty list of non-empty sequences, every history, every predicate", "why_tests_cant": "Termination and memory safety for all inputs.", "anchors": ["include/fakeit/MatchAnalysis.hpp: countMatches, findNextMatch, isMatch, collectMatchedInvocations"]}
{"id": "C15", "title": "The match count is the maximum number of disjoint in-order matches", "statement": "The number of matches reported for a pattern of sequences is the largest k such that k occurrences of the whole pattern can be found one after the other without overlap in the actual sequence.", "quantifier": "every pattern, every history, every matcher predicate", "why_tests_cant": "Optimality of the greedy scan is a statement about all alternative choices of matches.", "anchors": ["include/fakeit/MatchAnalysis.hpp: countMatches, findNextMatch"]}
{"id": "C16", "title": "Verifying a single method counts its matching calls", "statement": "For a pattern consisting of one method expression the match count is the number of recorded invocations of that method whose arguments the matcher accepts.", "quantifier": "every history, every matcher", "why_tests_cant": "All histories.", "anchors": ["include/fakeit/MatchAnalysis.hpp", "include/fakeit/MethodMockingContext.hpp: matches"]}
{"id": "C17", "title": "Sequence algebra", "statement": "In a verification, (a+b)+c and a+(b+c), s*1 and s, (s*n)*m and s*(n*m), s*(n+m) and s*n + s*m are interchangeable: same match count, same invocations marked; and the declared size of a sequence equals the number of expected invocations it expands to.", "quantifier": "all sequence expressions a, b, c, s and all positive n, m, all histories", "why_tests_cant": "Equational laws over an infinite expression language.", "anchors": ["include/fakeit/Sequence.hpp: ConcatenatedSequence, RepeatedSequence, operator+, operator*"]}
{"id": "C18", "title": "Illegal counts are rejected without side effects", "statement": "s * n with n <= 0, Exactly(n)/AtLeast(n) with n < 0 and n_Time with n != 1 throw; a Verify statement aborted this way reports nothing and marks nothing.", "quantifier": "all integers n, all states", "why_tests_cant": "All integers; all states.", "anchors": ["include/fakeit/Sequence.hpp: operator*", "include/fakeit/SequenceVerificationProgress.hpp: Exactly, AtLeast", "include/fakeit/Quantifier.hpp"]}
{"id": "C19", "title": "Exactly / Never / Once / Twice / default decide by the match count", "statement": "A Verify statement passes iff: default or AtLeastOnce - at least one match; Exactly(n) - exactly n matches (Never 0, Once 1, Twice 2); Any - always. It fires one verification event otherwise.", "quantifier": "every pattern, history and n >= 0", "why_tests_cant": "All histories and all counts.", "anchors": ["include/fakeit/SequenceVerificationExpectation.hpp: VerifyExpectation, atLeastVerification, exactVerification", "include/fakeit/SequenceVerificationProgress.hpp"]}
{"id": "C20", "title": "AtLeast(n) passes iff there are at least n matches", "statement": "Verify(p).AtLeast(n) passes iff the pattern matches at least n times, for every n >= 0.", "quantifier": "every pattern, every history, every n >= 0 including 0", "why_tests_cant": "The boundary n = 0 is encoded specially and is not exercised by tests.", "anchors": ["include/fakeit/SequenceVerificationProgress.hpp: AtLeast", "include/fakeit/SequenceVerificationExpectation.hpp: isAtLeastVerification"]}
{"id": "C21", "title": "A failing verification reports faithfully and marks nothing", "statement": "When a Verify statement fails, exactly one event is fired, carrying the verification type, the expected count, the true match count and the full actual sequence in call order, and no invocation changes its verified mark.", "quantifier": "every state, pattern and count, in a process that has made fewer than 2^32 mocked calls (C11, C13)", "why_tests_cant": "All states.", "anchors": ["include/fakeit/SequenceVerificationExpectation.hpp: VerifyExpectation, handleExactVerificationEvent, handleAtLeastVerificationEvent"]}
{"id": "C22", "title": "A passing verification marks exactly the invocations of its matches", "statement": "When a Verify statement passes, the invocations that become verified are exactly those belonging to one of the counted complete matches of the pattern; no other invocation is marked.", "quantifier": "every state, every pattern of one or more sequences, every count", "why_tests_cant": "The over-marking only shows for particular interleavings after the last complete match.", "anchors": ["include/fakeit/MatchAnalysis.hpp: findNextMatch, collectMatchedInvocations", "include/fakeit/SequenceVerificationExpectation.hpp: markAsVerified"]}
{"id": "C23", "title": "VerifyNoOtherInvocations is exact", "statement": "VerifyNoOtherInvocations(sources) passes iff every recorded invocation of the sources is already verified; otherwise it fires one event listing exactly the unverified ones in call order; it never marks anything.", "quantifier": "every state, every list of sources", "why_tests_cant": "All states and histories.", "anchors": ["include/fakeit/VerifyNoOtherInvocationsVerificationProgress.hpp: VerifyExpectation", "include/fakeit/SortInvocations.hpp: selectNonVerifiedInvocations"]}
{"id": "C24", "title": "Using a verification as a bool is consistent", "statement": "Converting a Verify(...)/VerifyNoOtherInvocations(...) object to bool yields true iff the statement would have passed, however often it is converted; no event is fired for it, and the verification is not performed again when the object dies.", "quantifier": "every state, every pattern, every number of conversions and ! operators before destruction", "why_tests_cant": "All sequences of conversions.", "anchors": ["include/fakeit/SequenceVerificationProgress.hpp: Terminator::toBool, operator bool", "include/fakeit/SequenceVerificationExpectation.hpp: _isVerified", "include/fakeit/ThrowFalseEventHandler.hpp"]}
{"id": "C25", "title": "A statement verifies once, at the end of the statement", "statement": "However many copies of the progress and terminator objects a Verify statement creates and in whatever order they die, the verification runs exactly once, when the last copy dies, with the last count that was set.", "quantifier": "every sequence of copies, destructions and quantifier calls", "why_tests_cant": "All orders of temporaries' lifetimes.", "anchors": ["include/fakeit/SequenceVerificationProgress.hpp", "include/mockutils/smart_ptr.hpp", "include/fakeit/SequenceVerificationExpectation.hpp: ~SequenceVerificationExpectation"]}
{"id": "C26", "title": "Nothing is verified or stubbed while an exception is propagating", "statement": "A When(...) or Verify(...) or VerifyNoOtherInvocations(...) statement that ends because an exception propagates installs no stubbing, fires no event and marks nothing.", "quantifier": "every state, every statement", "why_tests_cant": "All crash points of a statement.", "anchors": ["include/fakeit/WhenFunctor.hpp: StubbingChange::~StubbingChange", "include/fakeit/SequenceVerificationExpectation.hpp: ~SequenceVerificationExpectation", "include/fakeit/VerifyNoOtherInvocationsVerificationProgress.hpp"]}
{"id": "C27", "title": "A passing Verify can be repeated", "statement": "A Verify statement (without Unverified) that passed passes again with the same count if nothing happened in between; verified marks never influence it.", "quantifier": "every state and pattern, in a process that has made fewer than 2^32 mocked calls (C11, C13)", "why_tests_cant": "All states.", "anchors": ["include/fakeit/VerifyFunctor.hpp", "include/fakeit/MatchAnalysis.hpp"]}
{"id": "C28", "title": "Verification scope", "statement": "Verify(p) looks at all invocations of all mocks involved in p and nothing else: invocations of other mocks never change its verdict; Using(sources).Verify(p) looks exactly at the invocations of the sources.", "quantifier": "every world of mocks, every pattern, every list of sources, in a process that has made fewer than 2^32 mocked calls (C11, C13)", "why_tests_cant": "All interleavings with other mocks' calls.", "anchors": ["include/fakeit/VerifyFunctor.hpp", "include/fakeit/UsingFunctor.hpp, UsingProgress.hpp", "include/fakeit/MethodMockingContext.hpp: getInvolvedMocks", "include/fakeit/MockImpl.hpp: getActualInvocations"]}
{"id": "C29", "title": "Unverified.Verify sees only unverified invocations", "statement": "Unverified.Verify(p) and Using(Unverified(sources)).Verify(p) match only invocations that are not yet verified; hence a passing Unverified.Verify never re-counts an invocation that an earlier passing verification marked.", "quantifier": "every state, pattern, sequence of verifications, in a process that has made fewer than 2^32 mocked calls (C11, C13)", "why_tests_cant": "All histories of verifications.", "anchors": ["include/fakeit/UnverifiedFunctor.hpp", "include/fakeit/ActualInvocationsSource.hpp: UnverifiedInvocationsSource"]}
{"id": "C30", "title": "Mocks are isolated from each other", "statement": "Stubbing, calling (with callbacks that do not touch the other mock), resetting, clearing or verifying one mock leaves the stubbings, scripts, history and dispatch of every other mock unchanged.", "quantifier": "every world with any number of mocks, every operation, every callback that stays within the mock", "why_tests_cant": "All pairs of mocks, all histories.", "anchors": ["include/fakeit/MockImpl.hpp", "include/mockutils/DynamicProxy.hpp"]}
{"id": "C31", "title": "Calls reach the stubbings of the method that was called", "statement": "A call to virtual method f is answered by the stubbings of f and never by those of another method of the mock; stubbing f does not change the behaviour of the other methods.", "quantifier": "every class layout, every set of stubbed methods, every order of stubbing, resets in between", "why_tests_cant": "All layouts, orders and reset histories.", "anchors": ["include/mockutils/DynamicProxy.hpp: InvocationHandlers::getOffset, getInvocatoinHandlerPtrById, bind, stubMethod", "include/fakeit/MockImpl.hpp: stubMethodIfNotStubbed"]}
{"id": "C32", "title": "Reset restores the freshly constructed behaviour", "statement": "After mock.Reset() the mock behaves as if just constructed: no stubbing, no history, every method unmocked (or original, for a spied object), and data members of an owned fake zeroed; stubbing it afterwards works as on a new mock.", "quantifier": "every state reached by any history, every later sequence of operations", "why_tests_cant": "All histories before and after.", "anchors": ["include/mockutils/DynamicProxy.hpp: Reset", "include/fakeit/MockImpl.hpp: reset, initDataMembersIfOwner"]}
{"id": "C33", "title": "Stubbing the destructor works after Reset", "statement": "After Reset, stubbing Dtor(mock) and destroying the instance runs the destructor stub, exactly as on a new mock.", "quantifier": "every class layout (any position of the virtual destructor) and any history ending in Reset", "why_tests_cant": "Depends on table state only a Reset leaves behind and on the destructor's slot.", "anchors": ["include/mockutils/DynamicProxy.hpp: Reset, stubDtor, InvocationHandlers::getOffset"]}
{"id": "C34", "title": "ClearInvocationHistory forgets calls and nothing else", "statement": "ClearInvocationHistory removes all recorded invocations of the mock; stubbings, their remaining scripts, the dispatch table, other mocks and stubbed data members keep their state.", "quantifier": "every state", "why_tests_cant": "All states, including stubbed data members.", "anchors": ["include/fakeit/MockImpl.hpp: clear, initDataMembersIfOwner", "include/fakeit/RecordedMethodBody.hpp: clear"]}
{"id": "C35", "title": "Spy delegates to the original and always restores the hook", "statement": "A spied method runs the original implementation with the actual arguments, returns or throws what it returns or throws, records the call, and whatever happens inside (nested calls, exceptions) the method is hooked again afterwards, so the next call is recorded too.", "quantifier": "every original implementation (arbitrary program with nested calls), every argument list, every outcome", "why_tests_cant": "All bodies and crash points.", "anchors": ["include/fakeit/MockImpl.hpp: getOriginalMethodCopyArgs/ForwardArgs", "include/mockutils/DynamicProxy.hpp: createRaiiMethodSwapper, MethodSwapper", "include/fakeit/SpyFunctor.hpp"]}
{"id": "C36", "title": "Mentioning a method does not change its behaviour", "statement": "Writing Method(mock, f) in a Verify statement (without stubbing it) does not change what later calls of f do.", "quantifier": "every mock, spied objects included, every method, every later call", "why_tests_cant": "Needs comparing two whole futures.", "anchors": ["include/fakeit/MockImpl.hpp: stubMethodIfNotStubbed", "include/fakeit/MethodMockingContext.hpp: getRecordedMethodBody"]}
{"id": "C37", "title": "Destroying a spying mock restores the object", "statement": "After the Mock of a spied object is destroyed, every virtual call on the object runs its original implementation again, whatever was stubbed before.", "quantifier": "every history of the mock, every method slot", "why_tests_cant": "All histories.", "anchors": ["include/fakeit/MockImpl.hpp: ~MockImpl, detach", "include/mockutils/DynamicProxy.hpp: detach"]}
{"id": "C38", "title": "Using(args...) accepts iff every position accepts", "statement": "Method(mock,f).Using(m1,...,mn) accepts a call iff for every i the i-th matcher accepts the i-th argument (a plain value accepts equal arguments, _ and Any accept everything), evaluated left to right stopping at the first rejection.", "quantifier": "every arity, every list of matchers, every argument list", "why_tests_cant": "All arities, values and matchers.", "anchors": ["include/fakeit/invocation_matchers.hpp: ArgumentsMatcherInvocationMatcher", "include/fakeit/MatchersCollector.hpp", "include/fakeit/argument_matchers.hpp"]}
{"id": "C39", "title": "Comparison matchers are coherent", "statement": "For arguments of a totally ordered type exactly one of Lt(x), Eq(x), Gt(x) accepts, Le = Lt or Eq, Ge = Gt or Eq, Ne is the complement of Eq; the String variants behave the same with respect to byte-wise lexicographic order of the NUL-terminated strings; ApproxEq(x, m) accepts iff |arg - x| <= m.", "quantifier": "all values, all NUL-terminated byte strings, all margins", "why_tests_cant": "Infinite domains.", "anchors": ["include/fakeit/argument_matchers.hpp"]}
{"id": "C40", "title": "A saved expectation recognises the calls it served", "statement": "If the same method expression object that stubbed a call is used to verify it, the call is recognised, even if its recorded arguments were modified meanwhile.", "quantifier": "every matcher, every recorded invocation, every later mutation of its arguments, in a process that has made fewer than 2^32 mocked calls (C11, C13)", "why_tests_cant": "All mutations.", "anchors": ["include/fakeit/invocation_matchers.hpp: matches (identity shortcut)", "include/fakeit/RecordedMethodBody.hpp: setActualMatcher"]}
{"id": "C41", "title": "ReturnAndSet assigns output parameters positionally", "statement": "ReturnAndSet(r, v1..vk)/AlwaysReturnAndSet returns r and stores vi through the i-th parameter for i <= k, leaving the remaining parameters untouched.", "quantifier": "every arity, every k <= arity, every assignment of parameters to memory cells (aliasing included); a vi given as an lvalue counts with its value at the time of the call, and has to exist then", "why_tests_cant": "All arities and aliasing patterns.", "anchors": ["include/fakeit/StubbingProgress.hpp: ParamWalker, GetAssigner, ReturnAndSet"]}
{"id": "C42", "title": "Indexed placeholders assign by index", "statement": "With _i <= v arguments, parameter i receives v; if an index is given several times the last one wins; parameters with no placeholder are untouched.", "quantifier": "every arity, every list of placeholders with valid indices", "why_tests_cant": "All placeholder lists.", "anchors": ["include/fakeit/StubbingProgress.hpp: ArgValue, ArgLocator, ArgValidator, Assign"]}
{"id": "C43", "title": "Event listeners are all told, in order, before the test framework", "statement": "When an event is fired, every registered listener is called exactly once in registration order and then the testing framework adapter; if one throws, those before it were called and those after it are not.", "quantifier": "every list of listeners, every event, every point at which a listener throws", "why_tests_cant": "All listener lists and crash points.", "anchors": ["include/fakeit/FakeitContext.hpp: handle, fireEvent, addEventHandler, clearEventHandlers", "include/fakeit/DefaultFakeit.hpp"]}
{"id": "C44", "title": "Failure messages list the true history", "statement": "The message of a failed verification shows the expected and actual counts and, in call order, the first min(n,50) of the n actual invocations, one per line, and an ellipsis line iff n > 50.", "quantifier": "every number of invocations and every text of them", "why_tests_cant": "All lengths.", "anchors": ["include/fakeit/DefaultEventFormatter.hpp: formatInvocationList, formatExpectedCount, formatSequence"]}
{"id": "C45", "title": "The printed pattern identifies the verified pattern", "statement": "Two Verify patterns that print identically expand to the same expected invocations.", "quantifier": "all pairs of sequence expressions", "why_tests_cant": "Infinitely many expressions; a parsing-ambiguity question.", "anchors": ["include/fakeit/DefaultEventFormatter.hpp: formatSequence (concatenated / repeated), formatExpectedPattern"]}
{"id": "C46", "title": "Shared statement objects are destroyed exactly once", "statement": "However the shared handles used by When/Verify statements are copied, assigned and destroyed, the underlying object is destroyed exactly once, after the last handle, and never used after.", "quantifier": "every sequence of copy, assignment (self-assignment included) and destruction of handles", "why_tests_cant": "All sequences of handle operations.", "anchors": ["include/mockutils/smart_ptr.hpp: smart_ptr, RefCount"]}
{"id": "C47", "title": "The virtual table layout is safe", "statement": "For every class size, reading and writing cookies, method entries and the destructor entries of a fake virtual table touches distinct cells inside the allocated array, a written entry reads back until overwritten, dispose frees exactly the allocated block, and taking over the entries of another table (another fake one, or the one the compiler made for a spied object) reads only cells of that table.", "quantifier": "every table size, every index in range, every sequence of writes, every source table; both the Itanium and the MSVC layout", "why_tests_cant": "All sizes and write sequences.", "anchors": ["include/mockutils/gcc/VirtualTable.hpp", "include/mockutils/mscpp/VirtualTable.hpp"]}
{"id": "C48", "title": "A method expression can be reused", "statement": "A Method(mock,f) object saved in a variable can be used in several stubbing statements, and its arguments matcher can be set again, without memory errors.", "quantifier": "every sequence of uses of the saved object", "why_tests_cant": "Ownership over all sequences of uses.", "anchors": ["include/fakeit/MethodMockingContext.hpp: Implementation::commit, setInvocationMatcher, ~Implementation", "include/fakeit/RecordedMethodBody.hpp: MatchedInvocationHandler"]}
{"id": "C49", "title": "Callbacks receive the actual arguments in order", "statement": "Stub actions and argument visitors receive each actual argument exactly once, at its own position, in declaration order.", "quantifier": "every arity, every function", "why_tests_cant": "All arities.", "anchors": ["include/mockutils/TupleDispatcher.hpp: apply_func, invoke, for_each"]}
{"id": "C50", "title": "Quantity literals denote the written number", "statement": "n_Times denotes n for every literal n, and n_Time is accepted iff n = 1.", "quantifier": "every unsigned 64-bit literal n", "why_tests_cant": "2^64 literals.", "anchors": ["include/fakeit/Quantifier.hpp: operator\"\" _Times, operator\"\" _Time"]}
{"id": "C51", "title": "Default answers are default values", "statement": "A Fake'd method (or Return() without argument) answers with the default value of its return type on every call, whatever earlier callers did with earlier answers.", "quantifier": "every return type kind (value, reference, non-constructible), every history of callers' writes", "why_tests_cant": "All histories of aliasing writes.", "anchors": ["include/mockutils/DefaultValue.hpp", "include/fakeit/Action.hpp: ReturnDefaultValue"]}
{"id": "C52", "title": "Method offsets are computed correctly", "statement": "The slot stubbed for a virtual method is the slot the compiler dispatches it through, and the table a mock makes for its object has a place for every virtual method of the class.", "quantifier": "every class with any virtual methods, overriding methods, bases and destructor; every slot number", "why_tests_cant": "The table of probe functions is hand-written and long; slots beyond it exist. The table is measured with a helper method whose name a mocked class may use, too.", "anchors": ["include/mockutils/VTUtils.hpp: getOffset, getDestructorOffset, getVTSize", "include/mockutils/VirtualOffestSelector.hpp"]}
{"id": "C53", "title": "Only simple single-inheritance layouts are accepted", "statement": "The compile-time layout check accepts a class hierarchy iff every class in it has at most one direct base.", "quantifier": "all class hierarchies (finite trees of bases)", "why_tests_cant": "All hierarchies.", "anchors": ["include/mockutils/gcc/is_simple_inheritance_layout.hpp: has_one_base, is_simple_inheritance_layout", "include/mockutils/gcc/VirtualTable.hpp: static_assert"]}
{"id": "C54", "title": "Stubbed data members live and die with the mock", "statement": "A data member stubbed with Stub is constructed once with the given value, is destroyed exactly once (at Reset or mock destruction, before the storage is zeroed or freed), and reads back the stubbed value until then.", "quantifier": "every history of Stub, Reset, ClearInvocationHistory and writes", "why_tests_cant": "All histories.", "anchors": ["include/mockutils/DynamicProxy.hpp: stubDataMember, DataMemeberWrapper, Reset", "include/fakeit/MockImpl.hpp: clear, reset"]}
{"id": "C55", "title": "Stubbing a whole list of methods equals stubbing them one by one", "statement": "Fake(m1,...,mk) and Spy(m1,...,mk) have the same effect as k separate statements in that order.", "quantifier": "every list of method expressions, every state", "why_tests_cant": "All lists.", "anchors": ["include/fakeit/FakeFunctor.hpp", "include/fakeit/SpyFunctor.hpp"]}
{"id": "C56", "title": "The library refines a simple abstract mock", "statement": "For every program of API operations and calls whose callbacks do not re-enter mocks, the outcomes, histories and verification verdicts are those of an abstract mock: per method a newest-first list of (predicate, remaining script) and a list of recorded calls with verified flags.", "quantifier": "every program (finite list of operations) over any number of mocks and methods", "why_tests_cant": "All programs; it is a simulation argument.", "anchors": ["include/fakeit/*.hpp: RecordedMethodBody, ActionSequence, MockImpl, MatchAnalysis, SequenceVerificationExpectation"]}
{"id": "C57", "title": "Arguments of spied calls in the record", "statement": "A call that a Spy stubbing delegates to the original implementation is recorded with the arguments it was made with, and they are still what is recorded when the call returns, whatever the original does meanwhile (including nested calls of any mock and assigning to its own parameters). With SpyWithoutVerify the record holds moved-from values for by-value arguments. By-reference arguments are recorded as references in both cases.", "quantifier": "every reachable state, every spied object, method, argument list and behaviour of the original implementation", "why_tests_cant": "Existing tests use a few argument types whose moved-from state is unremarkable; the claim is about every type, every original implementation and every interleaving of nested calls.", "anchors": ["include/fakeit/SpyFunctor.hpp", "include/fakeit/SpyWithoutVerifyFunctor.hpp", "include/fakeit/StubbingImpl.hpp", "include/mockutils/DynamicProxy.hpp"]}
{"id": "C58", "title": "The testing framework is told of every failure, once, with the right text and place", "statement": "In every supported framework configuration, a failed verification and an unexpected call are each handed to the framework exactly once, with the text produced by the custom event formatter if one is set and by the default one otherwise, and (for verifications) with the file and line of the verification statement; an unexpected mocked call never returns, whether or not the framework's failure function does.", "quantifier": "every framework configuration, every event, every custom formatter, every behaviour of the framework's failure function", "why_tests_cant": "Each test binary has one framework; all texts, formatters and framework behaviours.", "anchors": ["config/*/*Fakeit.hpp", "include/fakeit/FakeitContext.hpp", "include/fakeit/DefaultFakeit.hpp", "include/fakeit/api_macros.hpp"]}
{"id": "C59", "title": "Printed calls and printed matchers can be told apart", "statement": "In messages, two calls of the same method print the same text only if their arguments were the same, and two argument matchers print the same text only if they are the same matcher; printing a recorded call is always defined and shows the arguments the call was made with.", "quantifier": "every list of argument values, every matcher", "why_tests_cant": "Infinite domains of values and strings.", "anchors": ["include/mockutils/Formatter.hpp", "include/mockutils/TuplePrinter.hpp", "include/fakeit/ActualInvocation.hpp: format", "include/fakeit/argument_matchers.hpp: format"]}
{"id": "C60", "title": "The single header is the library", "statement": "The generated single header file presents a compiler with the same program text as the source headers do, under every combination of compiler macros; every header that is included anywhere is written exactly once; the generator terminates, also if headers include each other in circles.", "quantifier": "every set of files with any include lines and conditional directives, every framework configuration, every set of compiler macros", "why_tests_cant": "The tests compile some of the generated headers with some compilers; the claim is about every include structure the headers may evolve into.", "anchors": ["generate_fakeit_single_header.py", "config/*/fakeit.hpp", "include/mockutils/VirtualTable.hpp"]}
{"id": "C61", "title": "A completed statement takes effect", "statement": "A When, Verify or VerifyNoOtherInvocations statement takes effect exactly if it is completed: if an exception leaves the statement before its end, nothing is stubbed and nothing is verified; otherwise the stubbing is made or the verification is carried out, also inside a catch block or after earlier exceptions have been handled. No statement ends the program by throwing while another exception is propagating.", "quantifier": "every nesting of statements, throwing code, objects with destructors and try blocks", "why_tests_cant": "Depends on the number of exceptions in flight at the end of each statement, over all nestings of unwinding and handling.", "anchors": ["include/fakeit/FakeitExceptions.hpp: UncaughtException", "include/fakeit/WhenFunctor.hpp: ~StubbingChange", "include/fakeit/SequenceVerificationExpectation.hpp: ~SequenceVerificationExpectation", "include/fakeit/VerifyNoOtherInvocationsVerificationProgress.hpp: ~VerifyNoOtherInvocationsExpectation"]}
{"id": "C62", "title": "Matchers compare with the values of the statement", "statement": "What an argument matcher such as Eq(x) or Gt(x) given to Using says about an argument depends on the value x had when the statement with Using was executed; later assignments to x, its end of life or moving it away make no difference, and a matcher always says the same about the same argument.", "quantifier": "every argument type with comparison operators, every sequence of declarations, assignments, ends of life, Using statements and arguments", "why_tests_cant": "Quantifies over all interleavings of changes to variables with stubbing statements; dangling references often keep their old bytes in test runs.", "anchors": ["include/fakeit/argument_matchers.hpp: ComparisonMatcherCreatorBase", "include/fakeit/argument_matchers.hpp: Eq, Ne, Gt, Ge, Lt, Le", "include/fakeit/MatchersCollector.hpp: CollectMatchers"]}
{"id": "C63", "title": "A fake object has room for its class", "statement": "The object a Mock<C> provides has the size of C; at first every data member of C and its bases consists of zero bytes, and nothing outside of the object is written. Exchanging virtual tables changes no data member and writing to data members does not change the virtual table. Every data member is at an address that is a multiple of its alignment.", "quantifier": "every class layout a compiler may choose (pointer size, member offsets, sizes and alignments), every address, every previous content of memory", "why_tests_cant": "Quantifies over all classes and platforms; misalignment depends on the allocator.", "anchors": ["include/mockutils/FakeObject.hpp: FakeObjectImpl, FakeObject", "include/mockutils/DynamicProxy.hpp: static_assert, getFake", "include/fakeit/MockImpl.hpp: createFakeInstance"]}
{"id": "C64", "title": "Stubbing chains are read from left to right", "statement": "After When(method).<chain>, where the chain consists of calls of Return, Throw, Do (each with one or more arguments, each argument possibly with a quantity n_Times), Return(), AlwaysReturn, AlwaysThrow and AlwaysDo, the calls served by the stubbing are answered by the arguments of the chain in the order they are written, an argument with a quantity that many times, Return() with the default value, an Always answer for ever; after the last answer calls are unexpected.", "quantifier": "every chain, every state before the statement, every test program between the calls, every call number", "why_tests_cant": "Quantifies over all chains and over everything that may happen between the calls.", "anchors": ["include/fakeit/StubbingProgress.hpp: MethodStubbingProgress Return, Throw, Do, AlwaysReturn, AlwaysThrow, AlwaysDo", "include/fakeit/WhenFunctor.hpp: DoImpl"]}
{"id": "C65", "title": "Callers read what Return promised", "statement": "A caller of a method stubbed with Return(x) reads the value x had in that statement, whatever happens to x later; if the method returns a reference, the caller gets x itself; a value that cannot be copied is given to exactly one caller.", "quantifier": "every type, every sequence of declarations, assignments, ends of life, stubbing statements and calls", "why_tests_cant": "Quantifies over all interleavings; dangling references often keep their old bytes in test runs.", "anchors": ["include/fakeit/StubbingProgress.hpp: MethodStubbingProgress::Return, AlwaysReturn, Throw"]}
{"id": "C66", "title": "Single headers without comments are the same program", "statement": "The text the single-header generator writes after removing comments is read by a C++ compiler exactly as the text with comments: the same words in the same order on the same lines, so declarations and preprocessing directives are the same.", "quantifier": "every text", "why_tests_cant": "Quantifies over all texts; tests only see whether the headers of one day compile.", "anchors": ["generate_fakeit_single_header.py: comment_matcher, comment_replacer, remove_comments"]}
{"id": "C67", "title": "Objects with mocks stay themselves", "statement": "Attaching mocks to objects only changes how stubbed methods answer: a virtual call is answered by the mock attached last if it stubs the method and by the object's own implementation otherwise, spied methods run the object's own implementation, other objects and mocks are not affected, typeid of the object is its class, and after Reset or the end of the mock's life the object answers as before.", "quantifier": "every number of objects and mocks, every class hierarchy, every sequence of constructions, stubbings, calls, resets and destructions", "why_tests_cant": "Quantifies over all interleavings of mocks attached to shared objects; tests attach one mock to an object and never call methods outside the mocked class.", "anchors": ["include/mockutils/DynamicProxy.hpp: DynamicProxy, detach, Reset, stubMethod, createRaiiMethodSwapper, bind", "include/mockutils/gcc/VirtualTable.hpp: getVTable, copyFrom, dispose, getCookie", "include/mockutils/FakeObject.hpp: getVirtualTable, setVirtualTable, setMethod", "include/fakeit/MockImpl.hpp: MockImpl, ~MockImpl, getMockImpl, unmocked"]}
{"id": "C68", "title": "Choosing a stubbing asks in order and leaves the call alone", "statement": "A call of a mocked method asks the predicates of its stubbings from the newest to the oldest, each at most once and none after the first that accepts or throws, all about the arguments the caller passed. The stubbing that accepts answers with these arguments, an exception thrown by a predicate reaches the caller, only answered calls are recorded, and the stubbings are not changed - whatever the predicates do meanwhile, including calls of the same method.", "quantifier": "every number of stubbings, every predicate (arbitrary code), every history, every depth of nested calls", "why_tests_cant": "Quantifies over arbitrary predicate code with side effects; tests use predicates that only compare.", "anchors": ["include/fakeit/RecordedMethodBody.hpp: getInvocationHandlerForActualArgs, handleMethodInvocation, addMethodInvocationHandler", "include/fakeit/invocation_matchers.hpp: UserDefinedInvocationMatcher"]}
{"id": "C69", "title": "Arguments arrive as they were passed", "statement": "For the caller, calling a mocked method is like calling a function whose body is the code that answers: the same calls are accepted, the code sees the values that were passed (the very objects, for reference parameters of any kind), and all of the caller's objects are afterwards as after the direct call; arguments passed to reference parameters are neither copied nor moved from. The mock adds one move per value parameter (a copy if the class cannot be moved), Spy one copy, SpyWithoutVerify one move. What is recorded by value does not change afterwards whatever the test does, what is recorded by reference is the variable passed, and recorded calls can be verified at any later time.", "quantifier": "every parameter list over T, T&, const T&, T&&, const T&&, every class (copyable, movable, both, neither), every combination of variables, moved variables and temporaries as arguments, every stubbing and body, every test", "why_tests_cant": "Quantifies over all signatures, value categories and bodies; a compiler test covers a handful of signatures, and reading through a dangling reference usually goes unnoticed.", "anchors": ["include/mockutils/type_utils.hpp: production_arg, test_arg, ArgumentsTuple", "include/mockutils/MethodProxyCreator.hpp: methodProxyX, methodProxy", "include/fakeit/RecordedMethodBody.hpp: handleMethodInvocation", "include/fakeit/ActualInvocation.hpp: ActualInvocation", "include/mockutils/TupleDispatcher.hpp: invoke", "include/fakeit/MockImpl.hpp: getOriginalMethodCopyArgsInternal, getOriginalMethodForwardArgs"]}
{"id": "C70", "title": "Other mocks do not matter", "statement": "Two parts of a test that share no mocks and no variables can be interleaved in any way: every step of a part - calls, stubbings, verifications, resets - returns or throws the same and reports the same calls with the same arguments and verified marks as when that part is run without the other, and leaves the mocks and variables of the part in the same state. Mocks are created in both runs; the callbacks given to the mocks use no mocks, and verifications of the part are written with method expressions of their own.", "quantifier": "every two programs, every interleaving, any number of mocks, every history", "why_tests_cant": "Quantifies over pairs of programs and all their interleavings (a property of two executions).", "anchors": ["include/fakeit/Invocation.hpp: nextInvocationOrdinal", "include/fakeit/RecordedMethodBody.hpp: scanActualInvocations, getActualInvocations", "include/fakeit/SequenceVerificationExpectation.hpp: VerifyExpectation", "include/fakeit/VerifyNoOtherInvocationsVerificationProgress.hpp: VerifyExpectation"]}
{"id": "C71", "title": "Arguments that cannot be copied", "statement": "A method can be mocked whenever its value parameters can be moved, and SpyWithoutVerify accepts it; Spy accepts it exactly if all value parameters can be copied and none is an rvalue reference, and otherwise refuses it with a message saying what to use instead.", "quantifier": "every parameter list over nested vectors, other containers and classes of copyable, move-only and immovable types, by value and by reference", "why_tests_cant": "Quantifies over all parameter types; each test covers one signature, and a wrong answer is a compile error a test suite cannot contain.", "anchors": ["include/mockutils/type_utils.hpp: smart_test, smart_is_copy_constructible, all_true", "include/fakeit/MockImpl.hpp: getOriginalMethodCopyArgsInternal, getOriginalMethodForwardArgs", "include/fakeit/SpyFunctor.hpp: spy", "include/fakeit/SpyWithoutVerifyFunctor.hpp: spy"]}
{"id": "C72", "title": "Callbacks that use mocks behave like the abstract mock", "statement": "Callbacks and original methods of spied objects may themselves call mocks (recursively, also the one they answer for), stub, verify, clear, reset, destroy and create mocks. As long as no callback uses the very stubbing whose counted action it is performing, or resets or destroys a mock that is in the middle of answering a call with the last use of an action or with an original method, every such program behaves exactly like a simple recursive description: a call is recorded and its script advanced first, then the callback runs on that state; while an original runs for a stubbing, its own calls of the same method go to the original. Outcomes, recorded calls, verification results and reports agree. Conversely, where that description calls the behaviour undefined (a destroyed or missing mock is used, there is no such entry, a null reference is returned, a verification reads a destroyed mock), the behaviour of the library is undefined: no such program happens to work.", "quantifier": "every program, every nesting of callbacks, calls, stubbing and verification inside callbacks, every state", "why_tests_cant": "Nested callbacks multiply the states in which each operation can happen; tests exercise one or two fixed nestings.", "anchors": ["include/fakeit/RecordedMethodBody.hpp: handleMethodInvocation", "include/fakeit/ActionSequence.hpp: handleMethodInvocation", "include/fakeit/MockImpl.hpp: getOriginalMethodCopyArgsInternal", "include/mockutils/DynamicProxy.hpp: createRaiiMethodSwapper", "include/mockutils/MethodProxyCreator.hpp: methodProxyX"]}
{"id": "C73", "title": "Calls from several threads", "statement": "When several threads call mocked methods with by-value arguments, and no two of them call the same method of the same mock, then in every interleaving of the steps of their calls each call gets the answer, leaves the record (arguments, order, ordinal) and advances the stubbing exactly as if the same calls had been made one after the other in some order that keeps each thread's own order; only the order of failure reports may differ; and whatever the test does after joining the threads (verification, calls, stubbing, callbacks) gives what it gives after that order. For threads that call the same method this is false even without low-level data races: two threads can both get the first answer of Return(1).Return(2), after which every later call gets it too.", "quantifier": "every number of threads, every sequence of calls per thread, every schedule of steps, every reachable state of the mocks, every callback that does not use mocks itself", "why_tests_cant": "The number of interleavings is astronomically large and a test run sees one of them.", "anchors": ["include/fakeit/RecordedMethodBody.hpp: handleMethodInvocation", "include/fakeit/ActionSequence.hpp: handleMethodInvocation", "include/fakeit/Invocation.hpp: nextInvocationOrdinal", "include/mockutils/DynamicProxy.hpp: createRaiiMethodSwapper"]}
{"id": "C74", "title": "Method expressions stand for the method they name", "statement": "OverloadedMethod(mock, f, R(args)) and its five relatives stand for exactly the visible virtual method called f with these parameters, this return type and these qualifiers, and are refused by the compiler if there is none; Method(mock, f) stands for the only method called f and is refused if there are several; every visible virtual method can be named by one of them; an expression never stands for two methods.", "quantifier": "every chain of classes with any overloads, overriding methods, hidden methods and using declarations, every qualifier combination, every macro", "why_tests_cant": "Quantifies over all class hierarchies and overload sets; most wrong answers are compile errors or silently stub another method, which a test suite of compiling programs does not show.", "anchors": ["include/fakeit/api_macros.hpp: Method, OverloadedMethod, ConstOverloadedMethod, RefOverloadedMethod, ConstRefOverloadedMethod, RValRefOverloadedMethod, ConstRValRefOverloadedMethod", "include/fakeit/Prototype.hpp: Prototype::MemberType", "include/fakeit/Mock.hpp: Mock::stub, WithCommonVoid"]}
{"id": "C75", "title": "Expressions and statements may be kept in variables", "statement": "A test that keeps method expressions, sequences, stubbing statements and verifications in variables (by value or by reference, in nested blocks) and uses them later does to the mocks exactly what it would do if the variables held values: a copy shares the expression it was made from, a sequence consists of the expressions it was built from, a kept statement takes effect when its variable ends.", "quantifier": "every test built from the listed statements with any nesting of blocks, any number of variables, any sequence expressions", "why_tests_cant": "The defect is use of objects after their lifetime: undefined behaviour that usually appears to work, and quantified over all ways of writing a test.", "anchors": ["include/fakeit/Sequence.hpp: ConcatenatedSequence, RepeatedSequence, operator+, operator*", "include/fakeit/WhenFunctor.hpp: WhenFunctor::MethodProgress, StubbingChange", "include/fakeit/UsingProgress.hpp: UsingProgress::collectSequences", "include/fakeit/SequenceVerificationExpectation.hpp", "include/fakeit/MethodMockingContext.hpp: MockingContext::setMethodDetails, Using", "include/fakeit/api_macros.hpp: Method"]}
{"id": "C76", "title": "Copies of a mock stand for the same mock", "statement": "A mock can be copied (passed by value, captured by value, stored in a container, moved): as long as one of the copies is alive, stubbing, verifying and calling act on the one mock all copies stand for, and the copies may end in any order.", "quantifier": "every test that copies a mock (and its copies) any number of times, stubs and counts calls through any of them, calls the object's methods, resets and ends copies, in any order; mocks with fake and with existing objects", "why_tests_cant": "Double release and use of released tables are undefined behaviour that often appears to work; the claim ranges over all orders of copying, using and ending.", "anchors": ["include/fakeit/Mock.hpp: Mock", "include/fakeit/MockImpl.hpp: MockImpl, ~MockImpl, unmocked", "include/mockutils/DynamicProxy.hpp: DynamicProxy, InvocationHandlers, detach, ~DynamicProxy", "include/mockutils/gcc/VirtualTable.hpp: VirtualTable::dispose"]}
{"id": "C77", "title": "What is to be done when a call ends is done exactly once", "statement": "What the library arranges to be done when an answer has been given or the original method of a spy has returned (advancing the script, putting the mock's function back) is done exactly once, after everything done during the call, whether the call ends normally or by an exception, innermost first, and the exception goes on; this does not depend on how the compiler hands the guard object from function to function.", "quantifier": "all nestings of guarded calls, handled and unhandled exceptions anywhere, any number of hand-over steps, each elided or not", "why_tests_cant": "Tests are compiled by compilers that elide all moves; before C++17 this is the compiler's choice, and the nestings are unbounded.", "anchors": ["include/mockutils/Finally.hpp: Finally, Finally(Finally&&), ~Finally", "include/mockutils/DynamicProxy.hpp: createRaiiMethodSwapper", "include/fakeit/MockImpl.hpp: getOriginalMethodCopyArgsInternal, getOriginalMethodForwardArgs, createRaiiMethodSwapper", "include/fakeit/ActionSequence.hpp: handleMethodInvocation"]}
{"id": "C78", "title": "Fake objects have the dynamic type of the mocked class", "statement": "typeid on the object a mock hands out gives the mocked class, and dynamic_cast between pointers to its bases gives what it would give for a real object of the mocked class: the object for the class itself and all its bases, null for anything else.", "quantifier": "all single-inheritance hierarchies, all lists of base classes given to Mock<C, bases...>, source and target classes; the Itanium layout and Microsoft's for 32 and 64 bits", "why_tests_cant": "Tests use one hierarchy and one compiler.", "anchors": ["include/mockutils/gcc/VirtualTable.hpp: VirtualTable::buildVTArray", "include/mockutils/mscpp/VirtualTable.hpp: TypeDescriptor, PMD, RTTIBaseClassDescriptor, RTTIClassHierarchyDescriptor, RTTICompleteObjectLocator, buildVTArray", "tests/type_info_tests.cpp"]}
{"id": "C79", "title": "Predicates that act while a verification runs", "statement": "A verification whose predicates (Matching, Method(...).Matching in sources) themselves call mocked methods or throw is defined: it asks each predicate only about calls of its method that were recorded when the verification began, judges by the calls of the sources as they were then, records every call a predicate makes without counting or marking it, and lets an exception of a predicate out with nothing marked as verified.", "quantifier": "all predicates (programs that look at the argument, assign to it, call methods, clear the history, throw, answer), sources, patterns, wanted numbers and recorded histories", "why_tests_cant": "Tests use predicates that only look; what happens depends on when in the loops the predicate acts.", "anchors": ["include/fakeit/RecordedMethodBody.hpp: scanActualInvocations, getActualInvocations", "include/fakeit/MatchAnalysis.hpp: run, collectActualInvocations, countMatches, findNextMatch, isMatch", "include/fakeit/SequenceVerificationExpectation.hpp: VerifyExpectation, markAsVerified", "include/fakeit/VerifyNoOtherInvocationsVerificationProgress.hpp", "include/fakeit/invocation_matchers.hpp: UserDefinedInvocationMatcher::matches"]}
{"id": "C80", "title": "Callbacks may reset or destroy the mock whose call they answer", "statement": "A callback stubbed for a method may reset or destroy the very mock whose call it is answering, and go on (stub it anew, call it again, verify). The call then ends exactly as the callback ended, in the state the callback left: nothing of the stubbing that has been destroyed is used.", "quantifier": "every reachable state, every stubbing, every callback whatever it does before and after ending its mock", "why_tests_cant": "Whether something destroyed is used depends on how many uses the action has left when the callback runs; a use after destruction need not be visible in a test.", "anchors": ["include/fakeit/ActionSequence.hpp: handleMethodInvocation", "include/fakeit/RecordedMethodBody.hpp: handleMethodInvocation", "include/fakeit/MockImpl.hpp: reset", "include/mockutils/DynamicProxy.hpp: Reset", "include/fakeit/Action.hpp: Repeat, RepeatForever"]}
{"id": "C81", "title": "Events inside of events", "statement": "An event listener or testing framework adapter may itself use the library while it handles an event: call mocked methods or verify (so that further events are handled), set and reset the adapter and the formatter, register listeners, throw. Each event, at whatever depth, is delivered to everybody who was listening when its delivery began, in order, then to the adapter last set before that; events caused meanwhile are delivered completely before the next one is told; an exception ends only the delivery of the event whose handler did not catch it; settings made by handlers last; an unexpected call ends with the exception of the handlers or with the library's own, formatted by the formatter last set.", "quantifier": "all handlers (programs over these operations), all listener lists, settings, events and nesting depths", "why_tests_cant": "Tests use handlers that return or throw; the number of nested deliveries and the interleaving with settings are unbounded.", "anchors": ["include/fakeit/FakeitContext.hpp: handle, fireEvent, format, addEventHandler, clearEventHandlers", "include/fakeit/DefaultFakeit.hpp: setTestingFrameworkAdapter, setCustomEventFormatter, getTestingFrameworkAdapter, getEventFormatter", "include/fakeit/RecordedMethodBody.hpp: handleMethodInvocation", "include/fakeit/MockImpl.hpp: unmocked"]}
{"id": "C82", "title": "Exceptions anywhere in a call", "statement": "Code of the user and the allocator take part in a call of a mocked method at many places: arguments are copied, matchers are asked, returned values are copied or constructed, callbacks run, arguments are copied for the original method of a spy, the original method runs, events are handled and arguments printed, memory is allocated. Whatever of this throws, and whenever: the first exception reaches the caller unchanged and nothing else is begun; if it comes before the call is in the list of calls, it is as if there had been no call (no record, no action used, nothing allocated or constructed left); otherwise the call is recorded and its action is used exactly once, as if it had returned; the method is still faked and the program goes on. Over any number of calls nothing leaks and nothing is destroyed twice.", "quantifier": "all places at which something throws (any number of them), all argument lists, stubbings, action lists, and sequences of calls", "why_tests_cant": "Each test makes one thing throw at one place; the combinations of places, stubbings and histories are unbounded, and failing allocations are not tested at all.", "anchors": ["include/fakeit/RecordedMethodBody.hpp: handleMethodInvocation, getInvocationHandlerForActualArgs", "include/fakeit/ActionSequence.hpp: handleMethodInvocation", "include/fakeit/ActualInvocation.hpp: ActualInvocation", "include/fakeit/MockImpl.hpp: getOriginalMethodCopyArgsInternal, getOriginalMethodForwardArgs", "include/mockutils/DynamicProxy.hpp: createRaiiMethodSwapper", "include/mockutils/Finally.hpp: Finally"]}
{"id": "C83", "title": "Stubbing statements that fail in the middle", "statement": "A stubbing statement - When(Method(mock,f).Using(...)).Return(...), with or without Using or Matching, with any number of actions, or an assignment to Method(mock,f) - copies values of the user and allocates memory at many places. If any of these steps throws, the test gets this exception, nothing is stubbed, no further step is made, what was stubbed before is as it was, nothing is destroyed twice, and nothing the statement made is left. Without exceptions the method has one more stubbing, the newest, with a matcher per argument and the actions of the statement, and nothing else is left. After a failed statement the test can go on stubbing.", "quantifier": "all steps of the statement, all numbers of arguments of Using and of actions, all states before", "why_tests_cant": "Tests stub with values whose copies do not throw and with enough memory; the places where a statement can fail are as many as its arguments and actions.", "anchors": ["include/fakeit/MethodMockingContext.hpp: Implementation, setMatchingCriteria, setInvocationMatcher, commit, setMethodBodyByAssignment", "include/fakeit/MatchersCollector.hpp: CollectMatchers", "include/fakeit/WhenFunctor.hpp: StubbingChange, MethodProgress", "include/fakeit/ActionSequence.hpp: append", "include/fakeit/RecordedMethodBody.hpp: addMethodInvocationHandler, MatchedInvocationHandler", "include/mockutils/smart_ptr.hpp: smart_ptr"]}
{"id": "C84", "title": "Fake and Spy of several methods that fail in the middle", "statement": "Fake(...), Spy(...) and SpyWithoutVerify(...) take any number of method expressions, each with or without Using or Matching. If any step of such a statement throws - the copy of an expected value or of a predicate, or an allocation - the test gets this exception, none of the methods is stubbed, nothing is destroyed twice and nothing the statement made is left. Without exceptions each of the methods has one more stubbing, in the order of the statement, and nothing else is left.", "quantifier": "all numbers of methods, all their criteria, all steps of the statement, all states before", "why_tests_cant": "Tests fake a few methods with enough memory and values whose copies do not throw; the places where the statement can fail grow with the number of methods and arguments.", "anchors": ["include/fakeit/FakeFunctor.hpp: fake, operator()", "include/fakeit/SpyFunctor.hpp: spy, operator()", "include/fakeit/SpyWithoutVerifyFunctor.hpp: spy, operator()", "include/fakeit/MethodMockingContext.hpp: Implementation, commit", "include/fakeit/MockImpl.hpp: getOriginalMethodCopyArgs, getOriginalMethodForwardArgs"]}
{"id": "C85", "title": "Exceptions anywhere in a verification", "statement": "A verification (Verify or VerifyNoOtherInvocations, with or without Using or Unverified, any pattern and quantifier) runs code of the test: predicates, comparisons, listeners, the printing of arguments; and it allocates memory. If any of these throws, the test gets exactly the first exception thrown, no call is marked as verified, every object the verification made is destroyed once, and the verification can be repeated with the result it would have had. If a verification is converted to bool, the answer is its result and an exception reaches the test; an interrupted conversion does not count as passed.", "quantifier": "all patterns, quantifiers and sources, all histories of calls, all numbers of listeners, all steps that may throw", "why_tests_cant": "Tests verify with predicates that do not throw and enough memory; the number of places where a verification can be interrupted grows with the history and the pattern.", "anchors": ["include/fakeit/SequenceVerificationExpectation.hpp: VerifyExpectation, handleMatchVerificationEvent, destructor", "include/fakeit/SequenceVerificationProgress.hpp: operator bool, Terminator", "include/fakeit/VerifyNoOtherInvocationsVerificationProgress.hpp: VerifyExpectation, toBool", "include/fakeit/MatchAnalysis.hpp: run", "include/fakeit/ActualInvocationsSource.hpp: InvocationsSourceProxy, AggregateInvocationsSource, UnverifiedInvocationsSource", "include/fakeit/SortInvocations.hpp: sort, collectActualInvocations", "include/mockutils/smart_ptr.hpp: smart_ptr", "include/fakeit/FakeitContext.hpp: handle, fireEvent"]}
{"id": "C86", "title": "Function objects given to the library are copied by the statement and keep their own state", "statement": "A function object given to Do, AlwaysDo, n_Times, an assignment Method(m, f) = g, or Matching is taken by value at the statement: the stubbing begins with the state the object had then, and from there on its copy is changed only when a call uses it (or asks it, if it is a predicate). The test's own object is never changed by stubbing, calling or verifying, and may be changed or destroyed without effect on the mock. A verification asks a fresh copy of its predicate, so verifying twice gives the same answer. Every copy the library makes is destroyed exactly once: none outlives the statement, call or verification except the one per given function that belongs to the stubbing, which lives until Reset or the end of the mock, used up or not; a stubbing statement ended by an exception leaves none.", "quantifier": "all programs of making, using, destroying function objects, stubbing, calling, verifying, Reset, ClearInvocationHistory and the end of the mock; all function objects with any state, which return or throw", "why_tests_cant": "Whether an object is shared or copied only shows when it has state and is used on both sides in some order; leaks and double destruction depend on the whole history.", "anchors": ["include/fakeit/StubbingProgress.hpp: Do, AlwaysDo", "include/fakeit/Action.hpp: Repeat, RepeatForever", "include/fakeit/ActionSequence.hpp: handleMethodInvocation, AppendDo, clear", "include/fakeit/MethodMockingContext.hpp: Matching, operator=", "include/fakeit/invocation_matchers.hpp: UserDefinedInvocationMatcher", "include/fakeit/RecordedMethodBody.hpp: handleMethodInvocation, getInvocationHandlerForActualArgs, clear", "include/fakeit/MatchAnalysis.hpp: run"]}
{"id": "C87", "title": "Threads that use different methods of a mock do not disturb each other", "statement": "Threads that start together and without synchronisation of their own make calls, stub, verify, reset and clear mocks do not race (no two are about to access the same memory, one of them writing) as long as they use different mocks, or different methods of one mock; each thread then gets the results it would get alone and leaves what it used as it would alone. (False as stated for different methods of one mock: only calls of different methods, stubbing of different methods, calls while another method is stubbed that has been named before or comes later in the class, simultaneous VerifyNoOtherInvocations, and verifications of different known methods that hold, go together. A verification races with every recorded call of the mock, and the first use of Method(mock, g) with calls of later methods.)", "quantifier": "all numbers of threads, all operation lists, all mocks, methods, stubbings and verifications, all interleavings of the single memory accesses, all states one thread alone can have made", "why_tests_cant": "A race needs a particular interleaving of single memory accesses and usually leaves no trace when it happens.", "anchors": ["include/fakeit/RecordedMethodBody.hpp: handleMethodInvocation, addMethodInvocationHandler, getActualInvocations", "include/mockutils/DynamicProxy.hpp: isMethodStubbed, bind, Reset, getMethodMocks", "include/fakeit/ActionSequence.hpp: handleMethodInvocation", "include/fakeit/MethodMockingContext.hpp: setMethodDetails", "include/fakeit/Mock.hpp: Reset, ClearInvocationHistory", "include/fakeit/InvocationUtils.hpp: collectActualInvocations"]}
{"id": "C88", "title": "Event handlers may use the mocks", "statement": "While an unexpected call or a failed verification is reported, the listeners and the adapter of the testing framework may themselves call mocked methods, stub, verify, clear, reset and end mocks, cause further events and have their event formatted: every report shows the calls as they were when the event happened, and the unexpected call ends with the exception a handler throws or with the library's own exception saying what was called. (False as stated: if a handler clears, resets or ends a mock whose recorded calls the event of a verification shows, formatting the event afterwards is undefined behaviour; if a handler resets or ends the mock of an unexpected call and the handlers return, the call itself is undefined behaviour; and a report made after a reset has the compiler's name of the method's type instead of the method's name.)", "quantifier": "all lists of listeners, all adapters, all programs handlers and tests run, events inside events at any depth, all mocks, methods, stubbings, verifications and recorded calls, with and without FAKEIT_ASSERT_ON_UNEXPECTED_METHOD_INVOCATION", "why_tests_cant": "Handlers are arbitrary code; reading a deleted recorded call usually still finds the old data, and only particular orders of deletion and formatting go wrong.", "anchors": ["include/fakeit/FakeitContext.hpp: handle, fireEvent", "include/fakeit/RecordedMethodBody.hpp: handleMethodInvocation", "include/fakeit/MockImpl.hpp: unmocked, getMethodName, stubMethodIfNotStubbed, clear, reset", "include/fakeit/FakeitEvents.hpp", "include/fakeit/DefaultEventFormatter.hpp", "include/fakeit/SequenceVerificationExpectation.hpp: VerifyExpectation", "include/fakeit/VerifyNoOtherInvocationsVerificationProgress.hpp: VerifyExpectation"]}
{"id": "C89", "title": "Reports can print every argument", "statement": "A method can be mocked whatever the types of its arguments are, and a report of a call shows each argument: a boolean as a word, a character and a C string in quotes, another value as << prints it, and a question mark if there is no << for it. (False as stated: with the standard library of C++20 methods with wide characters or wide strings as arguments do not compile, nor do types whose << is a template that does not compile; pointers to signed and unsigned bytes are read as C strings, so that printing a buffer without a zero byte or a null pointer is undefined behaviour; all functions and members print as 1.)", "quantifier": "all built-in types, enumerations and classes with any operators and conversion functions, all values, all contents of memory, all versions of the standard library", "why_tests_cant": "Types are unbounded and each must be compiled; reading past a buffer usually finds a zero nearby.", "anchors": ["include/mockutils/type_utils.hpp: is_ostreamable, naked_type", "include/mockutils/Formatter.hpp: Formatter, TypeFormatter", "include/mockutils/TuplePrinter.hpp", "include/fakeit/ActualInvocation.hpp: format"]}
{"id": "C90", "title": "Threads see what single-threaded tests see", "statement": "Several threads that start together and use mocks in ways that do not race (different mocks; calls of different methods; stubbing of different methods; and so on) each see, whatever the interleaving, exactly what a single-threaded test sees that makes the steps made before the threads started and then this thread's steps: each call ends by the next action of the same stubbing, by the object's own method or as an unexpected call, each verification holds or fails alike, and the calls recorded for the methods other threads leave alone are the same, with the same arguments and the same verified marks. (Calls with arguments passed by value; callables that use no mocks; Verify of one call; classes without mocked destructors.)", "quantifier": "all programs of setup steps and threads whose operations go together, all interleavings, all classes, all callables that only assign to their parameters and return or throw, all arguments and matchers", "why_tests_cant": "Interleavings cannot be enumerated, and a run that happens to give the right answers says nothing about the others.", "anchors": ["include/fakeit/RecordedMethodBody.hpp", "include/fakeit/MockImpl.hpp", "include/mockutils/DynamicProxy.hpp", "include/fakeit/SequenceVerificationExpectation.hpp", "include/fakeit/ActionSequence.hpp"]}
{"id": "C91", "title": "Records may own the mocked object", "statement": "The object of a mock may be handed to smart pointers that share it. Calls that pass such pointers by value are recorded, so records (and stubbings that return such pointers) become owners. The object's destructor is called once for each group of owners when its last owner goes, wherever that owner was: if the destructor is mocked, the call is recorded and answered; if not, nothing happens to an object the mock made. A mock whose own records are the last owners of its own object can be cleared, reset and destroyed, and clearing leaves nothing recorded. (False as stated: resetting such a mock while its destructor is mocked reads a vector that is being emptied; clearing may leave a recorded call of the destructor; owners that outlive the mock, for example in the records of a mock declared earlier, can never go; a mocked destructor without an action left terminates the program.)", "quantifier": "all tests made of any number of mocks (with objects made by the mock or passed to it), variables, groups of owners, stubbings, calls with any arguments copied or moved, clearing, resetting and destruction in any order", "why_tests_cant": "The one test of the library has one record, one group and one order; where owners are and which of them is last is unbounded, and using a destroyed object mostly goes unnoticed.", "anchors": ["include/fakeit/MockImpl.hpp: members, ~MockImpl, clear, reset, unmockedDtor", "include/mockutils/DynamicProxy.hpp: Reset, ~DynamicProxy, getInvocatoinHandlerPtrById", "include/fakeit/RecordedMethodBody.hpp: clear, handleMethodInvocation", "tests/default_behaviore_tests.cpp: production_shared_ptr_mock_used_in_invocation"]}
{"id": "C92", "title": "Verifications that nothing interrupts are the library's, and an interrupted one can be repeated as if nothing had happened", "statement": "After any test, a verification during which neither a matcher, nor a formatter or reporter, nor an allocation throws says (passes, fails or is refused; or answers true or false if converted) exactly what it says in the library as a whole, and marks exactly the same calls as verified. If an exception interrupts the verification, no recorded call changes, and when the same statement is run again without an exception it does what it would have done the first time.", "quantifier": "all tests with any mocks, stubbings, calls and earlier verifications; all patterns, scopes and quantities; all places where an exception may interrupt the verification", "why_tests_cant": "The tests of the library never interrupt a verification; the places of interruption and the states of the records are unbounded.", "anchors": ["include/fakeit/SequenceVerificationProgress.hpp: destructor, Verify, bool conversion", "include/fakeit/VerifyNoOtherInvocationsVerificationProgress.hpp", "include/fakeit/SequenceVerificationExpectation.hpp: VerifyExpectation, collectActualInvocations, markAsVerified"]}
{"id": "C93", "title": "Calls and stubbing statements that an exception interrupts are made or not made, as far as the library as a whole is concerned", "statement": "After any test, a call of a mocked method during which an argument's copy, a matcher, an action or a copy of a returned value throws leaves the method either exactly as it was, and the call is not recorded, or exactly as the library leaves it when nothing throws, and the call is recorded; so after any number of calls the method is as if some of them had been made, in this order, and the others not. If nothing throws but the action itself, the call is the library's. After any number of stubbing statements some of which throw (and are caught), the method has the stubbings that the library gives it for just the statements that passed, in their order.", "quantifier": "all tests with any mocks, stubbings, calls and verifications before; all numbers of calls and of stubbing statements; all places at which the user's code throws", "why_tests_cant": "The tests of the library throw only from actions; the places of interruption and the histories before are unbounded.", "anchors": ["include/fakeit/RecordedMethodBody.hpp: handleMethodInvocation, getInvocationHandlerForActualArgs, addMethodInvocationHandler", "include/fakeit/ActionSequence.hpp: handleMethodInvocation", "include/fakeit/ActualInvocation.hpp: constructor", "include/fakeit/WhenFunctor.hpp: StubbingChange destructor", "include/fakeit/MethodMockingContext.hpp: Implementation, commit"]}
{"id": "C94", "title": "Fake and Spy on several methods are separate statements, and an interrupted one stops after some of them", "statement": "After any test, Fake, Spy or SpyWithoutVerify on several methods (of the same mock or of different ones, a method more than once if wanted) has the same observable effect as separate statements on each of them, in the order in which they are written. If all of them were named before, then, whatever throws in the statement (short of undefined behaviour), every method has the stubbings that separate statements on the first n methods give it, with n the number of methods if the statement passed and less if it threw; n is 0 if it was the user's own code that threw.", "quantifier": "all tests before; all numbers of methods, matchers and mocks; all places at which something throws", "why_tests_cant": "The tests stub a few methods and never interrupt a statement; the numbers of methods and the places of interruption are unbounded.", "anchors": ["include/fakeit/FakeFunctor.hpp: operator(), fake", "include/fakeit/SpyFunctor.hpp: operator(), spy", "include/fakeit/SpyWithoutVerifyFunctor.hpp: operator()"]}
{"id": "C95", "title": "How a script is written does not matter", "statement": "If two tests differ only in how the scripts of their stubbings are written - an action with n_Times instead of the action written n times in a row, or further actions behind an action that is done for ever - then every step of the one has the outcome of the same step of the other, and at the end the recorded calls of all methods with their verified flags, the reports, the test's variables and the mocks' data members are the same.", "quantifier": "all tests (mocks, stubbings, calls, verifications, resets in any order) and all pairs of ways to write their scripts; callbacks that do not themselves use mocks", "why_tests_cant": "An equivalence of two programs in all contexts; tests compare single runs.", "anchors": ["include/fakeit/StubbingProgress.hpp: Return, Throw, AlwaysReturn, AlwaysDo", "include/fakeit/ActionSequence.hpp: AppendDo, handleMethodInvocation", "include/fakeit/Action.hpp: Repeat, RepeatForever"]}
{"id": "C96", "title": "How a script is written does not matter, with callbacks that use mocks", "statement": "If two tests, whose callbacks may themselves call, stub, verify and create mocks, differ only in how the scripts of their stubbings are written - in the test or in the callbacks: an action with n_Times instead of the action written n times in a row, or further actions behind an action that is done for ever - then every step of the one has the outcome of the same step of the other, and everything a test can see is the same at the end.", "quantifier": "all tests, all callbacks, all pairs of ways to write their scripts, nested calls of any depth", "why_tests_cant": "An equivalence of two programs in all contexts; the one difference is undefined behaviour that may happen to work.", "anchors": ["include/fakeit/StubbingProgress.hpp: Do, Return, AlwaysDo", "include/fakeit/ActionSequence.hpp: handleMethodInvocation, Finally", "include/fakeit/Action.hpp: Repeat::invoke"]}
{"id": "C97", "title": "Stubbings of different methods may be written in any order", "statement": "If two stubbing statements (When or assignment) that follow each other are for different methods - of one mock or of two - then exchanging them changes nothing: every step of the test has the same outcome, and at the end the recorded calls with their verified flags, the reports, the test's variables and the mocks' data members are the same; only the identities of the two stubbings, by which saved method expressions recognise the calls they served, are exchanged. For two statements for the same method this is false: the last one wins.", "quantifier": "all tests (mocks, stubbings, calls, verifications, resets before and after the two statements), all pairs of statements for different methods; callbacks that do not themselves use mocks", "why_tests_cant": "An equivalence of two programs in all contexts; tests compare single runs.", "anchors": ["include/fakeit/WhenFunctor.hpp: operator()", "include/fakeit/MethodMockingContext.hpp: operator=", "include/fakeit/RecordedMethodBody.hpp: addMethodInvocationHandler, handleMethodInvocation", "include/fakeit/MockImpl.hpp: stubMethodIfNotStubbed"]}
{"id": "C98", "title": "A stubbing statement may be moved across steps that do not concern its method", "statement": "A stubbing statement (When or assignment) may be made earlier (if the mock exists there) or later, if the steps it is moved across do not concern its method: calls of other methods, any verifications, accesses to data members and variables, ClearInvocationHistory, the creation of mocks, method expressions, Reset and the end of other mocks. Every step has the same outcome as before, and the test ends with the same recorded calls, reports, variables and data members. Across a call of the method itself it cannot be moved.", "quantifier": "all tests, all positions of the statement in them, all sequences of steps of the listed kinds; callbacks that do not themselves use mocks", "why_tests_cant": "An equivalence of two programs in all contexts; tests compare single runs.", "anchors": ["include/fakeit/WhenFunctor.hpp: operator()", "include/fakeit/MethodMockingContext.hpp: operator=", "include/fakeit/RecordedMethodBody.hpp: addMethodInvocationHandler, handleMethodInvocation", "include/fakeit/MockImpl.hpp: stubMethodIfNotStubbed, getActualInvocations", "include/fakeit/SortInvocations.hpp: collectActualInvocations"]}
{"id": "C99", "title": "A stubbing of a method that is not called any more changes nothing", "statement": "If a method is not called in the rest of a test, or only after its mock has been reset or the method has been given a stubbing that accepts all arguments, then adding a stubbing statement (When or assignment) for it there, or removing one, changes nothing else: every other step has the same outcome (verifications and further stubbings of that method included), and at the end the recorded calls with their verified flags, the reports, the test's variables and the mocks' data members are the same; only the identities of the stubbings made later, by which saved method expressions recognise the calls they served, move up by one. If the method is called afterwards this is false.", "quantifier": "all tests, all positions of the statement in them at which its mock exists, all continuations that do not call its method before resetting or destroying its mock or giving it a stubbing that accepts all arguments (they may verify and stub it, use other methods and mocks, and do anything after that); callbacks that do not themselves use mocks", "why_tests_cant": "An equivalence of two programs in all contexts; tests compare single runs.", "anchors": ["include/fakeit/StubbingProgress.hpp: When, operator=", "include/fakeit/RecordedMethodBody.hpp: addMethodInvocationHandler, handleMethodInvocation, reset", "include/fakeit/MockImpl.hpp: stubMethodIfNotStubbed, getActualInvocations", "include/fakeit/InvocationUtils.hpp: collectActualInvocations"]}
{"id": "C100", "title": "A stubbing that accepts all arguments makes the older stubbings of its method irrelevant", "statement": "Once a method has got a stubbing that accepts all arguments (When(Method(mock, f)) without Using or Matching, or an assignment to it), the stubbings it had before do not matter any more, even when the script of the new one comes to its end: leaving out an older stubbing statement (with no call of the method between the two) changes the outcome of no other step, and at the end the recorded calls with their verified flags, the reports, the test's variables and the mocks' data members are the same; only the identities of the stubbings made later move. For a new stubbing that accepts only some arguments this is false.", "quantifier": "all tests, all pairs of an older stubbing of a method and a newer one of the same method that accepts all arguments, all scripts of both, all steps between them that do not call the method or reset its mock, all continuations; callbacks that do not themselves use mocks", "why_tests_cant": "An equivalence of two programs in all contexts; tests compare single runs.", "anchors": ["include/fakeit/RecordedMethodBody.hpp: getInvocationHandlerForActualArgs, handleMethodInvocation", "include/fakeit/StubbingProgress.hpp: When, operator=", "include/fakeit/ActionSequence.hpp: NoMoreRecordedAction"]}
{"id": "C101", "title": "A check that fails as a bool, or that has nothing to mark, is only a look", "statement": "A verification used as a bool that fails, a VerifyNoOtherInvocations that passes or is used as a bool, and a verification statement that is skipped because an exception is propagating do no more than evaluate their method expressions: when the check is replaced by these, every other step of the test has the same outcome, and at the end the recorded calls with their verified flags, the reports, the test's variables and the mocks' data members are the same. For a verification that passes this is false: it marks the calls it has found.", "quantifier": "all tests, all such checks at any place in them, all patterns, quantities, scopes and matchers of the check, all continuations; callbacks that do not themselves use mocks", "why_tests_cant": "An equivalence of two programs in all contexts; tests compare single runs.", "anchors": ["include/fakeit/SequenceVerificationProgress.hpp: operator bool, verifyExpectation, VerifyExpectation", "include/fakeit/VerifyNoOtherInvocationsVerificationProgress.hpp: operator bool, VerifyExpectation"]}
{"id": "C102", "title": "A check that only looks at methods already named can be left out", "statement": "A verification used as a bool that fails, a VerifyNoOtherInvocations that passes or is used as a bool, and a verification statement that is skipped because an exception is propagating can be left out of a test, provided each of its method expressions names a method that the test has named before (in a stubbing, a verification or an expression of its own that did not throw) with no Reset or destruction of the mock since: every other step has the same outcome, and at the end the recorded calls with their verified flags, the reports, the test's variables and the mocks' data members are the same. For a method named for the first time this is false: on a mock of an existing object even a check that fails makes the later calls of the method unexpected instead of going to the object.", "quantifier": "all tests, all such checks at any place in them, all patterns, quantities, scopes and matchers of the check, all continuations; callbacks that do not themselves use mocks", "why_tests_cant": "An equivalence of two programs in all contexts; tests compare single runs.", "anchors": ["include/fakeit/SequenceVerificationProgress.hpp: operator bool, verifyExpectation, VerifyExpectation", "include/fakeit/VerifyNoOtherInvocationsVerificationProgress.hpp: operator bool, VerifyExpectation", "include/fakeit/MockImpl.hpp: stubMethodIfNotStubbed"]}
