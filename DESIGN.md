# FakeIt in Lean 4: design of the model and of the proofs

The code under study is `/repo/include/fakeit`, `/repo/include/mockutils` (and, for the
testing-framework adapters, `/repo/config`, and `/repo/generate_fakeit_single_header.py`).  Nothing in `/repo` is built or run.

## 1. Trusted base

* Lean 4.33.0's kernel.  No own axioms, no `sorry`, no `native_decide`, no `bv_decide`,
  no `implemented_by`/`unsafe`.  Every theorem depends on at most `propext`,
  `Classical.choice`, `Quot.sound` (section 6 says how that is checked).
* The hand translation C++ -> Lean.  Every definition under `Verif/Model` carries a comment
  citing the file and lines it models, and says where it simplifies.
* What is written about C++ itself: order of evaluation, lifetime of temporaries,
  `std::vector`/`std::set`/`std::unordered_set`/`std::shared_ptr`/`std::atomic` behave as the standard says.

## 2. Shape of the model

* `Verif/Model/*`   definitions modelling code (each cites lines).
* `Verif/Spec/*`    small specifications written without using the model's helpers.
* `Verif/Lemmas/*`  helper lemmas.
* `Verif/Props/*`   the property theorems, each beside an `example` meeting its hypotheses.

### 2.1 Results: undefined behaviour is an outcome

`R a = done a | ub | oof`.  `ub` is undefined behaviour of the C++ program (null dereference, read
past the end of a vector, `front()`/`erase` on an empty vector, use of a destroyed object); it is never
assumed away.  `oof` ("out of fuel") only says the interpreter was given too small a call-depth bound; theorems
are stated for `done` results at any fuel, or "for all sufficiently large fuel".

### 2.2 The core machine (`World`)

One state for a whole test program: list of mocks; each mock has the original vtable, the clone vtable
(entries are code pointers: `unmocked`, `unmockedDtor`, `dtorThunk`, `proxy id`, `native f`), the `_methodMocks`
and `_offsets` vectors, data member area; each `RecordedMethodBody` has its handlers (matcher, action sequence with
`_recordedActions`/`_usedActions` as in the code) and its recorded invocations.  World also has the heap cells that
by-reference arguments point to, the atomic counters, and a log of fired events.

User callbacks (`Do`, assigned lambdas, the original methods of spied objects) are arbitrary *programs*
(`Body`): they may return, throw, write through their arguments, call any mocked method again (re-entrancy, any depth) and use
any API operation (stub, verify, reset ...), with a continuation receiving the outcome.  `callSlot` is the interpreter of a virtual call.
Re-entrancy is therefore not abstracted.  A mock may be reset or destroyed from inside one of its own actions: the call holds the action object (`Mock.gone` remembers
the action sequences destroyed so far), and only if that is used up does its end touch the destroyed `ActionSequence`, which is `ub`.

### 2.3 Verification

`Seq`/pattern expansion, `MatchAnalysis` with its index arithmetic and out-of-range reads as `ub`, the `while` loop
with fuel (termination is a theorem), sources and hash sets, `std::set` sort by ordinal, expectation object with `_isVerified`,
quantifier front end, `ThrowFalseEventHandler`, uncaught-exception gates.

### 2.4 Separate component models

Parts that the core machine treats abstractly have their own, finer model. Each has its own theorems.

| module | code | what it adds |
|---|---|---|
| `Tuple` | `TupleDispatcher.hpp` | recursion over argument tuples, index ranges |
| `ArgMatchers` | `argument_matchers.hpp`, `MatchersCollector.hpp`, `invocation_matchers.hpp` | comparison, string and `ApproxEq` matchers, `Using` |
| `Float` | `argument_matchers.hpp` 439-481 | `ApproxEq` on floating point values |
| `Assign` | `StubbingProgress.hpp` 132-507 | `ReturnAndSet`, placeholders, lvalues kept by reference |
| `Quantifier` | `Quantifier.hpp` | 64 -> 32 bit literals |
| `Events` | `FakeitContext.hpp`, `DefaultFakeit.hpp` | listeners and adapter, which may throw and register listeners |
| `Handle` | `SequenceVerificationProgress.hpp`, `SequenceVerificationExpectation.hpp`, `VerifyNoOther...hpp` | handles of a statement: copies, quantifiers, conversion to `bool`, destruction |
| `SmartPtr` | `smart_ptr.hpp` | reference counts, throwing destructors |
| `VTable` | `gcc/VirtualTable.hpp`, `mscpp/VirtualTable.hpp` | the array with cookies, both layouts |
| `Format` | `DefaultEventFormatter.hpp`, `TuplePrinter.hpp` | messages as character lists |
| `Adapters` | `config/*/*Fakeit.hpp`, `DefaultFakeit.hpp`, `api_macros.hpp` | what each testing framework is told, source positions |
| `ArgText` | `Formatter.hpp`, `argument_matchers.hpp` | texts of arguments and matchers |
| `SingleHeader` | `generate_fakeit_single_header.py` | the generator of the single headers, on lines of files |
| `Ownership` | `MethodMockingContext.hpp`, `RecordedMethodBody.hpp` | which heap objects exist, double frees, leaks |
| `Concurrency` | `Invocation.hpp` 23-26 | interleavings of atomic increments |
| `Layout` | `VTUtils.hpp`, `VirtualOffestSelector.hpp`, `is_simple_inheritance_layout.hpp` | slots, probing, class trees |
| `DefaultValue` | `DefaultValue.hpp` | statics per return type |
| `Unwind` | `FakeitExceptions.hpp` 17-25 and the destructors that ask it | statements in code that throws, catches and unwinds |
| `Creators` | `argument_matchers.hpp` 28-56, `MatchersCollector.hpp` 47-82 | variables, temporaries and references to them; one type, order of making creators fixed (making looks at nothing) |
| `Chain` | `StubbingProgress.hpp` 44-165, 229-309 | how a stubbing chain becomes a list of actions; overload resolution is given |
| `Returning` | `StubbingProgress.hpp` 50-130 | what the function objects of `Return` hold: copies, references, shared stores |
| `Comments` | `generate_fakeit_single_header.py` 14-17, 64-81 | the substitution that removes comments, on characters |
| `Stacked` | `DynamicProxy.hpp`, `FakeObject.hpp`, `gcc/VirtualTable.hpp`, `MockImpl.hpp` 30-42, 183-192, 262-292 | objects, tables in memory, several mocks attached to one object, `typeid`. The core model (one table per mock) is the case of one mock per object |
| `Predicates` | `RecordedMethodBody.hpp` 59-81, 110-150, `invocation_matchers.hpp` 119-143 | predicates of `Matching` as programs: assignments to the arguments, nested calls, stubbing, `Reset`, exceptions; iterators and arrays of the vector of stubbings |
| `Passing` | `type_utils.hpp` 36-45, `MethodProxyCreator.hpp` 44-70, `RecordedMethodBody.hpp` 71-81, 126-150, `ActualInvocation.hpp` 36-62, `TupleDispatcher.hpp` 14-41, `Action.hpp` 31-76, `MockImpl.hpp` 183-213 | one method with any list of parameters `T`, `T&`, `const T&`, `T&&`, `const T&&`; objects with life times, value categories, overload resolution between copy and move constructor; arguments are bound left to right, moving empties the source, user functions take references |
| `MoveOnly` | `type_utils.hpp` 19-22, 95-102, `MockImpl.hpp` 183-213, `SpyFunctor.hpp` 22-33, `SpyWithoutVerifyFunctor.hpp` | which signatures the compiler accepts; a grammar of types stands for all C++ types, copy traits of the standard library are given |
| `Owners` | `MockImpl.hpp` 30-76, 109-120, 271-292, 314-332, `DynamicProxy.hpp` 54-98, 209-232, `RecordedMethodBody.hpp` 62-63, 98-99, 110-150 | mocks whose objects are owned by `shared_ptr`s in variables, records and stubbings. Simplified: one object per mock, stubbings for all arguments and for ever, parameters by value, destructors stubbed by `Fake`/`Return` only, no user code in actions |
| `Printing` | `type_utils.hpp` 24-27, 47-84, `Formatter.hpp` 15-89 | which kind of text an argument type gets, and whether it compiles. The overload resolution for `<<` and the operators of the standard library are modelled as far as needed (not code of FakeIt). Simplified: one integer and one floating-point type; no arrays, class templates, references to functions |
| `Inside` | `FakeitContext.hpp` 24-43, 76-89, `RecordedMethodBody.hpp` 71-81, 126-150, `MockImpl.hpp` 63-76, 152-166, 221-225, 273-282, 314-323, `FakeitEvents.hpp` 63-143, `DefaultEventFormatter.hpp` 18-126, `SequenceVerificationExpectation.hpp` 67-141, `VerifyNoOtherInvocationsVerificationProgress.hpp` 59-81 | handlers as programs that use mocks while an event is delivered; recorded calls and method bodies are objects, reading a deleted one is undefined. Simplified: mocks that are not spies, stubbings that answer with values, verifications of one method, the default formatter with texts kept as what they are made of, a fixed list of listeners (C81 changes it) |
| `Races` | `DynamicProxy.hpp` 33-42, 91-109, 127-131, 164-187, 209-253, `RecordedMethodBody.hpp` 71-164, `Action.hpp` 31-108, `ActionSequence.hpp` 40-54, `MockImpl.hpp` 47-76, 152-154, 183-213, 273-282, 314-323, `MatchAnalysis.hpp` 46-92, `SequenceVerificationExpectation.hpp` 100-104, `VerifyNoOtherInvocationsVerificationProgress.hpp` 59-81 | every read and write of memory shared between threads by calls, stubbings, verifications, `VerifyNoOtherInvocations`, `Reset` and `ClearInvocationHistory`, interleaved one by one; calling a destroyed or unset body is undefined. Simplified: one location per vector or object; matchers are functions of the arguments; sequentially consistent interleavings (enough for programs without races, by the C++ standard, which is trusted); counters in `shared_ptr` and the ordinals are atomic |
| `Functors` | `StubbingProgress.hpp` 145-165, `Action.hpp` 35-72, `ActionSequence.hpp` 35-88, `MethodMockingContext.hpp` 144-147, 230-234, 249-251, 306-309, 321-323, `invocation_matchers.hpp` 120-146, `RecordedMethodBody.hpp` 54-150, `MatchAnalysis.hpp` 72-92, `DynamicProxy.hpp` 91-98 | function objects with a state: every copy, use and destruction. Simplified: one method; `std::function` copies are copies of the object in it, moves are not distinguished from copies. Not: function objects whose code uses mocks |
| `Checking` | `SequenceVerificationExpectation.hpp` 15-141, `SequenceVerificationProgress.hpp` 42-71, 94-101, `VerifyNoOtherInvocationsVerificationProgress.hpp` 25-123, `MatchAnalysis.hpp` 22-92, `ActualInvocationsSource.hpp` 24-83, `SortInvocations.hpp` 20-74, `UsingProgress.hpp` 32-38, `smart_ptr.hpp` 33-56, `FakeitContext.hpp` 33-43, 76-89 | every step of a verification that may throw (predicates, comparisons, listeners, printing, memory). The memory of one collection is one step per element. Not: code of the test that uses mocks (C79), a kept verification that is changed after a conversion (C75) |
| `Several` | `FakeFunctor.hpp` 19-35, `SpyFunctor.hpp` 22-44, `SpyWithoutVerifyFunctor.hpp` 12-29, `MockImpl.hpp` 183-213, `Action.hpp` 91-108 | every step of a statement on several methods that may throw. The stubbings of all methods are in one list, in the order they were made. Not: the table of the mock |
| `Building` | `MethodMockingContext.hpp` 73-175, 230-263, 300-335, `MatchersCollector.hpp` 47-82, `WhenFunctor.hpp` 23-87, `StubbingProgress.hpp` 50-165, `ActionSequence.hpp` 75-85, `RecordedMethodBody.hpp` 31-69, 110-115, `smart_ptr.hpp` 42-56 | every step of a stubbing statement that may throw. Not: the table of the mock, destructors of user values that throw |
| `Throwing` | `RecordedMethodBody.hpp` 62-81, 122-150, `ActionSequence.hpp` 40-54, `ActualInvocation.hpp` 36-40, `Action.hpp` 30-108, `MockImpl.hpp` 183-214, `DynamicProxy.hpp` 178-187, `Finally.hpp` 15-35 | every place of a call at which something may throw. Not: destructors that throw, code of the user that uses the library meanwhile |
| `Handlers` | `FakeitContext.hpp` 20-91, `DefaultFakeit.hpp` 26-74, `RecordedMethodBody.hpp` 145-149, `MockImpl.hpp` 274-281 | handlers that cause further events, change listeners, adapter and formatter, throw. Not: formatters that use the library, `FAKEIT_ASSERT_ON_UNEXPECTED_METHOD_INVOCATION` |
| `Verifying` | `RecordedMethodBody.hpp` 122-164, `MatchAnalysis.hpp` 17-92, `SequenceVerificationExpectation.hpp` 67-125, `ActualInvocationsSource.hpp` 41-66, `SortInvocations.hpp`, `invocation_matchers.hpp` 127-140 | verification with predicates that look, assign, call methods, clear the history, throw |
| `Rtti` | `gcc/VirtualTable.hpp` 129-149, `mscpp/VirtualTable.hpp` 47-134, 264-273 | the type information put in front of a fake table: descriptors of classes and their bases; the run-time search (not in the repository) is assumed |
| `Finally` | `Finally.hpp` 15-35, used by `ActionSequence.hpp` 45-53, `DynamicProxy.hpp` 184-186, `MockImpl.hpp` 189, 210, 295-297 | guards in nested blocks, moves or elision at each hand-over, exceptions and unwinding; effects are numbers |
| `Copies` | `Mock.hpp` 35-51, 61-63, `MockImpl.hpp` 27-42, 118-125, 262-282, 314-323, `DynamicProxy.hpp` 29-109, 209-226, `gcc/VirtualTable.hpp` 39-41, 71-93, 141-149 | one mock and all its copies by the implicit copy constructors; shared table, object and method bodies, own vectors; only `AlwaysReturn` stubbings without argument matching, no data members, no destructor of the mocked class |
| `Kept` | `Sequence.hpp` 48-143, `WhenFunctor.hpp` 21-87, `UsingProgress.hpp` 18-38, `SequenceVerificationExpectation.hpp` 15-86, `MethodMockingContext.hpp` 173-322, `api_macros.hpp` 31-32 | lifetimes of expressions, sequences and statement objects as temporaries and block variables; no exceptions, no heap-allocated or returned objects, sources of `Using` left out |
| `Naming` | `api_macros.hpp` 7-50, `Prototype.hpp` 8-45, `Mock.hpp` 16-33, 75-137 | what the method macros mean: member lookup, template deduction and overload resolution for classes with one base each; no access control, no member templates, destructor slots left out |
| `Threads` | `RecordedMethodBody.hpp` 126-150, `ActionSequence.hpp` 40-54, `MockImpl.hpp` 183-213, `DynamicProxy.hpp` 177-187 | the core's call cut into steps that threads interleave; by-value arguments, callables that do not use mocks; steps are atomic (no weak memory) |
| `FakeObject` | `FakeObject.hpp`, `DynamicProxy.hpp` 207 | bytes; the compiler's class layout is given |
| `DataMembers` | `DynamicProxy.hpp` 151-205, `MockImpl.hpp` 55-76 | construction and destruction of stubbed members |

### 2.5 The abstract mock (C56)

`Spec/AbstractMock.lean` is a second machine for the same test programs, written without any helper of the model: no tables, offsets, addresses, sets,
sorting or indices.  C56 relates the two in both directions.  Programs the abstract machine does not describe give `none` there: callbacks that use
mocks, multiplicities below one, `Dtor` after `Reset`, dead mocks, methods a class does not have.

`Spec/ReentrantMock.lean` (C72) extends it to callbacks that use mocks; its calls are recursive, with a bound on the depth that C72 shows to be immaterial.  It gives `none`
for callbacks that use the stubbing whose counted action they are performing (C06 has what happens there), or that reset or destroy a mock in the middle of a call whose action is in its last use or runs an original (C80).  `Spec/ReentrantFate.lean` is the same machine with the reasons for `none` told apart: undefined behaviour, outside the description, too deep.

### 2.6 Hypotheses that appear in many theorems

* `Reach P nm w` - the world `w` is reached from the start by API operations and calls; all callables are arbitrary programs.
* `P.Named nm`, `Api.Named nm` - a method of a mock is always mentioned with the same `__COUNTER__` value and two methods never share one
  (`Method(mock, f)` takes the value of the place in the source).  C31 proves what goes wrong otherwise.  The value is below `INT_MAX - 1`.
* `Small`, `Unwrapped`, `< 2^32` - counters do not wrap.  C11, C13 and C16 prove what goes wrong otherwise.
* `WritablePattern` - sequences are built with `+` and `*` from method expressions; at least one sequence.
* `Orderly`, `Plain` (converse of C56 only) - the exclusions of 2.5.
* `Prog.NonReentrant` - callables do not call the method under discussion again (C02, C06).

### 2.7 What is not modelled

* C++ static typing: one universal value type `V` stands for all argument/return types; type-directed overloads (what compiles) are out, except which methods can be copied (`MoveOnly`, C71), what names mean (`Naming`, C74) and what can be printed (`Printing`, C89).
* ABI tricks (`union_cast`, `reinterpret_cast`, calling conventions), code generation of proxies; a proxy is "code that looks its id up".
  `Layout` takes the compilers' table layout as given.
* Memory allocation failure outside calls (`Throwing`, C82), stubbing statements (`Building`, C83; `Several`, C84) and verifications (`Checking`, C85), stack overflow, `long` overflow of `Repeat::times` (needs 2^63 calls).
* Sizes of sequences above 2^31 (`int` conversions in `MatchAnalysis`): sizes are natural numbers. 32-bit ordinals ARE modelled with wrap-around.
* Weak memory: `Concurrency` and `Threads` interleave whole steps and `Races` single accesses, all sequentially consistent.  That programs without races behave so
  is the guarantee of the C++ standard and is trusted.
* User predicates of `Matching` are pure functions in the core model; `Predicates` (choosing a stubbing) and `Verifying` (verification) have programs instead.
* Floating point other than the subtraction, absolute value and comparison `ApproxEq` uses (`Model/Float.lean`, IEEE 754 with round to nearest
  even, one type throughout, no excess precision; the two zeros are not distinguished).
* The event object of an unexpected call refers to the live invocation; the model's event has the arguments the call was made with.  The two differ only if
  user code throws `NoMoreRecordedActionException` itself after changing its by-value parameters.
* The exception type an unexpected call ends with, in the core model: it has one outcome `unexpected`.  `Adapters` (C58) and `Inside` (C88) have the exceptions of adapters and listeners and
  `UnexpectedMethodCallException`.
* Event listeners that call mocks and `FAKEIT_ASSERT_ON_UNEXPECTED_METHOD_INVOCATION` in the core model (`Inside`, C88, has both, for mocks that answer with values).
* `include/fakeit/Functional.hpp`: no file includes it, and its templates would not compile if they were instantiated (`c.*_m(...)`).
* The build files; of the single-header generator, the regular expression for `#pragma once` (whole lines in the model), and macros
  defined by the headers themselves (conditions are fixed while a file is compiled).

## 3. Plan per property

| id | modelled by | how proved |
|----|-------------|-----------|
| C01 | `findHandler`, `callSlot` | characterisation of the reverse scan; lifted to API operations on any world |
| C02 | `ActionSeq`, `callSlot` | simulation with an expanded script (list), induction over calls |
| C03 | `Act.rep` | induction on n; **false for n <= 0**: counterexample theorem + `_partial` for n >= 1 |
| C04 | `ActionSeq` | invariant: head action never done, any number of calls |
| C05 | `finallyClause` | script after the call independent of outcome |
| C06 | re-entrant machine | **false**: three counterexamples (never consumed, next action dropped, `ub`); `_partial` for callbacks that do not use the stubbing whose counted action they perform: every started call, nested or not, uses one entry (`Props/ReentrantScript.lean`, through the abstract mock of C72) |
| C07 | `callSlot`, `unmockedCall` | case analysis over all states |
| C08 | `callSlot` | frame induction over call trees |
| C09 | world order relation | preorder preserved by every primitive, induction on fuel and body |
| C10 | `Arg`, `deref`, heap | frame lemmas over writes |
| C11 | counters | invariant over all histories; explicit 2^32 wrap counterexample + `_partial` below 2^32 |
| C12 | interleaving model of `fetch_add` | induction over schedules |
| C13 | `sortByOrder`, sources | sorted/permutation/uniqueness lemmas |
| C14 | `MatchAnalysis` | ranking function; bounds invariant |
| C15 | `MatchAnalysis` | exchange argument: greedy = optimum, against an independent `Occ` relation |
| C16 | idem | induction over the history |
| C17 | `Seq` | equality of expansions + congruence of the analysis |
| C18 | `opStar`, `exactly`, `atLeast`, literals | case analysis |
| C19-C21 | `verifyExpectation` | from C15 count; C20 **false at n = 0** (`AtLeast(0)` = `Never`), `_partial` for n >= 1 |
| C22 | `matched` list | **false** for patterns of several sequences; `_partial` for single sequences, exact characterisation in general |
| C23 | `vnoi` | case analysis + C13 |
| C24 | expectation object | **false** for repeated conversion; `_partial` for first conversion |
| C25 | smart_ptr + expectation | invariant over handle operations |
| C26 | gates | case analysis |
| C27-C29 | sources, marks | frame lemmas |
| C30, C31 | proxy tables | invariants; C31 needs pairwise distinct ids: counterexample without |
| C32, C33 | `Reset` | C33 **false**: after Reset `_offsets` are 0, the id of the destructor; exact condition proved |
| C34 | `clear` | history part proved; **false** for stubbed data members |
| C35 | `deleg` action | induction on fuel over arbitrary bodies |
| C36 | `touch` | **false** for spied objects; `_partial` for owned mocks (outcome stays `unexpected`) |
| C37 | `destroy` | invariant: original vtable never written |
| C38-C40 | matchers | induction over positions; order laws |
| C41, C42 | `ParamWalker`, `ArgLocator` | induction over parameters |
| C43 | `fireEvent` | induction over listeners |
| C44, C45 | formatter | list induction; unambiguous grammar proof on tokens |
| C46 | smart_ptr heap model | invariant over operation lists |
| C47 | array layout | arithmetic, both ABIs |
| C48 | ownership heap model | **false**: double free / dangling counterexamples; `_partial` single commit |
| C49 | `TupleDispatcher` | induction over arity |
| C50 | literals | **false** above 2^31: `_partial` below |
| C51 | default values | **false** for reference returns; `_partial` for values |
| C52 | probe table | table lookup for 0..1000; beyond it is `ub`; table size as the slot of a method of a derived class; joined with the machine in `Props/LayoutUse.lean` |
| C53 | class trees | induction over trees |
| C54 | data members | invariant over operations; Clear finding |
| C55 | API ops | list induction |
| C56 | abstract mock | forward simulation over all programs |
| C57 | spied call | invariant on the recorded arguments during the original's run |
| C58 | adapters | case analysis over configurations |
| C59 | texts | unique reading of printed lists |
| C60 | single headers | simulation of a preprocessor over all include trees; counting; termination measure |
| C61 | statements and exceptions | induction over code; negation for statements in destructors |
| C62 | creators and matchers | simulation over all tests; prefix invariant; three negations |
| C63 | bytes of the fake object | byte-wise induction; negation for over-aligned members |
| C64 | stubbing chains | list induction on top of C02 |
| C65 | function objects of `Return` | simulation over all tests; negation for dangling references |
| C66 | comment removal, character by character | simulation of the scanner by induction on the text; four negations |
| C67 | objects with any number of mocks | simulation of the user's view (a stack of mocks per object) by the tables in memory; seven negations |
| C68 | predicates as programs | induction on the depth of calls, the code and the scan; frame relation kept by quiet code; three negations |
| C69 | objects, life times, value categories | simulation of a direct C++ call through injective address maps; frame relation for the rest of the test; negations for arguments that are gone |
| C70 | the core model and the abstract mock | two-run simulation on the abstract mock (steps of the other part change nothing of ours; our steps preserve a relation with a bijection of stubbings), lifted through the refinement of C56 |
| C71 | the copy trait and the functions compiled because of it | induction on types; exact characterisation, negation for hidden containers |
| C72 | the core model, `Spec/ReentrantMock.lean` and `Spec/ReentrantFate.lean` | simulation by induction on the nesting depth, and the same for undefined behaviour; the relation looks at the state with all unfinished calls put right (`Lemmas/Patch.lean`), which API operations are shown not to notice |
| C73 | `Model/Threads.lean`, core model | every step of a call works on the cell of its method only; induction over the rest of the schedule, with the calls in progress replaced by their future results; an undisturbed call is linked to `callSlot` |
| C74 | `Model/Naming.lean` | induction over the chain of classes; candidates of overload resolution counted; two negations |
| C75 | `Model/Kept.lean`, `Spec/Kept.lean`, `Lemmas/Kept.lean` | simulation between objects and values (dangling addresses are allowed to denote anything as long as they are not read); ownership invariant for totality; frame argument for the negation |
| C76 | `Model/Copies.lean`, `Spec/Copies.lean`, `Lemmas/Copies.lean` | invariant (once freed, the table stays freed and the object stays detached) for the negations; simulation with one abstract mock known under several names for the partial claim |
| C77 | `Model/Finally.lean` | blocks with a stack of guards, unwinding, against a recursive meaning of guarded code; induction over programs |
| C78 | `Model/Rtti.lean` | the descriptor arrays built by recursion over the list of bases, a model of the cast; against the set of bases |
| C79 | `Model/Verifying.lean` | simulation: the effectful analysis computes what the pure one (C17) computes for the predicates' meanings, and only appends to the heap of records |
| C80 | the core model | induction over call trees: destroyed stubbings do not come back and their scripts do not change (`Lemmas/Lost.lean`) |
| C81 | `Model/Handlers.lean` | big-step relation equivalent to the interpreter (soundness by fuel, completeness by mutual induction over derivations) |
| C82 | `Model/Throwing.lean` | a call as a list of things that may throw, the first of which cuts it; objects and allocations are counted |
| C83 | `Model/Building.lean` | a statement as a program that may throw at each step, on a heap whose objects are counted; deleting what is not there is undefined |
| C84 | `Model/Several.lean` | on the machinery of `Building`: all expressions first, then action and commit method by method |
| C85 | `Model/Checking.lean` | the whole of a verification in a monad of steps each of which may throw; a plan of the steps, fixed whatever throws, is proved by composition |
| C86 | `Model/Functors.lean` | function objects as named objects with a state, with their copy constructors and destructors; refinement to a mock in which functions are values, and a count of what exists |
| C87 | `Model/Races.lean` | operations as programs of single reads and writes of shared memory; a framed safety judgement per operation, a parallel composition theorem, and witnesses of the racing pairs; results by refinement to mocks without memory locations (`Spec/RacesMock.lean`) |
| C88 | `Model/Inside.lean`, `Spec/Inside.lean` | events as pointers to objects with names of their own; simulation with events that remember values and how often histories were deleted (a stability relation between states for the pointers of all events in progress) |
| C89 | `Model/Printing.lean`, `Spec/Printing.lean` | overload resolution as a search for the best of the viable functions, shown to be the declarative rule; a table for built-in types; UB of printing as reading a C string where there is none |
| C90 | `Spec/OneThread.lean` | a simulation between the abstract mock of C56 and the mocks without memory locations of C87, composed with both refinements, so that statements about interleaved accesses are statements about the library's model |
| C91 | `Model/Owners.lean`, `Spec/Owners.lean` | counts are the numbers of owners there are (an invariant that allows for owners being destroyed); a whole operation ends the groups that had an owner before and have none after, whatever the order |
| C92 | `Spec/Uninterrupted.lean` | a translation of statements of the one model into statements of the other; both specifications select and mark the same calls |
| C93 | `Spec/Interrupted.lean` | a translation of actions, calls and statements of the one model into those of the other; the relation is kept by every step that the specification of the component allows |
| C94 | `Spec/InterruptedFake.lean` | the list of all stubbings in the order of making, split by method, is compared with the lists of the methods; induction on the methods of the statement |
| C95 | `Spec/Spelling.lean` | the written-out form of a script; writing out all scripts of a state is a homomorphism of the abstract mock, transferred to the library by C56 |
| C96 | `Spec/SpellingCallbacks.lean` | **false**: witness through C80; `_partial` in one direction for all callbacks and in both for callbacks that end no mocks: writing out all scripts of state, test and callbacks is a simulation of the abstract mock of C72, transferred to the library |
| C97 | `Spec/Reorder.lean` | a test and its recorded calls with the identities of two stubbings exchanged; renaming is a homomorphism of the abstract mock, transferred to the library by C56 |
| C98 | `Spec/Moving.lean` | steps that do not concern the method of a stubbing statement; the statement commutes with them in the abstract mock, transferred to the library by C56 |
| C99 | `Spec/Unused.lean` | tests that do not call the method of a stubbing statement before its mock is reset or it gets a stubbing that accepts all arguments; a state with other stubbings of that method behaves the same in the abstract mock, transferred to the library by C56 |
| C100 | `Spec/Unused.lean` | a newer stubbing that accepts all arguments; stubbings below it are never chosen in the abstract mock, transferred to the library by C56 |
| C101 | `Spec/Checks.lean` | the outcomes of checks that mark and report nothing; their effect is that of their method expressions in the abstract mock, transferred to the library by C56 |
| C102 | `Spec/LeftOut.lean` | methods that a test has named since the last reset of their mock; naming one again changes nothing in the abstract mock, transferred to the library by C56 |

## 4. Findings: natural properties the code does not have

Each is a theorem about the model (name prefix gives the property) unless marked *(note)*.

1. C03 - `Return(0_Times(x))` and negative quantities are performed for ever (`ActionSequence`/`Action.hpp` 48-50 test for exactly zero after decrementing).
2. C50 - `n_Times` keeps the low 32 bits only; large literals become negative.
3. C06 - an action that calls its own method again: the outer finally clause removes whatever action is then in front; actions may be performed twice
   or dropped.
4. C02 - an exhausted stubbing does not fall back to older ones; an empty `When(m);` shadows older stubbings.
5. C08 - exhausted calls are recorded, unmatched and unmocked calls are not.
6. C11 - ordinals wrap at 2^32 and repeat, so the order of calls is lost.  Verification puts invocations into a set ordered by ordinal, so of two calls that are 2^32 calls apart one is lost (C13) and `Exactly(2)` fails (C16, C19).
7. C20 - `AtLeast(0)` behaves as `Never`.
8. C22 - the calls of an incomplete last match are marked verified as well.
9. C24 - converting a failed verification to `bool` a second time gives `true`.
10. C25 - `Any()` cannot be replaced by a later count.
11. C31 - two methods mentioned with the same `__COUNTER__` value (for instance in different translation units): the second one's calls are
    answered by the first one's stubbings.
12. C33 - `Reset` fills the offset table with 0 instead of `INT_MAX`; stubbing `Dtor` afterwards is undefined behaviour or hits another method, unless the
    destructor is the first virtual function.
13. C34, C54 - `ClearInvocationHistory` zeroes the data members of a fake object, also stubbed ones with live objects in them.
14. C36 - mentioning `Method(spy, f)` in a verification makes later calls of `f` unexpected instead of running the original.
15. C35 *(note)* - recursive calls made by a spied original are not recorded.
16. C40 *(note)* - the matcher object that served a call always recognises it, whatever its arguments are now.
17. C55 - `Fake(m1, Dtor(x))` with a class without virtual destructor throws and stubs nothing, unlike separate statements.
18. C43 - a listener that registers or clears listeners: undefined behaviour (iterator invalidation).
19. C46 - assigning to the last handle of a failing `Verify`: the exception leaves the handle dangling.
20. C48 - committing one method expression twice frees twice; setting its matcher after stubbing, or using it in a verification after `Reset`, dangles.
21. C41 - lvalues given to `ReturnAndSet` or `_i <=` are kept by reference: read at call time, undefined if gone.
22. C41, C42 - parameters that alias each other: with `ReturnAndSet` the first value stays, with placeholders the last.
23. C39 - `ApproxEq` on integers overflows; on floating point values the rounded difference is compared, so arguments up to half a unit beyond the
    margin are accepted, and `ApproxEq(inf, m)` rejects infinity.  *(note)* plain text for a `const char*` parameter compares addresses.
24. C45 - printed patterns are ambiguous: all `Matching` predicates print alike, argument texts with unbalanced parentheses.
25. C51 - default answers of methods returning references share one mutable object.
26. C52 - classes with more than 1000 virtual functions: undefined behaviour in probing.
27. C53 *(note)* - virtual bases are accepted if there is only one.
28. C54 - stubbing a data member twice, or a member of a spied object, destroys it twice.
29. *(note)* `Quantifier` keeps a reference to its value; the expectation keeps raw pointers to sequence temporaries: both live long enough only within the
    full expression.
30. *(note)* A user-thrown `NoMoreRecordedActionException` is reported as an unexpected call.
31. C56, C57 - `SpyWithoutVerify` moves by-value arguments out of the record.
32. C58 - the Catch adapter has a formatter of its own and ignores custom ones; the MSTest, NUnit and QTest adapters drop the position of the verification.
33. C58 - `Formatter<char>` puts NUL characters into messages; adapters that pass `c_str()` lose the rest of the message.
34. C58 - the file name of a verification has no initial value: without the macros, a failing verification reads an indeterminate pointer.
35. C59 - recorded `const char*` arguments are printed from their address when the message is made.
36. C60 - the generator knows headers by their spelling: `mockutils//Macros.hpp` (TpUnit) is written in addition to `mockutils/Macros.hpp`; `Xaction.hpp`
    in `WhenFunctor.hpp` is not found and dropped silently; a header first included under a condition is only written there.
37. C61 - statements in destructors that run while an exception propagates are skipped silently, though they are completed: `UncaughtException()` asks whether
    there is any uncaught exception instead of comparing with the number at the beginning of the statement.
38. C62 - a creator such as `Eq(x)` that is kept in a variable compares with the value at its use, dangles if made from a temporary, and if made from
    `std::move(x)` has only one matcher to give; `Using(Eq(std::move(x)), Eq(x))` compares with what is left in `x`.
39. C63 - fake objects are aligned like a pointer, whatever the class asks for.  *(note)* classes of 2 GiB or more do not compile (`int instanceAreaSize`).
40. C65 - methods returning `const T&` may be stubbed with `Return(5)`; the reference kept dangles.
41. C66 - comment removal does not know literals (`"http://x"` is cut) nor line continuations, and turns a comment over several lines inside a directive into
    the end of the directive.  No header of the repository has such text (checked with a script that applies the model's condition `plain` to all 104 headers;
    the one exception is the include line of finding 36, which is expanded before).
42. C67 - a mock attached to an object replaces the whole table by one of the mocked class: the object's `typeid` becomes the mocked class, and methods that a
    derived class adds are read past the end of the table. Of several mocks of one object only the newest can be used: stubbings of an older one are written to the
    newer one's table, methods stubbed by an older one look up their id among the newer one's, and destroying the older one first leaves the object with a freed
    table. A second mock for a fake object has no cookie 1, so unmocked methods dereference null.
43. C68 - predicates get the recorded arguments by non-const reference: one that assigns to them and says no changes what older stubbings are asked about, what the
    answering one gets and what is recorded. A predicate that stubs the same method and says no leaves the search with an invalid iterator; one that resets the mock
    destroys the object whose function is running.
44. C69 - records of calls hold references for `const T&` and `T&&` parameters: verifying such a call by its argument after it was made with a temporary (the usual
    way to call `foo(const std::string&)`), or failing any verification of it, reads an object whose life is over. Methods with value parameters that can be neither
    copied nor moved cannot be mocked.
45. C71 - a method with a value parameter `std::list<std::unique_ptr<T>>` (or map, deque, set), `std::vector` of these, or a class or pair with a member `std::vector<std::unique_ptr<T>>` cannot be
    mocked in any way: `smart_is_copy_constructible` is true for it, so that the copying body of `getOriginalMethodCopyArgsInternal`, compiled with every mocked method, does not
    compile. `Spy` fails with the same error instead of its message. With a further parameter `std::unique_ptr<U>` the same method can be mocked.
46. C73 - two threads calling the same mocked method: besides the data race on the vectors (undefined behaviour in C++), `times--` and the test `times == 0` are separate steps, so two calls that overlap can both take the first action of a sequence and step over zero; that action is then never used up.
47. C74 - `Method(mock, f)` is not refused for every overloaded `f`: each of the eight `stub` templates is viable if exactly one overload has its qualifiers, so with `f(int)`, `f(int, int)` and `f(int) const` the non-const template drops out and `Method(mock, f)` silently means the const one.  Several `volatile` overloads cannot be named by any macro (there is no volatile prototype), nor can `volatile &` methods.
48. C52 - the size of a virtual table is the slot of a method `void endOfVt()` declared in a derived class.  If the mocked class has a virtual method of that name and type, the derived one overrides it, and the table is cut there: stubbing or calling `endOfVt` or a later method is undefined behaviour, and with a later destructor already the construction of the mock.
49. C75 - `Method(mock, f)` is a reference to a temporary, and sequences, stubbings and verifications keep references: `auto p = When(Method(mock, f));`, `auto v = Verify(Method(mock, f)).Exactly(1);`, `auto s = Method(mock, f) + Method(mock, g); Verify(s);` and `auto &&m = Method(mock, f); When(m)...` compile and are undefined behaviour.  `auto m = Method(mock, f);` is fine.
50. C76 - Mocks can be copied by accident: `Mock`, `MockImpl` and `DynamicProxy` own a table and write addresses of their members into it, but have no copy constructor of their own (nor a deleted one).  `void test(Mock<I> mock)`, `[=]`, `std::vector<Mock<I>>` and `std::move(mock)` compile.  The end of the first copy detaches the object from the shared table and frees it: the other one loses all stubbings (fake object: every call is undefined), and its end frees the table a second time.  A method that is first stubbed through a copy is undefined to call even while all are alive.
51. C77 - `Finally(Finally&&)` leaves the other object with an empty `std::function`, which its destructor calls: `std::bad_function_call` inside a destructor, `std::terminate`.  Spying works only because compilers elide the moves of `createRaiiMethodSwapper`; C++11 and C++14 do not demand it (`-fno-elide-constructors`).
52. C78 - for 64 bits with Microsoft's compiler the complete object locator of a fake table is a zeroed block (`mscpp/VirtualTable.hpp` 103-118): `typeid` and every `dynamic_cast` that is not an upcast fail.  For 32 bits, casts from or to a base that is not listed in `Mock<C, bases...>` give null.
53. C47 - `copyFrom` of the MSVC layout (`mscpp/VirtualTable.hpp` 191-198) reads the destructor cookie of the source table, also when that is the compiler's table of a spied object, which has no cookies: for classes with a virtual destructor, making a spy (and `Reset`) reads three cells in front of that table.
54. C79 - `scanActualInvocations` (`RecordedMethodBody.hpp` 152-157) goes through the vector of recorded calls while it asks the predicate, so a predicate of a method expression used as source (`Using`, `Unverified`, `VerifyNoOtherInvocations`) that calls its own method invalidates the iterator: undefined behaviour.  The same for calls to another method changes what the sources behind it contain.  A predicate that clears the history leaves the analysis with pointers to destroyed records, one that assigns to its argument changes the history and the verdict of later verifications.
55. C80 - `ActionSequence::handleMethodInvocation` (`ActionSequence.hpp` 40-54) keeps the action alive while it is performed but erases it from its own vector afterwards if it is used up, so a callback given to `Do` (or the last of several) that resets or destroys its mock makes the end of the call use a destroyed vector; given to `AlwaysDo` it does not.
56. C81 - a listener that causes the event it is told of (an unexpected call in the handler of unexpected calls) is told again and again: the library has no guard, the recursion never ends.  A listener that registers another while it is told of a nested event leaves the outer loop with invalid iterators, even if that nested delivery ended with an exception that was caught.
57. C82 - `createRaiiMethodSwapper` sets the entry of the table to the original method and only then allocates the `std::function` that sets it back: if that allocation fails, the exception leaves the method without its fake for good.  The action that was used up is stored in a destructor: if that allocation fails, the program is terminated.
58. C83 - `Using` collects raw pointers: if the copy of an expected value throws, the matchers of the arguments before it leak.  `addMethodInvocationHandler` hands the matcher and the actions to `shared_ptr`s before `_commited` is set: if one of its last four allocations fails they are deleted there and again by the expression.
59. C84 - `Fake(...)` and `Spy(...)` commit method by method: if an allocation for a later method fails, the test gets the exception and the earlier methods stay stubbed.
60. C85 - The flag that a verification was done is set before the calls are looked at (`SequenceVerificationExpectation.hpp` 67-70, `VerifyNoOtherInvocationsVerificationProgress.hpp` 59-62), so if a predicate or an allocation throws in a conversion to `bool`, the next conversion answers `true` and the end of the verification is silent.  A `bool` thrown by a predicate is taken for the answer (`SequenceVerificationProgress.hpp` 42-51).  If the reference count of a `smart_ptr` cannot be allocated, the expectation and its sources are never destroyed (`smart_ptr.hpp` 42-45).
61. **A verification reads everything recorded on its mock, and naming a method writes (C87).**  `Verify(Method(mock, g))` collects the recorded calls of all methods of the mock before it looks for those of `g`, `Method(mock, g)` stores the name in the method object each time and registers `g` when it is new, and a call looks for its method from the first entry of `_offsets` on.  So threads that use different methods of one mock can race: a verification of one method with a recorded call of another, the first stubbing of a method with calls of later ones, two verifications naming the same method.  Proved in `C87_clashing_operations_race` and `C87_different_methods_can_race`; what is safe in `C87_compatible_threads_never_race_partial`.
62. **Event objects point to what handlers can delete (C88).**  The events of failed verifications hold raw pointers to the recorded calls, and the event of an unexpected call refers to the name in the method's body.  A listener that clears the history (or resets the mock) when a verification fails leaves the adapter with dangling pointers; a listener that resets the mock when a call is unexpected makes the rest of the call run in a destroyed body.  After a reset, formatting the expected pattern registers the method again, with the compiler's name of its type.  Proved in `C88_clearing_spoils_the_report`, `C88_resetting_spoils_the_call`, `C88_resetting_changes_the_report`; what is safe in the other theorems of `Props/Inside.lean`.
63. **Byte pointers are printed as texts; wide characters do not compile in C++20 (C89).**  `is_ostreamable` is true for every pointer and every arithmetic type, without asking whether `<<` can be used.  A method with a `uint8_t*` argument is reported by `os << p`, which reads the buffer up to a zero byte that need not be there, and is undefined for null (only `char*` is checked for null).  A method with a `wchar_t`, `char16_t` or `wchar_t*` argument cannot even be mocked in C++20, where these operators are deleted.  Proved in `C89_byte_buffers_are_read_as_text`, `C89_wide_characters_do_not_compile`, `C89_undefined_exactly`, `C89_what_compiles`.
64. **Owners of mocked objects (C91).**  A record that holds the last `shared_ptr` to the mock's own object is safe when the mock ends (the fix of issue #153), but not when it is reset: if the destructor is mocked, the vector of handlers that `Reset` is emptying is read by the call of the destructor.  `ClearInvocationHistory` may leave a call of the destructor recorded, if the method is declared after it.  Owners in records of a mock declared earlier outlive the object and can never go without undefined behaviour.  A mocked destructor without an action left (`Verify(Dtor(mock))` alone mocks it) terminates the program when the last owner goes.  Proved in `C91_mocks_that_own_their_objects_cannot_be_reset`, `C91_clear_may_leave_a_call_of_the_destructor`, `C91_owners_must_not_outlive_the_object`, `C91_records_of_earlier_mocks_must_not_own_later_objects`, `C91_destructor_without_action_terminates`.
65. **How scripts are written (C96).**  `Do(2_Times(g))` and `Do(g, g)` are the same unless `g` resets or destroys the mock it answers for.  Then the first use of the former is safe, because the action is still needed and `Finally` does not touch it; the first use of the latter is its last, and `ActionSequence::handleMethodInvocation` (`ActionSequence.hpp` 45-51) touches the sequence that is gone.

## 5. Testing the theorems against wrong programs

`seeded/LOG.jsonl` has one line per attempt: a realistic bug is put into a definition of the model in a scratch copy, the project is rebuilt, failing theorems
are replaced by `sorry` until everything builds, and the property theorems that then depend on `sorry` are listed (`theorems_failed`; `direct_failures`
are the declarations whose own proof failed).  If the property whose English claim the bug breaks is not among them, its theorem is tightened.

How to read the log:

* Lines with a `note` are attempts without a full measurement. Either the edit made a definition uncompilable, or a failing declaration could not be replaced by `sorry`, or the rebuild ran out of memory. They say nothing about theorems that are not listed. Most edits of `Model/Building.lean` (C83) are of the last kind: a lemma of C83 failed in each of them, but which property theorems fail was not determined.
* `breaks` was corrected by hand for about 50 lines after the run, where the property had been named wrongly or the edit turned out to break no claim (`control`). So `breaks` is not in every case a prediction made before the run.
* `breaks` of `auto-` lines is derived from the theorems that failed, and is no prediction at all. Automatic edits after which nothing failed have been read one by one; the reason is in `claim`, or the theorem is named in `theorems_tightened`.

About 1840 edits of single places (a condition negated, cases swapped, a bound moved, part of a list dropped) are also tried one after the other by a script, as time allows; their lines begin with `auto-`.

### 5.1 The library's own tests

`lean/Verif/Tests/` replays tests of the library (/repo/tests) on the model: every test is an `example` that runs the model on the same operations and demands
what the test asserts, at the same places.  They are examples, not proofs; they check that the model does what the authors of the library say it does.  All of
them hold; none needed a change of the model.

* `Kit`: the notation.
* `Verification`: all of sequence_verification_tests.cpp and verification_tests.cpp.
* `Stubbing`: stubbing_tests.cpp (except lambdas with state of their own, a test about references to such state, and a test about `std::logic_error`) and gcc_stubbing_multiple_values_tests.cpp.
* `Objects`: spying_tests.cpp, dtor_mocking_tests.cpp, default_behaviore_tests.cpp, miscellaneous_tests.cpp.
* `Components`, with the component models: argument_matching_tests.cpp, default_event_formatting_tests.cpp (exact messages), the `ReturnAndSet` tests, event_notification_tests.cpp, overloadded_methods_tests.cpp.

Not replayed: custom_event_formatting, custom_testing_framework, type_info, move_only_return, referece_types, rvalue_arguments, functional, cpp14, remove_const_volatile, multiple and virtual inheritance for MSVC.

## 6. Axioms

A script runs `Lean.collectAxioms` on every theorem named in MANIFEST.json.  Result: each depends on a subset of `propext`, `Classical.choice`, `Quot.sound`;
nothing else occurs.  `vcheck` replays all modules in the kernel.
