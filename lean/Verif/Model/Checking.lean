import Verif.Model.Api
import Verif.Model.Building
import Verif.Model.Verifying
/-!
# Exceptions anywhere in a verification

`Verify(...)`, `Unverified.Verify(...)`, `Using(...).Verify(...)` and `VerifyNoOtherInvocations(...)` allocate memory and run code of the user (predicates, comparisons, listeners, the printing of arguments) at many places.  Each of these steps may
throw.  Here they are counted, the n-th throws `th n` if that is an exception; the heap objects are counted too: deleting what does not exist is undefined.

Not modelled here: the making of the method expressions (see `Model/Building.lean`), predicates that do something else than answer or throw (see `Model/Verifying.lean`), listeners that use the library (see `Model/Handlers.lean`), the shortcut for the
expression that served a call (C40), destructors of the user that throw. One verification at a time.
-/
namespace FakeIt.Checking
open FakeIt.Building (Res)

/-- Why memory is allocated: the vectors of sequences (include/fakeit/VerifyFunctor.hpp 34-35), of the mocks involved (37-38) or of the sources (include/fakeit/UsingFunctor.hpp 32-33; include/fakeit/VerifyNoOtherInvocationsFunctor.hpp 40-41), the aggregate (include/fakeit/VerifyFunctor.hpp 39)
and its copy of the vector (include/fakeit/ActualInvocationsSource.hpp 57), its reference count (25), the source of the unverified ones and its count (include/fakeit/UnverifiedFunctor.hpp 29-30), the second vector of sequences (include/fakeit/UsingProgress.hpp 34-35),
the expectation (include/fakeit/SequenceVerificationProgress.hpp 32; include/fakeit/VerifyNoOtherInvocationsVerificationProgress.hpp 94), the copies of the vector in it (include/fakeit/SequenceVerificationExpectation.hpp 59; include/fakeit/VerifyNoOtherInvocationsVerificationProgress.hpp 49-52), its reference count (include/mockutils/smart_ptr.hpp 43),
the vector of the methods of a mock (include/fakeit/MockImpl.hpp 48-49), a place in a set of calls (include/fakeit/MethodMockingContext.hpp 116, include/fakeit/RecordedMethodBody.hpp 162, include/fakeit/ActualInvocationsSource.hpp 46, 79, include/fakeit/SortInvocations.hpp 44), in the ordered set (27), in the sorted vector (30), in the expanded sequence
(include/fakeit/MethodMockingContext.hpp 205), among the matched calls (include/fakeit/MatchAnalysis.hpp 67), the event with its vectors (include/fakeit/SequenceVerificationExpectation.hpp 127-141). -/
inductive Why where
  | sequences | involved (m : Nat) | sources | aggregate | sourcesCopy | count | decorated | count2 | pattern
  | passed | expectation | patternCopy | ref
  | methods (m : Nat) | insert (a : Nat) | order (a : Nat) | place (a : Nat) | expand | matched (a : Nat) | event
  deriving DecidableEq, Repr

/-- What may throw: the question whether a method expression means a recorded call (a predicate or comparisons; include/fakeit/MethodMockingContext.hpp 115, 132), a listener (include/fakeit/FakeitContext.hpp 76-89), the message, which prints expected and recorded arguments
(include/fakeit/DefaultEventFormatter.hpp 37-69), an allocation. -/
inductive Op where
  | ask (pred a : Nat)
  | told (l : Nat)
  | print
  | memory (w : Why)
  deriving DecidableEq, Repr

/-- A recorded call (include/fakeit/ActualInvocation.hpp 27-68). Calls are named by their position in the order of the calls (include/fakeit/Invocation.hpp 23-26). -/
structure Rec (V : Type) where
  mock : Nat
  meth : Nat
  arg : V
  verified : Bool
  deriving DecidableEq, Repr

/-- The recorded calls of all mocks, the expectation's fields (include/fakeit/SequenceVerificationExpectation.hpp 42-51; for `VerifyNoOtherInvocations` only `isVerified`, include/fakeit/VerifyNoOtherInvocationsVerificationProgress.hpp 41-47), the heap objects, the next one's name, what was begun. -/
structure St (V : Type) where
  recs : List (Rec V)
  exp : Expectation
  live : List Nat
  next : Nat
  log : List Op
  deriving DecidableEq, Repr

/-- Exceptions: of the user or the allocator, the one that the adapter throws for a failed verification (e.g. config/standalone/StandaloneFakeit.hpp 80-92), `false` of the handler for conversions (include/fakeit/ThrowFalseEventHandler.hpp 11-17), `invalid_argument`
(include/fakeit/SequenceVerificationProgress.hpp 99-101). -/
inductive Exc (X : Type) where
  | user (x : X)
  | failed
  | no
  | invalid
  deriving DecidableEq, Repr

/-- Code that may throw (C++ semantics used by all files cited here, e.g. include/fakeit/SequenceVerificationExpectation.hpp 67-86). -/
def M (V X α : Type) : Type := St V → R (Res (Exc X) α × St V)

variable {V X α β : Type}

/-- `;` (C++ semantics, as for `M`: include/fakeit/SequenceVerificationExpectation.hpp 67-86). -/
def M.bind (m : M V X α) (f : α → M V X β) : M V X β := fun s =>
  m s >>= fun
    | (.ok a, s) => f a s
    | (.exc x, s) => .done (.exc x, s)

/-- Sequencing (C++ semantics, as for `M`: include/fakeit/SequenceVerificationExpectation.hpp 67-86). -/
instance : Monad (M V X) where
  pure a := fun s => .done (.ok a, s)
  bind := M.bind

/-- Code that does not throw (C++ semantics, as for `M`: include/fakeit/SequenceVerificationExpectation.hpp 67-86). -/
def quiet (f : St V → R (St V)) : M V X Unit := fun s => f s >>= fun s => .done (.ok (), s)

/-- What the destructors of complete objects do when an exception passes by (C++ semantics, as for `M`: include/fakeit/SequenceVerificationExpectation.hpp 67-86). -/
def M.unwinding (m : M V X α) (f : St V → R (St V)) : M V X α := fun s =>
  m s >>= fun
    | (.ok a, s) => .done (.ok a, s)
    | (.exc x, s) => f s >>= fun s => .done (.exc x, s)

/-- `throw` (the places cited at `Exc`, e.g. include/fakeit/ThrowFalseEventHandler.hpp 12). -/
def throw_ (e : Exc X) : M V X α := fun s => .done (.exc e, s)

/-- `delete` of objects (include/mockutils/smart_ptr.hpp 53-54; `shared_ptr` in include/fakeit/ActualInvocationsSource.hpp 33). -/
def destroyAll : List Nat → St V → R (St V)
  | [], s => .done s
  | id :: ids, s => if id ∈ s.live then destroyAll ids { s with live := s.live.erase id } else .ub

/-- A new object exists (C++ `new`, e.g. include/fakeit/VerifyFunctor.hpp 39). -/
def fresh : M V X Nat := fun s => .done (.ok s.next, { s with live := s.live ++ [s.next], next := s.next + 1 })

/-- `Method(mock, f)` with a matcher (include/fakeit/MethodMockingContext.hpp 191-206). -/
structure Leaf where
  mock : Nat
  meth : Nat
  pred : Nat
  deriving DecidableEq, Repr

/-- Where calls come from: a mock (include/fakeit/MockImpl.hpp 47-53), a method expression (include/fakeit/MethodMockingContext.hpp 113-120), the unverified calls of a source (include/fakeit/ActualInvocationsSource.hpp 36-53), an aggregate (55-83) of sources one after the other. -/
inductive Src where
  | nothing
  | mock (m : Nat)
  | method (l : Leaf)
  | unverified (s : Src)
  | group (s : Src)
  | also (s t : Src)
  deriving DecidableEq, Repr

/-- `Verify`, `Unverified.Verify`, `Using(...).Verify` (include/fakeit/VerifyFunctor.hpp 32-43, include/fakeit/UnverifiedFunctor.hpp 20-34, include/fakeit/UsingFunctor.hpp 30-37). -/
inductive Scope where
  | involved
  | unverified
  | using (src : Src)
  deriving DecidableEq, Repr

/-- A verification: of a pattern, or that there are no other calls (include/fakeit/UsingProgress.hpp 32-38, include/fakeit/VerifyNoOtherInvocationsFunctor.hpp 37-44). -/
inductive Check where
  | pattern (scope : Scope) (pat : List (Seq Leaf))
  | noOther (src : Src)
  deriving DecidableEq, Repr

/-- Several sources (include/fakeit/ActualInvocationsSource.hpp 62-64). -/
def Src.mocks : List Nat → Src
  | [] => .nothing
  | m :: ms => .also (.mock m) (Src.mocks ms)

/-- The mocks of a pattern (include/fakeit/SortInvocations.hpp 69-74). -/
def involvedMocks (pat : List (Seq Leaf)) : List Nat := pat.flatMap (Seq.involved Leaf.mock)

/-- The source of the expectation (include/fakeit/VerifyFunctor.hpp 37-41, include/fakeit/UnverifiedFunctor.hpp 25-32, include/fakeit/UsingFunctor.hpp 32-35). -/
def Scope.src (pat : List (Seq Leaf)) : Scope → Src
  | .involved => .group (.mocks (involvedMocks pat))
  | .unverified => .unverified (.group (.mocks (involvedMocks pat)))
  | .using src => .group src

section
variable (th : Nat → Option X)

/-- Something that may throw (the places cited at `Op`, e.g. include/fakeit/MethodMockingContext.hpp 115). -/
def op (o : Op) : M V X Unit := fun s =>
  match th s.log.length with
  | none => .done (.ok (), { s with log := s.log ++ [o] })
  | some x => .done (.exc (.user x), { s with log := s.log ++ [o] })

/-- The same for several (e.g. include/fakeit/SortInvocations.hpp 26-30). -/
def ops : List Op → M V X Unit
  | [] => pure ()
  | o :: os => do
    op th o
    ops os

/-- The record of a call (include/fakeit/RecordedMethodBody.hpp 63). -/
def record (a : Nat) : M V X (Rec V) := fun s =>
  match s.recs[a]? with
  | some r => .done (.ok r, s)
  | none => .ub

variable (P : Nat → V → Bool)

/-- `MethodMockingContext::matches` (include/fakeit/MethodMockingContext.hpp 125-133). -/
def ask (l : Leaf) (a : Nat) : M V X Bool := do
  let r ← record a
  if r.mock = l.mock ∧ r.meth = l.meth then do
    op th (.ask l.pred a)
    pure (P l.pred r.arg)
  else pure false

/-! ## Collecting -/

/-- Calls are put into a set (include/fakeit/RecordedMethodBody.hpp 159-164, include/fakeit/ActualInvocationsSource.hpp 44-48, 76-82, include/fakeit/SortInvocations.hpp 40-47). Simplified: a call that is already there may also fail. -/
def insertAll : List Nat → List Nat → M V X (List Nat)
  | [], into => pure into
  | a :: as, into => do
    op th (.memory (.insert a))
    insertAll as (Verifying.insertAddr into a)

/-- The calls of which a property holds, by name (include/fakeit/MockImpl.hpp 47-53: all methods of the mock; include/fakeit/RecordedMethodBody.hpp 63: one method). Simplified: in the order of the calls. -/
def named (f : Rec V → Bool) (recs : List (Rec V)) : List Nat :=
  (List.range recs.length).filter fun a => (recs[a]?).any f

/-- The calls of a mock or a method (include/fakeit/MockImpl.hpp 47-53, include/fakeit/RecordedMethodBody.hpp 152-164). -/
def those (f : Rec V → Bool) : M V X (List Nat) := fun s => .done (.ok (named f s.recs), s)

/-- `scanActualInvocations` (include/fakeit/RecordedMethodBody.hpp 152-157, include/fakeit/MethodMockingContext.hpp 113-120). -/
def scan (l : Leaf) : List Nat → List Nat → M V X (List Nat)
  | [], into => pure into
  | a :: as, into => do
    let b ← ask th P l a
    if b then do
      let into ← insertAll th [a] into
      scan l as into
    else scan l as into

/-- Those that are not verified (include/fakeit/ActualInvocationsSource.hpp 44-48, include/fakeit/SortInvocations.hpp 42-46). -/
def unverifiedOf : List Nat → M V X (List Nat)
  | [] => pure []
  | a :: as => do
    let r ← record a
    let rest ← unverifiedOf as
    pure (if r.verified then rest else a :: rest)

/-- `getActualInvocations` (include/fakeit/MockImpl.hpp 47-53, include/fakeit/MethodMockingContext.hpp 113-120, include/fakeit/ActualInvocationsSource.hpp 41-49, 60-66). Simplified: the vector of methods is one step, and the `std::function` of a scan (include/fakeit/MethodMockingContext.hpp 114-119, two pointers) needs no memory. -/
def collect : Src → List Nat → M V X (List Nat)
  | .nothing, into => pure into
  | .mock m, into => do
    op th (.memory (.methods m))
    let as ← those fun r => r.mock == m
    insertAll th as into
  | .method l, into => do
    let as ← those fun r => r.mock == l.mock && r.meth == l.meth
    scan th P l as into
  | .unverified s, into => do
    let all ← collect s []
    let as ← unverifiedOf all
    insertAll th as into
  | .group s, into => do
    let all ← collect s []
    insertAll th all into
  | .also s t, into => do
    let into ← collect s into
    collect t into

/-- `sortByInvocationOrder` (include/fakeit/SortInvocations.hpp 20-31). -/
def sorted (set : List Nat) : M V X (List Nat) := do
  ops th (set.map fun a => .memory (.order a))
  ops th ((Verifying.sortAddrs set).map fun a => .memory (.place a))
  pure (Verifying.sortAddrs set)

/-! ## Matching (the loops of `Model/MatchAnalysis.lean` with steps that may throw) -/

/-- `isMatch` from position `j` on (include/fakeit/MatchAnalysis.hpp 72-81). -/
def isMatchFrom (actual : List Nat) (start : Nat) : Nat → List Leaf → M V X Bool
  | _, [] => pure true
  | j, e :: es =>
    match actual[start + j]? with
    | none => fun _ => .ub
    | some a => do
      let b ← ask th P e a
      if b then isMatchFrom actual start (j + 1) es else pure false

/-- `n` iterations of the loop of `findNextMatch` (include/fakeit/MatchAnalysis.hpp 86-90). -/
def search (actual : List Nat) (expected : List Leaf) : Nat → Nat → M V X (Option Nat)
  | 0, _ => pure none
  | n + 1, i => do
    let found ← isMatchFrom th P actual i 0 expected
    if found then pure (some i) else search actual expected n (i + 1)

/-- `findNextMatch(Sequence*&, ...)` (include/fakeit/MatchAnalysis.hpp 83-92): the sequence is expanded into a vector first. -/
def findNext1 (actual : List Nat) (expected : List Leaf) (start : Nat) : M V X (Option Nat) := do
  ops th (expected.map fun _ => .memory .expand)
  search th P actual expected ((actual.length : Int) - (expected.length : Int) + 1 - (start : Int)).toNat start

/-- What `collectMatchedInvocations` adds (include/fakeit/MatchAnalysis.hpp 62-69). -/
def collectMatched (actual : List Nat) : Nat → Nat → M V X (List Nat)
  | _, 0 => pure []
  | start, len + 1 =>
    match actual[start]? with
    | none => fun _ => .ub
    | some a => do
      op th (.memory (.matched a))
      let rest ← collectMatched actual (start + 1) len
      pure (a :: rest)

/-- `findNextMatch(pattern, ...)` (include/fakeit/MatchAnalysis.hpp 46-59). -/
def findNextP (actual : List Nat) : List (Seq Leaf) → Nat → List Nat → M V X (Option Nat × List Nat)
  | [], start, matched => pure (some start, matched)
  | s :: ps, start, matched => do
    let found ← findNext1 th P actual s.expected start
    match found with
    | none => pure (none, matched)
    | some i => do
      let c ← collectMatched th actual i s.size
      findNextP actual ps (i + s.size) (matched ++ c)

/-- The loop of `countMatches` (include/fakeit/MatchAnalysis.hpp 29-39). -/
def countLoop (actual : List Nat) (pat : List (Seq Leaf)) : Nat → Nat → Nat → List Nat → M V X (Nat × List Nat)
  | 0, _, _, _ => fun _ => .oof
  | fuel + 1, start, count, matched => do
    let r ← findNextP th P actual pat start matched
    match r with
    | (none, matched') => pure (count, matched')
    | (some end_, matched') => countLoop actual pat fuel end_ (count + 1) matched'

/-! ## The expectation -/

/-- `markAsVerified` (include/fakeit/SequenceVerificationExpectation.hpp 100-104). -/
def mark : List Nat → M V X Unit
  | [] => pure ()
  | a :: rest => do
    let r ← record a
    (fun s => .done (.ok (), { s with recs := s.recs.set a { r with verified := true } }))
    mark rest

/-- The count is not what is expected (include/fakeit/SequenceVerificationExpectation.hpp 75-83, 106-125). -/
def missed (e : Expectation) (n : Nat) : Bool :=
  !e.anything && ((decide (e.count < 0) && decide ((n : Int) < -e.count)) || (!decide (e.count < 0) && decide ((n : Int) ≠ e.count)))

/-- Who is told of a failure: the library with a number of listeners and the adapter, or the handler of conversions (include/fakeit/FakeitContext.hpp 33-43, include/fakeit/ThrowFalseEventHandler.hpp 11-17). -/
inductive Handler where
  | context (listeners : Nat)
  | throwFalse
  deriving DecidableEq, Repr

/-- `handle(evt)` (include/fakeit/FakeitContext.hpp 33-43; the adapter formats the event and throws, e.g. config/standalone/StandaloneFakeit.hpp 80-92). -/
def report : Handler → M V X Unit
  | .context n => do
    ops th ((List.range n).map .told)
    op th .print
    throw_ .failed
  | .throwFalse => throw_ .no

/-- The fields of the expectation (include/fakeit/SequenceVerificationExpectation.hpp 42-51). -/
def expected : M V X Expectation := fun s => .done (.ok s.exp, s)

/-- The rest of `VerifyExpectation` after the test of `_isVerified` (include/fakeit/SequenceVerificationExpectation.hpp 72-86; include/fakeit/VerifyNoOtherInvocationsVerificationProgress.hpp 64-80). -/
def analyse (h : Handler) : Check → M V X Unit
  | .pattern scope pat => do
    let set ← collect th P (scope.src pat) []
    let actual ← sorted th set
    let r ← countLoop th P actual pat (actual.length + 1) 0 0 []
    let e ← expected
    if missed e r.1 then do
      op th (.memory .event)
      report th h
    else mark r.2
  | .noOther src => do
    let set ← collect th P src []
    let as ← unverifiedOf set
    let unv ← insertAll th as []
    if unv.isEmpty then pure ()
    else do
      let _ ← sorted th unv
      let _ ← sorted th set
      op th (.memory .event)
      report th h

/-- `VerifyExpectation` (include/fakeit/SequenceVerificationExpectation.hpp 67-86, include/fakeit/VerifyNoOtherInvocationsVerificationProgress.hpp 59-81): the flag is set first. -/
def verify (h : Handler) (c : Check) : M V X Unit := fun s =>
  if s.exp.isVerified then .done (.ok (), s)
  else analyse th P h c { s with exp := { s.exp with isVerified := true } }

/-! ## Statements -/

/-- The objects behind a handle: the sources, the expectation, its reference count (include/fakeit/SequenceVerificationExpectation.hpp 43, include/mockutils/smart_ptr.hpp 33-34). -/
structure Handle where
  srcs : List Nat
  exp : Nat
  ref : Nat
  deriving DecidableEq, Repr

/-- The aggregate behind a `shared_ptr` (include/fakeit/VerifyFunctor.hpp 39, include/fakeit/ActualInvocationsSource.hpp 24-26, 57-58). -/
def aggregate : M V X (List Nat) := do
  op th (.memory .aggregate)
  op th (.memory .sourcesCopy)
  let a ← fresh
  (op th (.memory .count)).unwinding (destroyAll [a])
  pure [a]

/-- What `Verify` and its relatives do before there is an expectation (include/fakeit/VerifyFunctor.hpp 34-41, include/fakeit/UnverifiedFunctor.hpp 22-32, include/fakeit/UsingFunctor.hpp 32-36). -/
def sources (pat : List (Seq Leaf)) : Scope → M V X (List Nat)
  | .involved => do
    op th (.memory .sequences)
    ops th ((involvedMocks pat).map fun m => .memory (.involved m))
    aggregate th
  | .unverified => do
    op th (.memory .sequences)
    ops th ((involvedMocks pat).map fun m => .memory (.involved m))
    let a ← aggregate th
    (op th (.memory .decorated)).unwinding (destroyAll a)
    let d ← fresh
    (op th (.memory .count2)).unwinding (destroyAll (d :: a))
    pure (d :: a)
  | .using _ => do
    op th (.memory .sources)
    aggregate th

/-- The constructor of the expectation (include/fakeit/SequenceVerificationExpectation.hpp 53-64, include/fakeit/VerifyNoOtherInvocationsVerificationProgress.hpp 49-55). -/
def begin_ : M V X Unit := fun s => .done (.ok (), { s with exp := Expectation.init })

/-- The expectation and the `smart_ptr` to it (include/fakeit/SequenceVerificationProgress.hpp 25-33, include/fakeit/SequenceVerificationExpectation.hpp 53-64, include/mockutils/smart_ptr.hpp 42-45; include/fakeit/VerifyNoOtherInvocationsVerificationProgress.hpp 49-55, 87-96): if the reference count cannot be made,
the expectation is lost, and with it the sources it shares. -/
def expectation (srcs : List Nat) : M V X Handle := do
  (op th (.memory .expectation)).unwinding (destroyAll srcs)
  (op th (.memory .patternCopy)).unwinding (destroyAll srcs)
  let e ← fresh
  begin_
  op th (.memory .ref)
  let r ← fresh
  pure ⟨srcs, e, r⟩

/-- `Verify(...)` up to its quantifier, `VerifyNoOtherInvocations(...)` (include/fakeit/UsingProgress.hpp 32-38, include/fakeit/VerifyNoOtherInvocationsFunctor.hpp 37-44). -/
def construct : Check → M V X Handle
  | .pattern scope pat => do
    let srcs ← sources th pat scope
    (op th (.memory .pattern)).unwinding (destroyAll srcs)
    expectation th srcs
  | .noOther _ => do
    op th (.memory .sources)
    op th (.memory .passed)
    expectation th []

/-- The objects of a handle go: the count first, then the members of the expectation, then itself (include/mockutils/smart_ptr.hpp 51-56). -/
def Handle.objects (h : Handle) : List Nat := h.srcs ++ [h.exp]

/-- The last handle goes while an exception passes by: nothing is verified (include/fakeit/SequenceVerificationExpectation.hpp 16-18, include/fakeit/VerifyNoOtherInvocationsVerificationProgress.hpp 26-28). -/
def Handle.lost (h : Handle) (s : St V) : R (St V) := destroyAll (h.ref :: h.objects) s

/-- The quantifier (include/fakeit/SequenceVerificationProgress.hpp 73-122); `VerifyNoOtherInvocations` has none. Simplified: there is memory for the text of the exception. -/
def quantify (q : Quant) : Check → M V X Unit
  | .noOther _ => pure ()
  | .pattern _ _ => fun s =>
    match s.exp.quant q with
    | none => .done (.exc .invalid, s)
    | some e => .done (.ok (), { s with exp := e })

/-- `auto v = Verify(...).Exactly(n);`: the test keeps the handle (include/fakeit/SequenceVerificationProgress.hpp 73-122). -/
def keep (c : Check) (q : Quant) : M V X Handle := do
  let h ← construct th c
  (quantify q c).unwinding h.lost
  pure h

/-- The last handle goes (include/mockutils/smart_ptr.hpp 51-56, include/fakeit/SequenceVerificationExpectation.hpp 15-20, include/fakeit/VerifyNoOtherInvocationsVerificationProgress.hpp 25-31): the verification is made; members and memory go in any case (C++). -/
def Handle.drop (listeners : Nat) (c : Check) (h : Handle) : M V X Unit := do
  quiet (destroyAll [h.ref])
  (verify th P (.context listeners) c).unwinding (destroyAll h.objects)
  quiet (destroyAll h.objects)

/-- A whole statement, `Verify(...).Exactly(n);` or `VerifyNoOtherInvocations(...);` (include/fakeit/SequenceVerificationProgress.hpp 73-122, include/fakeit/VerifyNoOtherInvocationsFunctor.hpp 37-44). -/
def statement (listeners : Nat) (c : Check) (q : Quant) : M V X Unit := do
  let h ← construct th c
  (quantify q c).unwinding h.lost
  h.drop th P listeners c

variable (asBool : X → Option Bool)

/-- `catch (bool e) { return e; }` (include/fakeit/SequenceVerificationProgress.hpp 48-50, include/fakeit/VerifyNoOtherInvocationsVerificationProgress.hpp 104-106). `asBool`: the exceptions of type `bool`. -/
def caught : Res (Exc X) Unit × St V → R (Res (Exc X) Bool × St V)
  | (.ok _, s) => .done (.ok true, s)
  | (.exc .no, s) => .done (.ok false, s)
  | (.exc (.user x), s) =>
    match asBool x with
    | some b => .done (.ok b, s)
    | none => .done (.exc (.user x), s)
  | (.exc .failed, s) => .done (.exc .failed, s)
  | (.exc .invalid, s) => .done (.exc .invalid, s)

/-- `operator bool` (include/fakeit/SequenceVerificationProgress.hpp 42-51, 67-69, include/fakeit/VerifyNoOtherInvocationsVerificationProgress.hpp 98-107, 121-123). -/
def convert (c : Check) : M V X Bool := fun s => verify th P .throwFalse c s >>= caught asBool

/-- `bool b = Verify(...).Exactly(n);` (include/fakeit/SequenceVerificationProgress.hpp 42-71, 73-122). -/
def question (listeners : Nat) (c : Check) (q : Quant) : M V X Bool := do
  let h ← construct th c
  (quantify q c).unwinding h.lost
  let b ← (convert th P asBool c).unwinding h.lost
  h.drop th P listeners c
  pure b

/-- A handle that the test keeps is converted `n` times; the test catches exceptions (`none`) (include/fakeit/SequenceVerificationProgress.hpp 42-71). -/
def conversions (c : Check) : Nat → St V → R (List (Option Bool) × St V)
  | 0, s => .done ([], s)
  | n + 1, s =>
    convert th P asBool c s >>= fun
      | (.ok b, s) => conversions c n s >>= fun (bs, s) => .done (some b :: bs, s)
      | (.exc _, s) => conversions c n s >>= fun (bs, s) => .done (none :: bs, s)

end
end FakeIt.Checking
