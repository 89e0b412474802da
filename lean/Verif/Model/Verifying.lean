import Verif.Model.MatchAnalysis
/-!
# Predicates of `Matching` that do something while a verification runs (MatchAnalysis.hpp, SequenceVerificationExpectation.hpp, RecordedMethodBody.hpp)

In the core model predicates are functions, in `Model/Predicates.lean` they are programs that run while a stubbing is chosen. Here they run while recorded calls are collected and compared. One mock; all its methods
have a stubbing that accepts everything, so that calls made by predicates are answered and recorded. Simplified: the shortcut for the expression that served a call (C40) is left out; predicates make no verifications.
-/
namespace FakeIt.Verifying

variable {V : Type}

/-- The code of a predicate, `std::function<bool(arglist &...)>` (include/fakeit/invocation_matchers.hpp 119-143): answer, throw, look at the recorded argument, assign to it (it is passed by reference), call a
method of the mock, `mock.ClearInvocationHistory()`. -/
inductive Code (V : Type) where
  | answer (b : Bool)
  | throw (e : Nat)
  | look (k : V → Code V)
  | assign (v : V) (k : Code V)
  | call (m : Nat) (arg : V) (k : Code V)
  | clear (k : Code V)

/-- A recorded call, `ActualInvocation` (include/fakeit/ActualInvocation.hpp 27-68); `live`: not destroyed yet. -/
structure Rec (V : Type) where
  meth : Nat
  arg : V
  verified : Bool
  live : Bool
  deriving DecidableEq

/-- The vector `_actualInvocations` of a method (include/fakeit/RecordedMethodBody.hpp 63): the records, oldest first; `ver` counts the modifications, each of which makes the end iterator of a loop that is running
invalid ([vector.modifiers]). -/
structure Vec where
  items : List Nat
  ver : Nat
  deriving DecidableEq

/-- A predicate was asked about a record (for the statements only) (include/fakeit/invocation_matchers.hpp 138-140). -/
structure Ask where
  pred : Nat
  record : Nat
  deriving DecidableEq

/-- Records by address (addresses are not used again; calls are made one after the other, so that they are also ordered by ordinal, include/fakeit/Invocation.hpp 23-26), the vectors of the methods, the questions so far. -/
structure St (V : Type) where
  heap : List (Rec V)
  bodies : List Vec
  asks : List Ask
  deriving DecidableEq

/-- What code gives unless its behaviour is undefined: a value or an exception (C++; code of include/fakeit/SequenceVerificationExpectation.hpp 67-141 and include/fakeit/MethodMockingContext.hpp 113-133). -/
inductive Res (α : Type) where
  | val (a : α)
  | threw (e : Nat)
  deriving DecidableEq

/-- Code that works on the state (no counterpart in /repo) (C++; code of include/fakeit/SequenceVerificationExpectation.hpp 67-141 and include/fakeit/MethodMockingContext.hpp 113-133). -/
def M (V α : Type) := St V → R (St V × Res α)

/-- One thing after the other; an exception ends the rest (C++) (C++; code of include/fakeit/SequenceVerificationExpectation.hpp 67-141 and include/fakeit/MethodMockingContext.hpp 113-133). -/
def M.bind {α β : Type} (x : M V α) (f : α → M V β) : M V β := fun s =>
  match x s with
  | .done (s, .val a) => f a s
  | .done (s, .threw e) => .done (s, .threw e)
  | .ub => .ub
  | .oof => .oof

/-- Sequencing (C++; as `M`: include/fakeit/SequenceVerificationExpectation.hpp 67-141). -/
instance : Monad (M V) where
  pure a := fun s => .done (s, .val a)
  bind := M.bind

/-- Undefined behaviour (C++; code of include/fakeit/SequenceVerificationExpectation.hpp 67-141 and include/fakeit/MethodMockingContext.hpp 113-133). -/
def M.ub {α : Type} : M V α := fun _ => .ub

/-- The record at an address; using a destroyed one is undefined (include/fakeit/RecordedMethodBody.hpp 63, 152-157). -/
def St.fetch (s : St V) (a : Nat) : R (Rec V) :=
  match s.heap[a]? with
  | some r => if r.live then .done r else .ub
  | none => .ub

/-- As code (include/fakeit/RecordedMethodBody.hpp 63, 152-157). -/
def record (a : Nat) : M V (Rec V) := fun s =>
  match s.fetch a with
  | .done r => .done (s, .val r)
  | .ub => .ub
  | .oof => .oof

/-- A call from outside or from a predicate: it is answered and recorded (include/fakeit/RecordedMethodBody.hpp 126-139). Methods that do not exist cannot be called; the model gives `ub`. -/
def St.call (s : St V) (m : Nat) (arg : V) : R (St V) :=
  match s.bodies[m]? with
  | none => .ub
  | some b => .done { s with heap := s.heap ++ [⟨m, arg, false, true⟩], bodies := s.bodies.set m ⟨b.items ++ [s.heap.length], b.ver + 1⟩ }

/-- `ClearInvocationHistory`: the vectors give up their records, which are destroyed unless a loop holds a copy of the `shared_ptr` (include/fakeit/RecordedMethodBody.hpp 122-124, include/fakeit/MockImpl.hpp
68-76). -/
def St.clear (s : St V) (held : Option Nat) : St V :=
  { s with
    heap := s.heap.mapIdx fun a r => if (s.bodies.any fun b => b.items.contains a) && held != some a then { r with live := false } else r
    bodies := s.bodies.map fun b => ⟨[], b.ver + 1⟩ }

/-- Running a predicate on the record at address `a` (include/fakeit/invocation_matchers.hpp 127-140, include/mockutils/TupleDispatcher.hpp 37-41). `held`: the record that the caller holds. -/
def exec (held : Option Nat) (a : Nat) : Code V → M V Bool
  | .answer b => fun s => .done (s, .val b)
  | .throw e => fun s => .done (s, .threw e)
  | .look k => fun s =>
    match s.fetch a with
    | .done r => exec held a (k r.arg) s
    | .ub => .ub
    | .oof => .oof
  | .assign v k => fun s =>
    match s.fetch a with
    | .done r => exec held a k { s with heap := s.heap.set a { r with arg := v } }
    | .ub => .ub
    | .oof => .oof
  | .call m v k => fun s =>
    match s.call m v with
    | .done s => exec held a k s
    | .ub => .ub
    | .oof => .oof
  | .clear k => fun s => exec held a k (s.clear held)

/-- A method expression with a predicate, `Method(mock, f).Matching(pred)`; `P` has the code of the predicates (include/fakeit/MethodMockingContext.hpp 306-309). -/
structure Leaf where
  meth : Nat
  pred : Nat
  deriving DecidableEq

/-- The question is noted (include/fakeit/invocation_matchers.hpp 138-140). -/
def note (q : Ask) : M V Unit := fun s => .done ({ s with asks := s.asks ++ [q] }, .val ())

/-- `MethodMockingContext::matches(Invocation&)`: other methods' calls do not match, the predicate is asked about the others (include/fakeit/MethodMockingContext.hpp 125-133). -/
def ask (P : Nat → Code V) (l : Leaf) (a : Nat) : M V Bool := do
  let r ← record a
  if r.meth = l.meth then do
    note ⟨l.pred, a⟩
    exec none a (P l.pred)
  else pure false

/-! ## Collecting -/

/-- Where a verification looks: a mock, a method expression, the unverified calls of another source, several sources (include/fakeit/ActualInvocationsSource.hpp 16-83, include/fakeit/MethodMockingContext.hpp 113-120). -/
inductive Src where
  | mock
  | method (l : Leaf)
  | unverified (s : Src)
  | both (s t : Src)

/-- `unordered_set::insert` of an address (the order of the set does not matter, the result is sorted) (include/fakeit/MethodMockingContext.hpp 116). -/
def insertAddr (set : List Nat) (a : Nat) : List Nat := if set.contains a then set else set ++ [a]

/-- The loop goes on only if the vector has not been modified since it began: its end iterator would be invalid (include/fakeit/RecordedMethodBody.hpp 153). -/
def unmodified (m ver : Nat) : M V Unit := fun s =>
  match s.bodies[m]? with
  | some b => if b.ver = ver then .done (s, .val ()) else .ub
  | none => .ub

/-- `scanActualInvocations` with the scanner of `getActualInvocations` (include/fakeit/RecordedMethodBody.hpp 152-157, include/fakeit/MethodMockingContext.hpp 113-120). The loop variable is a copy of the `shared_ptr`. -/
def scan (P : Nat → Code V) (l : Leaf) (ver : Nat) : List Nat → List Nat → M V (List Nat)
  | [], into => pure into
  | a :: rest, into => do
    note ⟨l.pred, a⟩
    let b ← exec (some a) a (P l.pred)
    unmodified l.meth ver
    scan P l ver rest (if b then insertAddr into a else into)

/-- The vector of a method (include/fakeit/RecordedMethodBody.hpp 63). -/
def vec (m : Nat) : M V Vec := fun s =>
  match s.bodies[m]? with
  | some b => .done (s, .val b)
  | none => .ub

/-- Those that are not verified (include/fakeit/ActualInvocationsSource.hpp 44-48, include/fakeit/SortInvocations.hpp 40-47). -/
def selectUnverified : List Nat → M V (List Nat)
  | [] => pure []
  | a :: rest => do
    let r ← record a
    let rest ← selectUnverified rest
    pure (if r.verified then rest else a :: rest)

/-- `getActualInvocations(into)` of a source (include/fakeit/MockImpl.hpp 47-53, include/fakeit/RecordedMethodBody.hpp 159-164, include/fakeit/ActualInvocationsSource.hpp 41-49, 60-66; aggregation of any
number of sources is nested `both`). -/
def collect (P : Nat → Code V) : Src → List Nat → M V (List Nat)
  | .mock, into => fun s => .done (s, .val ((s.bodies.flatMap Vec.items).foldl insertAddr into))
  | .method l, into => do
    let b ← vec l.meth
    scan P l b.ver b.items into
  | .unverified src, into => do
    let all ← collect P src []
    let sel ← selectUnverified all
    pure (sel.foldl insertAddr into)
  | .both s t, into => do
    let into ← collect P s into
    collect P t into

/-- Insertion by address, which is by ordinal (include/fakeit/SortInvocations.hpp 20-31). -/
def insertSorted (a : Nat) : List Nat → List Nat
  | [] => [a]
  | b :: bs => if a < b then a :: b :: bs else if b < a then b :: insertSorted a bs else b :: bs

/-- `sortByInvocationOrder` (include/fakeit/SortInvocations.hpp 20-31). -/
def sortAddrs (set : List Nat) : List Nat := set.foldl (fun acc a => insertSorted a acc) []

/-! ## Matching (the same loops as in `Model/MatchAnalysis.lean`, with predicates that do something) -/

/-- `isMatch` from position `j` on (include/fakeit/MatchAnalysis.hpp 72-81). -/
def isMatchFrom (P : Nat → Code V) (actual : List Nat) (start : Nat) : Nat → List Leaf → M V Bool
  | _, [] => pure true
  | j, e :: es =>
    match actual[start + j]? with
    | none => M.ub
    | some a => do
      let b ← ask P e a
      if b then isMatchFrom P actual start (j + 1) es else pure false

/-- `n` iterations of the loop of `findNextMatch(Sequence*&, ...)` (include/fakeit/MatchAnalysis.hpp 86-90). -/
def search (P : Nat → Code V) (actual : List Nat) (expected : List Leaf) : Nat → Nat → M V (Option Nat)
  | 0, _ => pure none
  | n + 1, i => do
    let found ← isMatchFrom P actual i 0 expected
    if found then pure (some i) else search P actual expected n (i + 1)

/-- `findNextMatch(Sequence*&, ...)` (include/fakeit/MatchAnalysis.hpp 83-92). -/
def findNext1 (P : Nat → Code V) (actual : List Nat) (expected : List Leaf) (start : Nat) : M V (Option Nat) :=
  search P actual expected ((actual.length : Int) - (expected.length : Int) + 1 - (start : Int)).toNat start

/-- What `collectMatchedInvocations` adds (include/fakeit/MatchAnalysis.hpp 62-69): pointers, no record is used. -/
def collectMatched (actual : List Nat) (start len : Nat) : M V (List Nat) := fun s =>
  match MatchAnalysis.collect actual start len with
  | .done l => .done (s, .val l)
  | .ub => .ub
  | .oof => .oof

/-- `findNextMatch(pattern, ...)` (include/fakeit/MatchAnalysis.hpp 46-59). -/
def findNextP (P : Nat → Code V) (actual : List Nat) : List (Seq Leaf) → Nat → List Nat → M V (Option Nat × List Nat)
  | [], start, matched => pure (some start, matched)
  | s :: ps, start, matched => do
    let found ← findNext1 P actual s.expected start
    match found with
    | none => pure (none, matched)
    | some i => do
      let c ← collectMatched actual i s.size
      findNextP P actual ps (i + s.size) (matched ++ c)

/-- The loop of `countMatches` (include/fakeit/MatchAnalysis.hpp 29-39). -/
def countLoop (P : Nat → Code V) (actual : List Nat) (pattern : List (Seq Leaf)) : Nat → Nat → Nat → List Nat → M V (Nat × List Nat)
  | 0, _, _, _ => fun _ => .oof
  | fuel + 1, start, count, matched => do
    let r ← findNextP P actual pattern start matched
    match r with
    | (none, matched') => pure (count, matched')
    | (some end_, matched') => countLoop P actual pattern fuel end_ (count + 1) matched'

/-! ## Statements -/

/-- What a statement gives: it passes, it fails with a message about calls (their arguments; for `VerifyNoOtherInvocations` also the unverified ones) (include/fakeit/SequenceVerificationExpectation.hpp 67-86, include/fakeit/VerifyNoOtherInvocationsVerificationProgress.hpp 59-81). -/
inductive Out (V : Type) where
  | passed
  | failed (shown : List V)
  | notVerified (all unverified : List V)
  deriving DecidableEq

/-- `markAsVerified` (include/fakeit/SequenceVerificationExpectation.hpp 100-104): writes to the records. -/
def mark : List Nat → M V Unit
  | [] => pure ()
  | a :: rest => do
    let r ← record a
    (fun s => .done ({ s with heap := s.heap.set a { r with verified := true } }, .val ()))
    mark rest

/-- The message shows the calls (include/fakeit/DefaultEventFormatter.hpp 63-108, include/fakeit/ActualInvocation.hpp 57-62): reads the records. -/
def format : List Nat → M V (List V)
  | [] => pure []
  | a :: rest => do
    let r ← record a
    let vs ← format rest
    pure (r.arg :: vs)

/-- Is the count accepted? `none`: `Any()`; a negative number means at least (include/fakeit/SequenceVerificationExpectation.hpp 75-83, 106-125). -/
def accepts (want : Option Int) (n : Nat) : Bool :=
  match want with
  | none => true
  | some k => if k < 0 then !decide ((n : Int) < -k) else !decide ((n : Int) ≠ k)

/-- `Using(src).Verify(pattern…).….` (include/fakeit/SequenceVerificationExpectation.hpp 67-86, include/fakeit/MatchAnalysis.hpp 17-44). -/
def verify (P : Nat → Code V) (src : Src) (pattern : List (Seq Leaf)) (want : Option Int) : M V (Out V) := do
  let set ← collect P src []
  let actual := sortAddrs set
  let r ← countLoop P actual pattern (actual.length + 1) 0 0 []
  if accepts want r.1 then do
    mark r.2
    pure .passed
  else do
    let shown ← format actual
    pure (.failed shown)

/-- `VerifyNoOtherInvocations(src)` (include/fakeit/VerifyNoOtherInvocationsVerificationProgress.hpp 59-81). -/
def verifyNoOther (P : Nat → Code V) (src : Src) : M V (Out V) := do
  let set ← collect P src []
  let unv ← selectUnverified set
  if unv.isEmpty then pure .passed
  else do
    let all ← format (sortAddrs set)
    let shown ← format (sortAddrs unv)
    pure (.notVerified all shown)

end FakeIt.Verifying
