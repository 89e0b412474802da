import Verif.Model.Sequence
/-!
# MatchAnalysis (include/fakeit/MatchAnalysis.hpp) and sorting (include/fakeit/SortInvocations.hpp)

Generic in the type `L` of expected invocations, the type `I` of actual ones and the test `mt l i`
(`expected->matches(*actual)`). Index variables are C++ `int`s; they are naturals here and every vector access out of range is `ub`.
-/
namespace FakeIt
namespace MatchAnalysis

variable {L I : Type} (mt : L → I → Bool)

/-- `isMatch` from position `j` on (include/fakeit/MatchAnalysis.hpp 72-81). The loop stops at the first mismatch. -/
def isMatchFrom (actual : List I) (start : Nat) : Nat → List L → R Bool
  | _, [] => .done true
  | j, e :: es =>
    match actual[start + j]? with
    | none => .ub
    | some a => if mt e a then isMatchFrom actual start (j + 1) es else .done false

/-- `isMatch` (include/fakeit/MatchAnalysis.hpp 72-81). -/
def isMatch (actual : List I) (expected : List L) (start : Nat) : R Bool :=
  isMatchFrom mt actual start 0 expected

/-- `n` iterations of the loop of `findNextMatch(Sequence*&, ...)` starting at index `i`
(include/fakeit/MatchAnalysis.hpp 86-90). -/
def scan (actual : List I) (expected : List L) : Nat → Nat → R (Option Nat)
  | 0, _ => .done none
  | n + 1, i => do
    let found ← isMatch mt actual expected i
    if found then .done (some i) else scan actual expected n (i + 1)

/-- `findNextMatch(Sequence*&, actualSequence, startSearchIndex)` (include/fakeit/MatchAnalysis.hpp 83-92); `none` is `-1`.
The loop runs `i` from `startSearchIndex` while `i < size - expectedSize + 1` (signed arithmetic). -/
def findNext1 (actual : List I) (expected : List L) (start : Nat) : R (Option Nat) :=
  scan mt actual expected ((actual.length : Int) - (expected.length : Int) + 1 - (start : Int)).toNat start

/-- `collectMatchedInvocations` (include/fakeit/MatchAnalysis.hpp 62-69): what is pushed to `matchedInvocations`. -/
def collect (actual : List I) : Nat → Nat → R (List I)
  | _, 0 => .done []
  | start, len + 1 =>
    match actual[start]? with
    | none => .ub
    | some a => do
      let rest ← collect actual (start + 1) len
      .done (a :: rest)

/-- `findNextMatch(pattern, ...)` (include/fakeit/MatchAnalysis.hpp 46-59). Returns `end` if the whole pattern was found and the
grown `matchedInvocations`; note that sub-sequences found before a failing one have already been collected. -/
def findNextP (actual : List I) : List (Seq L) → Nat → List I → R (Option Nat × List I)
  | [], start, matched => .done (some start, matched)
  | s :: ps, start, matched => do
    match ← findNext1 mt actual s.expected start with
    | none => .done (none, matched)
    | some i => do
      let c ← collect actual i s.size
      findNextP actual ps (i + s.size) (matched ++ c)

/-- The `while` loop of `countMatches` (include/fakeit/MatchAnalysis.hpp 29-39), at most `fuel` iterations. -/
def countLoop (actual : List I) (pattern : List (Seq L)) : Nat → Nat → Nat → List I → R (Nat × List I)
  | 0, _, _, _ => .oof
  | fuel + 1, start, count, matched => do
    match ← findNextP mt actual pattern start matched with
    | (none, matched') => .done (count, matched')
    | (some end_, matched') => countLoop actual pattern fuel end_ (count + 1) matched'

/-- `countMatches` (include/fakeit/MatchAnalysis.hpp 29-39): count and matched invocations. The fuel is enough whenever every
sequence is non-empty, as the API guarantees (theorem `C14_...`). -/
def countMatches (actual : List I) (pattern : List (Seq L)) : R (Nat × List I) :=
  countLoop mt actual pattern (actual.length + 1) 0 0 []

end MatchAnalysis

section Sorting
variable {V : Type}

/-- `std::set::insert` with the comparator `a->getOrdinal() < b->getOrdinal()` (include/fakeit/SortInvocations.hpp 20-31):
an element equivalent to one already present is not inserted. -/
def insertOrd (inv : Invocation V) : List (Invocation V) → List (Invocation V)
  | [] => [inv]
  | x :: xs =>
    if inv.ordinal < x.ordinal then inv :: x :: xs
    else if x.ordinal < inv.ordinal then x :: insertOrd inv xs
    else x :: xs

/-- `InvocationUtils::sortByInvocationOrder` (include/fakeit/SortInvocations.hpp 20-31): iterate the hash set (in the given order),
insert into the ordered set, read it out. -/
def sortByOrder (set : List (Invocation V)) : List (Invocation V) :=
  set.foldl (fun acc i => insertOrd i acc) []

/-- `std::unordered_set<Invocation*>::insert` (keys are addresses). The model keeps insertion order; that the real iteration order is
irrelevant is a theorem (C13) (used in include/fakeit/MethodMockingContext.hpp 116, include/fakeit/SortInvocations.hpp 33-38). -/
def insertU (set : List (Invocation V)) (inv : Invocation V) : List (Invocation V) :=
  if set.any (fun i => i.uid == inv.uid) then set else set ++ [inv]

/-- Insert several invocations (loops at include/fakeit/RecordedMethodBody.hpp 159-164, ActualInvocationsSource.hpp 44-48, 76-82). -/
def insertAllU (set : List (Invocation V)) (invs : List (Invocation V)) : List (Invocation V) :=
  invs.foldl insertU set

end Sorting
end FakeIt
