import Verif.Model.Checking
import Verif.Spec.Occurrence
import Verif.Spec.Writable
import Verif.Spec.AbstractMock
/-!
# Exceptions anywhere in a verification: specification

A verification is a list of steps that may throw, one after the other.  What it decides depends on the recorded calls only.
-/
namespace FakeIt.Checking.Spec
open FakeIt.Building (Res)
open FakeIt.Spec (IsMaxCount Occurs PatAt)

variable {V X : Type}

/-- None of the steps `d`, the first of which is the `n`-th of all, throws. -/
def NoneThrows (th : Nat → Option X) (n : Nat) (d : List Op) : Prop := ∀ i < d.length, th (n + i) = none

/-- Of the steps `plan`, the first of which is the `n`-th of all, `o` after `before` is the first that throws, and throws `x`. -/
def FirstThrows (th : Nat → Option X) (n : Nat) (plan before : List Op) (o : Op) (x : X) : Prop :=
  (∃ rest, plan = before ++ o :: rest) ∧ NoneThrows th n before ∧ th (n + before.length) = some x

/-- Names of objects are not used twice. -/
def Wf (s : St V) : Prop := ∀ id ∈ s.live, id < s.next

/-- The method expression means the recorded call. -/
def Denotes (P : Nat → V → Bool) (recs : List (Rec V)) (l : Leaf) (a : Nat) : Prop :=
  ∃ r, recs[a]? = some r ∧ r.mock = l.mock ∧ r.meth = l.meth ∧ P l.pred r.arg = true

/-- The calls of a source. -/
def InSrc (P : Nat → V → Bool) (recs : List (Rec V)) : Src → Nat → Prop
  | .nothing, _ => False
  | .mock m, a => ∃ r, recs[a]? = some r ∧ r.mock = m
  | .method l, a => Denotes P recs l a
  | .unverified s, a => InSrc P recs s a ∧ ∃ r, recs[a]? = some r ∧ r.verified = false
  | .group s, a => InSrc P recs s a
  | .also s t, a => InSrc P recs s a ∨ InSrc P recs t a

/-- The method expressions of a pattern. -/
def leaves (pat : List (Seq Leaf)) : List Leaf := pat.flatMap Seq.expected

/-- The calls that a verification of a pattern looks at: those of the mocks mentioned, the unverified ones of them, those of the sources named. -/
def InScope (P : Nat → V → Bool) (recs : List (Rec V)) (pat : List (Seq Leaf)) : Scope → Nat → Prop
  | .involved, a => ∃ r, recs[a]? = some r ∧ ∃ l ∈ leaves pat, l.mock = r.mock
  | .unverified, a => ∃ r, recs[a]? = some r ∧ r.verified = false ∧ ∃ l ∈ leaves pat, l.mock = r.mock
  | .using src, a => InSrc P recs src a

/-- The calls in the order in which they were made. -/
structure InOrder (p : Nat → Prop) (actual : List Nat) : Prop where
  order : actual.Pairwise (· < ·)
  mem : ∀ a, a ∈ actual ↔ p a

/-- The number of matches that a quantifier asks for; a negative number is a lower limit, `none`: any number. (`AtLeast(0)` is `Exactly(0)`, see C20.) -/
def wanted : Quant → Option Int
  | .dflt => some (-1)
  | .any => none
  | .never => some 0
  | .once => some 1
  | .twice => some 2
  | .atLeastOnce => some (-1)
  | .exactly k => some k
  | .atLeast k => some (-k)

/-- Is the number of matches the wanted one? -/
def Accepts : Option Int → Nat → Prop
  | none, _ => True
  | some k, n => if 0 ≤ k then (n : Int) = k else -k ≤ n

/-- Quantifiers that are refused. -/
def Refused : Quant → Prop
  | .exactly k => k < 0
  | .atLeast k => k < 0
  | _ => False

/-- What a verification decides: it is refused, fails, or passes and marks the calls of `p`. -/
inductive Verdict where
  | refused
  | failed
  | passed (p : Nat → Prop)

/-- The matches that are taken, and their number: each sequence of the pattern at the first possible place, again and again. -/
def Takes (P : Nat → V → Bool) (recs : List (Rec V)) (actual : List Nat) (pat : List (Seq Leaf)) (n : Nat) (p : Nat → Prop) : Prop :=
  ∀ mt : Leaf → Nat → Bool, (∀ l a, mt l a = true ↔ Denotes P recs l a) →
    (FakeIt.Spec.findAll mt (pat.map Seq.expected) (actual.length + 1) actual).1 = n ∧ ∀ a, p a ↔ a ∈ (FakeIt.Spec.findAll mt (pat.map Seq.expected) (actual.length + 1) actual).2

/-- What is to be decided about the recorded calls. The calls of all matches are marked, and those of an incomplete last one (C22). -/
def Decides (P : Nat → V → Bool) (recs : List (Rec V)) : Check → Quant → Verdict → Prop
  | .pattern _ _, q, .refused => Refused q
  | .pattern scope pat, q, .failed => ¬ Refused q ∧ ∃ actual n, InOrder (InScope P recs pat scope) actual ∧ IsMaxCount (Denotes P recs) actual (pat.map Seq.expected) n ∧ ¬ Accepts (wanted q) n ∧ ∃ p, Takes P recs actual pat n p
  | .pattern scope pat, q, .passed p => ¬ Refused q ∧ ∃ actual n, InOrder (InScope P recs pat scope) actual ∧ IsMaxCount (Denotes P recs) actual (pat.map Seq.expected) n ∧ Accepts (wanted q) n ∧ Takes P recs actual pat n p ∧
      ∃ stop stop' idx idx' pre rest, Occurs (Denotes P recs) actual (pat.map Seq.expected) n 0 stop idx ∧ pat = pre ++ rest ∧ rest ≠ [] ∧
        PatAt (Denotes P recs) actual (pre.map Seq.expected) stop stop' idx' ∧ ∀ a, p a ↔ ∃ i ∈ idx ++ idx', actual[i]? = some a
  | .noOther _, _, .refused => False
  | .noOther src, _, .failed => ∃ a r, InSrc P recs src a ∧ recs[a]? = some r ∧ r.verified = false
  | .noOther src, _, .passed p => (∀ a r, InSrc P recs src a → recs[a]? = some r → r.verified = true) ∧ ∀ a, ¬ p a

/-- The recorded calls afterwards: those of `p` are marked as verified in addition. -/
def Marked (recs recs' : List (Rec V)) (p : Nat → Prop) : Prop :=
  recs'.length = recs.length ∧ ∀ a r, recs[a]? = some r → ∃ b, recs'[a]? = some { r with verified := b } ∧ (b = true ↔ r.verified = true ∨ p a)

/-- The steps that make a source for the expectation. -/
def sourceSteps : Scope → List (Seq Leaf) → List Op
  | .involved, pat => .memory .sequences :: (pat.flatMap (Seq.involved Leaf.mock)).map (fun m => .memory (.involved m)) ++ [.memory .aggregate, .memory .sourcesCopy, .memory .count]
  | .unverified, pat => .memory .sequences :: (pat.flatMap (Seq.involved Leaf.mock)).map (fun m => .memory (.involved m)) ++
      [.memory .aggregate, .memory .sourcesCopy, .memory .count, .memory .decorated, .memory .count2]
  | .using _, _ => [.memory .sources, .memory .aggregate, .memory .sourcesCopy, .memory .count]

/-- The steps before the verification itself. -/
def prepare : Check → List Op
  | .pattern scope pat => sourceSteps scope pat ++ [.memory .pattern, .memory .expectation, .memory .patternCopy, .memory .ref]
  | .noOther _ => [.memory .sources, .memory .passed, .memory .expectation, .memory .patternCopy, .memory .ref]

/-- The objects that are lost if the last of these steps fails. -/
def lostObjects : Check → Nat
  | .pattern .unverified _ => 3
  | .pattern _ _ => 2
  | .noOther _ => 1

/-- The method expressions of a source. -/
def srcLeaves : Src → List Leaf
  | .nothing => []
  | .mock _ => []
  | .method l => [l]
  | .unverified s => srcLeaves s
  | .group s => srcLeaves s
  | .also s t => srcLeaves s ++ srcLeaves t

/-- The method expressions of a verification. -/
def exprs : Check → List Leaf
  | .pattern (.using src) pat => srcLeaves src ++ leaves pat
  | .pattern _ pat => leaves pat
  | .noOther src => srcLeaves src

/-- The steps of a verification itself: memory for calls, and questions to the method expressions of the statement about recorded calls of their method. -/
def CheckStep (c : Check) (recs : List (Rec V)) : Op → Prop
  | .memory (.insert a) => a < recs.length
  | .memory (.order a) => a < recs.length
  | .memory (.place a) => a < recs.length
  | .memory (.matched a) => a < recs.length
  | .memory (.methods _) => True
  | .memory .expand => True
  | .ask p a => ∃ l ∈ exprs c, l.pred = p ∧ ∃ r, recs[a]? = some r ∧ r.mock = l.mock ∧ r.meth = l.meth
  | _ => False

/-- The steps of telling the test that a verification failed. -/
def reportSteps (listeners : Nat) : List Op := .memory .event :: (List.range listeners).map .told ++ [.print]

/-- The steps of a statement that decides `v`; `check`: those of the verification itself. -/
def plan (listeners : Nat) (c : Check) (check : List Op) : Verdict → List Op
  | .refused => prepare c
  | .failed => prepare c ++ check ++ reportSteps listeners
  | .passed _ => prepare c ++ check

/-- The steps of a conversion that decides `v`. -/
def questionPlan (c : Check) (check : List Op) : Verdict → List Op
  | .refused => prepare c
  | .failed => prepare c ++ check ++ [.memory .event]
  | .passed _ => prepare c ++ check

/-- The steps of the conversion of a kept handle. -/
def conversionPlan (check : List Op) : Verdict → List Op
  | .failed => check ++ [.memory .event]
  | _ => check

/-- Statements that can be written. -/
def Statable : Check → Prop
  | .pattern _ pat => FakeIt.Spec.WritablePattern pat
  | .noOther _ => True

/-- What the test sees of a statement none of whose steps threw. -/
def says : Verdict → Res (Exc X) Unit
  | .refused => .exc .invalid
  | .failed => .exc .failed
  | .passed _ => .ok ()

/-- What the test sees of a conversion none of whose steps threw. -/
def answers : Verdict → Res (Exc X) Bool
  | .refused => .exc .invalid
  | .failed => .ok false
  | .passed _ => .ok true

/-- The calls that a decision marks. -/
def marks : Verdict → Nat → Prop
  | .passed p => p
  | _ => fun _ => False

end FakeIt.Checking.Spec
