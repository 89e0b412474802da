import Verif.Model.Verifying
import Verif.Spec.Occurrence
import Verif.Spec.Writable
/-!
# What verifications with predicates that do something should do (C79)
-/
namespace FakeIt.Verifying

variable {V : Type}

namespace Spec

/-- What a predicate says about an argument, leaving aside what else it does. -/
def meaning : Code V → V → Res Bool
  | .answer b, _ => .val b
  | .throw e, _ => .threw e
  | .look k, v => meaning (k v) v
  | .assign _ k, v => meaning k v
  | .call _ _ k, v => meaning k v
  | .clear k, v => meaning k v

/-- The calls that a predicate makes when asked about an argument: methods and arguments, in their order. -/
def made : Code V → V → List (Nat × V)
  | .answer _, _ => []
  | .throw _, _ => []
  | .look k, v => made (k v) v
  | .assign _ k, v => made k v
  | .call m u k, v => (m, u) :: made k v
  | .clear k, v => made k v

/-- Predicates that neither assign nor clear; they may call any of the `n` methods. -/
inductive Quiet (n : Nat) : Code V → Prop where
  | answer (b : Bool) : Quiet n (.answer b)
  | throw (e : Nat) : Quiet n (.throw e)
  | look (k : V → Code V) : (∀ v, Quiet n (k v)) → Quiet n (.look k)
  | call (m : Nat) (v : V) (k : Code V) : m < n → Quiet n k → Quiet n (.call m v k)

/-- Predicates that only look at the argument. -/
inductive Still : Code V → Prop where
  | answer (b : Bool) : Still (.answer b)
  | throw (e : Nat) : Still (.throw e)
  | look (k : V → Code V) : (∀ v, Still (k v)) → Still (.look k)

/-- The method expressions of a source. -/
def srcLeaves : Src → List Leaf
  | .mock => []
  | .method l => [l]
  | .unverified s => srcLeaves s
  | .both s t => srcLeaves s ++ srcLeaves t

/-- The method expressions of a pattern. -/
def leaves (pat : List (Seq Leaf)) : List Leaf := pat.flatMap Seq.expected

/-- The state of a program that made calls: what the vectors hold are live records of their method. -/
structure Wf (s : St V) : Prop where
  items : ∀ (m : Nat) (b : Vec), s.bodies[m]? = some b → ∀ a ∈ b.items, ∃ r, s.heap[a]? = some r ∧ r.live = true ∧ r.meth = m

/-- The call at `a` is recorded. -/
def Recorded (s : St V) (a : Nat) : Prop := ∃ (m : Nat) (b : Vec), s.bodies[m]? = some b ∧ a ∈ b.items

/-- The expression stands for the recorded call. -/
def Denotes (P : Nat → Code V) (s : St V) (l : Leaf) (a : Nat) : Prop :=
  ∃ r, s.heap[a]? = some r ∧ r.meth = l.meth ∧ meaning (P l.pred) r.arg = .val true

/-- The calls of a source. -/
def InSrc (P : Nat → Code V) (s : St V) : Src → Nat → Prop
  | .mock, a => Recorded s a
  | .method l, a => Recorded s a ∧ Denotes P s l a
  | .unverified src, a => InSrc P s src a ∧ ∃ r, s.heap[a]? = some r ∧ r.verified = false
  | .both src src', a => InSrc P s src a ∨ InSrc P s src' a

/-- The calls of a source in the order in which they were made. -/
structure History (P : Nat → Code V) (s : St V) (src : Src) (actual : List Nat) : Prop where
  order : actual.Pairwise (· < ·)
  mem : ∀ a, a ∈ actual ↔ InSrc P s src a

/-- One of the predicates of `ls` throws `e` when asked about a recorded call of its method. -/
def Throws (P : Nat → Code V) (s : St V) (ls : List Leaf) (e : Nat) : Prop :=
  ∃ l ∈ ls, ∃ a r, Recorded s a ∧ s.heap[a]? = some r ∧ r.meth = l.meth ∧ meaning (P l.pred) r.arg = .threw e

/-- The history afterwards: the calls recorded before are still there, with the same arguments, in addition those of `p` are marked as verified; calls made meanwhile are recorded behind them and are not verified. -/
structure After (s s' : St V) (p : Nat → Prop) : Prop where
  old : ∀ a r, s.heap[a]? = some r → ∃ b, s'.heap[a]? = some { r with verified := b } ∧ (b = true ↔ r.verified = true ∨ p a)
  new : ∀ a r, s.heap.length ≤ a → s'.heap[a]? = some r → r.verified = false ∧ r.live = true ∧ ∃ b, s'.bodies[r.meth]? = some b ∧ a ∈ b.items
  bodies : ∀ (m : Nat) (b : Vec), s.bodies[m]? = some b → ∃ b' more, s'.bodies[m]? = some b' ∧ b'.items = b.items ++ more ∧ ∀ a ∈ more, s.heap.length ≤ a
  methods : s'.bodies.length = s.bodies.length

/-- The calls that a predicate makes when asked the question in `s`. -/
def madeFor (P : Nat → Code V) (s : St V) (q : Ask) : List (Nat × V) :=
  match s.heap[q.record]? with
  | some r => made (P q.pred) r.arg
  | none => []

/-- Method and argument of each call of the heap. -/
def calls (s : St V) : List (Nat × V) := s.heap.map fun r => (r.meth, r.arg)

/-- Only questions about calls recorded before, of the method of the expression; and the calls made meanwhile are exactly those of the predicates asked, in this order. -/
def Asks (P : Nat → Code V) (s s' : St V) (ls : List Leaf) : Prop :=
  ∃ qs, s'.asks = s.asks ++ qs ∧ (∀ q ∈ qs, ∃ l ∈ ls, l.pred = q.pred ∧ ∃ r, Recorded s q.record ∧ s.heap[q.record]? = some r ∧ r.meth = l.meth) ∧
    calls s' = calls s ++ qs.flatMap (madeFor P s)

/-- Is the number of matches the wanted one? -/
def Accepts : Option Int → Nat → Prop
  | none, _ => True
  | some k, n => if 0 ≤ k then (n : Int) = k else -k ≤ n

/-- What a message shows of calls. -/
def shown (s : St V) (as : List Nat) : List V := as.filterMap fun a => (s.heap[a]?).map (·.arg)

end Spec
end FakeIt.Verifying
