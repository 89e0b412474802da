import Verif.Model.Building
/-!
# What a stubbing statement does, and what is left of it when one of its steps throws
-/
namespace FakeIt.Spec.Building
open FakeIt.Building

/-- The steps for `n` arguments of `Using`, the first being number `i`. -/
def argSteps : Nat → Nat → List Op
  | 0, _ => []
  | n + 1, i => [.memory (.matcher i), .expected i, .memory (.push i)] ++ argSteps n (i + 1)

/-- The steps that say which calls are meant. -/
def critSteps : Crit → List Op
  | .all => []
  | .using n => argSteps n 0 ++ [.memory .whole]
  | .matching => [.predicate, .memory .whole]

/-- The steps of `When` itself. -/
def formSteps : Form → List Op
  | .when _ => [.memory .change, .memory .ref]
  | .assign => []

/-- The steps of an action. -/
def actionSteps (k : Nat) : List Op :=
  [.value k, .memory (.function k), .memory (.action k), .copy k, .memory (.owner k), .memory (.insert k)]

/-- The steps of `n` actions, the first being number `k`. -/
def actSteps : Nat → Nat → List Op
  | 0, _ => []
  | n + 1, k => actionSteps k ++ actSteps n (k + 1)

/-- The steps of naming a method. -/
def methodSteps : List Op :=
  [.memory .context, .memory .impl, .memory .sequence, .memory .default, .memory .count, .memory .details]

/-- How many actions a statement has. -/
def actions : Form → Nat
  | .when n => n
  | .assign => 1

/-- The steps before the end of the statement. -/
def buildSteps (c : Crit) (f : Form) : List Op :=
  methodSteps ++ (critSteps c ++ (formSteps f ++ actSteps (actions f) 0))

/-- The steps at the end of the statement. -/
def endSteps : List Op :=
  [.memory .handler, .memory .count1, .memory .count2, .memory .count3, .memory .place]

/-- All steps of a statement, in order. -/
def steps (c : Crit) (f : Form) : List Op := buildSteps c f ++ endSteps

/-- The number of arguments of `Using`. -/
def arity : Crit → Nat
  | .using n => n
  | _ => 0

/-- How many objects are lost when this step throws. -/
def lost (c : Crit) : Op → Nat
  | .memory .impl => 1
  | .memory .sequence => 1
  | .memory .default => 2
  | .memory (.matcher i) => i
  | .expected i => i
  | .memory (.push i) => i + 1
  | .memory .whole => arity c
  | .memory .ref => 1
  | _ => 0

/-- The steps in which code of the user runs. -/
def ofUser : Op → Prop
  | .memory _ => False
  | _ => True

/-- The steps at which lack of memory makes the library delete something twice. -/
def deletesTwice : Op → Prop
  | .memory .count1 => True
  | .memory .count2 => True
  | .memory .count3 => True
  | .memory .place => True
  | _ => False

/-- The statement begins when `base` steps were made before. The first of its steps that throws is `o`, after the steps `before`; it throws `x`. -/
def FirstToThrow {X : Type} (th : Nat → Option X) (base : Nat) (all before : List Op) (o : Op) (x : X) : Prop :=
  (∃ rest, all = before ++ o :: rest) ∧ th (base + before.length) = some x ∧ ∀ i < before.length, th (base + i) = none

/-- None of the steps throws. -/
def NoneThrows {X : Type} (th : Nat → Option X) (base : Nat) (all : List Op) : Prop :=
  ∀ i < all.length, th (base + i) = none

/-- What a stubbing consists of. -/
def owned (t : Stub) : List Nat := t.matcher :: t.seq :: t.handler :: (t.parts ++ t.acts)

/-- Objects have names below the next one. -/
def Wf (s : St) : Prop := ∀ id ∈ s.live, id < s.next

/-- The objects of `s` and `more`. -/
def Holds (s : St) (more : List Nat) (s' : St) : Prop :=
  s'.live.Perm (s.live ++ more) ∧ more.Nodup ∧ (∀ id ∈ more, s.next ≤ id ∧ id < s'.next) ∧ s.next ≤ s'.next

end FakeIt.Spec.Building
