import Verif.Model.Functors
/-!
# Function objects given to the library: specification

A function object is a value.  A statement takes its value as it is then; from there on the stubbing has its own, which changes whenever it is used and by nothing else.
-/
namespace FakeIt.Functors.Spec

variable {S V E A : Type}

/-- A stubbing: the predicate and the functions to be performed, each as it is now; `some n`: it may be used `n` more times after the next one, `none`: for ever. -/
structure Script (S : Type) where
  pred : Option (Fn S)
  acts : List (Fn S × Option Nat)

/-- The test's function objects; the stubbings, newest first; the arguments of the recorded calls. -/
structure ASt (S A : Type) where
  vars : List (Option (Fn S)) := []
  scripts : List (Script S) := []
  hist : List A := []
  alive : Bool := true

/-- How often a function may be used after the first time. (A number of times that is not positive means for ever, see C03.) -/
def more : How → Option Nat
  | .once => some 0
  | .always => none
  | .times n => if 0 < n then some (n.toNat - 1) else none

/-- The value of a variable. -/
def value (s : ASt S A) (x : Nat) : Option (Fn S) := (s.vars[x]?).join

/-- The values given in a statement. -/
def values (s : ASt S A) : List (How × Nat) → Option (List (Fn S × Option Nat))
  | [] => some []
  | (h, x) :: rest => do
    let f ← value s x
    let fs ← values s rest
    some ((f, more h) :: fs)

/-- The predicate given in a statement, if there is one. -/
def predValue (s : ASt S A) : Option Nat → Option (Option (Fn S))
  | none => some none
  | some x => (value s x).map some

section
variable (beh : Nat → S → A → S × Out V E) (truth : V → Bool)

/-- The function object after it was used. -/
def after (f : Fn S) (a : A) : Fn S := { f with st := (beh f.code f.st a).1 }

/-- How the use ends. -/
def result (f : Fn S) (a : A) : Out V E := (beh f.code f.st a).2

/-- A stubbing serves a call: its first function is used. -/
def served (t : Script S) (a : A) : Ans V E × Script S :=
  match t.acts with
  | [] => (.unexpected, t)
  | (f, none) :: rest => (.out (result beh f a), { t with acts := (after beh f a, none) :: rest })
  | (f, some 0) :: rest => (.out (result beh f a), { t with acts := rest })
  | (f, some (n + 1)) :: rest => (.out (result beh f a), { t with acts := (after beh f a, some n) :: rest })

/-- A call: the newest stubbing whose predicate says yes serves it; predicates are asked in turn and not after that. The flag: is the call recorded? -/
def answer (a : A) : List (Script S) → Ans V E × List (Script S) × Bool
  | [] => (.unexpected, [], false)
  | t :: ts =>
    match t.pred with
    | none => ((served beh t a).1, (served beh t a).2 :: ts, true)
    | some p =>
      let t' := { t with pred := some (after beh p a) }
      match result beh p a with
      | .exc e => (.out (.exc e), t' :: ts, false)
      | .ret v =>
        if truth v then ((served beh t' a).1, (served beh t' a).2 :: ts, true)
        else ((answer a ts).1, t' :: (answer a ts).2.1, (answer a ts).2.2)

/-- How many of the calls a predicate accepts, asked about one after the other. -/
def accepted (p : Fn S) : List A → Nat → Ans V E
  | [], n => .count n
  | a :: as, n =>
    match result beh p a with
    | .exc e => .out (.exc e)
    | .ret v => accepted (after beh p a) as (if truth v then n + 1 else n)

/-- One operation; `none`: it is not allowed (a function object or mock is used whose life is over). -/
def aStep (s : ASt S A) : Op S A → Option (Ans V E × ASt S A)
  | .make f => some (.nothing, { s with vars := s.vars ++ [some f] })
  | .run x a => (value s x).map fun f => (.out (result beh f a), { s with vars := s.vars.set x (some (after beh f a)) })
  | .drop x => (value s x).map fun _ => (.nothing, { s with vars := s.vars.set x none })
  | .stub p as u =>
    if s.alive then do
      let p ← predValue s p
      let fs ← values s as
      some (.nothing, if u then s else { s with scripts := ⟨p, fs⟩ :: s.scripts })
    else none
  | .assign x => if s.alive then (value s x).map fun f => (.nothing, { s with scripts := ⟨none, [(f, none)]⟩ :: s.scripts }) else none
  | .call a =>
    if s.alive then
      let r := answer beh truth a s.scripts
      some (r.1, { s with scripts := r.2.1, hist := if r.2.2 then s.hist ++ [a] else s.hist })
    else none
  | .count x => if s.alive then (value s x).map fun p => (accepted beh truth p s.hist 0, s) else none
  | .reset => if s.alive then some (.nothing, { s with scripts := [], hist := [] }) else none
  | .clear => if s.alive then some (.nothing, { s with hist := [] }) else none
  | .finish => if s.alive then some (.nothing, { s with scripts := [], hist := [], alive := false }) else none

/-- A program. -/
def aRun : ASt S A → List (Op S A) → Option (List (Ans V E) × ASt S A)
  | s, [] => some ([], s)
  | s, o :: os => do
    let (r, s) ← aStep beh truth s o
    let (rs, s) ← aRun s os
    some (r :: rs, s)

/-- Using a function object several times. -/
def uses (f : Fn S) : List A → List (Out V E)
  | [] => []
  | a :: as => result beh f a :: uses (after beh f a) as

end

/-- How many function objects there have to be: the test's, and those that were given to stubbings since the last `Reset`. -/
structure Tally where
  vars : List Bool := []
  given : Nat := 0

/-- How an operation changes the numbers. -/
def Tally.step (t : Tally) : Op S A → Tally
  | .make _ => { t with vars := t.vars ++ [true] }
  | .drop x => { t with vars := t.vars.set x false }
  | .stub p as u => { t with given := if u then t.given else t.given + (p.toList.length + as.length) }
  | .assign _ => { t with given := t.given + 1 }
  | .reset => { t with given := 0 }
  | .finish => { t with given := 0 }
  | _ => t

/-- All together. -/
def Tally.total (t : Tally) : Nat := t.vars.count true + t.given

/-- The function objects that exist. -/
def existing (s : St S A) : List Nat := (List.range s.next).filter fun id => (s.objs id).isSome

/-- Operations of the test on its own function objects. -/
def own : Op S A → Bool
  | .make _ => true
  | .run _ _ => true
  | .drop _ => true
  | _ => false

end FakeIt.Functors.Spec
