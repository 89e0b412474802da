import Verif.Model.Result
import Verif.Model.Types
/-!
# Lifetimes of the objects a test writes down

Method expressions, sequences and statements are C++ objects.  Sequences and statements do not own what they were made from: `a + b` and `n * a` keep
references (include/fakeit/Sequence.hpp 50-51, 90), `When(a)` keeps a reference (include/fakeit/WhenFunctor.hpp 46, 75), `Verify(a, ...)` keeps pointers
(include/fakeit/UsingProgress.hpp 18-23, 32-38).  This is a model of test code in which such objects are temporaries or variables of nested blocks.
Left out: exceptions (see `Unwind`), copies and later changes of the count of statement objects (see `Handle`, `SmartPtr`), objects on the heap or
returned from functions.
-/
namespace FakeIt.Kept

/-- An expression (include/fakeit/api_macros.hpp 31-32, include/fakeit/WhenFunctor.hpp 82-87, include/fakeit/Sequence.hpp 75-118, include/fakeit/SequenceVerificationProgress.hpp 73-117). -/
inductive Expr where
  | var (x : Nat)
  /-- `Method(mock, f)` for the method called `k` -/
  | method (k : Nat)
  /-- `e.Using(...)`, `e(...)`, `e.Matching(...)` -/
  | args (e : Expr)
  /-- `a + b` -/
  | plus (a b : Expr)
  /-- `(more + 1) * e` -/
  | times (more : Nat) (e : Expr)
  deriving DecidableEq

/-- A statement of the test (C++; test code that uses the expressions of include/fakeit/WhenFunctor.hpp 82-87 etc.). -/
inductive Stmt where
  /-- `auto x = e;` -/
  | val (x : Nat) (e : Expr)
  /-- `auto &&x = e;` -/
  | ref (x : Nat) (e : Expr)
  /-- `When(e).Return(a1).Return(a2)...;` -/
  | when_ (e : Expr) (acts : List Nat)
  /-- `Verify(e1, e2, ...).Exactly(q);` and the like -/
  | verify (es : List Expr) (q : Int)
  /-- `auto p = When(e);` -/
  | keepWhen (p : Nat) (e : Expr)
  /-- `auto p = Verify(e1, e2, ...).Exactly(q);` and the like -/
  | keepVerify (p : Nat) (es : List Expr) (q : Int)
  /-- `p.Return(a);` -/
  | act (p a : Nat)
  /-- the code under test calls method `k` -/
  | call (k : Nat)
  /-- `{ ... }` -/
  | block (body : List Stmt)

/-- What happens to the mocks. Method expressions are numbered in the order in which they are evaluated; the copies of an expression share its number
(`std::shared_ptr<Implementation> _impl`, include/fakeit/MethodMockingContext.hpp 173-183, 275). -/
inductive Ev where
  /-- expression `i` for method `k` has been made -/
  | made (i k : Nat)
  /-- its arguments matcher has been set -/
  | criteria (i : Nat)
  /-- an action has been appended to it -/
  | append (i a : Nat)
  /-- it has been committed: the stubbing is in force -/
  | commit (i : Nat)
  /-- a verification of these expressions has been carried out -/
  | check (pat : List (List Nat)) (q : Int)
  | call (k : Nat)
  deriving DecidableEq

/-- The C++ objects (include/fakeit/WhenFunctor.hpp 23-76, include/fakeit/SequenceVerificationProgress.hpp 25, include/fakeit/Sequence.hpp 48-96). -/
inductive Obj where
  /-- `MockingContext` (include/fakeit/MethodMockingContext.hpp 278-298) -/
  | ctx (i : Nat)
  /-- `ConcatenatedSequence` (include/fakeit/Sequence.hpp 48-56) -/
  | cat (a b : Addr)
  /-- `RepeatedSequence` (include/fakeit/Sequence.hpp 88-96) -/
  | rep (more : Nat) (a : Addr)
  /-- `WhenFunctor::MethodProgress` with its `StubbingChange` (include/fakeit/WhenFunctor.hpp 23-76) -/
  | stub (a : Addr)
  /-- `SequenceVerificationProgress` or its `Terminator` with their expectation (include/fakeit/SequenceVerificationProgress.hpp 25, 42-58, 73-117;
  include/fakeit/SequenceVerificationExpectation.hpp 42-64) -/
  | check (pat : List Addr) (q : Int)
  deriving DecidableEq

/-- A variable: its name, the object it stands for, and whether the object ends with the variable (`false`: a reference) (C++; what include/fakeit/WhenFunctor.hpp 46, 75 may be bound to). -/
structure Binding where
  name : Nat
  addr : Addr
  own : Bool

/-- The state of the test. Addresses are not used again, so a dangling reference stays recognisable. `env`: innermost and latest variable first (model state; the objects are those of include/fakeit/WhenFunctor.hpp 23-76 etc.). -/
structure State where
  heap : Addr → Option Obj
  next : Addr
  env : List Binding
  made : Nat
  log : List Ev

/-- At the beginning (model state; see include/fakeit/WhenFunctor.hpp 23-76). -/
def State.start : State := { heap := fun _ => none, next := 0, env := [], made := 0, log := [] }

/-- A new object (plumbing) (C++; objects of include/fakeit/WhenFunctor.hpp 23-76 etc.). -/
def State.alloc (s : State) (o : Obj) : Addr × State :=
  (s.next, { s with heap := fun b => if b = s.next then some o else s.heap b, next := s.next + 1 })

/-- Name lookup (plumbing; a program that does not compile has no behaviour) (C++; test code using include/fakeit/WhenFunctor.hpp 82-87 etc.). -/
def State.lookup (s : State) (x : Nat) : R Addr := R.ofOption ((s.env.find? (·.name == x)).map (·.addr))

/-- Using the method expression at `a` (include/fakeit/WhenFunctor.hpp 33, 69; include/fakeit/MethodMockingContext.hpp 222-224, 245-247): there must be one. -/
def State.ctxAt (s : State) (a : Addr) : R Nat :=
  match s.heap a with
  | some (.ctx i) => .done i
  | _ => .ub

/-- `getExpectedSequence` / `getInvolvedMocks` (include/fakeit/Sequence.hpp 75-83, 111-118; include/fakeit/MethodMockingContext.hpp 192-202): the method
expressions of a sequence; the references are followed. `fuel`: sequences refer to older objects only, so `a + 1` is always enough. -/
def walk (heap : Addr → Option Obj) : Nat → Addr → R (List Nat)
  | 0, _ => .ub
  | fuel + 1, a =>
    match heap a with
    | some (.ctx i) => .done [i]
    | some (.cat b c) => do
      let l ← walk heap fuel b
      let l' ← walk heap fuel c
      .done (l ++ l')
    | some (.rep more b) => do
      let l ← walk heap fuel b
      .done (List.replicate (more + 1) l).flatten
    | _ => .ub

/-- All sequences of a pattern (include/fakeit/SortInvocations.hpp 69-74; include/fakeit/MatchAnalysis.hpp 46-59). The library stops at the first sequence
without a match; here all are read. -/
def walkAll (heap : Addr → Option Obj) : List Addr → R (List (List Nat))
  | [] => .done []
  | a :: as => do
    let l ← walk heap (a + 1) a
    let ls ← walkAll heap as
    .done (l :: ls)

/-- Evaluation of an expression: the object it yields, and whether it is a new temporary (a prvalue). The macro `Method` ends in a call of
`setMethodDetails`, which returns a reference (include/fakeit/api_macros.hpp 31-32, include/fakeit/MethodMockingContext.hpp 295-298), as do `Using` and its
relatives (303-322); `+` and `*` return objects (include/fakeit/Sequence.hpp 129-143). The operands of `+` are evaluated from left to right (C++
leaves this open). -/
def eval : Expr → State → R (Addr × Bool × State)
  | .var x, s => do
    let a ← s.lookup x
    .done (a, false, s)
  | .method k, s =>
    let (a, s') := s.alloc (.ctx s.made)
    .done (a, false, { s' with made := s.made + 1, log := s.log ++ [.made s.made k] })
  | .args e, s => do
    let (a, _, s) ← eval e s
    let i ← s.ctxAt a
    .done (a, false, { s with log := s.log ++ [.criteria i] })
  | .plus e f, s => do
    let (a, _, s) ← eval e s
    let (b, _, s) ← eval f s
    let (c, s) := s.alloc (.cat a b)
    .done (c, true, s)
  | .times more e, s => do
    let (a, _, s) ← eval e s
    let (c, s) := s.alloc (.rep more a)
    .done (c, true, s)

/-- Evaluation of several arguments, from left to right (C++; arguments of include/fakeit/Sequence.hpp 111-118 etc.). -/
def evalAll : List Expr → State → R (List Addr × State)
  | [], s => .done ([], s)
  | e :: es, s => do
    let (a, _, s) ← eval e s
    let (as, s) ← evalAll es s
    .done (a :: as, s)

/-- The end of a full-expression: the temporaries, which are all objects made since `n`, end, but for the object that a variable keeps (C++) (ends objects such as include/fakeit/WhenFunctor.hpp 27-34). -/
def State.sweep (s : State) (n : Addr) (keep : Option Addr) : State :=
  { s with heap := fun b => if n ≤ b ∧ keep ≠ some b then none else s.heap b }

/-- A new variable (plumbing) (C++; test code using include/fakeit/WhenFunctor.hpp 82-87 etc.). -/
def State.declare (s : State) (x : Nat) (a : Addr) (own : Bool) : State := { s with env := ⟨x, a, own⟩ :: s.env }

/-- `DoImpl` (include/fakeit/WhenFunctor.hpp 68-71) for the expression at `a`. -/
def State.append (s : State) (a : Addr) (act : Nat) : R State := do
  let i ← s.ctxAt a
  .done { s with log := s.log ++ [.append i act] }

/-- Several actions (include/fakeit/StubbingProgress.hpp 78-83). -/
def State.appendAll (a : Addr) : List Nat → State → R State
  | [], s => .done s
  | x :: xs, s => do
    let s ← s.append a x
    State.appendAll a xs s

/-- The destructor of an object: a stubbing is committed (include/fakeit/WhenFunctor.hpp 27-34), a verification carried out
(include/fakeit/SequenceVerificationExpectation.hpp 15-20, 67-86); method expressions and sequences do nothing observable. -/
def State.finish (s : State) : Obj → R State
  | .stub a => do
    let i ← s.ctxAt a
    .done { s with log := s.log ++ [.commit i] }
  | .check pat q => do
    let ls ← walkAll s.heap pat
    .done { s with log := s.log ++ [.check ls q] }
  | _ => .done s

/-- A variable's life ends (C++) (ends objects such as include/fakeit/WhenFunctor.hpp 27-34). -/
def State.drop (s : State) (b : Binding) : R State :=
  if b.own then
    match s.heap b.addr with
    | none => .ub
    | some o => do
      let s ← s.finish o
      .done { s with heap := fun c => if c = b.addr then none else s.heap c }
  else .done s

/-- The end of a block: the variables declared since there were `depth` of them end, latest first (C++) (ends objects such as include/fakeit/WhenFunctor.hpp 27-34). -/
def State.leave (depth : Nat) : List Binding → State → R State
  | [], s => .done s
  | b :: rest, s =>
    if depth ≤ rest.length then do
      let s ← s.drop b
      State.leave depth rest { s with env := rest }
    else .done s

/-- One statement. A variable of type `auto` made from a reference is a copy (include/fakeit/MethodMockingContext.hpp 289; the sequences copy their
references), one made from a temporary is that object; a temporary bound by `auto &&` ends with the variable, but what a reference refers to
does not. -/
def step : Stmt → State → R State
  | .val x e, s => do
    let n := s.next
    let (a, fresh, s) ← eval e s
    if fresh then .done ((s.sweep n (some a)).declare x a true)
    else
      match s.heap a with
      | none => .ub
      | some o =>
        let (c, s) := s.alloc o
        .done ((s.sweep n (some c)).declare x c true)
  | .ref x e, s => do
    let n := s.next
    let (a, fresh, s) ← eval e s
    .done ((s.sweep n (if fresh then some a else none)).declare x a fresh)
  | .when_ e acts, s => do
    let n := s.next
    let (a, _, s) ← eval e s
    let s ← State.appendAll a acts s
    let s ← s.finish (.stub a)
    .done (s.sweep n none)
  | .verify es q, s => do
    let n := s.next
    let (as, s) ← evalAll es s
    let _ ← walkAll s.heap as
    let s ← s.finish (.check as q)
    .done (s.sweep n none)
  | .keepWhen p e, s => do
    let n := s.next
    let (a, _, s) ← eval e s
    let (c, s) := s.alloc (.stub a)
    .done ((s.sweep n (some c)).declare p c true)
  | .keepVerify p es q, s => do
    let n := s.next
    let (as, s) ← evalAll es s
    let _ ← walkAll s.heap as
    let (c, s) := s.alloc (.check as q)
    .done ((s.sweep n (some c)).declare p c true)
  | .act p x, s => do
    let c ← s.lookup p
    match s.heap c with
    | some (.stub a) => s.append a x
    | _ => .ub
  | .call k, s => .done { s with log := s.log ++ [.call k] }
  | .block body, s => do
    let depth := s.env.length
    let s ← run body s
    State.leave depth s.env s
where
  /-- Statements one after the other (C++ `;`). -/
  run : List Stmt → State → R State
  | [], s => .done s
  | c :: cs, s => do
    let s ← step c s
    run cs s

/-- A whole test: a function body (C++; test code using include/fakeit/WhenFunctor.hpp 82-87 etc.). -/
def test (body : List Stmt) : R State := step (.block body) State.start

end FakeIt.Kept
