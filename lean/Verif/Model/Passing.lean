import Verif.Model.Result
/-!
# How arguments travel from the caller to the action (include/mockutils/type_utils.hpp 36-45, include/mockutils/MethodProxyCreator.hpp 44-70,
include/fakeit/RecordedMethodBody.hpp 126-150, include/fakeit/ActualInvocation.hpp 36-44, include/mockutils/TupleDispatcher.hpp 14-41,
include/fakeit/Action.hpp 24-76, include/fakeit/MockImpl.hpp 183-213)

Objects with a life time, parameter types and value categories, copies and moves.
-/
namespace FakeIt.Passing

variable {V : Type}

/-- What may come of a statement: it is executed, its behaviour is undefined, or it does not compile (no counterpart in /repo) (C++; how arguments go through include/mockutils/MethodProxyCreator.hpp 44-70 and include/fakeit/RecordedMethodBody.hpp 126-150). -/
inductive Res (α : Type) where
  | ok (a : α)
  | ub
  | reject
  deriving DecidableEq

/-- Doing one thing after the other (no counterpart in /repo) (C++; how arguments go through include/mockutils/MethodProxyCreator.hpp 44-70 and include/fakeit/RecordedMethodBody.hpp 126-150). -/
def Res.bind {α β : Type} : Res α → (α → Res β) → Res β
  | .ok a, f => f a
  | .ub, _ => .ub
  | .reject, _ => .reject

/-- Sequencing (C++; as `Res`: include/mockutils/MethodProxyCreator.hpp 44-70). -/
instance : Monad Res where
  pure := .ok
  bind := Res.bind

/-- An object: its value (`none`: moved from) and whether its life still lasts (C++; moving is modelled for classes whose move constructor empties the source) (C++; how arguments go through include/mockutils/MethodProxyCreator.hpp 44-70 and include/fakeit/RecordedMethodBody.hpp 126-150). -/
structure Obj (V : Type) where
  val : Option V
  live : Bool
  deriving DecidableEq

/-- Making an object from another one (C++; how arguments go through include/mockutils/MethodProxyCreator.hpp 44-70 and include/fakeit/RecordedMethodBody.hpp 126-150). -/
inductive Op where
  | copy
  | move
  deriving DecidableEq

/-- Memory; addresses are positions and are never used again. `log`: the copies and moves made so far (model state, no counterpart in /repo) (C++; how arguments go through include/mockutils/MethodProxyCreator.hpp 44-70 and include/fakeit/RecordedMethodBody.hpp 126-150). -/
structure Mem (V : Type) where
  objs : List (Obj V) := []
  log : List Op := []
  deriving DecidableEq

/-- `T`, `T&`, `T&&` (C++) (C++; how arguments go through include/mockutils/MethodProxyCreator.hpp 44-70 and include/fakeit/RecordedMethodBody.hpp 126-150). -/
inductive RefKind where
  | none
  | lvalue
  | rvalue
  deriving DecidableEq

/-- A parameter type: `T`, `T&`, `const T&`, `T&&`, `const T&&` for a class `T` (C++) (C++; how arguments go through include/mockutils/MethodProxyCreator.hpp 44-70 and include/fakeit/RecordedMethodBody.hpp 126-150). -/
structure Ty where
  cst : Bool
  ref : RefKind
  deriving DecidableEq

/-- Which constructors the class has (C++; `move := false`: moving is not declared, so that rvalues are copied if that is possible) (C++; how arguments go through include/mockutils/MethodProxyCreator.hpp 44-70 and include/fakeit/RecordedMethodBody.hpp 126-150). -/
structure Traits where
  copy : Bool
  move : Bool
  deriving DecidableEq

/-- A parameter: its type and what is known of the class (C++; how arguments go through include/mockutils/MethodProxyCreator.hpp 44-70 and include/fakeit/RecordedMethodBody.hpp 126-150). -/
abbrev Param := Ty × Traits

/-- Value categories (C++) (C++; how arguments go through include/mockutils/MethodProxyCreator.hpp 44-70 and include/fakeit/RecordedMethodBody.hpp 126-150). -/
inductive Cat where
  | lvalue
  | xvalue
  | prvalue
  deriving DecidableEq

/-- An expression that denotes the object at an address (C++; how arguments go through include/mockutils/MethodProxyCreator.hpp 44-70 and include/fakeit/RecordedMethodBody.hpp 126-150). -/
structure Expr where
  cat : Cat
  cst : Bool
  addr : Nat
  deriving DecidableEq

/-- `production_arg<A>::type` (include/mockutils/type_utils.hpp 43-45). -/
def productionArg (A : Ty) : Ty :=
  match A.ref with
  | .none => { A with ref := .lvalue }
  | .lvalue => A
  | .rvalue => A

/-- `test_arg<A>::type` (include/mockutils/type_utils.hpp 39-41), which is also `A&` (include/fakeit/MockImpl.hpp 184, 205). -/
def testArg (A : Ty) : Ty :=
  match A.ref with
  | .none => { A with ref := .lvalue }
  | .lvalue => A
  | .rvalue => { A with ref := .lvalue }

/-- The element of `ArgumentsTuple` for a parameter (include/mockutils/type_utils.hpp 36-37). -/
def tupleArg (A : Ty) : Ty := A

/-- The value of a live object (C++; how arguments go through include/mockutils/MethodProxyCreator.hpp 44-70 and include/fakeit/RecordedMethodBody.hpp 126-150). -/
def Mem.read (m : Mem V) (a : Nat) : Res (Option V) :=
  match m.objs[a]? with
  | some o => if o.live then .ok o.val else .ub
  | none => .ub

/-- Sets the value of a live object (C++; how arguments go through include/mockutils/MethodProxyCreator.hpp 44-70 and include/fakeit/RecordedMethodBody.hpp 126-150). -/
def Mem.write (m : Mem V) (a : Nat) (v : Option V) : Res (Mem V) :=
  match m.objs[a]? with
  | some o => if o.live then .ok { m with objs := m.objs.set a { o with val := v } } else .ub
  | none => .ub

/-- A new object (C++; how arguments go through include/mockutils/MethodProxyCreator.hpp 44-70 and include/fakeit/RecordedMethodBody.hpp 126-150). -/
def Mem.new (m : Mem V) (v : Option V) : Nat × Mem V :=
  (m.objs.length, { m with objs := m.objs ++ [{ val := v, live := true }] })

/-- Ends the life of the objects from address `i` on, before address `j` (C++; how arguments go through include/mockutils/MethodProxyCreator.hpp 44-70 and include/fakeit/RecordedMethodBody.hpp 126-150). -/
def Mem.kill (m : Mem V) (i j : Nat) : Mem V :=
  { m with objs := m.objs.mapIdx fun a o => if i ≤ a ∧ a < j then { o with live := false } else o }

/-- `std::forward<X>(e)` for the name `e` of a variable (C++) (used in include/mockutils/MethodProxyCreator.hpp 44-70, include/fakeit/MockImpl.hpp 211). -/
def fwd (X : Ty) (e : Expr) : Res Expr :=
  if e.cst && !X.cst then .reject
  else .ok { cat := (if X.ref = .lvalue then .lvalue else .xvalue), cst := X.cst, addr := e.addr }

/-- A new object copied or moved from `e` (C++: overload resolution between copy and move constructor) (C++; how arguments go through include/mockutils/MethodProxyCreator.hpp 44-70 and include/fakeit/RecordedMethodBody.hpp 126-150). -/
def construct (tr : Traits) (e : Expr) (m : Mem V) : Res (Nat × Mem V) := do
  let v ← m.read e.addr
  if e.cat ≠ .lvalue ∧ e.cst = false ∧ tr.move = true then do
    let m ← m.write e.addr none
    let (a, m) := m.new v
    .ok (a, { m with log := m.log ++ [.move] })
  else if tr.copy then
    let (a, m) := m.new v
    .ok (a, { m with log := m.log ++ [.copy] })
  else .reject

/-- Initialises a variable of type `X` by `e`; the result is the name of the variable. Values are made by a constructor unless `e` is a prvalue (C++17: the prvalue
is the variable), references are bound (C++) (C++; how arguments go through include/mockutils/MethodProxyCreator.hpp 44-70 and include/fakeit/RecordedMethodBody.hpp 126-150). -/
def initVar (X : Ty) (tr : Traits) (e : Expr) (m : Mem V) : Res (Expr × Mem V) :=
  match X.ref with
  | .none =>
    if e.cat = .prvalue then .ok ({ cat := .lvalue, cst := X.cst, addr := e.addr }, m)
    else do
      let (a, m) ← construct tr e m
      .ok ({ cat := .lvalue, cst := X.cst, addr := a }, m)
  | .lvalue =>
    if e.cat = .lvalue then
      if e.cst && !X.cst then .reject else .ok ({ cat := .lvalue, cst := X.cst, addr := e.addr }, m)
    else if X.cst then .ok ({ cat := .lvalue, cst := X.cst, addr := e.addr }, m) else .reject
  | .rvalue =>
    if e.cat = .lvalue then .reject
    else if e.cst && !X.cst then .reject
    else .ok ({ cat := .lvalue, cst := X.cst, addr := e.addr }, m)

/-- Initialises the variables of a parameter list, `how` says by which expression (pack expansions) (C++; how arguments go through include/mockutils/MethodProxyCreator.hpp 44-70 and include/fakeit/RecordedMethodBody.hpp 126-150). -/
def initAll (ty : Ty → Ty) (how : Ty → Expr → Res Expr) : List Param → List Expr → Mem V → Res (List Expr × Mem V)
  | [], [], m => .ok ([], m)
  | (A, tr) :: sig, e :: es, m => do
    let e ← how A e
    let (x, m) ← initVar (ty A) tr e m
    let (xs, m) ← initAll ty how sig es m
    .ok (x :: xs, m)
  | _, _, _ => .reject

/-- What the caller passes: a variable, `std::move` of a variable, a temporary (C++; how arguments go through include/mockutils/MethodProxyCreator.hpp 44-70 and include/fakeit/RecordedMethodBody.hpp 126-150). -/
inductive Arg (V : Type) where
  | lval (a : Nat)
  | xval (a : Nat)
  | prv (v : V)

/-- The expression of an argument; temporaries are made, variables must be alive (C++; how arguments go through include/mockutils/MethodProxyCreator.hpp 44-70 and include/fakeit/RecordedMethodBody.hpp 126-150). -/
def Arg.eval : Arg V → Mem V → Res (Expr × Mem V)
  | .lval a, m => do
    let _ ← m.read a
    .ok ({ cat := .lvalue, cst := false, addr := a }, m)
  | .xval a, m => do
    let _ ← m.read a
    .ok ({ cat := .xvalue, cst := false, addr := a }, m)
  | .prv v, m =>
    let (a, m) := m.new (some v)
    .ok ({ cat := .prvalue, cst := false, addr := a }, m)

/-- The caller initialises the parameters `arglist... args` of the function found in the virtual table (include/mockutils/MethodProxyCreator.hpp 54, 68), left to
right (C++ leaves the order open). -/
def bindAll : List Param → List (Arg V) → Mem V → Res (List Expr × Mem V)
  | [], [], m => .ok ([], m)
  | (A, tr) :: sig, g :: gs, m => do
    let (e, m) ← g.eval m
    let (x, m) ← initVar A tr e m
    let (xs, m) ← bindAll sig gs m
    .ok (x :: xs, m)
  | _, _, _ => .reject

/-- What code does with its parameters: assigning to one, moving its value away (the user's code called by include/fakeit/Action.hpp 45 or include/fakeit/MockImpl.hpp 190, 211). -/
inductive Effect (V : Type) where
  | assign (i : Nat) (v : V)
  | take (i : Nat)

/-- Which parameter (as `Effect`: include/fakeit/Action.hpp 45). -/
def Effect.index : Effect V → Nat
  | .assign i _ => i
  | .take i => i

/-- The value afterwards (as `Effect`: include/fakeit/Action.hpp 45). -/
def Effect.result : Effect V → Option V
  | .assign _ v => some v
  | .take _ => none

/-- Executes the body of a function whose parameters are named by `xs`; constants cannot be changed (the user's code called by include/fakeit/Action.hpp 45 or include/fakeit/MockImpl.hpp 190, 211). -/
def runBody (xs : List Expr) : List (Effect V) → Mem V → Res (Mem V)
  | [], m => .ok m
  | f :: fs, m => do
    match xs[f.index]? with
    | none => .reject
    | some x =>
      if x.cst then .reject
      else do
        let m ← m.write x.addr f.result
        runBody xs fs m

/-- The values that parameters refer to (include/mockutils/TupleDispatcher.hpp 14-41). -/
def readAll : List Expr → Mem V → Res (List (Option V))
  | [], _ => .ok []
  | x :: xs, m => do
    let v ← m.read x.addr
    let vs ← readAll xs m
    .ok (v :: vs)

/-- Actions: `Return`, `Throw` and others that do not use the arguments, `Do` with a function whose parameters are references, `Spy` and `SpyWithoutVerify` of an
original with some body (include/fakeit/Action.hpp 31-76, include/fakeit/MockImpl.hpp 183-213). -/
inductive Act (V : Type) where
  | ret
  | run (body : List (Effect V))
  | spy (body : List (Effect V))
  | spyForward (body : List (Effect V))

/-- The body of the code that the action ends in (include/fakeit/Action.hpp 45, include/fakeit/MockImpl.hpp 190, 211). -/
def Act.body : Act V → List (Effect V)
  | .ret => []
  | .run b => b
  | .spy b => b
  | .spyForward b => b

/-- The hops of the arguments up to the constructor of the record: `methodProxyX` to `methodProxy` (include/mockutils/MethodProxyCreator.hpp 44, 55; static
variants 58, 69), to `handleMethodInvocation` (50; include/fakeit/RecordedMethodBody.hpp 126), to `ActualInvocation` (129; include/fakeit/ActualInvocation.hpp 36). -/
def hops (sig : List Param) (xs : List Expr) (m : Mem V) : Res (List Expr × Mem V) := do
  let (xs, m) ← initAll productionArg (fun A => fwd (productionArg A)) sig xs m
  let (xs, m) ← initAll productionArg (fun A => fwd (productionArg A)) sig xs m
  initAll productionArg (fun A => fwd (productionArg A)) sig xs m

/-- The record: `actualArguments{ std::forward<arglist>(args)... }` (include/fakeit/ActualInvocation.hpp 38). -/
def record (sig : List Param) (xs : List Expr) (m : Mem V) : Res (List Expr × Mem V) :=
  initAll tupleArg fwd sig xs m

/-- `TupleDispatcher::invoke`: the constness of the tuple is cast away, `std::get` names the elements, the function object takes `test_arg`
(include/mockutils/TupleDispatcher.hpp 14-41, include/fakeit/Action.hpp 35-46). -/
def dispatch (sig : List Param) (xs : List Expr) (m : Mem V) : Res (List Expr × Mem V) :=
  initAll testArg (fun _ e => .ok e) sig xs m

/-- Invokes an action. The result is what the code that the action ends in sees of its parameters before it starts. The parameters of an original end when it
returns (include/fakeit/Action.hpp 43-46, include/fakeit/MockImpl.hpp 184-192, 205-213). -/
def Act.invoke (sig : List Param) (rec : List Expr) (m : Mem V) : Act V → Res (List (Option V) × Mem V)
  | .ret => do
    let (xs, m) ← dispatch sig rec m
    let seen ← readAll xs m
    .ok (seen, m)
  | .run b => do
    let (xs, m) ← dispatch sig rec m
    let seen ← readAll xs m
    let m ← runBody xs b m
    .ok (seen, m)
  | .spy b => do
    let (xs, m) ← dispatch sig rec m
    let n := m.objs.length
    let (ps, m) ← initAll (fun A => A) (fun _ e => .ok e) sig xs m
    let n' := m.objs.length
    let seen ← readAll ps m
    let m ← runBody ps b m
    .ok (seen, m.kill n n')
  | .spyForward b => do
    let (xs, m) ← dispatch sig rec m
    let n := m.objs.length
    let (ps, m) ← initAll (fun A => A) fwd sig xs m
    let n' := m.objs.length
    let seen ← readAll ps m
    let m ← runBody ps b m
    .ok (seen, m.kill n n')

/-- A matcher of arguments: one predicate per argument, asked left to right until one says no (include/fakeit/invocation_matchers.hpp 57-83). -/
def matchAll : List (Option V → Bool) → List Expr → Mem V → Res Bool
  | [], [], _ => .ok true
  | p :: ps, x :: xs, m => do
    let v ← m.read x.addr
    if p v then matchAll ps xs m else .ok false
  | _, _, _ => .reject

/-- A stubbing of the method (include/fakeit/RecordedMethodBody.hpp 31-56). -/
structure Stub (V : Type) where
  preds : List (Option V → Bool)
  act : Act V

/-- The first stubbing that accepts (include/fakeit/RecordedMethodBody.hpp 71-81; in the order in which they are asked). -/
def choose (xs : List Expr) (m : Mem V) : List (Stub V) → Res (Option (Act V))
  | [] => .ok none
  | s :: ss => do
    if ← matchAll s.preds xs m then .ok (some s.act) else choose xs m ss

/-- The mocked method seen by its callers: the records of answered calls, the variables of the test (model state; the records are
include/fakeit/RecordedMethodBody.hpp `_actualInvocations`) (63). -/
structure State (V : Type) where
  mem : Mem V := {}
  vars : List Nat := []
  hist : List (List Expr) := []
  deriving DecidableEq

/-- What a statement shows: nothing, what the answering code saw, an unexpected call, whether a verification passed and what its message shows of each call (include/fakeit/RecordedMethodBody.hpp 126-150, include/fakeit/SequenceVerificationExpectation.hpp 67-86). -/
inductive Out (V : Type) where
  | unit
  | answered (seen : List (Option V))
  | unexpected
  | verified (passed : Bool) (shown : List (List (Option V)))
  deriving DecidableEq

/-- A call: the parameters are made, travel to the record, a stubbing is chosen and answers. Records of unmatched calls end. At the end the parameters and
temporaries of the call end (include/mockutils/MethodProxyCreator.hpp 53-56, include/fakeit/RecordedMethodBody.hpp 126-150; that an action is used up is in C05). -/
def call (sig : List Param) (stubs : List (Stub V)) (args : List (Arg V)) (s : State V) : Res (Out V × State V) := do
  let n := s.mem.objs.length
  let (xs, m) ← bindAll sig args s.mem
  let n1 := m.objs.length
  let (xs, m) ← hops sig xs m
  let (rec, m) ← record sig xs m
  let n2 := m.objs.length
  match ← choose rec m stubs with
  | none => .ok (.unexpected, { s with mem := (m.kill n1 n2).kill n n1 })
  | some act => do
    let (seen, m) ← act.invoke sig rec m
    .ok (.answered seen, { s with mem := m.kill n n1, hist := s.hist ++ [rec] })

/-- How many records a matcher accepts (include/fakeit/MatchAnalysis.hpp 29-59; one method; the shortcut for
the matcher that answered the call is in the core model). -/
def countMatching (preds : List (Option V → Bool)) (m : Mem V) : List (List Expr) → Res Nat
  | [] => .ok 0
  | r :: rs => do
    let b ← matchAll preds r m
    let k ← countMatching preds m rs
    .ok (if b then k + 1 else k)

/-- What the message of a failed verification shows of the calls (include/fakeit/ActualInvocation.hpp 57-62, include/mockutils/TuplePrinter.hpp). -/
def showAll (m : Mem V) : List (List Expr) → Res (List (List (Option V)))
  | [] => .ok []
  | r :: rs => do
    let vs ← readAll r m
    let vss ← showAll m rs
    .ok (vs :: vss)

/-- `Verify(Method(mock,foo).Matching(…)).Exactly(n)`: counts, and shows all calls if the number is another one
(include/fakeit/SequenceVerificationExpectation.hpp 67-86). -/
def verify (preds : List (Option V → Bool)) (k : Nat) (s : State V) : Res (Out V × State V) := do
  let c ← countMatching preds s.mem s.hist
  if c = k then .ok (.verified true [], s)
  else do
    let shown ← showAll s.mem s.hist
    .ok (.verified false shown, s)

/-- An argument written in the test: by the number of a variable (test code; goes to include/mockutils/MethodProxyCreator.hpp 44-70). -/
inductive Written (V : Type) where
  | var (i : Nat)
  | moved (i : Nat)
  | temp (v : V)

/-- The argument for an environment (test code; goes to include/mockutils/MethodProxyCreator.hpp 44-70). -/
def Written.arg (vars : List Nat) : Written V → Res (Arg V)
  | .var i => match vars[i]? with | some a => .ok (.lval a) | none => .reject
  | .moved i => match vars[i]? with | some a => .ok (.xval a) | none => .reject
  | .temp v => .ok (.prv v)

/-- The arguments for an environment (test code; goes to include/mockutils/MethodProxyCreator.hpp 44-70). -/
def argsOf (vars : List Nat) : List (Written V) → Res (List (Arg V))
  | [] => .ok []
  | w :: ws => do
    let g ← w.arg vars
    let gs ← argsOf vars ws
    .ok (g :: gs)

/-- Statements of a test: a new variable, an assignment, a variable whose scope ends, a call of the mocked method, a verification (test code; calls go to include/mockutils/MethodProxyCreator.hpp 44-70). -/
inductive Stmt (V : Type) where
  | declare (v : V)
  | assign (i : Nat) (v : V)
  | endScope (i : Nat)
  | call (args : List (Written V))
  | verify (preds : List (Option V → Bool)) (k : Nat)

/-- Executes a statement (test code; calls go to include/mockutils/MethodProxyCreator.hpp 44-70). -/
def step (sig : List Param) (stubs : List (Stub V)) (s : State V) : Stmt V → Res (Out V × State V)
  | .declare v =>
    let (a, m) := s.mem.new (some v)
    .ok (.unit, { s with mem := m, vars := s.vars ++ [a] })
  | .assign i v =>
    match s.vars[i]? with
    | none => .reject
    | some a => do
      let m ← s.mem.write a (some v)
      .ok (.unit, { s with mem := m })
  | .endScope i =>
    match s.vars[i]? with
    | none => .reject
    | some a => do
      let _ ← s.mem.read a
      .ok (.unit, { s with mem := s.mem.kill a (a + 1) })
  | .call ws => do
    let args ← argsOf s.vars ws
    call sig stubs args s
  | .verify preds k => verify preds k s

/-- Executes a test (test code; calls go to include/mockutils/MethodProxyCreator.hpp 44-70). -/
def run (sig : List Param) (stubs : List (Stub V)) : List (Stmt V) → State V → Res (List (Out V) × State V)
  | [], s => .ok ([], s)
  | t :: ts, s => do
    let (o, s) ← step sig stubs s t
    let (os, s) ← run sig stubs ts s
    .ok (o :: os, s)

end FakeIt.Passing
