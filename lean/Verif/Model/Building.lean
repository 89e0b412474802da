import Verif.Model.Result
/-!
# Exceptions anywhere in a stubbing statement

`When(Method(mock, f).Using(a, b)).Return(v, w)` allocates a number of objects and copies values of the user.  Each of these steps may throw.  Here the steps are counted, the n-th throws `th n` if that is an
exception, and the heap objects are counted too: deleting what does not exist is undefined.

Not modelled here: the table of the mock (naming a method makes it "mocked", see C36), the actions' behaviour (see `Model/ActionSeq.lean`), the kept forms of statements (see `Model/Kept.lean`).
-/
namespace FakeIt.Building

/-- Why memory is allocated: the mocking context (include/fakeit/MockImpl.hpp 94-95), `Implementation` (include/fakeit/MethodMockingContext.hpp 174), its action sequence (88; with the end marker, include/fakeit/ActionSequence.hpp 83-84,
in one step), its default matcher (91), its reference count (174), the method's names (295-298), the matcher of an argument (include/fakeit/argument_matchers.hpp 75, 105) and its place in the vector (include/fakeit/MatchersCollector.hpp 58, 66, 74),
the matcher of the whole call with what it copies (include/fakeit/MethodMockingContext.hpp 232, 238), the object that commits and its reference count (include/fakeit/WhenFunctor.hpp 63, include/mockutils/smart_ptr.hpp 43), the `std::function` of an action
(include/fakeit/StubbingProgress.hpp 53, 146; include/fakeit/MockImpl.hpp 183-213), the action (147), the copy of that `std::function` in a delegating action (include/fakeit/Action.hpp 94), its reference count and its place (include/fakeit/ActionSequence.hpp 76-77), the handler (include/fakeit/RecordedMethodBody.hpp 68), the reference counts of the matcher, of the
sequence (37) and of the handler (113), and its place (114). -/
inductive Why where
  | context | impl | sequence | default | count | details
  | matcher (i : Nat) | push (i : Nat) | whole
  | change | ref
  | function (k : Nat) | action (k : Nat) | delegate (k : Nat) | owner (k : Nat) | insert (k : Nat)
  | handler | count1 | count2 | count3 | place
  deriving DecidableEq, Repr

/-- What may throw: the copy of the `i`-th expected value into its matcher (include/fakeit/argument_matchers.hpp 44), the copy of a predicate (include/fakeit/MethodMockingContext.hpp 306), the copy of the `k`-th value or function
(include/fakeit/StubbingProgress.hpp 53, 159) and its copy into an action (include/fakeit/Action.hpp 36), an allocation. Simplified: more than these copies may be made; each of them is in one of these places. -/
inductive Op where
  | expected (i : Nat)
  | predicate
  | value (k : Nat)
  | copy (k : Nat)
  | memory (w : Why)
  deriving DecidableEq, Repr

/-- A stubbing of the method: the matcher, the matchers of its arguments, the action sequence, its actions (include/fakeit/RecordedMethodBody.hpp 54-55, 62). -/
structure Stub where
  matcher : Nat
  parts : List Nat
  seq : Nat
  acts : List Nat
  handler : Nat
  deriving DecidableEq, Repr

/-- The heap objects that exist, the next one's name, the stubbings of the method, oldest first (include/fakeit/RecordedMethodBody.hpp 62), what was begun. -/
structure St where
  live : List Nat
  next : Nat
  stubs : List Stub
  log : List Op
  deriving DecidableEq, Repr

/-- How a piece of code ends: normally or with an exception (C++ semantics used by all files cited here, e.g. include/fakeit/WhenFunctor.hpp 27-34). -/
inductive Res (X α : Type) where
  | ok (a : α)
  | exc (x : X)
  deriving DecidableEq, Repr

/-- Code that may throw and changes the heap (C++ semantics used by all files cited here, e.g. include/fakeit/WhenFunctor.hpp 27-34). -/
def M (X α : Type) : Type := St → R (Res X α × St)

variable {X α β : Type}

/-- `;` (C++ semantics, as for `M`: include/fakeit/WhenFunctor.hpp 27-34). -/
def M.bind (m : M X α) (f : α → M X β) : M X β := fun s =>
  m s >>= fun
    | (.ok a, s) => f a s
    | (.exc x, s) => .done (.exc x, s)

/-- Sequencing (C++ semantics, as for `M`: include/fakeit/WhenFunctor.hpp 27-34). -/
instance : Monad (M X) where
  pure a := fun s => .done (.ok a, s)
  bind := M.bind

/-- Code that does not throw (C++ semantics, as for `M`: include/fakeit/WhenFunctor.hpp 27-34). -/
def quiet (f : St → R St) : M X Unit := fun s => f s >>= fun s => .done (.ok (), s)

/-- What the destructors of complete objects do when an exception passes by (C++ semantics, as for `M`: include/fakeit/WhenFunctor.hpp 27-34). -/
def M.unwinding (m : M X α) (f : St → R St) : M X α := fun s =>
  m s >>= fun
    | (.ok a, s) => .done (.ok a, s)
    | (.exc x, s) => f s >>= fun s => .done (.exc x, s)

/-- `delete` of an object (e.g. include/fakeit/MethodMockingContext.hpp 94-101). -/
def destroy (id : Nat) (s : St) : R St :=
  if id ∈ s.live then .done { s with live := s.live.erase id } else .ub

/-- `delete` of several objects (e.g. include/fakeit/invocation_matchers.hpp 28-31). -/
def destroyAll : List Nat → St → R St
  | [], s => .done s
  | id :: ids, s => destroy id s >>= destroyAll ids

/-- A new object exists (C++ `new`, the places cited at `Why`, e.g. include/fakeit/MockImpl.hpp 94). -/
def fresh : M X Nat := fun s => .done (.ok s.next, { s with live := s.live ++ [s.next], next := s.next + 1 })

/-- The expression's `Implementation` and its parts (include/fakeit/MethodMockingContext.hpp 75-78): the context, itself, the sequence with its actions, the matcher with the matchers of the arguments. -/
structure Expr where
  ctx : Nat
  impl : Nat
  seq : Nat
  acts : List Nat
  matcher : Nat
  parts : List Nat
  deriving DecidableEq, Repr

/-- `~ActionSequence` (include/fakeit/ActionSequence.hpp 87-88). -/
def dropSeq (seq : Nat) (acts : List Nat) (s : St) : R St := destroyAll (acts ++ [seq]) s

/-- The destructor of the matcher (include/fakeit/invocation_matchers.hpp 28-31). -/
def dropMatcher (matcher : Nat) (parts : List Nat) (s : St) : R St := destroyAll (parts ++ [matcher]) s

/-- `~Implementation` (include/fakeit/MethodMockingContext.hpp 94-101), when the last expression object goes (275). -/
def Expr.drop (e : Expr) : Bool → St → R St
  | true, s => destroy e.ctx s >>= destroy e.impl
  | false, s => destroy e.ctx s >>= fun s => dropSeq e.seq e.acts s >>= fun s => dropMatcher e.matcher e.parts s >>= destroy e.impl

/-- `~smart_ptr` of the committing object when an exception passes by (include/fakeit/WhenFunctor.hpp 29-31; include/mockutils/smart_ptr.hpp 51-56). -/
def dropChange : Option Nat → St → R St
  | none, s => .done s
  | some c, s => destroy c s

/-- Which calls are meant: all (include/fakeit/MethodMockingContext.hpp 91), those with `n` arguments like these (300-304, 311-314), those a predicate accepts (306-309, 316-319). -/
inductive Crit where
  | all
  | using (n : Nat)
  | matching
  deriving DecidableEq, Repr

/-- `When(...)` with `n` actions (include/fakeit/WhenFunctor.hpp 82-87) or an assignment to the expression (include/fakeit/MethodMockingContext.hpp 321-335). -/
inductive Form where
  | when (n : Nat)
  | assign
  deriving DecidableEq, Repr

section
variable (th : Nat → Option X)

/-- Something that may throw (the places cited at `Op`, e.g. include/fakeit/argument_matchers.hpp 44). -/
def op (o : Op) : M X Unit := fun s =>
  match th s.log.length with
  | none => .done (.ok (), { s with log := s.log ++ [o] })
  | some x => .done (.exc x, { s with log := s.log ++ [o] })

/-- `new` of an object whose constructor does not throw (the places cited at `Why`, e.g. include/fakeit/MockImpl.hpp 94). -/
def new (w : Why) : M X Nat := do
  op th (.memory w)
  fresh

/-- `Method(mock, f)` (include/fakeit/api_macros.hpp 31-32; include/fakeit/MockImpl.hpp 93-96; include/fakeit/MethodMockingContext.hpp 86-92, 173-175, 295-298): raw pointers until the `shared_ptr` exists. If the constructor of `Implementation`
throws, only its own memory is given back. Simplified: what naming a method for the first time allocates for the mock's table is counted with the names. -/
def expression : M X Expr := do
  let ctx ← new th .context
  let impl ← new th .impl
  let seq ← (new th .sequence).unwinding (destroy impl)
  let matcher ← (new th .default).unwinding (destroy impl)
  (op th (.memory .count)).unwinding (Expr.drop ⟨ctx, impl, seq, [], matcher, []⟩ false)
  (op th (.memory .details)).unwinding (Expr.drop ⟨ctx, impl, seq, [], matcher, []⟩ false)
  pure ⟨ctx, impl, seq, [], matcher, []⟩

/-- `CollectMatchers` from position `i` on, `n` arguments to go (include/fakeit/MatchersCollector.hpp 47-82): pointers in a vector that does not own them. If the copy of the expected value throws, the memory of the matcher is given back
by the `new` expression (include/fakeit/argument_matchers.hpp 105). -/
def collect : (n i : Nat) → M X (List Nat)
  | 0, _ => pure []
  | n + 1, i => do
    op th (.memory (.matcher i))
    op th (.expected i)
    let m ← fresh
    op th (.memory (.push i))
    let ms ← collect n (i + 1)
    pure (m :: ms)

/-- `Using` (include/fakeit/MethodMockingContext.hpp 165-168, 236-240, 256-263) and `Matching` (230-234). -/
def narrowed : Crit → Expr → M X Expr
  | .all, e => pure e
  | .using n, e => do
    let ms ← collect th n 0
    let w ← new th .whole
    quiet (dropMatcher e.matcher e.parts)
    pure { e with matcher := w, parts := ms }
  | .matching, e => do
    op th .predicate
    let w ← new th .whole
    quiet (dropMatcher e.matcher e.parts)
    pure { e with matcher := w, parts := [] }

/-- `Using` and `Matching` on the temporary expression, which goes when an exception passes by (include/fakeit/MethodMockingContext.hpp 275, 300-319). -/
def narrow (c : Crit) (e : Expr) : M X Expr := (narrowed th c e).unwinding (e.drop false)

/-- The object that commits (include/fakeit/WhenFunctor.hpp 62-64; include/mockutils/smart_ptr.hpp 42-45): if its reference count cannot be made it is lost. -/
def changed : M X Nat := do
  let change ← new th .change
  op th (.memory .ref)
  pure change

/-- `When(...)`; an assignment has no such object (include/fakeit/WhenFunctor.hpp 82-87; include/fakeit/MethodMockingContext.hpp 249-251). -/
def begin_ : Form → Expr → M X (Option Nat)
  | .when _, e => do
    let c ← (changed th).unwinding (e.drop false)
    pure (some c)
  | .assign, _ => pure none

/-- One action is made and appended (include/fakeit/StubbingProgress.hpp 50-54, 145-148; include/fakeit/Action.hpp 35-41; include/fakeit/ActionSequence.hpp 75-78; include/fakeit/MethodMockingContext.hpp 144-147). The memory of the function object itself is not counted. -/
def made (k : Nat) : M X Nat := do
  op th (.value k)
  op th (.memory (.function k))
  op th (.memory (.action k))
  op th (.copy k)
  let a ← fresh
  (op th (.memory (.owner k))).unwinding (destroy a)
  (op th (.memory (.insert k))).unwinding (destroy a)
  pure a

/-- The actions from number `k` on, `n` to go (include/fakeit/StubbingProgress.hpp 78-83, 120-125, 156-161). When an exception passes by, the committing object goes without committing, then the expression (include/fakeit/WhenFunctor.hpp 27-34). -/
def act : (n k : Nat) → Expr → Option Nat → M X Expr
  | 0, _, e, _ => pure e
  | n + 1, k, e, change => do
    let a ← (made th k).unwinding (fun s => dropChange change s >>= e.drop false)
    act n (k + 1) { e with acts := e.acts ++ [a] } change

/-- What the handler owns goes with it (include/fakeit/RecordedMethodBody.hpp 33, 54-55). -/
def dropOwned (e : Expr) (h : Nat) (s : St) : R St :=
  dropSeq e.seq e.acts s >>= fun s => dropMatcher e.matcher e.parts s >>= destroy h

/-- The stubbing becomes the method's newest (include/fakeit/RecordedMethodBody.hpp 114). -/
def install (e : Expr) (h : Nat) (s : St) : R St :=
  .done { s with stubs := s.stubs ++ [⟨e.matcher, e.parts, e.seq, e.acts, h⟩] }

/-- `commit` (include/fakeit/MethodMockingContext.hpp 135-138; include/fakeit/MockImpl.hpp 143-146; include/fakeit/RecordedMethodBody.hpp 35-38, 65-69, 110-115): a `shared_ptr` whose count cannot be allocated deletes what it was given, the handler what it owns. -/
def commit (e : Expr) : M X Unit := do
  let h ← new th .handler
  (op th (.memory .count1)).unwinding (fun s => dropMatcher e.matcher e.parts s >>= destroy h)
  (op th (.memory .count2)).unwinding (dropOwned e h)
  (op th (.memory .count3)).unwinding (dropOwned e h)
  (op th (.memory .place)).unwinding (dropOwned e h)
  quiet (install e h)

/-- The end of the statement (include/fakeit/WhenFunctor.hpp 27-34; include/mockutils/smart_ptr.hpp 51-56; include/fakeit/MethodMockingContext.hpp 135-138, 144-147): the committing object goes, whether `commit` throws or not, then the expression;
`_commited` is set only if `commit` returned. -/
def finish (e : Expr) (change : Option Nat) : M X Unit := do
  (commit th e).unwinding (fun s => dropChange change s >>= e.drop false)
  quiet (fun s => dropChange change s >>= e.drop true)

/-- How many actions the statement makes (include/fakeit/StubbingProgress.hpp 50-165; include/fakeit/MethodMockingContext.hpp 145). -/
def Form.actions : Form → Nat
  | .when n => n
  | .assign => 1

/-- A whole statement, `When(Method(mock, f).Using(...)).Return(...)` or `Method(mock, f).Using(...) = ...` (include/fakeit/WhenFunctor.hpp 82-87; include/fakeit/MethodMockingContext.hpp 144-147). -/
def statement (c : Crit) (f : Form) : M X Unit := do
  let e ← expression th
  let e ← narrow th c e
  let change ← begin_ th f e
  let e ← act th f.actions 0 e change
  finish th e change

end
end FakeIt.Building
