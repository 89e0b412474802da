import Verif.Model.Result
import Verif.Model.Types
/-!
# Who owns the matcher and the action sequence of a method expression
(include/fakeit/MethodMockingContext.hpp, include/fakeit/RecordedMethodBody.hpp)

In the model of whole programs every stubbing statement has its own method expression. Here one expression object (a `MockingContext` variable and its
copies, which share one `Implementation`) is used any number of times, and what is tracked is which heap objects exist.
-/
namespace FakeIt

/-- `MethodMockingContext::Implementation` (include/fakeit/MethodMockingContext.hpp 73-82) shared by `refs` expression objects
(`std::shared_ptr<Implementation> _impl`, 275), the mock's `_invocationHandlers` of the method (include/fakeit/RecordedMethodBody.hpp 62; oldest
first, `MatchedInvocationHandler`'s two owning pointers, 53-54), and the heap: `live` objects and the next fresh address. -/
structure OwnState where
  refs : Nat
  sequence : Addr
  matcher : Addr
  committed : Bool
  handlers : List (Addr × Addr)
  live : List Addr
  fresh : Nat

/-- What can happen (include/fakeit/MethodMockingContext.hpp 73-169, include/fakeit/RecordedMethodBody.hpp 110-115). -/
inductive ExprOp where
  /-- the expression object is copied -/
  | copy
  /-- an expression object is destroyed -/
  | drop
  /-- `Using(...)`, `Matching(...)`, `operator()`: a new arguments matcher -/
  | using_
  /-- an action is appended -/
  | append
  /-- `commit`: end of a `When` statement, `Fake`, `Spy`, assignment -/
  | commit
  /-- the expression is used in a verification: its matcher is asked -/
  | matches_
  /-- another statement stubs the same method with its own expression -/
  | other
  /-- the method is called; `accepts` says what the matchers answer -/
  | call (accepts : Addr → Bool)
  /-- the mock is reset or destroyed -/
  | reset

/-- `new` (plumbing) (include/fakeit/MethodMockingContext.hpp 86-92). -/
def OwnState.alloc (s : OwnState) : Addr × OwnState := (s.fresh, { s with live := s.fresh :: s.live, fresh := s.fresh + 1 })

/-- `delete a`: undefined if there is no object at `a` (plumbing) (include/fakeit/MethodMockingContext.hpp 94-101, 166). -/
def deleteObj (live : List Addr) (a : Addr) : R (List Addr) := if a ∈ live then .done (live.erase a) else .ub

/-- Several `delete`s (include/fakeit/MethodMockingContext.hpp 94-101). -/
def deleteAll : List Addr → List Addr → R (List Addr)
  | live, [] => .done live
  | live, a :: as => do
    let live ← deleteObj live a
    deleteAll live as

/-- The scan for a handler (include/fakeit/RecordedMethodBody.hpp 71-81) over `handlers`, newest first, then its action sequence
(127-150): every object used must exist. -/
def scanLive (live : List Addr) (accepts : Addr → Bool) : List (Addr × Addr) → R Unit
  | [] => .done ()
  | (m, q) :: hs =>
    if m ∈ live then
      if accepts m then (if q ∈ live then .done () else .ub) else scanLive live accepts hs
    else .ub

/-- One operation. Using the expression when no expression object is left is undefined behaviour (include/fakeit/MethodMockingContext.hpp 73-169, include/fakeit/RecordedMethodBody.hpp 110-115). -/
def OwnState.step (s : OwnState) : ExprOp → R OwnState
  -- `std::shared_ptr` copy (include/fakeit/MethodMockingContext.hpp 177)
  | .copy => if s.refs = 0 then .ub else .done { s with refs := s.refs + 1 }
  -- `~Implementation` when the last one dies (include/fakeit/MethodMockingContext.hpp 94-101)
  | .drop =>
    if s.refs = 0 then .ub
    else if s.refs = 1 ∧ s.committed = false then do
      let live ← deleteAll s.live [s.sequence, s.matcher]
      .done { s with refs := 0, live := live }
    else .done { s with refs := s.refs - 1 }
  -- `setInvocationMatcher` (include/fakeit/MethodMockingContext.hpp 165-168) with a new matcher (230-240)
  | .using_ =>
    if s.refs = 0 then .ub
    else do
      let (m, s) := s.alloc
      let live ← deleteObj s.live s.matcher
      .done { s with live := live, matcher := m }
  -- `appendAction` (include/fakeit/MethodMockingContext.hpp 140-142)
  | .append => if s.refs = 0 then .ub else if s.sequence ∈ s.live then .done s else .ub
  -- `commit` (include/fakeit/MethodMockingContext.hpp 135-138): the handler takes ownership of both objects (include/fakeit/RecordedMethodBody.hpp 110-115)
  | .commit => if s.refs = 0 then .ub else .done { s with handlers := s.handlers ++ [(s.matcher, s.sequence)], committed := true }
  -- `matches` (include/fakeit/MethodMockingContext.hpp 125-133)
  | .matches_ => if s.refs = 0 then .ub else if s.matcher ∈ s.live then .done s else .ub
  | .other =>
    let (m, s) := s.alloc
    let (q, s) := s.alloc
    .done { s with handlers := s.handlers ++ [(m, q)] }
  | .call accepts => do
    let _ ← scanLive s.live accepts s.handlers.reverse
    .done s
  -- the method bodies are destroyed, with them their handlers' two shared pointers (include/mockutils/DynamicProxy.hpp 91-98)
  | .reset => do
    let live ← deleteAll s.live (s.handlers.flatMap fun h => [h.1, h.2])
    .done { s with handlers := [], live := live }

/-- A sequence of operations (include/fakeit/MethodMockingContext.hpp 73-169, include/fakeit/RecordedMethodBody.hpp 110-115). -/
def OwnState.run : List ExprOp → OwnState → R OwnState
  | [], s => .done s
  | o :: os, s => do
    let s ← s.step o
    OwnState.run os s

/-- A new expression (include/fakeit/MethodMockingContext.hpp 86-92): a new action sequence and a new default matcher. -/
def OwnState.init : OwnState :=
  { refs := 1, sequence := 0, matcher := 1, committed := false, handlers := [], live := [0, 1], fresh := 2 }

end FakeIt
