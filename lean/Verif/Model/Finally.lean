import Verif.Model.Result
/-!
# Scope guards (include/mockutils/Finally.hpp)

The library's own guard: it advances a script when an answer has been given (include/fakeit/ActionSequence.hpp 45-53) and puts a proxy back when the original method has been called
(include/mockutils/DynamicProxy.hpp 184-186, include/fakeit/MockImpl.hpp 189, 210, 296).
-/
namespace FakeIt.Guards

/-- A clause: what it does (a number stands for the effect), and whether it throws (include/mockutils/Finally.hpp 17). -/
structure Clause where
  effect : Nat
  throws : Bool
  deriving DecidableEq, Repr

/-- A `Finally` object; `none`: its `std::function` is empty (include/mockutils/Finally.hpp 17). -/
abbrev Guard := Option Clause

/-- How a block goes on or ends; `terminated`: `std::terminate` was called (include/mockutils/Finally.hpp 32-34). -/
inductive Out where
  | normal
  | thrown
  | terminated
  deriving DecidableEq, Repr

/-- Code that uses guards. `guard c steps`: a guard is made and handed on through return values and initialisations (`return Finally{…}`, `return _proxy.createRaiiMethodSwapper(…)`,
`auto methodSwapper = …`); each step is elided by the compiler (`true`; C++17 demands it) or moves the object. `act`: anything else, which may throw. `scope`: a block or a function call.
`attempt`: a block with a handler for everything (include/mockutils/DynamicProxy.hpp 184-186, include/fakeit/MockImpl.hpp 189, 210, 296). -/
inductive Stmt where
  | guard (c : Clause) (steps : List Bool)
  | act (effect : Nat) (throws : Bool)
  | scope (body : List Stmt)
  | attempt (body : List Stmt)
  deriving Repr

/-- `~Finally` (include/mockutils/Finally.hpp 32-34): calls the clause; destructors are `noexcept`, so an empty function (`std::bad_function_call`) and a clause that throws terminate. -/
def destroyed : Guard → List Nat × Out
  | none => ([], .terminated)
  | some c => if c.throws then ([c.effect], .terminated) else ([c.effect], .normal)

/-- `Finally(Finally&&)` (include/mockutils/Finally.hpp 28-30): a new object with an empty function, which is swapped with the other's. (new, other) -/
def moved (g : Guard) : Guard × Guard := (g, none)

/-- Handing the object on: where the compiler does not elide the step the object is moved and the old one ends (include/mockutils/Finally.hpp 28-34). -/
def handOn : Guard → List Bool → List Nat × Option Guard
  | g, [] => ([], some g)
  | g, true :: steps => handOn g steps
  | g, false :: steps =>
    let (new, old) := moved g
    match destroyed old with
    | (l, .normal) =>
      let (l', r) := handOn new steps
      (l ++ l', r)
    | (l, _) => (l, none)

/-- The end of a block: the guards made in it end, the last one first (C++), also if the block is left by an exception (include/mockutils/Finally.hpp 32-34). -/
def unwind : List Guard → List Nat × Out
  | [] => ([], .normal)
  | g :: gs =>
    match destroyed g with
    | (l, .normal) =>
      let (l', o) := unwind gs
      (l ++ l', o)
    | (l, _) => (l, .terminated)

mutual
/-- Executes one statement; `gs`: the guards of the block, newest first. Effects, guards, how it ended (C++ semantics of blocks around Finally.hpp 24-34). -/
def exec (gs : List Guard) : Stmt → List Nat × List Guard × Out
  | .guard c steps =>
    match handOn (some c) steps with
    | (l, some g) => (l, g :: gs, .normal)
    | (l, none) => (l, gs, .terminated)
  | .act e t => ([e], gs, if t then .thrown else .normal)
  | .scope body =>
    let (l, o) := block [] body
    (l, gs, o)
  | .attempt body =>
    let (l, o) := block [] body
    (l, gs, match o with | .thrown => .normal | o => o)

/-- Executes the statements of a block, then ends its guards (C++ semantics of blocks around Finally.hpp 24-34). -/
def block (gs : List Guard) : List Stmt → List Nat × Out
  | [] => unwind gs
  | st :: rest =>
    match exec gs st with
    | (l, gs', .normal) =>
      let (l', o) := block gs' rest
      (l ++ l', o)
    | (l, gs', .thrown) =>
      let (l', o) := unwind gs'
      (l ++ l', match o with | .normal => .thrown | o => o)
    | (l, _, .terminated) => (l, .terminated)
end

end FakeIt.Guards
