import Verif.Model.Tuple
import Verif.Model.Types
/-!
# ReturnAndSet: assignment of output parameters (include/fakeit/StubbingProgress.hpp 132-143, 174-224, 318-364, 369-507)

Memory maps addresses to the object living there; `none` is an address with no live object, so reading or writing there is undefined behaviour.
-/
namespace FakeIt
variable {V : Type}

/-- Memory: what lives at an address (plumbing, the C++ abstract machine) (written by include/fakeit/StubbingProgress.hpp 417-431). -/
abbrev Mem (V : Type) := Addr → Option V

/-- A value given to `ReturnAndSet`. `ReturnAndSet(R&&, valuelist&&...)` deduces `valuelist = T&` for an lvalue and `std::tuple<valuelist...>` then
holds a reference (include/fakeit/StubbingProgress.hpp 132-143, 174-197; include/mockutils/type_utils.hpp 36-37); `_i <= x` does the same in
`ArgValue<T&, N>` (371-377, 497-503). `lit` is a value moved in from an rvalue, `var` a reference to the caller's variable. -/
inductive SetVal (V : Type) where
  | lit (v : V)
  | var (a : Addr)
  deriving Repr, DecidableEq

/-- Reading an element of the value tuple (`std::get<..>(arg_vals)`, include/fakeit/StubbingProgress.hpp 423, 439, 442). -/
def SetVal.read (mem : Mem V) : SetVal V → R V
  | .lit v => .done v
  | .var a => R.ofOption (mem a)

/-- Assignment to a live object (include/fakeit/StubbingProgress.hpp 423, 439, 455). -/
def Mem.store (mem : Mem V) (a : Addr) (v : V) : R (Mem V) :=
  match mem a with
  | some _ => .done fun b => if b = a then some v else mem b
  | none => .ub

/-- `GetArg(p) = v` (include/fakeit/StubbingProgress.hpp 402-415, 423): a pointer parameter is dereferenced, a reference parameter is used as it
is. `none` is a null pointer. -/
def assignThrough (mem : Mem V) (p : Option Addr) (v : V) : R (Mem V) := do
  let a ← R.ofOption p
  mem.store a v

/-- `ParamWalker<N>::Assign(arg_vals, p, args...)` (include/fakeit/StubbingProgress.hpp 417-431): first the remaining parameters, then this one from
element `sizeof...(valuelist) - N` of the tuple. Too few parameters does not compile (`ub` here). Copying the tuple at every level copies
literals and references alike and is not modelled. -/
def paramWalker (vals : List (SetVal V)) : (n : Nat) → (params : List (Option Addr)) → Mem V → R (Mem V)
  | 0, _, mem => .done mem
  | _ + 1, [], _ => .ub
  | n + 1, p :: ps, mem => do
    let mem ← paramWalker vals n ps mem
    let sv ← tupleGet vals (vals.length - (n + 1))
    let v ← sv.read mem
    assignThrough mem p v

/-- The callable made by `GetAssigner(r, values...)` (include/fakeit/StubbingProgress.hpp 180-197): the tuple is `{r, values...}`, `ParamWalker`
runs with `N` the number of values, the answer is element 0. For methods returning `void` (324-340) the tuple has no `r`. -/
def assigner (r : V) (vals : List (SetVal V)) (params : List (Option Addr)) (mem : Mem V) : R (V × Mem V) := do
  let tuple := .lit r :: vals
  let mem ← paramWalker tuple vals.length params mem
  let sv ← tupleGet tuple 0
  let v ← sv.read mem
  .done (v, mem)

/-- The callable made by `GetAssigner(values...)` of `MethodStubbingProgress<void, ...>` (include/fakeit/StubbingProgress.hpp 324-340). -/
def assignerVoid (vals : List (SetVal V)) (params : List (Option Addr)) (mem : Mem V) : R (Mem V) :=
  paramWalker vals vals.length params mem

/-- `ArgLocator<arg_index, check_index>::AssignArg(p, arg_vals)` (include/fakeit/StubbingProgress.hpp 433-474), with `c = check_index + 1`: entry
`check_index` is used if its position is `arg_index`, otherwise the search goes on downwards while `check_index > 0`. Values whose type cannot be
assigned (`std::logic_error`, 458-464) are not modelled. -/
def argLocator (idx : Nat) (vals : List (Nat × SetVal V)) (p : Option Addr) : (c : Nat) → Mem V → R (Mem V)
  | 0, mem => .done mem
  | c + 1, mem => do
    let (pos, sv) ← tupleGet vals c
    if pos = idx then
      let v ← sv.read mem
      assignThrough mem p v
    else if c > 0 then argLocator idx vals p c mem
    else .done mem

/-- `Assign<arg_index>(arg_vals, p, args...)` (include/fakeit/StubbingProgress.hpp 476-484): this parameter, then the others. -/
def assignIndexed (vals : List (Nat × SetVal V)) : (idx : Nat) → (params : List (Option Addr)) → Mem V → R (Mem V)
  | _, [], mem => .done mem
  | idx, p :: ps, mem => do
    let mem ← argLocator idx vals p vals.length mem
    assignIndexed vals (idx + 1) ps mem

/-- The callable made by `GetAssigner(r, _i <= v ...)` (include/fakeit/StubbingProgress.hpp 205-224): `Assign<1>`, then the answer.
`CheckPositions` (379-400) is a compile-time check (absent in C++11). -/
def assignerIndexed (r : V) (vals : List (Nat × SetVal V)) (params : List (Option Addr)) (mem : Mem V) : R (V × Mem V) := do
  let mem ← assignIndexed vals 1 params mem
  .done (r, mem)

end FakeIt
