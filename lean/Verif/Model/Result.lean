/-!
# Results of modelled C++ code

Undefined behaviour is a value of its own, so no theorem can hide it.
-/
namespace FakeIt

/-- Result of running a piece of modelled C++ code.
* `done a` : it finished (normally or by a C++ exception, see `Outcome`) with `a`;
* `ub`     : it has undefined behaviour (read past the end, null dereference, use after free ...);
* `oof`    : the interpreter's bound on the call depth was too small to tell (not a C++ notion) (no counterpart: an outcome of all modelled code, e.g. include/mockutils/DynamicProxy.hpp 68-98). -/
inductive R (α : Type) where
  | done (a : α)
  | ub
  | oof
  deriving Repr, DecidableEq

namespace R

/-- Sequencing of two pieces of code (plumbing, models C++ `;`) (e.g. include/mockutils/DynamicProxy.hpp 68-98). -/
def bind {α β : Type} : R α → (α → R β) → R β
  | .done a, f => f a
  | .ub, _ => .ub
  | .oof, _ => .oof

/-- Sequencing (e.g. include/mockutils/DynamicProxy.hpp 68-98). -/
instance : Monad R where
  pure := R.done
  bind := R.bind

/-- Plumbing: `none` (an access with no object behind it) is undefined behaviour (e.g. include/fakeit/ActionSequence.hpp 42). -/
def ofOption {α : Type} : Option α → R α
  | some a => .done a
  | none => .ub

@[simp] theorem bind_done {α β : Type} (a : α) (f : α → R β) : (R.done a >>= f) = f a := rfl
@[simp] theorem bind_ub {α β : Type} (f : α → R β) : ((R.ub : R α) >>= f) = R.ub := rfl
@[simp] theorem bind_oof {α β : Type} (f : α → R β) : ((R.oof : R α) >>= f) = R.oof := rfl
@[simp] theorem pure_eq {α : Type} (a : α) : (pure a : R α) = R.done a := rfl
@[simp] theorem ofOption_some {α : Type} (a : α) : ofOption (some a) = R.done a := rfl
@[simp] theorem ofOption_none {α : Type} : (ofOption (none : Option α)) = R.ub := rfl

theorem bind_eq_done {α β : Type} {x : R α} {f : α → R β} {b : β} :
    (x >>= f) = .done b ↔ ∃ a, x = .done a ∧ f a = .done b := by
  cases x <;> simp

theorem ofOption_eq_done {α : Type} {o : Option α} {a : α} :
    ofOption o = .done a ↔ o = some a := by
  cases o <;> simp

end R
end FakeIt
