import Verif.Model.ActionSeq
/-!
# Specification of a stubbing's script

Written without the model's `ActionSeq`: what the `i`-th call served by a stubbing should do.
-/
namespace FakeIt.Spec
variable {V E : Type}

/-- One performed action, without its multiplicity. -/
inductive Perf (V E : Type) where
  | fn (f : Fn V E)
  | dflt
  | deleg (move : Bool)
  deriving DecidableEq, Repr

/-- What the call number `i` (counting from 0) served by a stubbing with this action list should do;
`none`: the script is exhausted. An `n`-times action stands for `n` calls, an always-action for all remaining ones. -/
def performed : List (Act V E) → Nat → Option (Perf V E)
  | [], _ => none
  | .rep n f :: rest, i => if (i : Int) < n then some (.fn f) else performed rest (i - n.toNat)
  | .forever f :: _, _ => some (.fn f)
  | .dflt :: _, _ => some .dflt
  | .deleg mv :: _, _ => some (.deleg mv)
  | .noMore :: _, _ => none

/-- Action lists for which the library keeps its promise: multiplicities are at least 1 (see C03 for the others), and the internal sentinel
is not something a user can write. -/
def WritableActs (acts : List (Act V E)) : Prop :=
  ∀ a ∈ acts, match a with
    | .rep n _ => 1 ≤ n
    | .noMore => False
    | _ => True

/-- The number of calls a list of counted actions serves; `none` if the list contains an action that is never exhausted (or cannot be written). -/
def uses : List (Act V E) → Option Nat
  | [] => some 0
  | .rep n _ :: rest => if 1 ≤ n then (uses rest).map (n.toNat + ·) else none
  | _ :: _ => none

/-- Actions that are never exhausted, and what they do: `AlwaysReturn`, `AlwaysThrow`, `AlwaysDo`, assignment; `Fake`, `Spy`. -/
def Always : Act V E → Perf V E → Prop
  | .forever f, p => p = .fn f
  | .dflt, p => p = .dflt
  | .deleg mv, p => p = .deleg mv
  | _, _ => False

end FakeIt.Spec
