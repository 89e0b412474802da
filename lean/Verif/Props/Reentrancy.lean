import Verif.Props.Stubbing
/-!
# C06: callables that call the method they answer
-/
namespace FakeIt
variable {V E : Type} {P : Prog V E} {nm : MockId → Nat → Nat}
open Spec

namespace Demo

/-- Callable 0 is re-entrant: with a positive argument `x` it calls method 0 of mock 0 with `x - 1` and returns what it gets. -/
def progRe : Prog Nat Nat where
  fn f vs := match f, vs with
    | 0, [0] => .done (.ret 100)
    | 0, [x] => .call 0 0 [.val (x - 1)] fun o => .done o
    | f, _ => .done (.ret f)
  cls _ := cls
  void := 0
  dfltExc := 99
  movedFrom _ := 0

/-- The world after a program. -/
def afterRe (ops : List (Op Nat Nat)) : World Nat Nat :=
  match runOps progRe 5 (World.start heap0) ops with
  | .done (_, w) => w
  | _ => World.start heap0

/-- `Mock m; When(Method(m, f)).acts; m.get().f(1)`: a call that re-enters once. -/
def opsRe (acts : List (Act Nat Nat)) : List (Op Nat Nat) :=
  [.api (.newMock 0), .api (.when_ (tgt 0 0 .any) acts false), .call 0 0 [.val 1]]

theorem reachRe (acts : List (Act Nat Nat)) {outs : List (OpOut Nat Nat)} {w : World Nat Nat}
    (h : runOps progRe 5 (World.start heap0) (opsRe acts) = .done (outs, w)) : Reach progRe Demo.nm w := by
  refine Reach.run (fuel := 5) (opsRe acts) ?_ (.start heap0) h
  intro op h
  simp only [opsRe, List.mem_cons, List.not_mem_nil, or_false] at h
  rcases h with rfl | rfl | rfl <;> simp [Op.Within, Api.Named, Api.slots, SlotRef.Named, tgt, Demo.nm, intMax]

end Demo

/-- The part of C06 that says that calls of mocked methods never have undefined behaviour (`ub`), for a program `P`:
in any reachable state a call of an existing method (that is not the destructor) of a living mock. -/
def Spec.CallsAreDefined (P : Prog V E) (nm : MockId → Nat → Nat) : Prop :=
  ∀ (w : World V E) (m off fuel : Nat) (k : Mock V E) (args : List (Arg V)), Reach P nm w → w.mock? m = some k → off < (P.cls k.cls).size →
    Plain (P.cls k.cls) off → callSlot P fuel w m off args ≠ .ub

/-- The code violates C06: after `When(Method(mock,f)).Do(2_Times(g))` where `g` calls `f` once more, one call removes the action *and* the end marker
from the script; the next call reads the front of an empty vector. -/
theorem C06_reentrancy_undefined_behaviour : ¬ CallsAreDefined Demo.progRe Demo.nm := by
  intro h
  exact h (Demo.afterRe (Demo.opsRe [.rep 2 (.user 0)])) 0 0 5 _ [.val 0]
    (Demo.reachRe [.rep 2 (.user 0)] (outs := [.api (.mockId 0), .api (.matcher 0), .call (.ret 100)]) rfl)
    rfl (by decide) (by intro d hd; cases hd; decide) rfl

/-- The code violates C06: the re-entrant call should be the second action (7), but it performs the first one again (100), and so does every later call;
the second action is never performed. -/
theorem C06_reentrancy_repeats_the_action :
    runOps Demo.progRe 5 (World.start Demo.heap0) (Demo.opsRe [.rep 1 (.user 0), .rep 1 (.ret 7)] ++ [.call 0 0 [.val 0], .call 0 0 [.val 0]]) =
      .done ([.api (.mockId 0), .api (.matcher 0), .call (.ret 100), .call (.ret 100), .call (.ret 100)],
        Demo.afterRe (Demo.opsRe [.rep 1 (.user 0), .rep 1 (.ret 7)] ++ [.call 0 0 [.val 0], .call 0 0 [.val 0]])) := rfl

/-- The code violates C06: here the re-entrant call makes the action 7 be skipped: the following call is unexpected. -/
theorem C06_reentrancy_skips_an_action :
    runOps Demo.progRe 5 (World.start Demo.heap0) (Demo.opsRe [.rep 2 (.user 0), .rep 1 (.ret 7)] ++ [.call 0 0 [.val 0]]) =
      .done ([.api (.mockId 0), .api (.matcher 0), .call (.ret 100), .call .unexpected],
        Demo.afterRe (Demo.opsRe [.rep 2 (.user 0), .rep 1 (.ret 7)] ++ [.call 0 0 [.val 0]])) := rfl

end FakeIt
