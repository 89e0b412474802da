import Verif.Lemmas.Method
import Verif.Props.Isolation
/-!
# C31: calls reach the stubbings of the method that was called

That a call of a method is answered by the method's own stubbings is `C01_latest_matching_stubbing_answers` (some stubbing accepts) and
`C07_unaccepted_call_is_reported` (none does). Here: the other methods are not involved.
-/
namespace FakeIt
variable {V E : Type} {P : Prog V E} {nm : MockId → Nat → Nat}
open Spec

/-- C31. Whatever a test does that does not name or call method `off` of mock `m` (stubbing and calling other methods of the same mock, in any order,
with arbitrary callables that do not name or call the method either) leaves the method's stubbings with what is left of their scripts, its recorded
calls, and its entry in the virtual table as they are. `m` may have been reset any number of times before. -/
theorem C31_other_methods_not_involved {m off : Nat} {w w' : World V E} {k : Mock V E} (hw : Reach P nm w) (hk : w.mock? m = some k)
    (hoff : ∀ d, (P.cls k.cls).dtor = some d → off ≠ d + 1)
    (hP : P.Within (fun a => a.Named nm ∧ AvoidsMethod (P.cls k.cls) m off a) (Apart (P.cls k.cls) m off)) {ops : List (Op V E)}
    (hops : ∀ op ∈ ops, op.Within (fun a => a.Named nm ∧ AvoidsMethod (P.cls k.cls) m off a) (Apart (P.cls k.cls) m off))
    {fuel : Nat} {outs : List (OpOut V E)} (hrun : runOps P fuel w ops = .done (outs, w')) :
    stubbings w' m off = stubbings w m off ∧ history w' m off = history w m off ∧
    ∃ k', w'.mock? m = some k' ∧ k'.cls = k.cls ∧ k'.vt[off]? = k.vt[off]? := by
  have hn : P.Named nm := fun f vs => (hP f vs).mono (fun a h => h.1) (fun _ _ _ => trivial)
  obtain ⟨hk1, hka⟩ := World.mock?_eq_some.1 hk
  have hq := runOps_stable (stableM _ m off hoff) hP fuel ops hops w outs w' ⟨(hw.wf hn).inv2, k, hk1, rfl⟩ hrun
  have he := hq.2 (lt_of_getElem?_some hk1)
  obtain ⟨k', hk', hcls, -⟩ := hq.1.1.1.2.stat m k hk1
  simp only [slotView, hk1, hk', Option.map_some, Option.some.injEq, Prod.mk.injEq] at he
  refine ⟨?_, ?_, k', World.mock?_eq_some.2 ⟨hk', by rw [he.2.2]; exact hka⟩, hcls, he.2.1⟩
  · simp only [stubbings, World.body?, hk1, hk', Option.bind_some, he.1]
  · simp only [history, World.body?, hk1, hk', Option.bind_some, he.1]

/-- The only method expressions that C31 and all theorems with `Named` leave out (besides inconsistent ones) are those with a `__COUNTER__` value of at least 2^31 - 2. -/
theorem C31_limit_of_counter_values (nm : MockId → Nat → Nat) (m off ctr : Nat) : SlotRef.Named nm m (.meth off ctr) ↔ nm m ctr = off ∧ ctr < 2 ^ 31 - 2 := by
  simp only [SlotRef.Named, intMax]
  omega

/-- Case. -/
example : SlotRef.Named (fun _ ctr => ctr) 0 (.meth 2147483645 2147483645) := (C31_limit_of_counter_values _ 0 _ _).2 ⟨rfl, by decide⟩

namespace Demo

theorem prog_avoidsMethod : prog.Within (fun a => a.Named Demo.nm ∧ AvoidsMethod cls 0 0 a) (Apart cls 0 0) := by
  intro f vs
  match f with
  | 0 => trivial
  | 1 => exact ⟨(by intro h; cases h), fun _ => trivial⟩
  | 2 => trivial
  | 3 => trivial
  | _ + 4 => trivial

/-- Operations on the other methods of mock 0: method 1 and the destructor. -/
def opsOther : List (Op Nat Nat) := [.api (.when_ (tgt 0 1 .any) [.rep 2 (.user 0)] false), .call 0 1 [.val 3], .api (.fake [⟨0, .dtor, .any⟩]), .call 0 2 [], .call 0 3 []]

/-- Two methods sharing a `__COUNTER__` value. -/
def clashOps : List (Op Nat Nat) := [.api (.newMock 0), .api (.when_ ⟨0, .meth 0 7, .any⟩ [.forever (.ret 5)] false),
  .api (.when_ ⟨0, .meth 1 7, .any⟩ [.forever (.ret 6)] false)]

def clash : World Nat Nat := after clashOps
end Demo

/-- A case meeting the hypotheses of C31: method 0 of mock 0 is stubbed and was called twice; method 1 and the destructor are stubbed and called. -/
example : (∃ k, Demo.v.mock? 0 = some k ∧ Demo.prog.cls k.cls = Demo.cls) ∧ (history Demo.v 0 0).length = 2 ∧
    (∀ op ∈ Demo.opsOther, op.Within (fun a => a.Named Demo.nm ∧ AvoidsMethod Demo.cls 0 0 a) (Apart Demo.cls 0 0)) ∧
    (Demo.tell (runOps Demo.prog 5 Demo.v Demo.opsOther)).length = 5 := by
  refine ⟨⟨_, rfl, rfl⟩, by decide, ?_, by decide +kernel⟩
  intro op h
  simp only [Demo.opsOther, List.mem_cons, List.not_mem_nil, or_false] at h
  rcases h with rfl | rfl | rfl | rfl | rfl <;>
    simp [Op.Within, Api.Named, Api.slots, SlotRef.Named, Demo.tgt, Demo.nm, intMax, AvoidsMethod, SlotRef.off, Demo.cls, Apart]

/-- The naming hypothesis of C31 (and of all other theorems) is needed: if the method expressions of two methods have the same `__COUNTER__` value, which
happens when the mock is used in two translation units, calls of the second method are answered by the stubbings of the first one. -/
theorem C31_shared_counter_value_misroutes : ∃ (w w' : World Nat Nat) (ops : List (Op Nat Nat)) (outs : List (OpOut Nat Nat)),
    runOps Demo.prog 5 (World.start Demo.heap0) ops = .done (outs, w) ∧ (∃ h, stubbings w 0 1 = [h] ∧ ∃ i, h.seq.front = .done (i, .forever (.ret 6))) ∧
    callSlot Demo.prog 5 w 0 1 [] = .done (.ret 5, w') :=
  ⟨Demo.clash, Demo.called Demo.clash 0 1 [], Demo.clashOps, _, rfl, ⟨_, rfl, _, rfl⟩, rfl⟩

end FakeIt
