import Verif.Lemmas.Isolate
import Verif.Props.Scope
/-!
# C30: mocks are isolated from each other
-/
namespace FakeIt
variable {V E : Type} {P : Prog V E} {nm : MockId → Nat → Nat}
open Spec

/-- C30. Whatever a test does with other mocks (stubbing, calls with arbitrary nested calls and statements, resets, clears, verifications,
creation and destruction), as long as neither it nor the callables it runs name or call mock `m`: nothing of mock `m` changes - its stubbings with
what is left of their scripts, its recorded calls with their verified marks, its virtual table and its data members. -/
theorem C30_other_mocks_unchanged {m : MockId} {w w' : World V E} {ops : List (Op V E)} {fuel : Nat} {outs : List (OpOut V E)}
    (hP : P.Within (fun a => a.Named nm ∧ Avoids m a) (fun m' _ => m' ≠ m)) (hw : Reach P nm w) (hm : m < w.mocks.length)
    (hops : ∀ op ∈ ops, op.Within (fun a => a.Named nm ∧ Avoids m a) (fun m' _ => m' ≠ m)) (hrun : runOps P fuel w ops = .done (outs, w')) :
    w'.mock? m = w.mock? m ∧ ∀ off, stubbings w' m off = stubbings w m off ∧ history w' m off = history w m off := by
  have hn : P.Named nm := fun f vs => (hP f vs).mono (fun a h => h.1) (fun _ _ _ => trivial)
  have hq := runOps_stable (stableI m) hP fuel ops hops w outs w' ⟨(hw.wf hn).inv2, hm⟩ hrun
  have he := hq.2 hm
  refine ⟨by simp only [World.mock?, he], fun off => ⟨?_, ?_⟩⟩
  · simp only [stubbings, World.body?, he]
  · simp only [history, World.body?, he]

namespace Demo

/-- Operations that concern mock 1 only: stub, call, verify, clear, reset. -/
def opsOn1 : List (Op Nat Nat) := [.api (.when_ (tgt 1 0 .any) [.rep 2 (.user 0)] false), .call 1 0 [.val 3], .call 1 1 [.val 4],
  .api (.verify .involved [.leaf (leaf 1 0 .any), B] .once (.stmt false)), .api (.clear 1), .call 1 0 [.val 3], .api (.reset 1)]

theorem prog_avoids : prog.Within (fun a => a.Named Demo.nm ∧ Avoids 0 a) (fun m' _ => m' ≠ 0) := by
  intro f vs
  match f with
  | 0 => trivial
  | 1 => exact ⟨by decide, fun _ => trivial⟩
  | 2 => trivial
  | 3 => trivial
  | _ + 4 => trivial

theorem opsOn1_within : ∀ op ∈ opsOn1, op.Within (fun a => a.Named Demo.nm ∧ Avoids 0 a) (fun m' _ => m' ≠ 0) := by
  intro op h
  simp only [opsOn1, List.mem_cons, List.not_mem_nil, or_false] at h
  rcases h with rfl | rfl | rfl | rfl | rfl | rfl | rfl <;>
    simp [Op.Within, Api.Named, Api.slots, SlotRef.Named, tgt, Demo.nm, intMax, Avoids, verifyLeaves, Scope.source, Source.mocks, aggregate, B, leaf,
      Seq.expected, Seq.involved]

/-- What a call returns, what the verifications say. -/
def tell : R (List (OpOut Nat Nat) × World Nat Nat) → List (Option Bool)
  | .done (outs, _) => outs.map fun | .api (.verdict b) => some b | _ => none
  | _ => []
end Demo

/-- A case meeting the hypotheses of C30: in a state where mock 0 has a stubbing and two recorded calls, mock 1 is stubbed, called, verified
(successfully, only part of its calls), cleared, called and reset. -/
example : Reach Demo.prog Demo.nm Demo.v ∧ 0 < Demo.v.mocks.length ∧ (history Demo.v 0 0).length = 2 ∧ (stubbings Demo.v 0 0).length = 1 ∧
    Demo.tell (runOps Demo.prog 5 Demo.v Demo.opsOn1) = [none, none, none, some true, none, none, none] :=
  ⟨Demo.reach_v, by decide, by decide, by decide, by decide +kernel⟩

end FakeIt
