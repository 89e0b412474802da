import Verif.Lemmas.InterruptedStub
import Verif.Props.Interrupted
/-!
# C93: stubbing statements that exceptions interrupt, in the whole library
-/
namespace FakeIt
open FakeIt.Spec FakeIt.Spec.Interrupted
open FakeIt.Building (St)

variable {V E X : Type} {P : Prog V E} {nm : MockId → Nat → Nat} {th : Nat → Option X}

/-- **C93 (stubbings)**. After any test of the whole library, the test makes any number of stubbing statements for a method and catches what they throw. Then the method has the stubbings that the library gives it for the statements that passed, in the order of these
statements, each with its matchers and actions: those that threw are as if they had not been made. -/
theorem C93_interrupted_stubbings_are_made_or_not (hP : P.Plain) {heap : Addr → V} {ops : List (Op V E)} {outs : List (OpOut V E)} {s : AState V E} (hn : ∀ op ∈ ops, op.Within (Api.Named nm) fun _ _ => True)
    (hwr : ∀ op ∈ ops, op.Within Api.Writes fun _ _ => True) (hs : aRun P (AState.start heap) ops = some (outs, s)) {m off ctr : Nat} {k : AMock V E} (hk : s.mocks[m]? = some k) (hc : Stubbable P k off) (hctr : SlotRef.Named nm m (.meth off ctr))
    (xs : List (Stubbing V E)) (hx : ∀ x ∈ xs, writable x.acts = true) (hsm : Small (ops ++ xs.map (stubOp m off ctr))) {st st' : St} (hst : HasStubs s m off st) (hw : FakeIt.Spec.Building.Wf st) {bs : List Bool}
    (h : attempts th xs st = .done (bs, st')) (fuel : Nat) :
    ∃ (outs' : List (OpOut V E)) (s' : AState V E), bs.length = xs.length ∧ aRun P (AState.start heap) (ops ++ (passed xs bs).map (stubOp m off ctr)) = some (outs ++ outs', s') ∧
      (∃ w, runOps P (fuel + 3) (World.start heap) (ops ++ (passed xs bs).map (stubOp m off ctr)) = .done (outs ++ outs', w) ∧ Agrees s' w) ∧ HasStubs s' m off st' := by
  obtain ⟨outs', s', h1, h2, h3⟩ := stubs_run (P := P) (ctr := ctr) xs hx hk hc hw hst h
  have hrun := OneThread.aRun_append _ _ hs h1
  have hsub := passed_sublist xs bs
  have hn' : ∀ op ∈ (passed xs bs).map (stubOp m off ctr), op.Within (Api.Named nm) fun _ _ => True := by
    intro op hop
    obtain ⟨x, -, rfl⟩ := List.mem_map.1 hop
    cases x <;> (intro y hy; simp only [Api.slots, List.mem_singleton] at hy; subst hy; exact hctr)
  have hw' : ∀ op ∈ (passed xs bs).map (stubOp m off ctr), op.Within Api.Writes fun _ _ => True := by
    intro op hop
    obtain ⟨x, -, rfl⟩ := List.mem_map.1 hop
    cases x <;> trivial
  obtain ⟨w, hw1, hw2⟩ := C56_library_refines_abstract_mock (plain_named hP) (nm := nm) (fun op hop => (List.mem_append.1 hop).elim (hn op) (hn' op)) (fun op hop => (List.mem_append.1 hop).elim (hwr op) (hw' op))
    (small_sublist (hsub.map _) hsm) hrun fuel
  exact ⟨outs', s', h3, hrun, ⟨w, hw1, hw2⟩, h2⟩

/-! ## A concrete case -/
namespace InterruptedStubDemo
open FakeIt.Demo InterruptedDemo

/-- Three statements: with a value and two actions, for all calls, an assignment. -/
def three : List (Stubbing Nat Nat) := [.when_ (eq 7) [.rep 1 (.ret 1), .rep 1 (.ret 2)], .when_ .any [.forever (.ret 3)], .assign (.user fun _ => true) (.ret 4)]

/-- The stubbing that the method has. -/
def st0 : St := { live := [50, 51, 52, 53, 54, 55], next := 60, stubs := [⟨50, [51], 52, [53, 54], 55⟩], log := [] }

theorem st0_wf : FakeIt.Spec.Building.Wf st0 := by
  intro id hi
  simp only [st0, List.mem_cons, List.not_mem_nil, or_false] at hi ⊢
  omega

/-- A step of the first statement throws. -/
def once (n : Nat) : Option String := if n = 8 then some "no" else none

/-- The statements that pass, and the sizes of the stubbings afterwards. -/
def seen (r : R (List Bool × St)) : Option (List Bool × List (Nat × Nat)) :=
  match r with
  | .done (bs, st) => some (bs, st.stubs.map fun t => (t.parts.length, t.acts.length))
  | _ => none

theorem begun_stubbed : ∃ s k, aRun quiet (AState.start heap0) begun = some (storyOuts.take 4, s) ∧ s.mocks[0]? = some k ∧ k.stubs 0 = some left ∧ Stubbable quiet k 0 :=
  ⟨_, _, rfl, rfl, rfl, rfl, by decide, by decide⟩

theorem three_made : seen (attempts once three st0) = some ([false, true, true], [(1, 2), (0, 1), (0, 1)]) := by decide +kernel

-- the hypotheses of `C93_interrupted_stubbings_are_made_or_not` hold: the first of three statements throws, and the method is as if there had been two
example : ∃ (st : St) (outs : List (OpOut Nat Nat)) (s : AState Nat Nat) (w : World Nat Nat), attempts once three st0 = .done ([false, true, true], st) ∧
    runOps quiet 3 (World.start heap0) (begun ++ (three.drop 1).map (stubOp 0 0 0)) = .done (storyOuts.take 4 ++ outs, w) ∧ Agrees s w ∧ HasStubs s 0 0 st ∧ st.stubs.length = 3 := by
  obtain ⟨s, k, hs, hk, hl, hc⟩ := begun_stubbed
  have h := three_made
  unfold seen at h
  split at h
  · rename_i bs st hr
    simp only [Option.some.injEq, Prod.mk.injEq] at h
    obtain ⟨rfl, h⟩ := h
    obtain ⟨outs, s', -, -, ⟨w, h1, h2⟩, h3⟩ := C93_interrupted_stubbings_are_made_or_not (nm := FakeIt.Demo.nm) (ctr := 0) quiet_plain begun_named begun_writes hs hk
      hc ⟨rfl, by decide⟩ three (by decide +kernel) ⟨by decide +kernel, by decide +kernel⟩ ⟨k, left, hk, hl, rfl⟩ st0_wf hr 0
    exact ⟨st, outs, s', w, hr, h1, h2, h3, by simpa using congrArg List.length h⟩
  · cases h

end InterruptedStubDemo
end FakeIt
