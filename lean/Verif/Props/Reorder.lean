import Verif.Lemmas.Reorder
import Verif.Props.Refinement
/-!
# C97: stubbing statements for different methods may be written in any order
-/
namespace FakeIt
open FakeIt.Spec FakeIt.Spec.Reorder

variable {V E : Type} {P : Prog V E} {nm : MockId → Nat → Nat}

/-- **C97**. Two stubbing statements next to each other, for different methods (of one mock or of two), may be exchanged: all steps of the test have the same outcomes, and in the end everything the test can see is the same, up to the addresses of the two
stubbings, which are exchanged (`a` and `b`: the addresses the first and the second statement give out). -/
theorem C97_stubbings_of_different_methods_commute (hP : P.Plain) {heap : Addr → V} {pre post : List (Op V E)} {x y : Stmt V E} (hap : x.Apart y) (hn : ∀ op ∈ pre ++ x.op :: y.op :: post, op.Within (Api.Named nm) fun _ _ => True)
    (hwr : ∀ op ∈ pre ++ x.op :: y.op :: post, op.Within Api.Writes fun _ _ => True) (hsm : Small (pre ++ x.op :: y.op :: post)) {outs : List (OpOut V E)} {s : AState V E}
    (hs : aRun P (AState.start heap) (pre ++ x.op :: y.op :: post) = some (outs, s)) (fuel : Nat) :
    ∃ (a b : Nat) (s' : AState V E) (w w' : World V E), outs[pre.length]? = some (.api (.matcher a)) ∧ outs[pre.length + 1]? = some (.api (.matcher b)) ∧
      runOps P (fuel + 3) (World.start heap) (pre ++ x.op :: y.op :: post) = .done (outs, w) ∧
      runOps P (fuel + 3) (World.start heap) ((pre ++ y.op :: x.op :: post).map (renOp (swap a b))) = .done (outs, w') ∧
      aRun P (AState.start heap) ((pre ++ y.op :: x.op :: post).map (renOp (swap a b))) = some (outs, s') ∧
      (∀ m off, (history w' m off).map (recOf s'.named) = (history w m off).map fun i => renRec (swap a b) (recOf s.named i)) ∧
      w'.log.map (reportOf s'.named) = w.log.map (fun e => renReport (swap a b) (reportOf s.named e)) ∧ w'.heap = w.heap ∧
      w'.mocks.map (fun k => (k.cls, k.alive, k.data)) = w.mocks.map (fun k => (k.cls, k.alive, k.data)) := by
  obtain ⟨a, b, N, ha, hb, hr⟩ := run_swapped hap hs
  have hp : (pre ++ x.op :: y.op :: post).Perm (pre ++ y.op :: x.op :: post) := (List.Perm.swap _ _ _).append_left _
  have hmem : ∀ {A : Api V E → Prop}, (∀ op ∈ pre ++ x.op :: y.op :: post, op.Within A fun _ _ => True) → (∀ op, op.Within A (fun _ _ => True) → (renOp (swap a b) op).Within A fun _ _ => True) →
      ∀ op ∈ (pre ++ y.op :: x.op :: post).map (renOp (swap a b)), op.Within A fun _ _ => True := by
    intro A h1 h2 op hop
    obtain ⟨z, hz, rfl⟩ := List.mem_map.1 hop
    exact h2 z (h1 z (hp.mem_iff.2 hz))
  obtain ⟨w, w1, w2⟩ := C56_library_refines_abstract_mock (plain_named hP) hn hwr hsm hs fuel
  obtain ⟨w', w3, w4⟩ := C56_library_refines_abstract_mock (plain_named hP) (hmem hn fun _ => named_ren) (hmem hwr fun _ => writes_ren) (small_ren hp hsm) hr fuel
  refine ⟨a, b, ren (swap a b) 0 N s, w, w', ha, hb, w1, w3, hr, ?_, ?_, ?_, ?_⟩
  · intro m off
    rw [w4.calls, callsTo_ren, ← w2.calls, List.map_map]
    rfl
  · rw [w4.log, show (ren (swap a b) 0 N s).log = s.log.map (renReport (swap a b)) from rfl, ← w2.log, List.map_map]
    rfl
  · rw [w4.heap, w2.heap]; rfl
  · rw [w4.mocks, w2.mocks]
    simp only [ren, List.map_map]
    rfl

/-! ## A concrete case -/
namespace ReorderDemo
open FakeIt.Demo

/-- `When(Method(mock, f).Using(7)).Return(5)` and `Method(mock, g) = [](...) { ... }`. -/
def first : Stmt Nat Nat := ⟨0, 0, 0, .when_ (eq 7) [.rep 1 (.ret 5)]⟩
/-- The second statement. -/
def second : Stmt Nat Nat := ⟨0, 1, 1, .assign .any (.ret 6)⟩
/-- Before them. -/
def before : List (Op Nat Nat) := [.api (.newMock 0)]
/-- After them: calls, and verifications of which two use the saved expressions of the statements. -/
def behind : List (Op Nat Nat) :=
  [.call 0 1 [.val 3], .call 0 0 [.val 7], .call 0 0 [.val 7], .api (.verify .involved [.leaf ⟨0, .meth 1 1, eq 4, some 2⟩] .once (.stmt false)),
   .api (.verify .involved [.leaf ⟨0, .meth 0 0, eq 4, some 0⟩] .never .asBool), .api (.verifyNoOther [.mock 0] (.stmt false))]
/-- The outcomes. -/
def results : List (OpOut Nat Nat) :=
  [.api (.mockId 0), .api (.matcher 0), .api (.matcher 2), .call (.ret 6), .call (.ret 5), .call .unexpected, .api (.verdict true), .api (.verdict false), .api (.verdict false)]
/-- The whole test. -/
def test : List (Op Nat Nat) := before ++ first.op :: second.op :: behind

theorem test_named : ∀ op ∈ test, op.Within (Api.Named Demo.nm) fun _ _ => True := by
  have : test.all (fun op => match op with | .api a => a.slots.all (fun x => match x.2 with | .meth off ctr => off == ctr && decide (ctr + 1 < intMax) | .dtor => true) | _ => true) = true := by decide +kernel
  intro op hop
  have := List.all_eq_true.1 this op hop
  cases op with
  | call m off args => trivial
  | api a =>
    intro x hx
    have := List.all_eq_true.1 this x hx
    obtain ⟨m, sl⟩ := x
    cases sl with
    | meth off ctr => simp at this; exact ⟨this.1.symm, this.2⟩
    | dtor => trivial

theorem test_writes : ∀ op ∈ test, op.Within Api.Writes fun _ _ => True := by
  have : test.all (fun op => match op with | .api a => tidyApi a | _ => true) = true := by decide +kernel
  intro op hop
  have := List.all_eq_true.1 this op hop
  cases op with
  | call m off args => trivial
  | api a => exact (tidyApi_script this).2

theorem test_small : Small test := by constructor <;> decide +kernel

theorem test_run : ∃ s, aRun quiet (AState.start heap0) test = some (results, s) := ⟨_, rfl⟩

/-- The test with the statements exchanged: the saved expressions are the other ones. -/
def exchanged : List (Op Nat Nat) :=
  [.api (.newMock 0), second.op, first.op, .call 0 1 [.val 3], .call 0 0 [.val 7], .call 0 0 [.val 7], .api (.verify .involved [.leaf ⟨0, .meth 1 1, eq 4, some 0⟩] .once (.stmt false)),
   .api (.verify .involved [.leaf ⟨0, .meth 0 0, eq 4, some 2⟩] .never .asBool), .api (.verifyNoOther [.mock 0] (.stmt false))]

-- the hypotheses of `C97_stubbings_of_different_methods_commute` hold for it
example : ∃ w', runOps quiet 3 (World.start heap0) exchanged = .done (results, w') := by
  obtain ⟨s, hs⟩ := test_run
  obtain ⟨a, b, -, -, w', ha, hb, -, h, -⟩ := C97_stubbings_of_different_methods_commute (nm := Demo.nm) (pre := before) (post := behind) (x := first) (y := second) quiet_plain (fun _ => by decide) test_named test_writes test_small hs 0
  cases ha
  cases hb
  exact ⟨w', h⟩

/-- Two statements for one method. -/
def old : Stmt Nat Nat := ⟨0, 0, 0, .when_ .any [.forever (.ret 5)]⟩
/-- The other one. -/
def new : Stmt Nat Nat := ⟨0, 0, 0, .when_ .any [.forever (.ret 6)]⟩

/-- What the call after the two statements returns. -/
theorem last_one_wins : (∃ w, runOps quiet 3 (World.start heap0) [.api (.newMock 0), old.op, new.op, .call 0 0 [.val 7]] = .done ([.api (.mockId 0), .api (.matcher 0), .api (.matcher 2), .call (.ret 6)], w)) ∧
    ∃ w, runOps quiet 3 (World.start heap0) [.api (.newMock 0), new.op, old.op, .call 0 0 [.val 7]] = .done ([.api (.mockId 0), .api (.matcher 0), .api (.matcher 2), .call (.ret 5)], w) := ⟨⟨_, rfl⟩, _, rfl⟩

end ReorderDemo

/-- **C97**, the hypothesis is needed: statements for one method cannot be exchanged, the last one wins. -/
theorem C97_stubbings_of_one_method_do_not_commute : ∃ (P : Prog Nat Nat) (heap : Addr → Nat) (pre post : List (Op Nat Nat)) (x y : Stmt Nat Nat) (outs outs' : List (OpOut Nat Nat)) (w w' : World Nat Nat), P.Plain ∧ x.m = y.m ∧ x.off = y.off ∧
    runOps P 3 (World.start heap) (pre ++ x.op :: y.op :: post) = .done (outs, w) ∧ runOps P 3 (World.start heap) (pre ++ y.op :: x.op :: post) = .done (outs', w') ∧ outs ≠ outs' := by
  obtain ⟨⟨w, h⟩, w', h'⟩ := ReorderDemo.last_one_wins
  exact ⟨Demo.quiet, Demo.heap0, [.api (.newMock 0)], [.call 0 0 [.val 7]], ReorderDemo.old, ReorderDemo.new, _, _, w, w', Demo.quiet_plain, rfl, rfl, h, h', by simp⟩

end FakeIt
