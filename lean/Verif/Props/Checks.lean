import Verif.Lemmas.Checks
import Verif.Props.Moving
/-!
# C101: checks that only look
-/
namespace FakeIt
open FakeIt.Spec FakeIt.Spec.Checks

variable {V E : Type} {P : Prog V E} {nm : MockId → Nat → Nat}

/-- **C101**. A verification used as a bool that fails, a `VerifyNoOtherInvocations` that passes or is used as a bool, and a verification statement that is skipped because an exception is propagating are as good as evaluating their method expressions: if the check is
replaced by these, every other step of the test has the same outcome, and the test ends with the same recorded calls, reports, variables and data members. -/
theorem C101_checks_that_only_look (hP : P.Plain) {heap : Addr → V} {pre post : List (Op V E)} {a : Api V E} (hn : ∀ op ∈ pre ++ .api a :: post, op.Within (Api.Named nm) fun _ _ => True) (hwr : ∀ op ∈ pre ++ .api a :: post, op.Within Api.Writes fun _ _ => True)
    (hsm : Small (pre ++ .api a :: post)) (hsm' : Small (pre ++ (glances a ++ post))) {o1 o2 : List (OpOut V E)} {o : ApiOut} {s : AState V E} (hl : o1.length = pre.length) (ho : OnlyLooks a o)
    (hs : aRun P (AState.start heap) (pre ++ .api a :: post) = some (o1 ++ .api o :: o2, s)) (fuel : Nat) :
    ∃ (w w' : World V E), runOps P (fuel + 3) (World.start heap) (pre ++ .api a :: post) = .done (o1 ++ .api o :: o2, w) ∧
      runOps P (fuel + 3) (World.start heap) (pre ++ (glances a ++ post)) = .done (o1 ++ (List.replicate a.slots.length (.api .unit) ++ o2), w') ∧ SameEnd s.named s.named w w' := by
  have hr := run_looks hl hs ho
  have hin : ∀ {A : Api V E → Prop}, (∀ op ∈ pre ++ .api a :: post, op.Within A fun _ _ => True) → (∀ x ∈ a.slots, A (.touch x.1 x.2)) → ∀ op ∈ pre ++ (glances a ++ post), op.Within A fun _ _ => True := by
    intro A h1 h2 op hop
    simp only [List.mem_append, glances, List.mem_map] at hop
    rcases hop with h | ⟨x, hx, rfl⟩ | h
    · exact h1 op (by simp [h])
    · exact h2 x hx
    · exact h1 op (by simp [h])
  have ha : a.Named nm := hn (.api a) (by simp)
  obtain ⟨w, w1, w2⟩ := C56_library_refines_abstract_mock (plain_named hP) hn hwr hsm hs fuel
  obtain ⟨w', w3, w4⟩ := C56_library_refines_abstract_mock (plain_named hP) (hin hn fun x hx => by
    intro y hy
    simp only [Api.slots, List.mem_singleton] at hy
    subst hy
    exact ha x hx) (hin hwr fun _ _ => trivial) hsm' hr fuel
  exact ⟨w, w', w1, w3, fun m off => (w4.calls m off).trans (w2.calls m off).symm, w4.log.trans w2.log.symm, w4.heap.trans w2.heap.symm, w4.mocks.trans w2.mocks.symm⟩

/-! ## A concrete case -/
namespace ChecksDemo
open FakeIt.Demo FakeIt.ReorderDemo

/-- A check that fails: the first method has been called once with 4, and the second one has been called. -/
def check : Api Nat Nat := .verify .involved [.leaf ⟨0, .meth 0 0, eq 4, none⟩, .leaf ⟨0, .meth 1 1, .any, none⟩] .once .asBool
/-- Before it. -/
def before : List (Op Nat Nat) := [.api (.newMock 0), first.op, .call 0 0 [.val 7]]
/-- After it: a call of the second method, which has not been stubbed, a verification, and a call. -/
def behind : List (Op Nat Nat) := [.call 0 1 [.val 3], .api (.verify .involved [.leaf ⟨0, .meth 0 0, eq 7, none⟩] .once (.stmt false)), .call 0 0 [.val 7]]
/-- The outcomes before it. -/
def results1 : List (OpOut Nat Nat) := [.api (.mockId 0), .api (.matcher 0), .call (.ret 5)]
/-- The outcomes after it. -/
def results2 : List (OpOut Nat Nat) := [.call .unexpected, .api (.verdict true), .call .unexpected]

theorem all_named : ∀ op ∈ before ++ .api check :: behind, op.Within (Api.Named Demo.nm) fun _ _ => True := by
  have : (before ++ .api check :: behind).all (fun op => match op with | .api a => a.slots.all (fun x => match x.2 with | .meth off ctr => off == ctr && decide (ctr + 1 < intMax) | .dtor => true) | _ => true) = true := by decide +kernel
  intro op hop
  have := List.all_eq_true.1 this op hop
  cases op with
  | call m off args => trivial
  | api a =>
    intro x hx
    have := List.all_eq_true.1 this x hx
    obtain ⟨m, sl⟩ := x
    cases sl with
    | meth off ctr => simp at this; exact ⟨this.1.symm, this.2⟩
    | dtor => trivial

theorem all_write : ∀ op ∈ before ++ .api check :: behind, op.Within Api.Writes fun _ _ => True := by
  have : (before ++ .api check :: behind).all (fun op => match op with | .api a => tidyApi a | _ => true) = true := by decide +kernel
  intro op hop
  have := List.all_eq_true.1 this op hop
  cases op with
  | call m off args => trivial
  | api a => exact (tidyApi_script this).2

theorem check_run : ∃ s, aRun quiet (AState.start heap0) (before ++ .api check :: behind) = some (results1 ++ .api (.verdict false) :: results2, s) := ⟨_, rfl⟩

-- the hypotheses of `C101_checks_that_only_look` hold for it
example : ∃ (w' : World Nat Nat), runOps quiet 3 (World.start heap0) (before ++ ([.api (.touch 0 (.meth 0 0)), .api (.touch 0 (.meth 1 1))] ++ behind)) = .done (results1 ++ ([.api .unit, .api .unit] ++ results2), w') := by
  obtain ⟨s, hs⟩ := check_run
  obtain ⟨w, w', -, h, -⟩ := C101_checks_that_only_look (nm := Demo.nm) (pre := before) (post := behind) (a := check) (o := .verdict false) quiet_plain all_named all_write (by constructor <;> decide +kernel) (by constructor <;> decide +kernel) rfl rfl hs 0
  exact ⟨w', h⟩

/-- A check that passes marks the calls it has found, and a later one sees it. -/
theorem passing : (∃ w, runOps quiet 3 (World.start heap0) (before ++ [.api (.verify .involved [.leaf ⟨0, .meth 0 0, .any, none⟩] .once .asBool), .api (.verifyNoOther [.mock 0] .asBool)]) = .done (results1 ++ [.api (.verdict true), .api (.verdict true)], w)) ∧
    ∃ w, runOps quiet 3 (World.start heap0) (before ++ [.api (.touch 0 (.meth 0 0)), .api (.verifyNoOther [.mock 0] .asBool)]) = .done (results1 ++ [.api .unit, .api (.verdict false)], w) := ⟨⟨_, rfl⟩, _, rfl⟩

end ChecksDemo

/-- **C101**, the hypothesis is needed: a verification used as a bool that passes is not only a look, it marks the calls it has found as verified. -/
theorem C101_passing_checks_do_more : ∃ (P : Prog Nat Nat) (heap : Addr → Nat) (pre : List (Op Nat Nat)) (a b : Api Nat Nat) (o1 : List (OpOut Nat Nat)) (u : List (OpOut Nat Nat)) (r r' : OpOut Nat Nat) (w w' : World Nat Nat), P.Plain ∧
    runOps P 3 (World.start heap) (pre ++ [.api a, .api b]) = .done (o1 ++ [.api (.verdict true), r], w) ∧ runOps P 3 (World.start heap) (pre ++ (glances a ++ [.api b])) = .done (o1 ++ (u ++ [r']), w') ∧ u.length = a.slots.length ∧ r ≠ r' := by
  obtain ⟨⟨w, h⟩, w', h'⟩ := ChecksDemo.passing
  exact ⟨Demo.quiet, Demo.heap0, ChecksDemo.before, .verify .involved [.leaf ⟨0, .meth 0 0, .any, none⟩] .once .asBool, .verifyNoOther [.mock 0] .asBool, ChecksDemo.results1, [.api .unit], .api (.verdict true), .api (.verdict false), w, w', Demo.quiet_plain, h, h', rfl, by simp⟩

end FakeIt
