import Verif.Lemmas.LeftOut
import Verif.Props.Checks
/-!
# C102: checks that can be left out
-/
namespace FakeIt
open FakeIt.Spec FakeIt.Spec.Checks FakeIt.Spec.LeftOut

variable {V E : Type} {P : Prog V E} {nm : MockId → Nat → Nat}

/-- **C102**. A check that only looks (C101) at methods which the test has named before, since the last reset of their mocks, can be left out: every other step of the test has the same outcome, and the test ends with the same recorded calls, reports, variables and
data members. -/
theorem C102_checks_that_can_be_left_out (hP : P.Plain) {heap : Addr → V} {pre post : List (Op V E)} {a : Api V E} (hn : ∀ op ∈ pre ++ .api a :: post, op.Within (Api.Named nm) fun _ _ => True) (hwr : ∀ op ∈ pre ++ .api a :: post, op.Within Api.Writes fun _ _ => True)
    (hsm : Small (pre ++ .api a :: post)) {o1 o2 : List (OpOut V E)} {o : ApiOut} {s : AState V E} (hl : o1.length = pre.length) (ho : OnlyLooks a o) (hseen : ∀ x ∈ a.slots, Seen pre o1 x)
    (hs : aRun P (AState.start heap) (pre ++ .api a :: post) = some (o1 ++ .api o :: o2, s)) (fuel : Nat) :
    ∃ (w w' : World V E), runOps P (fuel + 3) (World.start heap) (pre ++ .api a :: post) = .done (o1 ++ .api o :: o2, w) ∧ runOps P (fuel + 3) (World.start heap) (pre ++ post) = .done (o1 ++ o2, w') ∧ SameEnd s.named s.named w w' := by
  have hr := run_left_out hl hseen hs ho
  have hin : ∀ op ∈ pre ++ post, op ∈ pre ++ .api a :: post := by
    intro op hop
    rcases List.mem_append.1 hop with h | h <;> simp [h]
  have hsm' : Small (pre ++ post) := by
    obtain ⟨h1, h2⟩ := hsm
    refine ⟨?_, ?_⟩
    · simp only [List.length_append, List.length_cons] at h1 ⊢; omega
    · simp only [List.map_append, List.map_cons, List.sum_append, List.sum_cons] at h2 ⊢; omega
  obtain ⟨w, w1, w2⟩ := C56_library_refines_abstract_mock (plain_named hP) hn hwr hsm hs fuel
  obtain ⟨w', w3, w4⟩ := C56_library_refines_abstract_mock (plain_named hP) (fun op h => hn op (hin op h)) (fun op h => hwr op (hin op h)) hsm' hr fuel
  exact ⟨w, w', w1, w3, fun m off => (w4.calls m off).trans (w2.calls m off).symm, w4.log.trans w2.log.symm, w4.heap.trans w2.heap.symm, w4.mocks.trans w2.mocks.symm⟩

/-! ## A concrete case -/
namespace LeftOutDemo
open FakeIt.Demo FakeIt.ChecksDemo

/-- A check that fails: the first method has been called with 4. -/
def check : Api Nat Nat := .verify .involved [.leaf ⟨0, .meth 0 0, eq 4, none⟩] .once .asBool

theorem all_named : ∀ op ∈ before ++ .api check :: behind, op.Within (Api.Named Demo.nm) fun _ _ => True := by
  intro op hop
  rcases List.mem_append.1 hop with h | h
  · exact ChecksDemo.all_named op (by simp [h])
  · rcases List.mem_cons.1 h with rfl | h
    · intro x hx
      exact ChecksDemo.all_named (.api ChecksDemo.check) (by simp) x (by
        have e : check.slots = [(0, .meth 0 0)] := rfl
        rw [e] at hx
        cases List.mem_singleton.1 hx
        exact List.mem_cons_self)
    · exact ChecksDemo.all_named op (by simp [h])

theorem all_write : ∀ op ∈ before ++ .api check :: behind, op.Within Api.Writes fun _ _ => True := by
  intro op hop
  rcases List.mem_append.1 hop with h | h
  · exact ChecksDemo.all_write op (by simp [h])
  · rcases List.mem_cons.1 h with rfl | h
    · exact (tidyApi_script (show tidyApi check = true from rfl)).2
    · exact ChecksDemo.all_write op (by simp [h])

theorem check_run : ∃ s, aRun quiet (AState.start heap0) (before ++ .api check :: behind) = some (results1 ++ .api (.verdict false) :: results2, s) := ⟨_, rfl⟩

/-- Its method has been stubbed before. -/
theorem check_seen : ∀ x ∈ check.slots, Seen before results1 x := by
  intro x hx
  have e : check.slots = [(0, .meth 0 0)] := rfl
  rw [e] at hx
  cases List.mem_singleton.1 hx
  exact ⟨[.api (.newMock 0)], [.call 0 0 [.val 7]], _, [.api (.mockId 0)], [.call (.ret 5)], .matcher 0, rfl, rfl, rfl, by simp, List.mem_cons_self, by simp [Keeps]⟩

-- the hypotheses of `C102_checks_that_can_be_left_out` hold for it
example : ∃ (w' : World Nat Nat), runOps quiet 3 (World.start heap0) (before ++ behind) = .done (results1 ++ results2, w') := by
  obtain ⟨s, hs⟩ := check_run
  obtain ⟨w, w', -, h, -⟩ := C102_checks_that_can_be_left_out (nm := Demo.nm) (pre := before) (post := behind) (a := check) (o := .verdict false) quiet_plain all_named all_write (by constructor <;> decide +kernel) rfl rfl check_seen hs 0
  exact ⟨w', h⟩

/-- A check that fails: the first method has been called. -/
def looking : Api Nat Nat := .verify .involved [.leaf ⟨0, .meth 0 0, .any, none⟩] .once .asBool

/-- On a mock of an existing object a call of a method that has not been named goes to the object; after the check it does not any more. -/
theorem spied : (∃ w, runOps quiet 3 (World.start heap0) ([.api (.newSpy 0)] ++ .api looking :: [.call 0 0 [.val 7]]) = .done ([.api (.mockId 0)] ++ .api (.verdict false) :: [.call .unexpected], w)) ∧
    ∃ w, runOps quiet 3 (World.start heap0) ([.api (.newSpy 0)] ++ [.call 0 0 [.val 7]]) = .done ([.api (.mockId 0)] ++ [.call (.ret 10)], w) := ⟨⟨_, rfl⟩, _, rfl⟩

end LeftOutDemo

/-- **C102**, the hypothesis is needed: a failing check of a method that has not been named before changes what a later call does. On a mock of an existing object the call goes to the object without the check, and is an unexpected call with it. -/
theorem C102_first_checks_matter : ∃ (P : Prog Nat Nat) (heap : Addr → Nat) (pre post : List (Op Nat Nat)) (a : Api Nat Nat) (o : ApiOut) (o1 o2 o2' : List (OpOut Nat Nat)) (w w' : World Nat Nat), P.Plain ∧ OnlyLooks a o ∧
    runOps P 3 (World.start heap) (pre ++ .api a :: post) = .done (o1 ++ .api o :: o2, w) ∧ runOps P 3 (World.start heap) (pre ++ post) = .done (o1 ++ o2', w') ∧ o2 = [.call .unexpected] ∧ o2' = [.call (.ret 10)] := by
  obtain ⟨⟨w, h⟩, w', h'⟩ := LeftOutDemo.spied
  exact ⟨Demo.quiet, Demo.heap0, _, _, LeftOutDemo.looking, .verdict false, _, _, _, w, w', Demo.quiet_plain, rfl, h, h', rfl, rfl⟩

end FakeIt
