import Verif.Props.Recording
import Verif.Props.Verification
/-!
# C13, C16, C19, C23: what verification does after 2^32 calls

Ordinals have 32 bits (C11), and the invocations a verification works on are put into a set ordered by ordinal.  Two calls exactly 2^32 calls apart have the same
ordinal, so the verification sees only one of them.
-/
namespace FakeIt
variable {V E : Type} {P : Prog V E} {nm : MockId → Nat → Nat}
open Spec

namespace Demo

/-- Two mocks with method 0 stubbed for all arguments, one call of the first. -/
def farOps : List (Op Nat Nat) :=
  [.api (.newMock 0), .api (.newMock 0), .api (.when_ (tgt 0 0 .any) [.forever (.ret 1)] false), .api (.when_ (tgt 1 0 .any) [.forever (.ret 1)] false), .call 0 0 []]

/-- `l` is the history of the second mock's method; `n` calls have been made in all. -/
def far (l : List (Invocation Nat)) (n : Nat) : World Nat Nat := { (after farOps).updBody 1 0 fun b => { b with invs := l } with invTotal := n }

/-- The next recorded call of the second mock. -/
def farEntry (n : Nat) : Invocation Nat := { uid := n + 1, ordinal := (n + 1) % wrap32, method := 2, args := [], verified := false, matcher := some 2 }

theorem far_call (l : List (Invocation Nat)) (n : Nat) : callSlot prog 5 (far l n) 1 0 [] = .done (.ret 1, far (l ++ [farEntry n]) (n + 1)) := rfl

theorem far_reach (n : Nat) : ∃ l : List (Invocation Nat), Reach prog Demo.nm (far l (n + 1)) := by
  induction n with
  | zero =>
    refine ⟨[], Reach.run (fuel := 5) (outs := _) farOps ?_ (.start heap0) rfl⟩
    intro op h
    simp only [farOps, List.mem_cons, List.not_mem_nil, or_false] at h
    rcases h with rfl | rfl | rfl | rfl | rfl <;> simp [Op.Within, Api.Named, Api.slots, SlotRef.Named, tgt, Demo.nm, intMax]
  | succ n ih =>
    obtain ⟨l, hw⟩ := ih
    exact ⟨l ++ [farEntry (n + 1)], .step (fuel := 5) (op := .call 1 0 []) (out := .call (.ret 1)) hw trivial (by simp only [opStep, far_call]; rfl)⟩

/-- The second call of the first mock, made when `n` calls have been made in all. -/
def farSecond (n : Nat) : Invocation Nat := { uid := n + 1, ordinal := (n + 1) % wrap32, method := 1, args := [], verified := false, matcher := some 0 }

/-- The first call of the first mock. -/
def farFirst : Invocation Nat := { uid := 1, ordinal := 1, method := 1, args := [], verified := false, matcher := some 0 }

/-- The world after the second call of the first mock. -/
def farEnd (l : List (Invocation Nat)) (n : Nat) : World Nat Nat :=
  { (far l n).updBody 0 0 fun b => { b with invs := [farFirst, farSecond n] } with invTotal := n + 1 }

theorem farEnd_call (l : List (Invocation Nat)) (n : Nat) : callSlot prog 5 (far l n) 0 0 [] = .done (.ret 1, farEnd l n) := rfl

theorem farEnd_reach (n : Nat) : ∃ l : List (Invocation Nat), Reach prog Demo.nm (farEnd l (n + 1)) := by
  obtain ⟨l, hw⟩ := far_reach n
  exact ⟨l, .step (fuel := 5) (op := .call 0 0 []) (out := .call (.ret 1)) hw trivial (by simp only [opStep, farEnd_call]; rfl)⟩

end Demo

/-- C13 fails without the bound on the number of calls: two calls of a method have been recorded, but the sequence a verification works on contains only the first
one, because the second one was made 2^32 calls later. -/
theorem C13_a_call_is_lost : ∃ (w : World Nat Nat) (x y : Invocation Nat), Reach Demo.prog Demo.nm w ∧ history w 0 0 = [x, y] ∧ y.uid = x.uid + 2 ^ 32 ∧
    sortByOrder ((Source.mock 0).collect Demo.prog w []) = [x] := by
  obtain ⟨l, hw⟩ := Demo.farEnd_reach (2 ^ 32 - 1)
  exact ⟨_, Demo.farFirst, Demo.farSecond (2 ^ 32), hw, rfl, rfl, rfl⟩

/-- C16 and C19 fail without the bound: after two calls of the method `Verify(Method(mock,f)).Exactly(2)` reports a failure. -/
theorem C16_miscounts_after_a_wrap : ∃ (w w' : World Nat Nat) (x y : Invocation Nat), Reach Demo.prog Demo.nm w ∧ history w 0 0 = [x, y] ∧
    (∀ i ∈ history w 0 0, Recognises (Demo.leaf 0 0 .any) w.heap i) ∧
    apiStep Demo.prog w (.verify .involved [.leaf (Demo.leaf 0 0 .any)] (.exactly 2) (.stmt false)) = .done (w', .verdict false) := by
  obtain ⟨l, hw⟩ := Demo.farEnd_reach (2 ^ 32 - 1)
  exact ⟨_, _, Demo.farFirst, Demo.farSecond (2 ^ 32), hw, rfl, fun i _ => .inr trivial, rfl⟩

/-- C23, the verdict, for any number of calls: `VerifyNoOtherInvocations(sources)` passes iff every recorded invocation of the sources is verified. -/
theorem C23_verdict_after_any_number_of_calls (hP : P.Named nm) {w w' : World V E} (hw : Reach P nm w) {srcs : List (Source V)} {mode : VMode} {b : Bool}
    (hn : (Api.verifyNoOther (E := E) srcs mode).Named nm) (h : apiStep P w (.verifyNoOther srcs mode) = .done (w', .verdict b)) :
    (b = true ↔ ∀ s ∈ srcs, ∀ i, InSource P w s i → i.verified = true) ∧ ∀ m off, history w' m off = history w m off := by
  change noOtherStmt P w srcs mode = .done (w', .verdict b) at h
  simp only [noOtherStmt, R.bind_eq_done] at h
  obtain ⟨⟨w1, ok⟩, h1, h2⟩ := h
  have hwf : Wf P nm w1 := (touchAll_stable apiStable2 _ hn (hw.wf hP).inv2 h1).wf (hw.wf hP)
  have hsc := touchAll_same _ h1
  cases ok with
  | false => simp at h2
  | true =>
    dsimp only at h2
    split at h2
    · simp at h2
    · rename_i hal
      have hal : AliveS w1 (aggregate srcs) := aliveS_of (by simpa using hal)
      have hm := (collect_spec (P := P) hwf.recs (aggregate srcs) hal [] (by intro i hi; cases hi)).1
      have hm : ∀ i, i ∈ (aggregate srcs).collect P w1 [] ↔ ∃ s ∈ srcs, InSource P w s i := by
        intro i
        rw [hm, hsc.inSource, inSource_aggregate]; simp
      have key : noOther P w1 srcs = none ↔ ∀ s ∈ srcs, ∀ i, InSource P w s i → i.verified = true := by
        simp only [noOther]
        split
        · rename_i hl
          obtain ⟨x, hx⟩ := List.exists_mem_of_length_pos hl
          obtain ⟨hx, hv⟩ := List.mem_filter.1 hx
          obtain ⟨s, hs, hi⟩ := (hm x).1 hx
          refine ⟨(by intro h; cases h), fun hall => ?_⟩
          rw [hall s hs x hi] at hv; cases hv
        · rename_i hl
          refine ⟨fun _ s hs i hi => ?_, fun _ => rfl⟩
          cases hv : i.verified with
          | true => rfl
          | false => exact absurd (List.length_pos_of_mem (List.mem_filter.2 ⟨(hm i).2 ⟨s, hs, hi⟩, by simp [hv]⟩)) hl
      split at h2
      · simp at h2
      all_goals
        split at h2
        all_goals
          rename_i he
          simp at h2
          obtain ⟨rfl, rfl⟩ := h2
          refine ⟨?_, hsc.hist⟩
          rw [← key, he]
          simp

/-- Case: the world after 2^32 + 1 calls; nothing is verified. -/
example : ∃ (w w' : World Nat Nat), Reach Demo.prog Demo.nm w ∧ w.invTotal = 2 ^ 32 + 1 ∧
    (Api.verifyNoOther (V := Nat) (E := Nat) [Source.mock 0] (.stmt false)).Named Demo.nm ∧
    apiStep Demo.prog w (.verifyNoOther [.mock 0] (.stmt false)) = .done (w', .verdict false) := by
  obtain ⟨l, hw⟩ := Demo.farEnd_reach (2 ^ 32 - 1)
  exact ⟨_, _, hw, rfl, by simp [Api.Named, Api.slots, aggregate, Source.leaves], rfl⟩

end FakeIt
