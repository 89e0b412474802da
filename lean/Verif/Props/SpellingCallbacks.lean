import Verif.Lemmas.SpellingCallbacks
import Verif.Props.SelfReset
/-!
# C96: how a script is written, in tests whose callbacks use mocks
-/
namespace FakeIt
open FakeIt.Spec FakeIt.Spec.Spelling

variable {V E : Type} {P P' : Prog V E} {nm : MockId → Nat → Nat}

private theorem indistinct {s s' : AState V E} {w w' : World V E} (h : Agrees s w) (h' : Agrees s' w') (he : stateS s = stateS s') : Indistinct s.named w w' := by
  have e1 : s.calls = s'.calls := (congrArg AState.calls he : (stateS s).calls = (stateS s').calls)
  have e2 : s.named = s'.named := (congrArg AState.named he : (stateS s).named = (stateS s').named)
  have e3 : s.heap = s'.heap := (congrArg AState.heap he : (stateS s).heap = (stateS s').heap)
  have e4 : s.log = s'.log := (congrArg AState.log he : (stateS s).log = (stateS s').log)
  have e5 : s.mocks.map (fun k => (k.cls, k.alive, k.data)) = s'.mocks.map fun k => (k.cls, k.alive, k.data) := by
    have := congrArg (List.map fun (k : AMock V E) => (k.cls, k.alive, k.data)) (congrArg AState.mocks he)
    simp only [stateS, List.map_map] at this
    exact this
  refine ⟨fun m off => ?_, ?_, ?_, ?_⟩
  · rw [h.calls, e2, h'.calls]
    simp only [callsTo, e1]
  · rw [h.log, e2, h'.log, e4]
  · rw [h.heap, h'.heap, e3]
  · rw [h.mocks, h'.mocks, e5]

/-- If a test runs with all its scripts – also those in its callbacks – written out, it runs as it is written, with the same outcomes, and everything a test can see is the same.
What is missing: the other direction, which is false (`C96_writing_out_can_break_tests`). -/
theorem C96_tests_that_run_written_out_run_as_written_partial (hP : P.Within (fun a => a.Named nm ∧ a.Writes) fun _ _ => True) (hw : P.Within WrittenApi fun _ _ => True) {heap : Addr → V} {ops : List (Op V E)}
    (hops : ∀ op ∈ ops, op.Within (fun a => a.Named nm ∧ a.Writes) fun _ _ => True) (hwr : ∀ op ∈ ops, WellWritten op) {depth : Nat} {outs : List (OpOut V E)} {t : AState V E}
    (ht : rRun (spelledProg P) depth (AState.start heap) (ops.map spelledOp) = some (outs, t)) (hm : t.made < wrap32) (hl : t.named.length < wrap32) (fuel : Nat) :
    ∃ (w w' : World V E), runOps (spelledProg P) (3 * depth + fuel) (World.start heap) (ops.map spelledOp) = .done (outs, w) ∧ runOps P (3 * depth + fuel) (World.start heap) ops = .done (outs, w') ∧ Indistinct t.named w w' := by
  obtain ⟨s', h1, h2⟩ := rRun_ways hw depth ops hwr (AState.start heap) ht
  have hP' : (spelledProg P).Within (fun a => a.Named nm ∧ a.Writes) fun _ _ => True := fun f vs => body_allowed (hP f vs)
  have hops' : ∀ op ∈ ops.map spelledOp, op.Within (fun a => a.Named nm ∧ a.Writes) fun _ _ => True := by
    intro op hop
    obtain ⟨o, ho, rfl⟩ := List.mem_map.1 hop
    have := hops o ho
    cases o with
    | call m off args => trivial
    | api a => exact api_allowed this
  obtain ⟨w, w1, w2⟩ := C72_library_refines_reentrant_mock hP' hops' ht hm hl fuel
  obtain ⟨w', w3, w4⟩ := C72_library_refines_reentrant_mock hP hops h1 (by rw [show s'.made = t.made by rw [h2]; rfl]; exact hm) (by rw [show s'.named = t.named by rw [h2]; rfl]; exact hl) fuel
  refine ⟨w, w', w1, w3, ?_⟩
  have hts : t.named = s'.named := by rw [h2]; rfl
  refine ⟨fun m off => ?_, ?_, ?_, ?_⟩
  · rw [w2.calls, hts, w4.calls, h2]
    rfl
  · rw [w2.log, hts, w4.log, h2]
    rfl
  · rw [w2.heap, w4.heap, h2]
    rfl
  · rw [w2.mocks, w4.mocks, h2]
    simp only [stateS, List.map_map]
    rfl

/-- If no callback resets or destroys a mock, two tests that differ only in how their scripts are written – in the test or in its callbacks – are the same: all steps have the same outcomes, and everything a test can see is the same. -/
theorem C96_writing_does_not_matter_if_callbacks_keep_mocks_partial (hP : P.Within (fun a => a.Named nm ∧ a.Writes) fun _ _ => True) (hP' : P'.Within (fun a => a.Named nm ∧ a.Writes) fun _ _ => True)
    (hk : P.Within Keeps fun _ _ => True) (hk' : P'.Within Keeps fun _ _ => True) (hprog : spelledProg P = spelledProg P') {heap : Addr → V} {ops ops' : List (Op V E)} (hsame : ops.map spelledOp = ops'.map spelledOp)
    (hops : ∀ op ∈ ops, op.Within (fun a => a.Named nm ∧ a.Writes) fun _ _ => True) (hops' : ∀ op ∈ ops', op.Within (fun a => a.Named nm ∧ a.Writes) fun _ _ => True) (hwr : ∀ op ∈ ops, WellWritten op) (hwr' : ∀ op ∈ ops', WellWritten op)
    {depth : Nat} {outs : List (OpOut V E)} {s : AState V E} (hs : rRun P depth (AState.start heap) ops = some (outs, s)) (hm : s.made < wrap32) (hl : s.named.length < wrap32) (fuel : Nat) :
    ∃ (w w' : World V E), runOps P (3 * depth + fuel) (World.start heap) ops = .done (outs, w) ∧ runOps P' (3 * depth + fuel) (World.start heap) ops' = .done (outs, w') ∧ Indistinct s.named w w' := by
  have written : ∀ {b : Body V E}, b.Within Keeps (fun _ _ => True) → b.Within WrittenApi fun _ _ => True := by
    intro b hb
    induction b with
    | done o => trivial
    | setArg i v k ih => exact ih hb
    | call m off args k ih => exact ⟨trivial, fun o => ih o (hb.2 o)⟩
    | api a k ih => exact ⟨hb.1.1, fun o => ih o (hb.2 o)⟩
  have h1 := rRun_back hk depth ops hwr (AState.start heap) hs
  rw [hprog, hsame] at h1
  obtain ⟨s', h2, h3⟩ := rRun_ways (fun f vs => written (hk' f vs)) depth ops' hwr' (AState.start heap) h1
  obtain ⟨w, w1, w2⟩ := C72_library_refines_reentrant_mock hP hops hs hm hl fuel
  have e1 : s'.made = s.made := (congrArg AState.made h3).symm
  have e2 : s'.named = s.named := (congrArg AState.named h3).symm
  obtain ⟨w', w3, w4⟩ := C72_library_refines_reentrant_mock hP' hops' h2 (by rw [e1]; exact hm) (by rw [e2]; exact hl) fuel
  exact ⟨w, w', w1, w3, indistinct w2 w4 h3⟩

private theorem after_one_more (fuel : Nat) {op : Op V E} : ∀ {ops : List (Op V E)} {w w1 : World V E} {outs : List (OpOut V E)}, runOps P fuel w ops = .done (outs, w1) →
    runOps P fuel w (ops ++ [op]) = opStep P fuel w1 op >>= fun r => .done (outs ++ [r.1], r.2)
  | [], w, w1, outs, h => by
    cases h
    simp only [List.nil_append, runOps]
    rfl
  | o :: ops, w, w1, outs, h => by
    simp only [runOps, List.cons_append] at h ⊢
    cases hs : opStep P fuel w o with
    | ub => rw [hs] at h; cases h
    | oof => rw [hs] at h; cases h
    | done r =>
      obtain ⟨o1, w2⟩ := r
      rw [hs] at h
      simp only [R.bind_done] at h ⊢
      cases hr : runOps P fuel w2 ops with
      | ub => rw [hr] at h; cases h
      | oof => rw [hr] at h; cases h
      | done q =>
        obtain ⟨os, w3⟩ := q
        rw [hr] at h
        cases h
        rw [after_one_more fuel hr]
        cases opStep P fuel w3 op <;> rfl

/-! ## Concrete cases -/
open Demo

/-- The code violates C96: with `When(Method(m, f)).Do(2_Times(g))`, where `g` destroys `m`, a call of `f` answers 7; with `When(Method(m, f)).Do(g, g)` it is undefined behaviour. -/
theorem C96_writing_out_can_break_tests : ¬ WritingDoesNotMatter quits heap0 := by
  intro h
  obtain ⟨fuel, w', e⟩ := h (quitOps [.rep 2 (.user 1)] ++ [.call 0 0 [.val 1]]) (quitOps [.rep 1 (.user 1), .rep 1 (.user 1)] ++ [.call 0 0 [.val 1]]) 9 [.api (.mockId 0), .api (.matcher 0), .call (.ret 7)] _ rfl
    (by intro op hop; simp [quitOps] at hop; rcases hop with rfl | rfl | rfl <;> first | trivial | rfl) (by intro op hop; simp [quitOps] at hop; rcases hop with rfl | rfl | rfl <;> first | trivial | rfl) rfl
  have hc := (C80_last_use_is_undefined quits_named (quit_reach [.rep 1 (.user 1), .rep 1 (.user 1)]) (m := 0) (off := 0) rfl (by intro d hd; cases hd; decide) rfl (args := [.val 1]) ⟨[], [], rfl, (by trivial), by simp⟩ rfl (.destroy _) fuel).1
  rw [after_one_more fuel (ops := quitOps [.rep 1 (.user 1), .rep 1 (.user 1)]) (w1 := quitAt [.rep 1 (.user 1), .rep 1 (.user 1)]) (outs := [.api (.mockId 0), .api (.matcher 0)]) rfl] at e
  cases hr : callSlot quits fuel (quitAt [.rep 1 (.user 1), .rep 1 (.user 1)]) 0 0 [.val 1] with
  | done r => exact hc r hr
  | ub => rw [opStep, hr] at e; cases e
  | oof => rw [opStep, hr] at e; cases e

namespace SpellingCallbacksDemo

/-- A callback resets its mock, stubs another method with `Return(2_Times(8))` and calls it. -/
def again : List (Op Nat Nat) := quitStory.take 7

theorem again_written : ∀ op ∈ again, WellWritten op := by
  intro op hop
  simp only [again, quitStory, List.take_succ_cons, List.take_zero, List.mem_cons, List.not_mem_nil, or_false] at hop
  rcases hop with rfl | rfl | rfl | rfl | rfl | rfl | rfl <;> first | trivial | rfl

theorem quits_written : quits.Within WrittenApi fun _ _ => True := by
  intro f vs
  match f with
  | 0 => exact ⟨trivial, fun _ => ⟨rfl, fun _ => ⟨trivial, fun o => by cases o <;> trivial⟩⟩⟩
  | 1 => exact ⟨trivial, fun _ => trivial⟩
  | 2 => exact ⟨trivial, fun _ => trivial⟩
  | _ + 3 => trivial

theorem again_run : ∃ t, rRun (spelledProg quits) 4 (AState.start heap0) (again.map spelledOp) = some (quitOuts.take 7, t) ∧ t.made = 5 ∧ t.named.length = 2 := by
  have h : (rRun (spelledProg quits) 4 (AState.start heap0) (again.map spelledOp)).map (fun r => (r.1, r.2.made, r.2.named.length)) = some (quitOuts.take 7, 5, 2) := by decide +kernel
  obtain ⟨⟨o, s⟩, h1, h2⟩ := Option.map_eq_some_iff.1 h
  simp only [Prod.mk.injEq] at h2
  obtain ⟨rfl, h3, h4⟩ := h2
  exact ⟨s, h1, h3, h4⟩

/-- The hypotheses of `C96_tests_that_run_written_out_run_as_written_partial` hold for it. -/
example : ∃ (w w' : World Nat Nat), runOps (spelledProg quits) 12 (World.start heap0) (again.map spelledOp) = .done (quitOuts.take 7, w) ∧ runOps quits 12 (World.start heap0) again = .done (quitOuts.take 7, w') ∧ w.heap = w'.heap := by
  obtain ⟨t, ht, hm, hl⟩ := again_run
  obtain ⟨w, w', h1, h2, h3⟩ := C96_tests_that_run_written_out_run_as_written_partial (nm := Demo.nm) quits_within quits_written (fun op hop => quit_ops op (List.mem_of_mem_take hop)) again_written ht (by rw [hm]; decide) (by rw [hl]; decide) 0
  exact ⟨w, w', h1, h2, h3.heap⟩

/-- The story of C72 with `Do(2_Times(g), h)`. -/
def short : List (Op Nat Nat) := busyStory.set 6 (.api (.when_ (tgt 1 1 .any) [.rep 2 (.user 1), .forever (.ret 4), .rep 1 (.ret 2)] false))

/-- The same with `Do(g, g, h)`. -/
def long : List (Op Nat Nat) := busyStory.set 6 (.api (.when_ (tgt 1 1 .any) [.rep 1 (.user 1), .rep 1 (.user 1), .forever (.ret 4)] false))

theorem busy_written : ∀ op ∈ busyStory, WellWritten op := by
  intro op hop
  simp only [busyStory, List.mem_cons, List.not_mem_nil, or_false] at hop
  rcases hop with rfl | rfl | rfl | rfl | rfl | rfl | rfl | rfl | rfl | rfl | rfl | rfl | rfl <;> first | trivial | rfl

theorem busy_keeps : busy.Within Keeps fun _ _ => True := by
  intro f vs
  match f with
  | 0 =>
    simp only [busy]
    split
    · trivial
    · exact ⟨trivial, fun o => by cases o <;> trivial⟩
  | 1 =>
    refine ⟨⟨rfl, by simp, by simp⟩, fun _ => ⟨trivial, fun o => ⟨⟨trivial, by simp, by simp⟩, fun r => ?_⟩⟩⟩
    dsimp only
    split <;> trivial
  | 10 => exact ⟨trivial, fun o => by cases o <;> trivial⟩
  | 2 | 3 | 4 | 5 | 6 | 7 | 8 | 9 => trivial
  | _ + 11 => trivial

/-- What happens. -/
def shortOuts : List (OpOut Nat Nat) :=
  [.api (.mockId 0), .api (.mockId 1), .api (.matcher 0), .call (.ret 24), .api (.verdict true), .call (.ret 111), .api (.matcher 2), .api .unit,
   .call (.ret 103), .call (.exc 1), .call (.ret 104), .api (.verdict true), .api (.verdict false)]

theorem short_run : ∃ s, rRun busy 6 (AState.start heap0) short = some (shortOuts, s) ∧ s.made < wrap32 ∧ s.named.length < wrap32 := by
  have h : (rRun busy 6 (AState.start heap0) short).map (fun r => (r.1, decide (r.2.made < wrap32), decide (r.2.named.length < wrap32))) = some (shortOuts, true, true) := by decide +kernel
  obtain ⟨⟨o, s⟩, h1, h2⟩ := Option.map_eq_some_iff.1 h
  simp only [Prod.mk.injEq, decide_eq_true_eq] at h2
  obtain ⟨rfl, h3, h4⟩ := h2
  exact ⟨s, h1, h3, h4⟩

theorem one_stubbing (acts : List (Act Nat Nat)) : Op.Within (fun a => a.Named Demo.nm ∧ a.Writes) (fun _ _ => True) (.api (.when_ (tgt 1 1 .any) acts false)) :=
  ⟨by simp [Api.Named, Api.slots, SlotRef.Named, tgt, Demo.nm, intMax], trivial⟩

/-- The hypotheses of `C96_writing_does_not_matter_if_callbacks_keep_mocks_partial` hold for them. -/
example : ∃ (w w' : World Nat Nat), runOps busy 18 (World.start heap0) short = .done (shortOuts, w) ∧ runOps busy 18 (World.start heap0) long = .done (shortOuts, w') ∧ w.heap = w'.heap := by
  obtain ⟨s, hs, hm, hl⟩ := short_run
  obtain ⟨w, w', h1, h2, h3⟩ := C96_writing_does_not_matter_if_callbacks_keep_mocks_partial (nm := Demo.nm) (ops := short) (ops' := long) busy_within busy_within busy_keeps busy_keeps rfl rfl
    (fun op hop => (List.mem_or_eq_of_mem_set hop).elim (busy_ops op) fun h => by rw [h]; exact one_stubbing _) (fun op hop => (List.mem_or_eq_of_mem_set hop).elim (busy_ops op) fun h => by rw [h]; exact one_stubbing _)
    (fun op hop => (List.mem_or_eq_of_mem_set hop).elim (busy_written op) fun h => by rw [h]; rfl) (fun op hop => (List.mem_or_eq_of_mem_set hop).elim (busy_written op) fun h => by rw [h]; rfl) hs hm hl 0
  exact ⟨w, w', h1, h2, h3.heap⟩

end SpellingCallbacksDemo

end FakeIt
