import Verif.Lemmas.Spelling
import Verif.Props.Refinement
/-!
# C95: how a script is written does not matter
-/
namespace FakeIt
open FakeIt.Spec FakeIt.Spec.Spelling

variable {V E : Type} {P : Prog V E} {nm : MockId → Nat → Nat}

/-- **C95**. Two tests that differ only in how the scripts of their stubbings are written — what is done `n` times is written `n` times, something is written behind what is done for ever — are the same: all steps have the same outcomes, and in the end the recorded
calls of all methods, the reports, the test's variables and the mocks' data members are the same. -/
theorem C95_how_scripts_are_written_does_not_matter (hP : P.Plain) {heap : Addr → V} {ops ops' : List (Op V E)} (hsame : ops.map spelledOp = ops'.map spelledOp) (hw : ∀ op ∈ ops, WellWritten op) (hw' : ∀ op ∈ ops', WellWritten op)
    (hn : ∀ op ∈ ops, op.Within (Api.Named nm) fun _ _ => True) (hn' : ∀ op ∈ ops', op.Within (Api.Named nm) fun _ _ => True) (hwr : ∀ op ∈ ops, op.Within Api.Writes fun _ _ => True) (hwr' : ∀ op ∈ ops', op.Within Api.Writes fun _ _ => True)
    (hsm : Small ops) (hsm' : Small ops') {outs : List (OpOut V E)} {s : AState V E} (hs : aRun P (AState.start heap) ops = some (outs, s)) (fuel : Nat) :
    ∃ (w w' : World V E), runOps P (fuel + 3) (World.start heap) ops = .done (outs, w) ∧ runOps P (fuel + 3) (World.start heap) ops' = .done (outs, w') ∧
      (∀ m off, (history w m off).map (recOf s.named) = (history w' m off).map (recOf s.named)) ∧ w.log.map (reportOf s.named) = w'.log.map (reportOf s.named) ∧ w.heap = w'.heap ∧
      w.mocks.map (fun k => (k.cls, k.alive, k.data)) = w'.mocks.map (fun k => (k.cls, k.alive, k.data)) := by
  have h1 := run_spelled (P := P) ops hw (AState.start heap)
  have h2 := run_spelled (P := P) ops' hw' (AState.start heap)
  rw [hsame, h2, hs] at h1
  obtain ⟨r, hr, he⟩ := Option.map_eq_some_iff.1 (show (aRun P (AState.start heap) ops').map (fun r => (r.1, stateS r.2)) = some (outs, stateS s) from h1)
  obtain ⟨outs', s'⟩ := r
  simp only [Prod.mk.injEq] at he
  obtain ⟨rfl, he⟩ := he
  obtain ⟨w, w1, w2⟩ := C56_library_refines_abstract_mock (plain_named hP) hn hwr hsm hs fuel
  obtain ⟨w', w3, w4⟩ := C56_library_refines_abstract_mock (plain_named hP) hn' hwr' hsm' hr fuel
  have e1 : s'.calls = s.calls := (congrArg AState.calls he : (stateS s').calls = (stateS s).calls)
  have e2 : s'.named = s.named := (congrArg AState.named he : (stateS s').named = (stateS s).named)
  have e3 : s'.heap = s.heap := (congrArg AState.heap he : (stateS s').heap = (stateS s).heap)
  have e4 : s'.log = s.log := (congrArg AState.log he : (stateS s').log = (stateS s).log)
  have e5 : s'.mocks.map (fun k => (k.cls, k.alive, k.data)) = s.mocks.map fun k => (k.cls, k.alive, k.data) := by
    have := congrArg (List.map fun (k : AMock V E) => (k.cls, k.alive, k.data)) (congrArg AState.mocks he)
    simp only [stateS, List.map_map] at this
    exact this
  refine ⟨w, w', w1, w3, ?_, ?_, ?_, ?_⟩
  · intro m off
    rw [w2.calls, ← e2, w4.calls]
    simp only [callsTo, e1]
  · rw [w2.log, ← e2, w4.log, e4]
  · rw [w2.heap, w4.heap, e3]
  · rw [w2.mocks, w4.mocks, e5]

/-! ## A concrete case -/
namespace SpellingDemo
open FakeIt.Demo

/-- The story of C56 with its script written in another way. -/
def other : List (Op Nat Nat) := story.set 2 (.api (.when_ (tgt 0 0 (eq 7)) [.rep 1 (.ret 5), .rep 1 (.ret 5), .rep 1 (.user 0)] false))

/-- Two scripts with something behind what is done for ever. -/
example : spelled (V := Nat) (E := Nat) [.rep 2 (.ret 5), .forever (.ret 6), .rep 3 (.ret 7)] = spelled [.rep 1 (.ret 5), .rep 1 (.ret 5), .forever (.ret 6)] := by decide +kernel

theorem story_written : ∀ op ∈ story, WellWritten op := by
  intro op hop
  simp only [story, List.mem_cons, List.not_mem_nil, or_false] at hop
  rcases hop with rfl | rfl | rfl | rfl | rfl | rfl | rfl | rfl | rfl | rfl | rfl | rfl | rfl | rfl | rfl | rfl | rfl | rfl <;> first | trivial | rfl

theorem same_spelling : story.map spelledOp = other.map spelledOp := by rfl

theorem mem_other {op : Op Nat Nat} (h : op ∈ other) : op ∈ story ∨ op = .api (.when_ (tgt 0 0 (eq 7)) [.rep 1 (.ret 5), .rep 1 (.ret 5), .rep 1 (.user 0)] false) :=
  List.mem_or_eq_of_mem_set h

-- the hypotheses of `C95_how_scripts_are_written_does_not_matter` hold for them
example : ∃ (w w' : World Nat Nat), runOps quiet 3 (World.start heap0) story = .done (storyOuts, w) ∧ runOps quiet 3 (World.start heap0) other = .done (storyOuts, w') ∧ w.heap = w'.heap := by
  obtain ⟨s, hs, -⟩ := story_run
  obtain ⟨w, w', h1, h2, -, -, h3, -⟩ := C95_how_scripts_are_written_does_not_matter (nm := FakeIt.Demo.nm) (ops := story) (ops' := other) quiet_plain same_spelling story_written
    (fun op hop => (mem_other hop).elim (story_written op) fun h => by rw [h]; rfl) story_named
    (fun op hop => (mem_other hop).elim (story_named op) fun h => by
      rw [h]
      intro x hx
      rw [List.mem_singleton.1 hx]
      exact ⟨rfl, by decide⟩)
    story_writes (fun op hop => (mem_other hop).elim (story_writes op) fun h => by rw [h]; trivial) ⟨by decide +kernel, by decide +kernel⟩ ⟨by decide +kernel, by decide +kernel⟩ hs 0
  exact ⟨w, w', h1, h2, h3⟩

end SpellingDemo

end FakeIt
