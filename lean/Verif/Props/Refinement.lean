import Verif.Lemmas.RefineTotal
import Verif.Props.Demo
/-!
# C56: the library refines a simple abstract mock

`Spec/AbstractMock.lean` defines a small machine without virtual tables, offsets, addresses, sets, sorting and indices. The theorems below say that the model
of the library and that machine run every program with the same outcomes and observable states.

Hypotheses: `Named nm` – each method of a mock is always mentioned at the same `__COUNTER__` value (see C31 for what happens otherwise); `Small` – the 32-bit counters do not
wrap (see C11); `Writes` – verification patterns are ones a user can write (at least one sequence, repetitions of at least zero). For the converse direction, which
has to exclude programs the abstract machine does not describe: `Plain` – callbacks use no mocks; `Orderly` – scripts have positive multiplicities, `Method` does not name a
destructor's entries, `Dtor(mock)` is not mentioned after `mock.Reset()`.
-/
namespace FakeIt
open Spec
variable {V E : Type} {P : Prog V E} {nm : MockId → Nat → Nat}

/-- Every program the abstract mock runs, the library runs with the same outcomes, and everything a test can see agrees afterwards. -/
theorem C56_library_refines_abstract_mock (hP : P.Named nm) {heap : Addr → V} {ops : List (Op V E)} {outs : List (OpOut V E)} {s : AState V E}
    (hn : ∀ op ∈ ops, op.Within (Api.Named nm) fun _ _ => True) (hwr : ∀ op ∈ ops, op.Within Api.Writes fun _ _ => True) (hsm : Small ops)
    (hs : aRun P (AState.start heap) ops = some (outs, s)) (fuel : Nat) :
    ∃ w, runOps P (fuel + 3) (World.start heap) ops = .done (outs, w) ∧ Agrees s w := by
  have g := aRun_grows hs
  have g1 := g.made'
  have g2 := g.named'
  simp only [AState.start, List.length_nil, Nat.zero_add] at g1 g2
  have h1 := hsm.1
  have h2 := hsm.2
  obtain ⟨w, e, hR, -⟩ := run_refines hP (.start heap) (rel_start heap) hn hwr hs (by omega) (by omega) fuel
  exact ⟨w, e, hR.agrees⟩

/-- Conversely, whenever the library runs an orderly program without undefined behaviour, so does the abstract mock, with the same outcomes; and everything a
test can see agrees afterwards. -/
theorem C56_abstract_mock_covers_library (hP : P.Plain) {heap : Addr → V} {ops : List (Op V E)} {outs : List (OpOut V E)} {w : World V E}
    (hn : ∀ op ∈ ops, op.Within (Api.Named nm) fun _ _ => True) (hok : Orderly P (AState.start heap) ops) (hsm : Small ops) {fuel : Nat}
    (hd : runOps P (fuel + 3) (World.start heap) ops = .done (outs, w)) :
    ∃ s, aRun P (AState.start heap) ops = some (outs, s) ∧ Agrees s w := by
  have h1 := hsm.1
  have h2 := hsm.2
  obtain ⟨s, e, hR⟩ := run_total hP (.start heap) (rel_start heap) hn hok (by simpa [AState.start] using h1) (by simpa [AState.start] using h2) hd
  exact ⟨s, e, hR.agrees⟩

/-- An orderly program is defined for the library exactly if it is defined for the abstract mock. -/
theorem C56_same_programs_are_defined (hP : P.Plain) {heap : Addr → V} {ops : List (Op V E)} (hn : ∀ op ∈ ops, op.Within (Api.Named nm) fun _ _ => True)
    (hok : Orderly P (AState.start heap) ops) (hwr : ∀ op ∈ ops, op.Within Api.Writes fun _ _ => True) (hsm : Small ops) (fuel : Nat) (outs : List (OpOut V E)) :
    (∃ w, runOps P (fuel + 3) (World.start heap) ops = .done (outs, w)) ↔ ∃ s, aRun P (AState.start heap) ops = some (outs, s) := by
  constructor
  · rintro ⟨w, hd⟩
    obtain ⟨s, e, -⟩ := C56_abstract_mock_covers_library hP hn hok hsm hd
    exact ⟨s, e⟩
  · rintro ⟨s, hs⟩
    obtain ⟨w, e, -⟩ := C56_library_refines_abstract_mock (plain_named hP) hn hwr hsm hs fuel
    exact ⟨w, e⟩

namespace Demo

/-- A program whose callbacks use no mocks. -/
def quiet : Prog Nat Nat := { prog with fn := fun f vs => if f = 1 then .done (.ret 8) else prog.fn f vs }

theorem quiet_plain : quiet.Plain := by
  intro f vs
  match f with
  | 0 | 1 | 2 | 3 => simp [quiet, prog, Body.Simple, Body.Within]
  | f + 4 => simp [quiet, prog, Body.Simple, Body.Within]

/-- Two mocks, a scripted method, an exhausted script, a faked destructor, a failing and a passing verification, `Reset`. -/
def story : List (Op Nat Nat) :=
  [.api (.newMock 0), .api (.newSpy 0), .api (.when_ (tgt 0 0 (eq 7)) [.rep 2 (.ret 5), .rep 1 (.user 0)] false), .call 0 0 [.val 7], .call 0 0 [.val 3],
   .call 0 0 [.val 7], .call 0 0 [.val 7], .call 0 0 [.val 7], .call 1 1 [.val 4], .api (.spy true [tgt 1 1 .any]), .call 1 1 [.val 4],
   .api (.verify .involved [.leaf ⟨0, .meth 0 0, eq 7, none⟩, .leaf ⟨1, .meth 1 1, .any, none⟩] (.exactly 1) .asBool),
   .api (.verifyNoOther [.mock 0] (.stmt false)), .api (.fake [{ m := 0, slot := .dtor, kind := .any }]), .call 0 3 [], .api (.reset 0), .call 0 0 [.val 7],
   .api (.verify .involved [.leaf ⟨1, .meth 1 1, .any, none⟩] .never (.stmt false))]

/-- A test for `slotOk`. -/
def slotOkB (P : Prog Nat Nat) (s : AState Nat Nat) (x : MockId × SlotRef) : Bool :=
  match s.mocks[x.1]? with
  | none => true
  | some k =>
    match x.2 with
    | .meth off _ => match (P.cls k.cls).dtor with | none => true | some d => off != d && off != d + 1
    | .dtor => !k.wasReset

/-- A test for the rest of `Orderly` (patterns of single method expressions only). -/
def tidyApi : Api Nat Nat → Bool
  | .when_ _ acts false => Spec.writable acts
  | .verify _ pat _ _ => !pat.isEmpty && pat.all fun s => match s with | .leaf _ => true | _ => false
  | _ => true

/-- A test for `Orderly`. -/
def tidy (P : Prog Nat Nat) : AState Nat Nat → List (Op Nat Nat) → Bool
  | _, [] => true
  | s, op :: ops =>
    (match op with | .api a => a.slots.all (slotOkB P s) && tidyApi a | _ => true) &&
      match aStep P s op with
      | none => true
      | some r => tidy P r.2 ops

theorem slotOkB_iff {P : Prog Nat Nat} {s : AState Nat Nat} {x : MockId × SlotRef} (h : slotOkB P s x = true) : slotOk P s x := by
  intro k hk
  unfold slotOkB at h
  rw [hk] at h
  dsimp only at h
  split at h <;> rename_i e <;> simp only [e]
  · intro d hd
    rw [hd] at h
    simpa using h
  · simpa using h

theorem tidyApi_script {a : Api Nat Nat} (h : tidyApi a = true) : scriptOk a ∧ a.Writes := by
  unfold tidyApi at h
  split at h
  · exact ⟨h, trivial⟩
  · simp only [Bool.and_eq_true, Bool.not_eq_true', List.all_eq_true] at h
    refine ⟨trivial, by simpa using h.1, fun s hs => ?_⟩
    have := h.2 s hs
    cases s with
    | leaf l => exact .method l
    | _ => cases this
  · rename_i h1 h2
    unfold scriptOk Api.Writes
    constructor
    · split
      · exact absurd rfl (h1 _ _)
      · trivial
    · split
      · exact absurd rfl (h2 _ _ _ _)
      · trivial

theorem tidy_orderly {P : Prog Nat Nat} {s : AState Nat Nat} {ops : List (Op Nat Nat)} (h : tidy P s ops = true) : Orderly P s ops := by
  induction ops generalizing s with
  | nil => trivial
  | cons op ops ih =>
    simp only [tidy, Bool.and_eq_true] at h
    refine ⟨?_, fun o s' e => ih ?_⟩
    · cases op with
      | call m off args => trivial
      | api a =>
        have h1 := h.1
        simp only [Bool.and_eq_true, List.all_eq_true] at h1
        exact ⟨fun x hx => slotOkB_iff (h1.1 x hx), tidyApi_script h1.2⟩
    · have h2 := h.2
      rw [e] at h2
      exact h2

theorem story_orderly : Orderly quiet (AState.start heap0) story := tidy_orderly (by decide +kernel)

theorem story_named : ∀ op ∈ story, op.Within (Api.Named Demo.nm) fun _ _ => True := by
  have : story.all (fun op => match op with | .api a => a.slots.all (fun x => match x.2 with | .meth off ctr => off == ctr && decide (ctr + 1 < intMax) | .dtor => true) | _ => true) = true := by decide +kernel
  intro op hop
  have := List.all_eq_true.1 this op hop
  cases op with
  | call m off args => trivial
  | api a =>
    intro x hx
    have := List.all_eq_true.1 this x hx
    obtain ⟨m, sl⟩ := x
    cases sl with
    | meth off ctr => simp at this; exact ⟨this.1.symm, this.2⟩
    | dtor => trivial

theorem story_writes : ∀ op ∈ story, op.Within Api.Writes fun _ _ => True := by
  have : story.all (fun op => match op with | .api a => tidyApi a | _ => true) = true := by decide +kernel
  intro op hop
  have := List.all_eq_true.1 this op hop
  cases op with
  | call m off args => trivial
  | api a => exact (tidyApi_script this).2

theorem story_small : Small story := by constructor <;> decide +kernel

/-- What happens in the story. -/
def storyOuts : List (OpOut Nat Nat) :=
  [.api (.mockId 0), .api (.mockId 1), .api (.matcher 0), .call (.ret 5), .call .unexpected, .call (.ret 5), .call (.ret 7), .call .unexpected, .call (.ret 11),
   .api .unit, .call (.ret 11), .api (.verdict true), .api (.verdict false), .api .unit, .call (.ret 0), .api .unit, .call .unexpected, .api (.verdict false)]

theorem story_run : ∃ s, aRun quiet (AState.start heap0) story = some (storyOuts, s) ∧ s.log.length = 5 ∧ (callsTo s 1 1).map (·.verified) = [true] :=
  ⟨_, rfl, rfl, rfl⟩

theorem story_run_library : ∃ w, runOps quiet 3 (World.start heap0) story = .done (storyOuts, w) := ⟨_, rfl⟩

end Demo
open Demo

/-- The hypotheses of `C56_library_refines_abstract_mock` hold for the story. -/
example : ∃ w, runOps quiet 7 (World.start heap0) story = .done (storyOuts, w) ∧ w.log.length = 5 := by
  obtain ⟨s, hs, hl, -⟩ := story_run
  obtain ⟨w, e, ha⟩ := C56_library_refines_abstract_mock (nm := Demo.nm) (plain_named quiet_plain) story_named story_writes story_small hs 4
  exact ⟨w, e, by rw [← hl, ← ha.log, List.length_map]⟩

/-- The hypotheses of `C56_abstract_mock_covers_library` hold for the story. -/
example : ∃ s, aRun quiet (AState.start heap0) story = some (storyOuts, s) := by
  obtain ⟨w, hw⟩ := story_run_library
  obtain ⟨s, e, -⟩ := C56_abstract_mock_covers_library quiet_plain story_named story_orderly story_small hw
  exact ⟨s, e⟩

/-- The hypotheses of `C56_same_programs_are_defined` hold for the story. -/
example : ∃ w, runOps quiet 3 (World.start heap0) story = .done (storyOuts, w) :=
  (C56_same_programs_are_defined quiet_plain story_named story_orderly story_writes story_small 0 storyOuts).2 (story_run.imp fun _ h => h.1)

end FakeIt
