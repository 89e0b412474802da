import Verif.Lemmas.Reenter
import Verif.Lemmas.ReenterPlain
import Verif.Lemmas.ReenterTotal
import Verif.Props.Demo
/-!
# C72: the library refines the abstract mock also when callbacks use mocks

`Spec/ReentrantMock.lean` extends the abstract mock of C56: callbacks may call mocks (also the mock they answer for), stub, verify, clear, reset, destroy and create mocks. Hypotheses as in C56, now
also for the callbacks' code; the bounds on the counters are stated for the final state. `Spec/ReentrantFate.lean` says why the abstract mock does not run a program; where it
says "undefined", the library's behaviour is undefined.
-/
namespace FakeIt
open Spec Independent
variable {V E : Type} {P : Prog V E} {nm : MockId → Nat → Nat}

/-- Every program, with callbacks that use mocks, that the abstract mock runs, the library runs with the same outcomes, and everything a test can see agrees afterwards. -/
theorem C72_library_refines_reentrant_mock (hP : P.Within (fun a => a.Named nm ∧ a.Writes) fun _ _ => True) {heap : Addr → V} {ops : List (Op V E)} {outs : List (OpOut V E)} {s : AState V E}
    (hops : ∀ op ∈ ops, op.Within (fun a => a.Named nm ∧ a.Writes) fun _ _ => True) {depth : Nat} (hs : rRun P depth (AState.start heap) ops = some (outs, s))
    (hm : s.made < wrap32) (hl : s.named.length < wrap32) (fuel : Nat) : ∃ w, runOps P (3 * depth + fuel) (World.start heap) ops = .done (outs, w) ∧ Agrees s w := by
  have hS : Sim P nm [] (AState.start heap) (World.start heap) := ⟨rel_start heap, ⟨steady_start heap, recs_start heap⟩, fun _ h => (nomatch h)⟩
  obtain ⟨w, e, h⟩ := run_sim hP hops hS hs hm hl (Nat.le_add_right _ fuel)
  exact ⟨w, e, h.rel.agrees⟩

/-- Programs described by the abstract mock of C56 are described here, in the same way. -/
theorem C72_extends_the_plain_mock {heap : Addr → V} {ops : List (Op V E)} {outs : List (OpOut V E)} {s : AState V E} (hs : aRun P (AState.start heap) ops = some (outs, s)) (depth : Nat) :
    rRun P (depth + 1) (AState.start heap) ops = some (outs, s) :=
  plain_run ⟨fun _ h => by simp [AState.start] at h, fun _ h => by simp [AState.start] at h⟩ hs depth

/-- A larger bound on the depth of nested calls changes nothing. -/
theorem C72_depth_does_not_matter {heap : Addr → V} {ops : List (Op V E)} {outs : List (OpOut V E)} {s : AState V E} {depth : Nat} (hs : rRun P depth (AState.start heap) ops = some (outs, s))
    (more : Nat) : rRun P (depth + more) (AState.start heap) ops = some (outs, s) := rRun_more depth more hs

/-- `fRun` runs the programs `rRun` runs, with the same result. -/
theorem C72_fate_of_the_described_programs {heap : Addr → V} {ops : List (Op V E)} {depth : Nat} (r : List (OpOut V E) × AState V E) :
    fRun P depth (AState.start heap) ops = .runs r ↔ rRun P depth (AState.start heap) ops = some r := by
  rw [← fRun_result, Fate.result_some]

/-- Where the abstract mock says that the behaviour is undefined, it is: none of these programs happens to work. -/
theorem C72_undefined_is_undefined (hP : P.Within (fun a => a.Named nm ∧ a.Writes) fun _ _ => True) {heap : Addr → V} {ops : List (Op V E)}
    (hops : ∀ op ∈ ops, op.Within (fun a => a.Named nm ∧ a.Writes) fun _ _ => True) {depth made names : Nat} (hs : fRun P depth (AState.start heap) ops = .undefined made names)
    (hm : made < wrap32) (hl : names < wrap32) (fuel : Nat) : runOps P (3 * depth + fuel) (World.start heap) ops = .ub :=
  program_ub hP hops ⟨rel_start heap, ⟨steady_start heap, recs_start heap⟩, fun _ h => (nomatch h)⟩ hs hm hl (Nat.le_add_right _ fuel)

/-- What the library does with a program that is not outside the description, the abstract mock does. -/
theorem C72_reentrant_mock_covers_library (hP : P.Within (fun a => a.Named nm ∧ a.Writes) fun _ _ => True) {heap : Addr → V} {ops : List (Op V E)} {outs : List (OpOut V E)} {w : World V E}
    (hops : ∀ op ∈ ops, op.Within (fun a => a.Named nm ∧ a.Writes) fun _ _ => True) {depth fuel : Nat} (hd : runOps P (3 * depth + fuel) (World.start heap) ops = .done (outs, w))
    (hin : fRun P depth (AState.start heap) ops ≠ .outside) (hdeep : fRun P depth (AState.start heap) ops ≠ .deep)
    (hr : ∀ outs s, fRun P depth (AState.start heap) ops = .runs (outs, s) → s.made < wrap32 ∧ s.named.length < wrap32)
    (hu : ∀ made names, fRun P depth (AState.start heap) ops = .undefined made names → made < wrap32 ∧ names < wrap32) :
    ∃ s, rRun P depth (AState.start heap) ops = some (outs, s) ∧ Agrees s w := by
  cases h : fRun P depth (AState.start heap) ops with
  | runs r =>
    obtain ⟨outs', s⟩ := r
    have h' := (C72_fate_of_the_described_programs _).1 h
    obtain ⟨w', e, ha⟩ := C72_library_refines_reentrant_mock hP hops h' (hr _ _ h).1 (hr _ _ h).2 fuel
    rw [hd] at e
    cases e
    exact ⟨s, h', ha⟩
  | undefined a b =>
    rw [C72_undefined_is_undefined hP hops h (hu _ _ h).1 (hu _ _ h).2 fuel] at hd
    cases hd
  | outside => exact absurd h hin
  | deep => exact absurd h hdeep

/-- A larger bound on the depth changes nothing once the bound suffices. -/
theorem C72_depth_does_not_matter_for_fates {heap : Addr → V} {ops : List (Op V E)} {depth : Nat} (h : fRun P depth (AState.start heap) ops ≠ .deep) (more : Nat) :
    fRun P (depth + more) (AState.start heap) ops = fRun P depth (AState.start heap) ops :=
  ((fRun_deeper depth more ops _).resolve_left h).symm

namespace Demo

/-- Callables: 0 computes factorials by calling method 0 of mock 0; 1 stubs method 1 of mock 0, calls it, and verifies that call; 10, the original of method 0, calls method 1 of
mock 1 (its own object, if that is the spied one) and adds 100; others return their number. -/
def busy : Prog Nat Nat :=
  { prog with
    fn := fun f vs => match f with
      | 0 => if vs.sum = 0 then .done (.ret 1) else .call 0 0 [.val (vs.sum - 1)] fun o => match o with | .ret v => .done (.ret (vs.sum * v)) | o => .done o
      | 1 => .api (.when_ (tgt 0 1 .any) [.rep 1 (.ret 3)] false) fun _ => .call 0 1 [.val 6] fun o =>
          .api (.verify .involved [.leaf ⟨0, .meth 1 1, eq 6, none⟩] (.exactly 1) .asBool) fun r => match r with | .verdict true => .done o | _ => .done (.exc 1)
      | 10 => .call 1 1 [.val 4] fun o => match o with | .ret v => .done (.ret (v + 100)) | o => .done o
      | f => .done (.ret f) }

theorem busy_within : busy.Within (fun a => a.Named Demo.nm ∧ a.Writes) fun _ _ => True := by
  intro f vs
  match f with
  | 0 =>
    simp only [busy]
    split
    · trivial
    · exact ⟨trivial, fun o => by cases o <;> trivial⟩
  | 1 =>
    simp only [busy]
    refine ⟨⟨by simp [Api.Named, Api.slots, SlotRef.Named, tgt, Demo.nm, intMax], trivial⟩, fun _ => ⟨trivial, fun o => ⟨⟨?_, ?_⟩, fun r => ?_⟩⟩⟩
    · simp [Api.Named, Api.slots, verifyLeaves, SlotRef.Named, Demo.nm, intMax, Seq.expected]
    · exact ⟨by simp, fun s hs => by simp at hs; subst hs; exact .method _⟩
    · dsimp only
      split <;> trivial
  | 10 => exact ⟨trivial, fun o => by cases o <;> trivial⟩
  | 2 | 3 | 4 | 5 | 6 | 7 | 8 | 9 => trivial
  | _ + 11 => trivial

/-- Recursion through the mock; a spied method that calls a mocked one of the same object; a callback that stubs and verifies. -/
def busyStory : List (Op Nat Nat) :=
  [.api (.newMock 0), .api (.newSpy 0), .api (.when_ (tgt 0 0 .any) [.forever (.user 0)] false), .call 0 0 [.val 4],
   .api (.verify .involved [.leaf ⟨0, .meth 0 0, .any, none⟩] (.exactly 5) .asBool),
   .call 1 0 [.val 2], .api (.when_ (tgt 1 1 .any) [.rep 1 (.ret 5), .rep 1 (.user 1)] false), .api (.spy true [tgt 1 0 .any]),
   .call 1 0 [.val 2], .call 1 0 [.val 2], .call 1 0 [.val 2],
   .api (.verify .involved [.leaf ⟨1, .meth 1 1, .any, none⟩] (.exactly 3) .asBool),
   .api (.verifyNoOther [.mock 0] (.stmt false))]

/-- What happens. -/
def busyOuts : List (OpOut Nat Nat) :=
  [.api (.mockId 0), .api (.mockId 1), .api (.matcher 0), .call (.ret 24), .api (.verdict true), .call (.ret 111), .api (.matcher 2), .api .unit,
   .call (.ret 105), .call (.ret 103), .call .unexpected, .api (.verdict true), .api (.verdict true)]

theorem busy_ops : ∀ op ∈ busyStory, op.Within (fun a => a.Named Demo.nm ∧ a.Writes) fun _ _ => True := by
  intro op h
  simp only [busyStory, List.mem_cons, List.not_mem_nil, or_false] at h
  rcases h with rfl | rfl | rfl | rfl | rfl | rfl | rfl | rfl | rfl | rfl | rfl | rfl | rfl
  all_goals first
    | trivial
    | (refine ⟨by simp [Api.Named, Api.slots, verifyLeaves, aggregate, Source.leaves, SlotRef.Named, tgt, Demo.nm, intMax, Seq.expected], ?_⟩
       first
         | trivial
         | exact ⟨by simp, fun s hs => by simp at hs; first | (subst hs; exact .method _) | (rcases hs with rfl | rfl <;> exact .method _)⟩)

theorem busy_run : ∃ s, rRun busy 6 (AState.start heap0) busyStory = some (busyOuts, s) ∧ s.made = 12 ∧ s.named.length = 4 ∧ s.log.length = 1 := by
  have h : (rRun busy 6 (AState.start heap0) busyStory).map (fun r => (r.1, r.2.made, r.2.named.length, r.2.log.length)) = some (busyOuts, 12, 4, 1) := by decide +kernel
  obtain ⟨⟨o, s⟩, h1, h2⟩ := Option.map_eq_some_iff.1 h
  simp only [Prod.mk.injEq] at h2
  obtain ⟨rfl, h3, h4, h5⟩ := h2
  exact ⟨s, h1, h3, h4, h5⟩

end Demo
open Demo

/-- The hypotheses of `C72_library_refines_reentrant_mock` hold for that story. -/
example : ∃ w, runOps busy 20 (World.start heap0) busyStory = .done (busyOuts, w) ∧ w.log.length = 1 := by
  obtain ⟨s, hs, hm, hl, hlog⟩ := busy_run
  obtain ⟨w, e, ha⟩ := C72_library_refines_reentrant_mock (nm := Demo.nm) busy_within busy_ops hs (by rw [hm]; decide) (by rw [hl]; decide) 2
  exact ⟨w, e, by rw [← hlog, ← ha.log, List.length_map]⟩

/-- The hypothesis of `C72_depth_does_not_matter` holds for it. -/
example : ∃ s, rRun busy 100 (AState.start heap0) busyStory = some (busyOuts, s) := by
  obtain ⟨s, hs, -⟩ := busy_run
  exact ⟨s, C72_depth_does_not_matter hs 94⟩

namespace Demo

/-- Callable 2 destroys mock 1 and calls it; 0 calls mock 0 with the same argument. -/
def rough : Prog Nat Nat :=
  { prog with
    fn := fun f vs => match f with
      | 0 => .call 0 0 (vs.map .val) fun o => .done o
      | 2 => .api (.destroy 1) fun _ => .call 1 0 [.val 1] fun _ => .done (.ret 1)
      | f => .done (.ret f) }

theorem rough_within : rough.Within (fun a => a.Named Demo.nm ∧ a.Writes) fun _ _ => True := by
  intro f vs
  match f with
  | 0 => exact ⟨trivial, fun o => trivial⟩
  | 2 => exact ⟨⟨by simp [Api.Named, Api.slots], trivial⟩, fun _ => ⟨trivial, fun o => trivial⟩⟩
  | 1 => trivial
  | _ + 3 => trivial

/-- A callback destroys another mock and then calls it. -/
def roughStory : List (Op Nat Nat) :=
  [.api (.newMock 0), .api (.newMock 0), .api (.when_ (tgt 0 0 .any) [.rep 1 (.user 2)] false), .call 0 0 [.val 4], .call 0 0 [.val 4]]

theorem rough_ops : ∀ op ∈ roughStory, op.Within (fun a => a.Named Demo.nm ∧ a.Writes) fun _ _ => True := by
  intro op h
  simp only [roughStory, List.mem_cons, List.not_mem_nil, or_false] at h
  rcases h with rfl | rfl | rfl | rfl | rfl
  all_goals first
    | trivial
    | exact ⟨by simp [Api.Named, Api.slots, SlotRef.Named, tgt, Demo.nm, intMax], trivial⟩

end Demo

/-- The hypotheses of `C72_undefined_is_undefined` hold for it. -/
example : runOps rough 20 (World.start heap0) roughStory = .ub :=
  C72_undefined_is_undefined (nm := Demo.nm) rough_within rough_ops (depth := 3) (made := 1) (names := 1) rfl (by decide) (by decide) 11

/-- One nested call is too deep a bound there; three are enough, and so are a hundred (`C72_depth_does_not_matter_for_fates`). -/
example : fRun rough 1 (AState.start heap0) roughStory = .deep ∧ fRun rough 100 (AState.start heap0) roughStory = .undefined 1 1 :=
  ⟨rfl, (C72_depth_does_not_matter_for_fates (depth := 3) (fun h => by have : (Fate.undefined 1 1 : Fate (List (OpOut Nat Nat) × AState Nat Nat)) = .deep := h; cases this) 97).trans rfl⟩

/-- Outside the description: a counted callback that calls the method it answers for. -/
example : fRun rough 9 (AState.start heap0) [.api (.newMock 0), .api (.when_ (tgt 0 0 .any) [.rep 1 (.user 0)] false), .call 0 0 [.val 4]] = .outside := rfl

/-- The hypotheses of `C72_reentrant_mock_covers_library` hold for the first story: what the library does is what the abstract mock does. -/
example (outs : List (OpOut Nat Nat)) (w : World Nat Nat) (hd : runOps busy 20 (World.start heap0) busyStory = .done (outs, w)) : outs = busyOuts := by
  obtain ⟨s, hs, hm, hl, hlog⟩ := busy_run
  have hf := (C72_fate_of_the_described_programs _).2 hs
  obtain ⟨s', h, -⟩ := C72_reentrant_mock_covers_library (nm := Demo.nm) busy_within (depth := 6) (fuel := 2) busy_ops hd (by rw [hf]; exact fun h => (nomatch h)) (by rw [hf]; exact fun h => (nomatch h))
    (fun _ _ h => by rw [hf] at h; cases h; rw [hm, hl]; decide) (fun _ _ h => by rw [hf] at h; cases h)
  rw [hs] at h
  cases h
  rfl

/-- A program without nested calls, to which `C72_extends_the_plain_mock` applies. -/
example : ∃ s, rRun prog 9 (AState.start heap0) [.api (.newMock 0), .api (.when_ (tgt 0 0 (eq 7)) [.rep 1 (.user 0)] false), .call 0 0 [.val 7], .call 0 0 [.val 7]] =
    some ([.api (.mockId 0), .api (.matcher 0), .call (.ret 7), .call .unexpected], s) := by
  obtain ⟨s, hs⟩ : ∃ s, aRun prog (AState.start heap0) [.api (.newMock 0), .api (.when_ (tgt 0 0 (eq 7)) [.rep 1 (.user 0)] false), .call 0 0 [.val 7], .call 0 0 [.val 7]] =
    some ([.api (.mockId 0), .api (.matcher 0), .call (.ret 7), .call .unexpected], s) := ⟨_, rfl⟩
  exact ⟨s, C72_extends_the_plain_mock hs 8⟩

end FakeIt
