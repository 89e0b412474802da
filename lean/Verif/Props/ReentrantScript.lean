import Verif.Lemmas.Uses
import Verif.Props.Stubbing
import Verif.Props.ReentrantMock
/-!
# C06: scripts used by nested calls

The part of C06 that holds. The abstract mock of C72 describes the programs in question: callbacks may use mocks to any depth, except the stubbing whose counted action they
are performing (`Props/Reentrancy.lean` shows what happens there) and except resetting or destroying a mock that is answering a call.
-/
namespace FakeIt
open Spec
variable {V E : Type} {P : Prog V E} {nm : MockId → Nat → Nat}

/-- The part of C06 that holds. A stubbing (its expression has identity `j`) is installed at some point of a program, and its mock keeps its history from then on. After the program, the call
it serves next performs the entry of its script whose number is the number of calls it has served, and every call that was started counts: calls made by the test, calls made by
callbacks, calls made by callbacks of those calls. Missing: programs whose counted actions use their own stubbing, for which the claim is false. -/
theorem C06_every_started_call_uses_one_action_partial {t : Target V} (hP : P.Within (fun a => a.Named nm ∧ a.Writes ∧ a.KeepsHistory t.m) fun _ _ => True) {heap : Addr → V}
    {pre post : List (Op V E)} {acts : List (Act V E)} {outs : List (OpOut V E)} {s : AState V E} {j depth : Nat}
    (hpre : ∀ op ∈ pre, op.Within (fun a => a.Named nm ∧ a.Writes) fun _ _ => True) (ht : SlotRef.Named nm t.m t.slot)
    (hpost : ∀ op ∈ post, op.Within (fun a => a.Named nm ∧ a.Writes ∧ a.KeepsHistory t.m) fun _ _ => True)
    (hs : rRun P depth (AState.start heap) (pre ++ .api (.when_ t acts false) :: post) = some (outs, s)) (hj : outs[pre.length]? = some (.api (.matcher j)))
    (hm : s.made < wrap32) (hl : s.named.length < wrap32) (fuel : Nat) :
    ∃ w, runOps P (3 * depth + fuel) (World.start heap) (pre ++ .api (.when_ t acts false) :: post) = .done (outs, w) ∧
      ∀ (m off : Nat) (args : List (Arg V)) (h : Handler V E) (k : Mock V E), Selected (stubbings w m off) (valuesOf w.heap args) h → h.matcher.addr = j →
        w.mock? m = some k → Plain (P.cls k.cls) off → ∀ (fuel' : Nat) (o : Outcome V E) (w' : World V E), callSlot P fuel' w m off args = .done (o, w') →
          Answers P (P.cls k.cls) (!k.owner) off (valuesOf w.heap args) (performed acts ((history w m off).countP fun i => i.matcher == some j)) o := by
  have hT : Tame P nm := fun f vs => Body.Within.mono (fun a h => ⟨h.1, h.2.1⟩) (fun _ _ h => h) (hP f vs)
  have hN : P.Named nm := fun f vs => Body.Within.mono (fun a h => h.1) (fun _ _ h => h) (hP f vs)
  have hS : Sim P nm [] (AState.start heap) (World.start heap) := ⟨rel_start heap, ⟨steady_start heap, recs_start heap⟩, fun _ h => (nomatch h)⟩
  have hops : ∀ op ∈ pre ++ .api (.when_ t acts false) :: post, op.Within (fun a => a.Named nm ∧ a.Writes) fun _ _ => True := by
    intro op h
    rcases List.mem_append.1 h with h | h
    · exact hpre op h
    · rcases List.mem_cons.1 h with rfl | h
      · exact ⟨by simpa [Api.Named, Api.slots] using ht, trivial⟩
      · have := hpost op h
        cases op with
        | call => trivial
        | api a => exact ⟨this.1, this.2.1⟩
  obtain ⟨w, e, hw⟩ := run_sim hT hops hS hs hm hl (Nat.le_add_right _ fuel)
  refine ⟨w, e, ?_⟩
  -- the stubbing's uses
  obtain ⟨os1, s1, os2, h1, h2, rfl⟩ := rRun_append hs
  have hlen := rRun_length h1
  simp only [rRun, Option.bind_eq_bind, Option.bind_eq_some_iff] at h2
  obtain ⟨⟨o, s2⟩, h3, ⟨os3, s3⟩, h4, h5⟩ := h2
  cases h5
  rw [List.getElem?_append_right (Nat.le_of_eq hlen), hlen, Nat.sub_self] at hj
  cases hj
  obtain ⟨⟨s2', o'⟩, h6, h7⟩ := Option.map_eq_some_iff.1 h3
  cases h7
  have hup := (rStep_up h3).trans (rRun_up h4)
  obtain ⟨w1, -, hS1⟩ := run_sim hT (fun op h => hops op (List.mem_append_left _ h)) hS h1 (Nat.lt_of_le_of_lt hup.1 hm) (Nat.lt_of_le_of_lt hup.2.length_le hl) (F := 3 * depth) (Nat.le_refl _)
  obtain ⟨ha, off0, hu⟩ := Uses.start (Uses.absent_of_rel (nm := nm) hS1.rel hS1.wf) h6
  have hU := Uses.run ha (A := fun a => a.Named nm ∧ a.Writes ∧ a.KeepsHistory t.m) (fun a h => h.2.2) hP hpost hu h4
  -- the next call
  intro m off args h k hsel hj hk hoff fuel' o w' hcall
  have hreach : Reach P nm w := Reach.run _ (fun op h => by
    have := hops op h
    cases op with
    | call => trivial
    | api a => exact this.1) (.start heap) e
  obtain ⟨i, act, hf, hA⟩ := C01_latest_matching_stubbing_answers hN hreach hk hoff hsel hcall
  have hin : h ∈ stubbings w m off := by
    obtain ⟨older, newer, hst, -⟩ := hsel
    rw [hst]; simp
  obtain ⟨-, -, hrep⟩ := hU.library hw.rel hin hj
  obtain ⟨i', rest, -, -, hf'⟩ := rep_front hrep
  rw [hf'] at hf
  cases hf
  rw [performed_eq ha] at hA
  exact hA

namespace Demo

/-- Before the stubbing. -/
def nestedPre : List (Op Nat Nat) :=
  [.api (.newMock 0), .api (.newSpy 0), .api (.when_ (tgt 0 0 .any) [.forever (.user 0)] false), .call 0 0 [.val 4]]

/-- After the stubbing: the original of method 0 calls method 1. -/
def nestedPost : List (Op Nat Nat) := [.api (.spy true [tgt 1 0 .any]), .call 1 0 [.val 2]]

/-- A stubbing of a spied object's method 1 with two entries; the original of method 0 calls it. -/
def nestedStory : List (Op Nat Nat) := nestedPre ++ .api (.when_ (tgt 1 1 .any) [.rep 1 (.ret 5), .rep 1 (.user 1)] false) :: nestedPost

/-- What the nested story answers. -/
def nestedOuts : List (OpOut Nat Nat) :=
  [.api (.mockId 0), .api (.mockId 1), .api (.matcher 0), .call (.ret 24), .api (.matcher 2), .api .unit, .call (.ret 105)]

theorem nested_within (m : Nat) : busy.Within (fun a => a.Named Demo.nm ∧ a.Writes ∧ a.KeepsHistory m) fun _ _ => True := by
  intro f vs
  match f with
  | 0 =>
    simp only [busy]
    split
    · trivial
    · exact ⟨trivial, fun o => by cases o <;> trivial⟩
  | 1 =>
    simp only [busy]
    refine ⟨⟨by simp [Api.Named, Api.slots, SlotRef.Named, tgt, Demo.nm, intMax], trivial, trivial⟩, fun _ => ⟨trivial, fun o => ⟨⟨?_, ?_, trivial⟩, fun r => ?_⟩⟩⟩
    · simp [Api.Named, Api.slots, verifyLeaves, SlotRef.Named, Demo.nm, intMax, Seq.expected]
    · exact ⟨by simp, fun s hs => by simp at hs; subst hs; exact .method _⟩
    · dsimp only
      split <;> trivial
  | 10 => exact ⟨trivial, fun o => by cases o <;> trivial⟩
  | 2 | 3 | 4 | 5 | 6 | 7 | 8 | 9 => trivial
  | _ + 11 => trivial

theorem nested_pre : ∀ op ∈ nestedPre, op.Within (fun a => a.Named Demo.nm ∧ a.Writes) fun _ _ => True := by
  intro op h
  simp only [nestedPre, List.mem_cons, List.not_mem_nil, or_false] at h
  rcases h with rfl | rfl | rfl | rfl
  · exact ⟨by simp [Api.Named, Api.slots], trivial⟩
  · exact ⟨by simp [Api.Named, Api.slots], trivial⟩
  · exact ⟨by simp [Api.Named, Api.slots, SlotRef.Named, tgt, Demo.nm, intMax], trivial⟩
  · trivial

theorem nested_post : ∀ op ∈ nestedPost, op.Within (fun a => a.Named Demo.nm ∧ a.Writes ∧ a.KeepsHistory 1) fun _ _ => True := by
  intro op h
  simp only [nestedPost, List.mem_cons, List.not_mem_nil, or_false] at h
  rcases h with rfl | rfl
  · exact ⟨by simp [Api.Named, Api.slots, SlotRef.Named, tgt, Demo.nm, intMax], trivial, trivial⟩
  · trivial

end Demo
open Demo

/-- Case: the hypotheses hold for a program in which the first entry has been used by a nested call; the next call (also the test's first one) performs the second entry. -/
example : ∃ w, runOps busy 20 (World.start heap0) nestedStory = .done (nestedOuts, w) ∧
    (∀ h, Selected (stubbings w 1 1) (valuesOf w.heap [.val 9]) h → h.matcher.addr = 2 → ∀ k, w.mock? 1 = some k → Plain (busy.cls k.cls) 1 →
      ∀ o w', callSlot busy 9 w 1 1 [.val 9] = .done (o, w') →
        Answers busy (busy.cls k.cls) (!k.owner) 1 (valuesOf w.heap [.val 9]) (performed [.rep 1 (.ret 5), .rep 1 (.user 1)] ((history w 1 1).countP fun i => i.matcher == some 2)) o) := by
  have hr : (rRun busy 6 (AState.start heap0) nestedStory).map (fun r => (r.1, r.2.made, r.2.named.length)) = some (nestedOuts, 7, 3) := by decide +kernel
  obtain ⟨⟨o, s⟩, h1, h2⟩ := Option.map_eq_some_iff.1 hr
  simp only [Prod.mk.injEq] at h2
  obtain ⟨rfl, h3, h4⟩ := h2
  obtain ⟨w, e, h⟩ := C06_every_started_call_uses_one_action_partial (nm := Demo.nm) (t := tgt 1 1 .any) (nested_within 1) (heap := heap0) (acts := [.rep 1 (.ret 5), .rep 1 (.user 1)]) (outs := nestedOuts) (s := s) (j := 2) (depth := 6)
    nested_pre (by simp [SlotRef.Named, tgt, Demo.nm, intMax]) nested_post
    h1 rfl (h3 ▸ by decide) (h4 ▸ by decide) 2
  exact ⟨w, e, fun hd a b k c d o w' g => h 1 1 _ hd k a b c d 9 o w' g⟩

/-- In that case the count is 1 and the call answers what the second entry says. -/
example : (match runOps busy 20 (World.start heap0) nestedStory with
    | .done (_, w) => some ((history w 1 1).countP fun i => i.matcher == some 2, (stubbings w 1 1).map fun h => h.matcher.addr,
        match callSlot busy 9 w 1 1 [.val 9] with | .done (o, _) => some o | _ => none)
    | _ => none) = some (1, [2], some (.ret 3)) := by decide +kernel

end FakeIt
