import Verif.Lemmas.InterruptedFake
import Verif.Props.InterruptedStub
/-!
# C94: `Fake` and `Spy` on several methods, interrupted by exceptions, in the whole library
-/
namespace FakeIt
open FakeIt.Spec FakeIt.Spec.Interrupted
open FakeIt.Building (St Res)

variable {V E X : Type} {P : Prog V E} {nm : MockId → Nat → Nat} {th : Nat → Option X}

theorem fakeOp_named {how : Manner} {as : List (Aim V)} (h : ∀ a ∈ as, SlotRef.Named nm a.m (.meth a.off a.ctr)) : (fakeOp (E := E) how as).Within (Api.Named nm) fun _ _ => True := by
  cases how <;>
  · intro x hx
    simp only [Api.slots, List.map_map, List.mem_map] at hx
    obtain ⟨a, ha, rfl⟩ := hx
    exact h a ha

theorem fakeOp_writes {how : Manner} {as : List (Aim V)} : (fakeOp (E := E) how as).Within Api.Writes fun _ _ => True := by
  cases how <;> trivial

theorem fakeOp_mentions (how : Manner) (as : List (Aim V)) : (fakeOp (E := E) how as).mentions = as.length := by
  cases how <;> simp [fakeOp, Op.mentions, Api.slots]

theorem each_mentions (how : Manner) : ∀ as : List (Aim V), ((as.map fun a => fakeOp (E := E) how [a]).map Op.mentions).sum = as.length
  | [] => rfl
  | a :: as => by
    have := each_mentions how as
    simp only [List.map_cons, List.sum_cons, fakeOp_mentions, List.length_cons, List.length_nil, this]
    omega

/-- **C94**. A `Fake`, `Spy` or `SpyWithoutVerify` statement on several methods does, in the whole library, what separate statements on each of the methods do, in the order in which they are written; whether they were named before does not matter. -/
theorem C94_statements_on_several_methods_are_separate_statements (hP : P.Plain) {heap : Addr → V} {ops : List (Op V E)} {outs : List (OpOut V E)} {s : AState V E} (hn : ∀ op ∈ ops, op.Within (Api.Named nm) fun _ _ => True)
    (hwr : ∀ op ∈ ops, op.Within Api.Writes fun _ _ => True) (hs : aRun P (AState.start heap) ops = some (outs, s)) (how : Manner) (as : List (Aim V)) (hk : ∀ a ∈ as, Able P s a) (hnm : ∀ a ∈ as, SlotRef.Named nm a.m (.meth a.off a.ctr))
    (hsm : Small (ops ++ fakeOp how as :: as.map fun a => fakeOp how [a])) (fuel : Nat) :
    ∃ (s' : AState V E) (w w' : World V E), runOps P (fuel + 3) (World.start heap) (ops ++ [fakeOp how as]) = .done (outs ++ [.api .unit], w) ∧ Agrees s' w ∧
      runOps P (fuel + 3) (World.start heap) (ops ++ as.map fun a => fakeOp how [a]) = .done (outs ++ as.map fun _ => .api .unit, w') ∧ Agrees s' w' := by
  have h1 := hsm.1
  have h2 := hsm.2
  simp only [List.length_append, List.map_append, List.sum_append, List.length_cons, List.map_cons, List.sum_cons, List.length_map, each_mentions, fakeOp_mentions] at h1 h2
  have r1 : aRun P s [fakeOp how as] = some ([.api .unit], stubbedAll how (namingAll s as) as) := by
    simp only [aRun, fakeOp_able how as hk, Option.bind_eq_bind, Option.bind_some]
  have r2 := fakeOp_each_able (P := P) how as hk
  obtain ⟨w, w1, w2⟩ := C56_library_refines_abstract_mock (plain_named hP) (nm := nm) (ops := ops ++ [fakeOp how as])
    (fun op hop => (List.mem_append.1 hop).elim (hn op) fun h => by rw [List.mem_singleton.1 h]; exact fakeOp_named hnm)
    (fun op hop => (List.mem_append.1 hop).elim (hwr op) fun h => by rw [List.mem_singleton.1 h]; exact fakeOp_writes)
    ⟨by simp only [List.length_append, List.length_singleton]; omega, by simp only [List.map_append, List.sum_append, List.map_cons, List.map_nil, List.sum_cons, List.sum_nil, fakeOp_mentions]; omega⟩ (OneThread.aRun_append _ _ hs r1) fuel
  obtain ⟨w', w3, w4⟩ := C56_library_refines_abstract_mock (plain_named hP) (nm := nm) (ops := ops ++ as.map fun a => fakeOp how [a])
    (fun op hop => (List.mem_append.1 hop).elim (hn op) fun h => by
      obtain ⟨a, ha, rfl⟩ := List.mem_map.1 h
      exact fakeOp_named fun b hb => by rw [List.mem_singleton.1 hb]; exact hnm a ha)
    (fun op hop => (List.mem_append.1 hop).elim (hwr op) fun h => by
      obtain ⟨a, ha, rfl⟩ := List.mem_map.1 h
      exact fakeOp_writes)
    ⟨by simp only [List.length_append, List.length_map]; omega, by simp only [List.map_append, List.sum_append, each_mentions]; omega⟩ (OneThread.aRun_append _ _ hs r2) fuel
  exact ⟨_, w, w', w1, w2, w3, w4⟩

/-- **C94**. After any test of the whole library, such a statement, whatever throws in it and wherever: unless it is undefined (see C84), all methods have the stubbings that the library gives them for separate statements on the first `n` methods: for all of them
if the statement passed, not for all if it threw. -/
theorem C94_interrupted_statements_stub_the_first_methods (hP : P.Plain) {heap : Addr → V} {ops : List (Op V E)} {outs : List (OpOut V E)} {s : AState V E} (hn : ∀ op ∈ ops, op.Within (Api.Named nm) fun _ _ => True)
    (hwr : ∀ op ∈ ops, op.Within Api.Writes fun _ _ => True) (hs : aRun P (AState.start heap) ops = some (outs, s)) (how : Manner) (as : List (Aim V)) (hk : ∀ a ∈ as, Known P s a) (hnm : ∀ a ∈ as, SlotRef.Named nm a.m (.meth a.off a.ctr))
    (hsm : Small (ops ++ as.map fun a => fakeOp how [a])) {keys : List (Nat × Nat)} {st st' : St} (hst : HasAll s keys st) (hw : FakeIt.Spec.Building.Wf st) {r : Res X Unit}
    (h : FakeIt.Several.statement th how.kind (as.map Aim.crit) st = .done (r, st')) (fuel : Nat) :
    ∃ (n : Nat) (outs' : List (OpOut V E)) (s' : AState V E) (w : World V E), ((r = .ok () ∧ n = as.length) ∨ ((∃ x, r = .exc x) ∧ n < as.length)) ∧
      aRun P (AState.start heap) (ops ++ (as.take n).map fun a => fakeOp how [a]) = some (outs ++ outs', s') ∧
      runOps P (fuel + 3) (World.start heap) (ops ++ (as.take n).map fun a => fakeOp how [a]) = .done (outs ++ outs', w) ∧ Agrees s' w ∧ HasAll s' (keys ++ (as.take n).map Aim.key) st' := by
  obtain ⟨n, ts, hle, he, hm, hr⟩ := several_ends _ _ hw h
  rw [List.length_map] at hle hr
  have hk' : ∀ a ∈ as.take n, Known P s a := fun a ha => hk a (List.mem_of_mem_take ha)
  have hrun := OneThread.aRun_append _ _ hs (fakeOp_each how (as.take n) hk')
  obtain ⟨w, w1, w2⟩ := C56_library_refines_abstract_mock (plain_named hP) (nm := nm)
    (fun op hop => (List.mem_append.1 hop).elim (hn op) fun h => by
      obtain ⟨a, ha, rfl⟩ := List.mem_map.1 h
      exact fakeOp_named fun b hb => by rw [List.mem_singleton.1 hb]; exact hnm a (List.mem_of_mem_take ha))
    (fun op hop => (List.mem_append.1 hop).elim (hwr op) fun h => by
      obtain ⟨a, ha, rfl⟩ := List.mem_map.1 h
      exact fakeOp_writes)
    (small_sublist ((List.take_sublist n as).map _) hsm) hrun fuel
  refine ⟨n, _, _, w, hr, hrun, w1, w2, hasAll_all how (as.take n) ts hst he ?_⟩
  unfold FakeIt.Spec.Several.Made at hm
  rw [hm, ← List.map_take, List.map_map]
  rfl

/-- **C94 (the user's exceptions)**. If it is the user's own code that throws in such a statement, the methods are as if the statement had not been made. -/
theorem C94_user_exceptions_stub_nothing {s : AState V E} {how : Manner} {as : List (Aim V)} {keys : List (Nat × Nat)} {st : St} (hst : HasAll s keys st) (hw : FakeIt.Spec.Building.Wf st) {before : List FakeIt.Building.Op} {o : FakeIt.Building.Op} {x : X}
    (hf : FakeIt.Spec.Building.FirstToThrow th st.log.length (FakeIt.Spec.Several.steps how.kind (as.map Aim.crit)) before o x) (ho : FakeIt.Spec.Building.ofUser o) :
    ∃ st', FakeIt.Several.statement th how.kind (as.map Aim.crit) st = .done (.exc x, st') ∧ HasAll s keys st' := by
  obtain ⟨st', h1, h2⟩ := FakeIt.Several.C84_user_exceptions_stub_nothing how.kind (as.map Aim.crit) hw hf ho
  exact ⟨st', h1, by unfold HasAll; rw [h2]; exact hst⟩

/-! ## Concrete cases -/
namespace InterruptedFakeDemo
open FakeIt.Demo InterruptedDemo

/-- The test of C93, and a method of the second mock is named. -/
def before : List (Op Nat Nat) := begun ++ [.api (.touch 1 (.meth 1 1))]

/-- What the test sees. -/
def beforeOuts : List (OpOut Nat Nat) := storyOuts.take 4 ++ [.api .unit]

/-- Three stubbings for two methods. -/
def three : List (Aim Nat) := [⟨0, 0, 0, eq 3⟩, ⟨1, 1, 1, .any⟩, ⟨0, 0, 0, .any⟩]

/-- The stubbing that the first method has. -/
def st0 : St := InterruptedStubDemo.st0

theorem before_run : ∃ s, aRun quiet (AState.start heap0) before = some (beforeOuts, s) ∧ (∀ a ∈ three, Known quiet s a) ∧ HasAll s [(0, 0)] st0 := by
  refine ⟨_, rfl, ?_, rfl, ?_⟩
  · intro a ha
    simp only [three, List.mem_cons, List.not_mem_nil, or_false] at ha
    rcases ha with rfl | rfl | rfl
    · exact ⟨_, rfl, ⟨rfl, by decide, by decide⟩, rfl⟩
    · exact ⟨_, rfl, ⟨rfl, by decide, by decide⟩, rfl⟩
    · exact ⟨_, rfl, ⟨rfl, by decide, by decide⟩, rfl⟩
  · intro m off k l hk hl
    match m, off with
    | 0, 0 => cases hk; cases hl; rfl
    | 0, off + 1 => cases hk; cases hl
    | 1, 0 => cases hk; cases hl
    | 1, 1 => cases hk; cases hl; rfl
    | 1, off + 2 => cases hk; cases hl
    | m + 2, off => cases hk

theorem before_named : ∀ op ∈ before, op.Within (Api.Named FakeIt.Demo.nm) fun _ _ => True := by
  intro op hop
  rcases List.mem_append.1 hop with h | h
  · exact begun_named op h
  · rw [List.mem_singleton.1 h]
    intro x hx
    rw [List.mem_singleton.1 hx]
    exact ⟨rfl, by decide⟩

theorem before_writes : ∀ op ∈ before, op.Within Api.Writes fun _ _ => True := by
  intro op hop
  rcases List.mem_append.1 hop with h | h
  · exact begun_writes op h
  · rw [List.mem_singleton.1 h]
    trivial

theorem three_named : ∀ a ∈ three, SlotRef.Named FakeIt.Demo.nm a.m (.meth a.off a.ctr) := by
  intro a ha
  simp only [three, List.mem_cons, List.not_mem_nil, or_false] at ha
  rcases ha with rfl | rfl | rfl <;> exact ⟨rfl, by decide⟩

/-- One step throws. -/
def at_ (i : Nat) (n : Nat) : Option String := if n = i then some "no" else none

/-- How the statement ends, and the sizes of the stubbings. -/
def seen (r : R (Res String Unit × St)) : Option (Option String × List (Nat × Nat)) :=
  match r with
  | .done (.ok _, st) => some (none, st.stubs.map fun t => (t.parts.length, t.acts.length))
  | .done (.exc x, st) => some (some x, st.stubs.map fun t => (t.parts.length, t.acts.length))
  | _ => none

theorem second_fails : seen (FakeIt.Several.statement (at_ 30) .fake (three.map Aim.crit) st0) = some (some "no", [(1, 2), (1, 1)]) := by decide +kernel

theorem begun_able : ∃ s, aRun quiet (AState.start heap0) begun = some (storyOuts.take 4, s) ∧ ∀ a ∈ three, Able quiet s a := by
  refine ⟨_, rfl, ?_⟩
  intro a ha
  simp only [three, List.mem_cons, List.not_mem_nil, or_false] at ha
  rcases ha with rfl | rfl | rfl
  · exact ⟨_, rfl, rfl, by decide, by decide⟩
  · exact ⟨_, rfl, rfl, by decide, by decide⟩
  · exact ⟨_, rfl, rfl, by decide, by decide⟩

-- the hypotheses of `C94_statements_on_several_methods_are_separate_statements` hold: `Spy` on the three, of which the second was not named before
example : ∃ (s' : AState Nat Nat) (w w' : World Nat Nat), runOps quiet 3 (World.start heap0) (begun ++ [fakeOp (.spy true) three]) = .done (storyOuts.take 4 ++ [.api .unit], w) ∧ Agrees s' w ∧
    runOps quiet 3 (World.start heap0) (begun ++ three.map fun a => fakeOp (.spy true) [a]) = .done (storyOuts.take 4 ++ [.api .unit, .api .unit, .api .unit], w') ∧ Agrees s' w' := by
  obtain ⟨s, hs, hk⟩ := begun_able
  exact C94_statements_on_several_methods_are_separate_statements quiet_plain begun_named begun_writes hs (.spy true) three hk three_named ⟨by decide +kernel, by decide +kernel⟩ 0

-- the hypotheses of `C94_interrupted_statements_stub_the_first_methods` hold: no memory for the action of the second of three
example : ∃ (st : St) (n : Nat) (outs : List (OpOut Nat Nat)) (s : AState Nat Nat) (w : World Nat Nat), FakeIt.Several.statement (at_ 30) .fake (three.map Aim.crit) st0 = .done (.exc "no", st) ∧ n = 1 ∧
    runOps quiet 3 (World.start heap0) (before ++ (three.take n).map fun a => fakeOp .fake [a]) = .done (beforeOuts ++ outs, w) ∧ Agrees s w ∧ HasAll s [(0, 0), (0, 0)] st := by
  obtain ⟨s, hs, hk, hst⟩ := before_run
  have h := second_fails
  unfold seen at h
  split at h
  · cases h
  · rename_i x st hr
    simp only [Option.some.injEq, Prod.mk.injEq] at h
    obtain ⟨rfl, h⟩ := h
    obtain ⟨n, outs, s', w, hor, -, h1, h2, h3⟩ := C94_interrupted_statements_stub_the_first_methods quiet_plain before_named before_writes hs .fake three hk three_named ⟨by decide +kernel, by decide +kernel⟩ hst InterruptedStubDemo.st0_wf hr 0
    have hlen := h3.1
    have hl2 := congrArg List.length h
    simp only [List.length_map, List.length_append, List.length_take, List.length_cons, List.length_nil, three] at hlen hl2
    have hn : n = 1 := by
      rcases hor with ⟨h, -⟩ | ⟨-, h⟩
      · cases h
      · simp only [three, List.length_cons, List.length_nil] at h
        omega
    subst hn
    exact ⟨st, 1, outs, s', w, hr, rfl, h1, h2, h3⟩
  · cases h

-- the hypotheses of `C94_user_exceptions_stub_nothing` hold: the value of the first argument cannot be copied
example : ∃ s st', aRun quiet (AState.start heap0) before = some (beforeOuts, s) ∧ FakeIt.Several.statement (at_ 7) .fake (three.map Aim.crit) st0 = .done (.exc "no", st') ∧ HasAll s [(0, 0)] st' := by
  obtain ⟨s, hs, -, hst⟩ := before_run
  obtain ⟨st', h1, h2⟩ := C94_user_exceptions_stub_nothing (how := .fake) (as := three) (th := at_ 7) (x := "no") (o := .expected 0) (before := (FakeIt.Spec.Several.steps .fake (three.map Aim.crit)).take 7) hst InterruptedStubDemo.st0_wf
    ⟨⟨(FakeIt.Spec.Several.steps .fake (three.map Aim.crit)).drop 8, by decide +kernel⟩, rfl, by
      intro i hi
      have : i < 7 := by simpa using Nat.lt_of_lt_of_le hi (by simp; omega)
      simp only [at_, st0, InterruptedStubDemo.st0, List.length_nil, Nat.zero_add]
      rw [if_neg (by omega)]⟩ trivial
  exact ⟨s, st', hs, h1, h2⟩

end InterruptedFakeDemo

end FakeIt
