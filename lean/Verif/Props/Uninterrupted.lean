import Verif.Lemmas.UninterruptedWhole
import Verif.Lemmas.OneThreadRun
import Verif.Props.Checking
import Verif.Props.Refinement
/-!
# C92: verifications that nothing interrupts, and interrupted ones that are repeated
-/
namespace FakeIt.Checking
open FakeIt.Checking.Spec
open FakeIt.Building (Res)
open FakeIt.Spec (AState aRun aApi accepts Small Agrees)

variable {V E X : Type} {P : Prog V E} {nm : MockId → Nat → Nat} {kinds : Nat → MatcherKind V} {ctr : Nat → Nat → Nat}

/-- **C92**. After any test of the whole library, a verification statement none of whose steps throws does in the model of exceptions exactly what the library does: it says the same (passes, fails, is refused), leaves the same calls verified, and no object is left. -/
theorem C92_uninterrupted_verifications_are_the_librarys (hP : P.Named nm) {heap : Addr → V} {ops : List (FakeIt.Op V E)} {outs : List (OpOut V E)} {s s' : AState V E} {c : Check} (hc : Statable c) {q : Quant} {o : ApiOut}
    (hn : ∀ op ∈ ops ++ [.api (apiOf kinds ctr c q (.stmt false))], op.Within (Api.Named nm) fun _ _ => True) (hwr : ∀ op ∈ ops, op.Within Api.Writes fun _ _ => True)
    (hsm : Small (ops ++ [.api (apiOf kinds ctr c q (.stmt false))])) (hs : aRun P (AState.start heap) ops = some (outs, s)) (ha : aApi P s (apiOf kinds ctr c q (.stmt false)) = some (s', o)) (fuel : Nat) :
    (∃ w, runOps P (fuel + 3) (World.start heap) (ops ++ [.api (apiOf kinds ctr c q (.stmt false))]) = .done (outs ++ [.api o], w) ∧ Agrees s' w) ∧
    ∀ {st : St (List V)}, Checking.Spec.Wf st → SameRecords s st.recs → ∀ (n : Nat) (th : Nat → Option X), (∀ i, th i = none) →
      ∃ r st', statement th (fun p => accepts (kinds p)) n c q st = .done (r, st') ∧ seenOf o = some r ∧ SameRecords s' st'.recs ∧ st'.live = st.live := by
  refine ⟨library_runs hP hc hn hwr hsm hs ha fuel, fun {st} hw hr n th hth => ?_⟩
  have hf := fits_of_run hP (fun op h => hn op (by simp [h])) hwr (small_left hsm) hs hr
  obtain ⟨check, v, -, hd, hrun⟩ := C85_first_exception_reaches_the_test (X := X) (P := asks kinds) hw hc q n
  obtain ⟨st', h1, -, h3, h4⟩ := (hrun th).1 fun i _ => hth _
  obtain ⟨rfl, h6⟩ := agrees hf (by simp) ha hd h3
  exact ⟨says v, st', h1, by cases v <;> rfl, h6, h4⟩

/-- **C92**. An exception that interrupts the verification changes no record, and when the statement is repeated and nothing throws it does what the library would have done the first time. -/
theorem C92_interrupted_verifications_are_repeated_as_in_the_library (hP : P.Named nm) {heap : Addr → V} {ops : List (FakeIt.Op V E)} {outs : List (OpOut V E)} {s s' : AState V E} {c : Check} (hc : Statable c) {q : Quant} {o : ApiOut}
    (hn : ∀ op ∈ ops, op.Within (Api.Named nm) fun _ _ => True) (hwr : ∀ op ∈ ops, op.Within Api.Writes fun _ _ => True)
    (hsm : Small ops) (hs : aRun P (AState.start heap) ops = some (outs, s)) (ha : aApi P s (apiOf kinds ctr c q (.stmt false)) = some (s', o))
    {st st1 : St (List V)} (hw : Checking.Spec.Wf st) (hr : SameRecords s st.recs) {n : Nat} {th : Nat → Option X} {x : X} (h : statement th (fun p => accepts (kinds p)) n c q st = .done (.exc (.user x), st1)) :
    SameRecords s st1.recs ∧ ∀ th' : Nat → Option X, (∀ i, th' i = none) →
      ∃ r st2, statement th' (fun p => accepts (kinds p)) n c q st1 = .done (r, st2) ∧ seenOf o = some r ∧ SameRecords s' st2.recs := by
  have hf := fits_of_run hP hn hwr hsm hs hr
  refine ⟨?_, fun th' hth => ?_⟩
  · obtain ⟨check, v, -, hd, hrun⟩ := C85_first_exception_reaches_the_test (X := X) (P := asks kinds) hw hc q n
    rcases none_or_first th (plan n c check v) st.log.length with hnt | ⟨b, o', x', hft⟩
    · obtain ⟨st', h1, -⟩ := (hrun th).1 hnt
      have := h1.symm.trans h
      cases v <;> cases this
    · obtain ⟨st', h1, -, h3⟩ := (hrun th).2 b o' x' hft
      have := h1.symm.trans h
      cases this
      rw [h3]
      exact hr
  · obtain ⟨v, st2, hd, h2, h3⟩ := C85_an_interrupted_verification_can_be_repeated (P := asks kinds) hw hc q n th h th' hth
    obtain ⟨rfl, h6⟩ := agrees hf (by simp) ha hd h3
    exact ⟨says v, st2, h2, by cases v <;> rfl, h6⟩

/-- **C92**. The same for verifications that are converted to `bool` at once: the answer is the library's. -/
theorem C92_uninterrupted_conversions_are_the_librarys (hP : P.Named nm) {heap : Addr → V} {ops : List (FakeIt.Op V E)} {outs : List (OpOut V E)} {s s' : AState V E} {c : Check} (hc : Statable c) {q : Quant} {o : ApiOut}
    (hn : ∀ op ∈ ops ++ [.api (apiOf kinds ctr c q .asBool)], op.Within (Api.Named nm) fun _ _ => True) (hwr : ∀ op ∈ ops, op.Within Api.Writes fun _ _ => True)
    (hsm : Small (ops ++ [.api (apiOf kinds ctr c q .asBool)])) (hs : aRun P (AState.start heap) ops = some (outs, s)) (ha : aApi P s (apiOf kinds ctr c q .asBool) = some (s', o)) (fuel : Nat) :
    (∃ w, runOps P (fuel + 3) (World.start heap) (ops ++ [.api (apiOf kinds ctr c q .asBool)]) = .done (outs ++ [.api o], w) ∧ Agrees s' w) ∧
    ∀ {st : St (List V)}, Checking.Spec.Wf st → SameRecords s st.recs → ∀ (n : Nat) (th : Nat → Option X) (asBool : X → Option Bool), (∀ i, th i = none) →
      ∃ r st', question th (fun p => accepts (kinds p)) asBool n c q st = .done (r, st') ∧ answerOf o = some r ∧ SameRecords s' st'.recs ∧ st'.live = st.live := by
  refine ⟨library_runs hP hc hn hwr hsm hs ha fuel, fun {st} hw hr n th asBool hth => ?_⟩
  have hf := fits_of_run hP (fun op h => hn op (by simp [h])) hwr (small_left hsm) hs hr
  obtain ⟨check, v, -, hd, hrun⟩ := C85_conversions_partial (X := X) (P := asks kinds) hw hc q n asBool
  obtain ⟨st', h1, -, h3, h4⟩ := (hrun th).1 fun i _ => hth _
  obtain ⟨rfl, h6⟩ := agrees hf (by simp) ha hd h3
  exact ⟨answers v, st', h1, by cases v <;> rfl, h6, h4⟩

/-! ## Concrete cases -/
namespace UninterruptedDemo
open FakeIt.Demo

/-- Predicate 0 accepts everything, the others arguments whose sum is their number. -/
def preds : Nat → MatcherKind Nat
  | 0 => .any
  | n + 1 => .user fun vs => vs.sum == n + 1

/-- Places where methods are named. -/
def places : Nat → Nat → Nat := fun _ off => off

/-- The beginning of the story of C56: two mocks, stubbings, five recorded calls. -/
def begun : List (FakeIt.Op Nat Nat) := story.take 11

/-- `Verify(Method(m0, f).Matching(sum is 7), Method(m1, g))`. -/
def both : Check := .pattern .involved [.leaf ⟨0, 0, 7⟩, .leaf ⟨1, 1, 0⟩]

/-- `VerifyNoOtherInvocations(Method(m0, f).Matching(sum is 3), m1)`. -/
def rest : Check := .noOther (.also (.method ⟨0, 0, 3⟩) (.mock 1))

/-- The recorded calls then. -/
def st0 : St (List Nat) :=
  { recs := [⟨0, 0, [7], false⟩, ⟨0, 0, [7], false⟩, ⟨0, 0, [7], false⟩, ⟨0, 0, [7], false⟩, ⟨1, 1, [0], false⟩], exp := .init, live := [0], next := 1, log := [] }

theorem st0_wf : Checking.Spec.Wf st0 := by
  intro i hi
  simp only [st0, List.mem_cons, List.not_mem_nil, or_false] at hi
  subst hi
  decide

theorem both_statable : Statable both := ⟨by simp, by intro s hs; simp at hs; exact hs.elim (fun h => h ▸ .method _) fun h => h ▸ .method _⟩

/-- Statements with method expressions 0 to 9. -/
theorem named_of {c : Check} {q : Quant} {mode : VMode} (h : ((apiOf (E := Nat) preds places c q mode).slots.all fun x => match x.2 with | .meth off ctr => off == ctr && decide (ctr < 10) | .dtor => true) = true) :
    ∀ op ∈ begun ++ [.api (apiOf preds places c q mode)], op.Within (Api.Named FakeIt.Demo.nm) fun _ _ => True := by
  intro op hop
  rcases List.mem_append.1 hop with hop | hop
  · exact story_named op (List.mem_of_mem_take hop)
  · cases List.mem_singleton.1 hop
    intro x hx
    have := List.all_eq_true.1 h x hx
    obtain ⟨m, sl⟩ := x
    cases sl with
    | meth off ctr =>
      simp at this
      exact ⟨this.1.symm, Nat.lt_of_lt_of_le (Nat.add_lt_add_right this.2 1) (by decide +kernel)⟩
    | dtor => trivial

theorem begun_writes : ∀ op ∈ begun, op.Within Api.Writes fun _ _ => True := fun op hop => story_writes op (List.mem_of_mem_take hop)

theorem begun_run : ∃ s, aRun FakeIt.Demo.quiet (AState.start heap0) begun = some (storyOuts.take 11, s) ∧ SameRecords s st0.recs ∧
    (∃ s', aApi FakeIt.Demo.quiet s (apiOf preds places both .once (.stmt false)) = some (s', .verdict true) ∧ s'.calls.map (·.verified) = [true, false, false, false, true]) ∧
    (∃ s', aApi FakeIt.Demo.quiet s (apiOf preds places rest .once .asBool) = some (s', .verdict false)) :=
  ⟨_, rfl, rfl, ⟨_, rfl, rfl⟩, _, rfl⟩

/-- The verified calls according to the model of exceptions. -/
def verifiedIn (x : R (Res (Exc String) Unit × St (List Nat))) : Option (Res (Exc String) Unit × List Bool) :=
  match x with
  | .done (r, s) => some (r, s.recs.map Rec.verified)
  | _ => none

-- the hypotheses of `C92_uninterrupted_verifications_are_the_librarys` hold: the first call and the last are marked
example : ∃ r st', statement (X := String) (fun _ => none) (fun p => accepts (preds p)) 2 both .once st0 = .done (r, st') ∧ r = .ok () ∧ st'.recs.map Rec.verified = [true, false, false, false, true] := by
  obtain ⟨s, hs, hr, ⟨s', ha, hv⟩, -⟩ := begun_run
  obtain ⟨r, st', h1, h2, h3, -⟩ := (C92_uninterrupted_verifications_are_the_librarys (X := String) (plain_named quiet_plain) both_statable (named_of (by decide +kernel)) begun_writes
    ⟨by decide +kernel, by decide +kernel⟩ hs ha 0).2 st0_wf hr 2 (fun _ => none) fun _ => rfl
  refine ⟨r, st', h1, by cases h2; rfl, ?_⟩
  have := congrArg (List.map fun x => x.2.2) h3
  rw [List.map_map, List.map_map] at this
  exact this.trans hv

example : verifiedIn (statement (fun _ => none) (fun p => accepts (preds p)) 2 both .once st0) = some (.ok (), [true, false, false, false, true]) := by decide +kernel

-- a step throws (the question whether the last call is meant): nothing is marked; then again
theorem interrupted : ∃ st1, statement (X := String) (fun i => if i = 36 then some "no" else none) (fun p => accepts (preds p)) 2 both .once st0 = .done (.exc (.user "no"), st1) := by
  have h : verifiedIn (statement (X := String) (fun i => if i = 36 then some "no" else none) (fun p => accepts (preds p)) 2 both .once st0) = some (.exc (.user "no"), [false, false, false, false, false]) := by decide +kernel
  unfold verifiedIn at h
  split at h
  · rename_i r s1 e
    simp only [Option.some.injEq, Prod.mk.injEq] at h
    exact ⟨s1, h.1 ▸ e⟩
  · cases h

example : ∃ st1, statement (X := String) (fun i => if i = 36 then some "no" else none) (fun p => accepts (preds p)) 2 both .once st0 = .done (.exc (.user "no"), st1) ∧
    ∃ st2, statement (X := String) (fun _ => none) (fun p => accepts (preds p)) 2 both .once st1 = .done (.ok (), st2) := by
  obtain ⟨s, hs, hr, ⟨s', ha, hv⟩, -⟩ := begun_run
  obtain ⟨st1, h⟩ := interrupted
  obtain ⟨r, st2, h1, h2, -⟩ := (C92_interrupted_verifications_are_repeated_as_in_the_library (X := String) (plain_named (nm := FakeIt.Demo.nm) quiet_plain) both_statable (fun op hop => story_named op (List.mem_of_mem_take hop)) begun_writes
    ⟨by decide +kernel, by decide +kernel⟩ hs ha st0_wf hr h).2 (fun _ => none) fun _ => rfl
  cases h2
  exact ⟨st1, h, st2, h1⟩

-- the hypotheses of `C92_uninterrupted_conversions_are_the_librarys` hold: the call of the second mock has not been verified
example : ∃ st', question (X := String) (fun _ => none) (fun p => accepts (preds p)) (fun _ => none) 2 rest .once st0 = .done (.ok false, st') ∧ st'.live = [0] := by
  obtain ⟨s, hs, hr, -, s', ha⟩ := begun_run
  obtain ⟨r, st', h1, h2, -, h4⟩ := (C92_uninterrupted_conversions_are_the_librarys (X := String) (plain_named quiet_plain) (show Statable rest from trivial) (named_of (by decide +kernel)) begun_writes
    ⟨by decide +kernel, by decide +kernel⟩ hs ha 0).2 st0_wf hr 2 (fun _ => none) (fun _ => none) fun _ => rfl
  cases h2
  exact ⟨st', h1, h4⟩

end UninterruptedDemo

end FakeIt.Checking
