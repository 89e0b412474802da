import Verif.Lemmas.CheckingWhole
/-!
# C85: exceptions anywhere in a verification
-/
namespace FakeIt.Checking
open FakeIt.Checking.Spec
open FakeIt.Building (Res)

variable {V X : Type} {P : Nat → V → Bool}

/-- **C85**. For every verification statement, quantifier, history of calls and number of listeners there are the steps of the statement (the preparation, `check`, and if it fails the report) and its decision `v` about the recorded calls, such that, whatever throws:
if no step throws, the statement does exactly these steps, says what was decided, marks exactly the calls of the decision, and no object is left; if a step throws, the statement ends there, the exception that reaches the test is the one of
the first step that throws, no other step is made and no call is marked. -/
theorem C85_first_exception_reaches_the_test {s : St V} (hw : Wf s) {c : Check} (hc : Statable c) (q : Quant) (n : Nat) :
    ∃ check v, (∀ o ∈ check, CheckStep c s.recs o) ∧ Decides P s.recs c q v ∧ ∀ th : Nat → Option X,
      (NoneThrows th s.log.length (plan n c check v) → ∃ s', statement th P n c q s = .done (says v, s') ∧ s'.log = s.log ++ plan n c check v ∧ Marked s.recs s'.recs (marks v) ∧ s'.live = s.live) ∧
      ∀ before o x, FirstThrows th s.log.length (plan n c check v) before o x →
        ∃ s', statement th P n c q s = .done (.exc (.user x), s') ∧ s'.log = s.log ++ (before ++ [o]) ∧ s'.recs = s.recs := by
  obtain ⟨check, v, h1, h2, h3⟩ := statement_plan (X := X) (P := P) hw hc q n
  refine ⟨check, v, h1, h2, fun th => ⟨fun hn => ?_, fun b o x hf => ?_⟩⟩
  · obtain ⟨r, s', h4, h5, h6, h7⟩ := h3.fine th hn
    exact ⟨s', by rw [h4, h6], h5, h7.marked, h7.live⟩
  · obtain ⟨s', h4, h5, h6⟩ := h3.broken th b o x hf
    exact ⟨s', h4, h5, h6.recs⟩

/-- **C85** (partial: not if the memory for the count of handles cannot be had, `C85_out_of_memory_loses_objects`). Whatever step throws, a predicate, a comparison, a listener, the printing of an argument or an allocation: every object that the statement made is
destroyed, once. -/
theorem C85_nothing_is_lost_partial {s : St V} (hw : Wf s) {c : Check} (hc : Statable c) (q : Quant) (n : Nat) (th : Nat → Option X) (hm : ∀ before x, ¬ FirstThrows th s.log.length (prepare c) before (.memory .ref) x) :
    ∃ r s', statement th P n c q s = .done (r, s') ∧ s'.live = s.live := by
  obtain ⟨check, v, h1, h2, h3⟩ := statement_plan (X := X) (P := P) hw hc q n
  rcases none_or_first th (plan n c check v) s.log.length with hn | ⟨b, o, x, hf⟩
  · obtain ⟨r, s', h4, h5, h6, h7⟩ := h3.fine th hn
    exact ⟨r, s', h4, h7.live⟩
  · obtain ⟨s', h4, h5, h6⟩ := h3.broken th b o x hf
    refine ⟨_, s', h4, ?_⟩
    have ho : o ≠ .memory .ref := by
      intro ho
      subst ho
      have key : ∀ t : List Op, plan n c check v = prepare c ++ t → .memory .ref ∉ t → False := by
        intro t ht hmem
        rw [ht] at hf
        rcases first_append hf with hf | ⟨-, b', -, ⟨r, hr⟩, -⟩
        · exact hm b x hf
        · exact hmem (by rw [hr]; simp)
      have hcheck : .memory .ref ∉ check := fun h => h1 _ h
      cases v with
      | refused => exact key [] (by simp [plan]) (by simp)
      | failed => exact key (check ++ reportSteps n) (by simp [plan]) (by simp [reportSteps, hcheck])
      | passed p => exact key check rfl hcheck
    have := h6.live
    simpa [left, ho] using this

/-- **C85** (negation). If the expectation was made but there is no memory for the count of its handles, the expectation and its sources are never destroyed. -/
theorem C85_out_of_memory_loses_objects {s : St V} (hw : Wf s) {c : Check} (hc : Statable c) (q : Quant) (n : Nat) (th : Nat → Option X) {before : List Op} {x : X} (hf : FirstThrows th s.log.length (prepare c) before (.memory .ref) x) :
    ∃ s', statement th P n c q s = .done (.exc (.user x), s') ∧ s'.live = s.live ++ List.range' s.next (lostObjects c) := by
  obtain ⟨check, v, h1, h2, h3⟩ := statement_plan (X := X) (P := P) hw hc q n
  have key : ∀ t : List Op, plan n c check v = prepare c ++ t → FirstThrows th s.log.length (plan n c check v) before (.memory .ref) x := by
    intro t ht
    obtain ⟨⟨r, hr⟩, hn, hx⟩ := hf
    exact ⟨⟨r ++ t, by rw [ht, hr]; simp⟩, hn, hx⟩
  have hf' : FirstThrows th s.log.length (plan n c check v) before (.memory .ref) x := by
    cases v with
    | refused => exact key [] (by simp [plan])
    | failed => exact key (check ++ reportSteps n) (by simp [plan])
    | passed p => exact key check rfl
  obtain ⟨s', h4, h5, h6⟩ := h3.broken th _ _ x hf'
  exact ⟨s', h4, by simpa [left] using h6.live⟩

/-- **C85**. A verification that an exception interrupted can be repeated: the same decision is to be made about the same calls, and it is made, said and marked if nothing throws. -/
theorem C85_an_interrupted_verification_can_be_repeated {s s1 : St V} (hw : Wf s) {c : Check} (hc : Statable c) (q : Quant) (n : Nat) (th : Nat → Option X) {x : X} (h : statement th P n c q s = .done (.exc (.user x), s1)) (th' : Nat → Option X) (hn : ∀ i, th' i = none) :
    ∃ v s2, Decides P s.recs c q v ∧ statement th' P n c q s1 = .done (says v, s2) ∧ Marked s.recs s2.recs (marks v) := by
  obtain ⟨check, v, h1, h2, h3⟩ := statement_plan (X := X) (P := P) hw hc q n
  rcases none_or_first th (plan n c check v) s.log.length with hnt | ⟨b, o, x', hf⟩
  · obtain ⟨r, s', h4, h5, h6, h7⟩ := h3.fine th hnt
    rw [h4, h6] at h
    cases v <;> cases h
  · obtain ⟨s', h4, h5, h6⟩ := h3.broken th b o x' hf
    rw [h4] at h
    cases h
    have hw1 : Wf s1 := by
      intro i hi
      rw [h6.live] at hi
      have := h6.next
      simp only [List.mem_append, List.mem_range'_1] at hi
      rcases hi with hi | hi
      · have := hw i hi
        omega
      · omega
    obtain ⟨check', v', h8, h9, h10⟩ := statement_plan (X := X) (P := P) hw1 hc q n
    obtain ⟨r, s2, h11, h12, h13, h14⟩ := h10.fine th' fun i _ => hn _
    rw [h6.recs] at h9
    exact ⟨v', s2, h9, by rw [h11, h13], by rw [← h6.recs]; exact h14.marked⟩

/-- **C85** (partial: no exception of type `bool` is thrown, see `C85_bool_exceptions_are_taken_for_the_answer`). A verification that is converted to `bool` at once: the answer is the decision, an exception reaches the test, and what was said of statements holds here too. -/
theorem C85_conversions_partial {s : St V} (hw : Wf s) {c : Check} (hc : Statable c) (q : Quant) (n : Nat) (asBool : X → Option Bool) :
    ∃ check v, (∀ o ∈ check, CheckStep c s.recs o) ∧ Decides P s.recs c q v ∧ ∀ th : Nat → Option X,
      (NoneThrows th s.log.length (questionPlan c check v) → ∃ s', question th P asBool n c q s = .done (answers v, s') ∧ s'.log = s.log ++ questionPlan c check v ∧ Marked s.recs s'.recs (marks v) ∧ s'.live = s.live) ∧
      ∀ before o x, FirstThrows th s.log.length (questionPlan c check v) before o x → asBool x = none →
        ∃ s', question th P asBool n c q s = .done (.exc (.user x), s') ∧ s'.log = s.log ++ (before ++ [o]) ∧ s'.recs = s.recs ∧ (o ≠ .memory .ref → s'.live = s.live) := by
  obtain ⟨check, v, h1, h2, h3⟩ := question_plan (X := X) (P := P) hw hc q n (asBool := fun _ => none) fun _ => rfl
  refine ⟨check, v, h1, h2, fun th => ⟨fun hn => ?_, fun b o x hf hx => ?_⟩⟩
  · obtain ⟨r, s', h4, h5, h6, h7⟩ := h3.fine th hn
    exact ⟨s', question_asBool (by rw [h4, h6]) (by cases v <;> intro x hx <;> cases hx), h5, h7.marked, h7.live⟩
  · obtain ⟨s', h4, h5, h6⟩ := h3.broken th b o x hf
    exact ⟨s', question_asBool h4 (by intro y hy; cases hy; exact hx), h5, h6.recs, fun ho => by simpa [left, ho] using h6.live⟩

/-- **C85** (negation). If a predicate, a comparison or an allocation throws a `bool` while a verification is converted to `bool`, the test gets this as the answer, whatever the calls are; nothing is marked. -/
theorem C85_bool_exceptions_are_taken_for_the_answer {s : St V} (hw : Wf s) {c : Check} (hc : Statable c) (q : Quant) (n : Nat) {asBool : X → Option Bool} :
    ∃ check v, (∀ o ∈ check, CheckStep c s.recs o) ∧ Decides P s.recs c q v ∧ ∀ (th : Nat → Option X) b o x a, FirstThrows th s.log.length (questionPlan c check v) (prepare c ++ b) o x → asBool x = some a →
      ∃ s', question th P asBool n c q s = .done (.ok a, s') ∧ s'.recs = s.recs ∧ s'.live = s.live := by
  by_cases hr : Refuses c q
  · refine ⟨[], .refused, by simp, by cases c with | pattern => exact hr | noOther => exact hr, ?_⟩
    rintro th b o x a ⟨⟨r, h⟩, -⟩ -
    have := congrArg List.length h
    simp [questionPlan] at this
  · obtain ⟨check, v, h1, h2, h3, h4⟩ := verify_plan (X := X) (P := P) (recs := s.recs) hc hr
    refine ⟨check, v, h1, h2, fun th b o x a hf ha => ?_⟩
    have e : questionPlan c check v = prepare c ++ (check ++ tailOps .throwFalse v) := by
      cases v with
      | refused => exact absurd rfl h3
      | failed => simp [questionPlan, tailOps, reportOps]
      | passed p => simp [questionPlan, tailOps]
    rw [e] at hf
    rcases first_append hf with ⟨⟨r, h⟩, -⟩ | ⟨hn, b', hb', hf'⟩
    · have := congrArg List.length h
      simp at this
    obtain ⟨r, s1, h5, h6, hd, h7, hh, hi⟩ := (construct_plan (X := X) hw c).fine th hn
    rcases quantify_eq (X := X) (c := c) (q := q) hi with ⟨h, -⟩ | ⟨-, ex, hqd, hq⟩
    · exact absurd h hr
    have hh' : Held s (lostObjects c) hd { s1 with exp := ex } := ⟨⟨hh.built.recs, hh.built.live, hh.built.next⟩, hh.ref, hh.objects⟩
    obtain ⟨s2, h8, h9, h10, h11⟩ := (h4 .throwFalse { s1 with exp := ex } hh.built.recs hqd).broken th b' o x (by simp only [h6, List.length_append]; exact hf')
    refine ⟨{ s2 with live := s.live }, ?_, by simp only [h10, hh.built.recs], rfl⟩
    show M.bind (construct th c) _ s = _
    simp only [M.bind, h5, h7, R.bind_done]
    show M.bind _ _ s1 = _
    simp only [M.bind, M.unwinding, hq, R.bind_done]
    show M.bind _ _ _ = _
    simp only [M.bind, M.unwinding, convert_eq h8, caught, ha, R.bind_done]
    show M.bind _ _ s2 = _
    simp only [M.bind, drop_settled hw hh' h11, R.bind_done]
    rfl

/-- **C85** (negation). The test keeps a verification and converts it. If an exception interrupts the first conversion, all later ones answer `true` without looking, whatever the calls are, and the end of the verification says nothing; nothing is marked. -/
theorem C85_an_interrupted_conversion_counts_as_passed {s s1 : St V} (hw : Wf s) {c : Check} (hc : Statable c) {q : Quant} (n : Nat) {th : Nat → Option X} {asBool : X → Option Bool} {hd : Handle} (hk : keep th c q s = .done (.ok hd, s1)) :
    ∃ check v, (∀ o ∈ check, CheckStep c s.recs o) ∧ Decides P s.recs c q v ∧ ∀ b o x, FirstThrows th s1.log.length (conversionPlan check v) b o x → asBool x = none → ∀ k,
      ∃ s2 s3, conversions th P asBool c (k + 1) s1 = .done (none :: List.replicate k (some true), s2) ∧ s2.log = s1.log ++ (b ++ [o]) ∧
        hd.drop th P n c s2 = .done (.ok (), s3) ∧ s3.recs = s.recs ∧ s3.live = s.live := by
  obtain ⟨hr, hh, hqd⟩ := keep_eq hw hk
  obtain ⟨check, v, h1, h2, h3, h4⟩ := verify_plan (X := X) (P := P) (recs := s.recs) hc hr
  refine ⟨check, v, h1, h2, fun b o x hf hx k => ?_⟩
  have e : conversionPlan check v = check ++ tailOps .throwFalse v := by
    cases v with
    | refused => exact absurd rfl h3
    | failed => simp [conversionPlan, tailOps, reportOps]
    | passed p => simp [conversionPlan, tailOps]
  rw [e] at hf
  obtain ⟨s2, h5, h6, h7, h8⟩ := (h4 .throwFalse s1 hh.built.recs hqd).broken th b o x hf
  refine ⟨s2, _, ?_, h6, drop_settled hw hh h8 th n, by simp only [h7, hh.built.recs], rfl⟩
  simp only [conversions, convert_eq h5, caught, hx, R.bind_done, conversions_verified k h8.isVerified]

/-! ## Concrete cases -/
namespace Demo

/-- Three calls, two of them on the first mock, one verified; two objects of the test. -/
def s0 : St Nat := { recs := [⟨0, 0, 3, false⟩, ⟨1, 0, 5, false⟩, ⟨0, 1, 7, true⟩, ⟨0, 0, 6, false⟩], exp := .init, live := [0, 1], next := 2, log := [] }

/-- Predicate 0 accepts everything, the others large numbers. -/
def pr : Nat → Nat → Bool
  | 0, _ => true
  | _ + 1, v => decide (4 < v)

/-- The `n`-th step throws. -/
def at_ (n : Nat) : Nat → Option String := fun i => if i = n then some "no" else none

/-- `Verify(Method(m0, f).Matching(large))`. -/
def large : Check := .pattern .involved [.leaf ⟨0, 0, 1⟩]

/-- `Unverified.Verify(Method(m0, f) + Method(m0, f), Method(m1, f))`. -/
def two : Check := .pattern .unverified [Seq.opPlus (.leaf ⟨0, 0, 0⟩) (.leaf ⟨0, 0, 0⟩), .leaf ⟨1, 0, 0⟩]

/-- `VerifyNoOtherInvocations(m0, Method(m1, f).Matching(large))`. -/
def others : Check := .noOther (.also (.mock 0) (.method ⟨1, 0, 1⟩))

/-- The end, the objects, the marks, the number of steps. -/
def sum {α : Type} : R (Res (Exc String) α × St Nat) → Option (Res (Exc String) α × List Nat × List Bool × Nat)
  | .done (r, s) => some (r, s.live, s.recs.map Rec.verified, s.log.length)
  | _ => none

theorem s0_wf : Wf s0 := by
  intro i hi
  simp only [s0, List.mem_cons, List.not_mem_nil, or_false] at hi
  rcases hi with rfl | rfl <;> decide

theorem large_statable : Statable large := ⟨by simp, by intro s hs; simp at hs; subst hs; exact .method _⟩

theorem two_statable : Statable two := ⟨by simp, by intro s hs; simp at hs; exact hs.elim (fun h => h ▸ .plus (.method _) (.method _)) fun h => h ▸ .method _⟩

example : ∃ check v, (∀ o ∈ check, CheckStep large s0.recs o) ∧ Decides pr s0.recs large .once v ∧ ∀ th : Nat → Option String,
      (NoneThrows th s0.log.length (plan 1 large check v) → ∃ s', statement th pr 1 large .once s0 = .done (says v, s') ∧ s'.log = s0.log ++ plan 1 large check v ∧ Marked s0.recs s'.recs (marks v) ∧ s'.live = s0.live) ∧
      ∀ before o x, FirstThrows th s0.log.length (plan 1 large check v) before o x →
        ∃ s', statement th pr 1 large .once s0 = .done (.exc (.user x), s') ∧ s'.log = s0.log ++ (before ++ [o]) ∧ s'.recs = s0.recs :=
  C85_first_exception_reaches_the_test s0_wf large_statable .once 1

-- no exception: the fourth call is marked; if two such calls are wanted it fails and tells the listener
example : sum (statement (at_ 1000) pr 1 large .once s0) = some (.ok (), [0, 1], [false, false, true, true], 27) := by decide +kernel
example : sum (statement (at_ 1000) pr 1 large .twice s0) = some (.exc .failed, [0, 1], [false, false, true, false], 30) := by decide +kernel
example : sum (statement (at_ 1000) pr 1 large (.exactly (-1)) s0) = some (.exc .invalid, [0, 1], [false, false, true, false], 9) := by decide +kernel
-- the predicate throws, the listener throws, the printing throws
example : sum (statement (at_ 21) pr 1 large .once s0) = some (.exc (.user "no"), [0, 1], [false, false, true, false], 22) := by decide +kernel
example : sum (statement (at_ 28) pr 1 large .twice s0) = some (.exc (.user "no"), [0, 1], [false, false, true, false], 29) := by decide +kernel
example : sum (statement (at_ 29) pr 1 large .twice s0) = some (.exc (.user "no"), [0, 1], [false, false, true, false], 30) := by decide +kernel
-- `VerifyNoOtherInvocations`
example : sum (statement (at_ 1000) pr 0 others .dflt s0) = some (.exc .failed, [0, 1], [false, false, true, false], 30) := by decide +kernel
example : sum (statement (at_ 8) pr 0 others .dflt s0) = some (.exc (.user "no"), [0, 1], [false, false, true, false], 9) := by decide +kernel

example : ∃ r s', statement (at_ 21) pr 1 large .once s0 = .done (r, s') ∧ s'.live = s0.live := by
  refine C85_nothing_is_lost_partial s0_wf large_statable .once 1 (at_ 21) ?_
  rintro b x ⟨⟨r, hr⟩, -, hx⟩
  have hl := congrArg List.length hr
  have h9 : (prepare large).length = 9 := by decide
  rw [h9, List.length_append, List.length_cons] at hl
  simp only [at_, s0, List.length_nil, Nat.zero_add] at hx
  rw [if_neg (by omega)] at hx
  cases hx

example : ∃ s', statement (at_ 12) pr 1 two .once s0 = .done (.exc (.user "no"), s') ∧ s'.live = s0.live ++ [2, 3, 4] :=
  C85_out_of_memory_loses_objects s0_wf two_statable .once 1 (at_ 12) (before := (prepare two).take 12) ⟨⟨[], by decide⟩, fun i hi => by
    have h12 : ((prepare two).take 12).length = 12 := by decide
    rw [h12] at hi
    simp only [at_, s0, List.length_nil, Nat.zero_add]
    exact if_neg (by omega), by decide⟩

/-- What is left if there is no memory for the second mock of the pattern. -/
def s1 : St Nat := { s0 with log := (prepare two).take 3 }

theorem two_interrupted : statement (at_ 2) pr 1 two .once s0 = .done (.exc (.user "no"), s1) := by rfl

example : ∃ v s2, Decides pr s0.recs two .once v ∧ statement (X := String) (fun _ => none) pr 1 two .once s1 = .done (says v, s2) ∧ Marked s0.recs s2.recs (marks v) :=
  C85_an_interrupted_verification_can_be_repeated s0_wf two_statable .once 1 (at_ 2) two_interrupted (fun _ => none) fun _ => rfl

/-- `"yes"` and `"no"` stand for exceptions of type `bool`. -/
def asBool : String → Option Bool := fun x => if x = "yes" then some true else if x = "no" then some false else none

/-- The `n`-th step throws `x`. -/
def throws (n : Nat) (x : String) : Nat → Option String := fun i => if i = n then some x else none

-- the verification of three calls fails, but a predicate that throws `true` makes it pass
example : sum (question (at_ 1000) pr asBool 1 large (.exactly 3) s0) = some (.ok false, [0, 1], [false, false, true, false], 28) := by decide +kernel
example : sum (question (throws 21 "yes") pr asBool 1 large (.exactly 3) s0) = some (.ok true, [0, 1], [false, false, true, false], 22) := by decide +kernel
example : sum (question (throws 21 "x") pr asBool 1 large (.exactly 3) s0) = some (.exc (.user "x"), [0, 1], [false, false, true, false], 22) := by decide +kernel

example : ∃ check v, (∀ o ∈ check, CheckStep large s0.recs o) ∧ Decides pr s0.recs large (.exactly 3) v ∧ ∀ (th : Nat → Option String) b o x a,
    FirstThrows th s0.log.length (questionPlan large check v) (prepare large ++ b) o x → asBool x = some a → ∃ s', question th pr asBool 1 large (.exactly 3) s0 = .done (.ok a, s') ∧ s'.recs = s0.recs ∧ s'.live = s0.live :=
  C85_bool_exceptions_are_taken_for_the_answer s0_wf large_statable (.exactly 3) 1

example : ∃ check v, (∀ o ∈ check, CheckStep others s0.recs o) ∧ Decides pr s0.recs others .dflt v ∧ ∀ th : Nat → Option String,
      (NoneThrows th s0.log.length (questionPlan others check v) → ∃ s', question th pr asBool 2 others .dflt s0 = .done (answers v, s') ∧ s'.log = s0.log ++ questionPlan others check v ∧ Marked s0.recs s'.recs (marks v) ∧ s'.live = s0.live) ∧
      ∀ before o x, FirstThrows th s0.log.length (questionPlan others check v) before o x → asBool x = none →
        ∃ s', question th pr asBool 2 others .dflt s0 = .done (.exc (.user x), s') ∧ s'.log = s0.log ++ (before ++ [o]) ∧ s'.recs = s0.recs ∧ (o ≠ .memory .ref → s'.live = s0.live) :=
  C85_conversions_partial s0_wf (show Statable others from trivial) .dflt 2 asBool

/-- The verification is kept. -/
def s2 : St Nat := { s0 with exp := { Expectation.init with count := 3 }, live := [0, 1, 2, 3, 4], next := 5, log := prepare large }

theorem large_kept : keep (throws 21 "x") large (.exactly 3) s0 = .done (.ok ⟨[2], 3, 4⟩, s2) := by rfl

example : ∃ check v, (∀ o ∈ check, CheckStep large s0.recs o) ∧ Decides pr s0.recs large (.exactly 3) v ∧ ∀ b o x, FirstThrows (throws 21 "x") s2.log.length (conversionPlan check v) b o x → asBool x = none → ∀ k,
      ∃ s2' s3, conversions (throws 21 "x") pr asBool large (k + 1) s2 = .done (none :: List.replicate k (some true), s2') ∧ s2'.log = s2.log ++ (b ++ [o]) ∧
        Handle.drop (throws 21 "x") pr 1 large ⟨[2], 3, 4⟩ s2' = .done (.ok (), s3) ∧ s3.recs = s0.recs ∧ s3.live = s0.live :=
  C85_an_interrupted_conversion_counts_as_passed s0_wf large_statable 1 large_kept

/-- What conversions of a kept verification answer. -/
def kept (th : Nat → Option String) (c : Check) (q : Quant) (n : Nat) : Option (List (Option Bool)) :=
  match keep th c q s0 with
  | .done (.ok _, s) =>
    match conversions th pr asBool c n s with
    | .done (bs, _) => some bs
    | _ => none
  | _ => none

-- three calls were not made, but after an exception the verification counts as passed
example : kept (throws 21 "x") large (.exactly 3) 3 = some [none, some true, some true] := by decide +kernel
example : kept (at_ 1000) large .once 2 = some [some true, some true] := by decide +kernel

end Demo

end FakeIt.Checking
