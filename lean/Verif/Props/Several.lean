import Verif.Lemmas.Several
import Verif.Props.Building
/-!
# C84: `Fake(...)` and `Spy(...)` of several methods that fail in the middle
-/
namespace FakeIt.Several
open FakeIt.Building FakeIt.Spec.Building FakeIt.Spec.Several

variable {X : Type} {th : Nat → Option X}

theorem prepare_split : ∀ {cs : List Crit} {n : Nat} {c : Crit}, cs[n]? = some c → prepareSteps cs = prepareSteps (cs.take n) ++ (argumentSteps c ++ prepareSteps (cs.drop (n + 1)))
  | [], n, c, h => by simp at h
  | d :: cs, 0, c, h => by
    simp only [List.getElem?_cons_zero, Option.some.injEq] at h
    subst h; simp [prepareSteps]
  | d :: cs, n + 1, c, h => by
    have := prepare_split (cs := cs) (n := n) (c := c) (by simpa using h)
    simp [prepareSteps, this]

theorem stub_split (kind : Kind) : ∀ {m n k : Nat}, n < m → stubSteps kind k m = stubSteps kind k n ++ (makeSteps (k + n) kind ++ (endSteps ++ stubSteps kind (k + n + 1) (m - n - 1)))
  | 0, n, k, h => absurd h (Nat.not_lt_zero _)
  | m + 1, 0, k, h => by simp [stubSteps]
  | m + 1, n + 1, k, h => by
    have := stub_split kind (m := m) (n := n) (k := k + 1) (by omega)
    have e1 : k + (n + 1) = k + 1 + n := by omega
    have e2 : m + 1 - (n + 1) - 1 = m - n - 1 := by omega
    rw [e1, e2]
    simp only [stubSteps, this, List.append_assoc]

theorem Broke.inArgument {s s' : St} {kind : Kind} {cs : List Crit} {n : Nat} {c : Crit} {x : X} (hc : cs[n]? = some c) (h : Broke th s (prepareSteps (cs.take n)) (argumentSteps c) [] (lost c) x s') :
    ∃ before o left, FirstToThrow th s.log.length (Spec.Several.steps kind cs) before o x ∧ InArgument cs n c before o ∧ s'.stubs = s.stubs ∧ Holds s left s' ∧ left.length = lost c o ∧ s'.log = s.log ++ before ++ [o] := by
  obtain ⟨b, o, r, left, hn, ht, hq, hat, hl⟩ := h
  refine ⟨prepareSteps (cs.take n) ++ b, o, left, ⟨⟨r ++ (prepareSteps (cs.drop (n + 1)) ++ stubSteps kind 0 cs.length), ?_⟩, ht, hq⟩, ⟨hc, b, r, rfl, hn⟩, hat.2.1, by simpa using hat.1, hl, hat.2.2⟩
  rw [Spec.Several.steps, prepare_split hc, hn]; simp

theorem Broke.inStubbing {s s' : St} {kind : Kind} {cs : List Crit} {n : Nat} {ts : List Stub} {x : X} (hlt : n < cs.length)
    (h : Broke th (withStubs s ts) (prepareSteps cs ++ stubSteps kind 0 n) (makeSteps n kind ++ [.memory .handler]) (ownedAll ts) (fun _ => 0) x s') :
    ∃ before o, FirstToThrow th s.log.length (Spec.Several.steps kind cs) before o x ∧ InStubbing kind cs n before o ∧ ¬ deletesTwice o ∧ s'.stubs = s.stubs ++ ts ∧ Holds s (ownedAll ts) s' ∧ s'.log = s.log ++ before ++ [o] := by
  obtain ⟨b, o, r, left, hn, ht, hq, hat, hl⟩ := h
  rw [List.length_eq_zero_iff.mp hl, List.append_nil] at hat
  have hs : makeSteps n kind ++ endSteps = b ++ o :: (r ++ [.memory .count1, .memory .count2, .memory .count3, .memory .place]) := by
    have : makeSteps n kind ++ endSteps = (makeSteps n kind ++ [.memory .handler]) ++ [.memory .count1, .memory .count2, .memory .count3, .memory .place] := by simp [endSteps]
    rw [this, hn]; simp
  refine ⟨prepareSteps cs ++ stubSteps kind 0 n ++ b, o, ⟨⟨r ++ ([.memory .count1, .memory .count2, .memory .count3, .memory .place] ++ stubSteps kind (n + 1) (cs.length - n - 1)), ?_⟩, ht, hq⟩,
    ⟨hlt, b, _, by simp, hs⟩, ?_, hat.2.1, hat.1, hat.2.2⟩
  · rw [Spec.Several.steps, stub_split kind hlt, ← List.append_assoc (makeSteps _ kind), Nat.zero_add, hs]; simp
  · have hm : o ∈ makeSteps n kind ++ [.memory .handler] := by rw [hn]; simp
    cases kind with
    | fake =>
      simp only [makeSteps, List.mem_append, List.mem_cons, List.not_mem_nil, or_false] at hm
      rcases hm with (rfl | rfl | rfl) | rfl <;> exact id
    | spy =>
      simp only [makeSteps, List.mem_append, List.mem_cons, List.not_mem_nil, or_false] at hm
      rcases hm with (rfl | rfl | rfl | rfl | rfl) | rfl <;> exact id

theorem Twice.inStubbing {s : St} {kind : Kind} {cs : List Crit} {n : Nat} (hlt : n < cs.length) (h : Twice th s (prepareSteps cs ++ (stubSteps kind 0 n ++ makeSteps n kind)) endSteps) :
    ∃ before o x, FirstToThrow th s.log.length (Spec.Several.steps kind cs) before o x ∧ deletesTwice o := by
  obtain ⟨b, o, r, x, hn, ho, ht, hq⟩ := h
  refine ⟨_, o, x, ⟨⟨r ++ stubSteps kind (n + 1) (cs.length - n - 1), ?_⟩, ht, hq⟩, ho⟩
  rw [Spec.Several.steps, stub_split kind hlt, Nat.zero_add, hn]; simp

/-- **C84 (no exception).** If no step of `Fake(...)`, `Spy(...)` or `SpyWithoutVerify(...)` throws, the statement ends normally. Each of its methods has one more stubbing, in the order of the statement, with a matcher for each argument of
`Using` and with one action. The only objects left are those of the stubbings. -/
theorem C84_without_exceptions (kind : Kind) (cs : List Crit) {s : St} (hw : Wf s) (hn : NoneThrows th s.log.length (Spec.Several.steps kind cs)) :
    ∃ s' ts, statement th kind cs s = .done (.ok (), s') ∧ s'.stubs = s.stubs ++ ts ∧ Made cs ts ∧ Holds s (ownedAll ts) s' ∧ s'.log = s.log ++ Spec.Several.steps kind cs := by
  have h := statement_run (th := th) kind cs hw
  unfold wp at h
  split at h
  · rename_i s' hm
    obtain ⟨ts, hr, ht⟩ := h
    exact ⟨s', ts, hm, hr.1.2.1, ht, hr.1.1, hr.1.2.2⟩
  · rcases h with ⟨n, c, hc, hb⟩ | ⟨n, ts, hlt, -, hb⟩
    · obtain ⟨b, o, l, hf, -⟩ := Broke.inArgument (kind := kind) hc hb
      exact absurd hn (first_not_none hf)
    · obtain ⟨b, o, hf, -⟩ := Broke.inStubbing hlt hb
      exact absurd hn (first_not_none hf)
  · obtain ⟨n, hlt, ht⟩ := h
    obtain ⟨b, o, x, hf, -⟩ := Twice.inStubbing hlt ht
    exact absurd hn (first_not_none hf)
  · exact h.elim

/-- **C84 (an exception).** If a step throws which is not one of the last four of a method, the test gets just this exception, and no step is made after it. Either an argument of the statement was being made: then nothing is stubbed, and as many
objects are lost as in a statement on this argument alone. Or the methods were being stubbed: then the methods before the one in question are stubbed, this one and the others are not, and nothing is lost. -/
theorem C84_first_exception_reaches_the_test (kind : Kind) (cs : List Crit) {s : St} (hw : Wf s) {before : List Op} {o : Op} {x : X} (hf : FirstToThrow th s.log.length (Spec.Several.steps kind cs) before o x) (ho : ¬ deletesTwice o) :
    ∃ s', statement th kind cs s = .done (.exc x, s') ∧ s'.log = s.log ++ before ++ [o] ∧
      ((∃ n c left, InArgument cs n c before o ∧ s'.stubs = s.stubs ∧ Holds s left s' ∧ left.length = lost c o) ∨
       (∃ n ts, InStubbing kind cs n before o ∧ s'.stubs = s.stubs ++ ts ∧ Made (cs.take n) ts ∧ Holds s (ownedAll ts) s')) := by
  have h := statement_run (th := th) kind cs hw
  unfold wp at h
  split at h
  · obtain ⟨ts, hr, -⟩ := h
    exact absurd hr.2 (first_not_none hf)
  · rename_i y s' hm
    rcases h with ⟨n, c, hc, hb⟩ | ⟨n, ts, hlt, hmade, hb⟩
    · obtain ⟨b, o', l, hf', hi, hs, hh, hl, hg⟩ := Broke.inArgument (kind := kind) hc hb
      obtain ⟨rfl, rfl, rfl⟩ := first_unique hf hf'
      exact ⟨s', hm, hg, .inl ⟨n, c, l, hi, hs, hh, hl⟩⟩
    · obtain ⟨b, o', hf', hi, -, hs, hh, hg⟩ := Broke.inStubbing hlt hb
      obtain ⟨rfl, rfl, rfl⟩ := first_unique hf hf'
      exact ⟨s', hm, hg, .inr ⟨n, ts, hi, hs, hmade, hh⟩⟩
  · obtain ⟨n, hlt, ht⟩ := h
    obtain ⟨b, o', y, hf', ho'⟩ := Twice.inStubbing hlt ht
    obtain ⟨rfl, rfl, rfl⟩ := first_unique hf hf'
    exact absurd ho' ho
  · exact h.elim

/-- **C84 (refuted: running out of memory gives an exception).** If one of the last four allocations of a method fails, the library deletes what it has deleted already. -/
theorem C84_out_of_memory_deletes_twice (kind : Kind) (cs : List Crit) {s : St} (hw : Wf s) {before : List Op} {o : Op} {x : X} (hf : FirstToThrow th s.log.length (Spec.Several.steps kind cs) before o x) (ho : deletesTwice o) :
    statement th kind cs s = .ub := by
  have h := statement_run (th := th) kind cs hw
  unfold wp at h
  split at h
  · obtain ⟨ts, hr, -⟩ := h
    exact absurd hr.2 (first_not_none hf)
  · rcases h with ⟨n, c, hc, hb⟩ | ⟨n, ts, hlt, -, hb⟩
    · obtain ⟨b, o', l, hf', ⟨-, b', r, -, hr⟩, -⟩ := Broke.inArgument (kind := kind) hc hb
      obtain ⟨rfl, rfl, rfl⟩ := first_unique hf hf'
      have hm : o ∈ argumentSteps c := by rw [hr]; simp
      cases o with
      | memory w =>
        exfalso
        have args : ∀ n i, ∀ o ∈ argSteps n i, ¬ deletesTwice o := by
          intro n
          induction n with
          | zero => intro i o ho; simp [argSteps] at ho
          | succ n ih =>
            intro i o ho
            simp only [argSteps, List.mem_append, List.mem_cons, List.not_mem_nil, or_false] at ho
            rcases ho with (rfl | rfl | rfl) | ho
            · exact id
            · exact id
            · exact id
            · exact ih _ _ ho
        simp only [argumentSteps, methodSteps, List.mem_append, List.mem_cons, List.not_mem_nil, or_false, Op.memory.injEq] at hm
        rcases hm with (rfl | rfl | rfl | rfl | rfl | rfl) | hm
        all_goals first | exact ho | skip
        cases c with
        | all => simp [critSteps] at hm
        | «using» n =>
          simp only [critSteps, List.mem_append, List.mem_singleton, Op.memory.injEq] at hm
          rcases hm with hm | rfl
          · exact args _ _ _ hm ho
          · exact ho
        | matching =>
          simp only [critSteps, List.mem_cons, List.not_mem_nil, or_false, Op.memory.injEq, reduceCtorEq, false_or] at hm
          subst hm; exact ho
      | _ => exact ho.elim
    · obtain ⟨b, o', hf', -, ho', -⟩ := Broke.inStubbing hlt hb
      obtain ⟨rfl, rfl, rfl⟩ := first_unique hf hf'
      exact absurd ho ho'
  · assumption
  · exact h.elim

theorem memory_only {kind : Kind} {n : Nat} {o : Op} (h : o ∈ makeSteps n kind ++ endSteps) : ¬ ofUser o := by
  cases kind with
  | fake =>
    simp only [makeSteps, endSteps, List.mem_append, List.mem_cons, List.not_mem_nil, or_false] at h
    rcases h with (rfl | rfl | rfl) | rfl | rfl | rfl | rfl | rfl <;> exact id
  | spy =>
    simp only [makeSteps, endSteps, List.mem_append, List.mem_cons, List.not_mem_nil, or_false] at h
    rcases h with (rfl | rfl | rfl | rfl | rfl) | rfl | rfl | rfl | rfl | rfl <;> exact id

/-- **C84 (exceptions of the user).** If the user's own code throws in the statement — the copy of an expected value or of a predicate of any of the arguments —, the test gets the exception and none of the methods is stubbed. -/
theorem C84_user_exceptions_stub_nothing (kind : Kind) (cs : List Crit) {s : St} (hw : Wf s) {before : List Op} {o : Op} {x : X} (hf : FirstToThrow th s.log.length (Spec.Several.steps kind cs) before o x) (ho : ofUser o) :
    ∃ s', statement th kind cs s = .done (.exc x, s') ∧ s'.stubs = s.stubs := by
  have hd : ¬ deletesTwice o := by
    cases o with
    | memory w => exact absurd ho id
    | _ => exact id
  obtain ⟨s', h, -, ⟨n, c, left, -, hs, -⟩ | ⟨n, ts, ⟨-, b, r, -, hr⟩, -⟩⟩ := C84_first_exception_reaches_the_test kind cs hw hf hd
  · exact ⟨s', h, hs⟩
  · exact absurd ho (memory_only (by rw [hr]; simp))

/-- **C84 (partial: all or nothing).** An exception in a statement on one method leaves nothing stubbed, unless lack of memory makes the library delete something twice. Missing: statements on several methods, where the claim is false
(`C84_earlier_methods_stay_stubbed`). -/
theorem C84_all_or_nothing_partial (kind : Kind) (c : Crit) {s : St} (hw : Wf s) {before : List Op} {o : Op} {x : X} (hf : FirstToThrow th s.log.length (Spec.Several.steps kind [c]) before o x) (ho : ¬ deletesTwice o) :
    ∃ s', statement th kind [c] s = .done (.exc x, s') ∧ s'.stubs = s.stubs := by
  obtain ⟨s', h, -, ⟨n, c, left, -, hs, -⟩ | ⟨n, ts, ⟨hn, -⟩, hs, hm, -⟩⟩ := C84_first_exception_reaches_the_test kind [c] hw hf ho
  · exact ⟨s', h, hs⟩
  · have h0 : n = 0 := by simpa using hn
    subst h0
    have : ts = [] := by
      have := congrArg List.length (hm : ts.map _ = _)
      simpa using this
    exact ⟨s', h, by rw [hs, this, List.append_nil]⟩

/-- **C84 (refuted: all or nothing).** For every statement on two methods or more, there is an allocation whose failure gives the test an exception while some of the methods are stubbed. -/
theorem C84_earlier_methods_stay_stubbed (kind : Kind) (cs : List Crit) (hc : 2 ≤ cs.length) {s : St} (hw : Wf s) (x : X) :
    ∃ th before o, FirstToThrow th s.log.length (Spec.Several.steps kind cs) before o x ∧ ∃ s' ts, statement th kind cs s = .done (.exc x, s') ∧ s'.stubs = s.stubs ++ ts ∧ 0 < ts.length ∧ ts.length < cs.length := by
  obtain ⟨o, r, hr, ho⟩ : ∃ o r, makeSteps 1 kind = o :: r ∧ ¬ deletesTwice o := by
    cases kind with
    | fake => exact ⟨_, _, rfl, id⟩
    | spy => exact ⟨_, _, rfl, id⟩
  have hs : Spec.Several.steps kind cs = (prepareSteps cs ++ stubSteps kind 0 1) ++ o :: (r ++ (endSteps ++ stubSteps kind 2 (cs.length - 1 - 1))) := by
    rw [Spec.Several.steps, stub_split kind (n := 1) (by omega), Nat.zero_add, hr]; simp
  refine ⟨fun i => if i = s.log.length + (prepareSteps cs ++ stubSteps kind 0 1).length then some x else none, prepareSteps cs ++ stubSteps kind 0 1, o, ?_, ?_⟩
  · exact ⟨⟨_, hs⟩, by simp, fun i hi => if_neg (by omega)⟩
  · obtain ⟨s', h, -, hcase⟩ := C84_first_exception_reaches_the_test (th := fun i => if i = s.log.length + (prepareSteps cs ++ stubSteps kind 0 1).length then some x else none) kind cs hw
      (before := prepareSteps cs ++ stubSteps kind 0 1) (o := o) (x := x) ⟨⟨_, hs⟩, by simp, fun i hi => if_neg (by omega)⟩ ho
    rcases hcase with ⟨n, c, left, ⟨hcn, b, r', hb, hb'⟩, -⟩ | ⟨n, ts, ⟨hn, b, r', hb, hb'⟩, hst, hm, -⟩
    · exfalso
      have l1 := congrArg List.length hb
      have l2 := congrArg List.length hb'
      have l3 := congrArg List.length (prepare_split hcn)
      simp only [List.length_append, List.length_cons] at l1 l2 l3
      omega
    · refine ⟨s', ts, h, hst, ?_, ?_⟩
      · have hl : ts.length = n := by
          have := congrArg List.length (hm : ts.map _ = _)
          simp only [List.length_map, List.length_take] at this
          omega
        rw [hl]
        apply Nat.pos_of_ne_zero
        rintro rfl
        have l1 := congrArg List.length hb
        have l2 := congrArg List.length hb'
        simp only [stubSteps, List.length_append, List.length_cons, List.length_nil] at l1 l2
        omega
      · have := congrArg List.length (hm : ts.map _ = _)
        simp only [List.length_map, List.length_take] at this
        omega

namespace Demo
open FakeIt.Building.Demo

/-- `Fake(Method(mock, f), Method(mock, g).Using(1))`: two stubbings, of one action each. -/
example : NoneThrows never s0.log.length (Spec.Several.steps .fake [.all, .using 1]) ∧
    seen (statement never .fake [.all, .using 1] s0) = some (none, [⟨3, [], 2, [10], 11⟩, ⟨9, [8], 6, [12], 13⟩], [2, 3, 6, 8, 9, 10, 11, 12, 13]) :=
  ⟨fun _ _ => rfl, by decide +kernel⟩

/-- The copy of the expected value throws: nothing is stubbed, nothing is left. -/
example : FirstToThrow (at_ 13) s0.log.length (Spec.Several.steps .fake [.all, .using 1]) ((Spec.Several.steps .fake [.all, .using 1]).take 13) (.expected 0) "no" ∧ ofUser (.expected 0) ∧
    seen (statement (at_ 13) .fake [.all, .using 1] s0) = some (some "no", [], []) :=
  ⟨at_first (by decide +kernel) (by decide +kernel), trivial, by decide +kernel⟩

/-- `Spy(Method(mock, f), Method(mock, g))`, no memory for the second action: the first method stays a spy. -/
example : FirstToThrow (at_ 23) s0.log.length (Spec.Several.steps .spy [.all, .all]) ((Spec.Several.steps .spy [.all, .all]).take 23) (.memory (.action 1)) "no" ∧ ¬ deletesTwice (.memory (.action 1)) ∧
    seen (statement (at_ 23) .spy [.all, .all] s0) = some (some "no", [⟨3, [], 2, [8], 9⟩], [2, 3, 8, 9]) :=
  ⟨at_first (by decide +kernel) (by decide +kernel), id, by decide +kernel⟩

/-- No memory for the place of the second stubbing: undefined. -/
example : FirstToThrow (at_ 27) s0.log.length (Spec.Several.steps .fake [.all, .all]) ((Spec.Several.steps .fake [.all, .all]).take 27) (.memory .place) "no" ∧ deletesTwice (.memory .place) ∧
    seen (statement (at_ 27) .fake [.all, .all] s0) = none :=
  ⟨at_first (by decide +kernel) (by decide +kernel), trivial, by decide +kernel⟩

/-- One method: no memory for its action. -/
example : FirstToThrow (at_ 6) s0.log.length (Spec.Several.steps .fake [.all]) ((Spec.Several.steps .fake [.all]).take 6) (.memory (.action 0)) "no" ∧ seen (statement (at_ 6) .fake [.all] s0) = some (some "no", [], []) :=
  ⟨at_first (by decide +kernel) (by decide +kernel), by decide +kernel⟩

end Demo
end FakeIt.Several
