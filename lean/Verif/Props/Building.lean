import Verif.Lemmas.Building
/-!
# C83: stubbing statements that fail in the middle
-/
namespace FakeIt.Building
open FakeIt.Spec.Building

variable {X : Type} {th : Nat → Option X}

/-- There is only one first step that throws. -/
theorem first_unique {base : Nat} {all b b' : List Op} {o o' : Op} {x x' : X} (h : FirstToThrow th base all b o x) (h' : FirstToThrow th base all b' o' x') :
    b = b' ∧ o = o' ∧ x = x' := by
  obtain ⟨⟨r, hr⟩, ht, hn⟩ := h
  obtain ⟨⟨r', hr'⟩, ht', hn'⟩ := h'
  have hl : b.length = b'.length := by
    rcases Nat.lt_trichotomy b.length b'.length with hlt | he | hgt
    · rw [hn' _ hlt] at ht; cases ht
    · exact he
    · rw [hn _ hgt] at ht'; cases ht'
  have := List.append_inj (hr.symm.trans hr') hl
  refine ⟨this.1, (List.cons.inj this.2).1, ?_⟩
  rw [hl, ht'] at ht
  exact (Option.some.inj ht).symm

/-- A step that throws is not among steps of which none throws. -/
theorem first_not_none {base : Nat} {all b : List Op} {o : Op} {x : X} (h : FirstToThrow th base all b o x) : ¬ NoneThrows th base all := by
  obtain ⟨⟨r, hr⟩, ht, _⟩ := h
  intro hn
  have := hn b.length (by rw [hr]; simp)
  rw [this] at ht; cases ht

theorem Broke.first {s s' : St} {c : Crit} {f : Form} {x : X} (h : Broke th s [] (buildSteps c f ++ [.memory .handler]) [] (lost c) x s') :
    ∃ before o left, FirstToThrow th s.log.length (steps c f) before o x ∧ ¬ deletesTwice o ∧ s'.stubs = s.stubs ∧ Holds s left s' ∧ left.length = lost c o ∧ s'.log = s.log ++ before ++ [o] := by
  obtain ⟨b, o, r, left, hn, ht, hq, hat, hl⟩ := h
  refine ⟨b, o, left, ⟨⟨r ++ [.memory .count1, .memory .count2, .memory .count3, .memory .place], ?_⟩, by simpa using ht, by simpa [NoneThrows] using hq⟩, ?_, hat.2.1, by simpa using hat.1, hl, by simpa using hat.2.2⟩
  · have : steps c f = (buildSteps c f ++ [.memory .handler]) ++ [.memory .count1, .memory .count2, .memory .count3, .memory .place] := by simp [steps, endSteps]
    rw [this, hn]; simp
  · have hm : o ∈ buildSteps c f ++ [.memory .handler] := by rw [hn]; simp
    have args : ∀ n i, ∀ o ∈ argSteps n i, ¬ deletesTwice o := by
      intro n
      induction n with
      | zero => intro i o ho; simp [argSteps] at ho
      | succ n ih =>
        intro i o ho
        simp only [argSteps, List.mem_append, List.mem_cons, List.not_mem_nil, or_false] at ho
        rcases ho with (rfl | rfl | rfl) | ho
        · exact id
        · exact id
        · exact id
        · exact ih _ _ ho
    have acts : ∀ n i, ∀ o ∈ actSteps n i, ¬ deletesTwice o := by
      intro n
      induction n with
      | zero => intro i o ho; simp [actSteps] at ho
      | succ n ih =>
        intro i o ho
        simp only [actSteps, actionSteps, List.mem_append, List.mem_cons, List.not_mem_nil, or_false] at ho
        rcases ho with (rfl | rfl | rfl | rfl | rfl | rfl) | ho
        · exact id
        · exact id
        · exact id
        · exact id
        · exact id
        · exact id
        · exact ih _ _ ho
    simp only [buildSteps, methodSteps, List.mem_append, List.mem_cons, List.not_mem_nil, or_false] at hm
    rcases hm with ((rfl | rfl | rfl | rfl | rfl | rfl) | hc | hf | ha) | rfl
    all_goals first | exact id | skip
    · cases c with
      | all => simp [critSteps] at hc
      | «using» n =>
        simp only [critSteps, List.mem_append, List.mem_singleton] at hc
        rcases hc with hc | rfl
        · exact args _ _ _ hc
        · exact id
      | matching =>
        simp only [critSteps, List.mem_cons, List.not_mem_nil, or_false] at hc
        rcases hc with rfl | rfl <;> exact id
    · cases f with
      | when n =>
        simp only [formSteps, List.mem_cons, List.not_mem_nil, or_false] at hf
        rcases hf with rfl | rfl <;> exact id
      | assign => simp [formSteps] at hf
    · exact acts _ _ _ ha

/-- **C83 (no exception).** If no step throws, the statement ends normally. The method has one more stubbing, the newest, with a matcher for each argument of `Using` and with the actions of the statement. The only objects left are those of
the stubbing. -/
theorem C83_without_exceptions (c : Crit) (f : Form) {s : St} (hw : Wf s) (hn : NoneThrows th s.log.length (steps c f)) :
    ∃ s' t, statement th c f s = .done (.ok (), s') ∧ s'.stubs = s.stubs ++ [t] ∧ t.parts.length = arity c ∧ t.acts.length = actions f ∧ Holds s (owned t) s' ∧ s'.log = s.log ++ steps c f := by
  have h := statement_run (th := th) c f hw
  unfold wp at h
  split at h
  · rename_i s' hm
    obtain ⟨t, hat, -, hp, ha⟩ := h
    exact ⟨s', t, hm, hat.2.1, hp, ha, hat.1, hat.2.2⟩
  · obtain ⟨b, o, l, hf, -⟩ := h.first
    exact absurd hn (first_not_none hf)
  · obtain ⟨b, o, r, x, hr, -, ht, hq⟩ := h
    exact absurd hn (first_not_none ⟨⟨r, hr⟩, by simpa using ht, by simpa [NoneThrows] using hq⟩)
  · exact h.elim

/-- **C83 (an exception).** If a step throws, whichever it is but for the last four, the test gets just this exception. The method has the stubbings it had, so nothing is stubbed, no step is made after it, and of the objects of the statement exactly `lost` are never
deleted. -/
theorem C83_first_exception_reaches_the_test (c : Crit) (f : Form) {s : St} (hw : Wf s) {before : List Op} {o : Op} {x : X} (hf : FirstToThrow th s.log.length (steps c f) before o x) (ho : ¬ deletesTwice o) :
    ∃ s' left, statement th c f s = .done (.exc x, s') ∧ s'.stubs = s.stubs ∧ Holds s left s' ∧ left.length = lost c o ∧ s'.log = s.log ++ before ++ [o] := by
  have h := statement_run (th := th) c f hw
  unfold wp at h
  split at h
  · obtain ⟨t, -, hn, -⟩ := h
    exact absurd hn (first_not_none hf)
  · rename_i y s' hm
    obtain ⟨b, o', left, hf', -, hs, hh, hl, hg⟩ := h.first
    obtain ⟨rfl, rfl, rfl⟩ := first_unique hf hf'
    exact ⟨s', left, hm, hs, hh, hl, hg⟩
  · obtain ⟨b, o', r, y, hr, ho', ht, hq⟩ := h
    obtain ⟨rfl, rfl, rfl⟩ := first_unique hf ⟨⟨r, hr⟩, by simpa using ht, by simpa [NoneThrows] using hq⟩
    exact absurd ho' ho
  · exact h.elim

/-- **C83 (refuted: running out of memory while stubbing gives an exception).** If one of the last four allocations of the statement fails, the library deletes what it has deleted already. -/
theorem C83_out_of_memory_deletes_twice (c : Crit) (f : Form) {s : St} (hw : Wf s) {before : List Op} {o : Op} {x : X} (hf : FirstToThrow th s.log.length (steps c f) before o x) (ho : deletesTwice o) :
    statement th c f s = .ub := by
  have h := statement_run (th := th) c f hw
  unfold wp at h
  split at h
  · obtain ⟨t, -, hn, -⟩ := h
    exact absurd hn (first_not_none hf)
  · obtain ⟨b, o', left, hf', ho', -⟩ := h.first
    obtain ⟨rfl, rfl, rfl⟩ := first_unique hf hf'
    exact absurd ho ho'
  · assumption
  · exact h.elim

/-- **C83 (partial: exceptions of the user).** If the user's own code throws in the statement — the copy of an expected value, of a predicate, of a value to return, of a function — and `Using` has at most one argument, the test gets the exception, nothing is stubbed
and nothing is lost. Missing: more arguments, where the claim is false (`C83_matchers_are_lost`). -/
theorem C83_user_exceptions_leave_nothing_partial (c : Crit) (f : Form) {s : St} (hw : Wf s) {before : List Op} {o : Op} {x : X} (hf : FirstToThrow th s.log.length (steps c f) before o x) (ho : ofUser o) (ha : arity c ≤ 1) :
    ∃ s', statement th c f s = .done (.exc x, s') ∧ s'.stubs = s.stubs ∧ s'.live.Perm s.live := by
  have hd : ¬ deletesTwice o := by
    cases o with
    | memory w => exact absurd ho id
    | _ => exact id
  obtain ⟨s', left, h, hs, hh, hl, -⟩ := C83_first_exception_reaches_the_test c f hw hf hd
  refine ⟨s', h, hs, ?_⟩
  have args : ∀ n i j, .expected j ∈ argSteps n i → j < i + n := by
    intro n
    induction n with
    | zero => intro i j hj; simp [argSteps] at hj
    | succ n ih =>
      intro i j hj
      simp only [argSteps, List.mem_append, List.mem_cons, List.not_mem_nil, or_false, reduceCtorEq, false_or] at hj
      rcases hj with hj | hj
      · cases hj; omega
      · have := ih _ _ hj; omega
  have acts : ∀ n i j, .expected j ∉ actSteps n i := by
    intro n
    induction n with
    | zero => intro i j hj; simp [actSteps] at hj
    | succ n ih =>
      intro i j hj
      simp only [actSteps, actionSteps, List.mem_append, List.mem_cons, List.not_mem_nil, or_false, reduceCtorEq, false_or] at hj
      exact ih _ _ hj
  have h0 : lost c o = 0 := by
    cases o with
    | memory w => exact absurd ho id
    | expected j =>
      obtain ⟨⟨r, hr⟩, -⟩ := hf
      have hm : .expected j ∈ steps c f := by rw [hr]; simp
      simp only [steps, buildSteps, methodSteps, endSteps, List.mem_append, List.mem_cons, List.not_mem_nil, or_false, reduceCtorEq, false_or] at hm
      have hc : .expected j ∈ critSteps c := by
        rcases hm with hm | hm | hm
        · exact hm
        · cases f <;> simp [formSteps] at hm
        · exact absurd hm (acts _ _ _)
      cases c with
      | all => simp [critSteps] at hc
      | «using» n =>
        simp only [critSteps, List.mem_append, List.mem_singleton, reduceCtorEq, or_false] at hc
        have := args _ _ _ hc
        simp only [arity] at ha
        show j = 0
        omega
      | matching => simp [critSteps] at hc
    | _ => rfl
  rw [List.length_eq_zero_iff.mp (hl.trans h0)] at hh
  simpa using hh.1

/-- **C83 (refuted: exceptions of the user lose nothing).** Whenever the copy of the expected value of an argument of `Using` throws, the matchers of all arguments before it are lost: nothing deletes them, now or later. -/
theorem C83_matchers_are_lost (n : Nat) (f : Form) {s : St} (hw : Wf s) {before : List Op} {i : Nat} {x : X} (hf : FirstToThrow th s.log.length (steps (.using n) f) before (.expected i) x) :
    ∃ s' left, statement th (.using n) f s = .done (.exc x, s') ∧ s'.stubs = s.stubs ∧ s'.live.Perm (s.live ++ left) ∧ left.length = i := by
  obtain ⟨s', left, h, hs, hh, hl, -⟩ := C83_first_exception_reaches_the_test (.using n) f hw hf id
  exact ⟨s', left, h, hs, hh.1, hl⟩

/-- **C83 (again).** After a statement that failed in any step but the last four, a statement whose steps do not throw stubs as usual; what was there before is as it was. -/
theorem C83_a_failed_statement_can_be_repeated (c c' : Crit) (f f' : Form) {s : St} (hw : Wf s) {before : List Op} {o : Op} {x : X} (hf : FirstToThrow th s.log.length (steps c f) before o x) (ho : ¬ deletesTwice o)
    (hn : NoneThrows th (s.log.length + before.length + 1) (steps c' f')) :
    ∃ s' s'' t, statement th c f s = .done (.exc x, s') ∧ statement th c' f' s' = .done (.ok (), s'') ∧ s''.stubs = s.stubs ++ [t] ∧ t.parts.length = arity c' ∧ t.acts.length = actions f' := by
  obtain ⟨s', left, h, hs, hh, hl, hg⟩ := C83_first_exception_reaches_the_test c f hw hf ho
  have hw' : Wf s' := by
    intro id hi
    rcases List.mem_append.mp (hh.1.mem_iff.mp hi) with hi | hi
    · exact Nat.lt_of_lt_of_le (hw id hi) hh.2.2.2
    · exact (hh.2.2.1 id hi).2
  have he : s'.log.length = s.log.length + before.length + 1 := by rw [hg]; simp; omega
  obtain ⟨s'', t, h2, hs2, hp, ha, -⟩ := C83_without_exceptions c' f' hw' (th := th) (by rw [he]; exact hn)
  exact ⟨s', s'', t, h, h2, by rw [hs2, hs], hp, ha⟩

namespace Demo

/-- Nothing made yet. -/
def s0 : St := ⟨[], 0, [], []⟩

/-- The `n`-th step throws. -/
def at_ (n : Nat) : Nat → Option String := fun i => if i = n then some "no" else none

/-- No step throws. -/
def never : Nat → Option String := fun _ => none

theorem s0_wf : Wf s0 := by intro id h; simp [s0] at h

theorem at_first {n : Nat} {all b : List Op} {o : Op} (h : all.take (n + 1) = b ++ [o]) (hb : b.length = n) : FirstToThrow (at_ n) 0 all b o "no" := by
  refine ⟨⟨all.drop (n + 1), ?_⟩, by simp [at_, hb], fun i hi => by simp [at_]; omega⟩
  have := List.take_append_drop (n + 1) all
  rw [h] at this
  simpa using this.symm

/-- How a statement ended, the stubbings, the objects. -/
def seen : R (Res String Unit × St) → Option (Option String × List Stub × List Nat)
  | .done (.ok _, s) => some (none, s.stubs, s.live)
  | .done (.exc x, s) => some (some x, s.stubs, s.live)
  | _ => none

/-- `When(Method(mock, f).Using(a, b)).Return(v, w)`: a stubbing with two argument matchers and two actions. -/
example : NoneThrows never 0 (steps (.using 2) (.when 2)) ∧
    seen (statement never (.using 2) (.when 2) s0) = some (none, [⟨6, [4, 5], 2, [8, 9], 10⟩], [2, 4, 5, 6, 8, 9, 10]) :=
  ⟨fun _ _ => rfl, by decide +kernel⟩

/-- The copy of the second expected value throws: the first matcher is lost. -/
example : FirstToThrow (at_ 10) s0.log.length (steps (.using 2) (.when 2)) ((steps (.using 2) (.when 2)).take 10) (.expected 1) "no" ∧
    seen (statement (at_ 10) (.using 2) (.when 2) s0) = some (some "no", [], [4]) :=
  ⟨at_first (by decide +kernel) (by decide +kernel), by decide +kernel⟩

/-- The copy of the second value to return throws: nothing is left. -/
example : FirstToThrow (at_ 18) s0.log.length (steps (.using 1) (.when 2)) ((steps (.using 1) (.when 2)).take 18) (.value 1) "no" ∧ arity (.using 1) ≤ 1 ∧
    seen (statement (at_ 18) (.using 1) (.when 2) s0) = some (some "no", [], []) :=
  ⟨at_first (by decide +kernel) (by decide +kernel), by decide, by decide +kernel⟩

/-- No memory for the place of the stubbing: undefined. For an assignment too, when there is none for the first reference count. -/
example : FirstToThrow (at_ 18) s0.log.length (steps .all (.when 1)) ((steps .all (.when 1)).take 18) (.memory .place) "no" ∧ seen (statement (at_ 18) .all (.when 1) s0) = none ∧
    (steps .all .assign)[13]? = some (.memory .count1) ∧ seen (statement (at_ 13) .all .assign s0) = none :=
  ⟨at_first (by decide +kernel) (by decide +kernel), by decide +kernel, by decide +kernel, by decide +kernel⟩

/-- A failed assignment, then a statement whose steps do not throw. -/
example : FirstToThrow (at_ 6) s0.log.length (steps .all .assign) ((steps .all .assign).take 6) (.value 0) "no" ∧ ¬ deletesTwice (.value 0) ∧ NoneThrows (at_ 6) (s0.log.length + 6 + 1) (steps .matching (.when 1)) :=
  ⟨at_first (by decide +kernel) (by decide +kernel), id, fun i _ => by simp [at_, s0]; omega⟩

end Demo
end FakeIt.Building
