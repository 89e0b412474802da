import Verif.Lemmas.Kept
/-!
# C75: expressions and statements may be kept in variables

`auto m = Method(mock, f);` and `auto s = a + b;` suggest that the variable holds a value.  It does whenever the test has defined behaviour at all, and a test
has defined behaviour if everything it keeps is made from variables.  But a kept stubbing, verification or sequence made on the spot refers to objects that
have ended.
-/
namespace FakeIt.Kept

open Spec

theorem rel_start : Rel State.start ⟨[], 0, []⟩ := ⟨.nil, rfl, rfl⟩

/-- **C75.** If a test has defined behaviour then it does to the mocks just what it would do if variables held values. -/
theorem C75_defined_tests_behave_like_values {body : List Stmt} {l : List Ev} {s : State} (hm : meaning body = some l) (ht : test body = .done s) : s.log = l := by
  obtain ⟨v, hv, rfl⟩ := Option.map_eq_some_iff.1 hm
  exact (step_rel _ rel_start hv ht).log

/-- **C75.** Tests that keep only what is made from variables have defined behaviour, and do what they mean. Not so in general: see below. -/
theorem C75_careful_tests_are_defined_partial {body : List Stmt} {l : List Ev} (hc : carefulAll body = true) (hm : meaning body = some l) :
    ∃ s, test body = .done s ∧ s.log = l := by
  obtain ⟨v, hv, rfl⟩ := Option.map_eq_some_iff.1 hm
  obtain ⟨s, hs, -⟩ := step_total (.block body) rel_start trivial hc hv
  exact ⟨s, hs, (step_rel _ rel_start hv hs).log⟩

/-- **C75.** But whoever keeps a stubbing or a verification of an expression made on the spot, or uses a kept sequence with such an operand or a
reference to such an expression, has undefined behaviour. -/
theorem C75_careless_tests_are_undefined {body : List Stmt} (h : Careless body) : test body = .ub := by
  have key : ∀ s s', step (.block body) s ≠ .done s' := by
    induction h with
    | keepWhen pre post p e he => exact block_not_done_of_kept (keepWhen_kept he)
    | keepVerify pre post p e es q he => exact block_not_done_of_kept (keepVerify_kept he)
    | val pre mid post x e es q he hx => exact block_not_done_of_use (.inl ⟨rfl, he⟩) hx (.inl ⟨es, q, rfl⟩)
    | ref pre mid post x e es q he hx => exact block_not_done_of_use (.inr ⟨rfl, he⟩) hx (.inl ⟨es, q, rfl⟩)
    | refWhen pre mid post x e acts he hx => exact block_not_done_of_use (.inr ⟨rfl, he⟩) hx (.inr ⟨acts, rfl⟩)
    | block pre post body _ ih => exact block_not_done_of_step ih
  unfold test
  cases hd : step (.block body) State.start with
  | done s => exact absurd hd (key _ _)
  | ub => rfl
  | oof => exact absurd hd (step_ne_oof _ _)

/-! ## Examples -/

/-- `auto m = Method(mock, f); auto s = m + m; { auto w = When(m); w.Return(7); } mock.f(); Verify(2 * s).Exactly(1);` -/
def keeper : List Stmt :=
  [.val 0 (.method 5), .val 1 (.plus (.var 0) (.var 0)), .block [.keepWhen 2 (.var 0), .act 2 7, .call 5], .call 5, .verify [.times 1 (.var 1)] 1]

example : carefulAll keeper = true ∧
    meaning keeper = some [.made 0 5, .append 0 7, .call 5, .commit 0, .call 5, .check [[0, 0, 0, 0]] 1] := by decide +kernel

/-- It is defined, by the theorem. -/
example : ∃ s, test keeper = .done s ∧ s.log = [.made 0 5, .append 0 7, .call 5, .commit 0, .call 5, .check [[0, 0, 0, 0]] 1] :=
  C75_careful_tests_are_defined_partial (by decide +kernel) (by decide +kernel)

/-- A variable that was changed after it had been put into a sequence: the sequence refers to the same expression. -/
example : meaning [.val 0 (.method 5), .val 1 (.plus (.var 0) (.var 0)), .when_ (.args (.var 0)) [3], .keepVerify 2 [.var 1] 4] =
    some [.made 0 5, .criteria 0, .append 0 3, .commit 0, .check [[0, 0]] 4] := by decide +kernel

/-- `auto p = When(Method(mock, f)); p.Return(1);` compiles and looks harmless. -/
example : meaning [.keepWhen 0 (.method 5), .act 0 1, .call 5] = some [.made 0 5, .append 0 1, .call 5, .commit 0] := by decide +kernel

example : test [.keepWhen 0 (.method 5), .act 0 1, .call 5] = .ub := C75_careless_tests_are_undefined (.keepWhen [] _ 0 _ rfl)

/-- `auto s = Method(mock, f) + Method(mock, g); mock.f(); Verify(s);` -/
example : meaning [.val 0 (.plus (.method 5) (.method 6)), .call 5, .verify [.var 0] 1] = some [.made 0 5, .made 1 6, .call 5, .check [[0, 1]] 1] := by
  decide +kernel

example : test [.val 0 (.plus (.method 5) (.method 6)), .call 5, .verify [.var 0] 1] = .ub :=
  C75_careless_tests_are_undefined (.val [] [.call 5] [] 0 _ [] 1 rfl (by decide))

/-- `auto &&m = Method(mock, f); When(m).Return(1);`, within a block. -/
example : meaning [.call 5, .block [.ref 0 (.method 5), .when_ (.var 0) [1]]] = some [.call 5, .made 0 5, .append 0 1, .commit 0] := by decide +kernel

example : test [.call 5, .block [.ref 0 (.method 5), .when_ (.var 0) [1]]] = .ub :=
  C75_careless_tests_are_undefined (.block [.call 5] [] _ (.refWhen [] [] [] 0 _ [1] rfl (by decide)))

/-- `auto v = Verify(2 * m).Exactly(3);` -/
example : test [.val 0 (.method 5), .keepVerify 1 [.times 1 (.var 0)] 3] = .ub :=
  C75_careless_tests_are_undefined (.keepVerify [.val 0 (.method 5)] [] 1 _ [] 3 rfl)

/-- The references are followed when they are used, not when they are made: a careless declaration alone does no harm. -/
example : ∃ s, test [.val 0 (.plus (.method 5) (.method 6)), .call 5] = .done s ∧ s.log = [.made 0 5, .made 1 6, .call 5] := ⟨_, rfl, by decide +kernel⟩

end FakeIt.Kept
