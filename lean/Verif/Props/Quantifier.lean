import Verif.Model.Quantifier
import Verif.Model.Api
/-!
# C50: quantity literals
-/
namespace FakeIt

/-- **C50** (`n_Time`): accepted iff `n = 1`, and then it denotes 1. -/
theorem C50_time_is_accepted_only_for_one (n : Nat) : (timeLiteral n ≠ none ↔ n = 1) ∧ (∀ q, timeLiteral n = some q → q = n) := by
  constructor
  · simp [timeLiteral]
  · intro q h
    simp only [timeLiteral] at h
    by_cases hn : n = 1
    · subst hn; simp at h; rw [← h]; decide
    · simp [hn] at h

/-- **C50** (`n_Times`), as far as it holds: a 64 bit literal denotes the written number exactly when that fits in a positive `int`. What is missing:
larger literals, which are silently truncated (`C50_times_truncates`). -/
theorem C50_times_denotes_small_numbers_partial (n : Nat) (hn : n < 2 ^ 64) : timesLiteral n = n ↔ n < 2 ^ 31 := by
  simp only [timesLiteral, toInt32]
  split <;> omega

/-- The full claim is false: every literal from `2^31` on denotes another number; in particular every one of the form `2^32 * k + m` with
`k ≥ 1` denotes the same as `m`. -/
theorem C50_times_truncates : (∀ n, 2 ^ 31 ≤ n → timesLiteral n ≠ n) ∧ ∀ k m, m < 2 ^ 31 → timesLiteral (2 ^ 32 * k + m) = m := by
  constructor
  · intro n hn h
    simp only [timesLiteral, toInt32] at h
    split at h <;> omega
  · intro k m hm
    have : (2 ^ 32 * k + m) % 2 ^ 32 = m := by omega
    simp only [timesLiteral, toInt32, this]
    rw [if_pos hm]

/-- What the truncation means for a verification: `Exactly(n_Times)` never demands a number of matches from `2^31` on; it either throws
`invalid_argument` or demands the truncated number. -/
theorem C50_exactly_of_large_literal (e : Expectation) (n : Nat) (hn : 2 ^ 31 ≤ n) :
    e.exactly (timesLiteral n) = none ∨ ∃ q : Int, 0 ≤ q ∧ q ≠ n ∧ e.exactly (timesLiteral n) = e.exactly q := by
  by_cases h : timesLiteral n < 0
  · exact Or.inl (by simp [Expectation.exactly, h])
  · exact Or.inr ⟨timesLiteral n, by omega, C50_times_truncates.1 n hn, rfl⟩

example : timesLiteral 3 = 3 := by decide
example : timesLiteral 4294967298 = 2 := by decide
example : timesLiteral 2147483648 = -2147483648 := by decide
example : (Expectation.init).exactly (timesLiteral 2147483648) = none := by decide
example : timeLiteral 2 = none := by decide

end FakeIt
