import Verif.Model.Float
/-!
# C39: `ApproxEq` on floating point arguments
-/
namespace FakeIt

/-! ## Specification -/

/-- A magnitude the format can represent: at most `prec` significant bits, below the overflow threshold. -/
def Spec.Representable (f : FloatFormat) (n : Nat) : Prop := (∃ m k, m < 2 ^ f.prec ∧ n = m * 2 ^ k) ∧ n < 2 ^ f.top

/-- The distance of two exact values. -/
def Spec.gap (a b : Int) : Nat := (a - b).natAbs

open Spec

/-! ## Rounding is to the nearest representable value -/

private theorem near_floor {p k q m j : Nat} (hq : 2 ^ (p - 1) ≤ q) (hp : 1 ≤ p) (hm : m < 2 ^ p) :
    m * 2 ^ j ≤ q * 2 ^ k ∨ (q + 1) * 2 ^ k ≤ m * 2 ^ j := by
  by_cases hjk : k ≤ j
  · obtain ⟨d, rfl⟩ : ∃ d, j = k + d := ⟨j - k, by omega⟩
    rw [Nat.pow_add, Nat.mul_comm (2 ^ k) (2 ^ d), ← Nat.mul_assoc]
    rcases Nat.lt_or_ge q (m * 2 ^ d) with h | h
    · right; exact Nat.mul_le_mul_right _ h
    · left; exact Nat.mul_le_mul_right _ h
  · left
    obtain ⟨d, rfl⟩ : ∃ d, k = j + d + 1 := ⟨k - j - 1, by omega⟩
    calc m * 2 ^ j ≤ 2 ^ p * 2 ^ j := Nat.mul_le_mul_right _ (Nat.le_of_lt hm)
      _ = 2 ^ (p - 1) * 2 ^ (j + 1) := by rw [← Nat.pow_add, ← Nat.pow_add]; congr 1; omega
      _ ≤ q * 2 ^ (j + d + 1) := Nat.mul_le_mul hq (Nat.pow_le_pow_right (by decide) (by omega))

/-- What rounding does: `lo`, `hi` are the neighbours of `n` (equal to it if it is representable). -/
private theorem round_spec (p n : Nat) (hp : 1 ≤ p) :
    (∃ m k, m < 2 ^ p ∧ roundNat p n = m * 2 ^ k) ∧
    ∀ m j, m < 2 ^ p →
      (if roundNat p n ≤ n then n - roundNat p n else roundNat p n - n) ≤ (if m * 2 ^ j ≤ n then n - m * 2 ^ j else m * 2 ^ j - n) := by
  by_cases hk : n.log2 + 1 - p = 0
  · have hr : roundNat p n = n := by simp [roundNat, hk, Nat.mod_one]
    rw [hr]
    refine ⟨⟨n, 0, ?_, by simp⟩, fun m j _ => by simp⟩
    have := Nat.lt_log2_self (n := n)
    exact Nat.lt_of_lt_of_le this (Nat.pow_le_pow_right (by decide) (by omega))
  · generalize hkk : n.log2 + 1 - p = k at hk
    have hn0 : n ≠ 0 := by rintro rfl; simp at hkk; omega
    have hlo : 2 ^ (p - 1 + k) ≤ n := by
      have := Nat.log2_self_le hn0
      rwa [show n.log2 = p - 1 + k by omega] at this
    have hhi : n < 2 ^ (p + k) := by
      have := Nat.lt_log2_self (n := n)
      rwa [show n.log2 + 1 = p + k by omega] at this
    have hpk : 0 < 2 ^ k := Nat.pow_pos (by decide)
    have hq1 : 2 ^ (p - 1) ≤ n / 2 ^ k := by
      rw [Nat.le_div_iff_mul_le hpk, ← Nat.pow_add]; exact hlo
    have hq2 : n / 2 ^ k < 2 ^ p := by
      rw [Nat.div_lt_iff_lt_mul hpk, ← Nat.pow_add]; exact hhi
    have hdiv : n / 2 ^ k * 2 ^ k + n % 2 ^ k = n := by rw [Nat.mul_comm]; exact Nat.div_add_mod n (2 ^ k)
    have hmod : n % 2 ^ k < 2 ^ k := Nat.mod_lt _ hpk
    have hr : roundNat p n = if 2 ^ k < 2 * (n % 2 ^ k) ∨ (2 * (n % 2 ^ k) = 2 ^ k ∧ n / 2 ^ k % 2 = 1) then (n / 2 ^ k + 1) * 2 ^ k else n / 2 ^ k * 2 ^ k := by
      simp only [roundNat, hkk]
    rw [hr]
    constructor
    · split
      · by_cases he : n / 2 ^ k + 1 = 2 ^ p
        · refine ⟨1, p + k, Nat.one_lt_two_pow (by omega), by rw [he, ← Nat.pow_add, Nat.one_mul]⟩
        · exact ⟨_, k, by omega, rfl⟩
      · exact ⟨_, k, hq2, rfl⟩
    · intro m j hm
      have hs : (n / 2 ^ k + 1) * 2 ^ k = n / 2 ^ k * 2 ^ k + 2 ^ k := by rw [Nat.add_mul, Nat.one_mul]
      have := near_floor (k := k) (j := j) hq1 hp hm
      rw [hs] at this ⊢
      generalize n / 2 ^ k * 2 ^ k = a at *
      generalize m * 2 ^ j = r at *
      generalize n % 2 ^ k = s at *
      generalize 2 ^ k = u at *
      split <;> split <;> split <;> omega

private theorem abs_roundInt (f : FloatFormat) (d : Int) :
    (roundInt f d).abs = if 2 ^ f.top ≤ roundNat f.prec d.natAbs then .inf false else .fin (roundNat f.prec d.natAbs) := by
  simp only [roundInt]
  split
  · rfl
  · simp only [FloatVal.abs, FloatVal.fin.injEq]; split <;> omega

private theorem accepts_iff (f : FloatFormat) (x a : Int) {m : Nat} (hm : m < 2 ^ f.top) :
    approxEqFloat f (.fin x) (.fin m) (.fin a) = true ↔ roundNat f.prec (gap a x) ≤ m := by
  simp only [approxEqFloat, FloatVal.sub, abs_roundInt, gap]
  split
  · simp [FloatVal.le]; omega
  · simp [FloatVal.le]

/-- **C39** (`ApproxEq` on floating point values, as far as it holds). For finite values, `ApproxEq(x, m)` never rejects an argument within the margin;
it accepts one outside the margin only if the exact distance is not nearer to a larger value of the type than to the margin (so it exceeds the margin by at
most half the gap to the next value), and it rejects every argument whose distance is nearer to a larger value of the type. What is missing: that it
rejects everything outside the margin, which is false (`C39_approxEq_accepts_outside_margin`). -/
theorem C39_approxEq_floating_partial (f : FloatFormat) (hp : 1 ≤ f.prec) (x a : Int) (m : Nat) (hm : Representable f m) :
    (gap a x ≤ m → approxEqFloat f (.fin x) (.fin m) (.fin a) = true) ∧
    (∀ m', Representable f m' → m < m' → approxEqFloat f (.fin x) (.fin m) (.fin a) = true → gap a x ≤ m' ∧ gap a x - m ≤ m' - gap a x) ∧
    (∀ m', Representable f m' → m < m' → m < gap a x → gap a x - m > m' - gap a x → approxEqFloat f (.fin x) (.fin m) (.fin a) = false) := by
  obtain ⟨h1, h2⟩ := round_spec f.prec (gap a x) hp
  have hacc := accepts_iff f x a hm.2
  obtain ⟨⟨m0, j0, hm0, he0⟩, hlt⟩ := hm
  have hM := h2 m0 j0 hm0
  rw [← he0] at hM
  refine ⟨fun h => ?_, fun m' hm' hlt' h => ?_, fun m' hm' hlt' hgt hnear => ?_⟩
  · rw [hacc]
    by_cases hc : roundNat f.prec (gap a x) ≤ gap a x
    · omega
    · rw [if_neg hc] at hM
      split at hM <;> omega
  · rw [hacc] at h
    obtain ⟨⟨m1, j1, hm1, he1⟩, -⟩ := hm'
    have hM' := h2 m1 j1 hm1
    rw [← he1] at hM'
    split at hM' <;> split at hM' <;> omega
  · have : ¬ approxEqFloat f (.fin x) (.fin m) (.fin a) = true := by
      rw [hacc]
      intro h
      obtain ⟨⟨m1, j1, hm1, he1⟩, -⟩ := hm'
      have hM' := h2 m1 j1 hm1
      rw [← he1] at hM'
      split at hM' <;> split at hM' <;> omega
    simpa using this

/-- C39 is false on floating point values: in every format (of at least two bits) some argument farther from the expected value than the margin is
accepted. -/
theorem C39_approxEq_accepts_outside_margin (f : FloatFormat) (hp : 2 ≤ f.prec) (ht : f.prec + 1 < f.top) :
    ∃ (x a : Int) (m : Nat), Representable f x.natAbs ∧ Representable f a.natAbs ∧ Representable f m ∧ m < gap a x ∧
      approxEqFloat f (.fin x) (.fin m) (.fin a) = true := by
  have htop : 2 ^ f.prec < 2 ^ f.top := Nat.pow_lt_pow_right (by decide) (by omega)
  have hrep : Representable f (2 ^ f.prec) := ⟨⟨1, f.prec, Nat.one_lt_two_pow (by omega), by simp⟩, htop⟩
  have h1 : Representable f 1 := ⟨⟨1, 0, Nat.one_lt_two_pow (by omega), by simp⟩, Nat.one_lt_two_pow (by omega)⟩
  have hg : gap ((2 ^ f.prec : Nat) : Int) (-1) = 2 ^ f.prec + 1 := by
    simp only [gap]
    generalize 2 ^ f.prec = u
    omega
  refine ⟨-1, ((2 ^ f.prec : Nat) : Int), 2 ^ f.prec, h1, by simpa using hrep, hrep, by rw [hg]; exact Nat.lt_succ_self _, ?_⟩
  rw [accepts_iff f _ _ htop, hg]
  obtain ⟨p, hpp⟩ : ∃ p, f.prec = p + 2 := ⟨f.prec - 2, by omega⟩
  rw [hpp]
  have hlog : (2 ^ (p + 2) + 1).log2 = p + 2 := by
    rw [Nat.log2_eq_iff (Nat.succ_ne_zero _)]
    have : 1 < 2 ^ (p + 2) := Nat.one_lt_two_pow (by omega)
    rw [Nat.pow_succ 2 (p + 2)]
    generalize 2 ^ (p + 2) = u at *
    omega
  have hpow : 2 ^ (p + 2) = 2 * (2 * 2 ^ p) := by rw [Nat.pow_succ, Nat.pow_succ]; omega
  simp only [roundNat, hlog, show p + 2 + 1 - (p + 2) = 1 by omega, Nat.pow_one]
  rw [hpow]
  rw [if_neg (by omega)]
  omega

/-- **C39**, special values: nothing is approximately equal to NaN, NaN is approximately equal to nothing, no argument is within a NaN margin; an
infinite margin accepts every finite argument; an infinite argument is rejected by every finite expected value and margin; and an infinite argument is not
even accepted by `ApproxEq` of itself. A negative margin accepts nothing. -/
theorem C39_approxEq_special_values (f : FloatFormat) (v w : FloatVal) :
    approxEqFloat f .nan v w = false ∧ approxEqFloat f v .nan w = false ∧ approxEqFloat f v w .nan = false ∧
    (∀ x a, approxEqFloat f (.fin x) (.inf false) (.fin a) = true) ∧
    (∀ x m s, approxEqFloat f (.fin x) (.fin m) (.inf s) = false) ∧
    (∀ s, approxEqFloat f (.inf s) v (.inf s) = false) ∧
    (∀ m : Int, m < 0 → approxEqFloat f v (.fin m) w = false) := by
  refine ⟨?_, ?_, ?_, ?_, ?_, ?_, ?_⟩
  · cases w <;> rfl
  · simp only [approxEqFloat]
    generalize (w.sub f v).abs = r
    cases r <;> rfl
  · rfl
  · intro x a
    simp only [approxEqFloat, FloatVal.sub, abs_roundInt]
    split <;> rfl
  · intro x m s; cases s <;> rfl
  · intro s; simp [approxEqFloat, FloatVal.sub, FloatVal.abs, FloatVal.le]
  · intro m hm
    simp only [approxEqFloat]
    generalize w.sub f v = r
    cases r with
    | nan => rfl
    | inf s => rfl
    | fin n => simp only [FloatVal.abs, FloatVal.le, decide_eq_false_iff_not]; omega

/-! ## Concrete cases -/
namespace Demo

/-- `float`: the margin 1 (2^149 units), expected value -1 unit, argument 1: farther than the margin by one unit, accepted. -/
example : Representable .single (2 ^ 149) ∧ gap (2 ^ 149) (-1) = 2 ^ 149 + 1 ∧ approxEqFloat .single (.fin (-1)) (.fin (2 ^ 149 : Nat)) (.fin (2 ^ 149)) = true :=
  ⟨⟨⟨1, 149, by decide, by decide⟩, by decide +kernel⟩, by decide +kernel, by decide +kernel⟩

/-- `float`: 1, expected 1.5, margin 0.5: accepted; margin 0.25: rejected. -/
example : approxEqFloat .single (.fin (3 * 2 ^ 148)) (.fin (2 ^ 148 : Nat)) (.fin (2 ^ 149)) = true ∧
    approxEqFloat .single (.fin (3 * 2 ^ 148)) (.fin (2 ^ 147 : Nat)) (.fin (2 ^ 149)) = false ∧
    Representable .single (2 ^ 147) ∧ Representable .single (2 ^ 148) :=
  ⟨by decide +kernel, by decide +kernel, ⟨⟨1, 147, by decide, by decide⟩, by decide +kernel⟩, ⟨⟨1, 148, by decide, by decide⟩, by decide +kernel⟩⟩

end Demo
end FakeIt
