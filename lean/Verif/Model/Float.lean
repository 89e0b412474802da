import Verif.Model.Result
/-!
# Floating point arguments (include/fakeit/argument_matchers.hpp 439-481)

Binary floating point as the targets of the library have it (IEEE 754, round to nearest, ties to even). All finite values of a format are integer
multiples of its smallest positive value; they are represented by that integer. The two zeros are not distinguished (no operation used here does).
-/
namespace FakeIt

/-- A binary format: number of significant bits, and the exponent (in units of the smallest positive value) no finite value reaches (used in include/fakeit/argument_matchers.hpp 474-476). -/
structure FloatFormat where
  prec : Nat
  top : Nat

/-- `double`: 53 bits, finite values below 2^1024, smallest positive value 2^-1074 (IEEE 754 binary64, not in /repo) (used in include/fakeit/argument_matchers.hpp 474-476). -/
def FloatFormat.double : FloatFormat := ⟨53, 2098⟩

/-- `float`: 24 bits, finite values below 2^128, smallest positive value 2^-149 (IEEE 754 binary32, not in /repo) (used in include/fakeit/argument_matchers.hpp 474-476). -/
def FloatFormat.single : FloatFormat := ⟨24, 277⟩

/-- A floating point value (used in include/fakeit/argument_matchers.hpp 474-476). -/
inductive FloatVal where
  | nan
  | inf (neg : Bool)
  | fin (n : Int)
  deriving DecidableEq

/-- Rounding of a magnitude to `p` significant bits, to nearest, ties to even (IEEE 754, not in /repo) (used in include/fakeit/argument_matchers.hpp 474-476). -/
def roundNat (p n : Nat) : Nat :=
  let k := n.log2 + 1 - p
  let q := n / 2 ^ k
  let r := n % 2 ^ k
  if 2 ^ k < 2 * r ∨ (2 * r = 2 ^ k ∧ q % 2 = 1) then (q + 1) * 2 ^ k else q * 2 ^ k

/-- Rounding of an exact result; too large a magnitude gives an infinity (IEEE 754, not in /repo) (used in include/fakeit/argument_matchers.hpp 474-476). -/
def roundInt (f : FloatFormat) (d : Int) : FloatVal :=
  let r := roundNat f.prec d.natAbs
  if 2 ^ f.top ≤ r then .inf (decide (d < 0)) else .fin (if d < 0 then -(r : Int) else r)

/-- `a - b` (IEEE 754, not in /repo) (used in include/fakeit/argument_matchers.hpp 474-476). -/
def FloatVal.sub (f : FloatFormat) : FloatVal → FloatVal → FloatVal
  | .nan, _ => .nan
  | _, .nan => .nan
  | .inf s, .inf t => if s = t then .nan else .inf s
  | .inf s, .fin _ => .inf s
  | .fin _, .inf t => .inf !t
  | .fin a, .fin b => roundInt f (a - b)

/-- `std::abs` (standard library, not in /repo) (used in include/fakeit/argument_matchers.hpp 474-476). -/
def FloatVal.abs : FloatVal → FloatVal
  | .nan => .nan
  | .inf _ => .inf false
  | .fin n => .fin n.natAbs

/-- `a <= b` (IEEE 754, not in /repo) (used in include/fakeit/argument_matchers.hpp 474-476). -/
def FloatVal.le : FloatVal → FloatVal → Bool
  | .nan, _ => false
  | _, .nan => false
  | .inf s, .inf t => s || !t
  | .inf s, .fin _ => s
  | .fin _, .inf t => !t
  | .fin a, .fin b => decide (a ≤ b)

/-- `Matcher::matches` of `ApproxEq` (include/fakeit/argument_matchers.hpp 474-476) when argument, expected value and margin have the same floating
point type and intermediate results have its precision (`FLT_EVAL_METHOD` 0). -/
def approxEqFloat (f : FloatFormat) (expected margin actual : FloatVal) : Bool := ((actual.sub f expected).abs).le margin

end FakeIt
