/-!
# Quantity literals (include/fakeit/Quantifier.hpp)
-/
namespace FakeIt

/-- Conversion of an unsigned 64 bit value to `int` (32 bits, two's complement): the low 32 bits, reinterpreted (C++20 and every supported compiler
before it; include/fakeit/Quantifier.hpp 71, 80 `(int) n`). -/
def toInt32 (n : Nat) : Int :=
  let low : Nat := n % 2 ^ 32
  if low < 2 ^ 31 then (low : Int) else (low : Int) - 2 ^ 32

/-- `operator"" _Times(unsigned long long n)` (include/fakeit/Quantifier.hpp 67-72): the quantity stored. -/
def timesLiteral (n : Nat) : Int := toInt32 n

/-- `operator"" _Time(unsigned long long n)` (include/fakeit/Quantifier.hpp 74-81): `none` is `std::invalid_argument`. -/
def timeLiteral (n : Nat) : Option Int := if n ≠ 1 then none else some (toInt32 n)

end FakeIt
