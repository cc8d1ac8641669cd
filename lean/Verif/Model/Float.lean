import Mathlib.Data.Int.Log
import Mathlib.Data.Rat.Floor

/-!
# Floating-point arithmetic

The values of `float` and `double` variables are rational numbers; each arithmetic operation of the C++ program is the exact
operation on rational numbers followed by `f32` or `f64`, the rounding of IEEE 754 (to nearest, ties to even). The range of the
exponents is not modelled: executions in which a result overflows to infinity or is subnormal are not described.
-/

namespace Verif.Flt

/-- The nearest integer, ties to even. -/
def roundEven (x : ℚ) : ℤ :=
  if x - ⌊x⌋ < 1 / 2 then ⌊x⌋
  else if 1 / 2 < x - ⌊x⌋ then ⌊x⌋ + 1
  else if ⌊x⌋ % 2 = 0 then ⌊x⌋ else ⌊x⌋ + 1

/-- The exponent of the last of `p` significant bits. -/
def lastExp (p : ℕ) (x : ℚ) : ℤ := Int.log 2 |x| - (p - 1 : ℤ)

/-- Rounding to `p` significant bits. -/
def fround (p : ℕ) (x : ℚ) : ℚ := roundEven (x / 2 ^ lastExp p x) * 2 ^ lastExp p x

/-- Rounding of a result of type `float`. -/
def f32 (x : ℚ) : ℚ := fround 24 x

/-- Rounding of a result of type `double`. -/
def f64 (x : ℚ) : ℚ := fround 53 x

/-- `static_cast<int>(x)`: truncation towards zero (for values in the range of the type). -/
def truncInt (x : ℚ) : ℤ := if 0 ≤ x then ⌊x⌋ else ⌈x⌉

/-- `lround(x)`: to nearest, ties away from zero. -/
def lround (x : ℚ) : ℤ := if 0 ≤ x then ⌊x + 1 / 2⌋ else ⌈x - 1 / 2⌉

end Verif.Flt
