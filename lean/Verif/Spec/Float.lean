import Mathlib.Data.Rat.Floor

/-!
# Specification: rounding of floating-point results
-/

namespace Verif.Spec

/-- A number with `p` significant bits: an integer of `p` bits times a power of two. -/
def HasBits (p : ℕ) (y : ℚ) : Prop := ∃ m k : ℤ, |m| ≤ 2 ^ p ∧ y = m * 2 ^ k

/-- The last of the `p` significant bits is zero. -/
def LastBitZero (p : ℕ) (y : ℚ) : Prop := ∃ m k : ℤ, 2 ^ (p - 1) ≤ |m| ∧ |m| < 2 ^ p ∧ m % 2 = 0 ∧ y = m * 2 ^ k

/-- `y` is `x` rounded to `p` significant bits as prescribed by IEEE 754: no number of `p` bits is nearer, and if another one is equally near, the
last bit of `y` is zero. -/
def RoundedTo (p : ℕ) (x y : ℚ) : Prop :=
  HasBits p y ∧ (∀ z, HasBits p z → |y - x| ≤ |z - x|) ∧ ∀ z, HasBits p z → |z - x| = |y - x| → z ≠ y → LastBitZero p y

end Verif.Spec
