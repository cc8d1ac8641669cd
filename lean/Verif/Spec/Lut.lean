import Verif.Model.Float

/-!
# What a look-up table is

A table of `n` values: zeros below the index of the black point, the largest value from the index of the white point on.
-/

namespace Verif.Spec
open Verif.Flt

/-- The index that belongs to a black point or a white point: the point times the number of values, computed as a `float`, rounded
down. -/
def cut (n : Nat) (p : ℚ) : Nat := ⌊f32 (p * n)⌋.toNat

/-- `t` is a table of `n` values that is 0 below index `lo` and `maxv` from `hi` on; `between k v` says what is known of value number `k` (with value
`v`) in between. -/
structure IsTable (n lo hi maxv : Nat) (between : Nat → Nat → Prop) (t : List Nat) : Prop where
  size : t.length = n
  dark : ∀ i, i < lo → t[i]? = some 0
  bright : ∀ i, hi ≤ i → i < n → t[i]? = some maxv
  mid : ∀ k, lo + k < hi → ∃ v, t[lo + k]? = some v ∧ v ≤ maxv ∧ between k v

/-- The values of the table do not decrease. -/
def Ascending (t : List Nat) : Prop := ∀ (i j v v' : Nat), i ≤ j → t[i]? = some v → t[j]? = some v' → v ≤ v'

end Verif.Spec
