import Verif.Model.Scale
import Verif.Spec.Convert
import Verif.Spec.Blit

/-!
# What nearest-neighbour scaling means

One axis at a time: the pixel `x` of the destination corresponds to the position `exactPosition a x` in the source, the position `p`
in the source to `inversePosition a p` in the destination.
-/

namespace Verif.Spec
open Verif.Scale

/-- The position in the source that corresponds to pixel `x` of the destination, if the ROI of the source is mapped linearly to the
ROI of the destination. -/
def exactPosition (a : Axis) (x : Nat) : ℚ := a.sp + ((x : ℚ) - a.dp) * a.sw / a.dw

/-- The position in the destination that corresponds to a position in the source. -/
def inversePosition (a : Axis) (p : ℚ) : ℚ := a.dp + (p - a.sp) * a.dw / a.sw

/-- What the rounding of the floating-point numbers may amount to, in pixels. -/
def tolerance : ℚ := 1 / 65536

/-- Regions that are not empty, and sizes and positions of less than `2^29` pixels (also when the regions are extrapolated to
the whole source bitmap, or to one pixel of the destination). -/
structure Moderate (a : Axis) : Prop where
  src : 0 < a.srcN ∧ a.srcN ≤ 2 ^ 29
  dst : a.dstN ≤ 2 ^ 29
  sw : 0 < a.sw ∧ a.sw ≤ 2 ^ 29
  dw : 0 < a.dw ∧ a.dw ≤ 2 ^ 29
  sp : |a.sp| ≤ 2 ^ 29
  dp : |a.dp| ≤ 2 ^ 29
  reduction : a.sw ≤ 2 ^ 29 * a.dw
  magnification : (|a.sp| + a.srcN) * a.dw ≤ 2 ^ 29 * a.sw

/-- `i` is the index of one of the `n` source pixels, and none of them is nearer to the position `p` (by more than `ε`). -/
def Picks (n : Nat) (p ε : ℚ) (i : Nat) : Prop :=
  i < n ∧ ∀ j : Nat, j < n → |(i : ℚ) - p| ≤ |(j : ℚ) - p| + ε

/-- The columns (or rows) `v` of the destination that are painted: those of the ROI that correspond to a position of the source
(`complete`), and at most one more at each border (`sound`). -/
structure Visits (a : Axis) (v : Nat → Prop) : Prop where
  complete : ∀ x : Nat, x < a.dstN → a.dp ≤ x → (x : ℚ) < a.dp + a.dw → inversePosition a 0 + tolerance ≤ x →
    (x : ℚ) < inversePosition a (a.srcN - 1) + 1 - tolerance → v x
  sound : ∀ x : Nat, v x → x < a.dstN ∧ a.dp - 1 < x ∧
    ((x : ℚ) ≤ a.dp + a.dw + tolerance ∨ (x = 0 ∧ -1 - tolerance < a.dp + a.dw)) ∧
    inversePosition a 0 - tolerance ≤ x ∧ (x : ℚ) < inversePosition a (a.srcN - 1) + 1 + tolerance

/-- The source pixel is not masked out. -/
def NotMasked (mask : Option Blit.Mask) (sx sy : Nat) : Prop :=
  match mask with
  | none => True
  | some m => sx < m.w ∧ sy < m.h ∧ m.at sx sy = true

end Verif.Spec
