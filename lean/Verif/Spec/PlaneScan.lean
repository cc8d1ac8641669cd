import Verif.Spec.SubBlock

/-! # Dividing a region into tiles -/

namespace Verif.Spec

/-- The rectangles `rs` are a division of the region into tiles of at most `w` times `h` pixels: none is empty or reaches beyond the region, every pixel of the region
is in one of them, and they follow each other row by row, from left to right, without overlapping. -/
structure Tiling (roi : IntRect) (w h : Nat) (rs : List IntRect) : Prop where
  size : ∀ r ∈ rs, 0 < r.w ∧ r.w ≤ w ∧ 0 < r.h ∧ r.h ≤ h
  inside : ∀ r ∈ rs, roi.x ≤ r.x ∧ r.x + r.w ≤ roi.x + roi.w ∧ roi.y ≤ r.y ∧ r.y + r.h ≤ roi.y + roi.h
  covers : ∀ px py, roi.Has px py → ∃ r ∈ rs, r.Has px py
  ordered : rs.Pairwise fun a b => a.y + a.h ≤ b.y ∨ (a.y = b.y ∧ a.h = b.h ∧ a.x + a.w ≤ b.x)

end Verif.Spec
