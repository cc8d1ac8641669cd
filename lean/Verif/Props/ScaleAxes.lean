import Verif.Props.Scale

/-!
# C59: the two axes of scaling, written out
-/

namespace Verif
open Blit Czi Bitonal Spec Flt Scale

/-- **C59 (partial, the axes written out).** As `C59_scale_partial`: the columns are determined by the widths of the bitmaps and the horizontal position and extent of the regions, the rows
by the heights and the vertical ones. -/
theorem C59_scale_axes_partial (enc : ℚ → Nat → UInt8) {ps pd : PixelType} (hs : IntegerType ps) (hd : IntegerType pd)
    (hx : ¬ (ps = .Bgr24 ∧ pd = .Bgr48)) (mask : Option Mask) (hm : ∀ m, mask = some m → m.WF) (src dst : Bitmap)
    (hsrc : src.WF (pixelBytes ps)) (hdst : dst.WF (pixelBytes pd)) (sr dr : Roi)
    (hax : Moderate (⟨src.w, dst.w, sr.x, sr.w, dr.x, dr.w⟩ : Axis)) (hay : Moderate (⟨src.h, dst.h, sr.y, sr.h, dr.y, dr.h⟩ : Axis)) :
    ∃ out, nnResizeRoi enc ps pd mask src dst sr dr = .ok out ∧
      out.w = dst.w ∧ out.h = dst.h ∧ out.stride = dst.stride ∧ out.buf.size = dst.buf.size ∧
      ∃ vx vy : Nat → Prop, Visits (⟨src.w, dst.w, sr.x, sr.w, dr.x, dr.w⟩ : Axis) vx ∧ Visits (⟨src.h, dst.h, sr.y, sr.h, dr.y, dr.h⟩ : Axis) vy ∧
      ∃ sx sy : Nat → Nat,
        (∀ x, vx x → Picks src.w (exactPosition (⟨src.w, dst.w, sr.x, sr.w, dr.x, dr.w⟩ : Axis) x) (2 * tolerance) (sx x)) ∧
        (∀ y, vy y → Picks src.h (exactPosition (⟨src.h, dst.h, sr.y, sr.h, dr.y, dr.h⟩ : Axis) y) (2 * tolerance) (sy y)) ∧
        (∀ x y, x < dst.w → y < dst.h → vx x → vy y → NotMasked mask (sx x) (sy y) →
          Converted ps pd (channels ps (src.byteAt (pixelBytes ps) (sx x) (sy y)))
            (channels pd (out.byteAt (pixelBytes pd) x y))) ∧
        (∀ x y j, x < dst.w → y < dst.h → j < pixelBytes pd → ¬ (vx x ∧ vy y ∧ NotMasked mask (sx x) (sy y)) →
          out.byteAt (pixelBytes pd) x y j = dst.byteAt (pixelBytes pd) x y j) ∧
        (∀ i, dst.IsPadding (pixelBytes pd) i → out.buf.get i = dst.buf.get i) :=
  C59_scale_partial enc hs hd hx mask hm src dst hsrc hdst sr dr hax hay

/-- **C59 (equal pixel types, the axes written out).** -/
theorem C59_scale_same_axes (enc : ℚ → Nat → UInt8) {p : PixelType} (hp : IntegerType p ∨ p = .Gray32Float ∨ p = .Bgra32)
    (mask : Option Mask) (hm : ∀ m, mask = some m → m.WF) (src dst : Bitmap)
    (hsrc : src.WF (pixelBytes p)) (hdst : dst.WF (pixelBytes p)) (sr dr : Roi)
    (hax : Moderate (⟨src.w, dst.w, sr.x, sr.w, dr.x, dr.w⟩ : Axis)) (hay : Moderate (⟨src.h, dst.h, sr.y, sr.h, dr.y, dr.h⟩ : Axis)) :
    ∃ out, nnResizeRoi enc p p mask src dst sr dr = .ok out ∧
      ∃ vx vy : Nat → Prop, Visits (⟨src.w, dst.w, sr.x, sr.w, dr.x, dr.w⟩ : Axis) vx ∧ Visits (⟨src.h, dst.h, sr.y, sr.h, dr.y, dr.h⟩ : Axis) vy ∧
      ∃ sx sy : Nat → Nat,
        (∀ x, vx x → Picks src.w (exactPosition (⟨src.w, dst.w, sr.x, sr.w, dr.x, dr.w⟩ : Axis) x) (2 * tolerance) (sx x)) ∧
        (∀ y, vy y → Picks src.h (exactPosition (⟨src.h, dst.h, sr.y, sr.h, dr.y, dr.h⟩ : Axis) y) (2 * tolerance) (sy y)) ∧
        ∀ x y j, x < dst.w → y < dst.h → j < pixelBytes p →
          (vx x → vy y → NotMasked mask (sx x) (sy y) →
            out.byteAt (pixelBytes p) x y j = src.byteAt (pixelBytes p) (sx x) (sy y) j) ∧
          (¬ (vx x ∧ vy y ∧ NotMasked mask (sx x) (sy y)) → out.byteAt (pixelBytes p) x y j = dst.byteAt (pixelBytes p) x y j) :=
  C59_scale_same enc hp mask hm src dst hsrc hdst sr dr hax hay

/-- The regions of the example of `C59_scale_partial`. -/
example : Moderate ⟨(4 : Nat), (3 : Nat), 0, 2, 0, 3 / 2⟩ ∧ Moderate ⟨(2 : Nat), (3 : Nat), 0, 2, 3 / 2, 3 / 2⟩ := by
  refine ⟨?_, ?_⟩ <;>
  · constructor <;> norm_num [abs_of_pos]

end Verif
