import Verif.Model.Jxr

/-!
# Sizes of bitmaps: specification
-/

namespace Verif.Spec
open Verif.Blit Verif.Jxr

/-- A line of `w` pixels has (almost) less than 2 GiB, and there are less than 2^31 lines. -/
def SmallSize (pt : PixelType) (w h : Nat) : Prop := h < 2 ^ 31 ∧ ∀ bpp, bytesPerPel pt = some bpp → w * bpp + 3 < 2 ^ 31

/-- Every byte of every pixel is inside of the bitmap's memory. -/
def PixelsInMemory (bm : Bitmap) (bpp : Nat) : Prop :=
  ∀ x y j, x < bm.w → y < bm.h → j < bpp → y * bm.stride + x * bpp + j < bm.buf.size

/-- No two pixels share memory: the lines do not overlap. -/
def LinesApart (bm : Bitmap) (bpp : Nat) : Prop := bm.w * bpp ≤ bm.stride

end Verif.Spec
