import Verif.Model.Jxr
import Verif.Spec.Blit
import Verif.Spec.Convert
import Verif.Spec.Zstd

/-!
# Bitmaps of sub-blocks: specification
-/

namespace Verif.Spec
open Verif.Blit Verif.Jxr

/-- In the compressed data the channels of 48-bit pixels are in the order red, green, blue (two bytes each); in bitmaps the order is
blue, green, red. -/
def inBitmapOrder (pt : PixelType) (px : Nat → Nat → Nat → UInt8) : Nat → Nat → Nat → UInt8 :=
  fun x y j => if pt = .Bgr48 then px x y (if j < 2 then j + 4 else if j < 4 then j else j - 4) else px x y j

/-- The bitmap has this pixel type and size, its pixels lie in its memory, and byte `j` of the pixel `(x, y)` is `v x y j`. -/
structure ShowsImage (t : Typed) (pt : PixelType) (w h : Nat) (v : Nat → Nat → Nat → UInt8) : Prop where
  typ : t.pt = pt
  width : t.bm.w = w
  height : t.bm.h = h
  wf : t.bm.WF (pixelBytes pt)
  bytes : ∀ x y j, x < w → y < h → j < pixelBytes pt → t.bm.byteAt (pixelBytes pt) x y j = v x y j

/-- The bytes of a black pixel; `enc` gives the bytes of a floating-point number. Bgra32: opaque. -/
def blackPixel (enc : Fill.Fl → Nat → UInt8) (pt : PixelType) (j : Nat) : UInt8 :=
  if pt = .Gray32Float then enc (.num 0) j else if pt = .Bgra32 ∧ j = 3 then 255 else 0

/-- What is assumed of the library for a format: pixels encoded with the highest quality are decoded again. -/
structure LosslessFor (lib : Lib) (f : Format) : Prop where
  back : ∀ w h px d, lib.encode f w h 1 px = some d → lib.header d = some (f, w, h) ∧
    ∃ px', lib.pixels d = some px' ∧ ∀ x y j, x < w → y < h → j < formatBytes f → px' x y j = px x y j

end Verif.Spec
