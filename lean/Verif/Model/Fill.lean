import Verif.Model.Convert

/-!
# Filling bitmaps with a colour (BitmapOperations.cpp:252-356)

Numbers of type `float` with infinities and NaN; subnormal numbers are not modelled.
-/

namespace Verif.Fill
open Verif.Czi Verif.Blit Verif.Bitonal Verif.Flt

/-- A value of type `float`. -/
inductive Fl where
  | num (x : ℚ)
  | inf (neg : Bool)
  | nan
  deriving DecidableEq

/-- The result of an operation whose exact result is `x`: rounded, infinite if too large. -/
def Fl.ofRat (x : ℚ) : Fl := if 2 ^ 128 ≤ |f32 x| then .inf (decide (x < 0)) else .num (f32 x)

/-- `a + b`. -/
def Fl.add : Fl → Fl → Fl
  | .nan, _ => .nan
  | _, .nan => .nan
  | .inf s, .inf t => if s = t then .inf s else .nan
  | .inf s, .num _ => .inf s
  | .num _, .inf t => .inf t
  | .num x, .num y => .ofRat (x + y)

/-- `k * a` for a positive number `k` (`a / 3` with `k = 1 / 3`: the exact quotient is rounded). -/
def Fl.scale (k : ℚ) : Fl → Fl
  | .nan => .nan
  | .inf s => .inf s
  | .num x => .ofRat (k * x)

/-- `Utilities::clampToByte` with `top = 255`, utilities.h:74-86, and `Utilities::clampToUShort` with `top = 65535`, utilities.h:88-100;
`none`: the conversion of NaN to an integer type is undefined. -/
def clampTop (top : Nat) : Fl → Option Nat
  | .nan => none
  | .inf neg => some (if neg then 0 else top)
  | .num x => some (if x ≤ 0 then 0 else if (top : ℚ) ≤ x then top else (⌊f32 (x + 1 / 2)⌋).toNat)

/-- `RgbFloatColor`, libCZI_Pixels.h. -/
structure Colour where
  r : Fl
  g : Fl
  b : Fl

/-- `floatColor.r + floatColor.g + floatColor.b`. -/
def Colour.sum (c : Colour) : Fl := (c.r.add c.g).add c.b

/-- The value for a grey pixel, BitmapOperations.cpp:259 and 262: `(top * (r + g + b)) / 3`. -/
def greyValue (top : Nat) (c : Colour) : Option Nat := clampTop top (((c.sum).scale top).scale (1 / 3))

/-- The value for a channel, BitmapOperations.cpp:268-275: `top * c`. -/
def channelValue (top : Nat) (c : Fl) : Option Nat := clampTop top (c.scale top)

/-- The loops of `Fill_Gray8`, BitmapOperations.cpp:282-289. -/
def fillRows8 (v : UInt8) (bm : Bitmap) : Option Buf :=
  loop bm.h (fun y b => b.memset (y * bm.stride) v bm.w) bm.buf

/-- The loops of `Fill_Gray16`, `Fill_Bgr24`, `Fill_Bgra32`, `Fill_Bgr48` and `Fill_GrayFloat`, BitmapOperations.cpp:291-356: `px` are
the bytes of the pixel. -/
def fillRows (bpp : Nat) (px : Nat → UInt8) (bm : Bitmap) : Option Buf :=
  loop bm.h (fun y b => loop bm.w (fun x b => loop bpp (fun j b => b.write (y * bm.stride + x * bpp + j) (px j)) b) b) bm.buf

/-- The bytes of the pixel, BitmapOperations.cpp:256-279: `throws` for pixel types without implementation. -/
def pixelBytesOf (enc : Fl → Nat → UInt8) (pt : PixelType) (c : Colour) : Outcome (Nat → UInt8) :=
  match pt with
  | .Gray8 => orUndefined ((greyValue 255 c).map fun v _ => UInt8.ofNat v)
  | .Gray16 => orUndefined ((greyValue 65535 c).map fun v j => byte16 v j)
  | .Gray32Float => .ok (enc ((c.sum).scale (1 / 3)))
  | .Bgr24 => orUndefined (do
      let b ← channelValue 255 c.b
      let g ← channelValue 255 c.g
      let r ← channelValue 255 c.r
      return fun j => UInt8.ofNat (if j = 0 then b else if j = 1 then g else r))
  | .Bgra32 => orUndefined (do
      let b ← channelValue 255 c.b
      let g ← channelValue 255 c.g
      let r ← channelValue 255 c.r
      return fun j => UInt8.ofNat (if j = 0 then b else if j = 1 then g else if j = 2 then r else 255))
  | .Bgr48 => orUndefined (do
      let b ← channelValue 65535 c.b
      let g ← channelValue 65535 c.g
      let r ← channelValue 65535 c.r
      return fun j => byte16 (if j / 2 = 0 then b else if j / 2 = 1 then g else r) (j % 2))
  | _ => .throws

/-- Bytes per pixel of the pixel types that can be filled. -/
def fillBytes : PixelType → Nat
  | .Gray8 => 1 | .Gray16 => 2 | .Gray32Float => 4 | .Bgr24 => 3 | .Bgra32 => 4 | .Bgr48 => 6 | _ => 0

/-- `CBitmapOperations::Fill`, BitmapOperations.cpp:252-280, and `Utils::FillBitmap`, libCZI_Utilities.cpp:678-681. -/
def fill (enc : Fl → Nat → UInt8) (pt : PixelType) (bm : Bitmap) (c : Colour) : Outcome Bitmap :=
  match pixelBytesOf enc pt c with
  | .throws => .throws
  | .undefined => .undefined
  | .ok px =>
    orUndefined ((if pt = .Gray8 then fillRows8 (px 0) bm else fillRows (fillBytes pt) px bm).map fun b => { bm with buf := b })

/-- `CSingleChannelAccessorBase::Clear`, SingleChannelAccessorBase.cpp:25-31. -/
def clear (enc : Fl → Nat → UInt8) (pt : PixelType) (bm : Bitmap) (c : Colour) : Outcome Bitmap :=
  if c.r ≠ .nan ∧ c.g ≠ .nan ∧ c.b ≠ .nan then fill enc pt bm c else .ok bm

end Verif.Fill
