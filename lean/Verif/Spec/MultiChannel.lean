import Verif.Model.MultiChannel
import Verif.Spec.Convert
import Verif.Spec.Blit

/-!
# What a channel contributes to a multi-channel composition

In terms of exact numbers: the colour of the source pixel, the black and the white point, the look-up table, the tinting colour.
-/

namespace Verif.Spec
open Verif.Multi Verif.Flt

/-- The pixel types that can be composed. -/
def Composable (pt : PixelType) : Prop := pt = .Gray8 ∨ pt = .Gray16 ∨ pt = .Bgr24 ∨ pt = .Bgra32 ∨ pt = .Bgr48

/-- The colour (0: blue, 1: green, 2: red) of a source pixel with the bytes `s`; a grey pixel has three equal values. -/
def colour : PixelType → (Nat → UInt8) → Nat → Nat
  | .Gray8, s, _ => (s 0).toNat
  | .Gray16, s, _ => (s 0).toNat + 256 * (s 1).toNat
  | .Bgr48, s, i => (s (2 * i)).toNat + 256 * (s (2 * i + 1)).toNat
  | _, s, i => (s i).toNat

/-- The largest value of a channel. -/
def maxValue (pt : PixelType) : Nat := if pt = .Gray16 ∨ pt = .Bgr48 then 65535 else 255

/-- The mean of the three colours. -/
def meanOf (f : Nat → Nat) : ℚ := ((f 0 + f 1 + f 2 : Nat) : ℚ) / 3

/-- `v` is the integer nearest to `q`. -/
def NearestByte (v : UInt8) (q : ℚ) : Prop := |(v.toNat : ℚ) - q| < 1 / 2

/-- `v` is the integer nearest to `q`, up to an error of the floating-point computation that is too small to matter unless `q` is
close to the middle between two integers. -/
def AlmostNearest (v : UInt8) (q : ℚ) : Prop := |(v.toNat : ℚ) - q| ≤ 1 / 2 + 1 / 8192

/-- The largest pixel value that is mapped to black: the black point times the largest value, computed as a `float` and rounded
up. -/
def blackLevel (maxv : Nat) (blackPoint : ℚ) : Nat := ⌈f32 (blackPoint * maxv)⌉.toNat

/-- The smallest pixel value that is mapped to white. -/
def whiteLevel (maxv : Nat) (whitePoint : ℚ) : Nat := ⌊f32 (whitePoint * maxv)⌋.toNat

/-- The intensity of a pixel value between the levels `b` and `w`. -/
def between (b w v : Nat) : ℚ := if v ≤ b then 0 else if w ≤ v then 1 else ((v : ℚ) - b) / ((w : ℚ) - b)

/-- What channel `c` contributes to colour `i` (0, 1, 2) for a source pixel of type `pt` with the bytes `s`. -/
def Contributes (c : Channel) (pt : PixelType) (s : Nat → UInt8) (i : Nat) (v : UInt8) : Prop :=
  if c.lutCount ≠ 0 then
    -- the entries of the look-up table
    ∃ lut, c.lut = some lut ∧
      let l := fun i => (lut.get (colour pt s i)).toNat
      if c.enableTinting then NearestByte v (meanOf l / 255 * (c.tint i).toNat) else v.toNat = l i
  else if 0 < c.blackPoint ∨ c.whitePoint < 1 then
    -- black and white point
    let b := blackLevel (maxValue pt) c.blackPoint
    let w := whiteLevel (maxValue pt) c.whitePoint
    if c.enableTinting then
      ∃ m, IsMean False (colour pt s 0) (colour pt s 1) (colour pt s 2) m ∧ AlmostNearest v (between b w m * (c.tint i).toNat)
    else AlmostNearest v (between b w (colour pt s i) * 255)
  else if c.enableTinting then
    if maxValue pt = 255 then NearestByte v (meanOf (colour pt s) / 255 * (c.tint i).toNat)
    else AlmostNearest v (meanOf (colour pt s) / 65535 * (c.tint i).toNat)
  else if maxValue pt = 255 then v.toNat = colour pt s i
  else v.toNat = colour pt s i / 256

/-- A source and a channel info as the documentation requires them. -/
structure ProperChannel (dst : Blit.Bitmap) (s : Source) (c : Channel) : Prop where
  pixels : Composable s.pt
  data : s.bm.WF (pixelBytes s.pt)
  width : s.bm.w = dst.w
  height : s.bm.h = dst.h
  lut : c.lutCount ≠ 0 → c.lutCount = maxValue s.pt + 1 ∧ ∃ b, c.lut = some b ∧ c.lutCount ≤ b.size
  points : c.lutCount = 0 → (0 < c.blackPoint ∨ c.whitePoint < 1) →
    0 ≤ c.blackPoint ∧ c.blackPoint ≤ 1 ∧ 0 ≤ c.whitePoint ∧ c.whitePoint ≤ 1
  alpha : s.pt = .Bgra32 → c.lutCount = 0 ∧ ¬ (0 < c.blackPoint ∨ c.whitePoint < 1)

end Verif.Spec

namespace Verif.Spec
open Verif.Multi Verif.Flt

/-- `t` is the sum of one value per element of the list, each related to its element by `P`. -/
def SumOf {α : Type} (P : α → Int → Prop) : List α → Int → Prop
  | [], t => t = 0
  | p :: l, t => ∃ a t', P p a ∧ SumOf P l t' ∧ t = a + t'

/-- The sum of the weights of the channels. -/
def exactSum (cs : List Channel) : ℚ := (cs.map fun c => c.weight.getD 0).sum

/-- A weight that is a number and not negative. -/
def GoodWeight (c : Channel) : Prop := ∃ w, c.weight = some w ∧ 0 ≤ w

/-- `a` is the value `v` of a channel multiplied by its weight relative to the mean of all weights, rounded, up to the error of the
floating-point computation: `n` channels, sum of all weights `W`, weight of the channel `w`. -/
def Weighted (n : Nat) (W w : ℚ) (v : UInt8) (a : Int) : Prop :=
  0 ≤ a ∧ |(a : ℚ) - v.toNat * (n * w / W)| ≤ 1 / 2 + (v.toNat * (n * w / W)) * (4 * n + 12) / 2 ^ 24 + 1 / 2 ^ 24

/-- Pixel `(x,y)` of a source bitmap. -/
def pixelOf (s : Source) (x y : Nat) : Nat → UInt8 := fun j => s.bm.byteAt (pixelBytes s.pt) x y j

/-- The relation between a channel and what is added to colour `i` of pixel `(x,y)`: its contribution, subject to `R`. -/
def Adds (R : Channel → UInt8 → Int → Prop) (x y i : Nat) (p : Source × Channel) (a : Int) : Prop :=
  ∃ v, Contributes p.2 p.1.pt (pixelOf p.1 x y) i v ∧ R p.2 v a

/-- `out` is the composition: every colour is the saturated sum of what the channels add, the alpha value is the given one, and
nothing else is changed. -/
structure IsComposition (alpha : Option UInt8) (R : Channel → UInt8 → Int → Prop) (l : List (Source × Channel))
    (dst out : Blit.Bitmap) : Prop where
  width : out.w = dst.w
  height : out.h = dst.h
  stride : out.stride = dst.stride
  colours : ∀ x y i, x < dst.w → y < dst.h → i < 3 → ∃ t, SumOf (Adds R x y i) l t ∧
    ((out.byteAt (if alpha.isSome then 4 else 3) x y i).toNat : Int) = min t 255
  alphas : ∀ x y a, alpha = some a → x < dst.w → y < dst.h → out.byteAt 4 x y 3 = a
  padding : ∀ i, dst.IsPadding (if alpha.isSome then 4 else 3) i → out.buf.get i = dst.buf.get i

end Verif.Spec
