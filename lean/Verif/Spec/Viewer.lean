import Verif.Model.Viewer
import Verif.Spec.Czi
import Verif.Spec.Fill
import Verif.Spec.Jxr
import Verif.Spec.Zstd

/-! # What a picture of a written document is supposed to show, in terms of the sub-blocks given to the writer -/

namespace Verif.Spec
open Verif.Czi Verif.Blit Verif.Jxr Verif.Viewer

/-- The bytes given to the writer as data of the sub-block. -/
def dataOf (a : AddInfo) : List UInt8 := payloadOf a.sizeData a.data

/-- A bitmap in memory: `w × h` pixels, line `y` starts at byte `y * stride`. -/
structure Given.Source (src : Buf) (w h stride bpp : Nat) : Prop where
  size : 0 < w ∧ 0 < h
  lines : w * bpp ≤ stride
  inside : (h - 1) * stride + w * bpp ≤ src.size

/-- The sub-block `a` given to the writer has pictures of `w × h` pixels, byte `j` of the pixel `(x, y)` being `f x y j`: its data are the pixels themselves, line after
line, or what the library's compressors made out of a bitmap with these pixels (JPEG-XR: with the highest quality). -/
inductive DataShows (c : Codecs) (a : AddInfo) (w h : Nat) (f : Nat → Nat → Nat → UInt8) : Prop where
  | raw (compression : a.compression = 0) (size : h * (w * pixelBytes a.pixelType) ≤ a.sizeData)
      (pixels : ∀ x y j, x < w → y < h → j < pixelBytes a.pixelType →
        (dataOf a)[y * (w * pixelBytes a.pixelType) + x * pixelBytes a.pixelType + j]? = some (f x y j))
  | zstd0 (fresh : Nat → UInt8) (src : Buf) (stride dest : Nat) (compression : a.compression = 5) (source : Given.Source src w h stride (pixelBytes a.pixelType)) (room : 1 ≤ dest)
      (data : Zstd.compress0 c.zstd fresh w h stride a.pixelType src dest = some (.ok (some (dataOf a))))
      (pixels : ∀ x y j, x < w → y < h → j < pixelBytes a.pixelType → src.get (y * stride + x * pixelBytes a.pixelType + j) = f x y j)
  | zstd1 (fresh : Nat → UInt8) (src : Buf) (stride dest : Nat) (packing : Bool) (compression : a.compression = 6)
      (source : Given.Source src w h stride (pixelBytes a.pixelType)) (room : 4 ≤ dest ∧ w * pixelBytes a.pixelType < 2 ^ 32)
      (notPacked48 : packing = true → a.pixelType ≠ .Bgr48)
      (data : Zstd.compress1 c.zstd fresh w h stride a.pixelType packing src dest = some (.ok (some (dataOf a))))
      (pixels : ∀ x y j, x < w → y < h → j < pixelBytes a.pixelType → src.get (y * stride + x * pixelBytes a.pixelType + j) = f x y j)
  | jxr (fresh : Nat → UInt8) (src : Buf) (stride : Nat) (parameter : Option Nat) (compression : a.compression = 4)
      (source : Given.Source src w h stride (pixelBytes a.pixelType)) (best : ∀ q, parameter = some q → 1000 ≤ q)
      (lossless : ∀ fm, formatOf a.pixelType = some fm → LosslessFor c.lib fm)
      (data : Jxr.compress c.lib fresh a.pixelType w h stride src parameter = .ok (dataOf a))
      (pixels : ∀ x y j, x < w → y < h → j < pixelBytes a.pixelType → src.get (y * stride + x * pixelBytes a.pixelType + j) = f x y j)

/-- The pixel types of which pictures can be composed without conversion. -/
def ViewableType (pt : PixelType) : Prop := pt = .Gray8 ∨ pt = .Gray16 ∨ pt = .Gray32Float ∨ pt = .Bgr24 ∨ pt = .Bgr48

/-- The sub-block is stored without minification. -/
def Full (a : AddInfo) : Prop := a.physicalWidth = a.logicalWidth ∧ a.physicalHeight = a.logicalHeight

/-- The sub-block belongs to the plane. -/
def InPlane (plane : Coord) (a : AddInfo) : Prop := ∀ d v, plane d = some v → a.coordinate d = some v

/-- The sub-block covers the point. -/
def CoversPoint (a : AddInfo) (px py : Int) : Prop :=
  a.x ≤ px ∧ px < a.x + a.logicalWidth ∧ a.y ≤ py ∧ py < a.y + a.logicalHeight

/-- `a` lies above `b`: it has the larger m-index, or `b` has none. -/
def LiesAbove (a b : AddInfo) : Prop := ∃ m, a.mIndex.bind validM = some m ∧ ∀ n, b.mIndex.bind validM = some n → n < m

/-- The plane coordinate fits the sub-blocks: no scene; a value for every dimension in which they differ; every value between two that occur. -/
structure PlaneFits (plane : Coord) (subs : List AddInfo) : Prop where
  noScene : plane .S = none
  missing : ∀ d, d ≠ .S → plane d = none → ∀ a ∈ subs, ∀ b ∈ subs, ∀ u v, a.coordinate d = some u → b.coordinate d = some v → u = v
  range : ∀ d v, plane d = some v → ∃ a ∈ subs, ∃ b ∈ subs, ∃ lo hi, a.coordinate d = some lo ∧ b.coordinate d = some hi ∧ lo ≤ v ∧ v ≤ hi

/-- The sub-block is of the channel of the plane. -/
def InChannel (plane : Coord) (a : AddInfo) : Prop := plane .C = a.coordinate .C

/-- `v` is a correct value for byte `j` of the point `(px, py)` of the plane: that of a covering sub-block of the plane, above which - if `topmost` - there is no other
covering one; the background `bg` if there is none. -/
def CorrectPixel (subs : List AddInfo) (pic : AddInfo → Nat → Nat → Nat → UInt8) (plane : Coord) (topmost : Bool) (px py : Int) (j : Nat) (bg v : UInt8) : Prop :=
  ((∀ a ∈ subs, InPlane plane a → Full a → ¬ CoversPoint a px py) ∧ v = bg) ∨
  ∃ a ∈ subs, InPlane plane a ∧ Full a ∧ CoversPoint a px py ∧ v = pic a (px - a.x).toNat (py - a.y).toNat j ∧
    (topmost = true → ∀ b ∈ subs, InPlane plane b → Full b → CoversPoint b px py → ¬ LiesAbove b a)

/-- The sub-block has a size that is not negative, and a value for at least one dimension. -/
def SubPlausible (a : AddInfo) : Prop :=
  0 ≤ a.logicalWidth ∧ 0 ≤ a.logicalHeight ∧ ∃ d, (a.coordinate d).isSome

/-- `v` are the bytes of a pixel with this colour (see C79). -/
def ColourPixel (enc : Fill.Fl → Nat → UInt8) (pt : PixelType) (col : Fill.Colour) (v : Nat → UInt8) : Prop :=
  let two := fun k => (v (2 * k)).toNat + 256 * (v (2 * k + 1)).toNat
  match pt with
  | .Gray8 => IsGreyValue 255 col (v 0).toNat
  | .Gray16 => IsGreyValue 65535 col (two 0)
  | .Bgr24 => IsChannelValue 255 col.b (v 0).toNat ∧ IsChannelValue 255 col.g (v 1).toNat ∧ IsChannelValue 255 col.r (v 2).toNat
  | .Bgr48 => IsChannelValue 65535 col.b (two 0) ∧ IsChannelValue 65535 col.g (two 1) ∧ IsChannelValue 65535 col.r (two 2)
  | .Gray32Float => ∃ n, (∀ j < 4, v j = enc n j) ∧ ∀ r g b, UnitColour col r g b → ∃ q, n = .num q ∧ |q - (r + g + b) / 3| ≤ 3 / 2 ^ 24
  | _ => False

/-- No component of the colour is "not a number". -/
def Coloured (col : Fill.Colour) : Prop := col.r ≠ .nan ∧ col.g ≠ .nan ∧ col.b ≠ .nan

/-- A picture `out` of `w × h` pixels of the region with the upper-left corner `(xPos, yPos)` is correct. Points covered by no sub-block have the background colour, if there
is one; otherwise they are whatever was in memory. -/
def CorrectPicture (c : Codecs) (subs : List AddInfo) (pic : AddInfo → Nat → Nat → Nat → UInt8) (pt : PixelType) (plane : Coord) (vo : ViewOptions) (xPos yPos : Int)
    (w h : Nat) (out : Bitmap) : Prop :=
  out.w = w ∧ out.h = h ∧ out.WF (pixelBytes pt) ∧
  ∃ bg : Nat → Nat → Nat → UInt8,
    (Coloured vo.background → ∀ x y, x < w → y < h → ColourPixel c.enc pt vo.background (bg x y)) ∧
    ∀ x y j, x < w → y < h → j < pixelBytes pt →
      CorrectPixel subs pic plane vo.sortByM (xPos + x) (yPos + y) j (bg x y j) (out.byteAt (pixelBytes pt) x y j)

end Verif.Spec
