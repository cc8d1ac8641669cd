import Verif.Model.LayerView
import Verif.Spec.Accessor
import Verif.Spec.ScaledView
import Verif.Spec.CmdLine

/-! # What a picture of a pyramid layer of a written document is supposed to show, in terms of the sub-blocks given to the writer -/

namespace Verif.Spec
open Verif.Czi Verif.Blit Verif.Jxr Verif.Viewer

/-- The minification of a sub-block: the ratio of logical to stored size along its longer stored side, as an integer. -/
def SubMinification (a : AddInfo) (r : Int) : Prop :=
  if a.physicalWidth > a.physicalHeight then Nearest a.logicalWidth a.physicalWidth.toNat r else Nearest a.logicalHeight a.physicalHeight.toNat r

/-- The sub-block belongs to layer `n`: the least `n` such that `factor^n` reaches its minification. -/
def SubOnLayer (factor n : Nat) (a : AddInfo) : Prop := ∃ r, SubMinification a r ∧ r ≤ (factor ^ n : Nat) ∧ ∀ l < n, ((factor ^ l : Nat) : Int) < r

/-- The region covered by the picture: whole pixels of the layer, each being `f` points wide and high. -/
def wholePixels (f : Nat) (roi : IntRect) : IntRect := ⟨roi.x, roi.y, roi.w / f * f, roi.h / f * f⟩

/-- Pixel `(u, v)` of the sub-block is placed at pixel `(x, y)` of the picture: the distance of the sub-block to the corner of the region, divided by the size of a pixel. -/
def PlacedAt (f : Nat) (roi : IntRect) (a : AddInfo) (u v x y : Nat) : Prop :=
  (u : Int) < a.physicalWidth ∧ (v : Int) < a.physicalHeight ∧ (x : Int) = (a.x - roi.x).tdiv f + u ∧ (y : Int) = (a.y - roi.y).tdiv f + v

/-- A picture `out` of the layer is correct: it has as many pixels as fit into the region, and each is that of a sub-block of the layer placed there, above which there is no other, or the
background. -/
def CorrectLayer (c : Codecs) (subs : List AddInfo) (pic : AddInfo → Nat → Nat → Nat → UInt8) (pt : PixelType) (plane : Coord) (background : Fill.Colour)
    (scenes : Option (Int → Bool)) (factor n : Nat) (roi : IntRect) (out : Bitmap) : Prop :=
  let cand := fun a => Eligible subs plane (wholePixels (factor ^ n) roi) scenes a ∧ SubOnLayer factor n a
  (out.w : Int) = roi.w / (factor ^ n : Nat) ∧ (out.h : Int) = roi.h / (factor ^ n : Nat) ∧
  ∃ bg : Nat → Nat → Nat → UInt8,
    (Coloured background → ∀ x y, x < out.w → y < out.h → ColourPixel c.enc pt background (bg x y)) ∧
    ∀ x y j, x < out.w → y < out.h → j < pixelBytes pt →
      ((∀ a, cand a → ∀ u v, ¬ PlacedAt (factor ^ n) roi a u v x y) ∧ out.byteAt (pixelBytes pt) x y j = bg x y j) ∨
      ∃ a u v, cand a ∧ PlacedAt (factor ^ n) roi a u v x y ∧ out.byteAt (pixelBytes pt) x y j = pic a u v j ∧
        ∀ b u' v', cand b → PlacedAt (factor ^ n) roi b u' v' x y → ¬ LiesAbove b a

/-- A request for a layer that makes sense: the region is at least one pixel of the layer wide and high, and sizes fit into `int`. -/
structure LayerRequested (factor n : Nat) (roi : IntRect) : Prop where
  pixel : 0 < factor ^ n ∧ factor ^ n ≤ 2147483647
  width : ((factor ^ n : Nat) : Int) ≤ roi.w ∧ roi.w ≤ 2147483647
  height : ((factor ^ n : Nat) : Int) ≤ roi.h ∧ roi.h ≤ 2147483647

/-- The sub-blocks of the plane have the pixel type and show `pic`; they are of usual size, and on a layer whose pixels have a size that fits into `int`. -/
def LayerSubs (c : Codecs) (subs : List AddInfo) (plane : Coord) (pt : PixelType) (factor : Nat) (pic : AddInfo → Nat → Nat → Nat → UInt8) : Prop :=
  ∀ a ∈ subs, InPlane plane a → a.pixelType = pt ∧ DataShows c a a.physicalWidth.toNat a.physicalHeight.toNat (pic a) ∧ UsualSub a ∧
    ∃ n, SubOnLayer factor n a ∧ factor ^ n ≤ 2147483647

/-- In the region there is a sub-block of the layer, or none at all. -/
def LayerThere (subs : List AddInfo) (plane : Coord) (scenes : Option (Int → Bool)) (factor n : Nat) (roi : IntRect) : Prop :=
  (∃ a, Eligible subs plane (wholePixels (factor ^ n) roi) scenes a ∧ SubOnLayer factor n a) ∨ ∀ a, ¬ Eligible subs plane (wholePixels (factor ^ n) roi) scenes a

/-- In the region there are sub-blocks, but only of other layers. -/
def LayerMissing (subs : List AddInfo) (plane : Coord) (scenes : Option (Int → Bool)) (factor n : Nat) (roi : IntRect) : Prop :=
  (∃ a, Eligible subs plane (wholePixels (factor ^ n) roi) scenes a) ∧ ∀ a, Eligible subs plane (wholePixels (factor ^ n) roi) scenes a → ¬ SubOnLayer factor n a

/-- Pictures of layers of the opened document show the sub-blocks `subs`: whatever codecs (zstd being lossless), memory, sorting function, pixel type, plane, background, scene filter,
layer and region, if the plane fits and the request makes sense, the picture delivered (sorted by M-index) is correct. -/
def LayersShow (al : Alloc) (s : Stream) (doc : Doc) (subs : List AddInfo) : Prop :=
  ∀ (c : Codecs) (mem : Memory) (sort : List (Int × Entry) → List (Int × Entry)) (pt : PixelType) (plane : Coord) (background : Fill.Colour) (scenes : Option (Int → Bool))
    (pic : AddInfo → Nat → Nat → Nat → UInt8) (info : Accessor.LayerRequest) (roi : IntRect), Zstd.Lossless c.zstd → Accessor.SortsBy Accessor.mKey sort → ViewableType pt →
    (∀ a ∈ subs, SubPlausible a) → PlaneFits plane subs → LayerSubs c subs plane pt info.factor.toNat pic → (Coloured background → background.sum ≠ .nan) →
    LayerRequested info.factor.toNat info.layerNo.toNat roi → LayerThere subs plane scenes info.factor.toNat info.layerNo.toNat roi →
    ∃ out, getLayerTyped sort c mem al s doc pt plane ⟨background, true, scenes⟩ info roi = .ok ⟨pt, out⟩ ∧
      CorrectLayer c subs pic pt plane background scenes info.factor.toNat info.layerNo.toNat roi out

/-- `text` names layer `n` of a pyramid with the minification `factor`. -/
def LayerText (text : List Char) (factor n : Int) : Prop :=
  ∃ t c r, text = t ++ c :: r ∧ c ∈ [';', ',', '|'] ∧ PaddedInt32 t factor ∧ PaddedInt32 r n

end Verif.Spec
