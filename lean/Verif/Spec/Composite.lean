import Verif.Spec.Commands
import Verif.Spec.DisplayHelper
import Verif.Spec.MultiChannel

/-! # What the composition of the channels of a document is supposed to show -/

namespace Verif.Spec
open Verif.Czi Verif.Viewer

/-- The plane in channel `ch`; if no sub-block has a channel, the plane as it is. -/
def planeOfChannel (subs : List AddInfo) (plane : Coord) (ch : Int) : Coord :=
  if ∀ a ∈ subs, a.coordinate .C = none then plane else plane.set .C ch

/-- The sub-blocks of the plane have pictures: the plane fits the sub-blocks, there are sub-blocks of its channel, all with the pixel type `pt`, and the data of those of the plane
that are stored without minification are the pictures `pic`. -/
structure Showable (c : Codecs) (subs : List AddInfo) (pic : AddInfo → Nat → Nat → Nat → UInt8) (pt : PixelType) (plane : Coord) : Prop where
  fits : PlaneFits plane subs
  occurs : ∃ a ∈ subs, InChannel plane a
  types : ∀ a ∈ subs, InChannel plane a → a.pixelType = pt
  data : ∀ a ∈ subs, InPlane plane a → Full a → DataShows c a a.logicalWidth.toNat a.logicalHeight.toNat (pic a)

/-- The same for pictures with a zoom, to which the minified sub-blocks contribute, too. -/
structure ShowableScaled (c : Codecs) (subs : List AddInfo) (pic : AddInfo → Nat → Nat → Nat → UInt8) (pt : PixelType) (plane : Coord) : Prop where
  fits : PlaneFits plane subs
  occurs : ∃ a ∈ subs, InChannel plane a
  types : ∀ a ∈ subs, InChannel plane a → a.pixelType = pt
  data : ∀ a ∈ subs, InPlane plane a → DataShows c a a.physicalWidth.toNat a.physicalHeight.toNat (pic a)

/-- The pixel types of sub-blocks that can be shown and composed. -/
def ComposedType (pt : PixelType) : Prop := pt = .Gray8 ∨ pt = .Gray16 ∨ pt = .Bgr24 ∨ pt = .Bgr48

/-- The display settings of a channel whose pictures have the pixel type `pt` are usable: there are pictures and channel infos of this kind, and the points are between 0 and 1. -/
structure UsableView (pow : ℚ → ℚ → ℚ) (rd : ℚ → ℚ) (solve : Lut.Solver) (pt : PixelType) (v : Xml.ChannelView ℚ) : Prop where
  type : ComposedType pt
  info : ∃ i, Describes pow rd solve pt v i
  black : 0 ≤ v.black ∧ v.black ≤ 1
  white : 0 ≤ v.white ∧ v.white ≤ 1

/-- `R` is the relation between the value a channel contributes and what is added: the value itself if the weights are the same or one of them is negative; the value times the weight
relative to the mean weight if the weights are not negative, their sum is not tiny and one differs noticeably from their mean. -/
inductive WeightedBy (l : List (Int × Xml.ChannelView ℚ)) : (Multi.Channel → UInt8 → Int → Prop) → Prop where
  | negative (h : ∃ e ∈ l, e.2.weight < 0) : WeightedBy l (fun _ v a => a = v.toNat)
  | equal (w : ℚ) (pos : 0 < w) (same : ∀ e ∈ l, e.2.weight = w) (few : l.length ≤ 4096) : WeightedBy l (fun _ v a => a = v.toNat)
  | different (total : ℚ) (sum : total = (l.map fun e => e.2.weight).sum) (nonneg : ∀ e ∈ l, 0 ≤ e.2.weight) (few : l.length ≤ 2 ^ 20) (large : 1 / 2 ^ 22 ≤ total)
      (deviates : ∃ e ∈ l, 1 / 2 ^ 22 + total / l.length * ((2 * l.length + 2) / 2 ^ 24) < |e.2.weight - total / l.length|) :
      WeightedBy l (fun i v a => Weighted l.length total (i.weight.getD 0) v a)

/-- `out` is the composition of the pictures `shown` of the enabled channels, with the settings of each. -/
def ComposedOf (pow : ℚ → ℚ → ℚ) (rd : ℚ → ℚ) (solve : Lut.Solver) (st : Xml.Settings ℚ) (ptOf : Int → PixelType) (alpha : Option UInt8) (R : Multi.Channel → UInt8 → Int → Prop)
    (shown : Int → Blit.Bitmap) (w h : Nat) (out : Blit.Bitmap) : Prop :=
  ∃ (infos : List Multi.Channel) (blank : Blit.Bitmap), DescribesAll pow rd solve ptOf (enabled st) infos ∧ blank.w = w ∧ blank.h = h ∧
    IsComposition alpha R (((enabled st).map fun e => (⟨ptOf e.1, shown e.1⟩ : Multi.Source)).zip infos) blank out

end Verif.Spec
