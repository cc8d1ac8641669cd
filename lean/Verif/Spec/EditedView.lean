import Verif.Spec.ReaderWriter
import Verif.Spec.Viewer

/-! # What pictures of an edited document are supposed to show -/

namespace Verif.Spec
open Verif.Czi Verif.Blit Verif.Jxr Verif.Viewer Verif.Accessor Verif.Zstd

/-- The sub-blocks of the contents are those in the list. -/
structure ConsistsOf (c : Content) (subs : List AddInfo) : Prop where
  only : ∀ k v, c.subs k = some v → ∃ a ∈ subs, v = viewAdded a
  all : ∀ a ∈ subs, ∃ k, c.subs k = some (viewAdded a)

/-- Whatever picture of a plane of the document is composed, it shows the sub-blocks `subs`. -/
def PicturesShow (al : Alloc) (s : Stream) (doc : Doc) (subs : List AddInfo) : Prop :=
  ∀ (c : Codecs) (mem : Memory) (sort : List Item → List Item) (pt : PixelType) (plane : Coord) (vo : ViewOptions) (pic : AddInfo → Nat → Nat → Nat → UInt8)
    (xPos yPos : Int) (w h : Nat), Lossless c.zstd → SortsBy mKey sort → ViewableType pt →
    (∀ a ∈ subs, SubPlausible a) → PlaneFits plane subs →
    (∀ a ∈ subs, InPlane plane a → Full a → a.pixelType = pt ∧ DataShows c a a.logicalWidth.toNat a.logicalHeight.toNat (pic a)) →
    (Coloured vo.background → vo.background.sum ≠ .nan) → (vo.sortByM = false → vo.useVisibilityCheck = false) →
    ∃ out, getTyped sort c mem al s doc pt plane vo xPos yPos w h = .ok ⟨pt, out⟩ ∧ CorrectPicture c subs pic pt plane vo xPos yPos w h out

/-- The upper-left corner of the smallest rectangle around the sub-blocks stored without minification. -/
structure IsOrigin (subs : List AddInfo) (ox oy : Int) : Prop where
  left : (∃ a ∈ subs, Full a ∧ a.x = ox) ∧ ∀ a ∈ subs, Full a → ox ≤ a.x
  top : (∃ a ∈ subs, Full a ∧ a.y = oy) ∧ ∀ a ∈ subs, Full a → oy ≤ a.y

/-- Where the point `(0, 0)` of a coordinate system lies among the sub-blocks, `dflt` being the default of the reader. -/
def ZeroAt (subs : List AddInfo) (dflt : Frame) : Frame → Int → Int → Prop
  | .Raw, zx, zy => zx = 0 ∧ zy = 0
  | .Pixel, zx, zy => IsOrigin subs zx zy
  | .Default, zx, zy => match dflt with
    | .Raw => zx = 0 ∧ zy = 0
    | .Pixel => IsOrigin subs zx zy
    | _ => False
  | .Invalid, _, _ => False

end Verif.Spec
