import Verif.Model.Rect
import Mathlib.Data.Int.Interval
import Mathlib.Data.Finset.Prod

/-! # What coverage and visibility are supposed to mean (pixel by pixel) -/

namespace Verif

/-- The pixel `(px,py)` lies in the half-open rectangle. -/
def IntRect.Has (r : IntRect) (px py : Int) : Prop :=
  r.x ≤ px ∧ px < r.x + r.w ∧ r.y ≤ py ∧ py < r.y + r.h

instance (r : IntRect) (px py : Int) : Decidable (r.Has px py) := by
  unfold IntRect.Has; infer_instance

namespace Spec

/-- The set of pixels of a rectangle. -/
def pixels (r : IntRect) : Finset (Int × Int) :=
  Finset.Ico r.x (r.x + r.w) ×ˢ Finset.Ico r.y (r.y + r.h)

/-- The pixels of `q` that lie in at least one of `rs`. -/
def coveredPixels (rs : List IntRect) (q : IntRect) : Finset (Int × Int) :=
  (pixels q).filter (fun p => ∃ r ∈ rs, r.Has p.1 p.2)

end Spec
end Verif
