import Verif.Props.Lookup

/-!
# C81: what `TransformPoint` answers, before and after `Close`
-/

namespace Verif
open Spec Czi

/-- **C81 violated after `Close` (what `TransformPoint` answers).** A reader that was closed still converts points: the raw sub-block coordinates are the pixel coordinates moved by the upper
left corner `(ox, oy)` of the bounding box, and conversely. -/
theorem C81_closed_transform_violated (r r' : Reader) (_h : r.close = .ok r') (dflt : Frame) (ox oy px py : Int) :
    r'.transform dflt ox oy .Pixel px py .Raw = .ok (.Raw, px + ox, py + oy) ∧ r'.transform dflt ox oy .Raw px py .Pixel = .ok (.Pixel, px - ox, py - oy) :=
  ⟨rfl, rfl⟩

example (doc : Doc) : (⟨true, doc⟩ : Reader).close = .ok ⟨false, doc⟩ ∧ (⟨false, doc⟩ : Reader).transform .Raw 10 20 .Pixel 1 2 .Raw = .ok (.Raw, 11, 22) :=
  ⟨rfl, (C81_closed_transform_violated ⟨true, doc⟩ ⟨false, doc⟩ rfl .Raw 10 20 1 2).1⟩

end Verif
