import Verif.Model.Display
import Verif.Spec.NumText
import Verif.Spec.DocInfo

/-!
# What display settings read from a document have to do with the ones that were written
-/

namespace Verif.Spec
open Xml

/-- What `CreateDisplaySettings` makes of a structure (and what reading makes of a document) is consistent: there is a gamma value if and only if the curve is a gamma curve, and control
points if and only if it is a spline. -/
def ConsistentView {α : Type} (v : ChannelView α) : Prop := (v.gamma.isSome ↔ v.mode = .gamma) ∧ (v.points.isSome ↔ v.mode = .spline)

/-- The number was read for `x`: it is finite, and the relative error is at most 6 millionths. -/
def NearNumber (x : ℚ) (r : Num) : Prop := ∃ y, r = .fin y ∧ |y - x| ≤ |x| * (6 / 10 ^ 6)

/-- The settings `r` were read for the settings `v` of a channel. -/
structure ReadBack (v : ChannelView ℚ) (r : ChannelView Num) : Prop where
  enabled : r.isEnabled = v.isEnabled
  tint : r.tint = v.tint
  black : NearNumber v.black r.black
  white : NearNumber v.white r.white
  consistent : ConsistentView r
  linear : v.mode = .linear → r.mode = .linear
  gamma : ∀ g, v.gamma = some g → ∃ y, r.gamma = some y ∧ NearNumber g y
  spline : ∀ ps, v.points = some ps → ps ≠ [] → r.points = some (ps.map (fun p => (.fin p.1, .fin p.2)))

/-- The settings of a channel nothing was written for: enabled, shown in white, linear from 0 to 1. -/
def defaultChannel : ChannelView Num := ⟨true, .fin 1, some ⟨255, 255, 255⟩, .fin 0, .fin 1, .linear, none, none⟩

/-- All control points have coordinates of type `double`. -/
def DoublePoints (v : ChannelView ℚ) : Prop := ∀ ps, v.points = some ps → ∀ p ∈ ps, IsDouble p.1 ∧ IsDouble p.2

/-- Settings with rational numbers as settings with numbers. -/
def asNumbers (v : ChannelView ℚ) : ChannelView Num :=
  ⟨v.isEnabled, .fin v.weight, v.tint, .fin v.black, .fin v.white, v.mode, v.gamma.map .fin, v.points.map (·.map (fun p => (.fin p.1, .fin p.2)))⟩

/-- The path of the display settings of the channels. -/
def displayPath : List Selector := [.first "Metadata".toList, .first "DisplaySetting".toList, .first "Channels".toList]

/-- The path of the descriptions of the channels. -/
def channelsPath : List Selector :=
  [.first "Metadata".toList, .first "Information".toList, .first "Image".toList, .first "Dimensions".toList, .first "Channels".toList]

/-- An element with the name `Channel`. -/
def isChannelNode : Node → Bool
  | .element n _ _ => n = "Channel".toList
  | .text _ _ => false

end Verif.Spec
