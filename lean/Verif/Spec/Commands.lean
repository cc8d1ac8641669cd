import Verif.Spec.CmdLine
import Verif.Spec.EditedView

/-! # The region meant by a text given to CZICmd -/

namespace Verif.Spec
open Verif.Czi

/-- The text stands for the region of `w × h` points that starts at `(x, y)`: the position is given as such after `abs`, and after `rel` it is counted from the upper-left corner of the
smallest rectangle around the sub-blocks stored without minification. -/
def RegionMeant (subs : List AddInfo) (text : List Char) (x y w h : Int) : Prop :=
  RegionText text true x y w h ∨ ∃ ox oy, IsOrigin subs ox oy ∧ RegionText text false (x - ox) (y - oy) w h

end Verif.Spec
