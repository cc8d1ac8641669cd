import Verif.Model.DisplayHelper

/-!
# Channel infos for display settings
-/

namespace Verif.Spec
open Verif.Lut Verif.Czi Verif.Xml Verif.Multi Verif.Helper

/-- The number of values of a pixel type whose look-up tables are supported. -/
def LutSize (pt : PixelType) (n : Nat) : Prop := ((pt = .Gray8 ∨ pt = .Bgr24) ∧ n = 256) ∨ ((pt = .Gray16 ∨ pt = .Bgr48) ∧ n = 65536)

/-- The memory block holds exactly the values of the table. -/
def Holds (b : Buf) (t : List Nat) : Prop := b.size = t.length ∧ ∀ (i v : Nat), t[i]? = some v → (b.get i).toNat = v

/-- `c` is the channel info for the settings `v` of a channel with pixel type `pt`. -/
structure Describes (pow : ℚ → ℚ → ℚ) (rd : ℚ → ℚ) (solve : Solver) (pt : PixelType) (v : ChannelView ℚ) (c : Channel) : Prop where
  weight : c.weight = some v.weight
  black : c.blackPoint = v.black
  white : c.whitePoint = v.white
  tinting : c.enableTinting = v.tint.isSome
  colour : ∀ col, v.tint = some col → c.tint 0 = col.b ∧ c.tint 1 = col.g ∧ c.tint 2 = col.r
  linear : v.mode = .linear → c.lutCount = 0 ∧ c.lut = none
  gamma : v.mode = .gamma → ∃ n g t b, LutSize pt n ∧ v.gamma = some g ∧ gammaTable pow 255 n v.black v.white g = .ok t ∧
    c.lutCount = n ∧ c.lut = some b ∧ Holds b t
  spline : v.mode = .spline → ∃ n l t b, LutSize pt n ∧ (v.points = none → l = []) ∧ (∀ ps, v.points = some ps → splineData rd solve ps = .ok l) ∧
    splineTable rd n v.black v.white l = .ok t ∧ c.lutCount = n ∧ c.lut = some b ∧ Holds b t

/-- The entries of the channels that are enabled. -/
def enabled (s : List (Int × ChannelView ℚ)) : List (Int × ChannelView ℚ) := s.filter fun e => e.2.isEnabled

/-- `infos` has exactly one channel info for each of the entries, in this order. -/
def DescribesAll (pow : ℚ → ℚ → ℚ) (rd : ℚ → ℚ) (solve : Solver) (ptOf : Int → PixelType) : List (Int × ChannelView ℚ) → List Channel → Prop
  | [], [] => True
  | e :: l, c :: cs => Describes pow rd solve (ptOf e.1) e.2 c ∧ DescribesAll pow rd solve ptOf l cs
  | _, _ => False

end Verif.Spec

namespace Verif.Spec

/-- Calling `f` for the elements of a list until it says to stop. -/
def visit {σ : Type} (f : σ → Int → Bool × σ) : List Int → σ → σ
  | [], a => a
  | x :: l, a => if (f a x).1 then visit f l (f a x).2 else (f a x).2

end Verif.Spec
