import Verif.Model.CApiCompose
import Verif.Spec.DisplayHelper
import Verif.Spec.MultiChannel

/-!
# Composition through the C interface
-/

namespace Verif.Spec
open Verif.Multi Verif.CComp Verif.Xml

/-- A table for 16-bit pixels is asked for exactly if the channel has 16-bit pixels. -/
def RightSize (ptOf : Int → PixelType) (sixteen : Int → Bool) (ch : Int) : Prop :=
  sixteen ch = true ↔ ptOf ch = .Gray16 ∨ ptOf ch = .Bgr48

/-- What the caller of the C interface gets from the result of a composition. -/
def answer : Result → Answer
  | .ok out => .ok out
  | .throws _ => .unspecifiedError
  | .undefined => .undefined

/-- The call of the composition for bitmaps and channel infos. -/
def composed (create : Nat → Nat → Blit.Bitmap) (l : List (Source × Interop)) : Answer :=
  compose create l.length (some (l.map fun p => .bitmap p.1)) (some (l.map (·.2)))

/-- `infos` are the structures that the function for filling them out gives for the channels `chs`, one by one. -/
def Filled (pow : ℚ → ℚ → ℚ) (rd : ℚ → ℚ) (solve : Lut.Solver) (s : Settings ℚ) (sixteen : Int → Bool) (chs : List Int) (infos : List Interop) : Prop :=
  infos.length = chs.length ∧ ∀ (k : Nat) (ch : Int), chs[k]? = some ch → ∃ i, infos[k]? = some i ∧ fillOut pow rd solve s ch (sixteen ch) = .ok i

end Verif.Spec
