import Verif.Model.ScalingAccessor
import Verif.Model.Text
import Verif.Model.Chunk

/-!
# The plane scan of the command line tool

Models `CZICmd/executePlaneScan.cpp`: a region of a plane is divided into tiles, and the picture of each is written into a file of its own. The arithmetic is that of
the code, with 32-bit integers.

Simplifications: the sub-block cache is left out (that it does not change pictures is proved with `Verif.Model.CachedTiles`); writing a PNG file succeeds; the bitmap
created for a tile is a parameter (after `Clear`).
-/

namespace Verif.PlaneScan
open Blit Accessor Czi

/-- The result of an operation on `int`; `none` = signed overflow. -/
def chk (v : Int) : Option Int := if intMin ≤ v ∧ v ≤ intMax then some v else none

/-- `static_cast<int>` of a `uint32_t`, executePlaneScan.cpp:40-49. -/
def asInt32 (n : Nat) : Int := if n < 2147483648 then n else (n : Int) - 4294967296

/-- The number of tiles in one direction, `(len + t - 1) / t`, executePlaneScan.cpp:40 and 42; `none` = overflow or division by zero. -/
def tileCount (len t : Int) : Option Int :=
  (chk (len + t)).bind fun a => (chk (a - 1)).bind fun b => if t = 0 then none else chk (b.tdiv t)

/-- One tile, executePlaneScan.cpp:44-50. -/
def tileRect (roi : IntRect) (tw th : Int) (x y : Nat) : Option IntRect :=
  (chk (x * tw)).bind fun dx => (chk (y * th)).bind fun dy =>
    (chk (roi.x + dx)).bind fun px => (chk (roi.y + dy)).bind fun py =>
      (chk (roi.w - dx)).bind fun w => (chk (roi.h - dy)).bind fun h => some ⟨px, py, min tw w, min th h⟩

/-- The tiles of row `y`, executePlaneScan.cpp:42-53. -/
def scanRow (roi : IntRect) (tw th : Int) (y : Nat) : Option (List IntRect) :=
  (tileCount roi.w tw).bind fun nx => (List.range nx.toNat).mapM fun x => tileRect roi tw th x y

/-- All tiles in the order in which they are written, executePlaneScan.cpp:40-54, for a tile size given as two `uint32_t`. -/
def scanRects (roi : IntRect) (tileW tileH : Nat) : Option (List IntRect) :=
  (tileCount roi.h (asInt32 tileH)).bind fun ny =>
    ((List.range ny.toNat).mapM fun y => scanRow roi (asInt32 tileW) (asInt32 tileH) y).map List.flatten

/-- `GetFileName`, executePlaneScan.cpp:83-89, with `MakeOutputFilename`, cmdlineoptions.cpp:1171-1188; `base` is output path and name. -/
def fileName (base : List Char) (r : IntRect) : List Char :=
  base ++ ("_X".toList ++ (Text.printInt r.x ++ ("_Y".toList ++ (Text.printInt r.y ++ ("_W".toList ++ (Text.printInt r.w ++ ("_H".toList ++
    (Text.printInt r.h ++ ".PNG".toList))))))))

/-- How the command ends. -/
inductive Ended where
  | done
  | threw
  | undefined
  deriving DecidableEq

/-- The calls of `WriteRoi`, executePlaneScan.cpp:58-81: the files written, and how it ends. -/
def writeAll (get : IntRect → Outcome Bitmap) (base : List Char) : List IntRect → List (List Char × Bitmap) × Ended
  | [] => ([], .done)
  | r :: rs =>
    match get r with
    | .throws => ([], .threw)
    | .undefined => ([], .undefined)
    | .ok b => ((fileName base r, b) :: (writeAll get base rs).1, (writeAll get base rs).2)

/-- `CExecutePlaneScan::execute`, executePlaneScan.cpp:21-57. Undefined behaviour of the loop counts as undefined from the beginning. -/
def planeScan (get : IntRect → Outcome Bitmap) (base : List Char) (roi : IntRect) (tileW tileH : Nat) : List (List Char × Bitmap) × Ended :=
  match scanRects roi tileW tileH with
  | none => ([], .undefined)
  | some rs => writeAll get base rs

/-- `CSingleChannelScalingTileAccessor::Get` with a new bitmap, SingleChannelScalingTileAccessor.cpp:43-56; `create w h` is the new bitmap, after `Clear`. -/
def scalingGetNew (sort : List Item → List Item) (k : Kind) (items : List Item) (stats : Stats) (plane : Coord) (zoom : ℚ)
    (filter : Option (Int → Bool)) (sortByM vis : Bool) (pix : Pictures) (create : Nat → Nat → Bitmap) (roi : IntRect) : Outcome Bitmap :=
  match calcSize roi zoom with
  | none => .undefined
  | some s =>
    match scalingGet sort k items stats plane zoom filter sortByM vis pix roi (create s.1 s.2) with
    | .error _ => .throws
    | .ok none => .undefined
    | .ok (some b) => .ok b

end Verif.PlaneScan
