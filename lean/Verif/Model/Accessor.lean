import Verif.Model.Blit
import Verif.Model.SubBlock

/-!
# The tile accessor and the pyramid-layer tile accessor

Models `SingleChannelTileAccessor.cpp` and `SingleChannelPyramidLevelTileAccessor.cpp` on top of the sub-block
enumeration (`Verif.Model.SubBlock`) and the composition of bitmaps (`Verif.Model.Blit`).

Simplifications: the destination bitmap is given as it is after `Clear`; the picture decoded from sub-block number `i` is
the parameter `pix i` (how it is read, with and without cache, is in `Verif.Model.CachedTiles`); `std::sort` is an arbitrary
function fulfilling `SortsBy` (it need not be stable); coordinates are unbounded integers (as in `Verif.Model.Rect`), but
the multiplications that depend on the requested layer are checked for overflow; tile borders are not drawn.
-/

namespace Verif.Accessor
open Blit

/-- A sub-block of the repository with its index. -/
abbrev Item := Int × Entry

/-- The picture of a sub-block: bitmap and (in mask-aware mode) mask. -/
abbrev Pictures := Int → Bitmap × Option Mask

/-- What the standard guarantees about `std::sort` with the comparison `key a < key b`. -/
def SortsBy (key : Item → Int) (sort : List Item → List Item) : Prop :=
  ∀ l, (sort l).Perm l ∧ (sort l).Pairwise (fun a b => key a ≤ key b)

/-- The sort key of the comparison functions in SingleChannelTileAccessor.cpp:152-158 and
SingleChannelPyramidLevelTileAccessor.cpp:228-234 (`Utils::IsValidMindex`, libCZI_Utilities.h:347-350). -/
def mKey (p : Item) : Int := if p.2.mIndex ≠ intMax ∧ p.2.mIndex ≠ intMin then p.2.mIndex else intMin

/-- `CSingleChannelTileAccessor::GetAllSubBlocks`, SingleChannelTileAccessor.cpp:164-176. -/
def layer0SubBlocks (items : List Item) (plane : Coord) (roi : IntRect) : List Item :=
  enumSubset items (some plane) none true
    (fun st i e => if roi.doIntersect e.rect then (true, st ++ [(i, e)]) else (true, st)) []

/-- `CSingleChannelTileAccessor::InternalGet` and `GetSubBlocksSubset`, SingleChannelTileAccessor.cpp:125-162. The outer
result is the exception of the plane check, the inner `none` an access outside the bitmaps. -/
def tileAccessorGet (sort : List Item → List Item) (k : Kind) (items : List Item) (bounds : Bounds) (plane : Coord)
    (sortByM useVisibilityCheck : Bool) (pix : Pictures) (xPos yPos : Int) (dst : Bitmap) :
    Except PlaneError (Option Bitmap) :=
  match checkPlane bounds plane with
  | some e => .error e
  | none =>
    let found := layer0SubBlocks items plane ⟨xPos, yPos, dst.w, dst.h⟩
    let ordered := if sortByM then sort found else found
    .ok (accessorComposeTiles k useVisibilityCheck xPos yPos
      (ordered.map fun p => (p.2.rect, (pix p.1).1, (pix p.1).2)) dst)

/-! ## Pyramid layers -/

/-- `PyramidLayerInfo`, libCZI_Compositor.h:417-421 (two `uint8_t`). -/
structure LayerRequest where
  factor : UInt8
  layerNo : UInt8

/-- The loop of `CalcSizeOfPixelOnLayer0`, SingleChannelPyramidLevelTileAccessor.cpp:153-156, `n` more rounds; `none` =
signed overflow. -/
def sizeOfPixelLoop (factor : Nat) : Nat → Nat → Option Nat
  | 0, f => some f
  | n + 1, f => if f * factor > 2147483647 then none else sizeOfPixelLoop factor n (f * factor)

/-- `CalcSizeOfPixelOnLayer0`, SingleChannelPyramidLevelTileAccessor.cpp:150-159. -/
def sizeOfPixel (info : LayerRequest) : Option Nat := sizeOfPixelLoop info.factor.toNat info.layerNo.toNat 1

/-- `static_cast<int>(round(static_cast<double>(a) / b))` for `int a`, `uint32_t b ≠ 0`: the nearest integer, halves away
from zero. The quotient is exact here, while the code rounds it to a `double` first. That gives the same integer: the
quotient differs from a half-integer by at least `1/(2b)` or not at all, and the rounding error of the division is at most
`2^31/b * 2^-53`. -/
def roundQuotient (a : Int) (b : Nat) : Int :=
  if 0 ≤ a then (2 * a + b) / (2 * b) else -((2 * (-a) + b) / (2 * b))

/-- The loop of `CalcPyramidLayerNo`, SingleChannelPyramidLevelTileAccessor.cpp:189-198. `rounds` counts down from 2^31: after
that many rounds `layer++` overflows; `none` = undefined behaviour (overflow of `f` or `layer`). -/
def layerLoop (factor : Nat) (minFactor : Int) : Nat → Nat → Nat → Option Nat
  | 0, _, _ => none
  | rounds + 1, f, layer =>
    if (f : Int) ≥ minFactor then some layer
    else if f * factor > 2147483647 then none
    else layerLoop factor minFactor rounds (f * factor) (layer + 1)

/-- `physicalSize`, an `IntSize` of `uint32_t` converted from the `int` in the directory entry, CziReaderCommon.cpp:119. -/
def toUInt32 (v : Int) : Nat := (v % 4294967296).toNat

/-- The minification factor of a sub-block, SingleChannelPyramidLevelTileAccessor.cpp:176-186; `none` = division by zero, the
result of which cannot be converted to `int`. -/
def minFactorOf (e : Entry) : Option Int :=
  if toUInt32 e.storedWidth > toUInt32 e.storedHeight then
    some (roundQuotient e.width (toUInt32 e.storedWidth))
  else if toUInt32 e.storedHeight = 0 then none
  else some (roundQuotient e.height (toUInt32 e.storedHeight))

/-- `CalcPyramidLayerNo`, SingleChannelPyramidLevelTileAccessor.cpp:174-210. -/
def pyramidLayerNo (e : Entry) (factor : Nat) : Option Nat :=
  (minFactorOf e).bind fun m => layerLoop factor m 2147483648 1 0

/-- The scene filter leaves the sub-block out, SingleChannelPyramidLevelTileAccessor.cpp:250-260. The filter is the membership
test of the index set, if there is one. -/
def sceneRejects (scene : Option (Int → Bool)) (e : Entry) : Bool :=
  match scene, e.coordinate .S with
  | some contained, some s => !contained s
  | _, _ => false

/-- `GetAllSubBlocks`, SingleChannelPyramidLevelTileAccessor.cpp:245-275. -/
def planeSubBlocks (items : List Item) (plane : Coord) (scene : Option (Int → Bool)) (roi : IntRect) : List Item :=
  enumSubset items (some plane) none false
    (fun st i e =>
      if sceneRejects scene e then (true, st)
      else if roi.doIntersect e.rect then (true, st ++ [(i, e)]) else (true, st)) []

/-- How a call of the pyramid-layer accessor can end. -/
inductive PyrResult where
  | picture (bm : Bitmap)
  /-- `LibCZIInvalidPlaneCoordinateException` -/
  | badPlane (e : PlaneError)
  /-- `std::runtime_error`, line 52 -/
  | emptyBitmap
  /-- `std::out_of_range` of `byLayer.at`, line 89 -/
  | outOfRange
  | undefined

/-- `CalcByLayer` followed by the lookup of one layer, SingleChannelPyramidLevelTileAccessor.cpp:161-172 and 87-89: the
sub-blocks of layer `no` in order. Outer `none` = undefined behaviour, inner `none` = `out_of_range`. -/
def layerOf (factor no : Nat) (l : List Item) : Option (Option (List Item)) :=
  match l.mapM (fun p => (pyramidLayerNo p.2 factor).map (fun n => (n, p))) with
  | none => none
  | some numbered =>
    match (numbered.filter (fun q => q.1 = no)).map (·.2) with
    | [] => some none
    | found => some (some found)

/-- `CSingleChannelPyramidLevelTileAccessor::InternalGet` with `ComposeTiles`, SingleChannelPyramidLevelTileAccessor.cpp:76-130.
`w * sizeOfPixel` and `h * sizeOfPixel` must be `int`s, and `sizeOfPixel` must not be zero once a tile is placed. -/
def pyramidInternalGet (sort : List Item → List Item) (k : Kind) (items : List Item) (bounds : Bounds) (plane : Coord)
    (scene : Option (Int → Bool)) (sortByM : Bool) (info : LayerRequest) (pix : Pictures) (xPos yPos : Int) (sizeOfPixel : Nat)
    (dst : Bitmap) : PyrResult :=
  match checkPlane bounds plane with
  | some e => .badPlane e
  | none =>
    if dst.w * sizeOfPixel > 2147483647 ∨ dst.h * sizeOfPixel > 2147483647 then .undefined
    else
      let found := planeSubBlocks items plane scene
        ⟨xPos, yPos, (dst.w * sizeOfPixel : Nat), (dst.h * sizeOfPixel : Nat)⟩
      let subSet := if sortByM then sort found else found
      if subSet.isEmpty then .picture dst
      else
        match layerOf info.factor.toNat info.layerNo.toNat subSet with
        | none => .undefined
        | some none => .outOfRange
        | some (some tiles) =>
          if sizeOfPixel = 0 then .undefined
          else
            match composeTiles k 0 0 (tiles.map fun p =>
              (⟨(p.2.x - xPos).tdiv sizeOfPixel, (p.2.y - yPos).tdiv sizeOfPixel, (pix p.1).1, (pix p.1).2⟩ : Tile)) dst with
            | none => .undefined
            | some out => .picture out

/-- `Get` with a pixel type and a ROI, SingleChannelPyramidLevelTileAccessor.cpp:38-59. `create w h` is the new bitmap, after
`Clear`. -/
def pyramidGet (sort : List Item → List Item) (k : Kind) (items : List Item) (bounds : Bounds) (plane : Coord)
    (scene : Option (Int → Bool)) (sortByM : Bool) (info : LayerRequest) (pix : Pictures) (create : Nat → Nat → Bitmap)
    (roi : IntRect) : PyrResult :=
  match sizeOfPixel info with
  | none => .undefined
  | some f =>
    if f = 0 then .undefined
    else
      let w := toUInt32 (roi.w.tdiv f)
      let h := toUInt32 (roi.h.tdiv f)
      if w = 0 ∨ h = 0 then .emptyBitmap
      else pyramidInternalGet sort k items bounds plane scene sortByM info pix roi.x roi.y f (create w h)

end Verif.Accessor
