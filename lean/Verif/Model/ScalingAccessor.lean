import Verif.Model.Accessor
import Verif.Model.Scale

/-!
# The scaling tile accessor (`SingleChannelScalingTileAccessor.cpp`)

Simplifications: as in `Verif.Model.Accessor` (the destination is given as it is after `Clear`, the picture of sub-block `i` is
`pix i`, all sub-blocks have the same pixel type, coordinates do not overflow); `float` and `double` are rational numbers rounded
after each operation (`Verif.Model.Float`); a logical size of zero (whose zoom would be an infinity or NaN) is not described: the
zoom of such a sub-block is zero here.
-/

namespace Verif.Accessor
open Blit Flt Scale

/-- `SbInfo::GetZoom`, SingleChannelScalingTileAccessor.h:29, with `Utils::CalcZoom`, libCZI_Utilities.h:192-202. -/
def zoomOf (e : Entry) : ℚ :=
  if e.storedWidth > e.storedHeight then f32 (f32 e.storedWidth / f32 e.width) else f32 (f32 e.storedHeight / f32 e.height)

/-- The comparison function of `CreateSortByZoom` with `sortByM`, SingleChannelScalingTileAccessor.cpp:215-241. -/
def zoomLess (a b : Item) : Bool :=
  if zoomOf a.2 < zoomOf b.2 then true
  else if zoomOf a.2 > zoomOf b.2 ∨ a.2.isLayer0 = false ∨ b.2.isLayer0 = false then false
  else decide (mKey a < mKey b)

/-- `less` is a strict weak ordering of the elements of `l`, as `std::sort` requires. -/
structure StrictWeak (less : Item → Item → Bool) (l : List Item) : Prop where
  irrefl : ∀ a ∈ l, less a a = false
  trans : ∀ a ∈ l, ∀ b ∈ l, ∀ c ∈ l, less a b = true → less b c = true → less a c = true
  incomp : ∀ a ∈ l, ∀ b ∈ l, ∀ c ∈ l, less a b = false → less b a = false → less b c = false → less c b = false →
    less a c = false ∧ less c a = false

/-- What the standard guarantees about `std::sort`. -/
def SortsWith (less : Item → Item → Bool) (sort : List Item → List Item) : Prop :=
  ∀ l, StrictWeak less l → (sort l).Perm l ∧ (sort l).Pairwise (fun a b => less b a = false)

/-- `CreateSortByZoom`, SingleChannelScalingTileAccessor.cpp:198-254; `std::stable_sort` is merge sort. -/
def createSortByZoom (sort : List Item → List Item) (sortByM : Bool) (l : List Item) : List Item :=
  if sortByM then sort l else l.mergeSort (fun a b => decide (zoomOf a.2 ≤ zoomOf b.2))

/-- The sub-blocks painted by `Paint`, in order: lines 339-369 with `GetIdxOf1stSubBlockWithZoomGreater`, lines 173-185. -/
def zoomRange (zoom : ℚ) (l : List Item) : List Item :=
  match l.dropWhile (fun p => decide (zoomOf p.2 < f32 (zoom / f32 (105 / 100)))) with
  | [] => []
  | p :: r => p :: r.takeWhile (fun q => decide (zoomOf q.2 < f32 (zoomOf p.2 * f32 (19 / 10))))

/-- One axis of the regions computed in `ScaleBlt`, lines 131-159: the logical interval `lx, lw` of the sub-block, its stored
size `pw`, the intersection `ix, iw`, the interval `rx, rw` of the ROI; `srcN`, `dstN` sizes of the bitmaps. -/
def bltAxis (lx lw pw ix iw rx rw : Int) (srcN dstN : Nat) : Axis :=
  let srcTopLeft := f64 (((ix - lx : Int) : ℚ) / lw)
  let srcBottomRight := f64 (((ix + iw - lx : Int) : ℚ) / lw)
  let destTopLeft := f64 (((ix - rx : Int) : ℚ) / rw)
  let destBottomRight := f64 (((ix + iw - rx : Int) : ℚ) / rw)
  ⟨srcN, dstN, f64 (srcTopLeft * pw), f64 (f64 (srcBottomRight - srcTopLeft) * pw),
    f64 (destTopLeft * dstN), f64 (f64 (destBottomRight - destTopLeft) * dstN)⟩

/-- The x-axis of `ScaleBlt`. -/
def bltX (e : Entry) (roi : IntRect) (src dst : Bitmap) : Axis :=
  bltAxis e.x e.width e.storedWidth (IntRect.intersect e.rect roi).x (IntRect.intersect e.rect roi).w roi.x roi.w src.w dst.w

/-- The y-axis of `ScaleBlt`. -/
def bltY (e : Entry) (roi : IntRect) (src dst : Bitmap) : Axis :=
  bltAxis e.y e.height e.storedHeight (IntRect.intersect e.rect roi).y (IntRect.intersect e.rect roi).h roi.y roi.h src.h dst.h

/-- `ScaleBlt`, SingleChannelScalingTileAccessor.cpp:85-171. -/
def scaleBlt (k : Kind) (zoom : ℚ) (roi : IntRect) (pix : Pictures) (p : Item) (dst : Bitmap) : Option Bitmap :=
  if zoom = 1 then copyWithOffsetAndMask k (pix p.1).1 dst (pix p.1).2 (p.2.x - roi.x) (p.2.y - roi.y)
  else scaleLoops (convOf k) (pix p.1).2 (pix p.1).1 dst (bltX p.2 roi (pix p.1).1 dst) (bltY p.2 roi (pix p.1).1 dst)

/-- Painting a list of sub-blocks, lines 373-386. -/
def paintAll (k : Kind) (zoom : ℚ) (roi : IntRect) (pix : Pictures) : List Item → Bitmap → Option Bitmap
  | [], dst => some dst
  | p :: r, dst => (scaleBlt k zoom roi pix p dst).bind (paintAll k zoom roi pix r)

/-- `Paint`, SingleChannelScalingTileAccessor.cpp:335-414. -/
def paint (k : Kind) (zoom : ℚ) (roi : IntRect) (pix : Pictures) (useVisibilityCheck : Bool) (sorted : List Item) (dst : Bitmap) :
    Option Bitmap :=
  let range := zoomRange zoom sorted
  if useVisibilityCheck ∧ range ≠ [] then
    (Coverage.checkForVisibility roi range.length (fun i => ((range[i]?).map (·.2.rect)).getD ⟨0, 0, -1, -1⟩)).bind fun vis =>
    paintAll k zoom roi pix (vis.filterMap fun i => range[i]?) dst
  else paintAll k zoom roi pix range dst

/-- `DetermineInvolvedScenes`, lines 425-447. -/
def involvedScenes (scenes : List (Int × (IntRect × IntRect))) (filter : Option (Int → Bool)) (roi : IntRect) : List Int :=
  (scenes.filter (fun s => (match filter with | none => true | some contained => contained s.1) && s.2.1.intersectsWith roi)).map (·.1)

/-- `GetSubSet`, lines 256-286. -/
def subSet (items : List Item) (plane : Coord) (roi : IntRect) (allowed : Option (List Int)) : List Item :=
  enumSubset items (some plane) (some roi) false
    (fun st i e =>
      if sceneRejects (allowed.map fun l s => decide (s ∈ l)) e then (true, st) else (true, st ++ [(i, e)])) []

/-- The loop over the scenes, lines 326-332, with `GetSubSetSortedByZoomPerScene`, lines 469-487. -/
def paintScenes (sort : List Item → List Item) (k : Kind) (items : List Item) (plane : Coord) (zoom : ℚ) (sortByM vis : Bool)
    (pix : Pictures) (roi : IntRect) : List Int → Bitmap → Option Bitmap
  | [], dst => some dst
  | s :: r, dst =>
    (paint k zoom roi pix vis (createSortByZoom sort sortByM (subSet items (plane.set .S s) roi none)) dst).bind
      (paintScenes sort k items plane zoom sortByM vis pix roi r)

/-- `InternalGet`, lines 288-333. -/
def scalingGet (sort : List Item → List Item) (k : Kind) (items : List Item) (stats : Stats) (plane : Coord) (zoom : ℚ)
    (filter : Option (Int → Bool)) (sortByM vis : Bool) (pix : Pictures) (roi : IntRect) (dst : Bitmap) :
    Except PlaneError (Option Bitmap) :=
  match checkPlane stats.dimBounds plane with
  | some e => .error e
  | none =>
    let involved := involvedScenes stats.scenes filter roi
    if involved.length ≤ 1 then
      .ok (paint k zoom roi pix vis (createSortByZoom sort sortByM (subSet items plane roi (some involved))) dst)
    else .ok (paintScenes sort k items plane zoom sortByM vis pix roi involved dst)

/-- `InternalCalcSize`, lines 80-83: the size of the bitmap for a ROI and a zoom; `none` = the conversion to `uint32_t` is
undefined. -/
def calcSize (roi : IntRect) (zoom : ℚ) : Option (Nat × Nat) :=
  let w := f32 (f32 roi.w * zoom)
  let h := f32 (f32 roi.h * zoom)
  if -1 < w ∧ w < 4294967296 ∧ -1 < h ∧ h < 4294967296 then some ((truncInt w).toNat, (truncInt h).toNat) else none

/-- `Get` with a destination bitmap, lines 58-76; `.error none` = `std::invalid_argument`. -/
def scalingGetInto (sort : List Item → List Item) (k : Kind) (items : List Item) (stats : Stats) (plane : Coord) (zoom : ℚ)
    (filter : Option (Int → Bool)) (sortByM vis : Bool) (pix : Pictures) (roi : IntRect) (dst : Bitmap) :
    Except (Option PlaneError) (Option Bitmap) :=
  match calcSize roi zoom with
  | none => .ok none
  | some s =>
    if s.1 ≠ dst.w ∨ s.2 ≠ dst.h then .error none
    else match scalingGet sort k items stats plane zoom filter sortByM vis pix roi dst with
      | .error e => .error (some e)
      | .ok out => .ok out

end Verif.Accessor
