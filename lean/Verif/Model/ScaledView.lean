import Verif.Model.ScalingAccessor
import Verif.Model.Viewer

/-!
# From the file to the scaled picture (SingleChannelScalingTileAccessor.cpp on a document opened by the reader)

Simplifications: those of `Verif.Model.Viewer` and `Verif.Model.ScalingAccessor`, except that the pictures are the ones decoded from the file and the
background is painted.
-/

namespace Verif.Viewer
open Verif.Czi Verif.Blit Verif.Jxr Verif.Fill Verif.Zstd Verif.Accessor Verif.Scale Verif.Flt Verif.Bitonal

/-- The options looked at, libCZI_Compositor.h:499-548. -/
structure ScaledOptions where
  view : ViewOptions
  scenes : Option (Int → Bool)

/-- `ScaleBlt`, SingleChannelScalingTileAccessor.cpp:85-171. -/
def drawScaled (c : Codecs) (mem : Memory) (al : Alloc) (s : Stream) (doc : Doc) (pt : PixelType) (zoom : ℚ) (roi : IntRect) (p : Item) (dst : Bitmap) : Result Bitmap :=
  match fetch c mem al s doc p.1.toNat with
  | .throws => .throws
  | .aborts => .aborts
  | .undefined => .undefined
  | .ok (_, t) =>
    if zoom = 1 then ofOutcome (copyAt (fun q => c.enc (.num q)) t.pt pt t.bm dst none (p.2.x - roi.x) (p.2.y - roi.y))
    else
      match scaleKind (fun q => c.enc (.num q)) t.pt pt with
      | none => .throws
      | some k => ofOutcome (orUndefined (scaleLoops (convOf k) none t.bm dst (bltX p.2 roi t.bm dst) (bltY p.2 roi t.bm dst)))

/-- The loops of `Paint`, SingleChannelScalingTileAccessor.cpp:373-386 and 402-412. -/
def drawAll (c : Codecs) (mem : Memory) (al : Alloc) (s : Stream) (doc : Doc) (pt : PixelType) (zoom : ℚ) (roi : IntRect) : List Item → Bitmap → Result Bitmap
  | [], dst => .ok dst
  | p :: r, dst =>
    match drawScaled c mem al s doc pt zoom roi p dst with
    | .throws => .throws
    | .aborts => .aborts
    | .undefined => .undefined
    | .ok d => drawAll c mem al s doc pt zoom roi r d

/-- The sub-blocks `Paint` draws, in order, SingleChannelScalingTileAccessor.cpp:335-400; `none` = undefined behaviour. -/
def toPaint (zoom : ℚ) (roi : IntRect) (useVisibilityCheck : Bool) (sorted : List Item) : Option (List Item) :=
  let range := zoomRange zoom sorted
  if useVisibilityCheck ∧ range ≠ [] then
    (Coverage.checkForVisibility roi range.length (fun i => ((range[i]?).map (·.2.rect)).getD ⟨0, 0, -1, -1⟩)).map fun vis => vis.filterMap fun i => range[i]?
  else some range

/-- The sorted subsets of the sub-blocks that are painted one after the other, SingleChannelScalingTileAccessor.cpp:318-328 with 425-487: one, or one for each scene. -/
def scenesSorted (sort : List Item → List Item) (items : List Item) (stats : Stats) (plane : Coord) (filter : Option (Int → Bool)) (sortByM : Bool) (roi : IntRect) :
    List (List Item) :=
  let involved := involvedScenes stats.scenes filter roi
  if involved.length ≤ 1 then [createSortByZoom sort sortByM (subSet items plane roi (some involved))]
  else involved.map fun s => createSortByZoom sort sortByM (subSet items (plane.set .S s) roi none)

/-- Painting the subsets, SingleChannelScalingTileAccessor.cpp:323 and 328-331. -/
def paintSubsets (c : Codecs) (mem : Memory) (al : Alloc) (s : Stream) (doc : Doc) (pt : PixelType) (zoom : ℚ) (vis : Bool) (roi : IntRect) : List (List Item) → Bitmap → Result Bitmap
  | [], dst => .ok dst
  | sorted :: r, dst =>
    match toPaint zoom roi vis sorted with
    | none => .undefined
    | some L =>
      match drawAll c mem al s doc pt zoom roi L dst with
      | .throws => .throws
      | .aborts => .aborts
      | .undefined => .undefined
      | .ok d => paintSubsets c mem al s doc pt zoom vis roi r d

/-- `CSingleChannelScalingTileAccessor::InternalGet`, SingleChannelScalingTileAccessor.cpp:288-333. -/
def scaledInternalGet (sort : List Item → List Item) (c : Codecs) (mem : Memory) (al : Alloc) (s : Stream) (doc : Doc) (pt : PixelType) (plane : Coord)
    (o : ScaledOptions) (zoom : ℚ) (roi : IntRect) (dst : Bitmap) : Result Bitmap :=
  match checkPlane (docStats doc).dimBounds plane with
  | some _ => .throws
  | none =>
    match clear c.enc pt dst o.view.background with
    | .throws => .throws
    | .undefined => .undefined
    | .ok bg =>
      paintSubsets c mem al s doc pt zoom o.view.useVisibilityCheck roi
        (scenesSorted sort (indexed doc.entries) (docStats doc) plane o.scenes o.view.sortByM roi) bg

/-- `Get` with a pixel type, SingleChannelScalingTileAccessor.cpp:43-56. -/
def getScaledTyped (sort : List Item → List Item) (c : Codecs) (mem : Memory) (al : Alloc) (s : Stream) (doc : Doc) (pt : PixelType) (plane : Coord)
    (o : ScaledOptions) (zoom : ℚ) (roi : IntRect) : Result Typed :=
  match calcSize roi zoom with
  | none => .undefined
  | some (w, h) =>
    match bytesPerPel pt with
    | none => .throws
    | some bpp =>
      match scaledInternalGet sort c mem al s doc pt plane o zoom roi (newBitmap mem.dest w h (defaultPitch bpp w)) with
      | .ok b => .ok ⟨pt, b⟩
      | .throws => .throws
      | .aborts => .aborts
      | .undefined => .undefined

/-- `Get`, SingleChannelScalingTileAccessor.cpp:25-41. -/
def getScaled (sort : List Item → List Item) (c : Codecs) (mem : Memory) (al : Alloc) (s : Stream) (doc : Doc) (plane : Coord)
    (o : ScaledOptions) (zoom : ℚ) (roi : IntRect) : Result Typed :=
  if pixelTypeOf doc plane = .Invalid then .throws
  else getScaledTyped sort c mem al s doc (pixelTypeOf doc plane) plane o zoom roi

end Verif.Viewer
