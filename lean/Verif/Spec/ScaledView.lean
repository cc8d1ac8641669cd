import Verif.Model.ScaledView
import Verif.Spec.ScalingAccessor
import Verif.Spec.Viewer

/-! # What a scaled picture of a written document is supposed to show, in terms of the sub-blocks given to the writer -/

namespace Verif.Spec
open Verif.Czi Verif.Blit Verif.Jxr Verif.Viewer Verif.Zstd Verif.Accessor

/-- The sub-block belongs to the plane and to an allowed scene, and shares a point with the region. -/
def Eligible (subs : List AddInfo) (plane : Coord) (roi : IntRect) (scenes : Option (Int → Bool)) (a : AddInfo) : Prop :=
  a ∈ subs ∧ InPlane plane a ∧ (∃ px py, roi.Has px py ∧ CoversPoint a px py) ∧ ∀ allowed, scenes = some allowed → ∀ s, a.coordinate .S = some s → allowed s = true

/-- The zoom of a sub-block: the ratio of stored to logical size along its longer stored side. -/
def subZoom (a : AddInfo) : ℚ :=
  if a.physicalWidth > a.physicalHeight then (a.physicalWidth : ℚ) / a.logicalWidth else (a.physicalHeight : ℚ) / a.logicalHeight

/-- Both sub-blocks belong to the same scene (or to none). -/
def InOneScene (a b : AddInfo) : Prop := a.coordinate .S = b.coordinate .S

/-- The sub-blocks `sel` shown for a zoom: in each scene those of the candidates that are fine enough for the zoom (with 5% tolerance), up to 1.9 times the zoom of the
coarsest of these. -/
structure ChosenFor (zoom : ℚ) (cand sel : AddInfo → Prop) : Prop where
  candidate : ∀ a, sel a → cand a
  fineEnough : ∀ a, sel a → zoom / (105 / 100) * (1 - zoomSlack) ≤ subZoom a
  notTooFine : ∀ a, sel a → ∀ b, cand b → InOneScene a b → zoom / (105 / 100) * (1 + zoomSlack) ≤ subZoom b → subZoom a ≤ 19 / 10 * subZoom b * (1 + zoomSlack)
  complete : ∀ a, cand a → zoom / (105 / 100) * (1 + zoomSlack) ≤ subZoom a →
    (∀ b, cand b → InOneScene a b → zoom / (105 / 100) * (1 - zoomSlack) ≤ subZoom b → subZoom a ≤ 19 / 10 * subZoom b * (1 - zoomSlack)) → sel a

/-- `a` is shown above `b`: its scene has the larger number; or it is of the same scene and finer; or - if sorting by m-index was requested - of the same scene, neither is
minified, and it has the larger m-index. -/
def ShownOver (sortByM : Bool) (a b : AddInfo) : Prop :=
  (∃ s t, a.coordinate .S = some s ∧ b.coordinate .S = some t ∧ t < s) ∨ (InOneScene a b ∧ subZoom b * (1 + zoomSlack) < subZoom a) ∨
  (sortByM = true ∧ InOneScene a b ∧ Full a ∧ Full b ∧ LiesAbove a b)

/-- Not empty, at most `2^19` points wide and high, not stored enlarged. -/
def UsualSub (a : AddInfo) : Prop :=
  0 < a.physicalWidth ∧ a.physicalWidth ≤ a.logicalWidth ∧ a.logicalWidth ≤ 2 ^ 19 ∧ 0 < a.physicalHeight ∧ a.physicalHeight ≤ a.logicalHeight ∧ a.logicalHeight ≤ 2 ^ 19

/-- A scaled picture `out` of `w × h` pixels of the region is correct: there is a right choice of sub-blocks, each of which shows at its position by its nearest pixel, and each
pixel is that of a chosen sub-block above which no other chosen one shows a pixel, or the background. -/
def CorrectScaled (c : Codecs) (subs : List AddInfo) (pic : AddInfo → Nat → Nat → Nat → UInt8) (pt : PixelType) (plane : Coord) (o : ScaledOptions) (zoom : ℚ) (roi : IntRect)
    (w h : Nat) (out : Bitmap) : Prop :=
  out.w = w ∧ out.h = h ∧ out.WF (pixelBytes pt) ∧
  ∃ bg : Nat → Nat → Nat → UInt8, (Coloured o.view.background → ∀ x y, x < w → y < h → ColourPixel c.enc pt o.view.background (bg x y)) ∧
  ∃ sel, ChosenFor zoom (Eligible subs plane roi o.scenes) sel ∧
  ∃ (vx vy : AddInfo → Nat → Prop) (sx sy : AddInfo → Nat → Nat),
    (∀ a, sel a → ShowsAxis a.x a.logicalWidth a.physicalWidth roi.x roi.w w (vx a) (sx a) ∧ ShowsAxis a.y a.logicalHeight a.physicalHeight roi.y roi.h h (vy a) (sy a)) ∧
    ∀ x y j, x < w → y < h → j < pixelBytes pt →
      ((∀ a, sel a → ¬ (vx a x ∧ vy a y)) ∧ out.byteAt (pixelBytes pt) x y j = bg x y j) ∨
      ∃ a, sel a ∧ vx a x ∧ vy a y ∧ out.byteAt (pixelBytes pt) x y j = pic a (sx a x) (sy a y) j ∧ ∀ b, sel b → vx b x → vy b y → ¬ ShownOver o.view.sortByM b a

/-- A usual size of the picture: reduced at most by 1024 and enlarged at most twice, the region having at most `2^19` points in each direction. -/
structure UsualSize (roi : IntRect) (w h : Nat) : Prop where
  rw : 0 < roi.w ∧ roi.w ≤ 2 ^ 19
  rh : 0 < roi.h ∧ roi.h ≤ 2 ^ 19
  w : 0 < w ∧ (w : Int) ≤ 2 * roi.w ∧ roi.w ≤ 2 ^ 10 * w
  h : 0 < h ∧ (h : Int) ≤ 2 * roi.h ∧ roi.h ≤ 2 ^ 10 * h

/-- A picture `out` of `w × h` pixels of the region with a zoom of 1 is correct: each pixel is that of a sub-block without minification that covers it, above which there is no other, or
the background. -/
def CorrectUnscaled (c : Codecs) (subs : List AddInfo) (pic : AddInfo → Nat → Nat → Nat → UInt8) (pt : PixelType) (plane : Coord) (o : ScaledOptions) (roi : IntRect)
    (w h : Nat) (out : Bitmap) : Prop :=
  out.w = w ∧ out.h = h ∧ out.WF (pixelBytes pt) ∧
  ∃ bg : Nat → Nat → Nat → UInt8, (Coloured o.view.background → ∀ x y, x < w → y < h → ColourPixel c.enc pt o.view.background (bg x y)) ∧
    ∀ x y j, x < w → y < h → j < pixelBytes pt →
      ((∀ a, Eligible subs plane roi o.scenes a → Full a → ¬ CoversPoint a (roi.x + x) (roi.y + y)) ∧ out.byteAt (pixelBytes pt) x y j = bg x y j) ∨
      ∃ a, Eligible subs plane roi o.scenes a ∧ Full a ∧ CoversPoint a (roi.x + x) (roi.y + y) ∧
        out.byteAt (pixelBytes pt) x y j = pic a (roi.x + x - a.x).toNat (roi.y + y - a.y).toNat j ∧
        ∀ b, Eligible subs plane roi o.scenes b → Full b → CoversPoint b (roi.x + x) (roi.y + y) → ¬ ShownOver o.view.sortByM b a

/-- Scaled pictures of the opened document show the sub-blocks `subs`: whatever codecs (zstd being lossless), memory, sorting function, pixel type, plane, options, zoom and region,
if the plane fits and the sub-blocks of the plane have this pixel type and pictures `pic`, the picture delivered is correct. -/
def ScaledPicturesShow (al : Alloc) (s : Stream) (doc : Doc) (subs : List AddInfo) : Prop :=
  ∀ (c : Codecs) (mem : Memory) (sort : List (Int × Entry) → List (Int × Entry)) (pt : PixelType) (plane : Coord) (o : ScaledOptions) (pic : AddInfo → Nat → Nat → Nat → UInt8)
    (zoom : ℚ) (roi : IntRect) (w h : Nat), Lossless c.zstd → SortsWith Accessor.zoomLess sort → ViewableType pt →
    (∀ a ∈ subs, SubPlausible a) → PlaneFits plane subs → ((∀ a ∈ subs, a.coordinate .S ≠ none) ∨ (∀ a ∈ subs, a.coordinate .S = none)) →
    (∀ a ∈ subs, InPlane plane a → a.pixelType = pt ∧ DataShows c a a.physicalWidth.toNat a.physicalHeight.toNat (pic a)) →
    (Coloured o.view.background → o.view.background.sum ≠ .nan) → o.view.useVisibilityCheck = false → 0 < zoom → zoom ≠ 1 →
    Accessor.calcSize roi zoom = some (w, h) → UsualSize roi w h → (∀ a, Eligible subs plane roi o.scenes a → UsualSub a) →
    (o.view.sortByM = true → ∀ a, Eligible subs plane roi o.scenes a → ¬ Full a → subZoom a ≠ 1) →
    ∃ out, getScaledTyped sort c mem al s doc pt plane o zoom roi = .ok ⟨pt, out⟩ ∧ CorrectScaled c subs pic pt plane o zoom roi w h out

/-- Pictures of the opened document with a zoom of 1 show the sub-blocks `subs`: as before, minified sub-blocks having a zoom below 0.95. -/
def UnscaledPicturesShow (al : Alloc) (s : Stream) (doc : Doc) (subs : List AddInfo) : Prop :=
  ∀ (c : Codecs) (mem : Memory) (sort : List (Int × Entry) → List (Int × Entry)) (pt : PixelType) (plane : Coord) (o : ScaledOptions) (pic : AddInfo → Nat → Nat → Nat → UInt8)
    (x y : Int) (w h : Nat), Lossless c.zstd → SortsWith Accessor.zoomLess sort → ViewableType pt →
    (∀ a ∈ subs, SubPlausible a) → PlaneFits plane subs → ((∀ a ∈ subs, a.coordinate .S ≠ none) ∨ (∀ a ∈ subs, a.coordinate .S = none)) →
    (∀ a ∈ subs, InPlane plane a → a.pixelType = pt ∧ DataShows c a a.physicalWidth.toNat a.physicalHeight.toNat (pic a)) →
    (Coloured o.view.background → o.view.background.sum ≠ .nan) → o.view.useVisibilityCheck = false → w ≤ 2 ^ 19 → h ≤ 2 ^ 19 →
    (∀ a, Eligible subs plane ⟨x, y, w, h⟩ o.scenes a → UsualSub a ∧ (¬ Full a → subZoom a < 95 / 100)) →
    ∃ out, getScaledTyped sort c mem al s doc pt plane o 1 ⟨x, y, w, h⟩ = .ok ⟨pt, out⟩ ∧ CorrectUnscaled c subs pic pt plane o ⟨x, y, w, h⟩ w h out

end Verif.Spec
