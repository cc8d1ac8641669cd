import Verif.Spec.Accessor
import Verif.Spec.Scale

/-!
# What the scaling tile accessor is supposed to paint

The region `roi` of the document is shown on a bitmap of `n` columns (and rows): column `x` shows the document position
`docPos roi.x roi.w n x`. A sub-block covers the interval `lo, len` of the document and has `stored` pixels there.
-/

namespace Verif.Spec
open Blit

/-- The position in the document that column (or row) `x` of the result shows. -/
def docPos (rlo rlen : Int) (n x : Nat) : ℚ := rlo + (x : ℚ) * rlen / n

/-- What the rounding of the floating-point numbers may amount to, in pixels. -/
def pixelSlack : ℚ := 1 / 128

/-- The columns `v` of the result painted by a sub-block, and the columns `s` of the sub-block shown there: only columns that show
a position of the sub-block are painted; all of them are, except for those (at the end) less than one pixel of the result before
the end of the last pixel but one of the sub-block; the pixel shown is the one nearest to the position. -/
structure ShowsAxis (lo len stored rlo rlen : Int) (n : Nat) (v : Nat → Prop) (s : Nat → Nat) : Prop where
  sound : ∀ x, v x → x < n ∧ lo - pixelSlack * (rlen / n) ≤ docPos rlo rlen n x ∧
    docPos rlo rlen n x ≤ lo + len + pixelSlack * (rlen / n)
  complete : ∀ x, x < n → (lo ≤ rlo ∨ lo + pixelSlack * (rlen / n) ≤ docPos rlo rlen n x) →
    docPos rlo rlen n x + pixelSlack * (rlen / n) ≤ lo + len →
    docPos rlo rlen n x + pixelSlack * (rlen / n) ≤ lo + len - (len : ℚ) / stored + (rlen : ℚ) / n → v x
  nearest : ∀ x, v x → Picks stored.toNat ((docPos rlo rlen n x - lo) * stored / len) pixelSlack (s x)

/-- The zoom of a sub-block: the ratio of stored to logical size along its longer stored side. -/
def exactZoom (e : Entry) : ℚ :=
  if e.storedWidth > e.storedHeight then (e.storedWidth : ℚ) / e.width else (e.storedHeight : ℚ) / e.height

/-- What the rounding of the zoom may amount to, relatively. -/
def zoomSlack : ℚ := 1 / 2 ^ 20

/-- Both sub-blocks belong to the same scene (or to none). -/
def SameScene (a b : Int × Entry) : Prop := a.2.coordinate .S = b.2.coordinate .S

/-- The sub-blocks `sel` painted for a zoom: in each scene, those of the candidates that are fine enough for the zoom (with 5%
tolerance), up to 1.9 times the zoom of the coarsest of these. -/
structure Selects (zoom : ℚ) (cand sel : Int × Entry → Prop) : Prop where
  candidate : ∀ p, sel p → cand p
  fineEnough : ∀ p, sel p → zoom / (105 / 100) * (1 - zoomSlack) ≤ exactZoom p.2
  notTooFine : ∀ p, sel p → ∀ q, cand q → SameScene p q → zoom / (105 / 100) * (1 + zoomSlack) ≤ exactZoom q.2 →
    exactZoom p.2 ≤ 19 / 10 * exactZoom q.2 * (1 + zoomSlack)
  complete : ∀ p, cand p → zoom / (105 / 100) * (1 + zoomSlack) ≤ exactZoom p.2 →
    (∀ q, cand q → SameScene p q → zoom / (105 / 100) * (1 - zoomSlack) ≤ exactZoom q.2 →
      exactZoom p.2 ≤ 19 / 10 * exactZoom q.2 * (1 - zoomSlack)) → sel p

/-- The sub-block `a` is painted above `b`: its scene has the larger number; or it is of the same scene and finer; or of the same
scene, both are on layer 0, and the rule `tie` says so. -/
def Over (tie : Int × Entry → Int × Entry → Prop) (a b : Int × Entry) : Prop :=
  (∃ s t, a.2.coordinate .S = some s ∧ b.2.coordinate .S = some t ∧ t < s) ∨
  (SameScene a b ∧ exactZoom b.2 * (1 + zoomSlack) < exactZoom a.2) ∨
  (SameScene a b ∧ OnLayer0 a.2 ∧ OnLayer0 b.2 ∧ tie a b)

/-- Sorting by m-index. -/
def byM (a b : Int × Entry) : Prop := PaintedAbove a.2 b.2

/-- No sorting by m-index: the order of the directory. -/
def byPosition (items : List (Int × Entry)) (a b : Int × Entry) : Prop := a ≠ b ∧ [b, a].Sublist items

/-- `v` is a correct value of a byte of the result: if none of the selected sub-blocks shows a pixel, the background; otherwise that
of a selected sub-block which does, above which no other one does. -/
def TopMost (sel : Int × Entry → Prop) (over : Int × Entry → Int × Entry → Prop) (shows : Int × Entry → Prop)
    (value : Int × Entry → UInt8) (bg v : UInt8) : Prop :=
  ((∀ p, sel p → ¬ shows p) ∧ v = bg) ∨
  ∃ p, sel p ∧ shows p ∧ v = value p ∧ ∀ q, sel q → shows q → ¬ over q p

/-- The sub-blocks among which the accessor chooses: those of the plane that share a pixel with the region and pass the scene
filter. -/
def Candidate (items : List (Int × Entry)) (plane : Coord) (roi : IntRect) (filter : Option (Int → Bool)) (p : Int × Entry) : Prop :=
  p ∈ items ∧ Matches (some plane) (some roi) false p.2 ∧ PassesScene filter p.2

/-- The statistics of the document: exact, and the scenes in ascending order. -/
structure DocumentStats (stats : Stats) (items : List (Int × Entry)) : Prop where
  exact : StatsExact stats (items.map (·.2))
  sorted : stats.scenes.Pairwise (fun p q => p.1 < q.1)

/-- All sub-blocks belong to a scene, or none does. -/
def ScenesUniform (items : List (Int × Entry)) : Prop :=
  (∀ p ∈ items, p.2.coordinate .S ≠ none) ∨ (∀ p ∈ items, p.2.coordinate .S = none)

/-- A usual sub-block and its picture: not empty, at most `2^19` pixels wide and high, not stored enlarged; the picture has the
stored size. -/
structure Usual (k : Kind) (e : Entry) (bm : Bitmap) (mask : Option Mask) : Prop where
  w : 0 < e.storedWidth ∧ e.storedWidth ≤ e.width ∧ e.width ≤ 2 ^ 19
  h : 0 < e.storedHeight ∧ e.storedHeight ≤ e.height ∧ e.height ≤ 2 ^ 19
  m : -2147483648 ≤ e.mIndex
  size : (bm.w : Int) = e.storedWidth ∧ (bm.h : Int) = e.storedHeight
  wf : bm.WF k.sb
  mask : ∀ m, mask = some m → m.WF

/-- A usual request: a region of at most `2^19` pixels in each direction, reduced at most by 1024 and enlarged at most twice. -/
structure UsualRequest (roi : IntRect) (dst : Bitmap) : Prop where
  w : 0 < roi.w ∧ roi.w ≤ 2 ^ 19
  h : 0 < roi.h ∧ roi.h ≤ 2 ^ 19
  dw : 0 < dst.w ∧ (dst.w : Int) ≤ 2 * roi.w ∧ roi.w ≤ 2 ^ 10 * dst.w
  dh : 0 < dst.h ∧ (dst.h : Int) ≤ 2 * roi.h ∧ roi.h ≤ 2 ^ 10 * dst.h

end Verif.Spec
