import Verif.Spec.Regions
import Verif.Props.Accessor
import Verif.Props.Pyramid
import Verif.Props.ScalingAccessor
import Mathlib.Data.List.Sort

/-!
# C99 pictures of different regions agree

Two requests to the same accessor for the same plane with the same background: wherever the regions overlap, the pictures have the same pixels. So a large picture can
be put together from the pictures of its parts.
-/

namespace Verif
open Spec Blit Accessor

/-- The order of painting is decided by the m-index wherever two sub-blocks paint the same pixel. -/
def MDecides (candidate : Item → Prop) (place : Item → Tile) : Prop :=
  ∀ p q, candidate p → candidate q → p ≠ q → ∀ px py, (place p).paints px py = true → (place q).paints px py = true → PaintedAbove p.2 q.2 ∨ PaintedAbove q.2 p.2

private theorem painted_unique {k : Kind} {candidate : Item → Prop} {place : Item → Tile} {px py : Int} {j : Nat} {bg v w : UInt8} (h : MDecides candidate place)
    (hv : Painted k candidate place px py j bg v) (hw : Painted k candidate place px py j bg w) : v = w := by
  rcases hv with ⟨a1, a2⟩ | ⟨p, p1, p2, p3, p4⟩ <;> rcases hw with ⟨b1, b2⟩ | ⟨q, q1, q2, q3, q4⟩
  · rw [a2, b2]
  · rw [a1 q q1] at q2; cases q2
  · rw [b1 p p1] at p2; cases p2
  · by_cases e : p = q
    · subst e; rw [p3, q3]
    · rcases h p q p1 q1 e px py p2 q2 with h | h
      · exact absurd h (q4 p p1 p2)
      · exact absurd h (p4 q q1 q2)

/-- **C99 (tile accessor sorted by m-index; partial: where sub-blocks overlap, their m-indexes must differ; sub-blocks as in C33).** Any two requests for a plane, to
any positions and of any sizes, agree wherever they overlap; for every behaviour of the unstable sort. -/
theorem C99_tiles_partial (sort : List Item → List Item) (hsort : SortsBy mKey sort) (k : Kind) (items : List Item) (bounds : Bounds) (plane : Coord)
    (vis vis' : Bool) (pix : Pictures) (bg : Nat → UInt8) (xPos yPos xPos' yPos' : Int) (dst dst' : Bitmap) (hplane : checkPlane bounds plane = none)
    (hdst : dst.WF k.db) (hdst' : dst'.WF k.db) (hb : OneColour k.db bg dst) (hb' : OneColour k.db bg dst')
    (hitems : ∀ p ∈ items, Matches (some plane) none true p.2 → -2147483648 ≤ p.2.mIndex ∧ TileOk k (tileAt pix p) ∧
      ((pix p.1).1.w : Int) = p.2.width ∧ ((pix p.1).1.h : Int) = p.2.height)
    (hvis : vis = true ∨ vis' = true → k.NoOverread ∧ ∀ p ∈ items, (pix p.1).2 = none)
    (hm : MDecides (fun p => p ∈ items ∧ Matches (some plane) none true p.2) (tileAt pix)) :
    ∃ out out', tileAccessorGet sort k items bounds plane true vis pix xPos yPos dst = .ok (some out) ∧
      tileAccessorGet sort k items bounds plane true vis' pix xPos' yPos' dst' = .ok (some out') ∧
      out.w = dst.w ∧ out.h = dst.h ∧ out'.w = dst'.w ∧ out'.h = dst'.h ∧ Agree k.db out xPos yPos out' xPos' yPos' := by
  obtain ⟨o, e1, e2, e3, e4, _⟩ := C33_accessor_topmost_partial sort hsort k items bounds plane vis pix xPos yPos dst hplane hdst hitems (fun h => hvis (.inl h))
  obtain ⟨o', f1, f2, f3, f4, _⟩ := C33_accessor_topmost_partial sort hsort k items bounds plane vis' pix xPos' yPos' dst' hplane hdst' hitems (fun h => hvis (.inr h))
  refine ⟨o, o', e1, f1, e2, e3, f2, f3, ?_⟩
  intro x y x' y' hx hy hx' hy' ex ey j hj
  rw [e2] at hx; rw [e3] at hy; rw [f2] at hx'; rw [f3] at hy'
  have a := e4 x y j hx hy hj
  have b := f4 x' y' j hx' hy' hj
  rw [hb x y j hx hy hj] at a
  rw [hb' x' y' j hx' hy' hj, ← ex, ← ey] at b
  exact painted_unique hm a b

/-- **C99 (tile accessor without sorting; partial: sub-blocks as in C33).** In the order of the directory any two requests agree, also where sub-blocks overlap. -/
theorem C99_directory_order_partial (sort : List Item → List Item) (k : Kind) (items : List Item) (bounds : Bounds) (plane : Coord)
    (pix : Pictures) (bg : Nat → UInt8) (xPos yPos xPos' yPos' : Int) (dst dst' : Bitmap) (hplane : checkPlane bounds plane = none)
    (hdst : dst.WF k.db) (hdst' : dst'.WF k.db) (hb : OneColour k.db bg dst) (hb' : OneColour k.db bg dst')
    (hitems : ∀ p ∈ items, Matches (some plane) none true p.2 → TileOk k (tileAt pix p) ∧
      ((pix p.1).1.w : Int) = p.2.width ∧ ((pix p.1).1.h : Int) = p.2.height) :
    ∃ out out', tileAccessorGet sort k items bounds plane false false pix xPos yPos dst = .ok (some out) ∧
      tileAccessorGet sort k items bounds plane false false pix xPos' yPos' dst' = .ok (some out') ∧
      out.w = dst.w ∧ out.h = dst.h ∧ out'.w = dst'.w ∧ out'.h = dst'.h ∧ Agree k.db out xPos yPos out' xPos' yPos' := by
  obtain ⟨o, e1, e2, e3, e4, _⟩ := C33_accessor_directory_order_partial sort k items bounds plane pix xPos yPos dst hplane hdst hitems
  obtain ⟨o', f1, f2, f3, f4, _⟩ := C33_accessor_directory_order_partial sort k items bounds plane pix xPos' yPos' dst' hplane hdst' hitems
  refine ⟨o, o', e1, f1, e2, e3, f2, f3, ?_⟩
  intro x y x' y' hx hy hx' hy' ex ey j hj
  rw [e2] at hx; rw [e3] at hy; rw [f2] at hx'; rw [f3] at hy'
  rw [e4 x y j hx hy hj, f4 x' y' j hx' hy' hj, hb x y j hx hy hj, hb' x' y' j hx' hy' hj, ex, ey]

private theorem painted_transfer {k : Kind} {c c' : Item → Prop} {t t' : Item → Tile} {px py px' py' : Int} {j : Nat} {bg v : UInt8}
    (h : ∀ p, (c p ∧ (t p).paints px py = true) ↔ (c' p ∧ (t' p).paints px' py' = true))
    (hc : ∀ p, c p → (t p).paints px py = true → (t p).colour k px py j = (t' p).colour k px' py' j)
    (hv : Painted k c t px py j bg v) : Painted k c' t' px' py' j bg v := by
  rcases hv with ⟨a1, a2⟩ | ⟨p, p1, p2, p3, p4⟩
  · refine .inl ⟨fun p hp => ?_, a2⟩
    cases e : (t' p).paints px' py' with
    | false => rfl
    | true =>
      have := (h p).mpr ⟨hp, e⟩
      rw [a1 p this.1] at this
      exact absurd this.2 (by simp)
  · have hp := (h p).mp ⟨p1, p2⟩
    refine .inr ⟨p, hp.1, hp.2, by rw [p3, hc p p1 p2], fun q q1 q2 => ?_⟩
    have hq := (h q).mpr ⟨q1, q2⟩
    exact p4 q hq.1 hq.2

/-- The sub-blocks of the requested layer that may be painted in some region. -/
def LayerCandidate (items : List Item) (plane : Coord) (scene : Option (Int → Bool)) (info : LayerRequest) (p : Item) : Prop :=
  p ∈ items ∧ Matches (some plane) none false p.2 ∧ PassesScene scene p.2 ∧ OnLayer info.factor.toNat info.layerNo.toNat p.2

private theorem paints_rect {t : Tile} {px py : Int} (h : t.paints px py = true) : t.x ≤ px ∧ px < t.x + t.bm.w ∧ t.y ≤ py ∧ py < t.y + t.bm.h := by
  unfold Tile.paints at h
  rw [Bool.and_eq_true] at h
  exact of_decide_eq_true h.1

private theorem paints_shift {t t' : Tile} {px py px' py' : Int} (hb : t.bm = t'.bm) (hm : t.mask = t'.mask) (hx : px - t.x = px' - t'.x)
    (hy : py - t.y = py' - t'.y) : t.paints px py = t'.paints px' py' := by
  unfold Tile.paints
  rw [hb, hm, hx, hy]
  congr 1
  apply decide_eq_decide.mpr
  omega

private theorem colour_shift {t t' : Tile} {px py px' py' : Int} (k : Kind) (j : Nat) (hb : t.bm = t'.bm) (hx : px - t.x = px' - t'.x)
    (hy : py - t.y = py' - t'.y) : t.colour k px py j = t'.colour k px' py' j := by
  unfold Tile.colour
  rw [hb, hx, hy]

private theorem on_grid {a r s : Int} (hs : 0 < s) (h : s ∣ a - r) : (a - r).tdiv s * s = a - r := Int.tdiv_mul_cancel h

/-- A pixel of the result painted by a sub-block on the grid lies in the sub-block's rectangle. -/
private theorem in_rect {a r s t x w bw : Int} (hs : 0 < s) (ht : t * s = a - r) (h1 : t ≤ x) (h2 : x < t + bw) (hw : (bw - 1) * s < w) :
    a ≤ r + x * s ∧ r + x * s < a + w := by
  have h3 : 0 ≤ (x - t) * s := Int.mul_nonneg (by omega) (by omega)
  have h4 : (x - t) * s ≤ (bw - 1) * s := Int.mul_le_mul_of_nonneg_right (by omega) (by omega)
  have h5 : (x - t) * s = x * s - t * s := Int.sub_mul x t s
  omega

private theorem in_covered {r x W s : Int} (hs : 0 < s) (h0 : 0 ≤ x) (h1 : x < W / s) : r ≤ r + x * s ∧ r + x * s < r + W / s * s := by
  have h2 : 0 ≤ x * s := Int.mul_nonneg h0 (by omega)
  have h3 : x * s < W / s * s := Int.mul_lt_mul_of_pos_right h1 hs
  omega

private theorem layer_iff {items : List Item} {plane : Coord} {scene : Option (Int → Bool)} {info : LayerRequest} {pix : Pictures} {roi : IntRect}
    (hreq : RequestOk info roi)
    (hgrid : ∀ p, LayerCandidate items plane scene info p → ((pixelSize info : Int) ∣ p.2.x - roi.x) ∧ ((pixelSize info : Int) ∣ p.2.y - roi.y))
    (hsize : ∀ p, LayerCandidate items plane scene info p → (((pix p.1).1.w : Int) - 1) * pixelSize info < p.2.width ∧
      (((pix p.1).1.h : Int) - 1) * pixelSize info < p.2.height)
    {x y : Nat} (hx : (x : Int) < roi.w / pixelSize info) (hy : (y : Int) < roi.h / pixelSize info) (p : Item) :
    ((Selected items plane scene (coveredRegion info roi) p ∧ OnLayer info.factor.toNat info.layerNo.toNat p.2) ∧
        (tileOnLayer pix info roi p).paints x y = true) ↔
      (LayerCandidate items plane scene info p ∧ (tileOnLayer pix info roi p).paints x y = true) := by
  constructor
  · rintro ⟨⟨⟨h1, h2, h3⟩, h4⟩, h5⟩
    exact ⟨⟨h1, ⟨h2.1, (fun r hr => by cases hr), h2.2.2⟩, h3, h4⟩, h5⟩
  · rintro ⟨h, h5⟩
    have hs : (0 : Int) < pixelSize info := by have := hreq.1; omega
    obtain ⟨g1, g2⟩ := hgrid p h
    obtain ⟨s1, s2⟩ := hsize p h
    obtain ⟨b1, b2, b3, b4⟩ := paints_rect h5
    dsimp only [tileOnLayer] at b1 b2 b3 b4
    have i1 := in_rect hs (on_grid hs g1) b1 b2 s1
    have i2 := in_rect hs (on_grid hs g2) b3 b4 s2
    have c1 := in_covered (r := roi.x) hs (Int.natCast_nonneg x) hx
    have c2 := in_covered (r := roi.y) hs (Int.natCast_nonneg y) hy
    obtain ⟨a1, a2, a3, a4⟩ := h
    refine ⟨⟨⟨a1, ⟨a2.1, ?_, a2.2.2⟩, a3⟩, a4⟩, h5⟩
    intro r hr
    cases hr
    refine ⟨roi.x + x * pixelSize info, roi.y + y * pixelSize info, ?_, ?_⟩
    · simp only [IntRect.Has, coveredRegion]; omega
    · simp only [IntRect.Has]; omega

/-- **C99 (pyramid accessor sorted by m-index; partial: as C46, and the regions and the sub-blocks of the layer begin at multiples - from each other - of the size of
a pixel of the layer, no sub-block has more pixels than it has room for, and where sub-blocks of the layer overlap, their m-indexes differ).** The pictures of any two regions agree: pixel `(x, y)` of the one
and `(x', y')` of the other, if they show the same place of the document, are equal. -/
theorem C99_pyramid_partial (sort : List Item → List Item) (hsort : SortsBy mKey sort) (k : Kind) (items : List Item)
    (bounds : Bounds) (plane : Coord) (scene : Option (Int → Bool)) (info : LayerRequest) (pix : Pictures) (bg : Nat → UInt8)
    (create : Nat → Nat → Bitmap) (roi roi' : IntRect) (hreq : RequestOk info roi) (hreq' : RequestOk info roi') (hplane : checkPlane bounds plane = none)
    (hcreate : ∀ w h, (create w h).w = w ∧ (create w h).h = h ∧ (create w h).WF k.db ∧ OneColour k.db bg (create w h))
    (hitems : ∀ p ∈ items, -2147483648 ≤ p.2.mIndex ∧ StoredOk p.2 ∧
      (∃ n, OnLayer info.factor.toNat n p.2 ∧ info.factor.toNat ^ n ≤ 2147483647) ∧ TileOk k (tileOnLayer pix info roi p) ∧ TileOk k (tileOnLayer pix info roi' p))
    (hlayer : (∃ p, Selected items plane scene (coveredRegion info roi) p ∧ OnLayer info.factor.toNat info.layerNo.toNat p.2) ∨
      ∀ p, ¬ Selected items plane scene (coveredRegion info roi) p)
    (hlayer' : (∃ p, Selected items plane scene (coveredRegion info roi') p ∧ OnLayer info.factor.toNat info.layerNo.toNat p.2) ∨
      ∀ p, ¬ Selected items plane scene (coveredRegion info roi') p)
    (hgrid : ∀ p, LayerCandidate items plane scene info p → ((pixelSize info : Int) ∣ p.2.x - roi.x) ∧ ((pixelSize info : Int) ∣ p.2.y - roi.y))
    (hgrid' : ∀ p, LayerCandidate items plane scene info p → ((pixelSize info : Int) ∣ p.2.x - roi'.x) ∧ ((pixelSize info : Int) ∣ p.2.y - roi'.y))
    (hsize : ∀ p, LayerCandidate items plane scene info p → (((pix p.1).1.w : Int) - 1) * pixelSize info < p.2.width ∧
      (((pix p.1).1.h : Int) - 1) * pixelSize info < p.2.height)
    (hm : MDecides (LayerCandidate items plane scene info) (tileOnLayer pix info roi)) :
    ∃ out out', pyramidGet sort k items bounds plane scene true info pix create roi = .picture out ∧
      pyramidGet sort k items bounds plane scene true info pix create roi' = .picture out' ∧
      ∀ x y x' y' : Nat, x < out.w → y < out.h → x' < out'.w → y' < out'.h →
        roi.x + x * pixelSize info = roi'.x + x' * pixelSize info → roi.y + y * pixelSize info = roi'.y + y' * pixelSize info →
        ∀ j, j < k.db → out.byteAt k.db x y j = out'.byteAt k.db x' y' j := by
  obtain ⟨o, e1, e2, e3, e4⟩ := C46_layer_picture_partial sort hsort k items bounds plane scene info pix create roi hreq hplane
    (fun w h => ⟨(hcreate w h).1, (hcreate w h).2.1, (hcreate w h).2.2.1⟩)
    (fun p hp => ⟨(hitems p hp.1).1, (hitems p hp.1).2.1, (hitems p hp.1).2.2.1, (hitems p hp.1).2.2.2.1⟩) hlayer
  obtain ⟨o', f1, f2, f3, f4⟩ := C46_layer_picture_partial sort hsort k items bounds plane scene info pix create roi' hreq' hplane
    (fun w h => ⟨(hcreate w h).1, (hcreate w h).2.1, (hcreate w h).2.2.1⟩)
    (fun p hp => ⟨(hitems p hp.1).1, (hitems p hp.1).2.1, (hitems p hp.1).2.2.1, (hitems p hp.1).2.2.2.2⟩) hlayer'
  refine ⟨o, o', e1, f1, ?_⟩
  intro x y x' y' hx hy hx' hy' ex ey j hj
  have hs : (0 : Int) < pixelSize info := by have := hreq.1; omega
  have a := e4 x y j hx hy hj
  have b := f4 x' y' j hx' hy' hj
  rw [(hcreate o.w o.h).2.2.2 x y j (by rw [(hcreate o.w o.h).1]; exact hx) (by rw [(hcreate o.w o.h).2.1]; exact hy) hj] at a
  rw [(hcreate o'.w o'.h).2.2.2 x' y' j (by rw [(hcreate o'.w o'.h).1]; exact hx') (by rw [(hcreate o'.w o'.h).2.1]; exact hy') hj] at b
  have a' := painted_transfer (layer_iff hreq hgrid hsize (by omega) (by omega)) (fun _ _ _ => rfl) a
  have b' := painted_transfer (layer_iff hreq' hgrid' hsize (by omega) (by omega)) (fun _ _ _ => rfl) b
  have shift : ∀ p, LayerCandidate items plane scene info p →
      (x' : Int) - (tileOnLayer pix info roi' p).x = x - (tileOnLayer pix info roi p).x ∧
      (y' : Int) - (tileOnLayer pix info roi' p).y = y - (tileOnLayer pix info roi p).y := by
    intro p hp
    have p1 := on_grid hs (hgrid p hp).1
    have p2 := on_grid hs (hgrid p hp).2
    have q1 := on_grid hs (hgrid' p hp).1
    have q2 := on_grid hs (hgrid' p hp).2
    dsimp only [tileOnLayer]
    constructor
    · apply Int.eq_of_mul_eq_mul_right (show (pixelSize info : Int) ≠ 0 by omega)
      rw [Int.sub_mul, Int.sub_mul]; omega
    · apply Int.eq_of_mul_eq_mul_right (show (pixelSize info : Int) ≠ 0 by omega)
      rw [Int.sub_mul, Int.sub_mul]; omega
  refine painted_unique hm a' (painted_transfer (fun p => ?_) (fun p hp _ => ?_) b')
  · constructor
    · rintro ⟨hp, h⟩
      exact ⟨hp, by rw [← paints_shift (t := tileOnLayer pix info roi' p) (t' := tileOnLayer pix info roi p) rfl rfl (shift p hp).1 (shift p hp).2]; exact h⟩
    · rintro ⟨hp, h⟩
      exact ⟨hp, by rw [paints_shift (t := tileOnLayer pix info roi' p) (t' := tileOnLayer pix info roi p) rfl rfl (shift p hp).1 (shift p hp).2]; exact h⟩
  · exact colour_shift k j rfl (shift p hp).1 (shift p hp).2

/-! ## The scaling accessor -/

private theorem sublist_total {l : List Item} {a b : Item} (ha : a ∈ l) (hb : b ∈ l) (h : a ≠ b) : [a, b].Sublist l ∨ [b, a].Sublist l := by
  induction l with
  | nil => cases ha
  | cons c l ih =>
    rcases List.mem_cons.mp ha with rfl | ha' <;> rcases List.mem_cons.mp hb with rfl | hb'
    · exact absurd rfl h
    · exact .inl (List.Sublist.cons_cons _ (List.singleton_sublist.mpr hb'))
    · exact .inr (List.Sublist.cons_cons _ (List.singleton_sublist.mpr ha'))
    · rcases ih ha' hb' with h | h
      · exact .inl (h.cons _)
      · exact .inr (h.cons _)

private theorem topMost_unique {over : Item → Item → Prop} {s : Item → Prop} {value : Item → UInt8} {bg v w : UInt8}
    {c c' : Item → Prop} (hsame : ∀ p, s p → (c p ↔ c' p)) (htot : ∀ p q, c p → s p → c q → s q → p ≠ q → over p q ∨ over q p)
    (hv : TopMost c over s value bg v) (hw : TopMost c' over s value bg w) : v = w := by
  rcases hv with ⟨a1, a2⟩ | ⟨p, p1, p2, p3, p4⟩ <;> rcases hw with ⟨b1, b2⟩ | ⟨q, q1, q2, q3, q4⟩
  · rw [a2, b2]
  · exact absurd q2 (a1 q ((hsame q q2).mpr q1))
  · exact absurd p2 (b1 p ((hsame p p2).mp p1))
  · by_cases e : p = q
    · subst e; rw [p3, q3]
    · rcases htot p q p1 p2 ((hsame q q2).mpr q1) q2 e with h | h
      · exact absurd h (q4 p ((hsame p p2).mp p1) p2)
      · exact absurd h (p4 q ((hsame q q2).mpr q1) q2)

/-- **C99 (scaling accessor with a zoom of 1; partial: sub-blocks as in C60, those of the pyramid with a zoom of less than 0.95; with sorting by m-index, the m-indexes
must differ where sub-blocks overlap).** Any two requests, into bitmaps of the size of their region, agree wherever they overlap; without sorting by m-index this needs
no condition on overlapping sub-blocks. -/
theorem C99_unscaled_partial (sort : List Item → List Item) (hsort : SortsWith zoomLess sort) (k : Kind)
    (items : List Item) (hn : items.Nodup) (hu : ScenesUniform items) (stats : Stats) (hst : DocumentStats stats items) (plane : Coord)
    (hplane : checkPlane stats.dimBounds plane = none) (filter : Option (Int → Bool))
    (sortByM : Bool) (pix : Pictures) (bg : Nat → UInt8) (roi roi' : IntRect) (dst dst' : Bitmap) (hdst : dst.WF k.db) (hdst' : dst'.WF k.db)
    (hw : (dst.w : Int) = roi.w ∧ (dst.h : Int) = roi.h) (hw' : (dst'.w : Int) = roi'.w ∧ (dst'.h : Int) = roi'.h)
    (hb : OneColour k.db bg dst) (hb' : OneColour k.db bg dst')
    (hs : ∀ p ∈ items, Usual k p.2 (pix p.1).1 (pix p.1).2 ∧ TileOk k (tileAt pix p) ∧ (¬ OnLayer0 p.2 → exactZoom p.2 < 95 / 100))
    (hm : sortByM = true → MDecides (fun p => p ∈ items ∧ Matches (some plane) none true p.2) (tileAt pix)) :
    ∃ out out', scalingGet sort k items stats plane 1 filter sortByM false pix roi dst = .ok (some out) ∧
      scalingGet sort k items stats plane 1 filter sortByM false pix roi' dst' = .ok (some out') ∧
      out.w = dst.w ∧ out.h = dst.h ∧ out'.w = dst'.w ∧ out'.h = dst'.h ∧ Agree k.db out roi.x roi.y out' roi'.x roi'.y := by
  have hd : ∀ p ∈ items, ¬ OnLayer0 p.2 → exactZoom p.2 ≠ 1 := by
    intro p hp h e
    have := (hs p hp).2.2 h
    rw [e] at this
    norm_num at this
  have get : ∀ (roi : IntRect) (dst : Bitmap), dst.WF k.db → (dst.w : Int) = roi.w ∧ (dst.h : Int) = roi.h → OneColour k.db bg dst →
      ∃ out, scalingGet sort k items stats plane 1 filter sortByM false pix roi dst = .ok (some out) ∧ out.w = dst.w ∧ out.h = dst.h ∧
        ∀ x y j, x < dst.w → y < dst.h → j < k.db →
          TopMost (fun p => Candidate items plane roi filter p ∧ OnLayer0 p.2) (Over (if sortByM then byM else byPosition items))
            (fun p => (tileAt pix p).paints (roi.x + x) (roi.y + y) = true)
            (fun p => (tileAt pix p).colour k (roi.x + x) (roi.y + y) j) (bg j) (out.byteAt k.db x y j) := by
    intro roi dst h1 h2 h3
    obtain ⟨o, e1, e2, e3, ⟨sel, s1, s2⟩, _⟩ := C60_unscaled_partial sort hsort k items hn hu stats hst plane hplane filter sortByM pix roi dst h1
      (fun p hp => ⟨(hs p hp.1).1, (hs p hp.1).2.1⟩) (fun _ p hp => hd p hp.1)
    refine ⟨o, e1, e2, e3, fun x y j hx hy hj => ?_⟩
    have hsel := funext fun p => propext (C60_unscaled_layer0 items plane roi filter sel s1 (fun p hp => by
      obtain ⟨u1, u2, _, _, _, _⟩ := (hs p hp.1).1
      exact ⟨u1.1, u1.2.1, u1.2.2, u2.1, u2.2.1, u2.2.2⟩) (fun p hp => (hs p hp.1).2.2) p)
    have := s2 x y j hx hy hj
    rw [hsel, h3 x y j hx hy hj] at this
    exact this
  obtain ⟨o, e1, e2, e3, e4⟩ := get roi dst hdst hw hb
  obtain ⟨o', f1, f2, f3, f4⟩ := get roi' dst' hdst' hw' hb'
  refine ⟨o, o', e1, f1, e2, e3, f2, f3, ?_⟩
  intro x y x' y' hx hy hx' hy' ex ey j hj
  rw [e2] at hx; rw [e3] at hy; rw [f2] at hx'; rw [f3] at hy'
  have a := e4 x y j hx hy hj
  have b := f4 x' y' j hx' hy' hj
  rw [← ex, ← ey] at b
  have shared : ∀ p ∈ items, OnLayer0 p.2 → (tileAt pix p).paints (roi.x + x) (roi.y + y) = true →
      IntRect.Has ⟨p.2.x, p.2.y, p.2.width, p.2.height⟩ (roi.x + x) (roi.y + y) := by
    intro p hp h0 h
    obtain ⟨b1, b2, b3, b4⟩ := paints_rect h
    have u := (hs p hp).1.size
    obtain ⟨z1, z2⟩ := h0
    dsimp only [tileAt] at b1 b2 b3 b4
    simp only [IntRect.Has]
    omega
  refine topMost_unique (fun p hp => ?_) (fun p q hp sp hq sq hne => ?_) a b
  · constructor
    · rintro ⟨⟨h1, h2, h3⟩, h4⟩
      refine ⟨⟨h1, ⟨h2.1, fun r hr => ?_, h2.2.2⟩, h3⟩, h4⟩
      cases hr
      refine ⟨roi.x + x, roi.y + y, ?_, shared p h1 h4 hp⟩
      simp only [IntRect.Has]; omega
    · rintro ⟨⟨h1, h2, h3⟩, h4⟩
      refine ⟨⟨h1, ⟨h2.1, fun r hr => ?_, h2.2.2⟩, h3⟩, h4⟩
      cases hr
      refine ⟨roi.x + x, roi.y + y, ?_, shared p h1 h4 hp⟩
      simp only [IntRect.Has]; omega
  · by_cases hss : SameScene p q
    · cases hsm : sortByM with
      | true =>
        rw [if_pos rfl]
        have c1 : p ∈ items ∧ Matches (some plane) none true p.2 := ⟨hp.1.1, hp.1.2.1.1, (fun r hr => by cases hr), fun _ => hp.2⟩
        have c2 : q ∈ items ∧ Matches (some plane) none true q.2 := ⟨hq.1.1, hq.1.2.1.1, (fun r hr => by cases hr), fun _ => hq.2⟩
        rcases hm hsm p q c1 c2 hne _ _ sp sq with h | h
        · exact .inl (.inr (.inr ⟨hss, hp.2, hq.2, h⟩))
        · exact .inr (.inr (.inr ⟨hss.symm, hq.2, hp.2, h⟩))
      | false =>
        rw [if_neg (by simp)]
        rcases sublist_total hp.1.1 hq.1.1 hne with h | h
        · exact .inr (.inr (.inr ⟨hss.symm, hq.2, hp.2, hne.symm, h⟩))
        · exact .inl (.inr (.inr ⟨hss, hp.2, hq.2, hne, h⟩))
    · rcases hu with hu | hu
      · obtain ⟨s, h1⟩ := Option.ne_none_iff_exists'.mp (hu p hp.1.1)
        obtain ⟨t, h2⟩ := Option.ne_none_iff_exists'.mp (hu q hq.1.1)
        have hne' : s ≠ t := by
          rintro rfl
          exact hss (by unfold SameScene; rw [h1, h2])
        rcases Int.lt_or_gt_of_ne hne' with h | h
        · exact .inr (.inl ⟨t, s, h2, h1, h⟩)
        · exact .inl (.inl ⟨s, t, h1, h2, h⟩)
      · exact absurd (by unfold SameScene; rw [hu p hp.1.1, hu q hq.1.1]) hss

/-! ## Violations -/

/-- Two sub-blocks at the same place without an m-index, and a third one, with m-index 0, beside them. -/
def tiedItems : List Item := [(0, exSb 2147483647 0 0 1 1 1 1), (1, exSb 2147483647 0 0 1 1 1 1), (2, exSb 0 1 0 1 1 1 1)]

/-- Their pictures: 5, 6 and 7. -/
def tiedPix : Pictures := fun i => (⟨1, 1, 1, ⟨1, fun _ => if i = 0 then 5 else if i = 1 then 6 else 7⟩⟩, none)

/-- A sort that is not stable: it sorts lists of three or more elements after reversing them. -/
def unstableSort (l : List Item) : List Item :=
  if l.length < 3 then l.insertionSort (fun a b => mKey a ≤ mKey b) else l.reverse.insertionSort (fun a b => mKey a ≤ mKey b)

private theorem insertionSort_sorts (l : List Item) : (l.insertionSort (fun a b => mKey a ≤ mKey b)).Perm l ∧
    (l.insertionSort (fun a b => mKey a ≤ mKey b)).Pairwise (fun a b => mKey a ≤ mKey b) := by
  haveI : Std.Total (fun a b : Item => mKey a ≤ mKey b) := ⟨fun a b => Int.le_total _ _⟩
  haveI : IsTrans Item (fun a b : Item => mKey a ≤ mKey b) := ⟨fun a b c h1 h2 => Int.le_trans h1 h2⟩
  exact ⟨List.perm_insertionSort _ l, List.pairwise_insertionSort _ l⟩

theorem unstableSort_sorts : SortsBy mKey unstableSort := by
  intro l
  unfold unstableSort
  split
  · exact insertionSort_sorts l
  · exact ⟨(insertionSort_sorts l.reverse).1.trans (List.reverse_perm l), (insertionSort_sorts l.reverse).2⟩

private def c0 : Coord := fun d => if d = .C then some 0 else none
private def b0 : Bounds := fun d => if d = .C then some (0, 1) else none
private def okByte (r : Except PlaneError (Option Bitmap)) : Option UInt8 := match r with | .ok (some b) => some (b.byteAt 1 0 0 0) | _ => none

/-- **C99, violation: overlapping sub-blocks without a difference in m-index.** Which of them is on top is decided by `std::sort`, which is not stable; with an
implementation allowed by the standard it depends on what else is in the region: the pixel at (0,0) is 6 in the picture of a region with that pixel only, and 5 in the
picture of a region that is one pixel wider. -/
theorem C99_order_violated : SortsBy mKey unstableSort ∧ ∃ o o',
    tileAccessorGet unstableSort (.same 1) tiedItems (fun d => if d = .C then some (0, 1) else none) (fun d => if d = .C then some 0 else none) true false tiedPix 0 0
      ⟨1, 1, 1, ⟨1, fun _ => 0⟩⟩ = .ok (some o) ∧
    tileAccessorGet unstableSort (.same 1) tiedItems (fun d => if d = .C then some (0, 1) else none) (fun d => if d = .C then some 0 else none) true false tiedPix 0 0
      ⟨2, 1, 2, ⟨2, fun _ => 0⟩⟩ = .ok (some o') ∧
    o.byteAt 1 0 0 0 = 6 ∧ o'.byteAt 1 0 0 0 = 5 := by
  refine ⟨unstableSort_sorts, ?_⟩
  have h1 : okByte (tileAccessorGet unstableSort (.same 1) tiedItems b0 c0 true false tiedPix 0 0 ⟨1, 1, 1, ⟨1, fun _ => 0⟩⟩) = some 6 := by decide +kernel
  have h2 : okByte (tileAccessorGet unstableSort (.same 1) tiedItems b0 c0 true false tiedPix 0 0 ⟨2, 1, 2, ⟨2, fun _ => 0⟩⟩) = some 5 := by decide +kernel
  have ex : ∀ {r v}, okByte r = some v → ∃ o, r = .ok (some o) ∧ o.byteAt 1 0 0 0 = v := by
    intro r v h
    match r, h with
    | .ok (some o), h => exact ⟨o, rfl, by simpa [okByte] using h⟩
  obtain ⟨o, a1, a2⟩ := ex h1
  obtain ⟨o', b1, b2⟩ := ex h2
  exact ⟨o, o', a1, b1, a2, b2⟩

private def picByte (r : PyrResult) (x : Nat) : Option UInt8 := match r with | .picture b => some (b.byteAt 1 x 0 0) | _ => none

/-- **C99, violation: sub-blocks of a pyramid that are not on the grid of the region.** A sub-block of 4x4 pixels at x = 1, stored with 2x2, on layer 1 (a pixel has the
size 2): the region at x = 0 has it in the pixels 0 and 1, so that pixel 2 - at x = 4 in the document - is blank; the region at x = 4 has it in its pixel 0,
which is at the same place, too. The division by the size of a pixel rounds towards zero, down for the one region and up for the other. -/
theorem C99_pyramid_violated (sort : List Item → List Item) : ∃ o o',
    pyramidGet sort (.same 1) [(0, exSb 2147483647 1 0 4 4 2 2)] (fun d => if d = .C then some (0, 1) else none) (fun d => if d = .C then some 0 else none) none false
      ⟨2, 1⟩ (fun _ => (⟨2, 2, 2, ⟨4, fun _ => 7⟩⟩, none)) (fun w h => ⟨w, h, w, ⟨w * h, fun _ => 0⟩⟩) ⟨0, 0, 8, 4⟩ = .picture o ∧
    pyramidGet sort (.same 1) [(0, exSb 2147483647 1 0 4 4 2 2)] (fun d => if d = .C then some (0, 1) else none) (fun d => if d = .C then some 0 else none) none false
      ⟨2, 1⟩ (fun _ => (⟨2, 2, 2, ⟨4, fun _ => 7⟩⟩, none)) (fun w h => ⟨w, h, w, ⟨w * h, fun _ => 0⟩⟩) ⟨4, 0, 4, 4⟩ = .picture o' ∧
    o.byteAt 1 2 0 0 = 0 ∧ o'.byteAt 1 0 0 0 = 7 := by
  have h1 : picByte (pyramidGet id (.same 1) [(0, exSb 2147483647 1 0 4 4 2 2)] b0 c0 none false
      ⟨2, 1⟩ (fun _ => (⟨2, 2, 2, ⟨4, fun _ => 7⟩⟩, none)) (fun w h => ⟨w, h, w, ⟨w * h, fun _ => 0⟩⟩) ⟨0, 0, 8, 4⟩) 2 = some 0 := by decide +kernel
  have h2 : picByte (pyramidGet id (.same 1) [(0, exSb 2147483647 1 0 4 4 2 2)] b0 c0 none false
      ⟨2, 1⟩ (fun _ => (⟨2, 2, 2, ⟨4, fun _ => 7⟩⟩, none)) (fun w h => ⟨w, h, w, ⟨w * h, fun _ => 0⟩⟩) ⟨4, 0, 4, 4⟩) 0 = some 7 := by decide +kernel
  have any : ∀ roi, pyramidGet sort (.same 1) [(0, exSb 2147483647 1 0 4 4 2 2)] b0 c0 none false
      ⟨2, 1⟩ (fun _ => (⟨2, 2, 2, ⟨4, fun _ => 7⟩⟩, none)) (fun w h => ⟨w, h, w, ⟨w * h, fun _ => 0⟩⟩) roi =
      pyramidGet id (.same 1) [(0, exSb 2147483647 1 0 4 4 2 2)] b0 c0 none false
      ⟨2, 1⟩ (fun _ => (⟨2, 2, 2, ⟨4, fun _ => 7⟩⟩, none)) (fun w h => ⟨w, h, w, ⟨w * h, fun _ => 0⟩⟩) roi := fun roi => rfl
  have ex : ∀ {r x v}, picByte r x = some v → ∃ o, r = .picture o ∧ o.byteAt 1 x 0 0 = v := by
    intro r x v h
    match r, h with
    | .picture o, h => exact ⟨o, rfl, by simpa [picByte] using h⟩
  rw [← any] at h1 h2
  obtain ⟨o, a1, a2⟩ := ex h1
  obtain ⟨o', b1, b2⟩ := ex h2
  exact ⟨o, o', a1, b1, a2, b2⟩

/-- A sub-block on layer 0 that the pyramid does not contain, and beside it a sub-block of the pyramid. -/
def gapItems : List Item := [(0, exSb 0 0 0 8 8 8 8), (1, exSb 2147483647 8 0 8 8 4 4)]

/-- Their pictures: 5 and 7. -/
def gapPix : Pictures := fun i => (if i = 1 then ⟨4, 4, 4, ⟨16, fun _ => 7⟩⟩ else ⟨8, 8, 8, ⟨64, fun _ => 5⟩⟩, none)

/-- Their statistics. -/
def gapStats : Stats := ((gapItems.map (·.2)).foldl ReaderDir.add ReaderDir.init).upd.stats

private theorem gapUsual : ∀ p ∈ gapItems, Usual (.same 1) p.2 (gapPix p.1).1 (gapPix p.1).2 ∧ (¬ OnLayer0 p.2 → exactZoom p.2 < 95 / 100) := by
  intro p hp
  simp only [gapItems, List.mem_cons, List.not_mem_nil, or_false] at hp
  rcases hp with rfl | rfl
  · exact ⟨⟨by decide, by decide, by decide, by decide, by unfold Bitmap.WF; decide, by intro m h; cases h⟩, fun h => absurd ⟨rfl, rfl⟩ h⟩
  · exact ⟨⟨by decide, by decide, by decide, by decide, by unfold Bitmap.WF; decide, by intro m h; cases h⟩, fun _ => by unfold exactZoom exSb; norm_num⟩

/-- **C99, violation: what is painted with a zoom below 1 depends on what else is in the region.** A sub-block of layer 0 (5), and beside it a sub-block of the
pyramid (7) with half the resolution. With the zoom 1/2 the picture of the region of the first one shows it; in the picture of a region with both - to the same scale -
its place is blank: as there is a sub-block of a better fitting zoom somewhere in the region, finer ones are not painted anywhere. -/
theorem C99_scaled_violated (sort : List Item → List Item) (hsort : SortsWith zoomLess sort) (sortByM : Bool) : ∃ o o',
    scalingGet sort (.same 1) gapItems gapStats (fun d => if d = .C then some 0 else none) (1 / 2) none sortByM false gapPix ⟨0, 0, 8, 8⟩
      ⟨4, 4, 4, ⟨16, fun _ => 0⟩⟩ = .ok (some o) ∧
    scalingGet sort (.same 1) gapItems gapStats (fun d => if d = .C then some 0 else none) (1 / 2) none sortByM false gapPix ⟨0, 0, 16, 8⟩
      ⟨8, 4, 8, ⟨32, fun _ => 0⟩⟩ = .ok (some o') ∧
    o.byteAt 1 1 1 0 = 5 ∧ o'.byteAt 1 1 1 0 = 0 := by
  have hn : gapItems.Nodup := by
    have : (gapItems.map (·.1)).Nodup := by decide
    exact List.Nodup.of_map _ this
  have hu : ScenesUniform gapItems := by
    right
    intro p hp
    simp only [gapItems, List.mem_cons, List.not_mem_nil, or_false] at hp
    rcases hp with rfl | rfl <;> decide
  have hst : DocumentStats gapStats gapItems := by
    apply documentStats_reader
    intro p hp
    simp only [gapItems, List.mem_cons, List.not_mem_nil, or_false] at hp
    rcases hp with rfl | rfl <;> exact ⟨by decide, by decide, fun _ => ⟨.C, rfl⟩⟩
  have hp : checkPlane gapStats.dimBounds (fun d => if d = .C then some 0 else none) = none := by decide +kernel
  have hd : ∀ p ∈ gapItems, ¬ OnLayer0 p.2 → exactZoom p.2 ≠ 1 := by
    intro p hp h e
    have := (gapUsual p hp).2 h
    rw [e] at this
    norm_num at this
  have z0 : exactZoom (exSb 0 0 0 8 8 8 8) = 1 := by unfold exactZoom exSb; norm_num
  have z1 : exactZoom (exSb 2147483647 8 0 8 8 4 4) = 1 / 2 := by unfold exactZoom exSb; norm_num
  have plane : ∀ m x y w h sw sh c, (some (fun d => if d = Dim.C then some (0 : Int) else none)) = some c → ∀ d v, c d = some v →
      (exSb m x y w h sw sh).coordinate d = some v := by
    intro m x y w h sw sh c hc d v hv
    cases hc
    exact hv
  have cand : ∀ roi : IntRect, IntRect.Has roi 0 0 → Candidate gapItems (fun d => if d = .C then some 0 else none) roi none (0, exSb 0 0 0 8 8 8 8) :=
    fun roi h => ⟨by simp [gapItems], ⟨plane _ _ _ _ _ _ _, fun r hr => ⟨0, 0, by cases hr; exact h, by decide⟩, by simp⟩, fun c h => by cases h⟩
  have cand1 : Candidate gapItems (fun d => if d = .C then some 0 else none) ⟨0, 0, 16, 8⟩ none (1, exSb 2147483647 8 0 8 8 4 4) :=
    ⟨by simp [gapItems], ⟨plane _ _ _ _ _ _ _, fun r hr => ⟨8, 0, by cases hr; decide, by decide⟩, by simp⟩, fun c h => by cases h⟩
  have only : ∀ p, Candidate gapItems (fun d => if d = .C then some 0 else none) ⟨0, 0, 8, 8⟩ none p → p = (0, exSb 0 0 0 8 8 8 8) := by
    rintro p ⟨h1, h2, -⟩
    simp only [gapItems, List.mem_cons, List.not_mem_nil, or_false] at h1
    rcases h1 with h1 | rfl
    · exact h1
    · obtain ⟨px, py, a, b⟩ := h2.2.1 _ rfl
      simp only [IntRect.Has, exSb] at a b
      omega
  obtain ⟨o, e1, e2, e3, ⟨sel, s1, vx, vy, sx, sy, s2, s3⟩, -⟩ := C60_scaled_partial sort hsort (.same 1) trivial gapItems hn hu gapStats hst _ hp (1 / 2)
    (by norm_num) (by norm_num) none sortByM gapPix ⟨0, 0, 8, 8⟩ ⟨4, 4, 4, ⟨16, fun _ => 0⟩⟩ (by unfold Bitmap.WF; decide)
    ⟨by decide, by decide, by decide, by decide⟩ (fun p hp => (gapUsual p hp.1).1) (fun _ p hp => hd p hp.1)
  obtain ⟨o', f1, f2, f3, ⟨sel', t1, vx', vy', sx', sy', t2, t3⟩, -⟩ := C60_scaled_partial sort hsort (.same 1) trivial gapItems hn hu gapStats hst _ hp (1 / 2)
    (by norm_num) (by norm_num) none sortByM gapPix ⟨0, 0, 16, 8⟩ ⟨8, 4, 8, ⟨32, fun _ => 0⟩⟩ (by unfold Bitmap.WF; decide)
    ⟨by decide, by decide, by decide, by decide⟩ (fun p hp => (gapUsual p hp.1).1) (fun _ p hp => hd p hp.1)
  refine ⟨o, o', e1, f1, ?_, ?_⟩
  · have hsel : sel (0, exSb 0 0 0 8 8 8 8) := by
      refine s1.complete _ (cand _ (by decide)) (by rw [z0]; unfold zoomSlack; norm_num) (fun q hq _ _ => ?_)
      rw [only q hq, z0]; unfold zoomSlack; norm_num
    have hsh := s2 _ hsel
    have v1 := hsh.1.complete 1 (by decide) (.inl (by decide)) (by unfold docPos pixelSlack exSb; norm_num) (by unfold docPos pixelSlack exSb; norm_num)
    have v2 := hsh.2.complete 1 (by decide) (.inl (by decide)) (by unfold docPos pixelSlack exSb; norm_num) (by unfold docPos pixelSlack exSb; norm_num)
    rcases s3 1 1 0 (by decide) (by decide) (by decide) with ⟨h, -⟩ | ⟨p, h1, -, h3, -⟩
    · exact absurd ⟨v1, v2, by simp [NotMasked, gapPix]⟩ (h _ hsel)
    · rw [only p (s1.candidate p h1)] at h3
      rw [show (Kind.same 1).db = 1 from rfl] at h3
      rw [h3]
      simp [Kind.value, gapPix, Bitmap.byteAt]
  · have hno : ¬ sel' (0, exSb 0 0 0 8 8 8 8) := by
      intro h
      have := t1.notTooFine _ h _ cand1 (by rfl) (by rw [z1]; unfold zoomSlack; norm_num)
      rw [z0, z1] at this
      unfold zoomSlack at this
      norm_num at this
    rcases t3 1 1 0 (by decide) (by decide) (by decide) with ⟨-, h⟩ | ⟨p, h1, h2, -, -⟩
    · rw [show (Kind.same 1).db = 1 from rfl] at h
      rw [h]
      rfl
    · have hm := (t1.candidate p h1).1
      simp only [gapItems, List.mem_cons, List.not_mem_nil, or_false] at hm
      rcases hm with rfl | rfl
      · exact absurd h1 hno
      · have := ((t2 _ h1).1.sound 1 h2.1).2.1
        unfold docPos pixelSlack exSb at this
        norm_num at this

/-! ## Instances of the hypotheses -/

/-- Instance of the hypotheses of `C99_tiles_partial` (and `C99_directory_order_partial`): the two overlapping sub-blocks of the C33 example and two overlapping
regions. -/
example : (⟨3, 3, 3, ⟨9, fun _ => 0⟩⟩ : Bitmap).WF (Kind.same 1).db ∧ OneColour (Kind.same 1).db (fun _ => 0) ⟨3, 3, 3, ⟨9, fun _ => 0⟩⟩ ∧
    (⟨2, 1, 2, ⟨2, fun _ => 0⟩⟩ : Bitmap).WF (Kind.same 1).db ∧ OneColour (Kind.same 1).db (fun _ => 0) ⟨2, 1, 2, ⟨2, fun _ => 0⟩⟩ ∧
    MDecides (fun p => p ∈ exampleItems ∧ Matches (some (fun d => if d = .C then some 0 else none)) none true p.2) (tileAt examplePix) := by
  refine ⟨by simp [Bitmap.WF, Kind.db], fun _ _ _ _ _ _ => rfl, by simp [Bitmap.WF, Kind.db], fun _ _ _ _ _ _ => rfl, ?_⟩
  rintro p q ⟨hp, -⟩ ⟨hq, -⟩ hne px py - -
  simp only [exampleItems, List.mem_cons, List.not_mem_nil, or_false] at hp hq
  rcases hp with rfl | rfl <;> rcases hq with rfl | rfl
  · exact absurd rfl hne
  · left; simp [PaintedAbove, ValidM]
  · right; simp [PaintedAbove, ValidM]
  · exact absurd rfl hne

/-- Instance of the further hypotheses of `C99_pyramid_partial`: the sub-blocks of the C46 example, the region of the whole and that of its lower right quarter. -/
example : RequestOk ⟨2, 1⟩ ⟨0, 0, 4, 4⟩ ∧ RequestOk ⟨2, 1⟩ ⟨2, 2, 2, 2⟩ ∧
    (∃ p, Selected pyramidItems (fun d => if d = .C then some 0 else none) none (coveredRegion ⟨2, 1⟩ ⟨2, 2, 2, 2⟩) p ∧
      OnLayer (2 : UInt8).toNat (1 : UInt8).toNat p.2) ∧
    (∀ p, LayerCandidate pyramidItems (fun d => if d = .C then some 0 else none) none ⟨2, 1⟩ p →
      ((pixelSize ⟨2, 1⟩ : Int) ∣ p.2.x - 0) ∧ ((pixelSize ⟨2, 1⟩ : Int) ∣ p.2.y - 0) ∧ ((pixelSize ⟨2, 1⟩ : Int) ∣ p.2.x - 2) ∧ ((pixelSize ⟨2, 1⟩ : Int) ∣ p.2.y - 2) ∧
      ((2 : Int) - 1) * pixelSize ⟨2, 1⟩ < p.2.width ∧ ((2 : Int) - 1) * pixelSize ⟨2, 1⟩ < p.2.height) ∧
    (∀ p, LayerCandidate pyramidItems (fun d => if d = .C then some 0 else none) none ⟨2, 1⟩ p → p = pyramidItem1) := by
  have one : ∀ p, LayerCandidate pyramidItems (fun d => if d = .C then some 0 else none) none ⟨2, 1⟩ p → p = pyramidItem1 := by
    rintro p ⟨h1, -, -, r, h2, -, h3⟩
    have h4 := h3 0 (by decide)
    simp only [pyramidItems, List.mem_cons, List.not_mem_nil, or_false] at h1
    rcases h1 with rfl | rfl
    · simp [pyramidItem0, Minification, Nearest] at h2 h4; omega
    · rfl
  refine ⟨by simp [RequestOk, pixelSize], by simp [RequestOk, pixelSize], ⟨pyramidItem1, ⟨by simp [pyramidItems], ⟨?_, ?_, by simp⟩, fun c h => by cases h⟩,
    pyramidItems_layers.2⟩, ?_, one⟩
  · intro c hc d v hv
    cases hc
    exact hv
  · intro r hr
    cases hr
    exact ⟨2, 2, by simp [IntRect.Has, coveredRegion, pixelSize], by simp [IntRect.Has, pyramidItem1]⟩
  · intro p hp
    rw [one p hp]
    simp [pixelSize, pyramidItem1]

/-- Instance of the hypotheses of `C99_unscaled_partial` about sub-blocks: those of the C60 example, which overlap. -/
example : (∀ p ∈ scalingItems, Usual (.same 1) p.2 (scalingPix p.1).1 (scalingPix p.1).2 ∧ TileOk (.same 1) (tileAt scalingPix p) ∧
      (¬ OnLayer0 p.2 → exactZoom p.2 < 95 / 100)) ∧
    MDecides (fun p => p ∈ scalingItems ∧ Matches (some (fun d => if d = .C then some 0 else none)) none true p.2) (tileAt scalingPix) := by
  refine ⟨fun p hp => ⟨(scalingUsual p hp).1, (scalingUsual p hp).2.2.1, (scalingUsual p hp).2.2.2⟩, ?_⟩
  rintro p q ⟨hp, hp'⟩ ⟨hq, hq'⟩ hne px py - -
  have h1 := hp'.2.2 rfl
  have h2 := hq'.2.2 rfl
  simp only [scalingItems, List.mem_cons, List.not_mem_nil, or_false] at hp hq
  rcases hp with rfl | rfl | rfl <;> rcases hq with rfl | rfl | rfl <;>
    first
    | exact absurd rfl hne
    | (left; simp [PaintedAbove, ValidM]; done)
    | (right; simp [PaintedAbove, ValidM]; done)

end Verif
