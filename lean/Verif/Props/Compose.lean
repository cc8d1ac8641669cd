import Verif.Proof.Compose

/-!
# C31 Coverage, C32 Visibility optimisation, C33 Tile composition, C35 Masked copy
-/

namespace Verif
open Spec Coverage Blit

/-! ## C31 - coverage calculation is exact -/

/-- **C31.** Add any rectangles in any order to a fresh coverage calculator (this always terminates); then for
every query rectangle the reported area is the number of its pixels lying in at least one added rectangle, and
`IsCompletelyCovered` holds iff every pixel of the query lies in an added rectangle. -/
theorem C31_coverage_exact (rs : List IntRect) : ∃ S, rs.foldlM addRectangle [] = some S ∧
    ∀ q : IntRect, calcArea S q = (coveredPixels rs q).card ∧
      (isCompletelyCovered S q = true ↔ ∀ px py, q.Has px py → ∃ r ∈ rs, r.Has px py) := by
  obtain ⟨S, h1, h2, h3⟩ := addAll_ok rs
  refine ⟨S, h1, ?_⟩
  intro q
  have hcov : ∀ px py, Covers S px py ↔ Covers rs px py := by
    intro px py
    rw [h3]
    constructor
    · rintro ⟨r, hr, _, h⟩; exact ⟨r, hr, h⟩
    · rintro ⟨r, hr, h⟩; exact ⟨r, hr, has_valid h, h⟩
  by_cases hq : q.isValid = true
  · have hv := (isValid_iff q).1 hq
    have ha := calcArea_eq S q h2 hv
    rw [covered_congr hcov] at ha
    refine ⟨ha, ?_⟩
    unfold isCompletelyCovered
    simp only [hq, Bool.not_true, Bool.false_eq_true, if_false, decide_eq_true_eq]
    rw [ha, ← card_pixels hv]
    constructor
    · intro h px py hp
      have heq : coveredPixels rs q = pixels q :=
        Finset.eq_of_subset_of_card_le (Finset.filter_subset _ _) (by exact_mod_cast h.ge)
      have : (px, py) ∈ coveredPixels rs q := by rw [heq, mem_pixels]; exact hp
      simp only [coveredPixels, Finset.mem_filter] at this
      exact this.2
    · intro h
      congr 2
      unfold coveredPixels
      rw [Finset.filter_eq_self]
      intro p hp
      exact h p.1 p.2 ((mem_pixels _ _).1 hp)
  · have hno : ∀ px py, ¬ q.Has px py := fun px py h => hq (has_valid h)
    constructor
    · have : coveredPixels rs q = ∅ := by
        unfold coveredPixels
        rw [Finset.filter_eq_empty_iff]
        intro p hp; exact absurd ((mem_pixels _ _).1 hp) (hno _ _)
      rw [this]; simp [calcArea, hq]
    · simp [isCompletelyCovered, hq, hno]

/-- Non-trivial instance: two overlapping rectangles cover 28 = 16+16-4 pixels. -/
example : ([⟨0,0,4,4⟩, ⟨2,2,4,4⟩] : List IntRect).foldlM addRectangle [] =
      some [⟨0,0,4,4⟩, ⟨4,2,2,4⟩, ⟨2,4,2,2⟩] ∧
    calcArea [⟨0,0,4,4⟩, ⟨4,2,2,4⟩, ⟨2,4,2,2⟩] ⟨0,0,10,10⟩ = 28 := by decide +kernel

/-! ## C33 - tile composition paints exactly the tiles -/

/-- **C33 (partial: without tile borders; converters must not read beyond their source pixel).** Composing any list of tiles (any positions, negative too; any sizes; with or without masks) into a
bitmap accesses no memory outside the bitmaps (the result is `some`), keeps its geometry, gives every pixel the
value of the last tile that paints it (or leaves the background), and leaves row padding alone. -/
theorem C33_compose_exact_partial (k : Kind) (dst : Bitmap) (tiles : List Tile) (xPos yPos : Int)
    (hdst : dst.WF k.db) (htiles : ∀ t ∈ tiles, TileOk k t) :
    ∃ out, composeTiles k xPos yPos tiles dst = some out ∧ out.w = dst.w ∧ out.h = dst.h ∧
      out.stride = dst.stride ∧ out.buf.size = dst.buf.size ∧
      (∀ x y j, x < dst.w → y < dst.h → j < k.db →
        out.byteAt k.db x y j = expected k tiles (dst.byteAt k.db x y j) (xPos + x) (yPos + y) j) ∧
      (∀ i, dst.IsPadding k.db i → out.buf.get i = dst.buf.get i) :=
  composeTiles_ok k xPos yPos tiles dst hdst htiles

/-- All modelled converters except Bgr24→Bgr48 stay within the source pixel. -/
example : ∀ c ∈ [convGray8ToGray16, convGray8ToBgr24, convGray16ToGray8, convGray16ToBgr48, convBgr24ToGray8,
    convBgr48ToBgr24], (Kind.conv c).NoOverread := by
  simp [Kind.NoOverread, convGray8ToGray16, convGray8ToBgr24, convGray16ToGray8, convGray16ToBgr48,
    convBgr24ToGray8, convBgr48ToBgr24]

/-- Instance of the hypotheses of C33: a 3x2 Gray8 destination with stride 4 and two 2x2 tiles, one masked and
partly outside. -/
example : (⟨3, 2, 4, Buf.ofList (List.replicate 8 0)⟩ : Bitmap).WF (Kind.same 1).db ∧
    ∀ t ∈ [(⟨-1, 0, ⟨2, 2, 2, Buf.ofList [1,2,3,4]⟩, none⟩ : Tile),
      ⟨1, 1, ⟨2, 2, 2, Buf.ofList [5,6,7,8]⟩, some ⟨2, 2, 1, Buf.ofList [0x80, 0xc0]⟩⟩], TileOk (.same 1) t := by
  simp [Bitmap.WF, TileOk, Mask.WF, Kind.db, Kind.sb, Kind.IsSame, Kind.NoOverread, Buf.ofList]

/-- **C33, defect 1** (violated by the code): converting Bgr24 to Bgr48 reads outside the source buffer, here for
a single 1x1 pixel with a well-formed source and destination. -/
theorem C33_bgr24_to_bgr48_out_of_bounds :
    ∃ (dst src : Bitmap), dst.WF 6 ∧ src.WF 3 ∧
      copyWithOffset (.conv convBgr24ToBgr48) src dst 0 0 false = none := by
  refine ⟨⟨1, 1, 8, ⟨8, fun _ => 0⟩⟩, ⟨1, 1, 3, ⟨3, fun _ => 7⟩⟩, by simp [Bitmap.WF], by simp [Bitmap.WF], ?_⟩
  rfl

/-- **C33, defect 2** (violated by the code): with `drawTileBorder` the interior of a tile is shifted by one pixel:
in a 4x3 Gray8 tile the inner pixel (1,1) of the destination receives the source pixel (0,1), and (2,1)
receives (1,1). -/
theorem C33_border_shifts_content :
    ∃ (dst src out : Bitmap), dst.WF 1 ∧ src.WF 1 ∧
      copyWithOffset (.same 1) src dst 0 0 true = some out ∧
      out.byteAt 1 1 1 0 = src.byteAt 1 0 1 0 ∧ out.byteAt 1 1 1 0 ≠ src.byteAt 1 1 1 0 := by
  refine ⟨⟨4, 3, 4, ⟨12, fun _ => 0⟩⟩, ⟨4, 3, 4, ⟨12, fun i => i.toUInt8⟩⟩, _, by simp [Bitmap.WF],
    by simp [Bitmap.WF], rfl, ?_⟩
  decide

/-- **C33, defect 3**: with `drawTileBorder` and a visible width of one pixel the copy length is negative,
i.e. undefined behaviour. -/
theorem C33_border_width_one_undefined :
    ∃ (dst src : Bitmap), dst.WF 1 ∧ src.WF 1 ∧ copyWithOffset (.same 1) src dst 0 0 true = none := by
  refine ⟨⟨1, 3, 4, ⟨12, fun _ => 0⟩⟩, ⟨1, 3, 4, ⟨12, fun _ => 1⟩⟩, by simp [Bitmap.WF], by simp [Bitmap.WF], rfl⟩

/-! ## C35 - masked copy -/

/-- **C35 (partial: identical pixel types).** Copying a bitmap with a mask sets exactly the destination pixels whose
source pixel exists and is not masked out, and leaves all other pixels and the padding alone. For converting
copies the property is violated, see `C35_converting_masked_copy_wrong`. -/
theorem C35_masked_copy_exact_partial (bpp : Nat) (src dst : Bitmap) (m : Mask) (xOff yOff : Int)
    (hdst : dst.WF bpp) (hsrc : src.WF bpp) (hm : m.WF) :
    ∃ out, copyWithOffsetAndMask (.same bpp) src dst (some m) xOff yOff = some out ∧
      (∀ x y j : Nat, x < dst.w → y < dst.h → j < bpp →
        out.byteAt bpp x y j =
          if 0 ≤ x - xOff ∧ x - xOff < src.w ∧ 0 ≤ y - yOff ∧ y - yOff < src.h ∧
             x - xOff < m.w ∧ y - yOff < m.h ∧ m.at (x - xOff).toNat (y - yOff).toNat = true
          then src.byteAt bpp (x - xOff).toNat (y - yOff).toNat j else dst.byteAt bpp x y j) ∧
      (∀ i, dst.IsPadding bpp i → out.buf.get i = dst.buf.get i) := by
  obtain ⟨out, h1, h2⟩ := compose_ok (.same bpp) dst ⟨xOff, yOff, src, some m⟩ 0 0 hdst hsrc ⟨trivial, hm⟩
  refine ⟨out, by simpa [composeMaskAware] using h1, ?_, h2.outside⟩
  intro x y j hx hy hj
  have h3 := h2.inside x y j hx hy hj
  simp only [Kind.db] at h3
  rw [h3]
  simp only [Tile.paints, Tile.colour, Kind.value, Kind.sb, Int.zero_add, Bool.and_eq_true, decide_eq_true_eq, Kind.db]
  split <;> split <;> first | rfl | (rename_i h3 h4; exfalso; first | (apply h4; omega) | (apply h3; omega) | skip) 
  all_goals first | (apply h4; refine ⟨?_, ?_, ?_, ?_, ?_, ?_, h3.2.2⟩ <;> omega)
                  | (apply h3; refine ⟨?_, ?_, h4.2.2.2.2.2.2⟩ <;> omega)

/-- **C35, violated for converting copies:** a 2x1 Gray8 bitmap with a mask of ones copied into Gray16: the second
pixel of the destination is not written at all (and stays 9), although it is not masked out. -/
theorem C35_converting_masked_copy_wrong :
    ∃ (src dst out : Bitmap) (m : Mask), dst.WF 2 ∧ src.WF 1 ∧ m.WF ∧ m.at 1 0 = true ∧
      copyWithOffsetAndMask (.conv convGray8ToGray16) src dst (some m) 0 0 = some out ∧
      out.byteAt 2 1 0 0 = 9 ∧ src.byteAt 1 1 0 0 = 5 := by
  refine ⟨⟨2, 1, 2, ⟨2, fun _ => 5⟩⟩, ⟨2, 1, 4, ⟨4, fun _ => 9⟩⟩, _, ⟨2, 1, 1, ⟨1, fun _ => 0xff⟩⟩,
    by simp [Bitmap.WF], by simp [Bitmap.WF], by simp [Mask.WF], by decide, rfl, ?_⟩
  decide

/-! ## C32 - visibility optimisation -/

/-- **C32 (partial: sub-blocks without masks).** For every arrangement of sub-blocks (each with a bitmap of
the size of its logical rectangle) the accessor's composition gives the same bytes in every pixel with the visibility
optimisation as without. With masks the property is violated, see `C32_masks_change_picture`. -/
theorem C32_visibility_same_picture_partial (k : Kind) (hk : k.NoOverread) (dst : Bitmap) (hdst : dst.WF k.db)
    (xPos yPos : Int) (sbs : List (IntRect × Bitmap × Option Mask))
    (hs : ∀ s ∈ sbs, s.2.1.WF k.sb ∧ s.1.w = s.2.1.w ∧ s.1.h = s.2.1.h ∧ s.2.2 = none) :
    ∃ o1 o2, accessorComposeTiles k true xPos yPos sbs dst = some o1 ∧
      accessorComposeTiles k false xPos yPos sbs dst = some o2 ∧
      (∀ x y j, x < dst.w → y < dst.h → j < k.db → o1.byteAt k.db x y j = o2.byteAt k.db x y j) ∧
      (∀ i, dst.IsPadding k.db i → o1.buf.get i = o2.buf.get i) ∧
      o1.w = o2.w ∧ o1.h = o2.h ∧ o1.stride = o2.stride := by
  obtain ⟨vis, v1, v2, v3, v4⟩ := checkForVisibility_ok ⟨xPos, yPos, dst.w, dst.h⟩ sbs.length
    (fun i => ((sbs[i]?).map (·.1)).getD ⟨0, 0, -1, -1⟩)
  unfold accessorComposeTiles
  simp only [v1, Bool.false_eq_true, if_false, if_true, Option.bind_some]
  have okAll : ∀ s ∈ sbs, TileOk k ⟨s.1.x, s.1.y, s.2.1, s.2.2⟩ := by
    intro s h
    obtain ⟨a, b, c, d⟩ := hs s h
    refine ⟨a, ?_⟩
    simp only [d]; exact hk
  obtain ⟨o1, p1, pw, ph, ps, _, p2, p3⟩ := composeTiles_ok k xPos yPos
    (vis.filterMap fun i => (sbs[i]?).map fun s => (⟨s.1.x, s.1.y, s.2.1, s.2.2⟩ : Tile)) dst hdst (by
      intro t ht
      rw [List.mem_filterMap] at ht
      obtain ⟨i, hi, he⟩ := ht
      have hil := v3 i hi
      simp only [List.getElem?_eq_getElem hil, Option.map_some, Option.some.injEq] at he
      rw [← he]; exact okAll _ (List.getElem_mem _))
  obtain ⟨o2, q1, qw, qh, qs, _, q2, q3⟩ := composeTiles_ok k xPos yPos
    (sbs.map fun s => (⟨s.1.x, s.1.y, s.2.1, s.2.2⟩ : Tile)) dst hdst (by
      intro t ht
      rw [List.mem_map] at ht
      obtain ⟨s, h, rfl⟩ := ht
      exact okAll s h)
  refine ⟨o1, o2, p1, q1, ?_, fun i hi => by rw [p3 i hi, q3 i hi], by rw [pw, qw], by rw [ph, qh], by rw [ps, qs]⟩
  intro x y j hx hy hj
  rw [p2 x y j hx hy hj, q2 x y j hx hy hj]
  unfold expected
  have hpaint : ∀ i, (h : i < sbs.length) → ∀ px py,
      Tile.paints ⟨sbs[i].1.x, sbs[i].1.y, sbs[i].2.1, sbs[i].2.2⟩ px py = true ↔ (sbs[i].1).Has px py := by
    intro i h px py
    obtain ⟨a, b, c, d⟩ := hs sbs[i] (List.getElem_mem _)
    simp only [Tile.paints, d, Bool.and_true, decide_eq_true_eq, IntRect.Has, b, c]
  rw [select_top sbs (fun s => (⟨s.1.x, s.1.y, s.2.1, s.2.2⟩ : Tile)) vis
    (fun t => t.paints (xPos + ↑x) (yPos + ↑y)) v2 v3 ?_]
  intro i hi hpi hlast
  refine v4 i hi (xPos + x) (yPos + y) (by unfold IntRect.Has; simp only; omega) ?_ ?_
  · simp only [List.getElem?_eq_getElem hi, Option.map_some, Option.getD_some]
    exact (hpaint i hi _ _).1 hpi
  · intro l hl1 hl2 hc
    simp only [List.getElem?_eq_getElem hl2, Option.map_some, Option.getD_some] at hc
    have := hlast l hl1 hl2
    rw [(hpaint l hl2 _ _).2 hc] at this
    exact absurd this (by simp)

/-- Instance of the hypotheses: two overlapping 2x2 tiles on a 3x3 Gray8 destination, of which the lower one is
partly hidden. -/
example : (Kind.same 1).NoOverread ∧ (⟨3, 3, 4, Buf.ofList (List.replicate 12 0)⟩ : Bitmap).WF (Kind.same 1).db ∧
    ∀ s ∈ [((⟨0,0,2,2⟩ : IntRect), (⟨2, 2, 2, Buf.ofList [1,2,3,4]⟩ : Bitmap), (none : Option Mask)),
      (⟨1,1,2,2⟩, ⟨2, 2, 2, Buf.ofList [5,6,7,8]⟩, none)],
      s.2.1.WF (Kind.same 1).sb ∧ s.1.w = s.2.1.w ∧ s.1.h = s.2.1.h ∧ s.2.2 = none := by
  simp [Kind.NoOverread, Bitmap.WF, Buf.ofList, Kind.db, Kind.sb]

/-- **C32 violated with masks:** two 1x1 Gray8 sub-blocks at the same place, the upper one fully masked out.
Without the optimisation the lower one (5) is visible, with the optimisation it is not drawn at all. -/
theorem C32_masks_change_picture :
    ∃ (dst : Bitmap) (sbs : List (IntRect × Bitmap × Option Mask)) (o1 o2 : Bitmap),
      dst.WF 1 ∧
      (∀ s ∈ sbs, s.2.1.WF 1 ∧ s.1.w = s.2.1.w ∧ s.1.h = s.2.1.h ∧ ∀ m ∈ s.2.2, m.WF) ∧
      accessorComposeTiles (.same 1) true 0 0 sbs dst = some o1 ∧
      accessorComposeTiles (.same 1) false 0 0 sbs dst = some o2 ∧
      o1.byteAt 1 0 0 0 = 0 ∧ o2.byteAt 1 0 0 0 = 5 := by
  refine ⟨⟨1, 1, 1, ⟨1, fun _ => 0⟩⟩,
    [(⟨0,0,1,1⟩, ⟨1, 1, 1, ⟨1, fun _ => 5⟩⟩, none),
     (⟨0,0,1,1⟩, ⟨1, 1, 1, ⟨1, fun _ => 6⟩⟩, some ⟨1, 1, 1, ⟨1, fun _ => 0⟩⟩)],
    _, _, by simp [Bitmap.WF], by simp [Bitmap.WF, Mask.WF], rfl, rfl, ?_⟩
  decide

end Verif
