import Verif.Proof.ScalingPaint

/-!
# C60 The scaling tile accessor
-/

namespace Verif
open Spec Blit Accessor Flt Scale

/-! ## Helpers -/

theorem sized_of_usual {k : Kind} {e : Entry} {bm : Bitmap} {mask : Option Mask} (h : Usual k e bm mask) : Sized e := ⟨h.w, h.h⟩

theorem copy_ok {k : Kind} {roi : IntRect} {pix : Pictures} {p : Item} (ht : TileOk k (tileAt pix p)) {d : Bitmap} (hd : d.WF k.db) :
    ∃ out, scaleBlt k 1 roi pix p d = some out ∧
      TilePost k.db d out (fun x y => (tileAt pix p).paints (roi.x + x) (roi.y + y))
        (fun x y j => (tileAt pix p).colour k (roi.x + x) (roi.y + y) j) := by
  obtain ⟨out, o1, o2⟩ := compose_ok k d (tileAt pix p) roi.x roi.y hd ht.1 ht.2
  refine ⟨out, ?_, o2⟩
  unfold scaleBlt
  rw [if_pos rfl]
  exact o1

theorem exactZoom_le_one {e : Entry} (h : Sized e) : exactZoom e ≤ 1 := by
  unfold exactZoom
  obtain ⟨⟨a1, a2, _⟩, b1, b2, _⟩ := h
  split
  · rw [div_le_one (by exact_mod_cast (by omega : 0 < e.width))]; exact_mod_cast a2
  · rw [div_le_one (by exact_mod_cast (by omega : 0 < e.height))]; exact_mod_cast b2

/-- The statistics of a document that was read are as `DocumentStats` demands. -/
theorem documentStats_reader (items : List Item) (h : ∀ p ∈ items, EntryOk p.2) :
    DocumentStats ((items.map (·.2)).foldl ReaderDir.add ReaderDir.init).upd.stats items := by
  rw [readerDir_fold]
  have hi := statsInv_fold (items.map (·.2)) (by
    intro e he
    obtain ⟨p, hp, rfl⟩ := List.mem_map.mp he
    exact h p hp)
  exact ⟨hi.exact, hi.sorted⟩

/-! ## C60 -/

/-- **C60 (partial: zoom not 1; no visibility optimisation; usual sub-blocks and requests; converters must not read beyond their
source pixel; either every sub-block belongs to a scene or none; with sorting by m-index no pyramid sub-block may have a zoom of
exactly 1).** For every document, plane accepted by the plane check, region, zoom, scene filter, destination bitmap, and every
behaviour of the unstable sort: the accessor accesses no memory outside the bitmaps; in each scene it chooses the sub-blocks that are
fine enough for the zoom; each chosen sub-block shows at its position in the document, by the nearest pixel; and every pixel of the
result is that of the topmost chosen sub-block showing there - scenes with larger numbers above, finer ones above coarser ones, on
layer 0 by m-index or by directory order - or the background if there is none. -/
theorem C60_scaled_partial (sort : List Item → List Item) (hsort : SortsWith zoomLess sort) (k : Kind) (hk : k.NoOverread)
    (items : List Item) (hn : items.Nodup) (hu : ScenesUniform items) (stats : Stats) (hst : DocumentStats stats items) (plane : Coord)
    (hplane : checkPlane stats.dimBounds plane = none) (zoom : ℚ) (hz : 0 < zoom) (hz1 : zoom ≠ 1) (filter : Option (Int → Bool))
    (sortByM : Bool) (pix : Pictures) (roi : IntRect) (dst : Bitmap) (hdst : dst.WF k.db) (hr : UsualRequest roi dst)
    (hs : ∀ p, Candidate items plane roi filter p → Usual k p.2 (pix p.1).1 (pix p.1).2)
    (hd : sortByM = true → ∀ p, Candidate items plane roi filter p → ¬ OnLayer0 p.2 → exactZoom p.2 ≠ 1) :
    ∃ out, scalingGet sort k items stats plane zoom filter sortByM false pix roi dst = .ok (some out) ∧
      out.w = dst.w ∧ out.h = dst.h ∧
      (∃ sel, Selects zoom (Candidate items plane roi filter) sel ∧
        ∃ (vx vy : Item → Nat → Prop) (sx sy : Item → Nat → Nat),
          (∀ p, sel p → ShowsAxis p.2.x p.2.width p.2.storedWidth roi.x roi.w dst.w (vx p) (sx p) ∧
            ShowsAxis p.2.y p.2.height p.2.storedHeight roi.y roi.h dst.h (vy p) (sy p)) ∧
          ∀ x y j, x < dst.w → y < dst.h → j < k.db →
            TopMost sel (Over (if sortByM then byM else byPosition items))
              (fun p => vx p x ∧ vy p y ∧ NotMasked (pix p.1).2 (sx p x) (sy p y))
              (fun p => k.value (fun i => (pix p.1).1.byteAt k.sb (sx p x) (sy p y) i) j)
              (dst.byteAt k.db x y j) (out.byteAt k.db x y j)) ∧
      (∀ i, dst.IsPadding k.db i → out.buf.get i = dst.buf.get i) := by
  classical
  obtain ⟨L, L', hL, hget, -⟩ := scalingGet_list hsort k filter sortByM pix roi dst hst hn hplane hu hz
    (fun p hp => ⟨sized_of_usual (hs p hp), (hs p hp).m⟩) hd
  have hone : ∀ p ∈ L, ∀ d : Bitmap, d.WF k.db → d.w = dst.w → d.h = dst.h → _ := fun p hp d hd hw hh =>
    scaleBlt_scaled hk hz1 (hs p (hL.selects.candidate p hp)) hd hw hh hr ((hL.selects.candidate p hp).2.1.2.1 roi rfl)
  obtain ⟨out, o1, o2, o3, o4, o5, o6, o7⟩ := paintAll_ok k zoom roi pix _ _ L dst hdst (fun p hp d hd hw hh => by
    obtain ⟨out, h1, h2, -, -⟩ := hone p hp d hd hw hh
    exact ⟨out, h1, h2⟩)
  refine ⟨out, by rw [hget, o1], o2, o3, ⟨(· ∈ L), hL.selects, fun p => visited (bltX p.2 roi (pix p.1).1 dst),
    fun p => visited (bltY p.2 roi (pix p.1).1 dst), fun p x => ((bltX p.2 roi (pix p.1).1 dst).source x).toNat,
    fun p y => ((bltY p.2 roi (pix p.1).1 dst).source y).toNat, ?_, ?_⟩, o7⟩
  · intro p hp
    obtain ⟨_, -, -, h3, h4⟩ := hone p hp dst hdst rfl rfl
    exact ⟨h3, h4⟩
  · intro x y j hx hy hj
    rw [o6 x y j hx hy hj]
    have ht := topMost_of_list hL (fun p => (decide (visited (bltX p.2 roi (pix p.1).1 dst) x ∧ visited (bltY p.2 roi (pix p.1).1 dst) y)) &&
          shown (pix p.1).2 ((bltX p.2 roi (pix p.1).1 dst).source x).toNat ((bltY p.2 roi (pix p.1).1 dst).source y).toNat)
        (fun p => k.value (fun i => (pix p.1).1.byteAt k.sb ((bltX p.2 roi (pix p.1).1 dst).source x).toNat
          ((bltY p.2 roi (pix p.1).1 dst).source y).toNat i) j) (dst.byteAt k.db x y j)
    simp only [Bool.and_eq_true, decide_eq_true_eq, shown_iff, and_assoc] at ht
    exact ht

/-- **C60 (zoom 1; partial: as above).** With a zoom of 1 the pictures of the chosen sub-blocks are copied, pixel by pixel, to their
position in the document. -/
theorem C60_unscaled_partial (sort : List Item → List Item) (hsort : SortsWith zoomLess sort) (k : Kind)
    (items : List Item) (hn : items.Nodup) (hu : ScenesUniform items) (stats : Stats) (hst : DocumentStats stats items) (plane : Coord)
    (hplane : checkPlane stats.dimBounds plane = none) (filter : Option (Int → Bool))
    (sortByM : Bool) (pix : Pictures) (roi : IntRect) (dst : Bitmap) (hdst : dst.WF k.db)
    (hs : ∀ p, Candidate items plane roi filter p → Usual k p.2 (pix p.1).1 (pix p.1).2 ∧ TileOk k (tileAt pix p))
    (hd : sortByM = true → ∀ p, Candidate items plane roi filter p → ¬ OnLayer0 p.2 → exactZoom p.2 ≠ 1) :
    ∃ out, scalingGet sort k items stats plane 1 filter sortByM false pix roi dst = .ok (some out) ∧
      out.w = dst.w ∧ out.h = dst.h ∧
      (∃ sel, Selects 1 (Candidate items plane roi filter) sel ∧
          ∀ x y j, x < dst.w → y < dst.h → j < k.db →
            TopMost sel (Over (if sortByM then byM else byPosition items))
              (fun p => (tileAt pix p).paints (roi.x + x) (roi.y + y) = true)
              (fun p => (tileAt pix p).colour k (roi.x + x) (roi.y + y) j)
              (dst.byteAt k.db x y j) (out.byteAt k.db x y j)) ∧
      (∀ i, dst.IsPadding k.db i → out.buf.get i = dst.buf.get i) := by
  obtain ⟨L, L', hL, hget, -⟩ := scalingGet_list hsort k filter sortByM pix roi dst hst hn hplane hu (by norm_num : (0 : ℚ) < 1)
    (fun p hp => ⟨sized_of_usual (hs p hp).1, (hs p hp).1.m⟩) hd
  obtain ⟨out, o1, o2, o3, o4, o5, o6, o7⟩ := paintAll_ok k 1 roi pix _ _ L dst hdst
    (fun p hp d hd _ _ => copy_ok (roi := roi) (hs p (hL.selects.candidate p hp)).2 hd)
  refine ⟨out, by rw [hget, o1], o2, o3, ⟨(· ∈ L), hL.selects, ?_⟩, o7⟩
  intro x y j hx hy hj
  rw [o6 x y j hx hy hj]
  exact topMost_of_list hL _ _ _

/-- **C60 (zoom 1, what is chosen).** If every candidate not on layer 0 has a zoom of less than 0.95 (as in the usual pyramids,
where it is at most 1/2), exactly the layer-0 candidates are painted with a zoom of 1. -/
theorem C60_unscaled_layer0 (items : List Item) (plane : Coord) (roi : IntRect) (filter : Option (Int → Bool)) (sel : Item → Prop)
    (h : Selects 1 (Candidate items plane roi filter) sel) (hs : ∀ p, Candidate items plane roi filter p →
      0 < p.2.storedWidth ∧ p.2.storedWidth ≤ p.2.width ∧ p.2.width ≤ 2 ^ 19 ∧ 0 < p.2.storedHeight ∧ p.2.storedHeight ≤ p.2.height ∧
        p.2.height ≤ 2 ^ 19)
    (hp : ∀ p, Candidate items plane roi filter p → ¬ OnLayer0 p.2 → exactZoom p.2 < 95 / 100) (p : Item) :
    sel p ↔ Candidate items plane roi filter p ∧ OnLayer0 p.2 := by
  have hz : ∀ q, Candidate items plane roi filter q → Sized q.2 := fun q hq => by
    obtain ⟨a, b, c, d, e, f⟩ := hs q hq
    exact ⟨⟨a, b, c⟩, d, e, f⟩
  have key : ∀ q, Candidate items plane roi filter q → (1 : ℚ) / (105 / 100) * (1 - zoomSlack) ≤ exactZoom q.2 → OnLayer0 q.2 := by
    intro q hq h1
    by_contra h0
    have h2 := hp q hq h0
    unfold zoomSlack at h1
    norm_num at h1
    linarith
  constructor
  · intro h1
    exact ⟨h.candidate p h1, key p (h.candidate p h1) (h.fineEnough p h1)⟩
  · rintro ⟨h1, h2⟩
    have e1 := exactZoom_layer0 (hz p h1) h2
    refine h.complete p h1 ?_ ?_
    · rw [e1]; unfold zoomSlack; norm_num
    · intro q hq _ h3
      rw [e1, exactZoom_layer0 (hz q hq) (key q hq h3)]
      unfold zoomSlack; norm_num

/-- **C60 (magnification is not supported).** With a zoom above 1.06 nothing is painted at all, whatever the document contains: every
byte of the result is the background. -/
theorem C60_magnified_blank (sort : List Item → List Item) (hsort : SortsWith zoomLess sort) (k : Kind) (hk : k.NoOverread)
    (items : List Item) (hn : items.Nodup) (hu : ScenesUniform items) (stats : Stats) (hst : DocumentStats stats items) (plane : Coord)
    (hplane : checkPlane stats.dimBounds plane = none) (zoom : ℚ) (hz : 106 / 100 < zoom) (filter : Option (Int → Bool))
    (sortByM : Bool) (pix : Pictures) (roi : IntRect) (dst : Bitmap) (hdst : dst.WF k.db) (hr : UsualRequest roi dst)
    (hs : ∀ p, Candidate items plane roi filter p → Usual k p.2 (pix p.1).1 (pix p.1).2)
    (hd : sortByM = true → ∀ p, Candidate items plane roi filter p → ¬ OnLayer0 p.2 → exactZoom p.2 ≠ 1) :
    ∃ out, scalingGet sort k items stats plane zoom filter sortByM false pix roi dst = .ok (some out) ∧
      ∀ x y j, x < dst.w → y < dst.h → j < k.db → out.byteAt k.db x y j = dst.byteAt k.db x y j := by
  obtain ⟨out, h1, -, -, ⟨sel, hsel, vx, vy, sx, sy, -, h2⟩, -⟩ := C60_scaled_partial sort hsort k hk items hn hu stats hst plane hplane zoom
    (by linarith) (by linarith) filter sortByM pix roi dst hdst hr hs hd
  refine ⟨out, h1, ?_⟩
  intro x y j hx hy hj
  rcases h2 x y j hx hy hj with h | ⟨p, hp, -⟩
  · exact h.2
  · exfalso
    have h3 := hsel.fineEnough p hp
    have h4 := exactZoom_le_one (sized_of_usual (hs p (hsel.candidate p hp)))
    have h5 : (106 : ℚ) / 100 / (105 / 100) * (1 - zoomSlack) ≤ zoom / (105 / 100) * (1 - zoomSlack) := by
      unfold zoomSlack
      apply mul_le_mul_of_nonneg_right _ (by norm_num)
      apply div_le_div_of_nonneg_right (by linarith) (by norm_num)
    unfold zoomSlack at h3 h5
    norm_num at h3 h5
    linarith

/-! ## The visibility optimisation -/

/-- **C60 (visibility optimisation; partial: zoom 1, no masks, pictures on layer 0 of the size of their logical rectangle, zoom of the
others less than 0.95).** The result with the optimisation has the same bytes as the one without. With masks this is violated, see
`C60_masks_change_picture`. -/
theorem C60_visibility_same_picture_partial (sort : List Item → List Item) (hsort : SortsWith zoomLess sort) (k : Kind) (hk : k.NoOverread)
    (items : List Item) (hn : items.Nodup) (hu : ScenesUniform items) (stats : Stats) (hst : DocumentStats stats items) (plane : Coord)
    (hplane : checkPlane stats.dimBounds plane = none) (filter : Option (Int → Bool))
    (sortByM : Bool) (pix : Pictures) (roi : IntRect) (dst : Bitmap) (hdst : dst.WF k.db)
    (hw : (dst.w : Int) = roi.w) (hh : (dst.h : Int) = roi.h)
    (hs : ∀ p, Candidate items plane roi filter p → Usual k p.2 (pix p.1).1 (pix p.1).2 ∧ (pix p.1).2 = none)
    (hd : ∀ p, Candidate items plane roi filter p → ¬ OnLayer0 p.2 → exactZoom p.2 < 95 / 100) :
    ∃ o1 o2, scalingGet sort k items stats plane 1 filter sortByM true pix roi dst = .ok (some o1) ∧
      scalingGet sort k items stats plane 1 filter sortByM false pix roi dst = .ok (some o2) ∧
      (∀ x y j, x < dst.w → y < dst.h → j < k.db → o1.byteAt k.db x y j = o2.byteAt k.db x y j) ∧
      (∀ i, dst.IsPadding k.db i → o1.buf.get i = o2.buf.get i) := by
  obtain ⟨L, L', hL, h1, h2, h3, h4⟩ := scalingGet_list hsort k filter sortByM pix roi dst hst hn hplane hu (by norm_num : (0 : ℚ) < 1)
    (fun p hp => ⟨sized_of_usual (hs p hp).1, (hs p hp).1.m⟩) (fun _ p hp h0 => by have := hd p hp h0; intro h; rw [h] at this; norm_num at this)
  have hok : ∀ p ∈ L, TileOk k (tileAt pix p) := by
    intro p hp
    obtain ⟨a, b⟩ := hs p (hL.selects.candidate p hp)
    refine ⟨a.wf, ?_⟩
    simp only [tileAt, b]
    exact hk
  have hl0 : ∀ p ∈ L, OnLayer0 p.2 := fun p hp =>
    ((C60_unscaled_layer0 items plane roi filter _ hL.selects (fun q hq => by
      obtain ⟨⟨a, b, c⟩, d, e, f⟩ := sized_of_usual (hs q hq).1
      exact ⟨a, b, c, d, e, f⟩) hd p).mp hp).2
  obtain ⟨o1, p1, -, -, -, -, p6, p7⟩ := paintAll_ok k 1 roi pix _ _ L' dst hdst (fun p hp d hd _ _ => copy_ok (roi := roi) (hok p (h3 p hp)) hd)
  obtain ⟨o2, q1, -, -, -, -, q6, q7⟩ := paintAll_ok k 1 roi pix _ _ L dst hdst (fun p hp d hd _ _ => copy_ok (roi := roi) (hok p hp) hd)
  refine ⟨o1, o2, by rw [h2, p1], by rw [h1, q1], ?_, fun i hi => by rw [p7 i hi, q7 i hi]⟩
  intro x y j hx hy hj
  rw [p6 x y j hx hy hj, q6 x y j hx hy hj, h4 (roi.x + x) (roi.y + y) (by unfold IntRect.Has; omega) _ ?_]
  intro p hp
  obtain ⟨a, b⟩ := hs p (hL.selects.candidate p hp)
  have c := a.size
  have d := hl0 p hp
  unfold OnLayer0 at d
  simp only [Tile.paints, tileAt, b, Bool.and_true, decide_eq_true_eq, IntRect.Has, Entry.rect]
  omega

/-! ## Violations -/

/-- A sub-block of channel 0: m-index, rectangle, stored size. -/
def exSb (m x y w h sw sh : Int) : Entry := ⟨fun d => if d = .C then some 0 else none, m, x, y, w, h, sw, sh, 0, 0, 0, 0⟩

/-- **C60, violation: with sorting by m-index, the order passed to `std::sort` need not be a strict weak ordering.** Two sub-blocks on
layer 0, and a third one of the same zoom 1 that is stored with a different width: the first two are ordered by m-index, but both are
equivalent to the third. The behaviour of `std::sort` is then undefined. -/
theorem C60_sort_order_invalid : ∃ l : List Item, (∀ p ∈ l, Usual (.same 1) p.2
      ⟨p.2.storedWidth.toNat, p.2.storedHeight.toNat, 4, ⟨16, fun _ => 0⟩⟩ none) ∧ ¬ StrictWeak zoomLess l := by
  refine ⟨[(0, exSb 1 0 0 4 4 4 4), (1, exSb 0 0 0 4 4 2 4), (2, exSb 0 0 0 4 4 4 4)], ?_, ?_⟩
  · intro p hp
    simp only [List.mem_cons, List.not_mem_nil, or_false] at hp
    rcases hp with rfl | rfl | rfl <;>
      exact ⟨by decide, by decide, by decide, by decide, by simp [Bitmap.WF, exSb, Kind.sb], by intro m h; cases h⟩
  · intro h
    have h1 : zoomOf (exSb 1 0 0 4 4 4 4) = 1 := zoomOf_layer0 ⟨by decide, by decide⟩ ⟨rfl, rfl⟩
    have h2 : zoomOf (exSb 0 0 0 4 4 4 4) = 1 := zoomOf_layer0 ⟨by decide, by decide⟩ ⟨rfl, rfl⟩
    have h3 : zoomOf (exSb 0 0 0 4 4 2 4) = 1 := by
      rw [zoomOf_eq ⟨by decide, by decide⟩]
      have : exactZoom (exSb 0 0 0 4 4 2 4) = 1 := by unfold exactZoom exSb; norm_num
      rw [this, f32_one]
    have a := h.incomp (2, exSb 0 0 0 4 4 4 4) (by simp) (1, exSb 0 0 0 4 4 2 4) (by simp) (0, exSb 1 0 0 4 4 4 4) (by simp)
      (by unfold zoomLess; simp only [h1, h2, h3]; decide) (by unfold zoomLess; simp only [h1, h2, h3]; decide)
      (by unfold zoomLess; simp only [h1, h2, h3]; decide) (by unfold zoomLess; simp only [h1, h2, h3]; decide)
    have b := a.1
    unfold zoomLess at b
    simp only [h1, h2] at b
    revert b
    decide

/-- **C60, violation: sub-blocks without a scene index.** If at least two scenes are involved, the sub-blocks without a scene index
have no influence on the result at all, although they pass every scene filter; with one scene they are painted. -/
theorem C60_no_scene_ignored (sort : List Item → List Item) (k : Kind) (items : List Item) (stats : Stats) (plane : Coord)
    (zoom : ℚ) (filter : Option (Int → Bool)) (sortByM vis : Bool) (pix : Pictures) (roi : IntRect) (dst : Bitmap)
    (h : 2 ≤ (involvedScenes stats.scenes filter roi).length) :
    scalingGet sort k items stats plane zoom filter sortByM vis pix roi dst =
      scalingGet sort k (items.filter (fun p => (p.2.coordinate .S).isSome)) stats plane zoom filter sortByM vis pix roi dst := by
  classical
  have hsub : ∀ s, subSet items (plane.set .S s) roi none =
      subSet (items.filter (fun p => (p.2.coordinate .S).isSome)) (plane.set .S s) roi none := by
    intro s
    rw [subSet_eq, subSet_eq]
    congr 1
    rw [List.filter_filter]
    apply List.filter_congr
    intro p _
    by_cases hm : Matches (some (plane.set .S s)) (some roi) false p.2
    · have := hm.1 _ rfl .S s (by simp [Coord.set])
      simp [hm, this]
    · simp [hm]
  have hps : ∀ ss d, paintScenes sort k items plane zoom sortByM vis pix roi ss d =
      paintScenes sort k (items.filter (fun p => (p.2.coordinate .S).isSome)) plane zoom sortByM vis pix roi ss d := by
    intro ss
    induction ss with
    | nil => intro d; rfl
    | cons s ss ih =>
      intro d
      unfold paintScenes
      rw [hsub s]
      congr 1
      funext d
      exact ih d
  unfold scalingGet
  cases checkPlane stats.dimBounds plane with
  | some e => rfl
  | none =>
    dsimp only
    rw [if_neg (by omega), if_neg (by omega), hps]

/-- **C60, violation: with a zoom of 1, sub-blocks of a pyramid with a zoom between 0.953 and 1 are copied without being enlarged.** If
such a sub-block is the only candidate, the pixels of its rectangle to the right of its stored width keep the background. -/
theorem C60_unscaled_pyramid_gap (sort : List Item → List Item) (hsort : SortsWith zoomLess sort) (k : Kind)
    (items : List Item) (hn : items.Nodup) (hu : ScenesUniform items) (stats : Stats) (hst : DocumentStats stats items) (plane : Coord)
    (hplane : checkPlane stats.dimBounds plane = none) (filter : Option (Int → Bool))
    (sortByM : Bool) (pix : Pictures) (roi : IntRect) (dst : Bitmap) (hdst : dst.WF k.db) (p : Item)
    (hone : ∀ q, Candidate items plane roi filter q ↔ q = p)
    (hp : Usual k p.2 (pix p.1).1 (pix p.1).2 ∧ TileOk k (tileAt pix p)) (hz : 953 / 1000 ≤ exactZoom p.2) (hz1 : exactZoom p.2 < 1) :
    ∃ out, scalingGet sort k items stats plane 1 filter sortByM false pix roi dst = .ok (some out) ∧
      (∀ x y j, x < dst.w → y < dst.h → j < k.db → p.2.x + p.2.storedWidth ≤ roi.x + x →
        out.byteAt k.db x y j = dst.byteAt k.db x y j) ∧
      (∀ x y j, x < dst.w → y < dst.h → j < k.db → (tileAt pix p).paints (roi.x + x) (roi.y + y) = true →
        out.byteAt k.db x y j = (tileAt pix p).colour k (roi.x + x) (roi.y + y) j) := by
  obtain ⟨out, h1, -, -, ⟨sel, hsel, h2⟩, -⟩ := C60_unscaled_partial sort hsort k items hn hu stats hst plane hplane filter sortByM pix roi
    dst hdst (fun q hq => by rw [(hone q).mp hq]; exact hp) (fun _ q hq _ => by rw [(hone q).mp hq]; exact hz1.ne)
  refine ⟨out, h1, ?_, ?_⟩
  · intro x y j hx hy hj hpos
    rcases h2 x y j hx hy hj with h | ⟨q, hq, hq2, -⟩
    · exact h.2
    · exfalso
      rw [(hone q).mp (hsel.candidate q hq)] at hq2
      unfold Tile.paints at hq2
      rw [Bool.and_eq_true, decide_eq_true_eq] at hq2
      have := hp.1.size
      have h3 := hq2.1
      dsimp only [tileAt] at h3
      omega
  · intro x y j hx hy hj hpaint
    have hs : sel p := by
      refine hsel.complete p ((hone p).mpr rfl) ?_ ?_
      · refine le_trans ?_ hz
        unfold zoomSlack; norm_num
      · intro q hq _ _
        rw [(hone q).mp hq]
        have : (0 : ℚ) < exactZoom p.2 := by linarith
        unfold zoomSlack; linarith
    rcases h2 x y j hx hy hj with h | ⟨q, hq, -, hv, -⟩
    · exact absurd hpaint (h.1 p hs)
    · rw [hv, (hone q).mp (hsel.candidate q hq)]

/-- Two 1x1 sub-blocks at the same place. -/
def maskItems : List Item := [(0, exSb 0 0 0 1 1 1 1), (1, exSb 1 0 0 1 1 1 1)]

/-- Their pictures: the upper one is masked out. -/
def maskPix : Pictures := fun i =>
  (⟨1, 1, 1, ⟨1, fun _ => if i = 0 then 5 else 6⟩⟩, if i = 0 then none else some ⟨1, 1, 1, ⟨1, fun _ => 0⟩⟩)

/-- Their statistics. -/
def maskStats : Stats := ((maskItems.map (·.2)).foldl ReaderDir.add ReaderDir.init).upd.stats

theorem maskRange (sort : List Item → List Item) :
    zoomRange 1 (createSortByZoom sort false (subSet maskItems (fun d => if d = .C then some 0 else none) ⟨0, 0, 1, 1⟩
      (some (involvedScenes maskStats.scenes none ⟨0, 0, 1, 1⟩)))) = maskItems := by
  have h0 : subSet maskItems (fun d => if d = .C then some 0 else none) ⟨0, 0, 1, 1⟩
      (some (involvedScenes maskStats.scenes none ⟨0, 0, 1, 1⟩)) = maskItems := by rfl
  have z : ∀ p ∈ maskItems, zoomOf p.2 = 1 := by
    intro p hp
    simp only [maskItems, List.mem_cons, List.not_mem_nil, or_false] at hp
    rcases hp with rfl | rfl <;> exact zoomOf_layer0 ⟨by decide, by decide⟩ ⟨rfl, rfl⟩
  have h1 : createSortByZoom sort false maskItems = maskItems := by
    unfold createSortByZoom
    rw [if_neg (by simp)]
    apply List.mergeSort_of_pairwise
    have : ∀ a ∈ maskItems, ∀ b ∈ maskItems, decide (zoomOf a.2 ≤ zoomOf b.2) = true := by
      intro a ha b hb
      rw [z a ha, z b hb]; simp
    exact List.pairwise_of_forall_mem_list this
  rw [h0, h1]
  have l : ¬ (1 : ℚ) < f32 (1 / f32 (105 / 100)) := by
    have := (lowLimit_rel (z := 1) (by norm_num)).2
    unfold lowLimit at this
    norm_num at this ⊢
    linarith
  have u : (1 : ℚ) < f32 (1 * f32 (19 / 10)) := highLimit_gt (by norm_num)
  have z0 := z (0, exSb 0 0 0 1 1 1 1) (by simp [maskItems])
  have z1 := z (1, exSb 1 0 0 1 1 1 1) (by simp [maskItems])
  dsimp only at z0 z1
  unfold zoomRange maskItems
  simp only [List.dropWhile_cons, z0, l, decide_false, Bool.false_eq_true, if_false, List.takeWhile_cons, z1, u, decide_true, if_true,
    List.takeWhile_nil]

/-- **C60, violation: the visibility optimisation ignores masks.** Two 1x1 sub-blocks at the same place, the upper one masked out: without
the optimisation the lower one (5) is visible, with it the background. -/
theorem C60_masks_change_picture (sort : List Item → List Item) : ∃ o1 o2,
    scalingGet sort (.same 1) maskItems maskStats (fun d => if d = .C then some 0 else none) 1 none false true maskPix ⟨0, 0, 1, 1⟩
      ⟨1, 1, 1, ⟨1, fun _ => 0⟩⟩ = .ok (some o1) ∧
    scalingGet sort (.same 1) maskItems maskStats (fun d => if d = .C then some 0 else none) 1 none false false maskPix ⟨0, 0, 1, 1⟩
      ⟨1, 1, 1, ⟨1, fun _ => 0⟩⟩ = .ok (some o2) ∧
    o1.byteAt 1 0 0 0 = 0 ∧ o2.byteAt 1 0 0 0 = 5 := by
  have hp : checkPlane maskStats.dimBounds (fun d => if d = .C then some 0 else none) = none := by decide +kernel
  have hi : (involvedScenes maskStats.scenes none ⟨0, 0, 1, 1⟩).length ≤ 1 := by decide +kernel
  have hb : ∀ p d, scaleBlt (.same 1) 1 ⟨0, 0, 1, 1⟩ maskPix p d =
      copyWithOffsetAndMask (.same 1) (maskPix p.1).1 d (maskPix p.1).2 (p.2.x - 0) (p.2.y - 0) := by
    intro p d
    unfold scaleBlt
    rw [if_pos rfl]
  have e1 : ∃ o, copyWithOffsetAndMask (.same 1) (maskPix 1).1 ⟨1, 1, 1, ⟨1, fun _ => 0⟩⟩ (maskPix 1).2 (0 - 0) (0 - 0) = some o ∧
      o.byteAt 1 0 0 0 = 0 := ⟨_, rfl, by decide +kernel⟩
  have e2 : ∃ o, (copyWithOffsetAndMask (.same 1) (maskPix 0).1 ⟨1, 1, 1, ⟨1, fun _ => 0⟩⟩ (maskPix 0).2 (0 - 0) (0 - 0)).bind
      (fun d => copyWithOffsetAndMask (.same 1) (maskPix 1).1 d (maskPix 1).2 (0 - 0) (0 - 0)) = some o ∧
      o.byteAt 1 0 0 0 = 5 := ⟨_, rfl, by decide +kernel⟩
  obtain ⟨o1, a1, a2⟩ := e1
  obtain ⟨o2, b1, b2⟩ := e2
  refine ⟨o1, o2, ?_, ?_, a2, b2⟩
  · unfold scalingGet
    rw [hp]
    dsimp only
    rw [if_pos hi]
    unfold paint
    dsimp only
    rw [maskRange, if_pos ⟨rfl, by simp [maskItems]⟩]
    have hv : Coverage.checkForVisibility ⟨0, 0, 1, 1⟩ maskItems.length
        (fun i => ((maskItems[i]?).map (·.2.rect)).getD ⟨0, 0, -1, -1⟩) = some [1] := by decide +kernel
    rw [hv]
    rw [Option.bind_some]
    have hl : List.filterMap (fun i => maskItems[i]?) [1] = [(1, exSb 1 0 0 1 1 1 1)] := rfl
    rw [hl]
    unfold paintAll
    rw [hb]
    refine congrArg Except.ok ?_
    show (copyWithOffsetAndMask (.same 1) (maskPix 1).1 ⟨1, 1, 1, ⟨1, fun _ => 0⟩⟩ (maskPix 1).2 (0 - 0) (0 - 0)).bind _ = _
    rw [a1]
    rfl
  · unfold scalingGet
    rw [hp]
    dsimp only
    rw [if_pos hi]
    unfold paint
    dsimp only
    rw [maskRange, if_neg (by simp)]
    show Except.ok ((scaleBlt _ _ _ _ (0, exSb 0 0 0 1 1 1 1) _).bind
      (fun d => (scaleBlt _ _ _ _ (1, exSb 1 0 0 1 1 1 1) d).bind some)) = _
    simp only [hb]
    exact congrArg Except.ok b1

/-! ## Size and arguments -/

/-- **C60 (size).** For every non-empty region and every zoom between 0 and 1, the size of the result is that of the region times the
zoom, rounded down (up to the rounding of `float`). -/
theorem C60_size (roi : IntRect) (zoom : ℚ) (hz : 0 < zoom) (hz1 : zoom ≤ 1) (hw : 0 < roi.w ∧ roi.w ≤ 2147483647)
    (hh : 0 < roi.h ∧ roi.h ≤ 2147483647) : ∃ w h, calcSize roi zoom = some (w, h) ∧
      ((w : ℚ) ≤ roi.w * zoom * (1 + zoomSlack) ∧ roi.w * zoom * (1 - zoomSlack) < w + 1) ∧
      ((h : ℚ) ≤ roi.h * zoom * (1 + zoomSlack) ∧ roi.h * zoom * (1 - zoomSlack) < h + 1) := by
  have key : ∀ n : Int, 0 < n → n ≤ 2147483647 → 0 ≤ f32 (f32 n * zoom) ∧ f32 (f32 n * zoom) < 4294967296 ∧
      f32 (f32 n * zoom) ≤ n * zoom * (1 + zoomSlack) ∧ n * zoom * (1 - zoomSlack) ≤ f32 (f32 n * zoom) := by
    intro n h1 h2
    have q1 : (0 : ℚ) < n := by exact_mod_cast h1
    have q2 : (n : ℚ) ≤ 2147483647 := by exact_mod_cast h2
    obtain ⟨a1, a2⟩ := f32_rel q1.le
    have a0 : 0 ≤ f32 (n : ℚ) := le_trans (mul_nonneg q1.le (by norm_num)) a1
    obtain ⟨b1, b2⟩ := f32_rel (mul_nonneg a0 hz.le)
    have p0 : 0 < (n : ℚ) * zoom := mul_pos q1 hz
    have c1 : f32 n * zoom ≤ n * zoom * (1 + 1 / 2 ^ 24) := by nlinarith
    have c2 : n * zoom * (1 - 1 / 2 ^ 24) ≤ f32 n * zoom := by nlinarith
    have d1 : f32 (f32 n * zoom) ≤ n * zoom * (1 + zoomSlack) := by
      refine le_trans b2 (le_trans (mul_le_mul_of_nonneg_right c1 (by norm_num)) ?_)
      rw [mul_assoc]
      exact mul_le_mul_of_nonneg_left (by unfold zoomSlack; norm_num) p0.le
    have d2 : n * zoom * (1 - zoomSlack) ≤ f32 (f32 n * zoom) := by
      refine le_trans ?_ (le_trans (mul_le_mul_of_nonneg_right c2 (by norm_num)) b1)
      rw [mul_assoc (↑n * zoom) (1 - 1 / 2 ^ 24)]
      exact mul_le_mul_of_nonneg_left (by unfold zoomSlack; norm_num) p0.le
    have s0 : (0 : ℚ) ≤ 1 - zoomSlack := by unfold zoomSlack; norm_num
    refine ⟨le_trans (mul_nonneg p0.le s0) d2, lt_of_le_of_lt d1 ?_, d1, d2⟩
    have : (n : ℚ) * zoom ≤ 2147483647 := by nlinarith
    unfold zoomSlack
    linarith
  obtain ⟨w1, w2, w3, w4⟩ := key roi.w hw.1 hw.2
  obtain ⟨h1, h2, h3, h4⟩ := key roi.h hh.1 hh.2
  have trunc : ∀ q : ℚ, 0 ≤ q → (((truncInt q).toNat : ℕ) : ℚ) ≤ q ∧ q < ((truncInt q).toNat : ℕ) + 1 := by
    intro q hq
    have e : truncInt q = ⌊q⌋ := by unfold truncInt; rw [if_pos hq]
    have e2 : ((⌊q⌋.toNat : ℕ) : ℚ) = (⌊q⌋ : ℚ) := by
      have : ((⌊q⌋.toNat : ℕ) : ℤ) = ⌊q⌋ := Int.toNat_of_nonneg (Int.floor_nonneg.mpr hq)
      exact_mod_cast this
    rw [e, e2]
    exact ⟨Int.floor_le q, Int.lt_floor_add_one q⟩
  refine ⟨_, _, ?_, ⟨le_trans (trunc _ w1).1 w3, lt_of_le_of_lt w4 (trunc _ w1).2⟩, ⟨le_trans (trunc _ h1).1 h3, lt_of_le_of_lt h4 (trunc _ h1).2⟩⟩
  unfold calcSize
  dsimp only
  rw [if_pos ⟨by linarith, w2, by linarith, h2⟩]

/-- **C60 (arguments).** A destination bitmap of the wrong size is rejected with an exception before anything is painted; a plane that
is not accepted leads to its exception; otherwise the bitmap is painted. -/
theorem C60_arguments (sort : List Item → List Item) (k : Kind) (items : List Item) (stats : Stats) (plane : Coord) (zoom : ℚ)
    (filter : Option (Int → Bool)) (sortByM vis : Bool) (pix : Pictures) (roi : IntRect) (dst : Bitmap) (w h : Nat)
    (hc : calcSize roi zoom = some (w, h)) :
    (¬ (w = dst.w ∧ h = dst.h) → scalingGetInto sort k items stats plane zoom filter sortByM vis pix roi dst = .error none) ∧
    (w = dst.w → h = dst.h → ∀ e, checkPlane stats.dimBounds plane = some e →
      scalingGetInto sort k items stats plane zoom filter sortByM vis pix roi dst = .error (some e)) ∧
    (w = dst.w → h = dst.h → ∀ out, scalingGet sort k items stats plane zoom filter sortByM vis pix roi dst = .ok out →
      scalingGetInto sort k items stats plane zoom filter sortByM vis pix roi dst = .ok out) := by
  unfold scalingGetInto
  rw [hc]
  dsimp only
  refine ⟨?_, ?_, ?_⟩
  · intro hne
    rw [if_pos (by omega)]
  · intro h1 h2 e he
    rw [if_neg (by simp [h1, h2])]
    unfold scalingGet
    rw [he]
  · intro h1 h2 out ho
    rw [if_neg (by simp [h1, h2]), ho]

/-! ## The hypotheses are met -/

theorem strictWeak_le_trans {less : Item → Item → Bool} {l : List Item} (h : StrictWeak less l) {a b c : Item} (ha : a ∈ l) (hb : b ∈ l)
    (hc : c ∈ l) (h1 : less b a = false) (h2 : less c b = false) : less c a = false := by
  cases h3 : less c a with
  | false => rfl
  | true =>
    cases h4 : less a b with
    | true => rw [h.trans c hc a ha b hb h3 h4] at h2; cases h2
    | false =>
      cases h5 : less b c with
      | true => rw [h.trans b hb c hc a ha h5 h3] at h1; cases h1
      | false => rw [(h.incomp a ha b hb c hc h4 h1 h5 h2).2] at h3; cases h3

theorem strictWeak_total {less : Item → Item → Bool} {l : List Item} (h : StrictWeak less l) {a b : Item} (ha : a ∈ l) (hb : b ∈ l) :
    (!less b a || !less a b) = true := by
  cases h1 : less b a with
  | false => rfl
  | true =>
    cases h2 : less a b with
    | false => rfl
    | true => have h3 := h.trans a ha b hb a ha h2 h1; rw [h.irrefl a ha] at h3; cases h3

/-- A function with the guarantees of `std::sort` exists. -/
theorem sortsWith_exists (less : Item → Item → Bool) :
    SortsWith less (fun l => (l.attach.mergeSort (fun a b => !less b.1 a.1)).map (·.1)) := by
  intro l h
  dsimp only
  constructor
  · have := (List.mergeSort_perm l.attach (fun a b => !less b.1 a.1)).map (·.1)
    rwa [List.attach_map_subtype_val] at this
  · rw [List.pairwise_map]
    have := List.pairwise_mergeSort (le := fun a b : {x // x ∈ l} => !less b.1 a.1)
      (fun a b c h1 h2 => by
        simp only [Bool.not_eq_true'] at h1 h2 ⊢
        exact strictWeak_le_trans h a.2 b.2 c.2 h1 h2)
      (fun a b => strictWeak_total h a.2 b.2) l.attach
    simpa using this

/-- A document with two scenes: a 4x4 sub-block and a reduced copy of it in scene 0, a 4x4 sub-block in scene 1. -/
def scalingItems : List Item :=
  [(0, ⟨fun d => if d = .C then some 0 else if d = .S then some 0 else none, 1, 0, 0, 4, 4, 4, 4, 0, 0, 0, 0⟩),
   (1, ⟨fun d => if d = .C then some 0 else if d = .S then some 0 else none, 2147483647, 0, 0, 4, 4, 2, 2, 0, 0, 0, 0⟩),
   (2, ⟨fun d => if d = .C then some 0 else if d = .S then some 1 else none, 0, 2, 2, 4, 4, 4, 4, 0, 0, 0, 0⟩)]

/-- Its pictures. -/
def scalingPix : Pictures := fun i =>
  (if i = 1 then ⟨2, 2, 2, ⟨4, fun _ => 7⟩⟩ else ⟨4, 4, 4, ⟨16, fun _ => 5⟩⟩, none)

/-- Its statistics. -/
def scalingStats : Stats := ((scalingItems.map (·.2)).foldl ReaderDir.add ReaderDir.init).upd.stats

theorem scalingUsual : ∀ p ∈ scalingItems, Usual (.same 1) p.2 (scalingPix p.1).1 (scalingPix p.1).2 ∧
    (scalingPix p.1).2 = none ∧ TileOk (.same 1) (tileAt scalingPix p) ∧ (¬ OnLayer0 p.2 → exactZoom p.2 < 95 / 100) := by
  intro p hp
  simp only [scalingItems, List.mem_cons, List.not_mem_nil, or_false] at hp
  rcases hp with rfl | rfl | rfl
  · exact ⟨⟨by decide, by decide, by decide, by decide, by unfold Bitmap.WF; decide, by intro m h; cases h⟩, rfl,
      ⟨by unfold Bitmap.WF; decide, trivial⟩, fun h => absurd ⟨rfl, rfl⟩ h⟩
  · exact ⟨⟨by decide, by decide, by decide, by decide, by unfold Bitmap.WF; decide, by intro m h; cases h⟩, rfl,
      ⟨by unfold Bitmap.WF; decide, trivial⟩, fun _ => by unfold exactZoom; norm_num⟩
  · exact ⟨⟨by decide, by decide, by decide, by decide, by unfold Bitmap.WF; decide, by intro m h; cases h⟩, rfl,
      ⟨by unfold Bitmap.WF; decide, trivial⟩, fun h => absurd ⟨rfl, rfl⟩ h⟩

/-- Instance of the hypotheses of the C60 theorems: that document, the region from (0, 0) to (6, 6), reduced to 3x3 pixels. -/
example : scalingItems.Nodup ∧ ScenesUniform scalingItems ∧ DocumentStats scalingStats scalingItems ∧
    checkPlane scalingStats.dimBounds (fun d => if d = .C then some 0 else none) = none ∧
    (⟨3, 3, 3, ⟨9, fun _ => 0⟩⟩ : Bitmap).WF (Kind.same 1).db ∧ UsualRequest ⟨0, 0, 6, 6⟩ ⟨3, 3, 3, ⟨9, fun _ => 0⟩⟩ ∧
    (∀ p, Candidate scalingItems (fun d => if d = .C then some 0 else none) ⟨0, 0, 6, 6⟩ none p →
      Usual (.same 1) p.2 (scalingPix p.1).1 (scalingPix p.1).2 ∧ (¬ OnLayer0 p.2 → exactZoom p.2 ≠ 1)) ∧
    (involvedScenes scalingStats.scenes none ⟨0, 0, 6, 6⟩).length = 2 ∧ calcSize ⟨0, 0, 6, 6⟩ 1 = some (6, 6) := by
  refine ⟨?_, ?_, ?_, by decide +kernel, by unfold Bitmap.WF; decide, ⟨by decide, by decide, by decide, by decide⟩, ?_, by decide +kernel, ?_⟩
  · have : (scalingItems.map (·.1)).Nodup := by decide
    exact List.Nodup.of_map _ this
  · left
    intro p hp
    simp only [scalingItems, List.mem_cons, List.not_mem_nil, or_false] at hp
    rcases hp with rfl | rfl | rfl <;> decide
  · apply documentStats_reader
    intro p hp
    simp only [scalingItems, List.mem_cons, List.not_mem_nil, or_false] at hp
    rcases hp with rfl | rfl | rfl <;> exact ⟨by decide, by decide, fun _ => ⟨.C, rfl⟩⟩
  · intro p hp
    obtain ⟨a, -, -, d⟩ := scalingUsual p hp.1
    exact ⟨a, fun h h1 => by have := d h; rw [h1] at this; norm_num at this⟩
  · have h6 : f32 ((6 : Int) : ℚ) = 6 := f32_size (z := 6) (by norm_num) (by norm_num)
    unfold calcSize
    dsimp only
    rw [h6, mul_one, show (6 : ℚ) = ((6 : Int) : ℚ) by norm_num, h6]
    norm_num [truncInt]
    rfl

/-- Instance of the hypotheses at zoom 1, and with the visibility optimisation: all three sub-blocks are candidates. -/
example : (∀ p ∈ scalingItems, Candidate scalingItems (fun d => if d = .C then some 0 else none) ⟨0, 0, 6, 6⟩ none p) ∧
    (∀ p, Candidate scalingItems (fun d => if d = .C then some 0 else none) ⟨0, 0, 6, 6⟩ none p →
      TileOk (.same 1) (tileAt scalingPix p) ∧ (scalingPix p.1).2 = none ∧ (¬ OnLayer0 p.2 → exactZoom p.2 < 95 / 100)) := by
  constructor
  · intro p hp
    refine ⟨hp, ?_, fun c h => by cases h⟩
    simp only [scalingItems, List.mem_cons, List.not_mem_nil, or_false] at hp
    rcases hp with rfl | rfl | rfl
    · exact ⟨by intro c hc d v hv; cases hc; dsimp only at hv ⊢; split at hv <;> simp_all, fun q hq => ⟨3, 3, by cases hq; decide, by decide⟩, by simp⟩
    · exact ⟨by intro c hc d v hv; cases hc; dsimp only at hv ⊢; split at hv <;> simp_all, fun q hq => ⟨3, 3, by cases hq; decide, by decide⟩, by simp⟩
    · exact ⟨by intro c hc d v hv; cases hc; dsimp only at hv ⊢; split at hv <;> simp_all, fun q hq => ⟨3, 3, by cases hq; decide, by decide⟩, by simp⟩
  · intro p hp
    obtain ⟨-, b, c, d⟩ := scalingUsual p hp.1
    exact ⟨c, b, d⟩

end Verif
