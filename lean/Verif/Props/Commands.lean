import Verif.Model.Commands
import Verif.Proof.UnscaledView
import Verif.Props.CmdLine
import Verif.Props.ScaledView
import Verif.Spec.Commands

/-!
# C104: the commands of CZICmd that write a picture

What is written with the library and then shown with `CZIcmd --command SingleChannelTileAccessor` or `SingleChannelScalingTileAccessor`; the region is given as text.
-/

namespace Verif
open Verif.Spec Verif.Czi Verif.Blit Verif.Bitonal Verif.Jxr Verif.Fill Verif.Zstd Verif.Accessor Verif.Viewer Verif.Flt Verif.Commands Verif.CmdLine

theorem meant_roi {al : Alloc} {s : Stream} {doc : Doc} {subs : List AddInfo} (H : Holds al s doc subs) (hp : ∀ a ∈ subs, SubPlausible a) {text : List Char}
    {x y w h : Int} (hr : RegionMeant subs text x y w h) (hx : IsInt32 x) (hy : IsInt32 y) :
    (∃ r, tryParseRect text = some r ∧ roiFromOptions r doc = some ⟨x, y, w, h⟩) ∧ 0 < w ∧ w < 2 ^ 31 ∧ 0 < h ∧ h < 2 ^ 31 := by
  have num : ∀ {absolute u v}, RegionText text absolute u v w h → 0 < w ∧ w < 2 ^ 31 ∧ 0 < h ∧ h < 2 ^ 31 := by
    rintro absolute u v ⟨tx, ty, tw, th, -, -, -, ⟨_, _, -, -, -, -, t3⟩, ⟨_, _, -, -, -, -, t4⟩, t5, t6⟩
    omega
  unfold IsInt32 at hx hy
  rcases hr with h1 | ⟨ox, oy, ho, h1⟩
  · exact ⟨⟨_, (C105_region_partial _ _ _ _ _ _).2 h1, rfl⟩, num h1⟩
  · refine ⟨⟨_, (C105_region_partial _ _ _ _ _ _).2 h1, ?_⟩, num h1⟩
    obtain ⟨e1, e2⟩ := holds_origin H hp ho
    unfold roiFromOptions addInt
    simp only [e1, e2, Bool.false_eq_true, if_false]
    rw [if_pos (by omega), if_pos (by omega)]
    simp

theorem channel_of_plane {plane : Coord} {subs : List AddInfo} (hC : plane .C = none → ∀ a ∈ subs, a.coordinate .C = none) :
    ∀ a ∈ subs, InPlane plane a → InChannel plane a := by
  intro a ha hin
  unfold InChannel
  cases hpl : plane .C with
  | none => exact (hC hpl a ha).symm
  | some v => exact (hin .C v hpl).symm

theorem tile_command {al : Alloc} {s : Stream} {doc : Doc} {subs : List AddInfo} (H : Holds al s doc subs) {c : Codecs} (hz : Lossless c.zstd) (mem : Memory)
    {sort : List Item → List Item} (hs : SortsBy mKey sort) {pt : PixelType} (hpt : ViewableType pt) {plane : Coord} {background : Colour} (visibility : Bool)
    (scenes : Option (Int → Bool)) {pic : AddInfo → Nat → Nat → Nat → UInt8} {region : List Char} (base : List Char) {x y w h : Int}
    (hp : ∀ a ∈ subs, SubPlausible a) (hf : PlaneFits plane subs)
    (hC : plane .C = none → ∀ a ∈ subs, a.coordinate .C = none) (hex : ∃ a ∈ subs, InChannel plane a) (hty : ∀ a ∈ subs, InChannel plane a → a.pixelType = pt)
    (hd : ∀ a ∈ subs, InPlane plane a → Full a → DataShows c a a.logicalWidth.toNat a.logicalHeight.toNat (pic a))
    (hb : Coloured background → background.sum ≠ .nan) (hr : RegionMeant subs region x y w h) (hx : IsInt32 x) (hy : IsInt32 y) :
    ∃ out, tileCommand sort c mem al s doc plane background visibility scenes region base = .ok (base ++ ".PNG".toList, ⟨pt, out⟩) ∧
      CorrectPicture c subs pic pt plane ⟨background, true, visibility⟩ x y w.toNat h.toNat out := by
  obtain ⟨⟨r, r1, r2⟩, w1, w2, h1, h2⟩ := meant_roi H hp hr hx hy
  obtain ⟨out, e1, e2⟩ := H.picture hz mem hs hpt hp hf (fun a ha hin hfu => ⟨hty a ha (channel_of_plane hC a ha hin), hd a ha hin hfu⟩) (vo := ⟨background, true, visibility⟩)
    hb (fun h => by cases h) x y w.toNat h.toNat
  refine ⟨out, ?_, e2⟩
  have u : ∀ z : Int, 0 < z → z < 2 ^ 31 → toUInt32 z = z.toNat := by intro z z1 z2; unfold toUInt32; omega
  unfold tileCommand getTiles
  rw [r1]
  dsimp only
  rw [r2]
  dsimp only
  unfold Viewer.get
  rw [H.pixelType hp hC hex hty, if_neg, u w w1 w2, u h h1 h2, e1]
  · rfl
  · rintro rfl
    rcases hpt with h | h | h | h | h <;> cases h

/-- **C104 (the command `SingleChannelTileAccessor`; restrictions as for `C104_picture_of_channel_partial`; also, the tile filter is left out, see
`C104_tile_filter_violated`).** Whatever calls are made to the writer, in whatever order and whichever of them fail: given the file, a plane that names a channel and the text of a region
whose position fits 32 bits, the command writes the picture of this region, as described for the accessor, to the file with the ending `.PNG`. -/
theorem C104_tile_command_partial (dup : Bool) (d0 : Disk) (info : WriterInfo) (ops : List WOp) (hi : InfoOk info) (hops : OpsOk ops)
    (hsz : ∀ a ∈ subsOf ops, a.sizeData ≤ 2147483647) (o : OpenOptions) (al : Alloc) (hal : ∀ n, al n = true) :
    ∃ disk done doc, writeDoc dup d0 info ops = some (disk, done) ∧ openDoc al disk.stream o = .ok doc ∧
      ∀ (c : Codecs) (mem : Memory) (sort : List Item → List Item) (pt : PixelType) (plane : Coord) (background : Colour) (visibility : Bool)
        (pic : AddInfo → Nat → Nat → Nat → UInt8) (region base : List Char) (x y w h : Int), Lossless c.zstd → SortsBy mKey sort → ViewableType pt →
        (∀ a ∈ subsOf done, SubPlausible a) → PlaneFits plane (subsOf done) →
        (plane .C = none → ∀ a ∈ subsOf done, a.coordinate .C = none) → (∃ a ∈ subsOf done, InChannel plane a) →
        (∀ a ∈ subsOf done, InChannel plane a → a.pixelType = pt) →
        (∀ a ∈ subsOf done, InPlane plane a → Full a → DataShows c a a.logicalWidth.toNat a.logicalHeight.toNat (pic a)) →
        (Coloured background → background.sum ≠ .nan) → RegionMeant (subsOf done) region x y w h → IsInt32 x → IsInt32 y →
        ∃ out, tileCommand sort c mem al disk.stream doc plane background visibility none region base = .ok (base ++ ".PNG".toList, ⟨pt, out⟩) ∧
          CorrectPicture c (subsOf done) pic pt plane ⟨background, true, visibility⟩ x y w.toNat h.toNat out := by
  obtain ⟨disk, done, doc, h1, h2, H⟩ := holds_session dup d0 info ops hi hops hsz o al hal
  exact ⟨disk, done, doc, h1, h2, fun c mem sort pt plane background visibility pic region base x y w h hz hs hpt hp hf hC hex hty hd hb hr hx hy =>
    tile_command H hz mem hs hpt visibility none base hp hf hC hex hty hd hb hr hx hy⟩

/-- **C104 (the tile filter, violated).** With a filter for scenes, only sub-blocks of the scenes in the filter are to be considered; the 1:1 accessor does not look at it. Under the
conditions above, every pixel that is covered by sub-blocks of scenes that the filter excludes, and by no others, shows one of the excluded sub-blocks and not the background. -/
theorem C104_tile_filter_violated (dup : Bool) (d0 : Disk) (info : WriterInfo) (ops : List WOp) (hi : InfoOk info) (hops : OpsOk ops)
    (hsz : ∀ a ∈ subsOf ops, a.sizeData ≤ 2147483647) (o : OpenOptions) (al : Alloc) (hal : ∀ n, al n = true) :
    ∃ disk done doc, writeDoc dup d0 info ops = some (disk, done) ∧ openDoc al disk.stream o = .ok doc ∧
      ∀ (c : Codecs) (mem : Memory) (sort : List Item → List Item) (pt : PixelType) (plane : Coord) (background : Colour) (visibility : Bool) (allowed : Int → Bool)
        (pic : AddInfo → Nat → Nat → Nat → UInt8) (region base : List Char) (x y w h : Int), Lossless c.zstd → SortsBy mKey sort → ViewableType pt →
        (∀ a ∈ subsOf done, SubPlausible a) → PlaneFits plane (subsOf done) →
        (plane .C = none → ∀ a ∈ subsOf done, a.coordinate .C = none) → (∃ a ∈ subsOf done, InChannel plane a) →
        (∀ a ∈ subsOf done, InChannel plane a → a.pixelType = pt) →
        (∀ a ∈ subsOf done, InPlane plane a → Full a → DataShows c a a.logicalWidth.toNat a.logicalHeight.toNat (pic a)) →
        (Coloured background → background.sum ≠ .nan) → RegionMeant (subsOf done) region x y w h → IsInt32 x → IsInt32 y →
        ∃ out, tileCommand sort c mem al disk.stream doc plane background visibility (some allowed) region base = .ok (base ++ ".PNG".toList, ⟨pt, out⟩) ∧
          ∀ i k j : Nat, (i : Int) < w → (k : Int) < h → j < pixelBytes pt →
            (∃ a ∈ subsOf done, InPlane plane a ∧ Full a ∧ CoversPoint a (x + i) (y + k)) →
            (∀ a ∈ subsOf done, InPlane plane a → Full a → CoversPoint a (x + i) (y + k) → ∃ scene, a.coordinate .S = some scene ∧ allowed scene = false) →
            ∃ a ∈ subsOf done, ∃ scene, a.coordinate .S = some scene ∧ allowed scene = false ∧
              out.byteAt (pixelBytes pt) i k j = pic a (x + i - a.x).toNat (y + k - a.y).toNat j := by
  obtain ⟨disk, done, doc, h1, h2, H⟩ := holds_session dup d0 info ops hi hops hsz o al hal
  refine ⟨disk, done, doc, h1, h2, fun c mem sort pt plane background visibility allowed pic region base x y w h hz hs hpt hp hf hC hex hty hd hb hr hx hy => ?_⟩
  obtain ⟨out, e1, -, -, -, bg, -, e2⟩ := tile_command H hz mem hs hpt visibility (some allowed) base hp hf hC hex hty hd hb hr hx hy
  refine ⟨out, e1, fun i k j hik hkh hj ⟨a, ha, a1, a2, a3⟩ hex => ?_⟩
  rcases e2 i k j (by omega) (by omega) hj with ⟨n, -⟩ | ⟨b, hb, b1, b2, b3, b4, -⟩
  · exact absurd a3 (n a ha a1 a2)
  · obtain ⟨scene, s1, s2⟩ := hex b hb b1 b2 b3
    exact ⟨b, hb, scene, s1, s2, b4⟩

private theorem scaling_command {al : Alloc} {s : Stream} {doc : Doc} {subs : List AddInfo} (H : Holds al s doc subs) (c : Codecs) (mem : Memory)
    (sort : List Item → List Item) {pt : PixelType} (hpt : ViewableType pt) {plane : Coord} (background : Colour) (visibility : Bool) (scenes : Option (Int → Bool)) (zoom : ℚ)
    {region : List Char} (base : List Char) {x y w h : Int} (hp : ∀ a ∈ subs, SubPlausible a)
    (hC : plane .C = none → ∀ a ∈ subs, a.coordinate .C = none) (hex : ∃ a ∈ subs, InChannel plane a) (hty : ∀ a ∈ subs, InChannel plane a → a.pixelType = pt)
    (hr : RegionMeant subs region x y w h) (hx : IsInt32 x) (hy : IsInt32 y) :
    scalingCommand sort c mem al s doc plane background visibility scenes zoom region base =
      save base (getScaledTyped sort c mem al s doc pt plane ⟨⟨background, true, visibility⟩, scenes⟩ zoom ⟨x, y, w, h⟩) := by
  obtain ⟨⟨r, r1, r2⟩, -⟩ := meant_roi H hp hr hx hy
  unfold scalingCommand
  rw [r1]
  dsimp only
  rw [r2]
  dsimp only
  unfold getScaled
  rw [H.pixelType hp hC hex hty, if_neg]
  rintro rfl
  rcases hpt with h | h | h | h | h <;> cases h

/-- **C104 (the command `SingleChannelScalingTileAccessor`; restrictions as for `C104_scaled_partial`).** Likewise for the scaled picture of the region, of the scenes in the filter. -/
theorem C104_scaling_command_partial (dup : Bool) (d0 : Disk) (info : WriterInfo) (ops : List WOp) (hi : InfoOk info) (hops : OpsOk ops)
    (hsz : ∀ a ∈ subsOf ops, a.sizeData ≤ 2147483647) (o : OpenOptions) (al : Alloc) (hal : ∀ n, al n = true) :
    ∃ disk done doc, writeDoc dup d0 info ops = some (disk, done) ∧ openDoc al disk.stream o = .ok doc ∧
      ∀ (c : Codecs) (mem : Memory) (sort : List Item → List Item) (pt : PixelType) (plane : Coord) (background : Colour) (scenes : Option (Int → Bool)) (zoom : ℚ)
        (pic : AddInfo → Nat → Nat → Nat → UInt8) (region base : List Char) (roi : IntRect) (w h : Nat), Lossless c.zstd → SortsWith zoomLess sort → ViewableType pt →
        (∀ a ∈ subsOf done, SubPlausible a) → PlaneFits plane (subsOf done) → ((∀ a ∈ subsOf done, a.coordinate .S ≠ none) ∨ (∀ a ∈ subsOf done, a.coordinate .S = none)) →
        (plane .C = none → ∀ a ∈ subsOf done, a.coordinate .C = none) → (∃ a ∈ subsOf done, InChannel plane a) →
        (∀ a ∈ subsOf done, InChannel plane a → a.pixelType = pt) →
        (∀ a ∈ subsOf done, InPlane plane a → DataShows c a a.physicalWidth.toNat a.physicalHeight.toNat (pic a)) →
        (Coloured background → background.sum ≠ .nan) → RegionMeant (subsOf done) region roi.x roi.y roi.w roi.h → IsInt32 roi.x → IsInt32 roi.y →
        0 < zoom → zoom ≠ 1 → calcSize roi zoom = some (w, h) → UsualSize roi w h → (∀ a, Eligible (subsOf done) plane roi scenes a → UsualSub a) →
        (∀ a, Eligible (subsOf done) plane roi scenes a → ¬ Full a → subZoom a ≠ 1) →
        ∃ out, scalingCommand sort c mem al disk.stream doc plane background false scenes zoom region base = .ok (base ++ ".PNG".toList, ⟨pt, out⟩) ∧
          CorrectScaled c (subsOf done) pic pt plane ⟨⟨background, true, false⟩, scenes⟩ zoom roi w h out := by
  obtain ⟨disk, done, doc, h1, h2, H⟩ := holds_session dup d0 info ops hi hops hsz o al hal
  refine ⟨disk, done, doc, h1, h2,
    fun c mem sort pt plane background scenes zoom pic region base roi w h hz hs hpt hp hf hsc hC hex hty hd hb hr hx hy z0 z1 hc hu hus hn => ?_⟩
  obtain ⟨out, e1, e2⟩ := H.scaled hz mem hs hpt hp hf hsc (fun a ha hin => ⟨hty a ha (channel_of_plane hC a ha hin), hd a ha hin⟩)
    (o := ⟨⟨background, true, false⟩, scenes⟩) hb rfl z0 z1 hc hu hus (fun _ => hn)
  refine ⟨out, ?_, e2⟩
  rw [scaling_command H c mem sort hpt background false scenes zoom base hp hC hex hty hr hx hy, e1]
  rfl

/-- **C104 (the same command with a zoom of 1; restrictions as for `C104_unscaled_partial`).** Here each pixel is that of a sub-block of a scene in the filter, stored without
minification, above which there is no other, or the background. -/
theorem C104_scaling_command_unscaled_partial (dup : Bool) (d0 : Disk) (info : WriterInfo) (ops : List WOp) (hi : InfoOk info) (hops : OpsOk ops)
    (hsz : ∀ a ∈ subsOf ops, a.sizeData ≤ 2147483647) (o : OpenOptions) (al : Alloc) (hal : ∀ n, al n = true) :
    ∃ disk done doc, writeDoc dup d0 info ops = some (disk, done) ∧ openDoc al disk.stream o = .ok doc ∧
      ∀ (c : Codecs) (mem : Memory) (sort : List Item → List Item) (pt : PixelType) (plane : Coord) (background : Colour) (scenes : Option (Int → Bool))
        (pic : AddInfo → Nat → Nat → Nat → UInt8) (region base : List Char) (x y : Int) (w h : Nat), Lossless c.zstd → SortsWith zoomLess sort → ViewableType pt →
        (∀ a ∈ subsOf done, SubPlausible a) → PlaneFits plane (subsOf done) → ((∀ a ∈ subsOf done, a.coordinate .S ≠ none) ∨ (∀ a ∈ subsOf done, a.coordinate .S = none)) →
        (plane .C = none → ∀ a ∈ subsOf done, a.coordinate .C = none) → (∃ a ∈ subsOf done, InChannel plane a) →
        (∀ a ∈ subsOf done, InChannel plane a → a.pixelType = pt) →
        (∀ a ∈ subsOf done, InPlane plane a → DataShows c a a.physicalWidth.toNat a.physicalHeight.toNat (pic a)) →
        (Coloured background → background.sum ≠ .nan) → RegionMeant (subsOf done) region x y w h → IsInt32 x → IsInt32 y → w ≤ 2 ^ 19 → h ≤ 2 ^ 19 →
        (∀ a, Eligible (subsOf done) plane ⟨x, y, w, h⟩ scenes a → UsualSub a ∧ (¬ Full a → subZoom a < 95 / 100)) →
        ∃ out, scalingCommand sort c mem al disk.stream doc plane background false scenes 1 region base = .ok (base ++ ".PNG".toList, ⟨pt, out⟩) ∧
          CorrectUnscaled c (subsOf done) pic pt plane ⟨⟨background, true, false⟩, scenes⟩ ⟨x, y, w, h⟩ w h out := by
  obtain ⟨disk, done, doc, h1, h2, H⟩ := holds_session dup d0 info ops hi hops hsz o al hal
  refine ⟨disk, done, doc, h1, h2,
    fun c mem sort pt plane background scenes pic region base x y w h hz hs hpt hp hf hsc hC hex hty hd hb hr hx hy hw hh hu => ?_⟩
  obtain ⟨out, e1, e2⟩ := H.unscaled hz mem hs hpt hp hf hsc (fun a ha hin => ⟨hty a ha (channel_of_plane hC a ha hin), hd a ha hin⟩)
    (o := ⟨⟨background, true, false⟩, scenes⟩) hb rfl (roi := ⟨x, y, w, h⟩) ⟨rfl, hw⟩ ⟨rfl, hh⟩ (fun a ha => (hu a ha).1) (fun a ha => (hu a ha).2)
  refine ⟨out, ?_, e2⟩
  rw [scaling_command H c mem sort hpt background false scenes 1 base hp hC hex hty hr hx hy, e1]
  rfl

/-- **C104 (texts that are no region).** Both commands report every text that is not a region, and write nothing. -/
theorem C104_command_rejected (sort : List Item → List Item) (c : Codecs) (mem : Memory) (al : Alloc) (s : Stream) (doc : Doc) (plane : Coord) (background : Colour) (visibility : Bool)
    (scenes : Option (Int → Bool)) (zoom : ℚ) (region base : List Char) (h : ∀ absolute x y w h, ¬ RegionText region absolute x y w h) :
    tileCommand sort c mem al s doc plane background visibility scenes region base = .throws ∧
      scalingCommand sort c mem al s doc plane background visibility scenes zoom region base = .throws := by
  have h1 : tryParseRect region = none := by
    cases e : tryParseRect region with
    | none => rfl
    | some r => exact absurd ((C105_region_partial _ _ _ _ _ _).1 e) (h r.absolute r.x r.y r.w r.h)
  unfold tileCommand scalingCommand
  rw [h1]
  exact ⟨rfl, rfl⟩

/-- **C104 (regions far away, violated).** A region given relative to the sub-blocks whose position has more than 32 bits is not reported: with every document, the sum
overflows and the behaviour of both commands is undefined. -/
theorem C104_command_overflow_violated (dup : Bool) (d0 : Disk) (info : WriterInfo) (ops : List WOp) (hi : InfoOk info) (hops : OpsOk ops)
    (hsz : ∀ a ∈ subsOf ops, a.sizeData ≤ 2147483647) (o : OpenOptions) (al : Alloc) (hal : ∀ n, al n = true) :
    ∃ disk done doc, writeDoc dup d0 info ops = some (disk, done) ∧ openDoc al disk.stream o = .ok doc ∧
      ∀ (c : Codecs) (mem : Memory) (sort : List Item → List Item) (plane : Coord) (background : Colour) (visibility : Bool) (scenes : Option (Int → Bool)) (zoom : ℚ)
        (region base : List Char) (ox oy x y w h : Int), (∀ a ∈ subsOf done, SubPlausible a) → IsOrigin (subsOf done) ox oy → RegionText region false x y w h →
        ¬ (IsInt32 (ox + x) ∧ IsInt32 (oy + y)) →
        tileCommand sort c mem al disk.stream doc plane background visibility scenes region base = .undefined ∧
          scalingCommand sort c mem al disk.stream doc plane background visibility scenes zoom region base = .undefined := by
  obtain ⟨disk, done, doc, h1, h2, H⟩ := holds_session dup d0 info ops hi hops hsz o al hal
  refine ⟨disk, done, doc, h1, h2, fun c mem sort plane background visibility scenes zoom region base ox oy x y w h hp ho hr hn => ?_⟩
  obtain ⟨e1, e2⟩ := holds_origin H hp ho
  have h3 : roiFromOptions ⟨false, x, y, w, h⟩ doc = none := by
    unfold roiFromOptions addInt
    simp only [e1, e2, Bool.false_eq_true, if_false]
    unfold IsInt32 at hn
    by_cases hx : -(2 ^ 31) ≤ x + ox ∧ x + ox < 2 ^ 31
    · rw [if_pos hx, if_neg (by omega)]; rfl
    · rw [if_neg hx]; rfl
  unfold tileCommand scalingCommand
  rw [(C105_region_partial _ _ _ _ _ _).2 hr]
  dsimp only
  rw [h3]
  exact ⟨rfl, rfl⟩

/-! ## A case -/

/-- The origin of the two sub-blocks below, and texts for regions. -/
example : IsOrigin [viewSub 7 (-4) 0 5, viewSub 3 1 (-9) 6] (-4) (-9) ∧ RegionMeant [viewSub 7 (-4) 0 5, viewSub 3 1 (-9) 6] "rel(1,2,30,40)".toList (-3) (-7) 30 40 ∧
    RegionMeant [viewSub 7 (-4) 0 5, viewSub 3 1 (-9) 6] "abs(-3,-7,30,40)".toList (-3) (-7) 30 40 := by
  have ho : IsOrigin [viewSub 7 (-4) 0 5, viewSub 3 1 (-9) 6] (-4) (-9) := by
    refine ⟨⟨⟨_, List.mem_cons_self, ⟨rfl, rfl⟩, rfl⟩, ?_⟩, ⟨⟨_, List.mem_cons_of_mem _ (List.mem_singleton.2 rfl), ⟨rfl, rfl⟩, rfl⟩, ?_⟩⟩ <;>
    · intro a ha _
      simp only [List.mem_cons, List.not_mem_nil, or_false] at ha
      rcases ha with rfl | rfl <;> decide
  exact ⟨ho, .inr ⟨-4, -9, ho, (C105_region_partial _ _ _ _ _ _).1 (by decide)⟩, .inl ((C105_region_partial _ _ _ _ _ _).1 (by decide))⟩

/-- A sub-block of 2 × 2 grey pixels of a scene. -/
def sceneSub (scene m x y : Int) (v : UInt8) : AddInfo := { viewSub m x y v with coordinate := (Coord.empty.set .C 0).set .S scene }

/-- Two sub-blocks of different scenes, which do not overlap. -/
def sceneOps : List WOp := [.addSubBlock (sceneSub 0 7 0 0 5), .addSubBlock (sceneSub 1 3 10 10 6)]

private theorem sceneSub_ok (scene m x y : Int) (v : UInt8) (hs : IsInt32 scene) (hm : IsInt32 m) (hx : IsInt32 x) (hy : IsInt32 y) : SubOk (sceneSub scene m x y v) :=
  let ok := viewSub_ok m x y v hm hx hy
  { fits := { ok.fits with
      coordinate := by
        intro d w h
        unfold sceneSub Coord.set Coord.empty at h
        simp only at h
        split at h
        · injection h with h; subst h; exact hs
        · split at h
          · injection h with h; subst h; exact ⟨by decide, by decide⟩
          · cases h }
    sources := ⟨ok.sources.1, ok.sources.2, ok.sources.3⟩, metadataSize := ok.metadataSize, dataSize := ok.dataSize, attachmentSize := ok.attachmentSize }

theorem sceneOps_ok : OpsOk sceneOps where
  each := by
    intro op h
    simp only [sceneOps, List.mem_cons, List.not_mem_nil, or_false] at h
    rcases h with rfl | rfl
    · exact sceneSub_ok 0 7 0 0 5 ⟨by decide, by decide⟩ ⟨by decide, by decide⟩ ⟨by decide, by decide⟩ ⟨by decide, by decide⟩
    · exact sceneSub_ok 1 3 10 10 6 ⟨by decide, by decide⟩ ⟨by decide, by decide⟩ ⟨by decide, by decide⟩ ⟨by decide, by decide⟩
  count := by decide
  total := by decide

theorem scenes_written {disk : Disk} {done : List WOp} (h : writeDoc false Disk.empty exInfo sceneOps = some (disk, done)) :
    subsOf done = [sceneSub 0 7 0 0 5, sceneSub 1 3 10 10 6] := by
  have h1 : (subsOf done).Sublist (subsOf sceneOps) := (writeDoc_sublist h).filterMap _
  have h2 : (writeDoc false Disk.empty exInfo sceneOps).map (fun r => (subsOf r.2).length) = some 2 := by decide +kernel
  rw [h] at h2
  simp only [Option.map_some, Option.some.injEq] at h2
  exact h1.eq_of_length (h2.trans rfl)

/-- The hypotheses are met: the command is to show scene 1 only, but its picture shows the sub-block of scene 0. -/
example (c : Codecs) (hz : Lossless c.zstd) (mem : Memory) : ∃ disk done doc, writeDoc false Disk.empty exInfo sceneOps = some (disk, done) ∧
    openDoc (fun _ => true) disk.stream ⟨false, false, false, false⟩ = .ok doc ∧
    ∃ out, tileCommand (fun l => l.mergeSort (fun a b => decide (mKey a ≤ mKey b))) c mem (fun _ => true) disk.stream doc viewPlane
        ⟨.num 0, .num 0, .num 0⟩ false (some fun s => s == 1) "rel(0,0,4,4)".toList "out".toList = .ok ("out.PNG".toList, ⟨.Gray8, out⟩) ∧ out.byteAt 1 1 1 0 = 5 := by
  obtain ⟨disk, done, doc, h1, h2, h3⟩ := C104_tile_filter_violated false Disk.empty exInfo sceneOps exInfo_ok sceneOps_ok (by
    intro a ha
    simp only [subsOf, sceneOps, List.filterMap_cons, List.filterMap_nil, List.mem_cons, List.not_mem_nil, or_false] at ha
    rcases ha with rfl | rfl <;> (show 4 ≤ 2147483647; omega)) ⟨false, false, false, false⟩ (fun _ => true) (fun _ => rfl)
  have hs := scenes_written h1
  rw [hs] at h3
  have hall : ∀ {P : AddInfo → Prop}, P (sceneSub 0 7 0 0 5) → P (sceneSub 1 3 10 10 6) → ∀ a ∈ [sceneSub 0 7 0 0 5, sceneSub 1 3 10 10 6], P a := by
    intro P p q a ha
    simp only [List.mem_cons, List.not_mem_nil, or_false] at ha
    rcases ha with rfl | rfl
    · exact p
    · exact q
  have dep : ∀ scene m x y v, DataShows c (sceneSub scene m x y v) 2 2 (fun _ _ _ => v) := by
    intro scene m x y v
    refine .raw rfl (by show 2 * (2 * 1) ≤ 4; omega) (fun x y j hx hy hj => ?_)
    have hj : j = 0 := by change j < 1 at hj; omega
    subst hj
    show [v, v, v, v][y * (2 * 1) + x * 1 + 0]? = some v
    rcases (show x = 0 ∨ x = 1 by omega) with rfl | rfl <;> rcases (show y = 0 ∨ y = 1 by omega) with rfl | rfl <;> rfl
  have hpic : ∀ a ∈ [sceneSub 0 7 0 0 5, sceneSub 1 3 10 10 6], DataShows c a a.logicalWidth.toNat a.logicalHeight.toNat (fun _ _ _ => if a.mIndex = some 7 then 5 else 6) :=
    hall (dep 0 7 0 0 5) (dep 1 3 10 10 6)
  have ho : IsOrigin [sceneSub 0 7 0 0 5, sceneSub 1 3 10 10 6] 0 0 := by
    refine ⟨⟨⟨_, List.mem_cons_self, ⟨rfl, rfl⟩, rfl⟩, ?_⟩, ⟨⟨_, List.mem_cons_self, ⟨rfl, rfl⟩, rfl⟩, ?_⟩⟩ <;>
    · intro a ha _
      simp only [List.mem_cons, List.not_mem_nil, or_false] at ha
      rcases ha with rfl | rfl <;> decide
  obtain ⟨out, e1, e2⟩ := h3 c mem _ .Gray8 viewPlane ⟨.num 0, .num 0, .num 0⟩ false (fun s => s == 1)
    (fun a _ _ _ => if a.mIndex = some 7 then 5 else 6) "rel(0,0,4,4)".toList "out".toList 0 0 4 4 hz mergeSort_sorts (.inl rfl)
    (hall ⟨(by show (0 : Int) ≤ 2; omega), (by show (0 : Int) ≤ 2; omega), .C, rfl⟩ ⟨(by show (0 : Int) ≤ 2; omega), (by show (0 : Int) ≤ 2; omega), .C, rfl⟩)
    ⟨rfl, (by
      intro d hd hn a ha b hb u v hu hv
      have key : ∀ a ∈ [sceneSub 0 7 0 0 5, sceneSub 1 3 10 10 6], a.coordinate d = viewPlane d := by
        apply hall <;> (unfold sceneSub viewPlane Coord.set; simp only; rw [if_neg hd])
      rw [key a ha, hn] at hu
      cases hu), (by
      intro d v hv
      have : d = .C ∧ v = 0 := by
        cases d <;> cases hv
        exact ⟨rfl, rfl⟩
      obtain ⟨rfl, rfl⟩ := this
      exact ⟨sceneSub 0 7 0 0 5, by simp, sceneSub 0 7 0 0 5, by simp, 0, 0, rfl, rfl, by omega, by omega⟩)⟩
    (fun h => by cases h) ⟨sceneSub 0 7 0 0 5, by simp, rfl⟩ (hall (fun _ => rfl) (fun _ => rfl)) (fun a ha _ _ => hpic a ha)
    (fun _ => (by decide +kernel)) (.inr ⟨0, 0, ho, (C105_region_partial _ _ _ _ _ _).1 (by decide)⟩) ⟨by decide, by decide⟩ ⟨by decide, by decide⟩
  refine ⟨disk, done, doc, h1, h2, out, e1, ?_⟩
  obtain ⟨a, ha, scene, s1, s2, s3⟩ := e2 1 1 0 (by omega) (by omega) (by decide)
    ⟨sceneSub 0 7 0 0 5, by simp, (by intro d v hv; cases d <;> cases hv; rfl), ⟨rfl, rfl⟩, ⟨by decide, by decide, by decide, by decide⟩⟩
    (hall (fun _ _ _ => ⟨0, rfl, rfl⟩) (fun _ _ h => absurd h (by unfold CoversPoint; decide)))
  simp only [List.mem_cons, List.not_mem_nil, or_false] at ha
  rcases ha with rfl | rfl
  · exact s3
  · cases s1; cases s2

end Verif
