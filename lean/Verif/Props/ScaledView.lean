import Verif.Props.EditedView
import Verif.Proof.ScaledView

/-!
# C104: what is written is what is seen, at any zoom

As in `Verif.Props.Viewer`, with the scaling tile accessor (`Viewer.getScaledTyped`, `Viewer.getScaled`): `Spec.CorrectScaled` says how the scaled picture of a region looks, in
terms of what was given to the writer.
-/

namespace Verif
open Verif.Spec Verif.Czi Verif.Blit Verif.Bitonal Verif.Jxr Verif.Fill Verif.Zstd Verif.Accessor Verif.Viewer Verif.Flt

/-- **C104 (the scaled picture, with a pixel type; partial: the sub-blocks of the plane have the pixel type asked for; 48-bit pixels are not packed when compressed; data below 2 GB;
sub-blocks and regions of at most `2^19` points in each direction; all sub-blocks have a scene index or none has; the zoom is not 1, see `C104_unscaled_partial` for this; the
visibility check is off; without cache and masks; real numbers rounded to `float`).** Whatever calls are made to the writer, in whatever order and whichever of them fail:
the scaling tile accessor, given the file, any plane that fits the sub-blocks written, any region, any zoom and any options, delivers a picture of the
region in which every pixel is the nearest pixel of a sub-block that was written to this plane and to an allowed scene, and is as fine as the zoom demands, above which there is
no other; the other pixels have the background colour. -/
theorem C104_scaled_partial (dup : Bool) (d0 : Disk) (info : WriterInfo) (ops : List WOp) (hi : InfoOk info) (hops : OpsOk ops)
    (hsz : ∀ a ∈ subsOf ops, a.sizeData ≤ 2147483647) (o : OpenOptions) (al : Alloc) (hal : ∀ n, al n = true) :
    ∃ disk done doc, writeDoc dup d0 info ops = some (disk, done) ∧ openDoc al disk.stream o = .ok doc ∧ ScaledPicturesShow al disk.stream doc (subsOf done) := by
  obtain ⟨disk, done, doc, h1, h2, H⟩ := holds_session dup d0 info ops hi hops hsz o al hal
  exact ⟨disk, done, doc, h1, h2, fun c mem sort pt plane vo pic zoom roi w h hz hs hpt hp hf hsc hd hb hv z0 z1 hc hu hus hsort =>
    H.scaled hz mem hs hpt hp hf hsc hd hb hv z0 z1 hc hu hus hsort⟩

/-- **C104 (the scaled picture, without giving a pixel type; same restrictions).** If the plane names a channel whenever the sub-blocks have one, and the sub-blocks of that channel
have the pixel type `pt`, the call without a pixel type delivers what the call with `pt` delivers. -/
theorem C104_scaled_of_channel (dup : Bool) (d0 : Disk) (info : WriterInfo) (ops : List WOp) (hi : InfoOk info) (hops : OpsOk ops)
    (hsz : ∀ a ∈ subsOf ops, a.sizeData ≤ 2147483647) (o : OpenOptions) (al : Alloc) (hal : ∀ n, al n = true) :
    ∃ disk done doc, writeDoc dup d0 info ops = some (disk, done) ∧ openDoc al disk.stream o = .ok doc ∧
      ∀ (c : Codecs) (mem : Memory) (sort : List Item → List Item) (pt : PixelType) (plane : Coord) (vo : ScaledOptions) (zoom : ℚ) (roi : IntRect), ViewableType pt →
        (∀ a ∈ subsOf done, SubPlausible a) → (plane .C = none → ∀ a ∈ subsOf done, a.coordinate .C = none) → (∃ a ∈ subsOf done, InChannel plane a) →
        (∀ a ∈ subsOf done, InChannel plane a → a.pixelType = pt) →
        getScaled sort c mem al disk.stream doc plane vo zoom roi = getScaledTyped sort c mem al disk.stream doc pt plane vo zoom roi := by
  obtain ⟨disk, done, doc, h1, h2, H⟩ := holds_session dup d0 info ops hi hops hsz o al hal
  refine ⟨disk, done, doc, h1, h2, fun c mem sort pt plane vo zoom roi hpt hp hC hex hty => ?_⟩
  unfold getScaled
  rw [H.pixelType hp hC hex hty, if_neg]
  rintro rfl
  rcases hpt with h | h | h | h | h <;> cases h

/-- **C104 (planes that do not fit, scaled pictures).** For every other plane coordinate there is an exception, with and without a pixel type, whenever the size of the picture can
be computed. -/
theorem C104_scaled_rejected (dup : Bool) (d0 : Disk) (info : WriterInfo) (ops : List WOp) (hi : InfoOk info) (hops : OpsOk ops)
    (hsz : ∀ a ∈ subsOf ops, a.sizeData ≤ 2147483647) (o : OpenOptions) (al : Alloc) (hal : ∀ n, al n = true) :
    ∃ disk done doc, writeDoc dup d0 info ops = some (disk, done) ∧ openDoc al disk.stream o = .ok doc ∧
      ∀ (c : Codecs) (mem : Memory) (sort : List Item → List Item) (pt : PixelType) (plane : Coord) (vo : ScaledOptions) (zoom : ℚ) (roi : IntRect) (w h : Nat),
        (∀ a ∈ subsOf done, SubPlausible a) → ¬ PlaneFits plane (subsOf done) → calcSize roi zoom = some (w, h) →
        getScaledTyped sort c mem al disk.stream doc pt plane vo zoom roi = .throws ∧ getScaled sort c mem al disk.stream doc plane vo zoom roi = .throws := by
  obtain ⟨disk, done, doc, h1, h2, H⟩ := holds_session dup d0 info ops hi hops hsz o al hal
  refine ⟨disk, done, doc, h1, h2, fun c mem sort pt plane vo zoom roi w h hp hf hs => ?_⟩
  have key : ∀ pt, getScaledTyped sort c mem al disk.stream doc pt plane vo zoom roi = .throws := by
    intro pt
    unfold getScaledTyped
    rw [hs]
    dsimp only
    cases bytesPerPel pt with
    | none => rfl
    | some bpp =>
      dsimp only
      unfold scaledInternalGet
      cases hc : checkPlane (docStats doc).dimBounds plane with
      | none => exact absurd ((H.plane hp plane).1 hc) hf
      | some e => rfl
  refine ⟨key pt, ?_⟩
  unfold getScaled
  split
  · rfl
  · exact key _

/-- **C104 (scaled pictures show the contents; same restrictions, and the information in the directory takes precedence).** Whenever a reader shows certain contents of a file, scaled
pictures composed with it show the sub-blocks of the contents. -/
theorem C104_scaled_pictures_of_contents_partial {al : Alloc} {s : Stream} {o : OpenOptions} {doc : Doc} {c : Content} {subs : List AddInfo} (ho : o.headerPrecedence = false)
    (h : openDoc al s o = .ok doc) (hr : ReaderShows al s doc c) (hc : ConsistsOf c subs) (hf : ∀ a ∈ subs, AddFits a) : ScaledPicturesShow al s doc subs :=
  fun _ mem _ _ _ _ _ _ _ _ _ hz hs hpt hp hfit hsc hd hb hv z0 z1 hcs hu hus hsort =>
    (holds_of_contents ho h hr hc hf).scaled hz mem hs hpt hp hfit hsc hd hb hv z0 z1 hcs hu hus hsort

/-- **C104 (scaled pictures after editing a written document; same restrictions).** Write any document with a writer, open it with a reader-writer and add, replace and remove sub-blocks
and write metadata in any order, whichever calls fail; after `Close`, the scaled pictures that a reader composes show the sub-blocks that are there after the edits. -/
theorem C104_scaled_after_editing_partial (dup : Bool) (d0 : Disk) (info : WriterInfo) (ops : List WOp) (hi : InfoOk info) (hops : OpsOk ops)
    (hsz : ∀ op ∈ ops, ReadableOp op) (edits : List EditOp) (he : EditsOk ops.length (writtenSize ops) edits) (hna : ∀ op ∈ edits, NoAttachment op)
    (rwInfo : RWInfo) (o : OpenOptions) (ho : o.headerPrecedence = false) (al : Alloc) (hal : ∀ n, al n = true) :
    ∃ disk done doc c s, writeDoc dup d0 info ops = some (disk, done) ∧ openDoc al disk.stream o = .ok doc ∧ Initially al disk.stream doc c ∧
      rwCreate al ⟨RWState.init, disk⟩ rwInfo = (s, none) ∧
      ∃ w d doc', rwClose (edit s c edits).1 = (⟨w, d⟩, none) ∧ openDoc al d.stream o = .ok doc' ∧
        ∀ subs, ConsistsOf (edit s c edits).2 subs → (∀ a ∈ subs, AddFits a) → ScaledPicturesShow al d.stream doc' subs := by
  obtain ⟨disk, done, h1, doc, c, s, h2, h3, h4, -, -, w, d, doc', h5, h6, h7, -⟩ :=
    C11_written_subblock_edits dup d0 info ops hi hops hsz edits he hna rwInfo o al hal
  exact ⟨disk, done, doc, c, s, h1, h2, h3, h4, w, d, doc', h5, h6, fun subs hc hf => C104_scaled_pictures_of_contents_partial ho h6 h7 hc hf⟩

/-- **C104 is violated by magnified pictures.** A correct picture with a zoom above 1.06 shows nothing but the background, whatever was written. -/
theorem C104_magnified_violated {c : Codecs} {subs : List AddInfo} {pic : AddInfo → Nat → Nat → Nat → UInt8} {pt : PixelType} {plane : Coord} {o : ScaledOptions} {zoom : ℚ}
    (hz : 106 / 100 < zoom) {roi : IntRect} (hu : ∀ a, Eligible subs plane roi o.scenes a → UsualSub a) {w h : Nat} {out : Bitmap}
    (hb : Coloured o.view.background) (hc : CorrectScaled c subs pic pt plane o zoom roi w h out) :
    ∀ x y, x < w → y < h → ∃ bg, ColourPixel c.enc pt o.view.background bg ∧ ∀ j, j < pixelBytes pt → out.byteAt (pixelBytes pt) x y j = bg j := by
  obtain ⟨-, -, -, bg, h3, sel, hsel, vx, vy, sx, sy, -, h5⟩ := hc
  intro x y hx hy
  refine ⟨bg x y, h3 hb x y hx hy, fun j hj => ?_⟩
  rcases h5 x y j hx hy hj with h | ⟨a, ha, -⟩
  · exact h.2
  · exfalso
    have h3 := hsel.fineEnough a ha
    obtain ⟨u1, u2, u3, u4, u5, u6⟩ := hu a (hsel.candidate a ha)
    have h4 : subZoom a ≤ 1 := by
      unfold subZoom
      split
      · rw [div_le_one (by exact_mod_cast (by omega : 0 < a.logicalWidth))]; exact_mod_cast u2
      · rw [div_le_one (by exact_mod_cast (by omega : 0 < a.logicalHeight))]; exact_mod_cast u5
    have h5 : (106 : ℚ) / 100 / (105 / 100) * (1 - zoomSlack) ≤ zoom / (105 / 100) * (1 - zoomSlack) := by
      unfold zoomSlack
      apply mul_le_mul_of_nonneg_right _ (by norm_num)
      apply div_le_div_of_nonneg_right (by linarith) (by norm_num)
    unfold zoomSlack at h3 h5
    norm_num at h3 h5
    linarith

/-! ## A case -/

/-- The hypotheses are met: the region of 4 × 4 points with a zoom of 1/2; its first pixel is that of the first sub-block. -/
example (c : Codecs) (hz : Lossless c.zstd) (mem : Memory) (sort : List Item → List Item) (hs : SortsWith zoomLess sort) :
    ∃ disk done doc, writeDoc false Disk.empty exInfo viewOps = some (disk, done) ∧
    openDoc (fun _ => true) disk.stream ⟨false, false, false, false⟩ = .ok doc ∧
    ∃ out, getScaledTyped sort c mem (fun _ => true) disk.stream doc .Gray8 viewPlane ⟨⟨⟨.num 0, .num 0, .num 0⟩, true, false⟩, none⟩ (1 / 2) ⟨0, 0, 4, 4⟩ = .ok ⟨.Gray8, out⟩ ∧
      out.w = 2 ∧ out.h = 2 ∧ out.byteAt 1 0 0 0 = 5 := by
  obtain ⟨disk, done, doc, h1, h2, h3⟩ := C104_scaled_partial false Disk.empty exInfo viewOps exInfo_ok viewOps_ok (by
    intro a ha
    simp only [subsOf, viewOps, List.filterMap_cons, List.filterMap_nil, List.mem_cons, List.not_mem_nil, or_false] at ha
    rcases ha with rfl | rfl <;> (show 4 ≤ 2147483647; omega)) ⟨false, false, false, false⟩ (fun _ => true) (fun _ => rfl)
  have hsub := view_written h1
  rw [hsub] at h3
  have hall : ∀ {P : AddInfo → Prop}, P (viewSub 7 0 0 5) → P (viewSub 3 1 1 6) → ∀ a ∈ [viewSub 7 0 0 5, viewSub 3 1 1 6], P a := by
    intro P p q a ha
    simp only [List.mem_cons, List.not_mem_nil, or_false] at ha
    rcases ha with rfl | rfl
    · exact p
    · exact q
  have hpic : ∀ a ∈ [viewSub 7 0 0 5, viewSub 3 1 1 6], InPlane viewPlane a → a.pixelType = .Gray8 ∧
      DataShows c a a.physicalWidth.toNat a.physicalHeight.toNat (fun _ _ _ => if a.mIndex = some 7 then 5 else 6) :=
    hall (fun _ => ⟨rfl, viewSub_depicts c 7 0 0 5⟩) (fun _ => ⟨rfl, viewSub_depicts c 3 1 1 6⟩)
  have hsize : calcSize ⟨0, 0, 4, 4⟩ (1 / 2) = some (2, 2) := by
    have h4 : f32 ((4 : Int) : ℚ) = 4 := f32_size (z := 4) (by norm_num) (by norm_num)
    have h2 : f32 ((2 : Int) : ℚ) = 2 := f32_size (z := 2) (by norm_num) (by norm_num)
    unfold calcSize
    dsimp only
    rw [h4, show (4 : ℚ) * (1 / 2) = ((2 : Int) : ℚ) by norm_num, h2]
    norm_num [truncInt]
    rfl
  obtain ⟨out, e1, e2, e3, -, bg, -, sel, e4, vx, vy, sx, sy, e5, e6⟩ := h3 c mem sort .Gray8 viewPlane ⟨⟨⟨.num 0, .num 0, .num 0⟩, true, false⟩, none⟩
    (fun a _ _ _ => if a.mIndex = some 7 then 5 else 6) (1 / 2) ⟨0, 0, 4, 4⟩ 2 2 hz hs (.inl rfl)
    (hall (viewSub_plausible ..) (viewSub_plausible ..))
    ⟨rfl, (by
      intro d hd hn a ha b hb u v hu hv
      have key : ∀ a ∈ [viewSub 7 0 0 5, viewSub 3 1 1 6], a.coordinate = viewPlane := hall rfl rfl
      rw [key a ha, hn] at hu
      cases hu), (by
      intro d v hv
      have : d = .C ∧ v = 0 := by
        cases d <;> cases hv
        exact ⟨rfl, rfl⟩
      obtain ⟨rfl, rfl⟩ := this
      exact ⟨viewSub 7 0 0 5, by simp, viewSub 7 0 0 5, by simp, 0, 0, rfl, rfl, by omega, by omega⟩)⟩
    (.inr (hall rfl rfl)) hpic (fun _ => (by decide +kernel)) rfl (by norm_num) (by norm_num) hsize ⟨by decide, by decide, by decide, by decide⟩
    (fun a ha => by
      have := ha.1
      revert a
      intro a ha hm
      revert ha
      exact hall (P := fun a => Eligible _ _ _ _ a → UsualSub a) (fun _ => ⟨by decide, by decide, by decide, by decide, by decide, by decide⟩)
        (fun _ => ⟨by decide, by decide, by decide, by decide, by decide, by decide⟩) a hm)
    (fun _ a ha hn => absurd (hall (P := Full) ⟨rfl, rfl⟩ ⟨rfl, rfl⟩ a ha.1) hn)
  have hz7 : subZoom (viewSub 7 0 0 5) = 1 := by unfold subZoom viewSub; norm_num
  have hz3 : subZoom (viewSub 3 1 1 6) = 1 := by unfold subZoom viewSub; norm_num
  have hsel : sel (viewSub 7 0 0 5) := by
    refine e4.complete _ ⟨by simp, fun d v h => h, ⟨0, 0, by decide, ⟨by decide, by decide, by decide, by decide⟩⟩, fun _ h => by cases h⟩ ?_ ?_
    · rw [hz7]; unfold zoomSlack; norm_num
    · intro b hb _ _
      rw [hz7, hall (P := fun a => subZoom a = 1) hz7 hz3 b hb.1]
      unfold zoomSlack; norm_num
  refine ⟨disk, done, doc, h1, h2, out, e1, e2, e3, ?_⟩
  rcases e6 0 0 0 (by omega) (by omega) (by decide) with ⟨n, -⟩ | ⟨a, ha, hx, -, r, -⟩
  · refine absurd ⟨(e5 _ hsel).1.complete 0 (by omega) (.inl (by decide)) ?_ ?_, (e5 _ hsel).2.complete 0 (by omega) (.inl (by decide)) ?_ ?_⟩ (n _ hsel) <;>
      (unfold docPos pixelSlack viewSub; norm_num)
  · have hm := (e4.candidate a ha).1
    simp only [List.mem_cons, List.not_mem_nil, or_false] at hm
    rcases hm with rfl | rfl
    · exact r
    · have := ((e5 _ ha).1.sound 0 hx).2.1
      unfold docPos pixelSlack viewSub at this
      norm_num at this

end Verif
