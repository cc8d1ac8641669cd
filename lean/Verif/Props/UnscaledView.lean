import Verif.Proof.UnscaledView
import Verif.Props.ScaledView

/-!
# C104: what is written is what is seen by the scaling tile accessor with a zoom of 1
-/

namespace Verif
open Verif.Spec Verif.Czi Verif.Blit Verif.Bitonal Verif.Jxr Verif.Fill Verif.Zstd Verif.Accessor Verif.Viewer Verif.Flt

/-- **C104 (the scaling tile accessor with a zoom of 1; partial: restrictions as for `C104_scaled_partial`, and minified sub-blocks have a zoom below 0.95).** Whatever calls are made to the
writer: the picture with a zoom of 1 has the size of the region, and every pixel is the pixel of a sub-block without minification that was written to this plane and to an
allowed scene and covers it, above which there is no other; the other pixels have the background colour. -/
theorem C104_unscaled_partial (dup : Bool) (d0 : Disk) (info : WriterInfo) (ops : List WOp) (hi : InfoOk info) (hops : OpsOk ops)
    (hsz : ∀ a ∈ subsOf ops, a.sizeData ≤ 2147483647) (oo : OpenOptions) (al : Alloc) (hal : ∀ n, al n = true) :
    ∃ disk done doc, writeDoc dup d0 info ops = some (disk, done) ∧ openDoc al disk.stream oo = .ok doc ∧
      ∀ (c : Codecs) (mem : Memory) (sort : List Item → List Item) (pt : PixelType) (plane : Coord) (o : ScaledOptions) (pic : AddInfo → Nat → Nat → Nat → UInt8)
        (x y : Int) (w h : Nat), Lossless c.zstd → SortsWith zoomLess sort → ViewableType pt → (∀ a ∈ subsOf done, SubPlausible a) → PlaneFits plane (subsOf done) →
        ((∀ a ∈ subsOf done, a.coordinate .S ≠ none) ∨ (∀ a ∈ subsOf done, a.coordinate .S = none)) →
        (∀ a ∈ subsOf done, InPlane plane a → a.pixelType = pt ∧ DataShows c a a.physicalWidth.toNat a.physicalHeight.toNat (pic a)) →
        (Coloured o.view.background → o.view.background.sum ≠ .nan) → o.view.useVisibilityCheck = false → w ≤ 2 ^ 19 → h ≤ 2 ^ 19 →
        (∀ a, Eligible (subsOf done) plane ⟨x, y, w, h⟩ o.scenes a → UsualSub a ∧ (¬ Full a → subZoom a < 95 / 100)) →
        ∃ out, getScaledTyped sort c mem al disk.stream doc pt plane o 1 ⟨x, y, w, h⟩ = .ok ⟨pt, out⟩ ∧
          CorrectUnscaled c (subsOf done) pic pt plane o ⟨x, y, w, h⟩ w h out := by
  obtain ⟨disk, done, doc, h1, h2, H⟩ := holds_session dup d0 info ops hi hops hsz oo al hal
  exact ⟨disk, done, doc, h1, h2, fun c mem sort pt plane o pic x y w h hz hs hpt hp hf hsc hd hb hv hw hh hu =>
    H.unscaled hz mem hs hpt hp hf hsc hd hb hv ⟨rfl, hw⟩ ⟨rfl, hh⟩ (fun a ha => (hu a ha).1) (fun a ha => (hu a ha).2)⟩

/-- **C104 (pictures with a zoom of 1 show the contents; same restrictions, and the information in the directory takes precedence).** Whenever a reader shows certain contents of a file,
pictures composed with a zoom of 1 show the sub-blocks of the contents. -/
theorem C104_unscaled_pictures_of_contents_partial {al : Alloc} {s : Stream} {o : OpenOptions} {doc : Doc} {c : Content} {subs : List AddInfo} (ho : o.headerPrecedence = false)
    (h : openDoc al s o = .ok doc) (hr : ReaderShows al s doc c) (hc : ConsistsOf c subs) (hf : ∀ a ∈ subs, AddFits a) : UnscaledPicturesShow al s doc subs :=
  fun _ mem _ _ _ _ _ _ _ _ _ hz hs hpt hp hfit hsc hd hb hv hw hh hu =>
    (holds_of_contents ho h hr hc hf).unscaled hz mem hs hpt hp hfit hsc hd hb hv ⟨rfl, hw⟩ ⟨rfl, hh⟩ (fun a ha => (hu a ha).1) (fun a ha => (hu a ha).2)

/-- **C104 (pictures with a zoom of 1 after editing a written document; same restrictions).** Write any document with a writer, open it with a reader-writer and add, replace and remove
sub-blocks and write metadata in any order, whichever calls fail; after `Close`, the pictures with a zoom of 1 show the sub-blocks that are there after the edits. -/
theorem C104_unscaled_after_editing_partial (dup : Bool) (d0 : Disk) (info : WriterInfo) (ops : List WOp) (hi : InfoOk info) (hops : OpsOk ops)
    (hsz : ∀ op ∈ ops, ReadableOp op) (edits : List EditOp) (he : EditsOk ops.length (writtenSize ops) edits) (hna : ∀ op ∈ edits, NoAttachment op)
    (rwInfo : RWInfo) (o : OpenOptions) (ho : o.headerPrecedence = false) (al : Alloc) (hal : ∀ n, al n = true) :
    ∃ disk done doc c s, writeDoc dup d0 info ops = some (disk, done) ∧ openDoc al disk.stream o = .ok doc ∧ Initially al disk.stream doc c ∧
      rwCreate al ⟨RWState.init, disk⟩ rwInfo = (s, none) ∧
      ∃ w d doc', rwClose (edit s c edits).1 = (⟨w, d⟩, none) ∧ openDoc al d.stream o = .ok doc' ∧
        ∀ subs, ConsistsOf (edit s c edits).2 subs → (∀ a ∈ subs, AddFits a) → UnscaledPicturesShow al d.stream doc' subs := by
  obtain ⟨disk, done, h1, doc, c, s, h2, h3, h4, -, -, w, d, doc', h5, h6, h7, -⟩ :=
    C11_written_subblock_edits dup d0 info ops hi hops hsz edits he hna rwInfo o al hal
  exact ⟨disk, done, doc, c, s, h1, h2, h3, h4, w, d, doc', h5, h6, fun subs hc hf => C104_unscaled_pictures_of_contents_partial ho h6 h7 hc hf⟩

/-- **C104 (both accessors agree).** If no sub-block has a scene index, what is correct with a zoom of 1 is what is correct for the tile accessor without zoom. -/
theorem C104_unscaled_agrees {c : Codecs} {subs : List AddInfo} (hs : ∀ a ∈ subs, a.coordinate .S = none) {pic : AddInfo → Nat → Nat → Nat → UInt8} {pt : PixelType} {plane : Coord}
    {o : ScaledOptions} {x y : Int} {w h : Nat} {out : Bitmap} :
    CorrectUnscaled c subs pic pt plane o ⟨x, y, w, h⟩ w h out → CorrectPicture c subs pic pt plane o.view x y w h out := by
  rintro ⟨h1, h2, h5, bg, h3, h4⟩
  refine ⟨h1, h2, h5, bg, h3, fun i k j hi hk hj => ?_⟩
  have hel : ∀ a ∈ subs, InPlane plane a → CoversPoint a (x + i) (y + k) → Eligible subs plane ⟨x, y, w, h⟩ o.scenes a := by
    intro a ha hin hc
    refine ⟨ha, hin, ⟨x + i, y + k, ?_, hc⟩, fun _ _ s h => ?_⟩
    · unfold IntRect.Has
      dsimp only
      omega
    · rw [hs a ha] at h; cases h
  rcases h4 i k j hi hk hj with ⟨n, r⟩ | ⟨a, he, hf, hc, r, t⟩
  · exact .inl ⟨fun a ha hin hfu hc => n a (hel a ha hin hc) hfu hc, r⟩
  · refine .inr ⟨a, he.1, he.2.1, hf, hc, r, fun hsort b hb hin hfb hcb hab => ?_⟩
    exact t b (hel b hb hin hcb) hfb hcb (.inr (.inr ⟨hsort, by unfold InOneScene; rw [hs b hb, hs a he.1], hfb, hf, hab⟩))

/-! ## A case -/

/-- The hypotheses are met: the region of 4 × 4 points at (-1, -1); a pixel covered by both sub-blocks is that of the upper one. -/
example (c : Codecs) (hz : Lossless c.zstd) (mem : Memory) (sort : List Item → List Item) (hs : SortsWith zoomLess sort) :
    ∃ disk done doc, writeDoc false Disk.empty exInfo viewOps = some (disk, done) ∧
    openDoc (fun _ => true) disk.stream ⟨false, false, false, false⟩ = .ok doc ∧
    ∃ out, getScaledTyped sort c mem (fun _ => true) disk.stream doc .Gray8 viewPlane ⟨⟨⟨.num 0, .num 0, .num 0⟩, true, false⟩, none⟩ 1 ⟨-1, -1, (4 : Nat), (4 : Nat)⟩ =
        .ok ⟨.Gray8, out⟩ ∧ out.w = 4 ∧ out.h = 4 ∧ out.byteAt 1 2 2 0 = 5 := by
  obtain ⟨disk, done, doc, h1, h2, h3⟩ := C104_unscaled_partial false Disk.empty exInfo viewOps exInfo_ok viewOps_ok (by
    intro a ha
    simp only [subsOf, viewOps, List.filterMap_cons, List.filterMap_nil, List.mem_cons, List.not_mem_nil, or_false] at ha
    rcases ha with rfl | rfl <;> (show 4 ≤ 2147483647; omega)) ⟨false, false, false, false⟩ (fun _ => true) (fun _ => rfl)
  have hsub := view_written h1
  rw [hsub] at h3
  have hall : ∀ {P : AddInfo → Prop}, P (viewSub 7 0 0 5) → P (viewSub 3 1 1 6) → ∀ a ∈ [viewSub 7 0 0 5, viewSub 3 1 1 6], P a := by
    intro P p q a ha
    simp only [List.mem_cons, List.not_mem_nil, or_false] at ha
    rcases ha with rfl | rfl
    · exact p
    · exact q
  have hpic : ∀ a ∈ [viewSub 7 0 0 5, viewSub 3 1 1 6], InPlane viewPlane a → a.pixelType = .Gray8 ∧
      DataShows c a a.physicalWidth.toNat a.physicalHeight.toNat (fun _ _ _ => if a.mIndex = some 7 then 5 else 6) :=
    hall (fun _ => ⟨rfl, viewSub_depicts c 7 0 0 5⟩) (fun _ => ⟨rfl, viewSub_depicts c 3 1 1 6⟩)
  obtain ⟨out, e1, e2, e3, -, bg, -, e6⟩ := h3 c mem sort .Gray8 viewPlane ⟨⟨⟨.num 0, .num 0, .num 0⟩, true, false⟩, none⟩
    (fun a _ _ _ => if a.mIndex = some 7 then 5 else 6) (-1) (-1) 4 4 hz hs (.inl rfl)
    (hall (viewSub_plausible ..) (viewSub_plausible ..))
    ⟨rfl, (by
      intro d hd hn a ha b hb u v hu hv
      have key : ∀ a ∈ [viewSub 7 0 0 5, viewSub 3 1 1 6], a.coordinate = viewPlane := hall rfl rfl
      rw [key a ha, hn] at hu
      cases hu), (by
      intro d v hv
      have : d = .C ∧ v = 0 := by
        cases d <;> cases hv
        exact ⟨rfl, rfl⟩
      obtain ⟨rfl, rfl⟩ := this
      exact ⟨viewSub 7 0 0 5, by simp, viewSub 7 0 0 5, by simp, 0, 0, rfl, rfl, by omega, by omega⟩)⟩
    (.inr (hall rfl rfl)) hpic (fun _ => (by decide +kernel)) rfl (by norm_num) (by norm_num)
    (fun a ha => ⟨hall (P := UsualSub) ⟨by decide, by decide, by decide, by decide, by decide, by decide⟩ ⟨by decide, by decide, by decide, by decide, by decide, by decide⟩ a ha.1,
      fun hn => absurd (hall (P := Full) ⟨rfl, rfl⟩ ⟨rfl, rfl⟩ a ha.1) hn⟩)
  refine ⟨disk, done, doc, h1, h2, out, e1, e2, e3, ?_⟩
  have hel : Eligible [viewSub 7 0 0 5, viewSub 3 1 1 6] viewPlane ⟨-1, -1, (4 : Nat), (4 : Nat)⟩ none (viewSub 7 0 0 5) :=
    ⟨by simp, fun d v h => h, ⟨0, 0, by decide, ⟨by decide, by decide, by decide, by decide⟩⟩, fun _ h => by cases h⟩
  rcases e6 2 2 0 (by omega) (by omega) (by decide) with ⟨n, -⟩ | ⟨a, ha, -, -, r, t⟩
  · exact absurd ⟨by decide, by decide, by decide, by decide⟩ (n _ hel ⟨rfl, rfl⟩)
  · have hm := ha.1
    simp only [List.mem_cons, List.not_mem_nil, or_false] at hm
    rcases hm with rfl | rfl
    · exact r
    · exact absurd (.inr (.inr ⟨rfl, rfl, ⟨rfl, rfl⟩, ⟨rfl, rfl⟩, 7, rfl, fun n hn => by cases hn; omega⟩))
        (t (viewSub 7 0 0 5) hel ⟨rfl, rfl⟩ ⟨by decide, by decide, by decide, by decide⟩)

end Verif
