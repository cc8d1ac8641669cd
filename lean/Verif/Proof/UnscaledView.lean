import Verif.Proof.ScaledView
import Verif.Props.ScalingAccessor

/-! # Pictures of the scaling tile accessor with a zoom of 1 -/

namespace Verif.Viewer
open Verif.Spec Verif.Czi Verif.Blit Verif.Bitonal Verif.Jxr Verif.Fill Verif.Zstd Verif.Accessor Verif.Scale Verif.Flt

theorem calcSize_one {roi : IntRect} {w h : Nat} (hw : roi.w = w ∧ w ≤ 2 ^ 19) (hh : roi.h = h ∧ h ≤ 2 ^ 19) : calcSize roi 1 = some (w, h) := by
  have key : ∀ n : Nat, n ≤ 2 ^ 19 → f32 ((n : Int) : ℚ) = ((n : Int) : ℚ) ∧ truncInt ((n : Int) : ℚ) = n ∧ (-1 : ℚ) < ((n : Int) : ℚ) ∧ ((n : Int) : ℚ) < 4294967296 := by
    intro n hn
    have c1 : (0 : ℚ) ≤ ((n : Int) : ℚ) := by exact_mod_cast Int.natCast_nonneg n
    have c2 : ((n : Int) : ℚ) ≤ 2 ^ 19 := by exact_mod_cast hn
    refine ⟨f32_int n (by rw [abs_of_nonneg (Int.natCast_nonneg n)]; omega), ?_, by linarith, by linarith⟩
    unfold truncInt
    rw [if_pos c1, Int.floor_intCast]
  obtain ⟨a1, a2, a3, a4⟩ := key w hw.2
  obtain ⟨b1, b2, b3, b4⟩ := key h hh.2
  unfold calcSize
  dsimp only
  rw [hw.1, hh.1, a1, b1, mul_one, mul_one, a1, b1, if_pos ⟨a3, a4, b3, b4⟩, a2, b2]
  rfl

section
variable {al : Alloc} {s : Stream} {doc : Doc} {subs : List AddInfo}

theorem Holds.unscaled (H : Holds al s doc subs) {c : Codecs} (hz : Lossless c.zstd) (mem : Memory) {sort : List Item → List Item} (hsort : SortsWith zoomLess sort)
    {pt : PixelType} (hpt : ViewableType pt) {plane : Coord} {o : ScaledOptions} {pic : AddInfo → Nat → Nat → Nat → UInt8} (hp : ∀ a ∈ subs, SubPlausible a)
    (hfit : PlaneFits plane subs) (hscene : (∀ a ∈ subs, a.coordinate .S ≠ none) ∨ (∀ a ∈ subs, a.coordinate .S = none))
    (hd : ∀ a ∈ subs, InPlane plane a → a.pixelType = pt ∧ DataShows c a a.physicalWidth.toNat a.physicalHeight.toNat (pic a))
    (hbg : Coloured o.view.background → o.view.background.sum ≠ .nan) (hvis : o.view.useVisibilityCheck = false)
    {roi : IntRect} {w h : Nat} (hw : roi.w = w ∧ w ≤ 2 ^ 19) (hh : roi.h = h ∧ h ≤ 2 ^ 19)
    (hu : ∀ a, Eligible subs plane roi o.scenes a → UsualSub a)
    (hlay : ∀ a, Eligible subs plane roi o.scenes a → ¬ Full a → subZoom a < 95 / 100) :
    ∃ out, getScaledTyped sort c mem al s doc pt plane o 1 roi = .ok ⟨pt, out⟩ ∧ CorrectUnscaled c subs pic pt plane o roi w h out := by
  have hsize := calcSize_one hw hh
  have h1 : o.view.sortByM = true → ∀ a, Eligible subs plane roi o.scenes a → ¬ Full a → subZoom a ≠ 1 := by
    intro _ a ha hn he
    have := hlay a ha hn
    rw [he] at this
    norm_num at this
  classical
  obtain ⟨hb, -, -, hk, -⟩ := composable_bpp hpt
  have hwf0 : (newBitmap mem.dest w h (defaultPitch (pixelBytes pt) w)).WF (pixelBytes pt) := by
    unfold newBitmap Bitmap.WF defaultPitch
    dsimp only
    have e : w * pixelBytes pt ≤ (pixelBytes pt * w + 3) / 4 * 4 := by rw [Nat.mul_comm]; omega
    refine ⟨e, fun hh => ?_⟩
    obtain ⟨k, rfl⟩ : ∃ k, h = k + 1 := ⟨h - 1, by omega⟩
    rw [Nat.add_sub_cancel, Nat.succ_mul]
    omega
  obtain ⟨bg, g1, g2, g3, g4, g5⟩ := clear_ok c.enc hpt _ hwf0 o.view.background hbg
  change bg.w = w at g2
  change bg.h = h at g3
  let pix := pictures c mem al s doc
  let items := indexed doc.entries
  have hitem : ∀ p ∈ items, ∃ a ∈ subs, ∃ sb, doc.readSubBlock al s p.1.toNat = .ok (some sb) ∧ ReadAs a p.2 sb := by
    rintro ⟨i, e⟩ hp
    obtain ⟨h0, he⟩ := (indexed_mem _ _ _).1 hp
    obtain ⟨hi, rfl⟩ := List.getElem?_eq_some_iff.1 he
    exact H.read _ hi
  have hwritten : ∀ a ∈ subs, ∃ p ∈ items, ∃ sb, doc.readSubBlock al s p.1.toNat = .ok (some sb) ∧ ReadAs a p.2 sb := by
    intro a ha
    obtain ⟨i, hi, sb, hr, r⟩ := H.written a ha
    exact ⟨((i : Int), doc.entries[i]), (indexed_mem _ _ _).2 ⟨by omega, by simp⟩, sb, hr, r⟩
  have hshow : ∀ p ∈ items, ∀ a ∈ subs, ∀ sb, doc.readSubBlock al s p.1.toNat = .ok (some sb) → ReadAs a p.2 sb → InPlane plane a → UsualSub a →
      fetch c mem al s doc p.1.toNat = .ok (sb.info, ⟨pt, (pix p.1).1⟩) ∧
        ShowsImage ⟨pt, (pix p.1).1⟩ pt a.physicalWidth.toNat a.physicalHeight.toNat (pic a) := by
    rintro ⟨i, e⟩ hpm a ha sb hr r hin hf
    obtain ⟨h0, he⟩ := (indexed_mem _ _ _).1 hpm
    obtain ⟨hi, rfl⟩ := List.getElem?_eq_some_iff.1 he
    obtain ⟨t, t1, t2⟩ := H.fetchedStored hz mem hpt hd i.toNat hi a ha sb hr r hin hf
    have hpx : (pix i).1 = t.bm := by
      show (pictures c mem al s doc i).1 = t.bm
      unfold pictures
      rw [t1]
    have ht : (⟨pt, (pix i).1⟩ : Typed) = t := by
      rw [hpx]
      have := t2.typ
      cases t
      cases this
      rfl
    rw [ht]
    exact ⟨t1, t2⟩
  have hmask : ∀ p : Item, (pix p.1).2 = none := fun p => pictures_mask ..
  have hst : DocumentStats (docStats doc) items := by
    have := documentStats_reader items (by
      intro p hpm
      refine H.entryOk hp _ ?_
      have := List.mem_map_of_mem (f := (·.2)) hpm
      rwa [indexed_snd] at this)
    rw [indexed_snd] at this
    exact this
  have hplane := (H.plane hp plane).2 hfit
  have hscenes : ScenesUniform items := by
    rcases hscene with hs | hs
    · left
      intro p hpm
      obtain ⟨a, ha, sb, -, r⟩ := hitem p hpm
      rw [r.coordinate]; exact hs a ha
    · right
      intro p hpm
      obtain ⟨a, ha, sb, -, r⟩ := hitem p hpm
      rw [r.coordinate]; exact hs a ha
  have husual : ∀ p, Candidate items plane roi o.scenes p → Usual (.same (pixelBytes pt)) p.2 (pix p.1).1 (pix p.1).2 := by
    intro p hc
    obtain ⟨a, ha, sb, hr, r⟩ := hitem p hc.1
    have he := (r.candidate ha hc.1 plane roi o.scenes).1 hc
    have hua := hu a he
    have hs := (hshow p hc.1 a ha sb hr r he.2.1 hua).2
    obtain ⟨u1, u2, u3, u4, u5, u6⟩ := hua
    refine ⟨?_, ?_, (validM_range r.mIndex (H.fits a ha).mIndex).1, ⟨?_, ?_⟩, hs.wf, fun m hm => ?_⟩
    · rw [r.storedWidth, r.width]; exact ⟨u1, u2, u3⟩
    · rw [r.storedHeight, r.height]; exact ⟨u4, u5, u6⟩
    · rw [show (pix p.1).1.w = a.physicalWidth.toNat from hs.width, r.storedWidth]; omega
    · rw [show (pix p.1).1.h = a.physicalHeight.toNat from hs.height, r.storedHeight]; omega
    · rw [hmask] at hm; cases hm
  have hL := paintedList_ok hsort o.scenes o.view.sortByM roi hst (indexed_nodup _) hplane hscenes (by norm_num : (0 : ℚ) < 1)
    (fun p hc => ⟨sized_of_usual (husual p hc), (husual p hc).m⟩) (fun hs p hc hnl => by
      obtain ⟨a, ha, sb, hr, r⟩ := hitem p hc.1
      rw [r.zoom]
      exact h1 hs a ((r.candidate ha hc.1 plane roi o.scenes).1 hc) (fun hf => hnl (r.layer0.2 hf)))
  generalize hLdef : paintedList sort items (docStats doc) plane o.scenes o.view.sortByM roi 1 = L at hL
  have htile : ∀ p ∈ L, TileOk (.same (pixelBytes pt)) (tileAt pix p) := by
    intro p hpL
    refine ⟨(husual p (hL.selects.candidate p hpL)).wf, ?_⟩
    simp only [tileAt, hmask]
    trivial
  obtain ⟨out, o1, o2, o3, o4, o5, o6, o7⟩ := paintAll_ok (.same (pixelBytes pt)) 1 roi pix _ _ L bg g4
    (fun p hp d hd _ _ => copy_ok (roi := roi) (htile p hp) hd)
  have hfetched : ∀ p ∈ L, Fetched c mem al s doc pt pix p := by
    intro p hpL
    have hc := hL.selects.candidate p hpL
    obtain ⟨a, ha, sb, hr, r⟩ := hitem p hc.1
    have he := (r.candidate ha hc.1 plane roi o.scenes).1 hc
    exact ⟨sb.info, (hshow p hc.1 a ha sb hr r he.2.1 (hu a he)).1, r.sx.trans r.x.symm, r.sy.trans r.y.symm, hmask p⟩
  refine ⟨out, ?_, o2.trans g2, o3.trans g3, (by have := g4; unfold Bitmap.WF at this ⊢; rw [o2, o3, o4, o5]; exact this), fun x y j => bg.byteAt (pixelBytes pt) x y j, fun hc x y hx hy => g5 hc x y hx hy, ?_⟩
  · unfold getScaledTyped
    rw [hsize]
    dsimp only
    rw [hb]
    dsimp only
    unfold scaledInternalGet
    rw [hplane]
    dsimp only
    rw [g1]
    dsimp only
    rw [hvis, paintSubsets_eq hpt 1 roi _ bg (by
      intro p hpm
      exact hfetched p (by rw [← hLdef]; exact hpm))]
    have : paintAll (.same (pixelBytes pt)) 1 roi pix
        ((scenesSorted sort (indexed doc.entries) (docStats doc) plane o.scenes o.view.sortByM roi).map (zoomRange 1)).flatten bg = some out := by
      rw [← o1, ← hLdef]
      rfl
    rw [this]
    rfl
  -- in terms of the sub-blocks given to the writer
  have hin : ∀ p, p ∈ L ↔ Candidate items plane roi o.scenes p ∧ OnLayer0 p.2 := fun p =>
    C60_unscaled_layer0 items plane roi o.scenes (· ∈ L) hL.selects (fun q hq => by
      obtain ⟨⟨a, b, c⟩, d, e, f⟩ := sized_of_usual (husual q hq)
      exact ⟨a, b, c, d, e, f⟩) (fun q hq hnl => by
      obtain ⟨a, ha, sb, hr, r⟩ := hitem q hq.1
      rw [r.zoom]
      exact hlay a ((r.candidate ha hq.1 plane roi o.scenes).1 hq) (fun hf => hnl (r.layer0.2 hf))) p
  have hpaint : ∀ p ∈ L, ∀ a ∈ subs, ∀ sb, doc.readSubBlock al s p.1.toNat = .ok (some sb) → ReadAs a p.2 sb → ∀ px py,
      (tileAt pix p).paints px py = true ↔ CoversPoint a px py := by
    intro p hpL a ha sb hr r px py
    have hc := hL.selects.candidate p hpL
    have he := (r.candidate ha hc.1 plane roi o.scenes).1 hc
    have hua := hu a he
    have hs := (hshow p hc.1 a ha sb hr r he.2.1 hua).2
    have hfu := r.layer0.1 ((hin p).1 hpL).2
    obtain ⟨u1, u2, u3, u4, u5, u6⟩ := hua
    unfold Full at hfu
    simp only [Tile.paints, tileAt, hmask, Bool.and_true, decide_eq_true_eq, CoversPoint]
    rw [show (pix p.1).1.w = a.physicalWidth.toNat from hs.width, show (pix p.1).1.h = a.physicalHeight.toNat from hs.height, r.x, r.y]
    omega
  intro x y j hx hy hj
  have hval : out.byteAt (pixelBytes pt) x y j = _ := o6 x y j (by omega) (by omega) hj
  rw [hval]
  have ht := topMost_of_list hL (fun p => (tileAt pix p).paints (roi.x + x) (roi.y + y))
    (fun p => (tileAt pix p).colour (.same (pixelBytes pt)) (roi.x + x) (roi.y + y) j) (bg.byteAt (pixelBytes pt) x y j)
  rcases ht with ⟨n1, n2⟩ | ⟨p, hpL, p3, p4, p5⟩
  · refine .inl ⟨?_, n2⟩
    intro a he hfu hv
    obtain ⟨p, hpm, sb, hr, r⟩ := hwritten a he.1
    have hpL := (hin p).2 ⟨(r.candidate he.1 hpm plane roi o.scenes).2 he, r.layer0.2 hfu⟩
    exact n1 p hpL ((hpaint p hpL a he.1 sb hr r _ _).2 hv)
  · have hc := hL.selects.candidate p hpL
    obtain ⟨a, ha, sb, hr, r⟩ := hitem p hc.1
    have he := (r.candidate ha hc.1 plane roi o.scenes).1 hc
    have hs := (hshow p hc.1 a ha sb hr r he.2.1 (hu a he)).2
    have hcov := (hpaint p hpL a ha sb hr r _ _).1 p3
    have hfu := r.layer0.1 ((hin p).1 hpL).2
    refine .inr ⟨a, he, hfu, hcov, ?_, ?_⟩
    · refine p4.trans ?_
      unfold Tile.colour tileAt
      dsimp only
      rw [r.x, r.y]
      unfold CoversPoint at hcov
      unfold Full at hfu
      exact hs.bytes _ _ j (by omega) (by omega) hj
    · intro b hb' hfb hvb hover
      obtain ⟨q, hq, sb', hr', r'⟩ := hwritten b hb'.1
      have hqL := (hin q).2 ⟨(r'.candidate hb'.1 hq plane roi o.scenes).2 hb', r'.layer0.2 hfb⟩
      exact p5 q hqL ((hpaint q hqL b hb'.1 sb' hr' r' _ _).2 hvb) (shownOver_over r r' hover)

end

end Verif.Viewer
