import Verif.Proof.ScaleNum
import Verif.Props.Convert

/-! # C59 - nearest-neighbour scaling -/

namespace Verif
open Blit Czi Bitonal Spec Flt Scale

theorem shown_iff (mask : Option Mask) (sx sy : Nat) : shown mask sx sy = true ↔ NotMasked mask sx sy := by
  cases mask <;> simp [shown, NotMasked, and_assoc]

theorem convOf_facts {k : Kind} (hn : k.NoOverread) :
    (convOf k).rd ≤ (convOf k).sb ∧ (convOf k).sb = k.sb ∧ (convOf k).db = k.db ∧ ∀ s j, (convOf k).f s j = k.value s j := by
  cases k with
  | same n => exact ⟨Nat.le_refl _, rfl, rfl, fun _ _ => rfl⟩
  | conv c => exact ⟨hn, rfl, rfl, fun _ _ => rfl⟩

theorem visited_range {a : Axis} {r : Nat × Nat} (h : a.range = some r) (x : Nat) : visited a x ↔ r.1 ≤ x ∧ x < r.1 + r.2 := by
  constructor
  · rintro ⟨r', h1, h2⟩
    rw [h] at h1; cases h1; exact h2
  · intro h2; exact ⟨r, h, h2⟩

/-- What is written, for any conversion of pixels. -/
theorem scale_kind {enc : ℚ → Nat → UInt8} {ps pd : PixelType} {k : Kind} (hk : scaleKind enc ps pd = some k) (hn : k.NoOverread)
    (mask : Option Mask) (hm : ∀ m, mask = some m → m.WF) (src dst : Bitmap) (hsrc : src.WF k.sb) (hdst : dst.WF k.db)
    (sr dr : Roi) (hx : Moderate (xAxis src dst sr dr)) (hy : Moderate (yAxis src dst sr dr)) :
    ∃ out, nnResizeRoi enc ps pd mask src dst sr dr = .ok out ∧
      out.w = dst.w ∧ out.h = dst.h ∧ out.stride = dst.stride ∧ out.buf.size = dst.buf.size ∧
      (∀ x y j, x < dst.w → y < dst.h → j < k.db →
        (visited (xAxis src dst sr dr) x → visited (yAxis src dst sr dr) y →
          NotMasked mask ((xAxis src dst sr dr).source x).toNat ((yAxis src dst sr dr).source y).toNat →
          out.byteAt k.db x y j = k.value (src.byteAt k.sb ((xAxis src dst sr dr).source x).toNat
            ((yAxis src dst sr dr).source y).toNat) j) ∧
        (¬ (visited (xAxis src dst sr dr) x ∧ visited (yAxis src dst sr dr) y ∧
          NotMasked mask ((xAxis src dst sr dr).source x).toNat ((yAxis src dst sr dr).source y).toNat) →
          out.byteAt k.db x y j = dst.byteAt k.db x y j)) ∧
      (∀ i, dst.IsPadding k.db i → out.buf.get i = dst.buf.get i) := by
  obtain ⟨f1, f2, f3, f4⟩ := convOf_facts hn
  have hrx := range_some hx
  have hry := range_some hy
  obtain ⟨out, h1, h2⟩ := scaleLoops_ok (c := convOf k) f1 hm (src := src) (dst := dst) (by rw [f2]; exact hsrc) (by rw [f3]; exact hdst)
    hx.src.1 hy.src.1 (ax := xAxis src dst sr dr) (ay := yAxis src dst sr dr) ⟨rfl, rfl⟩ ⟨rfl, rfl⟩ hrx hry
  rw [f3] at h2
  refine ⟨out, ?_, h2.w, h2.h, h2.stride, h2.size, ?_, h2.outside⟩
  · unfold nnResizeRoi
    rw [hk]
    dsimp only
    rw [h1]; rfl
  · intro x y j hx' hy' hj
    have h3 := h2.inside x y j hx' hy' hj
    rw [visited_range hrx, visited_range hry, ← shown_iff]
    constructor
    · intro a b c
      rw [if_pos (by simp only [Bool.and_eq_true, decide_eq_true_eq]; exact ⟨⟨a.1, a.2, b.1, b.2⟩, c⟩), f4, f2] at h3
      exact h3
    · intro a
      rw [if_neg (by
        simp only [Bool.and_eq_true, decide_eq_true_eq]
        rintro ⟨⟨b1, b2, b3, b4⟩, c⟩
        exact a ⟨⟨b1, b2⟩, ⟨b3, b4⟩, c⟩)] at h3
      exact h3

theorem scaleKind_integer (enc : ℚ → Nat → UInt8) {ps pd : PixelType} (hs : IntegerType ps) : scaleKind enc ps pd = kindOf enc ps pd := by
  unfold scaleKind
  rw [if_neg]
  rintro ⟨rfl, -⟩
  simp [IntegerType] at hs

theorem scaleKind_same (enc : ℚ → Nat → UInt8) {p : PixelType} (hp : IntegerType p ∨ p = .Gray32Float ∨ p = .Bgra32) :
    scaleKind enc p p = some (.same (pixelBytes p)) := by
  rcases hp with (rfl | rfl | rfl | rfl) | rfl | rfl <;> rfl

/-- **C59 (partial: integer pixel types, without Bgr24 to Bgr48, whose converter reads beyond the pixel; regions of moderate
size).** Scaling a region of a bitmap to a region of another one, with or without a mask, accesses no memory outside the bitmaps.
There are columns `vx` and rows `vy` - those of the region of the destination that correspond to a position in the source - such
that the pixel in such a column and row gets the converted value of a source pixel nearest to the corresponding position, unless
this is masked out, and no other byte of the destination changes. -/
theorem C59_scale_partial (enc : ℚ → Nat → UInt8) {ps pd : PixelType} (hs : IntegerType ps) (hd : IntegerType pd)
    (hx : ¬ (ps = .Bgr24 ∧ pd = .Bgr48)) (mask : Option Mask) (hm : ∀ m, mask = some m → m.WF) (src dst : Bitmap)
    (hsrc : src.WF (pixelBytes ps)) (hdst : dst.WF (pixelBytes pd)) (sr dr : Roi)
    (hax : Moderate (xAxis src dst sr dr)) (hay : Moderate (yAxis src dst sr dr)) :
    ∃ out, nnResizeRoi enc ps pd mask src dst sr dr = .ok out ∧
      out.w = dst.w ∧ out.h = dst.h ∧ out.stride = dst.stride ∧ out.buf.size = dst.buf.size ∧
      ∃ vx vy : Nat → Prop, Visits (xAxis src dst sr dr) vx ∧ Visits (yAxis src dst sr dr) vy ∧
      ∃ sx sy : Nat → Nat,
        (∀ x, vx x → Picks src.w (exactPosition (xAxis src dst sr dr) x) (2 * tolerance) (sx x)) ∧
        (∀ y, vy y → Picks src.h (exactPosition (yAxis src dst sr dr) y) (2 * tolerance) (sy y)) ∧
        (∀ x y, x < dst.w → y < dst.h → vx x → vy y → NotMasked mask (sx x) (sy y) →
          Converted ps pd (channels ps (src.byteAt (pixelBytes ps) (sx x) (sy y)))
            (channels pd (out.byteAt (pixelBytes pd) x y))) ∧
        (∀ x y j, x < dst.w → y < dst.h → j < pixelBytes pd → ¬ (vx x ∧ vy y ∧ NotMasked mask (sx x) (sy y)) →
          out.byteAt (pixelBytes pd) x y j = dst.byteAt (pixelBytes pd) x y j) ∧
        (∀ i, dst.IsPadding (pixelBytes pd) i → out.buf.get i = dst.buf.get i) := by
  obtain ⟨k, hk, hn, hsb, hdb, hval⟩ := kindOf_integer enc hs hd hx
  rw [← hsb] at hsrc ⊢
  rw [← hdb] at hdst ⊢
  obtain ⟨out, h1, e1, e2, e3, e4, h2, h3⟩ := scale_kind (by rw [scaleKind_integer enc hs]; exact hk) hn mask hm src dst hsrc hdst
    sr dr hax hay
  refine ⟨out, h1, e1, e2, e3, e4, visited (xAxis src dst sr dr), visited (yAxis src dst sr dr), visits_ok hax, visits_ok hay,
    fun x => ((xAxis src dst sr dr).source x).toNat, fun y => ((yAxis src dst sr dr).source y).toNat,
    fun x h => picks_ok hax h, fun y h => picks_ok hay h, ?_, ?_, h3⟩
  · intro x y hx hy vx vy hmask
    rw [channels_congr pd (fun j hj => (h2 x y j hx hy (by omega)).1 vx vy hmask)]
    exact hval _
  · intro x y j hx hy hj hnot
    exact (h2 x y j hx hy hj).2 hnot

/-- The hypotheses are met: the left half of a 4x2 Gray16 bitmap, scaled to the lower left quarter of a 3x3 Gray8 bitmap. -/
example : IntegerType .Gray16 ∧ IntegerType .Gray8 ∧
    (⟨4, 2, 8, Buf.ofList (List.replicate 16 7)⟩ : Bitmap).WF (pixelBytes .Gray16) ∧
    (⟨3, 3, 4, Buf.ofList (List.replicate 12 0)⟩ : Bitmap).WF (pixelBytes .Gray8) ∧
    Moderate (xAxis ⟨4, 2, 8, Buf.ofList (List.replicate 16 7)⟩ ⟨3, 3, 4, Buf.ofList (List.replicate 12 0)⟩
      ⟨0, 0, 2, 2⟩ ⟨0, 3 / 2, 3 / 2, 3 / 2⟩) ∧
    Moderate (yAxis ⟨4, 2, 8, Buf.ofList (List.replicate 16 7)⟩ ⟨3, 3, 4, Buf.ofList (List.replicate 12 0)⟩
      ⟨0, 0, 2, 2⟩ ⟨0, 3 / 2, 3 / 2, 3 / 2⟩) := by
  refine ⟨by simp [IntegerType], by simp [IntegerType], by simp [Bitmap.WF, pixelBytes, Buf.ofList],
    by simp [Bitmap.WF, pixelBytes, Buf.ofList], ?_, ?_⟩ <;>
  · constructor <;> norm_num [xAxis, yAxis, abs_of_pos]

/-- **C59, equal pixel types** (also Gray32Float and Bgra32): the bytes of the nearest source pixel are copied. -/
theorem C59_scale_same (enc : ℚ → Nat → UInt8) {p : PixelType} (hp : IntegerType p ∨ p = .Gray32Float ∨ p = .Bgra32)
    (mask : Option Mask) (hm : ∀ m, mask = some m → m.WF) (src dst : Bitmap)
    (hsrc : src.WF (pixelBytes p)) (hdst : dst.WF (pixelBytes p)) (sr dr : Roi)
    (hax : Moderate (xAxis src dst sr dr)) (hay : Moderate (yAxis src dst sr dr)) :
    ∃ out, nnResizeRoi enc p p mask src dst sr dr = .ok out ∧
      ∃ vx vy : Nat → Prop, Visits (xAxis src dst sr dr) vx ∧ Visits (yAxis src dst sr dr) vy ∧
      ∃ sx sy : Nat → Nat,
        (∀ x, vx x → Picks src.w (exactPosition (xAxis src dst sr dr) x) (2 * tolerance) (sx x)) ∧
        (∀ y, vy y → Picks src.h (exactPosition (yAxis src dst sr dr) y) (2 * tolerance) (sy y)) ∧
        ∀ x y j, x < dst.w → y < dst.h → j < pixelBytes p →
          (vx x → vy y → NotMasked mask (sx x) (sy y) →
            out.byteAt (pixelBytes p) x y j = src.byteAt (pixelBytes p) (sx x) (sy y) j) ∧
          (¬ (vx x ∧ vy y ∧ NotMasked mask (sx x) (sy y)) → out.byteAt (pixelBytes p) x y j = dst.byteAt (pixelBytes p) x y j) := by
  obtain ⟨out, h1, -, -, -, -, h2, -⟩ := scale_kind (scaleKind_same enc hp) trivial mask hm src dst hsrc hdst sr dr hax hay
  exact ⟨out, h1, visited (xAxis src dst sr dr), visited (yAxis src dst sr dr), visits_ok hax, visits_ok hay,
    fun x => ((xAxis src dst sr dr).source x).toNat, fun y => ((yAxis src dst sr dr).source y).toNat,
    fun x h => picks_ok hax h, fun y h => picks_ok hay h, h2⟩

/-- A bitmap of between one and `2^20` pixels in each direction. -/
def Spec.ModerateSize (b : Bitmap) : Prop := 0 < b.w ∧ b.w ≤ 2 ^ 20 ∧ 0 < b.h ∧ b.h ≤ 2 ^ 20

theorem nnResize_eq (enc : ℚ → Nat → UInt8) (p : PixelType) (src dst : Bitmap) :
    nnResize enc p p src dst = nnResizeRoi enc p p none src dst ⟨0, 0, src.w, src.h⟩ ⟨0, 0, dst.w, dst.h⟩ := by
  unfold nnResize
  rw [if_neg (fun h => h rfl)]

/-- **C59, resizing a bitmap (partial: to less than twice its size,** see `C59_upscale_unwritten` for the others**).**
`NearestNeighborResize` gives every pixel of the result the bytes of a pixel of the source that is nearest to
`(x·sourceWidth/width, y·sourceHeight/height)`, exactly. -/
theorem C59_resize_partial (enc : ℚ → Nat → UInt8) {p : PixelType} (hp : IntegerType p ∨ p = .Gray32Float ∨ p = .Bgra32)
    (src dst : Bitmap) (hsrc : src.WF (pixelBytes p)) (hdst : dst.WF (pixelBytes p)) (hs : ModerateSize src) (hd : ModerateSize dst)
    (hw : dst.w < 2 * src.w) (hh : dst.h < 2 * src.h) :
    ∃ out, nnResize enc p p src dst = .ok out ∧ out.w = dst.w ∧ out.h = dst.h ∧
      ∀ x y, x < dst.w → y < dst.h → ∃ sx sy,
        Picks src.w ((x : ℚ) * src.w / dst.w) 0 sx ∧ Picks src.h ((y : ℚ) * src.h / dst.h) 0 sy ∧
        ∀ j, j < pixelBytes p → out.byteAt (pixelBytes p) x y j = src.byteAt (pixelBytes p) sx sy j := by
  obtain ⟨s1, s2, s3, s4⟩ := hs
  obtain ⟨d1, d2, d3, d4⟩ := hd
  obtain ⟨out, h1, e1, e2, -, -, h2, -⟩ := scale_kind (scaleKind_same enc hp) trivial none (fun _ h => by cases h) src dst hsrc hdst
    ⟨0, 0, src.w, src.h⟩ ⟨0, 0, dst.w, dst.h⟩ (whole_moderate s1 d1 s2 d2) (whole_moderate s3 d3 s4 d4)
  refine ⟨out, by rw [nnResize_eq]; exact h1, e1, e2, ?_⟩
  intro x y hx hy
  refine ⟨((wholeAxis src.w dst.w).source x).toNat, ((wholeAxis src.h dst.h).source y).toNat, whole_picks s1 s2 d2 hx,
    whole_picks s3 s4 d4 hy, ?_⟩
  intro j hj
  exact (h2 x y j hx hy hj).1 (whole_all s1 s2 d2 hw hx) (whole_all s3 s4 d4 hh hy) trivial

/-- The hypotheses are met: 4x3 to 2x5 pixels. -/
example : (⟨4, 3, 4, Buf.ofList (List.replicate 12 7)⟩ : Bitmap).WF (pixelBytes .Gray8) ∧
    (⟨2, 5, 2, Buf.ofList (List.replicate 10 0)⟩ : Bitmap).WF (pixelBytes .Gray8) ∧
    ModerateSize ⟨4, 3, 4, Buf.ofList (List.replicate 12 7)⟩ ∧ ModerateSize ⟨2, 5, 2, Buf.ofList (List.replicate 10 0)⟩ ∧
    2 < 2 * 4 ∧ 5 < 2 * 3 := by
  simp [Bitmap.WF, pixelBytes, Buf.ofList, ModerateSize]

/-- **C59, the same size:** resizing a bitmap to its own size copies it. -/
theorem C59_same_size (enc : ℚ → Nat → UInt8) {p : PixelType} (hp : IntegerType p ∨ p = .Gray32Float ∨ p = .Bgra32)
    (src dst : Bitmap) (hsrc : src.WF (pixelBytes p)) (hdst : dst.WF (pixelBytes p)) (hs : ModerateSize src)
    (hw : dst.w = src.w) (hh : dst.h = src.h) :
    ∃ out, nnResize enc p p src dst = .ok out ∧
      ∀ x y j, x < dst.w → y < dst.h → j < pixelBytes p → out.byteAt (pixelBytes p) x y j = src.byteAt (pixelBytes p) x y j := by
  have hd : ModerateSize dst := by unfold ModerateSize at hs ⊢; rw [hw, hh]; exact hs
  obtain ⟨out, h1, -, -, h2⟩ := C59_resize_partial enc hp src dst hsrc hdst hs hd (by have := hs.1; omega) (by have := hs.2.2.1; omega)
  refine ⟨out, h1, ?_⟩
  have key : ∀ (n x i : Nat), x < n → Picks n ((x : ℚ) * n / n) 0 i → i = x := by
    intro n x i hx h
    have hn : (n : ℚ) ≠ 0 := by exact_mod_cast (by omega : n ≠ 0)
    rw [mul_div_cancel_right₀ _ hn] at h
    have h3 := h.2 x hx
    rw [sub_self, abs_zero, zero_add] at h3
    have h4 := abs_nonpos_iff.mp h3
    have h5 : (i : ℚ) = x := by linarith
    exact_mod_cast h5
  intro x y j hx hy hj
  obtain ⟨sx, sy, p1, p2, h3⟩ := h2 x y hx hy
  rw [hw] at p1 hx
  rw [hh] at p2 hy
  have := key _ _ _ hx p1
  have := key _ _ _ hy p2
  subst sx; subst sy
  exact h3 j hj

/-- **C59, violation (all sizes): enlarging a bitmap to twice its width or more leaves the last column unwritten.** The pixels of
the last column are those the destination had before; `NearestNeighborResize` without ROIs passes a new bitmap, whose contents
are not initialised. -/
theorem C59_upscale_unwritten (enc : ℚ → Nat → UInt8) {p : PixelType} (hp : IntegerType p ∨ p = .Gray32Float ∨ p = .Bgra32)
    (src dst : Bitmap) (hsrc : src.WF (pixelBytes p)) (hdst : dst.WF (pixelBytes p)) (hs : ModerateSize src) (hd : ModerateSize dst)
    (hw : 2 * src.w ≤ dst.w) :
    ∃ out, nnResize enc p p src dst = .ok out ∧
      ∀ y j, y < dst.h → j < pixelBytes p →
        out.byteAt (pixelBytes p) (dst.w - 1) y j = dst.byteAt (pixelBytes p) (dst.w - 1) y j := by
  obtain ⟨s1, s2, s3, s4⟩ := hs
  obtain ⟨d1, d2, d3, d4⟩ := hd
  obtain ⟨out, h1, -, -, -, -, h2, -⟩ := scale_kind (scaleKind_same enc hp) trivial none (fun _ h => by cases h) src dst hsrc hdst
    ⟨0, 0, src.w, src.h⟩ ⟨0, 0, dst.w, dst.h⟩ (whole_moderate s1 d1 s2 d2) (whole_moderate s3 d3 s4 d4)
  refine ⟨out, by rw [nnResize_eq]; exact h1, ?_⟩
  intro y j hy hj
  exact (h2 (dst.w - 1) y j (by omega) hy hj).2 (fun h => whole_last s1 s2 d2 hw h.1)

/-- The hypotheses are met: 1x1 to 2x1 pixels. -/
example : (⟨1, 1, 1, Buf.ofList [7]⟩ : Bitmap).WF (pixelBytes .Gray8) ∧ (⟨2, 1, 2, Buf.ofList [0, 0]⟩ : Bitmap).WF (pixelBytes .Gray8) ∧
    ModerateSize ⟨1, 1, 1, Buf.ofList [7]⟩ ∧ ModerateSize ⟨2, 1, 2, Buf.ofList [0, 0]⟩ := by
  simp [Bitmap.WF, pixelBytes, Buf.ofList, ModerateSize]

/-- **C59, violation: the column after the ROI is painted.** If the ROIs are rectangles of whole pixels, the one of the source ends
before the last column of the source and the one of the destination before the last column of the destination, then the column
`dp + dw`, which is outside the ROI of the destination, is overwritten with the source pixel at `sp + sw`. -/
theorem C59_outside_roi (enc : ℚ → Nat → UInt8) {p : PixelType} (hp : IntegerType p ∨ p = .Gray32Float ∨ p = .Bgra32)
    (src dst : Bitmap) (hsrc : src.WF (pixelBytes p)) (hdst : dst.WF (pixelBytes p)) (sp sw dp dw : Nat) (sy sh dy dh : ℚ)
    (hax : Moderate (xAxis src dst ⟨sp, sy, sw, sh⟩ ⟨dp, dy, dw, dh⟩)) (hay : Moderate (yAxis src dst ⟨sp, sy, sw, sh⟩ ⟨dp, dy, dw, dh⟩))
    (h1 : sp + sw < src.w) (h2 : dp + dw < dst.w) :
    ∃ out, nnResizeRoi enc p p none src dst ⟨sp, sy, sw, sh⟩ ⟨dp, dy, dw, dh⟩ = .ok out ∧
      ∃ vy : Nat → Prop, Visits (yAxis src dst ⟨sp, sy, sw, sh⟩ ⟨dp, dy, dw, dh⟩) vy ∧
        ∀ y, y < dst.h → vy y → ∃ i, ∀ j, j < pixelBytes p →
          out.byteAt (pixelBytes p) (dp + dw) y j = src.byteAt (pixelBytes p) (sp + sw) i j := by
  obtain ⟨out, g1, -, -, -, -, g2, -⟩ := scale_kind (scaleKind_same enc hp) trivial none (fun _ h => by cases h) src dst hsrc hdst
    ⟨sp, sy, sw, sh⟩ ⟨dp, dy, dw, dh⟩ hax hay
  have qs : (0 : ℚ) < sw := hax.sw.1
  have qd : (0 : ℚ) < dw := hax.dw.1
  have hv : visited (xAxis src dst ⟨sp, sy, sw, sh⟩ ⟨dp, dy, dw, dh⟩) (dp + dw) := by
    rw [visited_iff hax]
    have hl := lo_err hax
    have hh := hi_err hax
    rw [abs_le] at hl hh
    have ht : tolerance = 1 / 65536 := rfl
    have d1 : (1 : ℚ) ≤ dw := by
      have : 0 < dw := by exact_mod_cast qd
      exact_mod_cast this
    have i0 : inversePosition (xAxis src dst ⟨sp, sy, sw, sh⟩ ⟨dp, dy, dw, dh⟩) 0 ≤ dp := by
      have : (0 : ℚ) ≤ sp * dw / sw := by positivity
      have e : inversePosition (xAxis src dst ⟨sp, sy, sw, sh⟩ ⟨dp, dy, dw, dh⟩) 0 = dp - sp * dw / sw := by
        simp only [inversePosition, xAxis]; ring
      rw [e]; linarith
    have i1 : (dp : ℚ) + dw ≤ inversePosition (xAxis src dst ⟨sp, sy, sw, sh⟩ ⟨dp, dy, dw, dh⟩) (src.w - 1) := by
      simp only [inversePosition, xAxis]
      have q3 : (sp : ℚ) + sw + 1 ≤ src.w := by exact_mod_cast h1
      have : (dw : ℚ) ≤ ((src.w : ℚ) - 1 - sp) * dw / sw := by
        rw [le_div_iff₀ qs]
        nlinarith
      linarith
    have ee : f64 ((dp : ℚ) + dw) = ((dp + dw : Nat) : Int) := by
      have := f64_int ((dp + dw : Nat) : Int) (by
        rw [abs_of_nonneg (by omega)]
        have h3 := hax.dst
        have h4 : dp + dw ≤ 2 ^ 29 := le_trans h2.le h3
        have h5 : (((dp + dw : Nat) : Int)) ≤ 2 ^ 29 := by exact_mod_cast h4
        exact le_trans h5 (by norm_num))
      push_cast at this ⊢
      exact this
    refine ⟨?_, ?_, ?_, ?_, h2⟩
    · push_cast; linarith [hl.2]
    · have e0 : (xAxis src dst ⟨sp, sy, sw, sh⟩ ⟨dp, dy, dw, dh⟩).dp = (dp : ℚ) := rfl
      rw [e0]
      unfold truncInt
      rw [if_pos (by positivity)]
      simp
    · have hh1 : -tolerance ≤ (xAxis src dst ⟨sp, sy, sw, sh⟩ ⟨dp, dy, dw, dh⟩).hi -
        inversePosition (xAxis src dst ⟨sp, sy, sw, sh⟩ ⟨dp, dy, dw, dh⟩) (src.w - 1) := hh.1
      push_cast; linarith
    · have e0 : (xAxis src dst ⟨sp, sy, sw, sh⟩ ⟨dp, dy, dw, dh⟩).dp + (xAxis src dst ⟨sp, sy, sw, sh⟩ ⟨dp, dy, dw, dh⟩).dw =
        (dp : ℚ) + dw := rfl
      rw [e0, ee]
      unfold truncInt
      rw [if_pos (by positivity)]
      simp
  have hsx : ((xAxis src dst ⟨sp, sy, sw, sh⟩ ⟨dp, dy, dw, dh⟩).source (dp + dw)).toNat = sp + sw := by
    have h3 := picks_ok hax hv
    have e : exactPosition (xAxis src dst ⟨sp, sy, sw, sh⟩ ⟨dp, dy, dw, dh⟩) (dp + dw) = ((sp + sw : Nat) : ℚ) := by
      simp only [exactPosition, xAxis]
      push_cast
      field_simp
      ring
    rw [e] at h3
    have h4 := h3.2 (sp + sw) h1
    rw [sub_self, abs_zero, zero_add] at h4
    generalize ((xAxis src dst ⟨sp, sy, sw, sh⟩ ⟨dp, dy, dw, dh⟩).source (dp + dw)).toNat = i at *
    have h5 : |(i : ℚ) - ((sp + sw : Nat) : ℚ)| < 1 := lt_of_le_of_lt h4 (by norm_num [tolerance])
    have h6 : |((i : Int) - ((sp + sw : Nat) : Int))| < 1 := by exact_mod_cast h5
    rw [abs_lt] at h6
    omega
  refine ⟨out, g1, visited (yAxis src dst ⟨sp, sy, sw, sh⟩ ⟨dp, dy, dw, dh⟩), visits_ok hay, ?_⟩
  intro y hy hvy
  refine ⟨((yAxis src dst ⟨sp, sy, sw, sh⟩ ⟨dp, dy, dw, dh⟩).source y).toNat, ?_⟩
  intro j hj
  have := (g2 (dp + dw) y j h2 hy hj).1 hv hvy trivial
  rw [hsx] at this
  exact this

/-- The hypotheses are met: the left quarter of a 4x1 bitmap copied to the left quarter of another one. -/
example : Moderate (xAxis ⟨4, 1, 4, Buf.ofList [1, 2, 3, 4]⟩ ⟨4, 1, 4, Buf.ofList [0, 0, 0, 0]⟩ ⟨(0 : Nat), 0, (1 : Nat), 1⟩ ⟨(0 : Nat), 0, (1 : Nat), 1⟩) ∧
    Moderate (yAxis ⟨4, 1, 4, Buf.ofList [1, 2, 3, 4]⟩ ⟨4, 1, 4, Buf.ofList [0, 0, 0, 0]⟩ ⟨(0 : Nat), 0, (1 : Nat), 1⟩ ⟨(0 : Nat), 0, (1 : Nat), 1⟩) ∧
    0 + 1 < 4 := by
  refine ⟨?_, ?_, by norm_num⟩ <;>
  · constructor <;> norm_num [xAxis, yAxis]

/-- **C59, pixel types that are not supported:** scaling throws exactly if there is no conversion, before anything is written;
resizing without ROIs also if the pixel types differ. -/
theorem C59_unsupported (enc : ℚ → Nat → UInt8) (ps pd : PixelType) (mask : Option Mask) (src dst : Bitmap) (sr dr : Roi) :
    (nnResizeRoi enc ps pd mask src dst sr dr = .throws ↔ ¬ (Convertible ps pd ∨ (ps = .Bgra32 ∧ pd = .Bgra32))) ∧
    (ps ≠ pd → nnResize enc ps pd src dst = .throws) := by
  constructor
  · unfold nnResizeRoi scaleKind
    by_cases h : ps = .Bgra32 ∧ pd = .Bgra32
    · rw [if_pos h]
      dsimp only
      simp only [h, and_self, or_true, not_true_eq_false, iff_false]
      cases scaleLoops (convOf (Kind.same 4)) mask src dst (xAxis src dst sr dr) (yAxis src dst sr dr) <;> simp [orUndefined]
    · rw [if_neg h]
      simp only [h, or_false]
      cases hk : kindOf enc ps pd with
      | none => simp [(kindOf_none enc ps pd).mp hk]
      | some k =>
        have : Convertible ps pd := by
          by_contra h
          rw [(kindOf_none enc ps pd).mpr h] at hk
          cases hk
        simp only [this, not_true, iff_false]
        cases scaleLoops (convOf k) mask src dst (xAxis src dst sr dr) (yAxis src dst sr dr) <;> simp [orUndefined]
  · intro h
    unfold nnResize
    rw [if_pos h]

/-- **C59, empty source regions are not checked:** with supported pixel types and a source region of width (or height) zero the code
divides by zero and converts the result to an integer, which is undefined. -/
theorem C59_empty_source_undefined (enc : ℚ → Nat → UInt8) {p : PixelType} (hp : IntegerType p ∨ p = .Gray32Float ∨ p = .Bgra32)
    (mask : Option Mask) (src dst : Bitmap) (sr dr : Roi) (h : sr.w = 0) :
    nnResizeRoi enc p p mask src dst sr dr = .undefined := by
  unfold nnResizeRoi
  rw [scaleKind_same enc hp]
  have : (xAxis src dst sr dr).range = none := by
    unfold Axis.range
    have h' : (xAxis src dst sr dr).sw = 0 := h
    rw [if_pos (Or.inl h')]
  simp [scaleLoops, this, orUndefined]

end Verif
