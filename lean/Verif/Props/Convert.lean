import Verif.Spec.Convert
import Verif.Proof.Blit
import Verif.Proof.Float

/-! # C57 - copying a bitmap into another one converts the pixels as documented -/

namespace Verif
open Blit Czi Bitonal Spec Flt

theorem byte16_value {v : Nat} (h : v < 65536) : (byte16 v 0).toNat + 256 * (byte16 v 1).toNat = v := by
  simp only [byte16, if_true, Nat.one_ne_zero, if_false, UInt8.toNat_ofNat']
  omega

/-- The supported pairs of integer types. -/
theorem kindOf_integer (enc : ℚ → Nat → UInt8) {ps pd : PixelType} (hs : IntegerType ps) (hd : IntegerType pd)
    (hx : ¬ (ps = .Bgr24 ∧ pd = .Bgr48)) :
    ∃ k, kindOf enc ps pd = some k ∧ k.NoOverread ∧ k.sb = pixelBytes ps ∧ k.db = pixelBytes pd ∧
      ∀ s : Nat → UInt8, Converted ps pd (channels ps s) (channels pd (fun j => k.value s j)) := by
  rcases hs with rfl | rfl | rfl | rfl <;> rcases hd with rfl | rfl | rfl | rfl <;> first
    | exact absurd ⟨rfl, rfl⟩ hx
    | (refine ⟨_, rfl, by simp [Kind.NoOverread, convGray8ToGray16, convGray8ToBgr24, convGray8ToBgr48, convGray16ToGray8,
          convGray16ToBgr24, convGray16ToBgr48, convBgr24ToGray8, convBgr24ToGray16, convBgr48ToGray8, convBgr48ToGray16,
          convBgr48ToBgr24], rfl, rfl, ?_⟩
       intro s
       simp only [channels, Converted, DepthChanged, IsMean, Deep, Kind.value, convGray8ToGray16, convGray8ToBgr24, convGray8ToBgr48,
         convGray16ToGray8, convGray16ToBgr24, convGray16ToBgr48, convBgr24ToGray8, convBgr24ToGray16, convBgr48ToGray8,
         convBgr48ToGray16, convBgr48ToBgr24, le16, Nat.zero_add, Nat.reduceAdd]
       have h0 := (s 0).toNat_lt
       have h1 := (s 1).toNat_lt
       have h2 := (s 2).toNat_lt
       have h3 := (s 3).toNat_lt
       have h4 := (s 4).toNat_lt
       have h5 := (s 5).toNat_lt
       first
       | (simp; done)
       | (simp; omega)
       | (refine ⟨((s 0).toNat + (s 1).toNat + (s 2).toNat + 1) / 3, ?_, ?_⟩ <;> simp [UInt8.toNat_ofNat'] <;> omega)
       | (refine ⟨((s 0).toNat + (s 1).toNat + (s 2).toNat + 1) / 3, ?_, ?_⟩
          · simp; omega
          · rw [byte16_value (by omega)]; simp; omega)
       | (refine ⟨((s 0).toNat + 256 * (s 1).toNat + ((s 2).toNat + 256 * (s 3).toNat) +
            ((s 4).toNat + 256 * (s 5).toNat)) / 3, ?_, ?_⟩ <;> simp [UInt8.toNat_ofNat'] <;> omega)
       | (refine ⟨((s 0).toNat + 256 * (s 1).toNat + ((s 2).toNat + 256 * (s 3).toNat) +
            ((s 4).toNat + 256 * (s 5).toNat)) / 3, ?_, ?_⟩
          · simp; omega
          · rw [byte16_value (by omega)]; simp))

theorem copyAt_kind {enc : ℚ → Nat → UInt8} {ps pd : PixelType} {k : Kind} (hk : kindOf enc ps pd = some k)
    (src dst : Bitmap) (mask : Option Mask) (xOff yOff : Int) :
    copyAt enc ps pd src dst mask xOff yOff = orUndefined (copyWithOffsetAndMask k src dst mask xOff yOff) := by
  unfold copyAt
  rw [hk]
  by_cases h : nothingToCopy src dst mask xOff yOff = true
  · rw [if_pos h]
    unfold nothingToCopy at h
    simp only [decide_eq_true_eq] at h
    unfold copyWithOffsetAndMask
    cases mask with
    | none => simp only [copyWithOffset]; rw [if_pos h]; rfl
    | some m =>
      dsimp only at h ⊢
      rw [if_pos h]; rfl
  · rw [if_neg h]

theorem channels_congr (pd : PixelType) {s s' : Nat → UInt8} (h : ∀ j, j < pixelBytes pd → s j = s' j) :
    channels pd s = channels pd s' := by
  cases pd <;> simp only [channels, pixelBytes] at h ⊢ <;> simp [h]

/-- The destination pixel `(x,y)` lies inside the source bitmap placed at `(xOff,yOff)`. -/
def Spec.Inside (src : Bitmap) (xOff yOff : Int) (x y : Nat) : Prop :=
  xOff ≤ x ∧ x < xOff + src.w ∧ yOff ≤ y ∧ y < yOff + src.h

/-- **C57 (partial: all pairs of integer pixel types but Bgr24 to Bgr48, see `C33_bgr24_to_bgr48_out_of_bounds`; no mask).**
Copying a bitmap to any position of another one accesses no memory outside the bitmaps, gives every pixel of the destination
that lies inside the source the converted value of the source pixel, and changes no other byte. -/
theorem C57_copy_partial (enc : ℚ → Nat → UInt8) {ps pd : PixelType} (hs : IntegerType ps) (hd : IntegerType pd)
    (hx : ¬ (ps = .Bgr24 ∧ pd = .Bgr48)) (src dst : Bitmap) (xOff yOff : Int)
    (hsrc : src.WF (pixelBytes ps)) (hdst : dst.WF (pixelBytes pd)) :
    ∃ out, copyAt enc ps pd src dst none xOff yOff = .ok out ∧
      out.w = dst.w ∧ out.h = dst.h ∧ out.stride = dst.stride ∧ out.buf.size = dst.buf.size ∧
      (∀ x y, x < dst.w → y < dst.h → Inside src xOff yOff x y →
        Converted ps pd (channels ps (src.byteAt (pixelBytes ps) (x - xOff).toNat (y - yOff).toNat))
          (channels pd (out.byteAt (pixelBytes pd) x y))) ∧
      (∀ x y j, x < dst.w → y < dst.h → j < pixelBytes pd → ¬ Inside src xOff yOff x y →
        out.byteAt (pixelBytes pd) x y j = dst.byteAt (pixelBytes pd) x y j) ∧
      (∀ i, dst.IsPadding (pixelBytes pd) i → out.buf.get i = dst.buf.get i) := by
  obtain ⟨k, hk, hn, hsb, hdb, hval⟩ := kindOf_integer enc hs hd hx
  rw [← hsb] at hsrc ⊢
  rw [← hdb] at hdst ⊢
  obtain ⟨out, h1, h2⟩ := compose_ok k dst ⟨xOff, yOff, src, none⟩ 0 0 hdst hsrc hn
  have h1' : copyWithOffsetAndMask k src dst none xOff yOff = some out := by simpa [composeMaskAware] using h1
  refine ⟨out, by rw [copyAt_kind hk, h1']; rfl, h2.w, h2.h, h2.stride, h2.size, ?_, ?_, h2.outside⟩
  · intro x y hx hy hin
    have hp : (⟨xOff, yOff, src, none⟩ : Tile).paints (0 + x) (0 + y) = true := by
      simp only [Tile.paints, Int.zero_add, Bool.and_true, decide_eq_true_eq]; exact hin
    have h3 : ∀ j, j < pixelBytes pd → out.byteAt k.db x y j =
        k.value (fun i => src.byteAt k.sb (x - xOff).toNat (y - yOff).toNat i) j := by
      intro j hj
      have := h2.inside x y j hx hy (by omega)
      rw [if_pos hp] at this
      rw [this]
      simp only [Tile.colour, Int.zero_add]
    rw [channels_congr pd h3]
    exact hval _
  · intro x y j hx hy hj hin
    have := h2.inside x y j hx hy hj
    rw [this, if_neg]
    simp only [Tile.paints, Int.zero_add, Bool.and_true, decide_eq_true_eq]
    exact hin

/-- The hypotheses are met: a 2x1 Bgr24 bitmap copied into a 3x2 Gray16 bitmap. -/
example : IntegerType .Bgr24 ∧ IntegerType .Gray16 ∧ (⟨2, 1, 6, Buf.ofList [1, 2, 3, 4, 5, 7]⟩ : Bitmap).WF (pixelBytes .Bgr24) ∧
    (⟨3, 2, 6, Buf.ofList (List.replicate 12 0)⟩ : Bitmap).WF (pixelBytes .Gray16) := by
  simp [IntegerType, Bitmap.WF, pixelBytes, Buf.ofList]

/-- The source pixel `(x,y)` is there and not masked out. -/
def Spec.Unmasked (src : Bitmap) (m : Mask) (x y : Int) : Prop :=
  0 ≤ x ∧ x < src.w ∧ 0 ≤ y ∧ y < src.h ∧ x < m.w ∧ y < m.h ∧ m.at x.toNat y.toNat = true

/-- **C57 with a mask (partial: equal pixel types;** otherwise the code violates the property, see
`C35_converting_masked_copy_wrong`**).** Exactly the pixels that are not masked out are copied. -/
theorem C57_masked_partial (enc : ℚ → Nat → UInt8) {p : PixelType} (hp : IntegerType p ∨ p = .Gray32Float)
    (src dst : Bitmap) (m : Mask) (xOff yOff : Int)
    (hsrc : src.WF (pixelBytes p)) (hdst : dst.WF (pixelBytes p)) (hm : m.WF) :
    ∃ out, copyAt enc p p src dst (some m) xOff yOff = .ok out ∧
      (∀ x y j, x < dst.w → y < dst.h → j < pixelBytes p →
        (Unmasked src m (x - xOff) (y - yOff) →
          out.byteAt (pixelBytes p) x y j = src.byteAt (pixelBytes p) (x - xOff).toNat (y - yOff).toNat j) ∧
        (¬ Unmasked src m (x - xOff) (y - yOff) → out.byteAt (pixelBytes p) x y j = dst.byteAt (pixelBytes p) x y j)) ∧
      (∀ i, dst.IsPadding (pixelBytes p) i → out.buf.get i = dst.buf.get i) := by
  have hk : kindOf enc p p = some (.same (pixelBytes p)) := by
    rcases hp with (rfl | rfl | rfl | rfl) | rfl <;> rfl
  obtain ⟨out, h1, h2⟩ := compose_ok (.same (pixelBytes p)) dst ⟨xOff, yOff, src, some m⟩ 0 0 hdst hsrc ⟨trivial, hm⟩
  have h1' : copyWithOffsetAndMask (.same (pixelBytes p)) src dst (some m) xOff yOff = some out := by
    simpa [composeMaskAware] using h1
  refine ⟨out, by rw [copyAt_kind hk, h1']; rfl, ?_, h2.outside⟩
  intro x y j hx hy hj
  have h3 := h2.inside x y j hx hy hj
  have hpt : (⟨xOff, yOff, src, some m⟩ : Tile).paints (0 + x) (0 + y) = true ↔ Unmasked src m (x - xOff) (y - yOff) := by
    simp only [Tile.paints, Int.zero_add, Bool.and_eq_true, decide_eq_true_eq, Unmasked]
    constructor
    · rintro ⟨⟨a, b, c, d⟩, ⟨e, f⟩, g⟩; exact ⟨by omega, by omega, by omega, by omega, e, f, g⟩
    · rintro ⟨a, b, c, d, e, f, g⟩; exact ⟨⟨by omega, by omega, by omega, by omega⟩, ⟨e, f⟩, g⟩
  constructor
  · intro h
    rw [if_pos (hpt.mpr h)] at h3
    simpa [Kind.db, Tile.colour, Kind.value, Kind.sb] using h3
  · intro h
    rw [if_neg (fun h' => h (hpt.mp h'))] at h3
    exact h3

/-- The hypotheses are met: a 2x2 Gray8 bitmap with a 1x2 mask. -/
example : (⟨2, 2, 2, Buf.ofList [1, 2, 3, 4]⟩ : Bitmap).WF (pixelBytes .Gray8) ∧
    (⟨1, 2, 1, Buf.ofList [0x80, 0]⟩ : Mask).WF ∧ Unmasked ⟨2, 2, 2, Buf.ofList [1, 2, 3, 4]⟩ ⟨1, 2, 1, Buf.ofList [0x80, 0]⟩ 0 0 := by
  refine ⟨by simp [Bitmap.WF, pixelBytes, Buf.ofList], by simp [Mask.WF, Buf.ofList], ?_⟩
  refine ⟨by decide, by decide, by decide, by decide, by decide, by decide, by decide⟩

/-- The conversions to floating point. -/
theorem kindOf_float (enc : ℚ → Nat → UInt8) {ps : PixelType} (hs : IntegerType ps) :
    ∃ k, kindOf enc ps .Gray32Float = some k ∧ k.NoOverread ∧ k.sb = pixelBytes ps ∧ k.db = 4 ∧
      ∀ s : Nat → UInt8, ∃ q : ℚ, (∀ j, k.value s j = enc q j) ∧
        match channels ps s with
          | [v] => q = v
          | [b, g, r] => |q - (b + g + r) / 3| ≤ (b + g + r) / 3 / 2 ^ 24
          | _ => False := by
  rcases hs with rfl | rfl | rfl | rfl
  · exact ⟨_, rfl, by simp [Kind.NoOverread, convGray8ToFloat], rfl, rfl, fun s => ⟨_, fun j => rfl, rfl⟩⟩
  · refine ⟨_, rfl, by simp [Kind.NoOverread, convGray16ToFloat], rfl, rfl, fun s => ⟨_, fun j => rfl, ?_⟩⟩
    simp [channels, le16]
  · refine ⟨_, rfl, by simp [Kind.NoOverread, convBgr24ToFloat], rfl, rfl, fun s => ⟨_, fun j => rfl, ?_⟩⟩
    simp only [channels]
    have h := f32_err ((((s 0).toNat + (s 1).toNat + (s 2).toNat : Nat) : ℚ) / 3)
    rw [abs_of_nonneg (a := (((s 0).toNat + (s 1).toNat + (s 2).toNat : Nat) : ℚ) / 3) (by positivity)] at h
    push_cast at h ⊢
    exact h
  · refine ⟨_, rfl, by simp [Kind.NoOverread, convBgr48ToFloat], rfl, rfl, fun s => ⟨_, fun j => rfl, ?_⟩⟩
    simp only [channels]
    have h := f32_err (((le16 s 0 + le16 s 2 + le16 s 4 : Nat) : ℚ) / 3)
    rw [abs_of_nonneg (a := ((le16 s 0 + le16 s 2 + le16 s 4 : Nat) : ℚ) / 3) (by positivity)] at h
    simp only [le16] at h ⊢
    push_cast at h ⊢
    exact h

/-- **C57, conversion to floating point (no mask).** Copying an integer bitmap into a Gray32Float bitmap stores the value of a
grey pixel, and the mean of the channels of a colour pixel as a `float` (a number that differs from the mean by less than its
`2^24`-th part). -/
theorem C57_float (enc : ℚ → Nat → UInt8) {ps : PixelType} (hs : IntegerType ps) (src dst : Bitmap) (xOff yOff : Int)
    (hsrc : src.WF (pixelBytes ps)) (hdst : dst.WF 4) :
    ∃ out, copyAt enc ps .Gray32Float src dst none xOff yOff = .ok out ∧
      ∀ x y, x < dst.w → y < dst.h →
        (Inside src xOff yOff x y → ∃ q : ℚ, (∀ j, j < 4 → out.byteAt 4 x y j = enc q j) ∧
          match channels ps (src.byteAt (pixelBytes ps) (x - xOff).toNat (y - yOff).toNat) with
          | [v] => q = v
          | [b, g, r] => |q - (b + g + r) / 3| ≤ (b + g + r) / 3 / 2 ^ 24
          | _ => False) ∧
        (¬ Inside src xOff yOff x y → ∀ j, j < 4 → out.byteAt 4 x y j = dst.byteAt 4 x y j) := by
  obtain ⟨k, hk, hn, hsb, hdb, hval⟩ := kindOf_float enc hs
  rw [← hsb] at hsrc ⊢
  rw [← hdb] at hdst ⊢
  obtain ⟨out, h1, h2⟩ := compose_ok k dst ⟨xOff, yOff, src, none⟩ 0 0 hdst hsrc hn
  have h1' : copyWithOffsetAndMask k src dst none xOff yOff = some out := by simpa [composeMaskAware] using h1
  refine ⟨out, by rw [copyAt_kind hk, h1']; rfl, ?_⟩
  intro x y hx hy
  constructor
  · intro hin
    have hp : (⟨xOff, yOff, src, none⟩ : Tile).paints (0 + x) (0 + y) = true := by
      simp only [Tile.paints, Int.zero_add, Bool.and_true, decide_eq_true_eq]; exact hin
    obtain ⟨q, hq, hq'⟩ := hval (src.byteAt k.sb (x - xOff).toNat (y - yOff).toNat)
    refine ⟨q, ?_, hq'⟩
    intro j hj
    have := h2.inside x y j hx hy hj
    rw [if_pos hp] at this
    rw [this, ← hq]
    simp only [Tile.colour, Int.zero_add]
  · intro hin j hj
    have := h2.inside x y j hx hy hj
    rw [this, if_neg]
    simp only [Tile.paints, Int.zero_add, Bool.and_true, decide_eq_true_eq]
    exact hin

/-- A pair of pixel types for which there is a conversion: integer types to each other and to Gray32Float, and Gray32Float to
itself. -/
def Spec.Convertible (ps pd : PixelType) : Prop :=
  (IntegerType ps ∧ (IntegerType pd ∨ pd = .Gray32Float)) ∨ (ps = .Gray32Float ∧ pd = .Gray32Float)

theorem kindOf_none (enc : ℚ → Nat → UInt8) (ps pd : PixelType) : kindOf enc ps pd = none ↔ ¬ Convertible ps pd := by
  cases ps <;> cases pd <;> simp [kindOf, Convertible, IntegerType]

/-- **C57, unsupported conversions.** `CopyAt` without mask throws exactly if there is no conversion between the two pixel types
and the bitmaps have a pixel in common (an exception changes nothing: no pixel has been written). -/
theorem C57_unsupported (enc : ℚ → Nat → UInt8) (ps pd : PixelType) (src dst : Bitmap) (xOff yOff : Int) :
    copyAt enc ps pd src dst none xOff yOff = .throws ↔
      ¬ Convertible ps pd ∧ ∃ x y : Nat, x < dst.w ∧ y < dst.h ∧ Inside src xOff yOff x y := by
  have hcom : nothingToCopy src dst none xOff yOff = false ↔ ∃ x y : Nat, x < dst.w ∧ y < dst.h ∧ Inside src xOff yOff x y := by
    unfold nothingToCopy
    simp only [decide_eq_false_iff_not]
    constructor
    · intro h
      have hc := clip_of src.w src.h dst.w dst.h xOff yOff h
      have h1 := hc.dx; have h2 := hc.dy; have h3 := hc.hw; have h4 := hc.hh
      have h5 := (hc.inx _ (by omega)).mpr ⟨Nat.le_refl _, by omega⟩
      have h6 := (hc.iny _ (by omega)).mpr ⟨Nat.le_refl _, by omega⟩
      exact ⟨(IntRect.intersect ⟨xOff, yOff, src.w, src.h⟩ ⟨0, 0, dst.w, dst.h⟩).x.toNat,
        (IntRect.intersect ⟨xOff, yOff, src.w, src.h⟩ ⟨0, 0, dst.w, dst.h⟩).y.toNat,
        (by omega), (by omega), h5.1, h5.2, h6.1, h6.2⟩
    · rintro ⟨x, y, hx, hy, hin⟩ h
      exact noclip_of src.w src.h dst.w dst.h xOff yOff x y h hx hy hin
  rw [← hcom]
  unfold copyAt
  cases hn : nothingToCopy src dst none xOff yOff with
  | true => simp
  | false =>
    cases hk : kindOf enc ps pd with
    | none => simp [(kindOf_none enc ps pd).mp hk]
    | some k =>
      have : Convertible ps pd := by
        by_contra h
        rw [(kindOf_none enc ps pd).mpr h] at hk
        cases hk
      simp only [Bool.false_eq_true, if_false, this, not_true, false_and, iff_false]
      cases copyWithOffsetAndMask k src dst none xOff yOff <;> simp [orUndefined]

/-- Both outcomes occur. -/
example : ¬ Convertible .Bgra32 .Bgr24 ∧ Convertible .Bgr48 .Gray8 := by
  simp [Convertible, IntegerType]

/-- **C57, an observation on the documented conversion:** copying a Gray8 bitmap into a Gray16 bitmap and this into a Gray8 bitmap
again gives black, whatever the pixels were: the values are not scaled on the way up, but on the way down. -/
theorem C57_up_and_down_black (enc : ℚ → Nat → UInt8) (src mid dst : Bitmap) (hsrc : src.WF 1) (hmid : mid.WF 2) (hdst : dst.WF 1)
    (hw1 : mid.w = src.w) (hh1 : mid.h = src.h) (hw2 : dst.w = src.w) (hh2 : dst.h = src.h) :
    ∃ m out, copyAt enc .Gray8 .Gray16 src mid none 0 0 = .ok m ∧ copyAt enc .Gray16 .Gray8 m dst none 0 0 = .ok out ∧
      ∀ x y, x < src.w → y < src.h → out.byteAt 1 x y 0 = 0 := by
  obtain ⟨m, h1, e1, e2, e3, e4, h2, -, -⟩ := C57_copy_partial enc (ps := .Gray8) (pd := .Gray16) (by simp [IntegerType])
    (by simp [IntegerType]) (by simp) src mid 0 0 hsrc hmid
  have hm : m.WF 2 := by
    unfold Bitmap.WF at hmid ⊢
    rw [e1, e2, e3, e4]; exact hmid
  obtain ⟨out, h3, -, -, -, -, h4, -, -⟩ := C57_copy_partial enc (ps := .Gray16) (pd := .Gray8) (by simp [IntegerType])
    (by simp [IntegerType]) (by simp) m dst 0 0 hm hdst
  refine ⟨m, out, h1, h3, ?_⟩
  intro x y hx hy
  have i1 := h2 x y (by omega) (by omega) ⟨by omega, by omega, by omega, by omega⟩
  have i2 := h4 x y (by omega) (by omega) ⟨by omega, by omega, by omega, by omega⟩
  simp only [Int.sub_zero, Int.toNat_natCast, channels, Converted, DepthChanged, Deep, pixelBytes] at i1 i2
  simp at i1 i2
  have := (src.byteAt 1 x y 0).toNat_lt
  apply UInt8.toNat_inj.mp
  simp
  omega

end Verif
