import Verif.Proof.Fill
import Verif.Props.Compose

/-! # C79 - the colour of the background -/

namespace Verif
open Verif.Czi Verif.Blit Verif.Bitonal Verif.Flt Verif.Fill

/-- The pixels of a filled bitmap. -/
theorem fill_colour (enc : Fl → Nat → UInt8) (pt : PixelType) (hpt : pt = .Bgr24 ∨ pt = .Bgra32 ∨ pt = .Bgr48) (bm : Bitmap)
    (hwf : bm.WF (fillBytes pt)) (c : Colour) (hr : c.r ≠ .nan) (hg : c.g ≠ .nan) (hb : c.b ≠ .nan) :
    let wide := decide (pt = .Bgr48)
    ∃ out b g r, fill enc pt bm c = .ok out ∧ Spec.OnlyPixels (fillBytes pt) bm out ∧
      channelValue (Spec.topOf wide) c.b = some b ∧ channelValue (Spec.topOf wide) c.g = some g ∧
      channelValue (Spec.topOf wide) c.r = some r ∧
      ∀ x y, x < bm.w → y < bm.h →
        Spec.sample wide (fillBytes pt) out x y 0 = b ∧ Spec.sample wide (fillBytes pt) out x y 1 = g ∧
        Spec.sample wide (fillBytes pt) out x y 2 = r ∧ (pt = .Bgra32 → Spec.sample wide (fillBytes pt) out x y 3 = 255) := by
  rcases hpt with rfl | rfl | rfl
  · obtain ⟨b, b1, b2, b3⟩ := channelValue_level (top := 255) (by omega) (by omega) c.b hb
    obtain ⟨g, g1, g2, g3⟩ := channelValue_level (top := 255) (by omega) (by omega) c.g hg
    obtain ⟨r, r1, r2, r3⟩ := channelValue_level (top := 255) (by omega) (by omega) c.r hr
    obtain ⟨out, h1, h2⟩ := fill_of_bytes (enc := enc) (pt := .Bgr24) (c := c) (bm := bm) hwf
      (px := fun j => UInt8.ofNat (if j = 0 then b else if j = 1 then g else r))
      (by simp only [pixelBytesOf, b1, g1, r1]; rfl)
    refine ⟨out, b, g, r, h1, h2.shape, b1, g1, r1, fun x y hx hy => ⟨?_, ?_, ?_, (by intro h; cases h)⟩⟩
    · exact (congrArg UInt8.toNat (h2.bytes x y 0 hx hy (show 0 < 3 by omega))).trans (UInt8.toNat_ofNat_of_lt' (show b < 256 by omega))
    · exact (congrArg UInt8.toNat (h2.bytes x y 1 hx hy (show 1 < 3 by omega))).trans (UInt8.toNat_ofNat_of_lt' (show g < 256 by omega))
    · exact (congrArg UInt8.toNat (h2.bytes x y 2 hx hy (show 2 < 3 by omega))).trans (UInt8.toNat_ofNat_of_lt' (show r < 256 by omega))
  · obtain ⟨b, b1, b2, b3⟩ := channelValue_level (top := 255) (by omega) (by omega) c.b hb
    obtain ⟨g, g1, g2, g3⟩ := channelValue_level (top := 255) (by omega) (by omega) c.g hg
    obtain ⟨r, r1, r2, r3⟩ := channelValue_level (top := 255) (by omega) (by omega) c.r hr
    obtain ⟨out, h1, h2⟩ := fill_of_bytes (enc := enc) (pt := .Bgra32) (c := c) (bm := bm) hwf
      (px := fun j => UInt8.ofNat (if j = 0 then b else if j = 1 then g else if j = 2 then r else 255))
      (by simp only [pixelBytesOf, b1, g1, r1]; rfl)
    refine ⟨out, b, g, r, h1, h2.shape, b1, g1, r1, fun x y hx hy => ⟨?_, ?_, ?_, fun _ => ?_⟩⟩
    · exact (congrArg UInt8.toNat (h2.bytes x y 0 hx hy (show 0 < 4 by omega))).trans (UInt8.toNat_ofNat_of_lt' (show b < 256 by omega))
    · exact (congrArg UInt8.toNat (h2.bytes x y 1 hx hy (show 1 < 4 by omega))).trans (UInt8.toNat_ofNat_of_lt' (show g < 256 by omega))
    · exact (congrArg UInt8.toNat (h2.bytes x y 2 hx hy (show 2 < 4 by omega))).trans (UInt8.toNat_ofNat_of_lt' (show r < 256 by omega))
    · exact (congrArg UInt8.toNat (h2.bytes x y 3 hx hy (show 3 < 4 by omega))).trans (UInt8.toNat_ofNat_of_lt' (show 255 < 256 by omega))
  · obtain ⟨b, b1, b2, b3⟩ := channelValue_level (top := 65535) (by omega) (by omega) c.b hb
    obtain ⟨g, g1, g2, g3⟩ := channelValue_level (top := 65535) (by omega) (by omega) c.g hg
    obtain ⟨r, r1, r2, r3⟩ := channelValue_level (top := 65535) (by omega) (by omega) c.r hr
    obtain ⟨out, h1, h2⟩ := fill_of_bytes (enc := enc) (pt := .Bgr48) (c := c) (bm := bm) hwf
      (px := fun j => byte16 (if j / 2 = 0 then b else if j / 2 = 1 then g else r) (j % 2))
      (by simp only [pixelBytesOf, b1, g1, r1]; rfl)
    have hs : ∀ x y k, x < bm.w → y < bm.h → k < 3 → Spec.sample true 6 out x y k = if k = 0 then b else if k = 1 then g else r := by
      intro x y k hx hy hk
      have e0 := h2.bytes x y (2 * k) hx hy (show 2 * k < 6 by omega)
      have e1 := h2.bytes x y (2 * k + 1) hx hy (show 2 * k + 1 < 6 by omega)
      change out.byteAt 6 x y (2 * k) = _ at e0
      change out.byteAt 6 x y (2 * k + 1) = _ at e1
      unfold Spec.sample
      rw [if_pos rfl, e0, e1, show 2 * k / 2 = k by omega, show 2 * k % 2 = 0 by omega, show (2 * k + 1) / 2 = k by omega,
        show (2 * k + 1) % 2 = 1 by omega]
      exact byte16_value _ (by split; · omega
                               split <;> omega)
    exact ⟨out, b, g, r, h1, h2.shape, b1, g1, r1, fun x y hx hy => ⟨hs x y 0 hx hy (by omega), hs x y 1 hx hy (by omega),
      hs x y 2 hx hy (by omega), (by intro h; cases h)⟩⟩

/-- **C79 (colour).** Filling a Bgr24, Bgra32 or Bgr48 bitmap - of any size and stride - with a colour without NaN succeeds, changes
nothing but the pixels, and gives every pixel the same blue, green and red values: 0 for components up to 0, the largest value for
components from 1 (infinite ones too), the nearest integer to 255 (65535) times the component in between. The alpha value is 255. -/
theorem C79_colour (enc : Fl → Nat → UInt8) (pt : PixelType) (hpt : pt = .Bgr24 ∨ pt = .Bgra32 ∨ pt = .Bgr48) (bm : Bitmap)
    (hwf : bm.WF (fillBytes pt)) (c : Colour) (hr : c.r ≠ .nan) (hg : c.g ≠ .nan) (hb : c.b ≠ .nan) :
    let wide := decide (pt = .Bgr48)
    ∃ out b g r, fill enc pt bm c = .ok out ∧ Spec.OnlyPixels (fillBytes pt) bm out ∧
      Spec.IsChannelValue (Spec.topOf wide) c.b b ∧ Spec.IsChannelValue (Spec.topOf wide) c.g g ∧ Spec.IsChannelValue (Spec.topOf wide) c.r r ∧
      ∀ x y, x < bm.w → y < bm.h →
        Spec.sample wide (fillBytes pt) out x y 0 = b ∧ Spec.sample wide (fillBytes pt) out x y 1 = g ∧
        Spec.sample wide (fillBytes pt) out x y 2 = r ∧ (pt = .Bgra32 → Spec.sample wide (fillBytes pt) out x y 3 = 255) := by
  have h1 : ∀ w, 0 < Spec.topOf w ∧ Spec.topOf w ≤ 65535 := by intro w; cases w <;> exact ⟨by decide, by decide⟩
  have h2 : ∀ w a v, a ≠ .nan → channelValue (Spec.topOf w) a = some v → Spec.IsChannelValue (Spec.topOf w) a v := by
    intro w a v ha hv
    obtain ⟨v', e1, -, e2⟩ := channelValue_level (h1 w).1 (h1 w).2 a ha
    rw [e1] at hv
    cases hv
    exact e2
  obtain ⟨out, b, g, r, e1, e2, e3, e4, e5, e6⟩ := fill_colour enc pt hpt bm hwf c hr hg hb
  exact ⟨out, b, g, r, e1, e2, h2 _ _ _ hb e3, h2 _ _ _ hg e4, h2 _ _ _ hr e5, e6⟩

/-- **C79 (grey).** Filling a Gray8 or Gray16 bitmap with a colour the sum of whose components is not NaN succeeds, changes nothing but
the pixels, and gives every pixel the mean of the components. -/
theorem C79_grey (enc : Fl → Nat → UInt8) (pt : PixelType) (hpt : pt = .Gray8 ∨ pt = .Gray16) (bm : Bitmap)
    (hwf : bm.WF (fillBytes pt)) (c : Colour) (hc : c.sum ≠ .nan) :
    let wide := decide (pt = .Gray16)
    ∃ out v, fill enc pt bm c = .ok out ∧ Spec.OnlyPixels (fillBytes pt) bm out ∧ Spec.IsGreyValue (Spec.topOf wide) c v ∧
      ∀ x y, x < bm.w → y < bm.h → Spec.sample wide (fillBytes pt) out x y 0 = v := by
  rcases hpt with rfl | rfl
  · obtain ⟨v, v1, v2, v3⟩ := greyValue_grey (top := 255) (by omega) (by omega) c hc
    obtain ⟨out, h1, h2⟩ := fill_of_bytes (enc := enc) (pt := .Gray8) (c := c) (bm := bm) hwf
      (px := fun _ => UInt8.ofNat v) (by simp only [pixelBytesOf, v1]; rfl)
    exact ⟨out, v, h1, h2.shape, v3, fun x y hx hy => (congrArg UInt8.toNat (h2.bytes x y 0 hx hy (show 0 < 1 by omega))).trans
      (UInt8.toNat_ofNat_of_lt' (show v < 256 by omega))⟩
  · obtain ⟨v, v1, v2, v3⟩ := greyValue_grey (top := 65535) (by omega) (by omega) c hc
    obtain ⟨out, h1, h2⟩ := fill_of_bytes (enc := enc) (pt := .Gray16) (c := c) (bm := bm) hwf
      (px := fun j => byte16 v j) (by simp only [pixelBytesOf, v1]; rfl)
    refine ⟨out, v, h1, h2.shape, v3, fun x y hx hy => ?_⟩
    have e0 := h2.bytes x y 0 hx hy (show 0 < 2 by omega)
    have e1 := h2.bytes x y 1 hx hy (show 1 < 2 by omega)
    change out.byteAt 2 x y 0 = _ at e0
    change out.byteAt 2 x y 1 = _ at e1
    change (out.byteAt 2 x y 0).toNat + 256 * (out.byteAt 2 x y 1).toNat = v
    rw [e0, e1]
    exact byte16_value v v2

/-- **C79 (float).** Filling a Gray32Float bitmap always succeeds and changes nothing but the pixels. Every pixel gets the same number,
for components between 0 and 1 their mean. -/
theorem C79_float (enc : Fl → Nat → UInt8) (bm : Bitmap) (hwf : bm.WF 4) (c : Colour) :
    ∃ out v, fill enc .Gray32Float bm c = .ok out ∧ Spec.OnlyPixels 4 bm out ∧
      (∀ x y j, x < bm.w → y < bm.h → j < 4 → out.byteAt 4 x y j = enc v j) ∧
      ∀ r g b, Spec.UnitColour c r g b → ∃ q, v = .num q ∧ |q - (r + g + b) / 3| ≤ 3 / 2 ^ 24 := by
  obtain ⟨out, h1, h2⟩ := fill_of_bytes (enc := enc) (pt := .Gray32Float) (c := c) (bm := bm) hwf rfl
  refine ⟨out, (c.sum).scale (1 / 3), h1, h2.shape, h2.bytes, fun r g b hu => ?_⟩
  obtain ⟨s, s1, s2, s3, s4⟩ := sum_unit hu
  rw [s1]
  have e0 : 0 ≤ 1 / 3 * s := by linarith
  refine ⟨f32 (1 / 3 * s), ofRat_small (n := 1) (by norm_num) (by rw [abs_of_nonneg e0]; push_cast; linarith), ?_⟩
  have e1 := f32_err (1 / 3 * s)
  rw [abs_of_nonneg e0] at e1
  have e2 : 1 / 3 * s / 2 ^ 24 ≤ 1 / 2 ^ 24 := div_le_div_of_nonneg_right (by linarith) (by positivity)
  have e3 := abs_le.1 (le_trans e1 e2)
  have e4 := abs_le.1 s4
  rw [abs_le]
  constructor <;> linarith [e3.1, e3.2, e4.1, e4.2]

/-- **C79 (order).** If no component of the colour `c` is greater than that of the colour `d`, no channel of a pixel filled with `c` has a
greater value than with `d`. -/
theorem C79_monotone (enc : Fl → Nat → UInt8) (pt : PixelType) (hpt : pt = .Bgr24 ∨ pt = .Bgra32 ∨ pt = .Bgr48) (bm : Bitmap)
    (hwf : bm.WF (fillBytes pt)) (r g b r' g' b' : ℚ) (hr : r ≤ r') (hg : g ≤ g') (hb : b ≤ b') :
    ∃ out out', fill enc pt bm ⟨.num r, .num g, .num b⟩ = .ok out ∧ fill enc pt bm ⟨.num r', .num g', .num b'⟩ = .ok out' ∧
      ∀ x y ch, x < bm.w → y < bm.h → ch < 3 →
        Spec.sample (decide (pt = .Bgr48)) (fillBytes pt) out x y ch ≤ Spec.sample (decide (pt = .Bgr48)) (fillBytes pt) out' x y ch := by
  have h1 : ∀ w, 0 < Spec.topOf w ∧ Spec.topOf w ≤ 65535 := by intro w; cases w <;> exact ⟨by decide, by decide⟩
  have hn : ∀ q : ℚ, Fl.num q ≠ .nan := by intro q h; cases h
  obtain ⟨out, vb, vg, vr, e1, -, e3, e4, e5, e6⟩ := fill_colour enc pt hpt bm hwf ⟨.num r, .num g, .num b⟩ (hn _) (hn _) (hn _)
  obtain ⟨out', vb', vg', vr', f1, -, f3, f4, f5, f6⟩ := fill_colour enc pt hpt bm hwf ⟨.num r', .num g', .num b'⟩ (hn _) (hn _) (hn _)
  refine ⟨out, out', e1, f1, fun x y ch hx hy hch => ?_⟩
  obtain ⟨p0, p1, p2, -⟩ := e6 x y hx hy
  obtain ⟨q0, q1, q2, -⟩ := f6 x y hx hy
  have hm := fun {x y : ℚ} (h : x ≤ y) {v w : Nat} => channelValue_mono (h1 (decide (pt = .Bgr48))).1 (h1 (decide (pt = .Bgr48))).2 h (v := v) (w := w)
  match ch, hch with
  | 0, _ => rw [p0, q0]; exact hm hb e3 f3
  | 1, _ => rw [p1, q1]; exact hm hg e4 f4
  | 2, _ => rw [p2, q2]; exact hm hr e5 f5

/-- **C79 (other pixel types).** Filling fails with an exception exactly for the pixel types other than Gray8, Gray16, Gray32Float, Bgr24,
Bgra32 and Bgr48. -/
theorem C79_unsupported (enc : Fl → Nat → UInt8) (pt : PixelType) (bm : Bitmap) (c : Colour) :
    fill enc pt bm c = .throws ↔ pt ∉ [PixelType.Gray8, .Gray16, .Gray32Float, .Bgr24, .Bgra32, .Bgr48] := by
  have hu : ∀ {α : Type} (o : Option α), orUndefined o ≠ .throws := by
    intro α o
    cases o <;> intro h <;> cases h
  constructor
  · intro h hm
    have h2 : ∃ o, pixelBytesOf enc pt c = orUndefined o := by
      simp only [List.mem_cons, List.not_mem_nil, or_false] at hm
      rcases hm with rfl | rfl | rfl | rfl | rfl | rfl
      · exact ⟨_, rfl⟩
      · exact ⟨_, rfl⟩
      · exact ⟨some _, rfl⟩
      · exact ⟨_, rfl⟩
      · exact ⟨_, rfl⟩
      · exact ⟨_, rfl⟩
    obtain ⟨o, ho⟩ := h2
    unfold Fill.fill at h
    rw [ho] at h
    cases o with
    | none => cases h
    | some px => exact hu _ h
  · intro h
    have : pixelBytesOf enc pt c = .throws := by
      cases pt <;> first | rfl | (exfalso; exact h (by decide))
    unfold Fill.fill
    rw [this]

/-- **C79 (no background).** If a component of the background colour is NaN - the default - the accessors leave the bitmap as it is,
whatever its pixel type. -/
theorem C79_no_background (enc : Fl → Nat → UInt8) (pt : PixelType) (bm : Bitmap) (c : Colour)
    (h : c.r = .nan ∨ c.g = .nan ∨ c.b = .nan) : clear enc pt bm c = .ok bm := by
  unfold clear
  rw [if_neg]
  rintro ⟨h1, h2, h3⟩
  rcases h with h | h | h
  · exact h1 h
  · exact h2 h
  · exact h3 h

/-- **C79 (background).** After clearing a bitmap of a colour type with the background colour and drawing any list of tiles, every pixel
that no tile paints shows the background colour, every other pixel the last tile that paints it - whatever the bitmap contained before. -/
theorem C79_background (enc : Fl → Nat → UInt8) (pt : PixelType) (hpt : pt = .Bgr24 ∨ pt = .Bgr48) (k : Kind)
    (hk : k.db = fillBytes pt) (bm : Bitmap) (hwf : bm.WF (fillBytes pt)) (c : Colour) (hr : c.r ≠ .nan) (hg : c.g ≠ .nan)
    (hb : c.b ≠ .nan) (tiles : List Tile) (htiles : ∀ t ∈ tiles, TileOk k t) (xPos yPos : Int) :
    let wide := decide (pt = .Bgr48)
    ∃ cleared out b g r, clear enc pt bm c = .ok cleared ∧ composeTiles k xPos yPos tiles cleared = some out ∧
      Spec.OnlyPixels (fillBytes pt) bm out ∧
      Spec.IsChannelValue (Spec.topOf wide) c.b b ∧ Spec.IsChannelValue (Spec.topOf wide) c.g g ∧ Spec.IsChannelValue (Spec.topOf wide) c.r r ∧
      ∀ x y, x < bm.w → y < bm.h →
        match (tiles.filter fun t => t.paints (xPos + x) (yPos + y)).getLast? with
        | some t => ∀ j, j < k.db → out.byteAt k.db x y j = t.colour k (xPos + x) (yPos + y) j
        | none => Spec.sample wide k.db out x y 0 = b ∧ Spec.sample wide k.db out x y 1 = g ∧ Spec.sample wide k.db out x y 2 = r := by
  obtain ⟨cl, b, g, r, h1, h2, h3, h4, h5, h6⟩ := C79_colour enc pt (by rcases hpt with h | h <;> simp [h]) bm hwf c hr hg hb
  have hcl : cl.WF k.db := by
    unfold Bitmap.WF
    rw [h2.w, h2.h, h2.stride, h2.size, hk]
    exact hwf
  obtain ⟨out, o1, o2, o3, o4, o5, o6, o7⟩ := C33_compose_exact_partial k cl tiles xPos yPos hcl htiles
  refine ⟨cl, out, b, g, r, ?_, o1, ?_, h3, h4, h5, ?_⟩
  · unfold clear
    rw [if_pos ⟨hr, hg, hb⟩]
    exact h1
  · refine ⟨by rw [o2, h2.w], by rw [o3, h2.h], by rw [o4, h2.stride], by rw [o5, h2.size], fun i hi => ?_⟩
    rw [o7 i, h2.padding i hi]
    intro x y j hx hy hj
    rw [h2.w] at hx
    rw [h2.h] at hy
    rw [h2.stride, hk]
    exact hi x y j hx hy (by rw [← hk]; exact hj)
  · intro x y hx hy
    have hx' : x < cl.w := by rw [h2.w]; exact hx
    have hy' : y < cl.h := by rw [h2.h]; exact hy
    split
    next t ht =>
      intro j hj
      rw [o6 x y j hx' hy' hj]
      unfold expected
      rw [ht]
    next ht =>
      have hsame : ∀ j, j < k.db → out.byteAt k.db x y j = cl.byteAt k.db x y j := by
        intro j hj
        rw [o6 x y j hx' hy' hj]
        unfold expected
        rw [ht]
      obtain ⟨q0, q1, q2, -⟩ := h6 x y hx hy
      rw [← hk] at q0 q1 q2
      have hs : ∀ ch, ch < 3 → Spec.sample (decide (pt = .Bgr48)) k.db out x y ch = Spec.sample (decide (pt = .Bgr48)) k.db cl x y ch := by
        intro ch hch
        rcases hpt with rfl | rfl
        · have hd : k.db = 3 := hk
          change (out.byteAt k.db x y ch).toNat = (cl.byteAt k.db x y ch).toNat
          rw [hsame ch (by omega)]
        · have hd : k.db = 6 := hk
          change (out.byteAt k.db x y (2 * ch)).toNat + 256 * (out.byteAt k.db x y (2 * ch + 1)).toNat =
            (cl.byteAt k.db x y (2 * ch)).toNat + 256 * (cl.byteAt k.db x y (2 * ch + 1)).toNat
          rw [hsame (2 * ch) (by omega), hsame (2 * ch + 1) (by omega)]
      exact ⟨(hs 0 (by omega)).trans q0, (hs 1 (by omega)).trans q1, (hs 2 (by omega)).trans q2⟩

/-- **C79 is violated by infinite components.** The accessors do not fill if a component of the background colour is NaN, but with an
infinite and a negative infinite component the mean of a Gray8 or Gray16 pixel is NaN although no component is: its conversion to an
integer is undefined behaviour - for every bitmap. -/
theorem C79_infinite_violated (enc : Fl → Nat → UInt8) (pt : PixelType) (hpt : pt = .Gray8 ∨ pt = .Gray16) (bm : Bitmap) (b : ℚ) :
    clear enc pt bm ⟨.inf false, .inf true, .num b⟩ = .undefined := by
  rcases hpt with rfl | rfl <;> rfl

/-- **C79 is violated by NaN.** `Utils::FillBitmap` does not check for NaN: with a NaN component filling a bitmap of an integer type is
undefined behaviour. -/
theorem C79_nan_violated (enc : Fl → Nat → UInt8) (pt : PixelType) (hpt : pt ∈ [PixelType.Gray8, .Gray16, .Bgr24, .Bgra32, .Bgr48])
    (bm : Bitmap) (c : Colour) (h : c.r = .nan ∨ c.g = .nan ∨ c.b = .nan) : fill enc pt bm c = .undefined := by
  have hs : c.sum = .nan := by
    obtain ⟨r, g, b⟩ := c
    unfold Colour.sum
    rcases h with h | h | h
    · change r = _ at h; subst h; cases b <;> rfl
    · change g = _ at h; subst h; cases r <;> cases b <;> rfl
    · change b = _ at h; subst h
      dsimp only
      generalize r.add g = a
      cases a <;> rfl
  have hp : pixelBytesOf enc pt c = .undefined := by
    have hn : ∀ top, channelValue top .nan = none := fun _ => rfl
    have hb : ∀ (o : Option Nat), (do let _ ← o; (none : Option (Nat → UInt8))) = none := by intro o; cases o <;> rfl
    have hx : ∀ (top : Nat) (f : Nat → Nat → Nat → Nat → UInt8), (do
        let b ← channelValue top c.b
        let g ← channelValue top c.g
        let r ← channelValue top c.r
        return f b g r : Option (Nat → UInt8)) = none := by
      intro top f
      rcases h with h | h | h
      · rw [h, hn]
        cases channelValue top c.b with
        | none => rfl
        | some _ => cases channelValue top c.g <;> rfl
      · rw [h, hn]
        cases channelValue top c.b <;> rfl
      · rw [h, hn]
        rfl
    simp only [List.mem_cons, List.not_mem_nil, or_false] at hpt
    rcases hpt with rfl | rfl | rfl | rfl | rfl
    · simp only [pixelBytesOf, greyValue, hs, Fl.scale, clampTop]; rfl
    · simp only [pixelBytesOf, greyValue, hs, Fl.scale, clampTop]; rfl
    · simp only [pixelBytesOf]; rw [hx 255 fun b g r j => UInt8.ofNat (if j = 0 then b else if j = 1 then g else r)]; rfl
    · simp only [pixelBytesOf]
      rw [hx 255 fun b g r j => UInt8.ofNat (if j = 0 then b else if j = 1 then g else if j = 2 then r else 255)]; rfl
    · simp only [pixelBytesOf]
      rw [hx 65535 fun b g r j => byte16 (if j / 2 = 0 then b else if j / 2 = 1 then g else r) (j % 2)]; rfl
  unfold Fill.fill
  rw [hp]

/-- A 2 x 2 bitmap with padding satisfies the hypotheses, with a colour inside and outside the range. -/
example : (⟨2, 2, 8, ⟨16, fun _ => 7⟩⟩ : Bitmap).WF (fillBytes .Bgr24) := by
  exact ⟨by decide, fun _ => by decide⟩

example : Spec.UnitColour ⟨.num 0, .num (1 / 2), .num 1⟩ 0 (1 / 2) 1 := by
  exact ⟨rfl, ⟨by norm_num, by norm_num⟩, ⟨by norm_num, by norm_num⟩, by norm_num, by norm_num⟩

example : (⟨.inf false, .num 3, .num (-2)⟩ : Colour).sum ≠ .nan := by
  intro h
  cases h

end Verif
