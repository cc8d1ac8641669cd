import Verif.Proof.Jxr
import Verif.Props.ComposeMore

/-! # C80 - the bitmap of a sub-block -/

namespace Verif
open Verif.Czi Verif.Blit Verif.Bitonal Verif.Flt Verif.Fill Verif.Zstd Verif.Spec Verif.Jxr

/-- **C80 (quality).** The quality given to the encoder is always within [0, 1]; it is 1 without the parameter and for 1000 or more, and
otherwise the parameter in thousandths (as a `float`). -/
theorem C80_quality (parameter : Option Nat) :
    0 ≤ quality parameter ∧ quality parameter ≤ 1 ∧ (parameter = none → quality parameter = 1) ∧
    ∀ q, parameter = some q → (1000 ≤ q → quality parameter = 1) ∧ (q ≤ 1000 → |quality parameter - q / 1000| ≤ 1 / 2 ^ 24) := by
  refine ⟨(quality_range parameter).1, (quality_range parameter).2, fun h => by subst h; rfl, fun q hq => ?_⟩
  subst hq
  constructor
  · intro h
    have h1 : (1000 : ℚ) ≤ f32 q := by
      have := f32_mono (show ((1000 : ℕ) : ℚ) ≤ q by exact_mod_cast h)
      rw [f32_nat 1000 (by omega)] at this
      exact_mod_cast this
    have h2 : 1 ≤ f32 (f32 q / 1000) := by
      have := f32_mono (show ((1 : ℕ) : ℚ) ≤ f32 q / 1000 by rw [le_div_iff₀ (by norm_num)]; push_cast; linarith)
      rw [f32_nat 1 (by omega)] at this
      exact_mod_cast this
    unfold quality
    dsimp only
    rw [min_eq_left h2]
    norm_num
  · intro h
    have hq : f32 q = q := f32_nat q (by omega)
    have h0 : (0 : ℚ) ≤ q / 1000 := by positivity
    have h1 : (q : ℚ) / 1000 ≤ 1 := by
      rw [div_le_one (by norm_num)]; exact_mod_cast h
    have e := f32_err ((q : ℚ) / 1000)
    rw [abs_of_nonneg h0] at e
    have g0 : 0 ≤ f32 ((q : ℚ) / 1000) := f32_nonneg h0
    have g1 : f32 ((q : ℚ) / 1000) ≤ 1 := by
      have := f32_mono (show (q : ℚ) / 1000 ≤ ((1 : ℕ) : ℚ) by push_cast; exact h1)
      rw [f32_nat 1 (by omega)] at this
      exact_mod_cast this
    unfold quality
    dsimp only
    rw [hq, min_eq_right g1, max_eq_right g0]
    refine e.trans ?_
    exact div_le_div_of_nonneg_right h1 (by positivity)

example : quality (some 500) = 1 / 2 ∨ |quality (some 500) - 500 / 1000| ≤ 1 / 2 ^ 24 :=
  .inr (by have := ((C80_quality (some 500)).2.2.2 500 rfl).2 (by omega); exact_mod_cast this)

/-- **C80 (what is encoded).** Compressing any bitmap of one of the five supported pixel types, with any stride, reads no memory outside
of it and gives the library exactly its pixels (48-bit pixels with red and blue exchanged); the result is the library's. -/
theorem C80_compress (lib : Lib) (fresh : Nat → UInt8) {pt : PixelType} {f : Format} (hf : formatOf pt = some f) (w h stride : Nat) (src : Buf)
    (parameter : Option Nat) (hw : 0 < w) (hh : 0 < h) (hst : w * pixelBytes pt ≤ stride)
    (hsrc : (h - 1) * stride + w * pixelBytes pt ≤ src.size) :
    ∃ px, (∀ x y j, x < w → y < h → j < pixelBytes pt →
        px x y j = inBitmapOrder pt (fun x y j => src.get (y * stride + x * pixelBytes pt + j)) x y j) ∧
      (∀ d, lib.encode f w h (quality parameter) px = some d → compress lib fresh pt w h stride src parameter = .ok d) ∧
      (lib.encode f w h (quality parameter) px = none → compress lib fresh pt w h stride src parameter = .throws) := by
  obtain ⟨px, h1, h2⟩ := compress_call lib fresh hf w h stride src parameter hw hh hst hsrc
  exact ⟨px, h1, fun d hd => by rw [h2, hd], fun hd => by rw [h2, hd]⟩

/-- Other pixel types, and bitmaps without pixels, are rejected. -/
theorem C80_compress_rejected (lib : Lib) (fresh : Nat → UInt8) (pt : PixelType) (w h stride : Nat) (src : Buf) (parameter : Option Nat)
    (hf : formatOf pt = none ∨ (pt ≠ .Bgr48 ∧ (w = 0 ∨ h = 0))) : compress lib fresh pt w h stride src parameter = .throws := by
  unfold compress
  cases hp : formatOf pt with
  | none => rfl
  | some f =>
    rcases hf with h1 | ⟨h1, h2⟩
    · rw [hp] at h1; cases h1
    · have : f ≠ .bgr48 := by rintro rfl; cases pt <;> first | exact h1 rfl | cases hp
      dsimp only
      rw [if_neg this]
      unfold encodeJxr
      obtain ⟨q0, q1⟩ := quality_range parameter
      rw [if_neg (by rintro (h | h) <;> linarith)]
      by_cases hw : w = 0
      · rw [if_pos hw]
      · rw [if_neg hw, if_pos (by omega)]

example : formatOf .Gray32Float = some .gray32Float ∧ formatOf .Bgra32 = none := by decide

theorem order_twice {pt : PixelType} {px px' : Nat → Nat → Nat → UInt8} {x y j : Nat} (hj : j < pixelBytes pt)
    (h : ∀ i, i < pixelBytes pt → px x y i = inBitmapOrder pt px' x y i) : inBitmapOrder pt px x y j = px' x y j := by
  by_cases h48 : pt = .Bgr48
  · subst h48
    have hj' : partner j < 6 := partner_lt hj
    unfold inBitmapOrder
    rw [if_pos rfl]
    refine (h (partner j) hj').trans ?_
    unfold inBitmapOrder
    rw [if_pos rfl]
    exact congrArg (px' x y) (partner_partner hj)
  · unfold inBitmapOrder at h ⊢
    rw [if_neg h48]
    rw [h j hj, if_neg h48]

/-- **C80 (sizes and types that agree; handling off).** If the compressed image has the pixel type and size of the sub-block and can be
decoded, the bitmap shows it. In every other case there is an exception: without size-mismatch handling no sub-block ever gives a bitmap
of another type or size, undefined behaviour or termination, whatever its data. -/
theorem C80_strict (lib : Lib) (enc : Fl → Nat → UInt8) (fresh fresh2 : Nat → UInt8) (d : List UInt8) (pt : PixelType) (w h : Nat) :
    (∀ f px, lib.header d = some (f, w, h) → typeOf f = pt → lib.pixels d = some px →
      ∃ t, createJxr lib enc fresh fresh2 d pt w h false = .ok t ∧ ShowsImage t pt w h (inBitmapOrder pt px)) ∧
    ((¬ ∃ f px, lib.header d = some (f, w, h) ∧ typeOf f = pt ∧ lib.pixels d = some px) →
      createJxr lib enc fresh fresh2 d pt w h false = .throws) := by
  constructor
  · rintro f px hh rfl hp
    obtain ⟨t, h1, h2, -⟩ := decode_ok fresh (e := ⟨some (typeOf f), some w, some h⟩) hh hp ((meets_iff _ _ _ _ _ _).2 ⟨rfl, rfl, rfl⟩)
    refine ⟨t, ?_, h2⟩
    unfold createJxr
    rw [if_pos rfl, h1]
  · intro hno
    cases hp : lib.pixels d with
    | none => exact create_no_data enc fresh fresh2 pt w h false (.inr hp)
    | some px =>
      cases hh : lib.header d with
      | none => exact create_no_data enc fresh fresh2 pt w h false (.inl hh)
      | some v =>
        obtain ⟨f, w', h'⟩ := v
        unfold createJxr
        rw [if_pos rfl]
        refine decode_mismatch fresh hh ?_
        rw [Bool.eq_false_iff]
        intro hm
        obtain ⟨h1, rfl, rfl⟩ := (meets_iff _ _ _ _ _ _).1 hm
        exact hno ⟨f, px, hh, h1, hp⟩

/-- **C80 (handling on, same pixel type).** The bitmap has the size of the sub-block: it shows the compressed image, cut off where that is
larger and continued with black where it is smaller. -/
theorem C80_lenient_same (lib : Lib) (enc : Fl → Nat → UInt8) (fresh fresh2 : Nat → UInt8) (d : List UInt8) (f : Format) (w h w' h' : Nat)
    (px : Nat → Nat → Nat → UInt8) (hh : lib.header d = some (f, w', h')) (hp : lib.pixels d = some px) :
    ∃ t, createJxr lib enc fresh fresh2 d (typeOf f) w h true = .ok t ∧
      ShowsImage t (typeOf f) w h (fun x y j =>
        if x < w' ∧ y < h' then inBitmapOrder (typeOf f) px x y j else blackPixel enc (typeOf f) j) := by
  by_cases hs : w' = w ∧ h' = h
  · obtain ⟨rfl, rfl⟩ := hs
    obtain ⟨t, h1, -, h3⟩ := create_lenient enc fresh fresh2 (typeOf f) w' h' hh hp
    rw [if_pos ⟨rfl, rfl, rfl⟩] at h3
    exact ⟨t, h3, h1.typ, h1.width, h1.height, h1.wf, fun x y j hx hy hj => by rw [if_pos ⟨hx, hy⟩]; exact h1.bytes x y j hx hy hj⟩
  · have hb : pixelBytes (typeOf f) ≠ 0 := by rw [pixelBytes_typeOf]; have := formatBytes_pos f; omega
    have hk : kindOf (fun q => enc (.num q)) (typeOf f) (typeOf f) = some (.same (pixelBytes (typeOf f))) := by cases f <;> rfl
    obtain ⟨t0, t, h1, h2, h3⟩ := create_adjusted enc fresh fresh2 (typeOf f) w h hh hp (fun hc => hs ⟨hc.1, hc.2.1⟩) hb hk trivial rfl rfl
    refine ⟨t, h1, h3.typ, h3.width, h3.height, h3.wf, fun x y j hx hy hj => ?_⟩
    rw [h3.bytes x y j hx hy hj]
    by_cases hin : x < w' ∧ y < h'
    · rw [if_pos hin, if_pos hin]
      exact h2.bytes x y j hin.1 hin.2 hj
    · rw [if_neg hin, if_neg hin]

/-- **C80 (round trip).** Compressing a bitmap with the highest quality, with an encoder that is lossless for the pixel type, and creating
the bitmap of a sub-block with these data gives the same pixels, with and without size-mismatch handling, for every stride and whatever
the contents of fresh memory. -/
theorem C80_roundtrip (lib : Lib) (enc : Fl → Nat → UInt8) (fresh fresh1 fresh2 : Nat → UInt8) {pt : PixelType} {f : Format}
    (hf : formatOf pt = some f) (hl : LosslessFor lib f) (w h stride : Nat) (src : Buf) (parameter : Option Nat)
    (hq : ∀ q, parameter = some q → 1000 ≤ q) (hw : 0 < w) (hh : 0 < h) (hst : w * pixelBytes pt ≤ stride)
    (hsrc : (h - 1) * stride + w * pixelBytes pt ≤ src.size) (d : List UInt8)
    (hd : compress lib fresh pt w h stride src parameter = .ok d) (handleMismatch : Bool) :
    ∃ t, createJxr lib enc fresh1 fresh2 d pt w h handleMismatch = .ok t ∧
      ShowsImage t pt w h (fun x y j => src.get (y * stride + x * pixelBytes pt + j)) := by
  have hpt : typeOf f = pt := by cases pt <;> cases f <;> first | rfl | cases hf
  have hq1 : quality parameter = 1 := by
    cases parameter with
    | none => rfl
    | some q => exact ((C80_quality (some q)).2.2.2 q rfl).1 (hq q rfl)
  obtain ⟨px, h1, h2⟩ := compress_call lib fresh hf w h stride src parameter hw hh hst hsrc
  rw [hq1] at h2
  cases he : lib.encode f w h 1 px with
  | none => rw [h2, he] at hd; cases hd
  | some d' =>
    rw [h2, he] at hd
    cases hd
    obtain ⟨g1, px', g2, g3⟩ := hl.back w h px d he
    have hval : ∀ x y j, x < w → y < h → j < pixelBytes pt →
        inBitmapOrder pt px' x y j = src.get (y * stride + x * pixelBytes pt + j) := by
      intro x y j hx hy hj
      refine order_twice (px' := fun x y j => src.get (y * stride + x * pixelBytes pt + j)) hj fun i hi => ?_
      rw [g3 x y i hx hy (by rw [← pixelBytes_typeOf, hpt]; exact hi)]
      exact h1 x y i hx hy hi
    cases handleMismatch with
    | false =>
      obtain ⟨t, e1, e2⟩ := (C80_strict lib enc fresh1 fresh2 d pt w h).1 f px' g1 hpt g2
      exact ⟨t, e1, e2.typ, e2.width, e2.height, e2.wf, fun x y j hx hy hj => (e2.bytes x y j hx hy hj).trans (hval x y j hx hy hj)⟩
    | true =>
      obtain ⟨t, e1, e2⟩ := C80_lenient_same lib enc fresh1 fresh2 d f w h w h px' g1 g2
      rw [hpt] at e1 e2
      refine ⟨t, e1, e2.typ, e2.width, e2.height, e2.wf, fun x y j hx hy hj => ?_⟩
      rw [e2.bytes x y j hx hy hj, if_pos ⟨hx, hy⟩]
      exact hval x y j hx hy hj

/-- A library that can encode images of one grey pixel. -/
def onePixel : Lib where
  header d := match d with | [_] => some (.gray8, 1, 1) | _ => none
  pixels d := match d with | [b] => some (fun _ _ _ => b) | _ => none
  encode f w h _ px := if f = .gray8 ∧ w = 1 ∧ h = 1 then some [px 0 0 0] else none

example : LosslessFor onePixel .gray8 ∧ ∃ d, compress onePixel (fun _ => 0) .Gray8 1 1 1 ⟨1, fun _ => 77⟩ none = .ok d := by
  refine ⟨⟨fun w h px d hd => ?_⟩, [77], ?_⟩
  · unfold onePixel at hd
    dsimp only at hd
    split at hd
    · rename_i hc
      obtain ⟨-, rfl, rfl⟩ := hc
      cases hd
      refine ⟨rfl, _, rfl, fun x y j hx hy hj => ?_⟩
      change j < 1 at hj
      rw [show x = 0 by omega, show y = 0 by omega, show j = 0 by omega]
    · cases hd
  · have := encodeJxr_call onePixel .gray8 1 1 1 ⟨1, fun _ => 77⟩ 1 (by norm_num) (by norm_num) (by omega) (by omega) (by decide) (by decide)
    exact this

/-- **C80 (handling on, other integer pixel type; partial: not Bgr24 declared as Bgr48, see `C80_overread_violated`).** The pixels are
converted; where the image is smaller the bitmap is black. -/
theorem C80_lenient_partial (lib : Lib) (enc : Fl → Nat → UInt8) (fresh fresh2 : Nat → UInt8) (d : List UInt8) (f : Format) (w h w' h' : Nat)
    (px : Nat → Nat → Nat → UInt8) (hh : lib.header d = some (f, w', h')) (hp : lib.pixels d = some px) (pt : PixelType)
    (hf : IntegerType (typeOf f)) (hi : IntegerType pt) (hne : typeOf f ≠ pt) (hx : ¬ (f = .bgr24 ∧ pt = .Bgr48)) :
    ∃ t v, createJxr lib enc fresh fresh2 d pt w h true = .ok t ∧ ShowsImage t pt w h v ∧
      ∀ x y, x < w → y < h →
        (x < w' ∧ y < h' → Converted (typeOf f) pt (channels (typeOf f) (inBitmapOrder (typeOf f) px x y)) (channels pt (v x y))) ∧
        (¬ (x < w' ∧ y < h') → ∀ j, j < pixelBytes pt → v x y j = 0) := by
  have hb : pixelBytes pt ≠ 0 := by rcases hi with rfl | rfl | rfl | rfl <;> decide
  obtain ⟨k, hk, hn, hsb, hdb, hval⟩ := kindOf_integer (fun q => enc (.num q)) hf hi
    (by rintro ⟨h1, h2⟩; refine hx ⟨?_, h2⟩; cases f <;> first | rfl | cases h1)
  obtain ⟨t0, t, h1, h2, h3⟩ := create_adjusted enc fresh fresh2 pt w h hh hp (fun hc => hne hc.2.2) hb hk hn hsb hdb
  refine ⟨t, _, h1, h3, fun x y hx hy => ⟨fun hin => ?_, fun hin j hj => ?_⟩⟩
  · simp only [if_pos hin]
    have := hval (t0.bm.byteAt (pixelBytes (typeOf f)) x y)
    rw [channels_congr (typeOf f) (fun j hj => h2.bytes x y j hin.1 hin.2 hj)] at this
    exact this
  · rw [if_neg hin]
    unfold blackPixel
    rw [if_neg (by rcases hi with rfl | rfl | rfl | rfl <;> decide), if_neg (by rcases hi with rfl | rfl | rfl | rfl <;> simp)]

example : IntegerType (typeOf .bgr48) ∧ IntegerType .Gray8 ∧ typeOf .bgr48 ≠ .Gray8 := ⟨by simp [IntegerType, typeOf], by simp [IntegerType], by decide⟩

/-- **C80 (handling on, an integer image in a Gray32Float sub-block).** The bitmap shows the grey values (the mean of the channels). -/
theorem C80_lenient_float (lib : Lib) (enc : Fl → Nat → UInt8) (fresh fresh2 : Nat → UInt8) (d : List UInt8) (f : Format) (w h w' h' : Nat)
    (px : Nat → Nat → Nat → UInt8) (hh : lib.header d = some (f, w', h')) (hp : lib.pixels d = some px) (hf : IntegerType (typeOf f)) :
    ∃ t v, createJxr lib enc fresh fresh2 d .Gray32Float w h true = .ok t ∧ ShowsImage t .Gray32Float w h v ∧
      ∀ x y, x < w → y < h →
        (x < w' ∧ y < h' → ∃ q : ℚ, (∀ j, j < 4 → v x y j = enc (.num q) j) ∧
          match channels (typeOf f) (inBitmapOrder (typeOf f) px x y) with
          | [g] => q = g
          | [b, g, r] => |q - (b + g + r) / 3| ≤ (b + g + r) / 3 / 2 ^ 24
          | _ => False) ∧
        (¬ (x < w' ∧ y < h') → ∀ j, j < 4 → v x y j = enc (.num 0) j) := by
  obtain ⟨k, hk, hn, hsb, hdb, hval⟩ := kindOf_float (fun q => enc (.num q)) hf
  obtain ⟨t0, t, h1, h2, h3⟩ := create_adjusted enc fresh fresh2 .Gray32Float w h hh hp
    (fun hc => by have := hc.2.2; rw [this] at hf; simp [IntegerType] at hf) (by decide) hk hn hsb hdb
  refine ⟨t, _, h1, h3, fun x y hx hy => ⟨fun hin => ?_, fun hin j hj => ?_⟩⟩
  · simp only [if_pos hin]
    have := hval (t0.bm.byteAt (pixelBytes (typeOf f)) x y)
    rw [channels_congr (typeOf f) (fun j hj => h2.bytes x y j hin.1 hin.2 hj)] at this
    obtain ⟨q, q1, q2⟩ := this
    exact ⟨q, fun j _ => q1 j, q2⟩
  · rw [if_neg hin]
    rfl

/-- **C80 (data that cannot be decoded; pixel types without a bitmap).** There is an exception. -/
theorem C80_no_bitmap (lib : Lib) (enc : Fl → Nat → UInt8) (fresh fresh2 : Nat → UInt8) (d : List UInt8) (pt : PixelType) (w h : Nat) (on : Bool)
    (hd : lib.header d = none ∨ lib.pixels d = none ∨ pixelBytes pt = 0) : createJxr lib enc fresh fresh2 d pt w h on = .throws := by
  rcases hd with hd | hd | hd
  · exact create_no_data enc fresh fresh2 pt w h on (.inl hd)
  · exact create_no_data enc fresh fresh2 pt w h on (.inr hd)
  · have hne : ∀ f, typeOf f ≠ pt := by
      intro f hc
      have := formatBytes_pos f
      rw [← pixelBytes_typeOf, hc, hd] at this
      omega
    cases on with
    | false =>
      refine (C80_strict lib enc fresh fresh2 d pt w h).2 ?_
      rintro ⟨f, px, -, h1, -⟩
      exact hne f h1
    | true =>
      cases hh : lib.header d with
      | none => exact create_no_data enc fresh fresh2 pt w h true (.inl hh)
      | some v =>
        obtain ⟨f, w', h'⟩ := v
        cases hp : lib.pixels d with
        | none => exact create_no_data enc fresh fresh2 pt w h true (.inr hp)
        | some px =>
          obtain ⟨t, -, -, h3⟩ := create_lenient enc fresh fresh2 pt w h hh hp
          rw [h3, if_neg (fun hc => hne f hc.2.2)]
          cases pt <;> first | rfl | cases hd

example : pixelBytes .Gray64Float = 0 ∧ bytesPerPel .Gray64Float = some 8 := ⟨rfl, rfl⟩

/-- **C80 violated: sub-blocks that terminate the process.** With size-mismatch handling (the default), creating the bitmap ends the
process exactly if the data can be decoded, neither image is empty, a bitmap of the declared type can be created, and there is no conversion from the type
of the image to it (an image of floating-point numbers in a sub-block of an integer type; any image in a Bgra32 sub-block): the
exception destroys the two bitmaps while they are locked. -/
theorem C80_abort_violated (lib : Lib) (enc : Fl → Nat → UInt8) (fresh fresh2 : Nat → UInt8) (d : List UInt8) (pt : PixelType) (w h : Nat) :
    createJxr lib enc fresh fresh2 d pt w h true = .aborts ↔
      ∃ f w' h' px, lib.header d = some (f, w', h') ∧ lib.pixels d = some px ∧ ¬ Convertible (typeOf f) pt ∧ pixelBytes pt ≠ 0 ∧
        0 < w ∧ 0 < h ∧ 0 < w' ∧ 0 < h' := by
  cases hh : lib.header d with
  | none => rw [create_no_data enc fresh fresh2 pt w h true (.inl hh)]; simp
  | some v =>
    obtain ⟨f, w', h'⟩ := v
    cases hp : lib.pixels d with
    | none => rw [create_no_data enc fresh fresh2 pt w h true (.inr hp)]; simp
    | some px =>
      have hself : Convertible (typeOf f) (typeOf f) := by cases f <;> simp [Convertible, IntegerType, typeOf]
      by_cases hpt : pixelBytes pt = 0
      · rw [C80_no_bitmap lib enc fresh fresh2 d pt w h true (.inr (.inr hpt))]
        constructor
        · intro hc; cases hc
        · rintro ⟨f2, w2, h2, px2, -, -, -, hc, -⟩; exact absurd hpt hc
      · obtain ⟨t, h1, -, h3⟩ := create_lenient enc fresh fresh2 pt w h hh hp
        obtain ⟨b, e1, e2⟩ := black_bitmap enc hpt fresh2 w h
        by_cases hs : w' = w ∧ h' = h ∧ typeOf f = pt
        · rw [h3, if_pos hs]
          constructor
          · intro hc; cases hc
          · rintro ⟨f2, w2, h2, px2, hf2, -, hc, -⟩
            cases hf2
            rw [← hs.2.2] at hc
            exact absurd hself hc
        · rw [h3, if_neg hs, bytesPerPel_eq hpt]
          dsimp only
          rw [e1]
          dsimp only
          have hu := C57_unsupported (fun q => enc (.num q)) (typeOf f) pt t.bm b 0 0
          have hin : (∃ x y : Nat, x < b.w ∧ y < b.h ∧ Inside t.bm 0 0 x y) ↔ 0 < w ∧ 0 < h ∧ 0 < w' ∧ 0 < h' := by
            have hbw : b.w = w := e2.width
            have hbh : b.h = h := e2.height
            have htw := h1.width
            have hth := h1.height
            unfold Inside
            constructor
            · rintro ⟨x, y, g1, g2, g3⟩; omega
            · intro g; exact ⟨0, 0, by omega, by omega, by omega⟩
          rw [hin] at hu
          generalize hcopy : copyAt (fun q => enc (.num q)) (typeOf f) pt t.bm b none 0 0 = r at hu
          cases r with
          | ok b =>
            constructor
            · intro hc; cases hc
            · rintro ⟨f2, w2, h2, px2, hf2, -, hc, -, hr⟩
              cases hf2
              have := hu.2 ⟨hc, hr⟩
              cases this
          | undefined =>
            constructor
            · intro hc; cases hc
            · rintro ⟨f2, w2, h2, px2, hf2, -, hc, -, hr⟩
              cases hf2
              have := hu.2 ⟨hc, hr⟩
              cases this
          | throws =>
            have := hu.1 rfl
            exact ⟨fun _ => ⟨f, w', h', px, rfl, rfl, this.1, hpt, this.2⟩, fun _ => rfl⟩

/-- Two such pairs of types. -/
example : ¬ Convertible (typeOf .gray32Float) .Gray16 ∧ ¬ Convertible (typeOf .bgr24) .Bgra32 ∧ pixelBytes .Gray16 ≠ 0 ∧ pixelBytes .Bgra32 ≠ 0 := by
  simp [Convertible, IntegerType, typeOf, pixelBytes]

/-- **C80 violated: sub-blocks that make the library read outside of memory.** A Bgr24 image in a Bgr48 sub-block of at least its size:
the conversion reads beyond the end of the decoded bitmap (unless its width modulo four is three, when the padding is long enough). -/
theorem C80_overread_violated (lib : Lib) (enc : Fl → Nat → UInt8) (fresh fresh2 : Nat → UInt8) (d : List UInt8) (w h w' h' : Nat)
    (px : Nat → Nat → Nat → UInt8) (hh : lib.header d = some (.bgr24, w', h')) (hp : lib.pixels d = some px)
    (hw : 0 < w') (hhp : 0 < h') (hw1 : w' ≤ w) (hh1 : h' ≤ h) (hmod : w' % 4 ≠ 3) :
    createJxr lib enc fresh fresh2 d .Bgr48 w h true = .undefined := by
  obtain ⟨t, h1, h2, h3⟩ := create_lenient enc fresh fresh2 .Bgr48 w h hh hp
  obtain ⟨b, e1, e2⟩ := black_bitmap enc (pt := .Bgr48) (by decide) fresh2 w h
  rw [h3, if_neg (fun hc => by cases hc.2.2), bytesPerPel_eq (by decide)]
  dsimp only
  rw [e1]
  dsimp only
  have hk : kindOf (fun q => enc (.num q)) (typeOf .bgr24) .Bgr48 = some (.conv convBgr24ToBgr48) := rfl
  rw [copyAt_kind hk]
  have htw := h1.width
  have hth := h1.height
  have hbw : b.w = w := e2.width
  have hbh : b.h = h := e2.height
  have hnone : copyWithOffsetAndMask (.conv convBgr24ToBgr48) t.bm b none 0 0 = none := by
    refine C33_overread_violated convBgr24ToBgr48 t.bm b 0 0 ?_ (w' - 1) (h' - 1) (by omega) (by omega) (by omega) (by omega)
      (by omega) (by omega)
    obtain ⟨c1, c2⟩ : convBgr24ToBgr48.sb = 3 ∧ convBgr24ToBgr48.rd = 6 := by decide
    obtain ⟨s1, s2⟩ := h2
    rw [h1.typ, htw] at s1
    rw [s2, hth, htw, c1, c2]
    have hs : t.bm.stride < w' * 3 + 3 := by
      rw [s1]
      unfold defaultPitch
      change (3 * w' + 3) / 4 * 4 < _
      omega
    have : h' * t.bm.stride = (h' - 1) * t.bm.stride + t.bm.stride := by
      conv_lhs => rw [show h' = (h' - 1) + 1 by omega]
      rw [Nat.add_mul, Nat.one_mul]
    omega
  rw [hnone]
  rfl

example : ∃ w' : Nat, 0 < w' ∧ w' ≤ 100 ∧ w' % 4 ≠ 3 := ⟨100, by omega, by omega, by omega⟩

/-- **C80 (every sub-block).** Whatever the compression mode, data and options: a bitmap that is returned has the pixel type and size of the
sub-block, and all of its pixels lie in its memory. -/
theorem C80_declared (lib : Lib) (zstd : Codec) (enc : Fl → Nat → UInt8) (fresh fresh2 : Nat → UInt8) (mode : CompressionMode) (d : List UInt8)
    (pt : PixelType) (w h : Nat) (options : Option Options) (t : Typed)
    (ht : createBitmap lib zstd enc fresh fresh2 mode d pt w h options = .ok t) :
    t.pt = pt ∧ t.bm.w = w ∧ t.bm.h = h ∧ ∃ bpp, bytesPerPel pt = some bpp ∧ t.bm.WF bpp := by
  have hres : ∀ {r : Res Bitmap}, (match ofRes r with
      | .ok b => Result.ok (⟨pt, b⟩ : Typed) | .throws => .throws | .aborts => .aborts | .undefined => .undefined) = .ok t →
      ∃ b, r = some (.ok b) ∧ t = ⟨pt, b⟩ := by
    intro r hr
    match r, hr with
    | some (.ok b), hr => cases hr; exact ⟨b, rfl, rfl⟩
    | some (.error e), hr => cases hr
    | none, hr => cases hr
  unfold createBitmap at ht
  dsimp only at ht
  split at ht
  · -- JPEG-XR
    cases hh : lib.header d with
    | none => rw [create_no_data enc fresh fresh2 pt w h _ (.inl hh)] at ht; cases ht
    | some v =>
      obtain ⟨f, w', h'⟩ := v
      cases hp : lib.pixels d with
      | none => rw [create_no_data enc fresh fresh2 pt w h _ (.inr hp)] at ht; cases ht
      | some px =>
        by_cases hpt : pixelBytes pt = 0
        · rw [C80_no_bitmap lib enc fresh fresh2 d pt w h _ (.inr (.inr hpt))] at ht; cases ht
        · have hpic : ∀ v, ShowsImage t pt w h v → t.pt = pt ∧ t.bm.w = w ∧ t.bm.h = h ∧ ∃ bpp, bytesPerPel pt = some bpp ∧ t.bm.WF bpp :=
            fun v hv => ⟨hv.typ, hv.width, hv.height, _, bytesPerPel_eq hpt, hv.wf⟩
          generalize (options.getD ⟨true, true, true⟩).jxr = on at ht
          cases on with
          | false =>
            by_cases hm : ∃ f px, lib.header d = some (f, w, h) ∧ typeOf f = pt ∧ lib.pixels d = some px
            · obtain ⟨f, px, g1, g2, g3⟩ := hm
              obtain ⟨t', e1, e2⟩ := (C80_strict lib enc fresh fresh2 d pt w h).1 f px g1 g2 g3
              rw [e1] at ht
              cases ht
              exact hpic _ e2
            · rw [(C80_strict lib enc fresh fresh2 d pt w h).2 hm] at ht; cases ht
          | true =>
            by_cases hs : typeOf f = pt
            · subst hs
              obtain ⟨t', e1, e2⟩ := C80_lenient_same lib enc fresh fresh2 d f w h w' h' px hh hp
              rw [e1] at ht
              cases ht
              exact hpic _ e2
            · obtain ⟨t0, h1, -, h3⟩ := create_lenient enc fresh fresh2 pt w h hh hp
              obtain ⟨b, e1, e2⟩ := black_bitmap enc hpt fresh2 w h
              rw [h3, if_neg (fun hc => hs hc.2.2), bytesPerPel_eq hpt] at ht
              dsimp only at ht
              rw [e1] at ht
              dsimp only at ht
              split at ht
              · cases ht
              · cases ht
              · rename_i b' hb'
                cases ht
                obtain ⟨s1, s2, s3, s4⟩ := copyAt_shape hb'
                refine ⟨rfl, s1.trans e2.width, s2.trans e2.height, _, bytesPerPel_eq hpt, ?_, fun h0 => ?_⟩
                · rw [s1, s3]; exact e2.wf.1
                · rw [s1, s2, s3, s4]; rw [s2] at h0; exact e2.wf.2 h0
  · obtain ⟨b, h1, rfl⟩ := hres ht
    obtain ⟨bpp, h2, h3⟩ := decode0_geometry h1
    exact ⟨rfl, h3.1, h3.2.1, bpp, h2, h3.2.2⟩
  · obtain ⟨b, h1, rfl⟩ := hres ht
    obtain ⟨bpp, h2, h3⟩ := decode1_geometry h1
    exact ⟨rfl, h3.1, h3.2.1, bpp, h2, h3.2.2⟩
  · obtain ⟨b, h1, rfl⟩ := hres ht
    obtain ⟨bpp, h2, h3⟩ := uncompressed_geometry h1
    exact ⟨rfl, h3.1, h3.2.1, bpp, h2, h3.2.2⟩
  · cases ht

/-- **C80 (which decoder, which option).** The compression mode selects the decoder; its size-mismatch handling is on unless the options
say otherwise, and is not influenced by the options of the other decoders. -/
theorem C80_decoders (lib : Lib) (zstd : Codec) (enc : Fl → Nat → UInt8) (fresh fresh2 : Nat → UInt8) (d : List UInt8)
    (pt : PixelType) (w h : Nat) (options : Option Options) (t : Typed) :
    (createBitmap lib zstd enc fresh fresh2 .JpgXr d pt w h options = .ok t ↔
      createJxr lib enc fresh fresh2 d pt w h (options.all (·.jxr)) = .ok t) ∧
    (createBitmap lib zstd enc fresh fresh2 .Zstd0 d pt w h options = .ok t ↔
      t.pt = pt ∧ decode0 zstd fresh d pt w h (options.all (·.zstd)) = some (.ok t.bm)) ∧
    (createBitmap lib zstd enc fresh fresh2 .Zstd1 d pt w h options = .ok t ↔
      t.pt = pt ∧ decode1 zstd fresh d pt w h (options.all (·.zstd)) = some (.ok t.bm)) ∧
    (createBitmap lib zstd enc fresh fresh2 .UnCompressed d pt w h options = .ok t ↔
      t.pt = pt ∧ uncompressed fresh d pt w h (options.all (·.uncompressed)) = some (.ok t.bm)) := by
  have hres : ∀ r : Res Bitmap, (match ofRes r with
      | .ok b => Result.ok (⟨pt, b⟩ : Typed) | .throws => .throws | .aborts => .aborts | .undefined => .undefined) = .ok t ↔
      t.pt = pt ∧ r = some (.ok t.bm) := by
    intro r
    match r with
    | some (.ok b) =>
      constructor
      · intro hr; cases hr; exact ⟨rfl, rfl⟩
      · rintro ⟨h1, h2⟩; cases h2; subst h1; rfl
    | some (.error e) => exact ⟨fun hr => (by cases hr), fun hr => (by cases hr.2)⟩
    | none => exact ⟨fun hr => (by cases hr), fun hr => (by cases hr.2)⟩
  have ho : ∀ g : Options → Bool, g ⟨true, true, true⟩ = true → g (options.getD ⟨true, true, true⟩) = options.all g := by
    intro g hg
    cases options with
    | none => exact hg
    | some o => rfl
  rw [← ho (·.jxr) rfl, ← ho (·.zstd) rfl, ← ho (·.uncompressed) rfl]
  exact ⟨Iff.rfl, hres _, hres _, hres _⟩

/-- **C80 (other compression modes).** There is an exception, whatever the data. -/
theorem C80_other_modes (lib : Lib) (zstd : Codec) (enc : Fl → Nat → UInt8) (fresh fresh2 : Nat → UInt8) (mode : CompressionMode) (d : List UInt8)
    (pt : PixelType) (w h : Nat) (options : Option Options) (hm : mode = .Invalid ∨ mode = .Jpg) :
    createBitmap lib zstd enc fresh fresh2 mode d pt w h options = .throws := by
  rcases hm with rfl | rfl <;> rfl

end Verif
