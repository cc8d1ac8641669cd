import Verif.Proof.Sized
import Verif.Props.Zstd
import Verif.Props.Jxr

/-! # C95 - bitmaps have memory for their pixels, with the machine's integers -/

namespace Verif
open Verif.Czi Verif.Blit Verif.Bitonal Verif.Flt Verif.Fill Verif.Zstd Verif.Jxr Verif.Spec

/-- **C95 (creating a bitmap).** For every pixel type and height, if a line has less than 2 GiB: the bitmap that is created has the given size, a stride that is
the smallest multiple of four that a line fits in, lines that do not overlap, and all its pixels are in its memory. With a stride given by the caller that a line
fits in, it has that stride, and again all its pixels are in its memory. -/
theorem C95_create (fresh : Nat → UInt8) (pt : PixelType) (bpp w h : Nat) (hbpp : bytesPerPel pt = some bpp) :
    (w * bpp + 3 < 2 ^ 31 → ∃ bm, Sized.create fresh bpp w h 0 = some bm ∧ bm.w = w ∧ bm.h = h ∧ LinesApart bm bpp ∧ PixelsInMemory bm bpp ∧
      bm.stride % 4 = 0 ∧ bm.stride < w * bpp + 4 ∧ bm.buf.size = h * bm.stride) ∧
    ∀ pitch, 0 < pitch → pitch < 2 ^ 32 → w * bpp ≤ pitch → ∃ bm, Sized.create fresh bpp w h pitch = some bm ∧ bm.w = w ∧ bm.h = h ∧
      LinesApart bm bpp ∧ PixelsInMemory bm bpp ∧ bm.stride = pitch ∧ bm.buf.size = h * pitch := by
  have hb := (Sized.bytesPerPel_pos hbpp).1
  constructor
  · intro hw
    have hwf := newBitmap_wf fresh bpp w h
    refine ⟨_, Sized.create_default hb hw fresh h, rfl, rfl, hwf.1, Sized.pixels_of_wf hwf, ?_, ?_, rfl⟩
    · simp only [newBitmap, defaultPitch]; omega
    · simp only [newBitmap, defaultPitch, Nat.mul_comm bpp w]; omega
  · intro pitch h0 h32 hle
    have hg := geometry_of (b := ⟨h * pitch, fresh⟩) (h := h) hle rfl
    refine ⟨newBitmap fresh w h pitch, ?_, rfl, rfl, hle, Sized.pixels_of_wf hg.2.2, rfl, rfl⟩
    unfold Sized.create
    rw [Nat.mod_eq_of_lt h32, if_neg (by omega)]

example : bytesPerPel .Bgr24 = some 3 ∧ 5000 * 3 + 3 < 2 ^ 31 := ⟨rfl, by decide⟩

/-- **C95 violated: sizes for which creating a bitmap is undefined.** Without a stride given by the caller, creating a bitmap of any width (of 32 bits) is undefined
(signed overflow) exactly if a line of it has 2 GiB or more, or the width as a signed number is negative and a line of its absolute value has more than 2 GiB. -/
theorem C95_create_violated (fresh : Nat → UInt8) (bpp w h : Nat) (hw : w < 2 ^ 32) :
    Sized.create fresh bpp w h 0 = none ↔
      (w < 2 ^ 31 ∧ 2 ^ 31 ≤ w * bpp + 3) ∨ (2 ^ 31 ≤ w ∧ 2 ^ 31 < bpp * (2 ^ 32 - w)) := by
  rw [← Sized.calcPitch_none_iff hw]
  unfold Sized.create
  rw [if_pos (by rfl)]
  simp

example : (2 ^ 30 : Nat) < 2 ^ 31 ∧ 2 ^ 31 ≤ (2 ^ 30) * 2 + 3 := by decide

/-- **C95 violated: bitmaps without memory for their pixels.** For widths that are small negative numbers when taken as signed (such as the stored width -1 in a file), the
bitmap is created, but not even one of its lines fits into its memory: it has the huge positive width, at least one line, and a stride that is shorter than a line. -/
theorem C95_memory_violated (fresh : Nat → UInt8) (bpp w h : Nat) (hw : 2 ^ 31 ≤ w) (hw2 : w < 2 ^ 32) (hk : bpp * (2 ^ 32 - w) ≤ 2 ^ 31)
    (hb : 2 ≤ bpp ∨ (bpp = 1 ∧ 2 ^ 32 - 6 ≤ w)) (hh : 0 < h) :
    ∃ bm, Sized.create fresh bpp w h 0 = some bm ∧ bm.w = w ∧ bm.h = h ∧ bm.buf.size = h * bm.stride ∧ ¬ LinesApart bm bpp ∧ ¬ PixelsInMemory bm bpp := by
  have e := Sized.calcPitch_wrapped hw hw2 hk
  have hsum : bpp * (2 ^ 32 - w) + w * bpp = bpp * 2 ^ 32 := by
    rw [Nat.mul_comm w bpp, ← Nat.mul_add]; congr 1; omega
  have hw0 : w ≤ w * bpp := Nat.le_mul_of_pos_right w (by omega)
  generalize hkk : bpp * (2 ^ 32 - w) = k at e hk hsum
  generalize hst : ((-(((k - 3) / 4 * 4 : Nat) : Int)) % 2 ^ 32).toNat = st at e
  have hstw : st < w * bpp ∧ st < 2 ^ 32 := by
    rcases hb with hb | ⟨rfl, hb⟩
    · have : 2 * 2 ^ 32 ≤ bpp * 2 ^ 32 := Nat.mul_le_mul_right _ hb
      generalize w * bpp = s at hsum ⊢
      omega
    · omega
  refine ⟨newBitmap fresh w h st, ?_, rfl, rfl, rfl, ?_, ?_⟩
  · unfold Sized.create
    rw [if_pos (by rfl), e]
    rfl
  · unfold LinesApart
    simp only [newBitmap]
    omega
  · intro hp
    have := hp (w - 1) (h - 1) (bpp - 1) (by simp only [newBitmap]; omega) (by simp only [newBitmap]; omega) (by omega)
    simp only [newBitmap] at this
    have e2 : (w - 1) * bpp + bpp = w * bpp := by
      conv_rhs => rw [show w = (w - 1) + 1 by omega]
      rw [Nat.add_mul, Nat.one_mul]
    have e3 : h * st = (h - 1) * st + st := by
      conv_lhs => rw [show h = (h - 1) + 1 by omega]
      rw [Nat.add_mul, Nat.one_mul]
    omega

/-- The stored width -1: 4294967295 pixels of one byte, and no memory. -/
example : (2 ^ 31 ≤ 4294967295 ∧ 4294967295 < 2 ^ 32 ∧ 1 * (2 ^ 32 - 4294967295) ≤ 2 ^ 31 ∧ 2 ^ 32 - 6 ≤ 4294967295) ∧
    (Sized.create (fun _ => 0) 1 4294967295 10 0).map (fun bm => (bm.w, bm.stride, bm.buf.size)) = some (4294967295, 0, 0) := by
  constructor
  · omega
  · decide +kernel

/-- **C95 (every sub-block of ordinary size).** If a line of the sub-block has less than 2 GiB (and so has a line of the image in JPEG-XR data, and packed zstd data have less than
4 GiB), then with the integers of the machine exactly the bitmap is created, exactly the exception thrown, that would be with unlimited integers. Partial: the other sizes, see the
violations below. -/
theorem C95_exact_partial (lib : Lib) (zstd : Codec) (enc : Fl → Nat → UInt8) (fresh fresh2 : Nat → UInt8) (mode : CompressionMode) (d : List UInt8)
    (pt : PixelType) (w h : Nat) (options : Option Options) (hs : SmallSize pt w h)
    (hj : mode = .JpgXr → ∀ f w' h', lib.header d = some (f, w', h') → SmallSize (typeOf f) w' h')
    (hz : mode = .Zstd1 → ∀ k n, parseHeader d = some (k, true) → zstd.contentSize (d.drop k) = some n → n < 2 ^ 32) :
    Sized.createBitmap lib zstd enc fresh fresh2 mode d pt w h options = createBitmap lib zstd enc fresh fresh2 mode d pt w h options := by
  unfold Sized.createBitmap createBitmap
  cases mode with
  | JpgXr => exact Sized.createJxr_eq lib enc fresh fresh2 d pt w h _ hs (hj rfl)
  | Zstd0 => dsimp only; rw [Sized.decode0_eq zstd fresh d pt w h _ hs]; generalize ofRes _ = r; cases r <;> rfl
  | Zstd1 => dsimp only; rw [Sized.decode1_eq zstd fresh d pt w h _ hs (hz rfl)]; generalize ofRes _ = r; cases r <;> rfl
  | UnCompressed => dsimp only; rw [Sized.uncompressed_eq fresh d pt w h _ hs]; generalize ofRes _ = r; cases r <;> rfl
  | Invalid => rfl
  | Jpg => rfl

/-- Sizes as they occur in files: a tile of 2048 x 2048 pixels of type Bgr48. -/
example : SmallSize .Bgr48 2048 2048 := ⟨by decide, fun bpp h => by cases h; decide⟩

/-- **C95 (sub-blocks of ordinary size: memory).** Such a sub-block's bitmap, whatever the compression mode, data and options, has the declared pixel type and size, and all its
pixels are in its memory. With uncompressed and zstd0 data there is always a bitmap or an exception, never undefined behaviour, whatever the data. -/
theorem C95_memory_partial (lib : Lib) (zstd : Codec) (enc : Fl → Nat → UInt8) (fresh fresh2 : Nat → UInt8) (mode : CompressionMode) (d : List UInt8)
    (pt : PixelType) (w h : Nat) (options : Option Options) (hs : SmallSize pt w h)
    (hj : mode = .JpgXr → ∀ f w' h', lib.header d = some (f, w', h') → SmallSize (typeOf f) w' h')
    (hz : mode = .Zstd1 → ∀ k n, parseHeader d = some (k, true) → zstd.contentSize (d.drop k) = some n → n < 2 ^ 32) :
    (∀ t, Sized.createBitmap lib zstd enc fresh fresh2 mode d pt w h options = .ok t →
      t.pt = pt ∧ t.bm.w = w ∧ t.bm.h = h ∧ ∃ bpp, bytesPerPel pt = some bpp ∧ LinesApart t.bm bpp ∧ PixelsInMemory t.bm bpp) ∧
    (mode = .UnCompressed ∨ mode = .Zstd0 →
      Sized.createBitmap lib zstd enc fresh fresh2 mode d pt w h options = .throws ∨
      ∃ t, Sized.createBitmap lib zstd enc fresh fresh2 mode d pt w h options = .ok t) := by
  have he := C95_exact_partial lib zstd enc fresh fresh2 mode d pt w h options hs hj hz
  rw [he]
  constructor
  · intro t ht
    obtain ⟨h1, h2, h3, bpp, h4, h5⟩ := C80_declared lib zstd enc fresh fresh2 mode d pt w h options t ht
    exact ⟨h1, h2, h3, bpp, h4, h5.1, Sized.pixels_of_wf h5⟩
  · rintro (rfl | rfl)
    · unfold createBitmap
      dsimp only
      cases hb : bytesPerPel pt with
      | none => unfold uncompressed; rw [hb]; exact .inl rfl
      | some bpp =>
        generalize (options.getD ⟨true, true, true⟩).uncompressed = on
        cases on with
        | true =>
          obtain ⟨bm, e, -⟩ := C38_uncompressed_mismatch fresh d pt bpp w h hb
          rw [e]
          exact .inr ⟨_, rfl⟩
        | false =>
          obtain ⟨e1, e2⟩ := C38_uncompressed_exact_partial fresh d pt bpp w h hb
          rcases Nat.lt_trichotomy d.length (h * (w * bpp)) with hlt | heq | hgt
          · rw [e1 hlt]; exact .inl rfl
          · obtain ⟨bm, e, -⟩ := e2 heq
            rw [e]; exact .inr ⟨_, rfl⟩
          · obtain ⟨bm, e⟩ := C38_uncompressed_too_large_accepted fresh d pt bpp w h hb hgt
            rw [e]; exact .inr ⟨_, rfl⟩
    · unfold createBitmap
      dsimp only
      cases hr : decode0 zstd fresh d pt w h (options.getD ⟨true, true, true⟩).zstd with
      | none => exact absurd hr (Sized.decode0_defined zstd fresh d pt w h _)
      | some r =>
        cases r with
        | error e => exact .inl rfl
        | ok b => exact .inr ⟨_, rfl⟩

/-- **C95 violated: zstd data that write outside of memory.** For every pixel type of more than one byte per pixel and every size such that a line has 4 GiB or more, a sub-block with
any data that zstd can decode writes beyond the end of the bitmap's memory (by at least 4 GiB), with size-mismatch handling (the default) and, if the payload has the declared
size, also without: the stride is truncated to 32 bits, the memory has the size for the truncated stride, the data are written for the whole one. -/
theorem C95_zstd_violated (lib : Lib) (zstd : Codec) (enc : Fl → Nat → UInt8) (fresh fresh2 : Nat → UInt8) (d l : List UInt8)
    (pt : PixelType) (bpp w h : Nat) (options : Option Options) (hbpp : bytesPerPel pt = some bpp) (hw : w < 2 ^ 32) (h1 : 2 ^ 32 ≤ w * bpp) (hh : 0 < h)
    (hsz : h * (w * bpp) < 2 ^ 64) (hs : zstd.contentSize d = some l.length) (hd : zstd.decompress d = some l)
    (ho : (∀ o, options = some o → o.zstd = true) ∨ l.length = h * (w * bpp)) :
    Sized.createBitmap lib zstd enc fresh fresh2 .Zstd0 d pt w h options = .undefined := by
  have hb := (Sized.bytesPerPel_pos hbpp).1
  unfold Sized.createBitmap
  dsimp only
  have : Sized.decode0 zstd fresh d pt w h (options.getD ⟨true, true, true⟩).zstd = none := by
    unfold Sized.decode0
    rw [hbpp]
    dsimp only
    cases hon : (options.getD ⟨true, true, true⟩).zstd with
    | true => rw [if_pos rfl]; exact Sized.decodeMismatch_wide hs hd fresh hb hw h1 hh hsz
    | false =>
      rw [if_neg (by simp)]
      rcases ho with ho | ho
      · exfalso
        cases options with
        | none => cases hon
        | some o => exact absurd (ho o rfl) (by change o.zstd = false at hon; rw [hon]; simp)
      · exact Sized.decodeExact_wide hs hd fresh hb hw h1 hh hsz ho
  rw [this]
  rfl

/-- A Gray16 sub-block with one line of 2147483656 pixels: the memory has 16 bytes. An empty payload suffices. -/
example : bytesPerPel .Gray16 = some 2 ∧ 2147483656 < 2 ^ 32 ∧ 2 ^ 32 ≤ 2147483656 * 2 ∧ 1 * (2147483656 * 2) < 2 ^ 64 ∧
    (Sized.create (fun _ => 0) 2 2147483656 1 (2147483656 * 2)).map (fun bm => bm.buf.size) = some 16 := by decide +kernel

/-- **C95 violated: bitmaps of uncompressed data with pixels outside of memory.** If a line has 4 GiB or more, its length is truncated to 32 bits also when it is checked whether the
sub-block has enough data: a bitmap of the declared size is returned, with and without size-mismatch handling, whose pixels are not in memory. -/
theorem C95_uncompressed_violated (lib : Lib) (zstd : Codec) (enc : Fl → Nat → UInt8) (fresh fresh2 : Nat → UInt8) (d : List UInt8)
    (pt : PixelType) (bpp w h : Nat) (options : Option Options) (hbpp : bytesPerPel pt = some bpp) (h1 : 2 ^ 32 ≤ w * bpp) (hh : 0 < h)
    (hd : h * (w * bpp % 2 ^ 32) ≤ d.length) :
    ∃ t, Sized.createBitmap lib zstd enc fresh fresh2 .UnCompressed d pt w h options = .ok t ∧ t.pt = pt ∧ t.bm.w = w ∧ t.bm.h = h ∧
      ¬ LinesApart t.bm bpp ∧ ¬ PixelsInMemory t.bm bpp := by
  have hb := (Sized.bytesPerPel_pos hbpp).1
  refine ⟨⟨pt, ⟨w, h, w * bpp % 2 ^ 32, ⟨w * bpp % 2 ^ 32 * h, (Buf.ofList d).get⟩⟩⟩, ?_, rfl, rfl, rfl, ?_, ?_⟩
  · unfold Sized.createBitmap Sized.uncompressed
    rw [hbpp]
    dsimp only
    rw [if_pos (by rw [Nat.mul_comm]; exact hd)]
    rfl
  · unfold LinesApart
    dsimp only
    omega
  · intro hp
    have hw : 0 < w := by
      rcases Nat.eq_zero_or_pos w with h0 | h0
      · subst h0; omega
      · exact h0
    have := hp (w - 1) (h - 1) (bpp - 1) (by dsimp only; omega) (by dsimp only; omega) (by omega)
    dsimp only at this
    have e2 : (w - 1) * bpp + bpp = w * bpp := by
      conv_rhs => rw [show w = (w - 1) + 1 by omega]
      rw [Nat.add_mul, Nat.one_mul]
    have e3 : w * bpp % 2 ^ 32 * h = (h - 1) * (w * bpp % 2 ^ 32) + w * bpp % 2 ^ 32 := by
      rw [Nat.mul_comm]
      conv_lhs => rw [show h = (h - 1) + 1 by omega]
      rw [Nat.add_mul, Nat.one_mul]
    omega

/-- 16 bytes of data are enough for a line of 2147483656 pixels of two bytes. -/
example : 2 ^ 32 ≤ 2147483656 * 2 ∧ 1 * (2147483656 * 2 % 2 ^ 32) ≤ (List.replicate 16 (0 : UInt8)).length := by decide +kernel

/-- **C95 violated: uncompressed data that write outside of memory.** A Gray8 sub-block of stored width -1 to -6, with too few data, and size-mismatch handling (the default): the
bitmap has no memory, and the data and zeros are written into it. -/
theorem C95_uncompressed_write_violated (lib : Lib) (zstd : Codec) (enc : Fl → Nat → UInt8) (fresh fresh2 : Nat → UInt8) (d : List UInt8)
    (w h : Nat) (options : Option Options) (ho : ∀ o, options = some o → o.uncompressed = true) (hw : 2 ^ 32 - 6 ≤ w) (hw2 : w < 2 ^ 32) (hh : 0 < h)
    (hd : d.length < h * w) :
    Sized.createBitmap lib zstd enc fresh fresh2 .UnCompressed d .Gray8 w h options = .undefined := by
  have hon : (options.getD ⟨true, true, true⟩).uncompressed = true := by
    cases options with
    | none => rfl
    | some o => exact ho o rfl
  have hc : Sized.create fresh 1 w h 0 = some (newBitmap fresh w h 0) := by
    unfold Sized.create
    rw [if_pos (by rfl), Sized.calcPitch_wrapped (by omega) hw2 (by omega)]
    rw [show (1 * (2 ^ 32 - w) - 3) / 4 * 4 = 0 by omega]
    rfl
  have hl : Sized.copyLines d w (newBitmap fresh w h 0) = none := by
    have key : ∀ n, 0 < n → ∀ s : Buf × Nat, s.1.size = 0 → loop n (fun y (s : Buf × Nat) =>
        if s.2 > 0 then
          let n := min s.2 w
          (s.1.memcpy (y * 0) (Buf.ofList d) (y * w) n).bind fun b =>
          if s.2 - n = 0 then (b.memset (y * 0 + n) 0 (w - n)).map fun b => (b, s.2 - n)
          else some (b, s.2 - n)
        else (s.1.memset (y * 0) 0 w).map fun b => (b, 0)) s = none := by
      intro n
      induction n with
      | zero => intro h0; omega
      | succ n ih =>
        intro _ s hs
        unfold loop
        rcases Nat.eq_zero_or_pos n with rfl | hn
        · unfold loop
          simp only [Option.bind_some]
          split
          · rename_i h2
            rw [Sized.memcpy_outside (by rw [hs]; have : 0 < min s.2 w := by omega
                                         omega)]
            rfl
          · rw [Sized.memset_outside (by omega)]
            rfl
        · rw [ih hn s hs]
          rfl
    unfold Sized.copyLines
    exact key h hh (⟨h * 0, fresh⟩, d.length) (by simp)
  unfold Sized.createBitmap
  dsimp only
  rw [hon]
  unfold Sized.uncompressed
  have hb1 : bytesPerPel .Gray8 = some 1 := rfl
  rw [hb1]
  dsimp only
  rw [Nat.mul_one, Nat.mod_eq_of_lt hw2, if_neg (by rw [Nat.mul_comm]; omega), if_neg (by simp), hc]
  dsimp only
  rw [hl]
  rfl

example : 2 ^ 32 - 6 ≤ 4294967295 ∧ ([1, 2, 3] : List UInt8).length < 10 * 4294967295 := by decide

/-- **C95 violated: JPEG-XR data.** With size-mismatch handling (the default) a sub-block whose image can be decoded (and is of ordinary size), but has another size than declared, is
undefined behaviour whenever a line of the declared width has 2 GiB or more (the default stride overflows); likewise, with or without handling, data whose own image has such lines. -/
theorem C95_jxr_violated (lib : Lib) (zstd : Codec) (enc : Fl → Nat → UInt8) (fresh fresh2 : Nat → UInt8) (d : List UInt8)
    (pt : PixelType) (bpp w h w' h' : Nat) (f : Format) (hbpp : bytesPerPel pt = some bpp) (hh : lib.header d = some (f, w', h')) :
    (∀ options px, (∀ o, options = some o → o.jxr = true) → SmallSize (typeOf f) w' h' → lib.pixels d = some px →
      w < 2 ^ 31 → 2 ^ 31 ≤ w * bpp + 3 → (w', h') ≠ (w, h) →
      Sized.createBitmap lib zstd enc fresh fresh2 .JpgXr d pt w h options = .undefined) ∧
    (∀ options, w' < 2 ^ 31 → 2 ^ 31 ≤ w' * formatBytes f + 3 → ((∀ o, options = some o → o.jxr = true) ∨ (w', h', typeOf f) = (w, h, pt)) →
      Sized.createBitmap lib zstd enc fresh fresh2 .JpgXr d pt w h options = .undefined) := by
  constructor
  · intro options px ho hsm hp hw hov hne
    have hon : (options.getD ⟨true, true, true⟩).jxr = true := by
      cases options with
      | none => rfl
      | some o => exact ho o rfl
    unfold Sized.createBitmap
    dsimp only
    rw [hon]
    unfold Sized.createJxr
    rw [if_neg (by simp)]
    rw [Sized.decodeJxr_eq lib fresh d _ (fun f2 w2 h2 hd2 _ => by rw [hh] at hd2; cases hd2; exact hsm)]
    obtain ⟨t, h1, h2, -⟩ := decode_ok fresh (e := ⟨none, none, none⟩) hh hp (meets_none f w' h')
    rw [h1]
    dsimp only
    rw [if_neg (fun hc => hne (by rw [← h2.width, ← h2.height, hc.1, hc.2.1])), hbpp]
    dsimp only
    rw [(C95_create_violated fresh2 bpp w h (by omega)).2 (.inl ⟨hw, hov⟩)]
  · intro options hw hov ho
    have hc : Sized.create fresh (formatBytes f) w' h' 0 = none := (C95_create_violated fresh (formatBytes f) w' h' (by omega)).2 (.inl ⟨hw, hov⟩)
    have key : ∀ e : Expected, e.meets f w' h' = true → Sized.decodeJxr lib fresh d e = .undefined := by
      intro e he
      unfold Sized.decodeJxr
      rw [hh]
      dsimp only
      rw [if_neg (by simp [he]), hc]
    unfold Sized.createBitmap
    dsimp only
    unfold Sized.createJxr
    cases hon : (options.getD ⟨true, true, true⟩).jxr with
    | true => rw [if_neg (by simp), key _ (meets_none f w' h')]
    | false =>
      rw [if_pos rfl]
      rcases ho with ho | ho
      · exfalso
        cases options with
        | none => cases hon
        | some o => exact absurd (ho o rfl) (by change o.jxr = false at hon; rw [hon]; simp)
      · refine key _ ((meets_iff _ _ _ _ _ _).2 ?_)
        simp only [Prod.mk.injEq] at ho
        exact ⟨ho.2.2, ho.1, ho.2.1⟩

/-- An image of one pixel in a sub-block of 2^31 - 1 pixels of one byte. -/
example : onePixel.header [7] = some (.gray8, 1, 1) ∧ SmallSize (typeOf .gray8) 1 1 ∧ (onePixel.pixels [7]).isSome ∧ 2147483647 < 2 ^ 31 ∧
    2 ^ 31 ≤ 2147483647 * 1 + 3 := ⟨rfl, ⟨by decide, fun bpp h => by cases h; decide⟩, rfl, by decide, by decide⟩

end Verif
