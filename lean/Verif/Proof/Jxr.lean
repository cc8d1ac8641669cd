import Verif.Spec.Jxr
import Verif.Proof.Fill
import Verif.Proof.Zstd
import Verif.Props.Convert

/-! # JPEG-XR bitmaps: lemmas -/

namespace Verif.Jxr
open Verif.Czi Verif.Blit Verif.Bitonal Verif.Flt Verif.Fill Verif.Zstd Verif.Spec

/-! ## Transforming pixels in place -/

/-- `f o` replaces the `bpp` bytes at offset `o` by a function of them. -/
def InPlace (bpp : Nat) (T : (Nat → UInt8) → Nat → UInt8) (f : Nat → Buf → Option Buf) : Prop :=
  (∀ s s' : Nat → UInt8, (∀ k, k < bpp → s k = s' k) → ∀ j, j < bpp → T s j = T s' j) ∧
  ∀ o b, o + bpp ≤ b.size → ∃ b', f o b = some b' ∧ b'.size = b.size ∧
    ∀ i, b'.get i = if o ≤ i ∧ i < o + bpp then T (fun k => b.get (o + k)) (i - o) else b.get i

theorem row_inPlace {bpp : Nat} {T : (Nat → UInt8) → Nat → UInt8} {f : Nat → Buf → Option Buf} (hf : InPlace bpp T f)
    (w base : Nat) (b0 : Buf) (h : base + w * bpp ≤ b0.size) :
    ∃ b, loop w (fun x b => f (base + x * bpp) b) b0 = some b ∧
      RowPost bpp w base (fun _ => true) (fun x j => T (fun k => b0.get (base + x * bpp + k)) j) b0 b := by
  obtain ⟨b, h1, h2⟩ := loop_inv
    (fun n b => RowPost bpp n base (fun _ => true) (fun x j => T (fun k => b0.get (base + x * bpp + k)) j) b0 b)
    (fun x b => f (base + x * bpp) b) w b0
    ⟨rfl, fun x j hx _ => by omega, fun i _ => rfl⟩
    (by
      intro n b hn hp
      have hn' : n * bpp + bpp ≤ w * bpp := row_lt hn
      obtain ⟨b', e1, e2, e3⟩ := hf.2 (base + n * bpp) b (by rw [hp.size]; omega)
      have hold : ∀ k, k < bpp → b.get (base + n * bpp + k) = b0.get (base + n * bpp + k) := by
        intro k hk
        refine hp.outside _ fun x j hx hj hc => ?_
        have : x * bpp + bpp ≤ n * bpp := row_lt hx
        omega
      refine ⟨b', e1, by rw [e2, hp.size], ?_, ?_⟩
      · intro x j hx hj
        rw [e3]
        by_cases hxn : x = n
        · subst hxn
          rw [if_pos ⟨by omega, by omega⟩, if_pos rfl, show base + x * bpp + j - (base + x * bpp) = j by omega]
          exact hf.1 _ _ hold j hj
        · have hx' : x * bpp + bpp ≤ n * bpp := row_lt (by omega)
          rw [if_neg (by omega)]
          exact hp.inside x j (by omega) hj
      · intro i hi
        rw [e3, if_neg]
        · exact hp.outside i fun x j hx hj => hi x j (by omega) hj
        · rintro ⟨h3, h4⟩
          exact hi n (i - (base + n * bpp)) (by omega) (by omega) (by omega))
  exact ⟨b, h1, h2⟩

theorem block_inPlace {bpp : Nat} {T : (Nat → UInt8) → Nat → UInt8} {f : Nat → Buf → Option Buf} (hf : InPlace bpp T f)
    (bm : Bitmap) (hwf : bm.WF bpp) :
    ∃ b, loop bm.h (fun y b => loop bm.w (fun x b => f (y * bm.stride + x * bpp) b) b) bm.buf = some b ∧
      BlockPost bpp bm.w bm.h 0 bm.stride (fun _ _ => true) (fun x y j => T (fun k => bm.byteAt bpp x y k) j) bm.buf b := by
  obtain ⟨b, h1, h2⟩ := loop_inv
    (fun n b => BlockPost bpp bm.w n 0 bm.stride (fun _ _ => true) (fun x y j => T (fun k => bm.byteAt bpp x y k) j) bm.buf b)
    (fun y b => loop bm.w (fun x b => f (y * bm.stride + x * bpp) b) b) bm.h bm.buf
    ⟨rfl, fun x y j _ hy _ => by omega, fun i _ => rfl⟩
    (by
      intro n b hn hp
      have hfit := row_fits hwf hn
      obtain ⟨b', e1, e2⟩ := row_inPlace hf bm.w (n * bm.stride) b (by rw [hp.size]; exact hfit)
      have hws := hwf.1
      have hold : ∀ r, r < bm.w * bpp → b.get (n * bm.stride + r) = bm.buf.get (n * bm.stride + r) := by
        intro r hr
        refine hp.outside _ fun x y j hx hy hj hc => ?_
        have : y * bm.stride + bm.stride ≤ n * bm.stride := row_lt hy
        have : x * bpp + j < bm.w * bpp := col_bound hx hj
        omega
      refine ⟨b', e1, by rw [e2.size, hp.size], ?_, ?_⟩
      · intro x y j hx hy hj
        have hxj : x * bpp + j < bm.w * bpp := col_bound hx hj
        by_cases hyn : y = n
        · subst hyn
          have := e2.inside x j hx hj
          rw [if_pos rfl] at this ⊢
          rw [show 0 + y * bm.stride + x * bpp + j = y * bm.stride + x * bpp + j by omega, this]
          refine hf.1 _ _ (fun k hk => ?_) j hj
          have hxk : x * bpp + k < bm.w * bpp := col_bound hx hk
          have := hold (x * bpp + k) hxk
          rw [show y * bm.stride + x * bpp + k = y * bm.stride + (x * bpp + k) by omega, this]
          unfold Bitmap.byteAt
          rw [show y * bm.stride + x * bpp + k = y * bm.stride + (x * bpp + k) by omega]
        · have hyn' : y * bm.stride + bm.stride ≤ n * bm.stride := row_lt (by omega)
          rw [e2.outside]
          · exact hp.inside x y j hx (by omega) hj
          · intro x' j' hx' hj' hc
            omega
      · intro i hi
        rw [e2.outside]
        · exact hp.outside i fun x y j hx hy hj => hi x y j hx (by omega) hj
        · intro x j hx hj hc
          exact hi x n j hx (by omega) hj (by omega))
  exact ⟨b, h1, h2⟩

/-- Where the byte `j` of a 48-bit pixel comes from when its first and last channels are exchanged. -/
def partner (j : Nat) : Nat := if j < 2 then j + 4 else if j < 4 then j else j - 4

theorem partner_lt {j : Nat} (hj : j < 6) : partner j < 6 := by
  unfold partner
  repeat' split
  all_goals omega

theorem swap_inPlace : InPlace 6 (fun s j => s (partner j)) swapPixel := by
  refine ⟨fun s s' h j hj => h _ (partner_lt hj), ?_⟩
  intro o b ho
  have r0 : b.read o = some (b.get o) := by unfold Buf.read; rw [if_pos (by omega)]
  have r1 : b.read (o + 1) = some (b.get (o + 1)) := by unfold Buf.read; rw [if_pos (by omega)]
  have r4 : b.read (o + 4) = some (b.get (o + 4)) := by unfold Buf.read; rw [if_pos (by omega)]
  have r5 : b.read (o + 5) = some (b.get (o + 5)) := by unfold Buf.read; rw [if_pos (by omega)]
  unfold swapPixel
  rw [r0, r1, r4, r5]
  simp only [Option.bind_eq_bind, Option.bind_some, Buf.write, show o < b.size by omega, show o + 1 < b.size by omega,
    show o + 4 < b.size by omega, show o + 5 < b.size by omega, if_true]
  refine ⟨_, rfl, rfl, fun i => ?_⟩
  dsimp only
  by_cases hi : o ≤ i ∧ i < o + 6
  · rw [if_pos hi]
    obtain ⟨k, rfl⟩ : ∃ k, i = o + k := ⟨i - o, by omega⟩
    have hk : k < 6 := by omega
    rw [show o + k - o = k by omega]
    unfold partner
    have : k = 0 ∨ k = 1 ∨ k = 2 ∨ k = 3 ∨ k = 4 ∨ k = 5 := by omega
    rcases this with rfl | rfl | rfl | rfl | rfl | rfl <;> simp
  · rw [if_neg hi, if_neg (by omega), if_neg (by omega), if_neg (by omega), if_neg (by omega)]

theorem swapChannels_post (bm : Bitmap) (hwf : bm.WF 6) :
    ∃ b, swapChannels bm = some b ∧
      BlockPost 6 bm.w bm.h 0 bm.stride (fun _ _ => true) (fun x y j => bm.byteAt 6 x y (partner j)) bm.buf b :=
  block_inPlace swap_inPlace bm hwf

/-! ## The decoder -/

theorem writePixels_post (bpp : Nat) (px : Nat → Nat → Nat → UInt8) (bm : Bitmap) (hwf : bm.WF bpp) :
    ∃ b, writePixels bpp px bm = some b ∧
      BlockPost bpp bm.w bm.h 0 bm.stride (fun _ _ => true) (fun x y j => px x y j) bm.buf b := by
  unfold writePixels
  refine blockLoop_post bpp bm.w bm.h 0 bm.stride (fun _ _ => true) (fun x y j => px x y j) bm.buf _ hwf.1 ?_
  intro y b hy hb
  have hfit := row_fits hwf hy
  refine rowLoop_post bpp bm.w (0 + y * bm.stride) (fun _ => true) (fun x j => px x y j) b _ ?_
  intro x b' hx hb'
  have hx' : x * bpp + bpp ≤ bm.w * bpp := row_lt hx
  obtain ⟨b'', e1, e2, e3⟩ := pixel_post bpp (y * bm.stride + x * bpp) (fun j => px x y j) b' (by rw [hb', hb]; omega)
  refine ⟨b'', e1, e2, fun i => ?_⟩
  rw [e3]
  simp only [true_and, Nat.zero_add]

theorem newBitmap_wf (fresh : Nat → UInt8) (bpp w h : Nat) : (newBitmap fresh w h (defaultPitch bpp w)).WF bpp := by
  have hp := defaultPitch_ge bpp w
  refine ⟨hp, fun h0 => ?_⟩
  show (h - 1) * defaultPitch bpp w + w * bpp ≤ h * defaultPitch bpp w
  have : (h - 1) * defaultPitch bpp w + defaultPitch bpp w ≤ h * defaultPitch bpp w := row_lt (by change 0 < h at h0; omega)
  omega

theorem pixelBytes_typeOf (f : Format) : pixelBytes (typeOf f) = formatBytes f := by cases f <;> rfl

theorem formatBytes_pos (f : Format) : 0 < formatBytes f := by cases f <;> decide

theorem typeOf_bgr48 (f : Format) : typeOf f = .Bgr48 ↔ f = .bgr48 := by cases f <;> decide

theorem typeOf_inj {f g : Format} (h : typeOf f = typeOf g) : f = g := by cases f <;> cases g <;> first | rfl | cases h

/-- The memory of a decoded bitmap: rows aligned to four bytes. -/
def Allocated (t : Typed) : Prop :=
  t.bm.stride = defaultPitch (pixelBytes t.pt) t.bm.w ∧ t.bm.buf.size = t.bm.h * t.bm.stride

theorem decode_ok {lib : Lib} {d : List UInt8} {f : Format} {w h : Nat} {px : Nat → Nat → Nat → UInt8} (fresh : Nat → UInt8) {e : Expected}
    (hh : lib.header d = some (f, w, h)) (hp : lib.pixels d = some px) (he : e.meets f w h = true) :
    ∃ t, decode lib fresh d e = .ok t ∧ ShowsImage t (typeOf f) w h (inBitmapOrder (typeOf f) px) ∧ Allocated t := by
  have hwf := newBitmap_wf fresh (formatBytes f) w h
  obtain ⟨b, hb, post⟩ := writePixels_post (formatBytes f) px _ hwf
  have hb' : (⟨w, h, defaultPitch (formatBytes f) w, b⟩ : Bitmap).WF (formatBytes f) :=
    ⟨hwf.1, fun h0 => by rw [post.size]; exact hwf.2 h0⟩
  have hval : ∀ x y j, x < w → y < h → j < formatBytes f →
      (⟨w, h, defaultPitch (formatBytes f) w, b⟩ : Bitmap).byteAt (formatBytes f) x y j = px x y j := by
    intro x y j hx hy hj
    have := post.inside x y j hx hy hj
    rw [if_pos rfl, show ∀ a : Nat, 0 + a = a from fun a => Nat.zero_add a] at this
    exact this
  unfold decode
  rw [hh]
  dsimp only
  rw [if_neg (by rw [he]; decide), hp]
  dsimp only
  rw [hb]
  dsimp only
  by_cases hf : f = .bgr48
  · subst hf
    rw [if_pos rfl]
    obtain ⟨b2, hb2, post2⟩ := swapChannels_post ⟨w, h, defaultPitch 6 w, b⟩ hb'
    refine ⟨⟨.Bgr48, ⟨w, h, defaultPitch 6 w, b2⟩⟩, ?_, ⟨rfl, rfl, rfl, ⟨hwf.1, fun h0 => ?_⟩, ?_⟩, rfl, ?_⟩
    · change (match swapChannels ⟨w, h, defaultPitch 6 w, b⟩ with | none => _ | some b => _) = _
      rw [hb2]
      rfl
    · show _ ≤ b2.size
      rw [post2.size]; exact hb'.2 h0
    · intro x y j hx hy hj
      have := post2.inside x y j hx hy hj
      rw [if_pos rfl, show ∀ a : Nat, 0 + a = a from fun a => Nat.zero_add a] at this
      refine Eq.trans this ?_
      exact hval x y (partner j) hx hy (partner_lt hj)
    · show b2.size = _
      rw [post2.size]
      exact post.size
  · rw [if_neg hf]
    refine ⟨_, rfl, ⟨rfl, rfl, rfl, ?_, ?_⟩, ?_, ?_⟩
    · rw [pixelBytes_typeOf]; exact hb'
    · intro x y j hx hy hj
      rw [pixelBytes_typeOf] at hj ⊢
      unfold inBitmapOrder
      rw [if_neg (fun hc => hf ((typeOf_bgr48 f).1 hc))]
      exact hval x y j hx hy hj
    · show defaultPitch (formatBytes f) w = _
      rw [← pixelBytes_typeOf]
      rfl
    · exact post.size

theorem decode_no_header {lib : Lib} {d : List UInt8} (fresh : Nat → UInt8) (e : Expected) (hh : lib.header d = none) :
    decode lib fresh d e = .throws := by
  unfold decode; rw [hh]

theorem decode_mismatch {lib : Lib} {d : List UInt8} {f : Format} {w h : Nat} (fresh : Nat → UInt8) {e : Expected}
    (hh : lib.header d = some (f, w, h)) (he : e.meets f w h = false) : decode lib fresh d e = .throws := by
  unfold decode; rw [hh]; dsimp only; rw [if_pos he]

theorem decode_no_pixels {lib : Lib} {d : List UInt8} (fresh : Nat → UInt8) (e : Expected) (hp : lib.pixels d = none) :
    decode lib fresh d e = .throws := by
  unfold decode
  cases hh : lib.header d with
  | none => rfl
  | some v =>
    obtain ⟨f, w, h⟩ := v
    dsimp only
    by_cases he : e.meets f w h = false
    · rw [if_pos he]
    · rw [if_neg he, hp]; rfl

theorem meets_iff (pt : PixelType) (w h : Nat) (f : Format) (w' h' : Nat) :
    (⟨some pt, some w, some h⟩ : Expected).meets f w' h' = true ↔ typeOf f = pt ∧ w' = w ∧ h' = h := by
  unfold Expected.meets
  simp only [Bool.and_eq_true, decide_eq_true_eq, and_assoc]

theorem meets_none (f : Format) (w h : Nat) : (⟨none, none, none⟩ : Expected).meets f w h = true := rfl

/-! ## Adjusting a bitmap -/

theorem f32_zero : f32 0 = 0 := by have := f32_nat 0 (by omega); simpa using this

theorem sum_zero : (⟨.num 0, .num 0, .num 0⟩ : Colour).sum = .num 0 := by
  have h0 : Fl.ofRat 0 = .num 0 := by rw [ofRat_small (n := 0) (by omega) (by norm_num)]; rw [f32_zero]
  simp only [Colour.sum, Fl.add, add_zero, h0]

theorem scale_zero (k : ℚ) : (Fl.num 0).scale k = .num 0 := by
  have h0 : Fl.ofRat 0 = .num 0 := by rw [ofRat_small (n := 0) (by omega) (by norm_num)]; rw [f32_zero]
  simp only [Fl.scale, mul_zero, h0]

theorem channelValue_zero {top : Nat} (ht : 0 < top) (h16 : top ≤ 65535) : channelValue top (.num 0) = some 0 := by
  have := channelValue_exact ht h16 (k := 0) (by omega)
  simpa [f32_zero] using this

theorem greyValue_zero {top : Nat} (ht : 0 < top) (h16 : top ≤ 65535) : greyValue top ⟨.num 0, .num 0, .num 0⟩ = some 0 := by
  have := greyValue_exact ht h16 (k := 0) (by omega)
  simpa [f32_zero] using this

theorem black_bytes (enc : Fl → Nat → UInt8) {pt : PixelType} (hpt : pixelBytes pt ≠ 0) :
    ∃ px, pixelBytesOf enc pt ⟨.num 0, .num 0, .num 0⟩ = .ok px ∧ ∀ j, j < pixelBytes pt → px j = blackPixel enc pt j := by
  have c8 := channelValue_zero (top := 255) (by omega) (by omega)
  have c16 := channelValue_zero (top := 65535) (by omega) (by omega)
  have g8 := greyValue_zero (top := 255) (by omega) (by omega)
  have g16 := greyValue_zero (top := 65535) (by omega) (by omega)
  cases pt <;> first | exact absurd rfl hpt | skip
  · refine ⟨fun _ => UInt8.ofNat 0, by simp only [pixelBytesOf, g8]; rfl, fun j _ => rfl⟩
  · refine ⟨fun j => byte16 0 j, by simp only [pixelBytesOf, g16]; rfl, fun j hj => ?_⟩
    change j < 2 at hj
    have : j = 0 ∨ j = 1 := by omega
    rcases this with rfl | rfl <;> simp [blackPixel, byte16]
  · refine ⟨enc (.num 0), by simp only [pixelBytesOf, sum_zero, scale_zero], fun j _ => rfl⟩
  · refine ⟨fun j => UInt8.ofNat (if j = 0 then 0 else if j = 1 then 0 else 0), by simp only [pixelBytesOf, c8]; rfl, fun j hj => ?_⟩
    simp [blackPixel]
  · refine ⟨fun j => byte16 (if j / 2 = 0 then 0 else if j / 2 = 1 then 0 else 0) (j % 2), by simp only [pixelBytesOf, c16]; rfl, fun j hj => ?_⟩
    have : j % 2 = 0 ∨ j % 2 = 1 := by omega
    rcases this with h | h <;> simp [blackPixel, h, byte16]
  · refine ⟨fun j => UInt8.ofNat (if j = 0 then 0 else if j = 1 then 0 else if j = 2 then 0 else 255), by simp only [pixelBytesOf, c8]; rfl, fun j hj => ?_⟩
    change j < 4 at hj
    have : j = 0 ∨ j = 1 ∨ j = 2 ∨ j = 3 := by omega
    rcases this with rfl | rfl | rfl | rfl <;> simp [blackPixel]

theorem fillBytes_eq (pt : PixelType) : fillBytes pt = pixelBytes pt := by cases pt <;> rfl

theorem bytesPerPel_eq {pt : PixelType} (h : pixelBytes pt ≠ 0) : bytesPerPel pt = some (pixelBytes pt) := by
  cases pt <;> first | rfl | exact absurd rfl h

/-- The bitmap that is created for the declared type and size. -/
theorem black_bitmap (enc : Fl → Nat → UInt8) {pt : PixelType} (hpt : pixelBytes pt ≠ 0) (fresh : Nat → UInt8) (w h : Nat) :
    ∃ out, fill enc pt (newBitmap fresh w h (defaultPitch (pixelBytes pt) w)) ⟨.num 0, .num 0, .num 0⟩ = .ok out ∧
      ShowsImage ⟨pt, out⟩ pt w h (fun _ _ j => blackPixel enc pt j) := by
  obtain ⟨px, h1, h2⟩ := black_bytes enc hpt
  have hwf := newBitmap_wf fresh (pixelBytes pt) w h
  obtain ⟨out, e1, e2⟩ := fill_of_bytes (by rw [fillBytes_eq]; exact hwf) h1
  rw [fillBytes_eq] at e2
  have hs := e2.shape
  refine ⟨out, e1, rfl, hs.w, hs.h, ⟨?_, fun h0 => ?_⟩, fun x y j hx hy hj => ?_⟩
  · dsimp only; rw [hs.w, hs.stride]; exact hwf.1
  · dsimp only at h0 ⊢
    rw [hs.w, hs.h, hs.stride, hs.size]; rw [hs.h] at h0; exact hwf.2 h0
  · exact (e2.bytes x y j hx hy hj).trans (h2 j hj)

/-- Copying a bitmap over another one at the origin. -/
theorem copy_kind {enc : ℚ → Nat → UInt8} {ps pd : PixelType} {k : Kind} (hk : kindOf enc ps pd = some k) (hn : k.NoOverread)
    (src dst : Bitmap) (hsrc : src.WF k.sb) (hdst : dst.WF k.db) :
    ∃ out, copyAt enc ps pd src dst none 0 0 = .ok out ∧ out.w = dst.w ∧ out.h = dst.h ∧ out.stride = dst.stride ∧
      out.buf.size = dst.buf.size ∧ ∀ x y j, x < dst.w → y < dst.h → j < k.db →
        out.byteAt k.db x y j = if x < src.w ∧ y < src.h then k.value (src.byteAt k.sb x y) j else dst.byteAt k.db x y j := by
  obtain ⟨out, h1, h2⟩ := compose_ok k dst ⟨0, 0, src, none⟩ 0 0 hdst hsrc hn
  have h1' : copyWithOffsetAndMask k src dst none 0 0 = some out := by simpa [composeMaskAware] using h1
  refine ⟨out, by rw [copyAt_kind hk, h1']; rfl, h2.w, h2.h, h2.stride, h2.size, fun x y j hx hy hj => ?_⟩
  rw [h2.inside x y j hx hy hj]
  by_cases hin : x < src.w ∧ y < src.h
  · rw [if_pos hin, if_pos]
    · simp only [Tile.colour, Int.zero_add, Int.sub_zero, Int.toNat_natCast]
    · simp only [Tile.paints, Int.zero_add, Bool.and_true, decide_eq_true_eq]; omega
  · rw [if_neg hin, if_neg]
    simp only [Tile.paints, Int.zero_add, Bool.and_true, decide_eq_true_eq]; omega

/-! ## Bitmaps of sub-blocks -/

theorem create_no_data {lib : Lib} {d : List UInt8} (enc : Fl → Nat → UInt8) (fresh fresh2 : Nat → UInt8) (pt : PixelType) (w h : Nat) (on : Bool)
    (hd : lib.header d = none ∨ lib.pixels d = none) : createJxr lib enc fresh fresh2 d pt w h on = .throws := by
  have hall : ∀ e, decode lib fresh d e = .throws := fun e => by
    rcases hd with h | h
    · exact decode_no_header fresh e h
    · exact decode_no_pixels fresh e h
  unfold createJxr
  cases on with
  | false => rw [if_pos rfl, hall]
  | true => rw [if_neg (by decide), hall]

/-- With size-mismatch handling: the steps after decoding. -/
theorem create_lenient {lib : Lib} {d : List UInt8} {f : Format} {w' h' : Nat} {px : Nat → Nat → Nat → UInt8} (enc : Fl → Nat → UInt8)
    (fresh fresh2 : Nat → UInt8) (pt : PixelType) (w h : Nat) (hh : lib.header d = some (f, w', h')) (hp : lib.pixels d = some px) :
    ∃ t, ShowsImage t (typeOf f) w' h' (inBitmapOrder (typeOf f) px) ∧ Allocated t ∧
      createJxr lib enc fresh fresh2 d pt w h true =
        if w' = w ∧ h' = h ∧ typeOf f = pt then .ok t
        else match bytesPerPel pt with
          | none => .throws
          | some bpp =>
            match fill enc pt (newBitmap fresh2 w h (defaultPitch bpp w)) ⟨.num 0, .num 0, .num 0⟩ with
            | .throws => .throws
            | .undefined => .undefined
            | .ok adjusted =>
              match copyAt (fun q => enc (.num q)) (typeOf f) pt t.bm adjusted none 0 0 with
              | .undefined => .undefined
              | .throws => .aborts
              | .ok b => .ok ⟨pt, b⟩ := by
  obtain ⟨t, h1, h2, h3⟩ := decode_ok fresh hh hp (meets_none f w' h')
  refine ⟨t, h2, h3, ?_⟩
  unfold createJxr
  rw [if_neg (by decide), h1]
  dsimp only
  rw [h2.width, h2.height, h2.typ]
  rfl

/-- With size-mismatch handling, if type or size differ and there is a conversion. -/
theorem create_adjusted {lib : Lib} {d : List UInt8} {f : Format} {w' h' : Nat} {px : Nat → Nat → Nat → UInt8} (enc : Fl → Nat → UInt8)
    (fresh fresh2 : Nat → UInt8) (pt : PixelType) (w h : Nat) (hh : lib.header d = some (f, w', h')) (hp : lib.pixels d = some px)
    (hne : ¬ (w' = w ∧ h' = h ∧ typeOf f = pt)) (hpt : pixelBytes pt ≠ 0) {k : Kind}
    (hk : kindOf (fun q => enc (.num q)) (typeOf f) pt = some k) (hn : k.NoOverread) (hsb : k.sb = pixelBytes (typeOf f))
    (hdb : k.db = pixelBytes pt) :
    ∃ t0 t, createJxr lib enc fresh fresh2 d pt w h true = .ok t ∧
      ShowsImage t0 (typeOf f) w' h' (inBitmapOrder (typeOf f) px) ∧
      ShowsImage t pt w h (fun x y j =>
        if x < w' ∧ y < h' then k.value (t0.bm.byteAt (pixelBytes (typeOf f)) x y) j else blackPixel enc pt j) := by
  obtain ⟨t0, h1, -, h3⟩ := create_lenient enc fresh fresh2 pt w h hh hp
  obtain ⟨b, e1, e2⟩ := black_bitmap enc hpt fresh2 w h
  obtain ⟨out, c1, c2, c3, c4, c5, c6⟩ := copy_kind hk hn t0.bm b (by rw [hsb]; exact h1.wf) (by rw [hdb]; exact e2.wf)
  refine ⟨t0, ⟨pt, out⟩, ?_, h1, rfl, c2.trans e2.width, c3.trans e2.height, ⟨?_, fun h0 => ?_⟩, fun x y j hx hy hj => ?_⟩
  · rw [h3, if_neg hne, bytesPerPel_eq hpt]
    dsimp only
    rw [e1]
    dsimp only
    rw [c1]
  · dsimp only; rw [c2, c4]; exact e2.wf.1
  · dsimp only at h0 ⊢
    rw [c2, c3, c4, c5]; rw [c3] at h0; exact e2.wf.2 h0
  · have hw : b.w = w := e2.width
    have hh : b.h = h := e2.height
    have := c6 x y j (by omega) (by omega) (by rw [hdb]; exact hj)
    rw [hdb, hsb, h1.width, h1.height] at this
    dsimp only
    rw [this]
    split
    · rfl
    · exact e2.bytes x y j hx hy hj

/-! ## The size of buffers -/

theorem write_size {b b' : Buf} {i : Nat} {v : UInt8} (h : b.write i v = some b') : b'.size = b.size := by
  unfold Buf.write at h; split at h <;> cases h; rfl

theorem memset_size {b b' : Buf} {o n : Nat} {v : UInt8} (h : b.memset o v n = some b') : b'.size = b.size := by
  unfold Buf.memset at h; split at h <;> cases h; rfl

theorem memcpy_size {b b' s : Buf} {o so n : Nat} (h : b.memcpy o s so n = some b') : b'.size = b.size := by
  unfold Buf.memcpy at h; split at h <;> cases h; rfl

theorem loop_keeps {σ α : Type} (g : σ → α) (f : Nat → σ → Option σ) (hf : ∀ i s s', f i s = some s' → g s' = g s) :
    ∀ n s s', loop n f s = some s' → g s' = g s := by
  intro n
  induction n with
  | zero => intro s s' h; cases h; rfl
  | succ n ih =>
    intro s s' h
    simp only [loop, Option.bind_eq_some_iff] at h
    obtain ⟨m, h1, h2⟩ := h
    exact (hf _ _ _ h2).trans (ih _ _ h1)

theorem packWord_size {src dst dst' : Buf} {p half d : Nat} (h : LoHi.packWord src p half d dst = some dst') : dst'.size = dst.size := by
  unfold LoHi.packWord at h
  simp only [Option.bind_eq_bind, Option.bind_eq_some_iff] at h
  obtain ⟨_, _, _, _, m, h1, h2⟩ := h
  exact (write_size h2).trans (write_size h1)

theorem packStrided_size {src dst dst' : Buf} {n w h s : Nat} (hp : packStrided src n w h s dst = some (.ok dst')) : dst'.size = dst.size := by
  unfold packStrided at hp
  split at hp
  · cases hp
  · simp only [Option.map_eq_some_iff] at hp
    obtain ⟨b, h1, h2⟩ := hp
    cases h2
    exact loop_keeps Buf.size _ (fun y b b' hb => loop_keeps Buf.size _ (fun x b b' hb => packWord_size hb) _ _ _ hb) _ _ _ h1

/-- A bitmap of this size whose pixels lie in its memory. -/
def Geometry (bpp w h : Nat) (bm : Bitmap) : Prop := bm.w = w ∧ bm.h = h ∧ bm.WF bpp

theorem geometry_of {bpp w h s : Nat} {b : Buf} (hs : w * bpp ≤ s) (hb : b.size = h * s) : Geometry bpp w h ⟨w, h, s, b⟩ := by
  refine ⟨rfl, rfl, hs, fun h0 => ?_⟩
  change 0 < h at h0
  show (h - 1) * s + w * bpp ≤ b.size
  have : (h - 1) * s + s ≤ h * s := row_lt (by omega)
  omega

theorem decodeExact_geometry {c : Codec} {fresh : Nat → UInt8} {d : List UInt8} {bpp w h : Nat} {bm : Bitmap}
    (hr : decodeExact c fresh d bpp w h = some (.ok bm)) : Geometry bpp w h bm := by
  unfold decodeExact at hr
  dsimp only at hr
  split at hr
  · cases hr
  · split at hr
    · cases hr
    · split at hr
      · cases hr
      · simp only [Option.some.injEq, Except.ok.injEq] at hr
        subst hr
        exact geometry_of (Nat.le_refl _) rfl

theorem decodeMismatch_geometry {c : Codec} {fresh : Nat → UInt8} {d : List UInt8} {bpp w h : Nat} {bm : Bitmap}
    (hr : decodeMismatch c fresh d bpp w h = some (.ok bm)) : Geometry bpp w h bm := by
  unfold decodeMismatch at hr
  dsimp only at hr
  split at hr
  · cases hr
  · split at hr
    · split at hr
      · cases hr
      · simp only [Option.map_eq_some_iff, Except.ok.injEq] at hr
        obtain ⟨b, h1, rfl⟩ := hr
        exact geometry_of (Nat.le_refl _) (memset_size h1)
    · split at hr
      · cases hr
      · simp only [Option.map_eq_some_iff, Except.ok.injEq] at hr
        obtain ⟨b, h1, rfl⟩ := hr
        exact geometry_of (Nat.le_refl _) (memcpy_size h1)

theorem map_ok {ε α β : Type} {r : Except ε α} {f : α → β} {b : β} (h : r.map f = .ok b) : ∃ a, r = .ok a ∧ f a = b := by
  cases r with
  | error e => cases h
  | ok a => cases h; exact ⟨a, rfl, rfl⟩

theorem decodePackExact_geometry {c : Codec} {fresh : Nat → UInt8} {d : List UInt8} {bpp w h : Nat} {bm : Bitmap}
    (hr : decodePackExact c fresh d bpp w h = some (.ok bm)) : Geometry bpp w h bm := by
  unfold decodePackExact at hr
  dsimp only at hr
  split at hr
  · cases hr
  · split at hr
    · cases hr
    · split at hr
      · cases hr
      · simp only [Option.map_eq_some_iff] at hr
        obtain ⟨r, h1, h2⟩ := hr
        obtain ⟨b, rfl, rfl⟩ := map_ok h2
        exact geometry_of (defaultPitch_ge bpp w) (packStrided_size h1)

theorem decodePackMismatch_geometry {c : Codec} {fresh : Nat → UInt8} {d : List UInt8} {bpp w h : Nat} {bm : Bitmap}
    (hr : decodePackMismatch c fresh d bpp w h = some (.ok bm)) : Geometry bpp w h bm := by
  unfold decodePackMismatch at hr
  dsimp only at hr
  split at hr
  · cases hr
  · split at hr
    · cases hr
    · split at hr
      · simp only [Option.map_eq_some_iff] at hr
        obtain ⟨r, h1, h2⟩ := hr
        obtain ⟨b, rfl, rfl⟩ := map_ok h2
        exact geometry_of (defaultPitch_ge bpp w) (packStrided_size h1)
      · split at hr
        · split at hr
          · cases hr
          · cases hr
          · rename_i h1
            simp only [Option.map_eq_some_iff, Except.ok.injEq] at hr
            obtain ⟨b, h2, rfl⟩ := hr
            exact geometry_of (Nat.le_refl _) ((memset_size h2).trans (packStrided_size h1))
        · split at hr
          · cases hr
          · cases hr
          · simp only [Option.map_eq_some_iff, Except.ok.injEq] at hr
            obtain ⟨b, h2, rfl⟩ := hr
            exact geometry_of (Nat.le_refl _) (memcpy_size h2)

theorem decode0_geometry {c : Codec} {fresh : Nat → UInt8} {d : List UInt8} {pt : PixelType} {w h : Nat} {on : Bool} {bm : Bitmap}
    (hr : decode0 c fresh d pt w h on = some (.ok bm)) : ∃ bpp, bytesPerPel pt = some bpp ∧ Geometry bpp w h bm := by
  unfold decode0 at hr
  split at hr
  · cases hr
  · rename_i bpp hb
    refine ⟨bpp, hb, ?_⟩
    split at hr
    · exact decodeMismatch_geometry hr
    · exact decodeExact_geometry hr

theorem decode1_geometry {c : Codec} {fresh : Nat → UInt8} {d : List UInt8} {pt : PixelType} {w h : Nat} {on : Bool} {bm : Bitmap}
    (hr : decode1 c fresh d pt w h on = some (.ok bm)) : ∃ bpp, bytesPerPel pt = some bpp ∧ Geometry bpp w h bm := by
  unfold decode1 at hr
  split at hr
  · cases hr
  · split at hr
    · cases hr
    · split at hr
      · cases hr
      · split at hr
        · cases hr
        · split at hr
          · cases hr
          · rename_i bpp hb
            refine ⟨bpp, hb, ?_⟩
            dsimp only at hr
            split at hr
            · split at hr
              · exact decodePackMismatch_geometry hr
              · exact decodeMismatch_geometry hr
            · split at hr
              · exact decodePackExact_geometry hr
              · exact decodeExact_geometry hr

theorem uncompressed_geometry {fresh : Nat → UInt8} {d : List UInt8} {pt : PixelType} {w h : Nat} {on : Bool} {bm : Bitmap}
    (hr : uncompressed fresh d pt w h on = some (.ok bm)) : ∃ bpp, bytesPerPel pt = some bpp ∧ Geometry bpp w h bm := by
  unfold uncompressed at hr
  split at hr
  · cases hr
  · rename_i bpp hb
    refine ⟨bpp, hb, ?_⟩
    dsimp only at hr
    split at hr
    · simp only [Option.some.injEq, Except.ok.injEq] at hr
      subst hr
      exact geometry_of (Nat.le_refl _) (Nat.mul_comm _ _)
    · split at hr
      · cases hr
      · simp only [Option.map_eq_some_iff, Except.ok.injEq] at hr
        obtain ⟨s, h1, rfl⟩ := hr
        refine geometry_of (defaultPitch_ge bpp w) ?_
        refine (loop_keeps (fun s : Buf × Nat => s.1.size) _ (fun y s s' hs => ?_) _ _ _ h1).trans rfl
        split at hs
        · simp only [Option.bind_eq_some_iff] at hs
          obtain ⟨b, hb1, hs⟩ := hs
          split at hs
          · simp only [Option.map_eq_some_iff] at hs
            obtain ⟨b2, hb2, rfl⟩ := hs
            exact (memset_size hb2).trans (memcpy_size hb1)
          · cases hs
            exact memcpy_size hb1
        · simp only [Option.map_eq_some_iff] at hs
          obtain ⟨b2, hb2, rfl⟩ := hs
          exact memset_size hb2

theorem conv_size {c : Conv} {dst dst' src : Buf} {d s : Nat} (h : c.apply dst d src s = some dst') : dst'.size = dst.size := by
  unfold Conv.apply at h; split at h <;> cases h; rfl

theorem copyAt_shape {enc : ℚ → Nat → UInt8} {ps pd : PixelType} {src dst out : Bitmap} {x y : Int}
    (h : copyAt enc ps pd src dst none x y = .ok out) :
    out.w = dst.w ∧ out.h = dst.h ∧ out.stride = dst.stride ∧ out.buf.size = dst.buf.size := by
  unfold copyAt at h
  split at h
  · cases h; exact ⟨rfl, rfl, rfl, rfl⟩
  · split at h
    · cases h
    · rename_i k _
      generalize hr : copyWithOffsetAndMask k src dst none x y = r at h
      cases r with
      | none => cases h
      | some b =>
        cases h
        simp only [copyWithOffsetAndMask, copyWithOffset] at hr
        split at hr
        · cases hr; exact ⟨rfl, rfl, rfl, rfl⟩
        · simp only [Option.map_eq_some_iff] at hr
          obtain ⟨b, h1, rfl⟩ := hr
          refine ⟨rfl, rfl, rfl, ?_⟩
          cases k with
          | same bpp =>
            simp only [copySamePixelType, if_true] at h1
            exact loop_keeps Buf.size _ (fun y b b' hb => memcpy_size hb) _ _ _ h1
          | conv c =>
            exact loop_keeps Buf.size _ (fun y b b' hb => loop_keeps Buf.size _ (fun x b b' hb => conv_size hb) _ _ _ hb) _ _ _ h1

/-! ## The encoder -/

theorem copyRows_post (src : Buf) (stride w h : Nat) (bm : Bitmap) (hw : bm.w = w) (hh : bm.h = h) (hwf : bm.WF 6)
    (hsrc : (h - 1) * stride + w * 6 ≤ src.size) :
    ∃ b, copySamePixelType 6 src 0 stride bm.buf 0 bm.stride w h false = some b ∧
      BlockPost 6 w h 0 bm.stride (fun _ _ => true) (fun x y j => src.get (y * stride + x * 6 + j)) bm.buf b := by
  subst hw hh
  unfold copySamePixelType
  simp only [if_true]
  refine blockLoop_post 6 bm.w bm.h 0 bm.stride (fun _ _ => true) (fun x y j => src.get (y * stride + x * 6 + j)) bm.buf _ hwf.1 ?_
  intro y b hy hb
  have hfit := row_fits hwf hy
  have hin := row_in hy hsrc
  have := memcpy_row_post 6 bm.w (0 + y * bm.stride) src b (0 + y * stride) (by rw [hb]; omega) (by omega)
  simpa using this

theorem partner_partner {j : Nat} (hj : j < 6) : partner (partner j) = j := by
  have : j = 0 ∨ j = 1 ∨ j = 2 ∨ j = 3 ∨ j = 4 ∨ j = 5 := by omega
  rcases this with rfl | rfl | rfl | rfl | rfl | rfl <;> decide

theorem encodeJxr_call (lib : Lib) (f : Format) (w h stride : Nat) (src : Buf) (q : ℚ) (hq0 : 0 ≤ q) (hq1 : q ≤ 1) (hw : 0 < w) (hh : 0 < h)
    (hst : w * formatBytes f ≤ stride) (hsrc : (h - 1) * stride + w * formatBytes f ≤ src.size) :
    encodeJxr lib f w h stride src q =
      match lib.encode f w h q (fun x y j => src.get (y * stride + x * formatBytes f + j)) with
      | none => .throws
      | some d => .ok d := by
  unfold encodeJxr
  have hmod : w * formatBytes f % 2 ^ 32 ≤ w * formatBytes f := Nat.mod_le _ _
  rw [if_neg (by rintro (h | h) <;> linarith), if_neg (by omega), if_neg (by omega), if_neg (by omega), if_neg (by omega)]
  cases lib.encode f w h q _ <;> rfl

theorem quality_range (p : Option Nat) : 0 ≤ quality p ∧ quality p ≤ 1 := by
  cases p with
  | none => constructor <;> norm_num [quality]
  | some q =>
    refine ⟨le_max_left _ _, ?_⟩
    unfold quality
    exact max_le (by norm_num) (min_le_left _ _)

/-- What the library is given. -/
theorem compress_call (lib : Lib) (fresh : Nat → UInt8) {pt : PixelType} {f : Format} (hf : formatOf pt = some f) (w h stride : Nat) (src : Buf)
    (parameter : Option Nat) (hw : 0 < w) (hh : 0 < h) (hst : w * pixelBytes pt ≤ stride)
    (hsrc : (h - 1) * stride + w * pixelBytes pt ≤ src.size) :
    ∃ px, (∀ x y j, x < w → y < h → j < pixelBytes pt →
        px x y j = inBitmapOrder pt (fun x y j => src.get (y * stride + x * pixelBytes pt + j)) x y j) ∧
      compress lib fresh pt w h stride src parameter =
        match lib.encode f w h (quality parameter) px with
        | none => .throws
        | some d => .ok d := by
  obtain ⟨q0, q1⟩ := quality_range parameter
  have hpt : typeOf f = pt := by
    cases pt <;> cases f <;> first | rfl | cases hf
  have hb : pixelBytes pt = formatBytes f := by rw [← hpt, pixelBytes_typeOf]
  rw [hb] at hst hsrc ⊢
  unfold compress
  rw [hf]
  dsimp only
  by_cases hf48 : f = .bgr48
  · subst hf48
    rw [if_pos rfl]
    have hwf := newBitmap_wf fresh 6 w h
    obtain ⟨b, e1, e2⟩ := copyRows_post src stride w h (newBitmap fresh w h (defaultPitch 6 w)) rfl rfl hwf hsrc
    have hb' : (⟨w, h, defaultPitch 6 w, b⟩ : Bitmap).WF 6 := ⟨hwf.1, fun h0 => by rw [e2.size]; exact hwf.2 h0⟩
    obtain ⟨b2, e3, e4⟩ := swapChannels_post ⟨w, h, defaultPitch 6 w, b⟩ hb'
    have hsz : b2.size = (newBitmap fresh w h (defaultPitch 6 w)).buf.size := e4.size.trans e2.size
    refine ⟨fun x y j => b2.get (y * defaultPitch 6 w + x * 6 + j), fun x y j hx hy hj => ?_, ?_⟩
    · have h4 := e4.inside x y j hx hy hj
      have h2 := e2.inside x y (partner j) hx hy (partner_lt hj)
      rw [if_pos rfl, show ∀ a : Nat, 0 + a = a from fun a => Nat.zero_add a] at h4 h2
      refine h4.trans (h2.trans ?_)
      have : pt = .Bgr48 := hpt.symm
      unfold inBitmapOrder
      rw [if_pos this]
      rfl
    · rw [e1]
      dsimp only
      change (match swapChannels ⟨w, h, defaultPitch 6 w, b⟩ with | none => _ | some b => _) = _
      rw [e3]
      exact encodeJxr_call lib .bgr48 w h (defaultPitch 6 w) b2 _ q0 q1 hw hh hwf.1 (by rw [hsz]; exact hwf.2 hh)
  · rw [if_neg hf48]
    refine ⟨_, fun x y j hx hy hj => ?_, encodeJxr_call lib f w h stride src _ q0 q1 hw hh hst hsrc⟩
    unfold inBitmapOrder
    rw [if_neg]
    intro hc
    rw [hc] at hpt
    exact hf48 ((typeOf_bgr48 f).1 hpt)

end Verif.Jxr
