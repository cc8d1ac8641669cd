import Verif.Proof.Zstd

/-!
# C36 lo-hi packing, C37 zstd1 round trip, C38 size-mismatch protocol
-/

namespace Verif
open Verif.LoHi Verif.Zstd Verif.Blit

/-! ## C36 -/

/-- The three implementations the build can select; `avx u` has the undefined register contents `u`. -/
inductive LoHiVariant where
  | c | avx (u : Nat → UInt8) | neon

def LoHiVariant.unpack : LoHiVariant → Buf → Nat → Nat → Nat → Buf → Option Buf
  | .c => unpackC | .avx _ => unpackAvx | .neon => unpackNeon

def LoHiVariant.pack : LoHiVariant → Buf → Nat → Nat → Nat → Nat → Buf → Option Buf
  | .c => packC | .avx u => packAvx u | .neon => packNeon

/-- **C36 (unpacking is exact and in bounds)** for every variant, width, height, stride and content. -/
theorem C36_unpack_exact (v : LoHiVariant) (src : Buf) (w stride h : Nat) (dst : Buf)
    (hsrc : (h - 1) * stride + 2 * w ≤ src.size) (hdst : 2 * (w * h) ≤ dst.size) :
    ∃ b, v.unpack src w stride h dst = some b ∧ Unpacked src w stride h dst b := by
  cases v
  · exact unpackC_spec src w stride h dst hsrc hdst
  · exact unpackAvx_spec src w stride h dst hsrc hdst
  · exact unpackNeon_spec src w stride h dst hsrc hdst

/-- **C36 (packing is exact and in bounds).** -/
theorem C36_pack_exact (v : LoHiVariant) (src : Buf) (size w h stride : Nat) (dst : Buf)
    (hsrc : size / 2 + w * h ≤ src.size) (hst : 2 * w ≤ stride) (hdst : (h - 1) * stride + 2 * w ≤ dst.size) :
    ∃ b, v.pack src size w h stride dst = some b ∧ Packed src (size / 2) w h stride dst b := by
  cases v
  · exact packC_spec src size w h stride dst hsrc hst hdst
  · exact packAvx_spec _ src size w h stride dst hsrc hst hdst
  · exact packNeon_spec src size w h stride dst hsrc hst hdst

/-- **C36 (packing after unpacking).** With any two implementations and any two strides, the bytes of all words are restored. -/
theorem C36_pack_after_unpack (v v' : LoHiVariant) (src : Buf) (w h stride stride' : Nat) (tmp dst : Buf)
    (hsrc : (h - 1) * stride + 2 * w ≤ src.size) (htmp : tmp.size = 2 * (w * h))
    (hst : 2 * w ≤ stride') (hdst : (h - 1) * stride' + 2 * w ≤ dst.size) :
    ∃ t b, v.unpack src w stride h tmp = some t ∧ v'.pack t t.size w h stride' dst = some b ∧
      (∀ y i, y < h → i < 2 * w → b.get (y * stride' + i) = src.get (y * stride + i)) ∧
      (∀ i, (∀ y x, y < h → x < 2 * w → i ≠ y * stride' + x) → b.get i = dst.get i) := by
  obtain ⟨t, h1, h2⟩ := C36_unpack_exact v src w stride h tmp hsrc (by omega)
  have hsz : t.size = 2 * (w * h) := by rw [h2.size, htmp]
  obtain ⟨b, h3, h4⟩ := C36_pack_exact v' t t.size w h stride' dst (by omega) hst hdst
  have hhalf : t.size / 2 = w * h := by omega
  rw [hhalf] at h4
  refine ⟨t, b, h1, h3, ?_, ?_⟩
  · intro y i hy hi
    rcases Nat.mod_two_eq_zero_or_one i with hm | hm
    · rw [show i = 2 * (i / 2) by omega, h4.low y (i / 2) hy (by omega), h2.low y (i / 2) hy (by omega)]
    · rw [show i = 2 * (i / 2) + 1 by omega, ← Nat.add_assoc, h4.high y (i / 2) hy (by omega), h2.high y (i / 2) hy (by omega),
        Nat.add_assoc]
  · intro i hi
    refine h4.rest i (fun y x hy hx => ⟨hi y (2 * x) hy (by omega), ?_⟩)
    rw [Nat.add_assoc]; exact hi y (2 * x + 1) hy (by omega)

/-- **C36 (unpacking after packing)** restores every byte. -/
theorem C36_unpack_after_pack (v v' : LoHiVariant) (src : Buf) (w h stride : Nat) (tmp dst : Buf)
    (hsrc : src.size = 2 * (w * h)) (hst : 2 * w ≤ stride) (htmp : (h - 1) * stride + 2 * w ≤ tmp.size)
    (hdst : dst.size = 2 * (w * h)) :
    ∃ t b, v.pack src src.size w h stride tmp = some t ∧ v'.unpack t w stride h dst = some b ∧ b.size = src.size ∧
      ∀ i, i < src.size → b.get i = src.get i := by
  obtain ⟨t, h1, h2⟩ := C36_pack_exact v src src.size w h stride tmp (by omega) hst htmp
  obtain ⟨b, h3, h4⟩ := C36_unpack_exact v' t w stride h dst (by rw [h2.size]; exact htmp) (by omega)
  have hhalf : src.size / 2 = w * h := by omega
  rw [hhalf] at h2
  refine ⟨t, b, h1, h3, by rw [h4.size]; omega, ?_⟩
  intro i hi
  have key : ∀ k, k < w * h → b.get k = src.get k ∧ b.get (w * h + k) = src.get (w * h + k) := by
    intro k hk
    have hw : 0 < w := by rcases Nat.eq_zero_or_pos w with h | h; (subst h; omega); exact h
    have hy : k / w < h := by rw [Nat.div_lt_iff_lt_mul hw, Nat.mul_comm]; exact hk
    have hx : k % w < w := Nat.mod_lt _ hw
    have e : k = k / w * w + k % w := by have := Nat.div_add_mod k w; rw [Nat.mul_comm] at this; omega
    have l1 := h4.low _ _ hy hx
    have l2 := h4.high _ _ hy hx
    rw [h2.low _ _ hy hx, ← e] at l1
    rw [h2.high _ _ hy hx, ← e] at l2
    exact ⟨l1, l2⟩
  by_cases hc : i < w * h
  · exact (key i hc).1
  · have := (key (i - w * h) (by omega)).2
    rwa [show w * h + (i - w * h) = i by omega] at this

/-- The hypotheses are met e.g. by 3 words per line, 2 lines, stride 8. -/
example : ∃ t, unpackC (Buf.ofList [1,2,3,4,5,6,0,0,7,8,9,10,11,12]) 3 8 2 ⟨12, fun _ => 0⟩ = some t ∧
    t.toList = [1,3,5,7,9,11,2,4,6,8,10,12] := ⟨_, rfl, by decide⟩

/-- **C36 (argument check).** The stride check is exact as long as a row has less than 2^32 bytes ... -/
theorem C36_stride_check (w stride : Nat) (hw : 2 * w < 2 ^ 32) : checkUnpack w stride = true ↔ 2 * w ≤ stride := by
  unfold checkUnpack
  rw [Nat.mod_eq_of_lt (by omega)]
  simp; omega

/-- ... but with 2^31 words per row it wraps around and accepts stride 0. -/
theorem C36_stride_check_wraps : checkUnpack (2 ^ 31) 0 = true := by decide

/-! ## C37 -/

private theorem even_row {pt : PixelType} {bpp : Nat} (w : Nat) (hbpp : bytesPerPel pt = some bpp) (hp : pt = .Gray16 ∨ pt = .Bgr48) :
    2 ∣ w * bpp := by
  rcases hp with h | h <;> subst h <;> simp only [bytesPerPel, Option.some.injEq] at hbpp <;> subst hbpp <;> omega

/-- The bytes handed to zstd by the zstd1 compressor. -/
private theorem body_spec (fresh : Nat → UInt8) (w h stride : Nat) (pt : PixelType) (bpp : Nat) (packing : Bool) (src : Buf)
    (hbpp : bytesPerPel pt = some bpp) (hh : 0 < h) (hst : w * bpp ≤ stride)
    (hsrc : (h - 1) * stride + w * bpp ≤ src.size) (hcopy : stride = w * bpp ∨ copySupported pt = true)
    (hrow : w * bpp < 2 ^ 32) :
    ∃ l, (if (packing && (pt == .Bgr48 || pt == .Gray16)) = true then
        if !LoHi.checkUnpack (w * bpp / 2) stride then some (.error .invalidArgument)
        else (LoHi.unpackC src (w * bpp / 2) stride h ⟨w * bpp * h, fresh⟩).map fun b => .ok b.toList
      else tightSource pt bpp fresh w h stride src : Res (List UInt8)) = some (.ok l) ∧
      l.length = h * (w * bpp) ∧
      ∀ y i, y < h → i < w * bpp →
        rows (if (packing && (pt == .Bgr48 || pt == .Gray16)) = true then interleaved l else l) (w * bpp) y i =
          src.get (y * stride + i) := by
  by_cases hp : (packing && (pt == .Bgr48 || pt == .Gray16)) = true
  · simp only [if_pos hp]
    have hpt' : pt = .Gray16 ∨ pt = .Bgr48 := by rcases pt <;> simp_all
    have heven : 2 ∣ w * bpp := even_row w hbpp hpt'
    obtain ⟨W, hW⟩ := heven
    have e : w * bpp / 2 = W := by omega
    have hchk : checkUnpack W stride = true := (C36_stride_check W stride (by omega)).2 (by omega)
    rw [e, hchk]
    simp only [Bool.not_true, Bool.false_eq_true, if_false]
    have e2 : w * bpp * h = 2 * (W * h) := by rw [hW, Nat.mul_assoc]
    obtain ⟨b, h1, h2⟩ := unpackC_spec src W stride h ⟨w * bpp * h, fresh⟩ (by omega) (by show _ ≤ w * bpp * h; omega)
    rw [h1]
    have hs : b.size = 2 * (W * h) := by rw [h2.size]; exact e2
    have hl : b.toList.length = 2 * (W * h) := by rw [toList_length, hs]
    refine ⟨b.toList, rfl, by rw [hl, ← e2, Nat.mul_comm], ?_⟩
    intro y i hy hi
    rw [hW] at hi ⊢
    rw [interleaved_rows _ W h hl y i hy hi]
    have hb := rows_le (n := W) hy (show i / 2 < W by omega)
    rw [Nat.mul_comm h] at hb
    rcases Nat.mod_two_eq_zero_or_one i with hm | hm
    · rw [hm, toList_getD _ _ (by omega), Nat.zero_mul, Nat.add_zero, h2.low y (i / 2) hy (by omega)]
      congr 1; omega
    · rw [hm, toList_getD _ _ (by omega), show y * W + i / 2 + 1 * (W * h) = W * h + (y * W + i / 2) by omega,
        h2.high y (i / 2) hy (by omega)]
      congr 1; omega
  · simp only [if_neg hp]
    obtain ⟨l, h1, h2, h3⟩ := tightSource_spec pt bpp fresh w h stride src hcopy hsrc hh
    exact ⟨l, h1, by rw [h2, Nat.mul_comm], h3⟩

/-- The result of zstd1 compression. -/
theorem compress1_spec (c : Codec) (fresh : Nat → UInt8) (w h stride : Nat) (pt : PixelType) (bpp : Nat)
    (packing : Bool) (src : Buf) (dest : Nat) (hbpp : bytesPerPel pt = some bpp) (hw : 0 < w) (hh : 0 < h)
    (hst : w * bpp ≤ stride) (hsrc : (h - 1) * stride + w * bpp ≤ src.size)
    (hcopy : stride = w * bpp ∨ copySupported pt = true) (hrow : w * bpp < 2 ^ 32) (hdest : 4 ≤ dest) :
    ∃ l, compress1 c fresh w h stride pt packing src dest = some (.ok (if (c.compress l).length ≤ dest - 3 then
        some (3 :: 1 :: (if (packing && (pt == .Bgr48 || pt == .Gray16)) = true then 1 else 0) :: c.compress l) else none)) ∧
      l.length = h * (w * bpp) ∧ l ≠ [] ∧
      ∀ y i, y < h → i < w * bpp →
        rows (if (packing && (pt == .Bgr48 || pt == .Gray16)) = true then interleaved l else l) (w * bpp) y i =
          src.get (y * stride + i) := by
  obtain ⟨l, h1, h2, h3⟩ := body_spec fresh w h stride pt bpp packing src hbpp hh hst hsrc hcopy hrow
  have hpos : 0 < bpp := by rcases pt <;> simp_all [bytesPerPel] <;> omega
  have hpos2 : 0 < h * (w * bpp) := Nat.mul_pos hh (Nat.mul_pos hw hpos)
  have hne : l ≠ [] := by rintro rfl; simp at h2; omega
  refine ⟨l, ?_, h2, hne, h3⟩
  unfold compress1
  simp only [hbpp]
  have hchk : checkSource w h stride bpp = none := by
    unfold checkSource
    rw [if_neg (by omega), if_neg (by omega), if_neg (by omega)]
  simp only [hchk, if_neg (show ¬ dest < 4 by omega)]
  simp only [h1]
  unfold compressZstd
  rw [if_neg (by omega)]
  by_cases hfit : (c.compress l).length ≤ dest - 3
  · rw [if_pos hfit]; simp only [if_pos hfit]
  · rw [if_neg hfit]; simp only [if_neg hfit]

/-- **C37 (compression succeeds).** Any bitmap (non-empty, its rows in its memory, rows below 4 GB), with minimal stride or
of one of the pixel types which can be copied, is compressed; the only reason for returning "did not fit" is that
the destination is too small. -/
theorem C37_compress_succeeds (c : Codec) (fresh : Nat → UInt8) (w h stride : Nat) (pt : PixelType) (bpp : Nat)
    (packing : Bool) (src : Buf) (dest : Nat) (hbpp : bytesPerPel pt = some bpp) (hw : 0 < w) (hh : 0 < h)
    (hst : w * bpp ≤ stride) (hsrc : (h - 1) * stride + w * bpp ≤ src.size)
    (hcopy : stride = w * bpp ∨ copySupported pt = true) (hrow : w * bpp < 2 ^ 32) (hdest : 4 ≤ dest)
    (hfit : ∀ l : List UInt8, l.length = h * (w * bpp) → (c.compress l).length + 3 ≤ dest) :
    ∃ z, compress1 c fresh w h stride pt packing src dest = some (.ok (some z)) ∧ z.length ≤ dest := by
  obtain ⟨l, h1, h2, _, _⟩ := compress1_spec c fresh w h stride pt bpp packing src dest hbpp hw hh hst hsrc hcopy hrow hdest
  have := hfit l h2
  rw [if_pos (by omega)] at h1
  exact ⟨_, h1, by simp; omega⟩

/-- **C37 (round trip; partial).** Whatever the zstd1 compressor produced for a bitmap decodes to the same pixels, with
and without packing, with and without size-mismatch handling. Missing: a packed Bgr48 bitmap is only decoded
correctly if size-mismatch handling is off, see `C37_bgr48_packed_fails`. -/
theorem C37_round_trip_partial (c : Codec) (hc : Lossless c) (fresh fresh' : Nat → UInt8) (w h stride : Nat) (pt : PixelType)
    (bpp : Nat) (packing : Bool) (src : Buf) (dest : Nat) (hbpp : bytesPerPel pt = some bpp) (hw : 0 < w) (hh : 0 < h)
    (hst : w * bpp ≤ stride) (hsrc : (h - 1) * stride + w * bpp ≤ src.size)
    (hcopy : stride = w * bpp ∨ copySupported pt = true) (hrow : w * bpp < 2 ^ 32) (hdest : 4 ≤ dest)
    (z : List UInt8) (hz : compress1 c fresh w h stride pt packing src dest = some (.ok (some z)))
    (handleMismatch : Bool) (hmode : packing = true → pt = .Bgr48 → handleMismatch = false) :
    ∃ bm, decode1 c fresh' z pt w h handleMismatch = some (.ok bm) ∧
      Shows bm w h (w * bpp) (fun y i => src.get (y * stride + i)) := by
  obtain ⟨l, h1, h2, hne, h3⟩ := compress1_spec c fresh w h stride pt bpp packing src dest hbpp hw hh hst hsrc hcopy hrow hdest
  rw [hz] at h1
  by_cases hfit : (c.compress l).length ≤ dest - 3
  swap
  · rw [if_neg hfit] at h1; simp at h1
  rw [if_pos hfit] at h1
  have hcs := hc.size l hne
  have hcd := hc.inverse l hne
  have hcl : 0 < (c.compress l).length := List.length_pos_iff.2 (hc.nonempty l)
  have hshow : ∀ {bm v}, Shows bm w h (w * bpp) v → (∀ y i, y < h → i < w * bpp → v y i = src.get (y * stride + i)) →
      Shows bm w h (w * bpp) (fun y i => src.get (y * stride + i)) := by
    intro bm v hs hv
    exact ⟨hs.width, hs.height, hs.inside, fun y i hy hi => (hs.value y i hy hi).trans (hv y i hy hi)⟩
  by_cases hp : (packing && (pt == .Bgr48 || pt == .Gray16)) = true
  · simp only [if_pos hp] at h1 h3
    have hz' : z = 3 :: 1 :: 1 :: c.compress l := by simpa using h1
    subst hz'
    have hph : parseHeader (3 :: 1 :: 1 :: c.compress l) = some (3, true) := by
      simp [parseHeader]
    unfold decode1
    rw [hph]
    simp only [show ¬ (3 = 0) by omega, if_false, List.length_cons, if_neg (show ¬ (c.compress l).length + 1 + 1 + 1 ≤ 3 by omega)]
    have hpt : ¬ (True ∧ pt ≠ .Gray16 ∧ pt ≠ .Bgr48) := by
      rcases pt <;> simp_all
    simp only [if_neg hpt, hbpp, List.drop_succ_cons, List.drop_zero, if_true]
    have hpt' : pt = .Gray16 ∨ pt = .Bgr48 := by rcases pt <;> simp_all
    have heven : 2 ∣ w * bpp := even_row w hbpp hpt'
    cases handleMismatch
    · simp only [Bool.false_eq_true, if_false]
      obtain ⟨bm, hb1, hb2⟩ := decodePackExact_ok hcs hcd fresh' bpp w h h2 heven hrow
      exact ⟨bm, hb1, hshow hb2 h3⟩
    · simp only [if_true]
      have hg : pt = .Gray16 := by rcases pt <;> simp_all
      subst hg
      have : bpp = 2 := by simpa [bytesPerPel] using hbpp.symm
      subst this
      obtain ⟨bm, hb1, hb2⟩ := decodePackMismatch_gray16 hcs hcd fresh' w h (by rw [h2]; exact Nat.dvd_trans heven (Nat.dvd_mul_left _ _)) hrow (Or.inl h2)
      exact ⟨bm, hb1, hshow hb2 h3⟩
  · simp only [if_neg hp] at h1 h3
    have hz' : z = 3 :: 1 :: 0 :: c.compress l := by simpa using h1
    subst hz'
    have hph : parseHeader (3 :: 1 :: 0 :: c.compress l) = some (3, false) := by
      simp [parseHeader]
    unfold decode1
    rw [hph]
    simp only [show ¬ (3 = 0) by omega, if_false, List.length_cons, if_neg (show ¬ (c.compress l).length + 1 + 1 + 1 ≤ 3 by omega)]
    simp only [Bool.false_eq_true, false_and, if_false, hbpp, List.drop_succ_cons, List.drop_zero]
    cases handleMismatch
    · simp only [Bool.false_eq_true, if_false]
      obtain ⟨bm, hb1, hb2⟩ := decodeExact_ok hcs hcd fresh' bpp w h h2
      exact ⟨bm, hb1, hshow hb2 h3⟩
    · simp only [if_true]
      obtain ⟨bm, hb1, hb2⟩ := decodeMismatch_spec hcs hcd fresh' bpp w h
      exact ⟨bm, hb1, hshow hb2 h3⟩

/-- **C37 for zstd0**: there is no packing and the round trip is complete. -/
theorem C37_zstd0_round_trip (c : Codec) (hc : Lossless c) (fresh fresh' : Nat → UInt8) (w h stride : Nat) (pt : PixelType)
    (bpp : Nat) (src : Buf) (dest : Nat) (hbpp : bytesPerPel pt = some bpp) (hw : 0 < w) (hh : 0 < h)
    (hst : w * bpp ≤ stride) (hsrc : (h - 1) * stride + w * bpp ≤ src.size)
    (hcopy : stride = w * bpp ∨ copySupported pt = true) (hdest : 1 ≤ dest) :
    ∃ r, compress0 c fresh w h stride pt src dest = some (.ok r) ∧
      ((∀ l : List UInt8, l.length = h * (w * bpp) → (c.compress l).length ≤ dest) → r ≠ none) ∧
      ∀ z, r = some z → ∀ handleMismatch, ∃ bm, decode0 c fresh' z pt w h handleMismatch = some (.ok bm) ∧
        Shows bm w h (w * bpp) (fun y i => src.get (y * stride + i)) := by
  obtain ⟨l, h1, h2, h3⟩ := tightSource_spec pt bpp fresh w h stride src hcopy hsrc hh
  rw [Nat.mul_comm] at h2
  have hpos : 0 < bpp := by rcases pt <;> simp_all [bytesPerPel] <;> omega
  have hpos2 : 0 < h * (w * bpp) := Nat.mul_pos hh (Nat.mul_pos hw hpos)
  have hne : l ≠ [] := by rintro rfl; simp at h2; omega
  have hchk : checkSource w h stride bpp = none := by
    unfold checkSource
    rw [if_neg (by omega), if_neg (by omega), if_neg (by omega)]
  have hr : compress0 c fresh w h stride pt src dest = some (.ok (if (c.compress l).length ≤ dest then some (c.compress l) else none)) := by
    unfold compress0
    simp only [hbpp, hchk, if_neg (show ¬ dest < 1 by omega), h1]
    unfold compressZstd
    rw [if_neg (by omega)]
    by_cases hfit : (c.compress l).length ≤ dest
    · rw [if_pos hfit, if_pos hfit]
    · rw [if_neg hfit, if_neg hfit]
  refine ⟨_, hr, ?_, ?_⟩
  · intro hf; rw [if_pos (hf l h2)]; simp
  · intro z hz hm
    by_cases hfit : (c.compress l).length ≤ dest
    swap
    · rw [if_neg hfit] at hz; simp at hz
    rw [if_pos hfit] at hz
    have hz' : z = c.compress l := by simpa using hz.symm
    subst hz'
    have hcs := hc.size l hne
    have hcd := hc.inverse l hne
    unfold decode0
    simp only [hbpp]
    cases hm
    · simp only [Bool.false_eq_true, if_false]
      obtain ⟨bm, hb1, hb2⟩ := decodeExact_ok hcs hcd fresh' bpp w h h2
      exact ⟨bm, hb1, hb2.width, hb2.height, hb2.inside, fun y i hy hi => (hb2.value y i hy hi).trans (h3 y i hy hi)⟩
    · simp only [if_true]
      obtain ⟨bm, hb1, hb2⟩ := decodeMismatch_spec hcs hcd fresh' bpp w h
      exact ⟨bm, hb1, hb2.width, hb2.height, hb2.inside, fun y i hy hi => (hb2.value y i hy hi).trans (h3 y i hy hi)⟩

/-- A lossless codec: prepend a zero byte. -/
def toyCodec : Codec where
  compress l := 0 :: l
  contentSize l := some (l.length - 1)
  decompress l := some l.tail

theorem toyCodec_lossless : Lossless toyCodec := ⟨fun l _ => by simp [toyCodec], fun l _ => rfl, fun l => by simp [toyCodec]⟩

/-- The hypotheses of the round-trip theorem are met, e.g. by a 1 × 2 Gray16 bitmap with stride 4 and packing. -/
example : compress1 toyCodec (fun _ => 9) 1 2 4 .Gray16 true (Buf.ofList [1, 2, 0, 0, 3, 4]) 100 =
    some (.ok (some [3, 1, 1, 0, 1, 3, 2, 4])) := by rfl

/-- **C37 fails for packed Bgr48 with the default options** (size-mismatch handling on): after a round trip through a
lossless codec the bitmap still has the contents of the uninitialised memory it was created in. -/
theorem C37_bgr48_packed_fails :
    ∃ (c : Codec) (src : Buf) (z : List UInt8), Lossless c ∧
      (∀ fresh, compress1 c fresh 1 1 6 .Bgr48 true src 100 = some (.ok (some z))) ∧
      ∀ fresh, ∃ bm, decode1 c fresh z .Bgr48 1 1 true = some (.ok bm) ∧ bm.buf.get 2 = fresh 2 := by
  refine ⟨toyCodec, Buf.ofList [1, 2, 3, 4, 5, 6], [3, 1, 1, 0, 1, 3, 5, 2, 4, 6], toyCodec_lossless, fun fresh => rfl, fun fresh => ?_⟩
  exact ⟨_, rfl, rfl⟩

/-- **C37 (header; partial).** For data of at least three bytes the header is accepted exactly if the first byte is 1 or the
second is 1, and nothing outside of the data is read. Missing: see the two theorems below. -/
theorem C37_header_partial (d : List UInt8) (b0 b1 b2 : UInt8) (rest : List UInt8) (hd : d = b0 :: b1 :: b2 :: rest) :
    parseHeader d = some (if b0 = 1 then (1, false) else if b1 = 1 then (3, b2 &&& 1 == 1) else (0, false)) := by
  subst hd
  unfold parseHeader
  by_cases h0 : b0 = 1
  · simp [h0]
  · simp [h0]
    by_cases h1 : b1 = 1 <;> simp [h1]

/-- A rejected header makes decoding fail with an exception. -/
theorem C37_bad_header_rejected (c : Codec) (fresh : Nat → UInt8) (d : List UInt8) (pt : PixelType) (w h : Nat) (hm : Bool) (p : Bool)
    (hd : parseHeader d = some (0, p)) : decode1 c fresh d pt w h hm = some (.error .runtimeError) := by
  unfold decode1; rw [hd]; simp

/-- So is a packed payload for a pixel type which cannot be packed. -/
theorem C37_bad_packing_rejected (c : Codec) (fresh : Nat → UInt8) (d : List UInt8) (pt : PixelType) (w h : Nat) (hm : Bool) (n : Nat)
    (hd : parseHeader d = some (n, true)) (h1 : pt ≠ .Gray16) (h2 : pt ≠ .Bgr48) :
    decode1 c fresh d pt w h hm = some (.error .runtimeError) := by
  unfold decode1; rw [hd]; simp only
  split
  · rfl
  · split
    · rfl
    · rw [if_pos ⟨trivial, h1, h2⟩]

/-- **C37 fails for short data**: a payload of one byte, other than 1 and 3, makes the header parser read the byte after it. -/
theorem C37_header_reads_outside (b : UInt8) (h1 : b ≠ 1) (h3 : b ≠ 3) : parseHeader [b] = none := by
  simp [parseHeader, h1, h3]

/-- ... and a payload of two bytes whose second is 1 makes it read the third. -/
theorem C37_header_reads_outside_two (b : UInt8) (h1 : b ≠ 1) (h3 : b ≠ 3) : parseHeader [b, 1] = none := by
  simp [parseHeader, h1, h3]

/-- **C37 (short data).** The header parser reads outside the data exactly for those payloads of one or two bytes; all other payloads of
at most two bytes, other than a single 1 and one starting with 1, are rejected. -/
theorem C37_short_header (d : List UInt8) (h : d.length ≤ 2) :
    (parseHeader d = none ↔ (∃ b, d = [b] ∧ b ≠ 1 ∧ b ≠ 3) ∨ ∃ b, d = [b, 1] ∧ b ≠ 1 ∧ b ≠ 3) ∧
    (parseHeader d ≠ none → d.head? ≠ some 1 → parseHeader d = some (0, false)) := by
  match d, h with
  | [], _ => simp [parseHeader]
  | [b], _ =>
    by_cases h1 : b = 1
    · subst h1; simp [parseHeader]
    · by_cases h3 : b = 3
      · subst h3; simp [parseHeader]
      · simp [parseHeader, h1, h3]
  | [b, x], _ =>
    by_cases h1 : b = 1
    · subst h1; simp [parseHeader]
    · by_cases h3 : b = 3
      · subst h3; simp [parseHeader]
      · by_cases hx : x = 1
        · subst hx; simp [parseHeader, h1, h3]
        · simp [parseHeader, h1, h3, hx]
  | _ :: _ :: _ :: _, h => simp at h

/-- ... and a header size which is neither 1 nor 3 is accepted. -/
theorem C37_header_size_unchecked : parseHeader [5, 1, 0, 7] = some (3, false) := by decide

/-! ## C38 -/

theorem separator_iff (c : Char) : (c == ';' || isSpace c) = true ↔ IsSeparator c := by
  have key : ('\t' ≤ c ∧ c ≤ '\r') ↔ (c = '\t' ∨ c = '\n' ∨ c = '\x0b' ∨ c = '\x0c' ∨ c = '\r') := by
    simp only [Char.le_def, Char.ext_iff, UInt32.le_iff_toNat_le, ← UInt32.toNat_inj]
    change 9 ≤ c.val.toNat ∧ c.val.toNat ≤ 13 ↔ c.val.toNat = 9 ∨ c.val.toNat = 10 ∨ c.val.toNat = 11 ∨ c.val.toNat = 12 ∨ c.val.toNat = 13
    omega
  simp [IsSeparator, isSpace, key]

/-- Nothing, or a separator. -/
def edgeOk : Option Char → Bool
  | none => true
  | some b => b == ';' || isSpace b

theorem containsTokenFrom_cons (token : List Char) (prev : Option Char) (c : Char) (rest : List Char) :
    containsTokenFrom token prev (c :: rest) =
      ((token.isPrefixOf (c :: rest) && edgeOk prev && edgeOk (c :: rest)[token.length]?) || containsTokenFrom token (some c) rest) := rfl

theorem containsTokenFrom_iff (token : List Char) (prev : Option Char) (s : List Char) (ht : token ≠ []) :
    containsTokenFrom token prev s = true ↔ ∃ before after, s = before ++ token ++ after ∧
      (∀ c, (prev.toList ++ before).getLast? = some c → IsSeparator c) ∧ (∀ c, after.head? = some c → IsSeparator c) := by
  induction s generalizing prev with
  | nil =>
    simp only [containsTokenFrom, Bool.false_eq_true, false_iff]
    rintro ⟨b, a, e, _⟩
    have := congrArg List.length e
    simp only [List.length_nil, List.length_append] at this
    exact ht (List.length_eq_zero_iff.mp (by omega))
  | cons c rest ih =>
    have hp : edgeOk prev = true ↔ ∀ c, prev.toList.getLast? = some c → IsSeparator c := by
      cases prev with
      | none => simp [edgeOk]
      | some b => simp only [edgeOk, separator_iff]; simp
    rw [containsTokenFrom_cons, Bool.or_eq_true, Bool.and_eq_true, Bool.and_eq_true, ih, hp, List.isPrefixOf_iff_prefix]
    constructor
    · rintro (⟨⟨⟨a, ha⟩, h1⟩, h2⟩ | ⟨b, a, e, h1, h2⟩)
      · refine ⟨[], a, by rw [← ha]; rfl, by simpa using h1, ?_⟩
        intro x hx
        rw [← ha, List.getElem?_append_right (Nat.le_refl _), Nat.sub_self, ← List.head?_eq_getElem?, hx] at h2
        exact (separator_iff x).mp h2
      · refine ⟨c :: b, a, by rw [e]; rfl, ?_, h2⟩
        intro x hx
        apply h1 x
        cases b with
        | nil => simpa using hx
        | cons y ys => simpa using hx
    · rintro ⟨b, a, e, h1, h2⟩
      cases b with
      | nil =>
        left
        rw [List.nil_append] at e
        refine ⟨⟨⟨a, e.symm⟩, by simpa using h1⟩, ?_⟩
        rw [e, List.getElem?_append_right (Nat.le_refl _), Nat.sub_self, ← List.head?_eq_getElem?]
        cases ha : a.head? with
        | none => rfl
        | some x => exact (separator_iff x).mpr (h2 x ha)
      | cons y ys =>
        right
        injection e with e1 e2
        subst e1
        refine ⟨ys, a, e2, ?_, h2⟩
        intro x hx
        apply h1 x
        cases ys with
        | nil => simpa using hx
        | cons z zs => simpa using hx

/-- **C38 (the option).** Size-mismatch handling is on if and only if its name occurs among the options given to the decoder, as a whole
word: between semicolons, white space or the ends of the string. -/
theorem C38_option (input option : List Char) : containsToken input option = true ↔ option ≠ [] ∧ OptionGiven option input := by
  rw [containsToken, Bool.and_eq_true, bne_iff_ne]
  constructor
  · rintro ⟨h, h'⟩
    obtain ⟨b, a, e, h1, h2⟩ := (containsTokenFrom_iff option none input h).mp h'
    exact ⟨h, b, a, e, by simpa using h1, h2⟩
  · rintro ⟨h, b, a, e, h1, h2⟩
    exact ⟨h, (containsTokenFrom_iff option none input h).mpr ⟨b, a, e, by simpa using h1, h2⟩⟩

example : containsToken "verbose; handle_data_size_mismatch".toList "handle_data_size_mismatch".toList = true := by decide +kernel
example : containsToken "no_handle_data_size_mismatch".toList "handle_data_size_mismatch".toList = false := by decide +kernel

/-- **C38 (zstd0, handling on).** The bitmap shows the payload, truncated or continued with zeros. -/
theorem C38_zstd0_mismatch (c : Codec) (fresh : Nat → UInt8) (d l : List UInt8) (pt : PixelType) (bpp w h : Nat)
    (hbpp : bytesPerPel pt = some bpp) (hs : c.contentSize d = some l.length) (hd : c.decompress d = some l) :
    ∃ bm, decode0 c fresh d pt w h true = some (.ok bm) ∧ Shows bm w h (w * bpp) (rows l (w * bpp)) := by
  unfold decode0
  simp only [hbpp, if_true]
  exact decodeMismatch_spec hs hd fresh bpp w h

/-- **C38 (zstd0, handling off).** The call succeeds iff the payload has the expected size, and then shows it. -/
theorem C38_zstd0_exact (c : Codec) (fresh : Nat → UInt8) (d l : List UInt8) (pt : PixelType) (bpp w h : Nat)
    (hbpp : bytesPerPel pt = some bpp) (hs : c.contentSize d = some l.length) (hd : c.decompress d = some l) :
    (l.length = h * (w * bpp) → ∃ bm, decode0 c fresh d pt w h false = some (.ok bm) ∧ Shows bm w h (w * bpp) (rows l (w * bpp))) ∧
    (l.length ≠ h * (w * bpp) → decode0 c fresh d pt w h false = some (.error .runtimeError)) := by
  unfold decode0
  simp only [hbpp, Bool.false_eq_true, if_false]
  refine ⟨fun h1 => decodeExact_ok hs hd fresh bpp w h h1, fun h1 => ?_⟩
  unfold decodeExact
  simp only [hs, if_pos h1]

private theorem decode1_plain (c : Codec) (fresh : Nat → UInt8) (d : List UInt8) (pt : PixelType) (bpp w h : Nat) (hm : Bool)
    (hbpp : bytesPerPel pt = some bpp) (n : Nat) (p : Bool) (hh : parseHeader d = some (n, p)) (hn : n ≠ 0) (hlen : n < d.length)
    (hp : p = true → pt = .Gray16 ∨ pt = .Bgr48) :
    decode1 c fresh d pt w h hm = (if hm then
          if p then decodePackMismatch c fresh (d.drop n) bpp w h else decodeMismatch c fresh (d.drop n) bpp w h
        else
          if p then decodePackExact c fresh (d.drop n) bpp w h else decodeExact c fresh (d.drop n) bpp w h) := by
  unfold decode1
  rw [hh]
  simp only [if_neg hn, if_neg (show ¬ d.length ≤ n by omega), hbpp]
  rw [if_neg]
  rintro ⟨h1, h2, h3⟩
  rcases hp h1 with h | h <;> contradiction

/-- **C38 (zstd1, handling on; partial).** With a payload which is not packed the bitmap shows the payload, truncated or
continued with zeros; with a packed Gray16 payload of even size it shows the interleaved payload, truncated or
continued with zeros. Missing: packed payload of odd size and packed Bgr48, see the two theorems below. -/
theorem C38_zstd1_mismatch_partial (c : Codec) (fresh : Nat → UInt8) (d l : List UInt8) (pt : PixelType) (bpp w h : Nat)
    (hbpp : bytesPerPel pt = some bpp) (n : Nat) (packed : Bool) (hh : parseHeader d = some (n, packed)) (hn : n ≠ 0)
    (hlen : n < d.length) (hs : c.contentSize (d.drop n) = some l.length) (hd : c.decompress (d.drop n) = some l)
    (hp : packed = true → pt = .Gray16 ∧ 2 ∣ l.length ∧ l.length < 2 ^ 32 ∧ w * 2 < 2 ^ 32) :
    ∃ bm, decode1 c fresh d pt w h true = some (.ok bm) ∧
      Shows bm w h (w * bpp) (rows (if packed then interleaved l else l) (w * bpp)) := by
  rw [decode1_plain c fresh d pt bpp w h true hbpp n packed hh hn hlen (fun h => Or.inl (hp h).1)]
  simp only [if_true]
  cases packed
  · exact decodeMismatch_spec hs hd fresh bpp w h
  · obtain ⟨h1, h2, h3, h4⟩ := hp rfl
    subst h1
    have : bpp = 2 := by simpa [bytesPerPel] using hbpp.symm
    subst this
    exact decodePackMismatch_gray16 hs hd fresh w h h2 h4 (Or.inr h3)

/-- **C38 (zstd1, handling off).** The call succeeds iff the payload has the expected size, and then shows it. -/
theorem C38_zstd1_exact (c : Codec) (fresh : Nat → UInt8) (d l : List UInt8) (pt : PixelType) (bpp w h : Nat)
    (hbpp : bytesPerPel pt = some bpp) (n : Nat) (packed : Bool) (hh : parseHeader d = some (n, packed)) (hn : n ≠ 0)
    (hlen : n < d.length) (hs : c.contentSize (d.drop n) = some l.length) (hd : c.decompress (d.drop n) = some l)
    (hp : packed = true → pt = .Gray16 ∨ pt = .Bgr48) (hrow : w * bpp < 2 ^ 32) :
    (l.length = h * (w * bpp) → ∃ bm, decode1 c fresh d pt w h false = some (.ok bm) ∧
      Shows bm w h (w * bpp) (rows (if packed then interleaved l else l) (w * bpp))) ∧
    (l.length ≠ h * (w * bpp) → decode1 c fresh d pt w h false = some (.error .runtimeError)) := by
  rw [decode1_plain c fresh d pt bpp w h false hbpp n packed hh hn hlen hp]
  simp only [Bool.false_eq_true, if_false]
  refine ⟨fun h1 => ?_, fun h1 => ?_⟩
  · cases packed
    · exact decodeExact_ok hs hd fresh bpp w h h1
    · have heven : 2 ∣ w * bpp := by
        exact even_row w hbpp (hp rfl)
      exact decodePackExact_ok hs hd fresh bpp w h h1 heven hrow
  · cases packed
    · simp only [Bool.false_eq_true, if_false]; unfold decodeExact; simp only [hs, if_pos h1]
    · simp only [if_true]; unfold decodePackExact; simp only [hs, if_pos h1]

/-- **C38 fails for a packed payload of odd size**: one byte of the bitmap is neither payload nor zero but what was in memory. -/
theorem C38_odd_packed_payload :
    ∃ (c : Codec) (d l : List UInt8), c.contentSize (d.drop 3) = some l.length ∧ c.decompress (d.drop 3) = some l ∧
      ∀ fresh, ∃ bm, decode1 c fresh d .Gray16 2 1 true = some (.ok bm) ∧ bm.buf.get 2 = fresh 2 :=
  ⟨toyCodec, [3, 1, 1, 0, 7, 8, 9], [7, 8, 9], rfl, rfl, fun _ => ⟨_, rfl, rfl⟩⟩

/-- **C38 fails for a packed Bgr48 payload which is too small**: most of the payload is not in the bitmap. -/
theorem C38_bgr48_packed_payload :
    ∃ (c : Codec) (d l : List UInt8), c.contentSize (d.drop 3) = some l.length ∧ c.decompress (d.drop 3) = some l ∧
      l.length = 6 ∧ ∀ fresh, ∃ bm, decode1 c fresh d .Bgr48 2 1 true = some (.ok bm) ∧ ∀ i, 2 ≤ i → i < 6 → bm.buf.get i = fresh i := by
  refine ⟨toyCodec, [3, 1, 1, 0, 1, 2, 3, 4, 5, 6], [1, 2, 3, 4, 5, 6], rfl, rfl, rfl, fun _ => ⟨_, rfl, ?_⟩⟩
  intro i h1 h2
  obtain rfl | rfl | rfl | rfl : i = 2 ∨ i = 3 ∨ i = 4 ∨ i = 5 := by omega
  all_goals rfl

/-- The rows of an uncompressed payload shorter than the bitmap. -/
private theorem uncompressed_short (fresh : Nat → UInt8) (d : List UInt8) (bpp w h : Nat) (hl : d.length < w * bpp * h) :
    ∃ s : Buf × Nat, loop h (fun y (s : Buf × Nat) =>
        if s.2 > 0 then
          (s.1.memcpy (y * (newBitmap fresh w h (defaultPitch bpp w)).stride) (Buf.ofList d) (y * (w * bpp)) (min s.2 (w * bpp))).bind fun b =>
          if s.2 - min s.2 (w * bpp) = 0 then (b.memset (y * (newBitmap fresh w h (defaultPitch bpp w)).stride + min s.2 (w * bpp)) 0 (w * bpp - min s.2 (w * bpp))).map fun b => (b, s.2 - min s.2 (w * bpp))
          else some (b, s.2 - min s.2 (w * bpp))
        else (s.1.memset (y * (newBitmap fresh w h (defaultPitch bpp w)).stride) 0 (w * bpp)).map fun b => (b, 0)) ((newBitmap fresh w h (defaultPitch bpp w)).buf, d.length) = some s ∧
      s.2 = d.length - h * (w * bpp) ∧ s.1.size = h * defaultPitch bpp w ∧
      ∀ y i, y < h → i < w * bpp → s.1.get (y * defaultPitch bpp w + i) = rows d (w * bpp) y i := by
  have hp := defaultPitch_ge bpp w
  generalize hn : w * bpp = n at *
  simp only [newBitmap]
  generalize hP : defaultPitch bpp w = P at *
  refine loop_inv (fun Y (s : Buf × Nat) => s.2 = d.length - Y * n ∧ s.1.size = h * P ∧
    ∀ y i, y < Y → i < n → s.1.get (y * P + i) = rows d n y i) _ h _ ⟨by simp, rfl, by intros; omega⟩ ?_
  rintro Y ⟨b, r⟩ hY ⟨h1, h2, h3⟩
  dsimp only at h1 h2 h3 ⊢
  have hrow : Y * P + P ≤ h * P := row_lt (s := P) hY
  have hsucc : (Y + 1) * n = Y * n + n := by rw [Nat.add_mul, Nat.one_mul]
  have hrow' : ∀ y, y < Y → y * P + P ≤ Y * P := fun y hy => row_lt (s := P) hy
  by_cases hr : r > 0
  · simp only [if_pos hr]
    rw [memcpy_eq (by omega) (by show _ ≤ d.length; omega)]
    simp only [Option.bind_some]
    by_cases hz : r - min r n = 0
    · simp only [if_pos hz]
      rw [memset_eq (by dsimp only; omega)]
      refine ⟨_, rfl, by dsimp only; omega, h2, ?_⟩
      intro y i hy hi
      dsimp only
      by_cases hc : y = Y
      · subst hc
        by_cases hi2 : i < min r n
        · rw [if_neg (by omega), if_pos (by omega)]
          simp only [rows, Buf.ofList]; congr 1; omega
        · rw [if_pos (by omega)]
          simp only [rows, List.getD, List.getElem?_eq_none (show d.length ≤ y * n + i by omega)]; rfl
      · have := hrow' y (by omega)
        rw [if_neg (by omega), if_neg (by omega)]
        exact h3 y i (by omega) hi
    · simp only [if_neg hz]
      refine ⟨_, rfl, by dsimp only; omega, h2, ?_⟩
      intro y i hy hi
      dsimp only
      by_cases hc : y = Y
      · subst hc
        rw [if_pos (by omega)]
        simp only [rows, Buf.ofList]; congr 1; omega
      · have := hrow' y (by omega)
        rw [if_neg (by omega)]
        exact h3 y i (by omega) hi
  · simp only [if_neg hr]
    rw [memset_eq (by omega)]
    refine ⟨_, rfl, by dsimp only; omega, h2, ?_⟩
    intro y i hy hi
    dsimp only
    by_cases hc : y = Y
    · subst hc
      rw [if_pos (by omega)]
      simp only [rows, List.getD, List.getElem?_eq_none (show d.length ≤ y * n + i by omega)]; rfl
    · have := hrow' y (by omega)
      rw [if_neg (by omega)]
      exact h3 y i (by omega) hi

/-- **C38 (uncompressed, handling on).** The bitmap shows the payload, truncated or continued with zeros. -/
theorem C38_uncompressed_mismatch (fresh : Nat → UInt8) (d : List UInt8) (pt : PixelType) (bpp w h : Nat)
    (hbpp : bytesPerPel pt = some bpp) :
    ∃ bm, uncompressed fresh d pt w h true = some (.ok bm) ∧ Shows bm w h (w * bpp) (rows d (w * bpp)) := by
  unfold uncompressed
  simp only [hbpp]
  by_cases hle : w * bpp * h ≤ d.length
  · simp only [if_pos hle]
    refine ⟨_, rfl, rfl, rfl, ?_, ?_⟩
    · intro y i hy hi
      have := rows_le hy hi
      rw [Nat.mul_comm h] at this
      exact this
    · intro y i hy hi; rfl
  · simp only [if_neg hle, Bool.not_true, Bool.false_eq_true, if_false]
    obtain ⟨s, h1, h2, h3, h4⟩ := uncompressed_short fresh d bpp w h (by omega)
    rw [h1]
    refine ⟨_, rfl, rfl, rfl, ?_, h4⟩
    intro y i hy hi
    have := defaultPitch_ge bpp w
    dsimp only
    rw [h3]
    exact rows_le (n := defaultPitch bpp w) hy (by omega)

/-- **C38 (uncompressed, handling off; partial).** A payload which is too small is an error, a payload of the
right size is shown. Missing: a payload which is too large is not an error, see below. -/
theorem C38_uncompressed_exact_partial (fresh : Nat → UInt8) (d : List UInt8) (pt : PixelType) (bpp w h : Nat)
    (hbpp : bytesPerPel pt = some bpp) :
    (d.length < h * (w * bpp) → uncompressed fresh d pt w h false = some (.error .logicError)) ∧
    (d.length = h * (w * bpp) → ∃ bm, uncompressed fresh d pt w h false = some (.ok bm) ∧ Shows bm w h (w * bpp) (rows d (w * bpp))) := by
  unfold uncompressed
  simp only [hbpp]
  constructor
  · intro h1
    rw [Nat.mul_comm] at h1
    simp only [if_neg (show ¬ w * bpp * h ≤ d.length by omega), Bool.not_false, if_true]
  · intro h1
    rw [Nat.mul_comm] at h1
    simp only [if_pos (show w * bpp * h ≤ d.length by omega)]
    refine ⟨_, rfl, rfl, rfl, ?_, fun y i hy hi => rfl⟩
    intro y i hy hi
    have := rows_le hy hi
    rw [Nat.mul_comm h] at this
    exact this

/-- **C38 fails for uncompressed data which are too large**: although an exception is documented, the call succeeds. -/
theorem C38_uncompressed_too_large_accepted (fresh : Nat → UInt8) (d : List UInt8) (pt : PixelType) (bpp w h : Nat)
    (hbpp : bytesPerPel pt = some bpp) (hl : h * (w * bpp) < d.length) :
    ∃ bm, uncompressed fresh d pt w h false = some (.ok bm) := by
  unfold uncompressed
  rw [Nat.mul_comm] at hl
  simp only [hbpp, if_pos (show w * bpp * h ≤ d.length by omega)]
  exact ⟨_, rfl⟩

example : ∃ bm, uncompressed (fun _ => 9) [1, 2, 3, 4] .Bgr24 1 2 true = some (.ok bm) ∧ bm.buf.toList = [1, 2, 3, 9, 4, 0, 0, 9] :=
  ⟨_, rfl, by decide⟩
example : ∃ bm, decode0 toyCodec (fun _ => 9) [0, 1, 2, 3, 4] .Bgr24 1 2 true = some (.ok bm) ∧ bm.buf.toList = [1, 2, 3, 4, 0, 0] :=
  ⟨_, rfl, by decide⟩
example : ∃ bm, decode1 toyCodec (fun _ => 9) [3, 1, 1, 0, 1, 2, 3, 4] .Gray16 1 3 true = some (.ok bm) ∧
    bm.buf.toList = [1, 3, 2, 4, 0, 0] := ⟨_, rfl, by decide⟩

end Verif
