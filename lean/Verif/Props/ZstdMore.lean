import Verif.Props.Zstd

/-!
# C37, C38: which bytes of a packed bitmap are lost with size-mismatch handling
-/

namespace Verif.Zstd
open Verif Verif.Blit Verif.LoHi

/-- One line of `m` words is packed: all other bytes of the destination stay as they are. -/
theorem pack_line_rest (l : List UInt8) (m : Nat) (hm : 2 * m ≤ l.length) (hw : 2 * m < 2 ^ 32) (dst : Buf) (hdst : 2 * m ≤ dst.size) :
    ∃ b, packStrided (Buf.ofList l) l.length m 1 l.length dst = some (.ok b) ∧ b.size = dst.size ∧
      ∀ k, 2 * m ≤ k → b.get k = dst.get k := by
  unfold packStrided
  rw [checkPack_ok _ _ _ _ (by omega) hm hw]
  simp only [Bool.not_true, Bool.false_eq_true, if_false]
  obtain ⟨b, h1, h2⟩ := packC_spec (Buf.ofList l) l.length m 1 l.length dst (by show l.length / 2 + m * 1 ≤ l.length; omega) hm (by omega)
  rw [h1]
  refine ⟨b, rfl, h2.size, fun k hk => h2.rest k ?_⟩
  intro y x hy hx
  have : y = 0 := by omega
  subst this
  omega

theorem decodePackMismatch_equal {c : Codec} {d l : List UInt8} (hs : c.contentSize d = some l.length) (hd : c.decompress d = some l)
    (fresh : Nat → UInt8) (w h : Nat) (hh : 0 < h) (hw : w * 6 < 2 ^ 32) (hl : l.length = h * (w * 6)) :
    ∃ bm, decodePackMismatch c fresh d 6 w h = some (.ok bm) ∧ bm.w = w ∧ bm.h = h ∧
      ∀ y i, y < h → 2 * w ≤ i → i < w * 6 → bm.buf.get (y * bm.stride + i) = fresh (y * bm.stride + i) := by
  unfold decodePackMismatch
  simp only [hs, decompress_ok hd _ (Nat.le_refl _), if_pos hl]
  have hp := defaultPitch_ge 6 w
  have hwh : w * h * 2 ≤ l.length := by
    rw [hl, Nat.mul_comm w h, Nat.mul_assoc]; exact Nat.mul_le_mul_left h (by omega)
  rw [show w * 6 / 6 = w by omega]
  simp only [newBitmap]
  unfold packStrided
  rw [checkPack_ok _ _ _ _ hwh (by omega) (by omega)]
  simp only [Bool.not_true, Bool.false_eq_true, if_false]
  obtain ⟨b, h1, h2⟩ := packC_spec (Buf.ofList l) l.length w h (defaultPitch 6 w) ⟨h * defaultPitch 6 w, fresh⟩
    (by show l.length / 2 + w * h ≤ l.length; omega) (by omega) (by
      obtain ⟨k, rfl⟩ : ∃ k, h = k + 1 := ⟨h - 1, by omega⟩
      show (k + 1 - 1) * defaultPitch 6 w + 2 * w ≤ (k + 1) * defaultPitch 6 w
      rw [Nat.add_mul]; simp only [Nat.add_sub_cancel]; omega)
  rw [h1]
  refine ⟨⟨w, h, defaultPitch 6 w, b⟩, rfl, rfl, rfl, ?_⟩
  intro y i hy hi1 hi2
  refine h2.rest _ ?_
  intro y' x hy' hx
  constructor <;> intro he
  · have := row_inj (y := y) (y' := y') (s := defaultPitch 6 w) (r := i) (r' := 2 * x) (by omega) (by omega) he
    omega
  · have := row_inj (y := y) (y' := y') (s := defaultPitch 6 w) (r := i) (r' := 2 * x + 1) (by omega) (by omega) (by omega)
    omega

end Verif.Zstd

namespace Verif
open Verif.LoHi Verif.Zstd Verif.Blit

/-- **C37 violated for every packed Bgr48 bitmap with the default options** (size-mismatch handling on). Whatever lossless codec, bitmap
and options: after compressing with packing and decoding, the last two thirds of every row are what happened to be in the
memory allocated for the bitmap. -/
theorem C37_bgr48_packed_violated (c : Codec) (hc : Lossless c) (fresh fresh' : Nat → UInt8) (w h stride : Nat)
    (src : Buf) (dest : Nat) (hw : 0 < w) (hh : 0 < h)
    (hst : w * 6 ≤ stride) (hsrc : (h - 1) * stride + w * 6 ≤ src.size) (hrow : w * 6 < 2 ^ 32) (hdest : 4 ≤ dest)
    (z : List UInt8) (hz : compress1 c fresh w h stride .Bgr48 true src dest = some (.ok (some z))) :
    ∃ bm, decode1 c fresh' z .Bgr48 w h true = some (.ok bm) ∧ bm.w = w ∧ bm.h = h ∧
      ∀ y i, y < h → 2 * w ≤ i → i < w * 6 → bm.buf.get (y * bm.stride + i) = fresh' (y * bm.stride + i) := by
  obtain ⟨l, h1, h2, hne, _⟩ := compress1_spec c fresh w h stride .Bgr48 6 true src dest rfl hw hh hst hsrc (Or.inr rfl) hrow hdest
  rw [hz] at h1
  by_cases hfit : (c.compress l).length ≤ dest - 3
  swap
  · rw [if_neg hfit] at h1; simp at h1
  rw [if_pos hfit] at h1
  have hcl : 0 < (c.compress l).length := List.length_pos_iff.2 (hc.nonempty l)
  have hz' : z = 3 :: 1 :: 1 :: c.compress l := by simpa using h1
  subst hz'
  unfold decode1
  rw [show parseHeader (3 :: 1 :: 1 :: c.compress l) = some (3, true) by simp [parseHeader]]
  simp only [show ¬ (3 = 0) by omega, if_false, List.length_cons, if_neg (show ¬ (c.compress l).length + 1 + 1 + 1 ≤ 3 by omega)]
  simp only [ne_eq, reduceCtorEq, not_false_eq_true, not_true_eq_false, and_false, if_false, bytesPerPel, List.drop_succ_cons, List.drop_zero, if_true]
  exact decodePackMismatch_equal (hc.size l hne) (hc.inverse l hne) fresh' w h hh hrow h2

/-- **C38 violated for packed payloads of another size than expected: which bytes are lost.** With size-mismatch handling, a packed payload
of `n` bytes is taken to have `n / bytesPerPixel` 16-bit words. If `n` is smaller than the bitmap, the bytes from twice this number up
to `n` are neither payload nor zero but what was in memory; if it is larger, those that belong to the bitmap. For Bgr48 these
are two thirds of the payload, for Gray16 the last byte of a payload of odd size. -/
theorem C38_packed_lost_violated (c : Codec) (fresh : Nat → UInt8) (d l : List UInt8) (pt : PixelType) (bpp w h : Nat)
    (hpt : pt = .Gray16 ∨ pt = .Bgr48) (hbpp : bytesPerPel pt = some bpp) (n : Nat) (hh : parseHeader d = some (n, true)) (hn : n ≠ 0)
    (hlen : n < d.length) (hs : c.contentSize (d.drop n) = some l.length) (hd : c.decompress (d.drop n) = some l)
    (hsmall : l.length < 2 ^ 32) (hne : l.length ≠ h * (w * bpp)) :
    ∃ bm, decode1 c fresh d pt w h true = some (.ok bm) ∧ bm.w = w ∧ bm.h = h ∧ bm.stride = w * bpp ∧
      ∀ i, 2 * (l.length / bpp) ≤ i → i < l.length → i < h * (w * bpp) → bm.buf.get i = fresh i := by
  have hb : bpp = 2 ∨ bpp = 6 := by
    rcases hpt with h | h <;> subst h <;> simp only [bytesPerPel, Option.some.injEq] at hbpp <;> omega
  have hdiv : 2 * (l.length / bpp) ≤ l.length := by rcases hb with h | h <;> subst h <;> omega
  unfold decode1
  rw [hh]
  simp only [if_neg hn, if_neg (show ¬ d.length ≤ n by omega)]
  rw [if_neg (by rcases hpt with h | h <;> subst h <;> simp), hbpp]
  simp only [if_true]
  unfold decodePackMismatch
  simp only [hs, decompress_ok hd _ (Nat.le_refl _), if_neg hne]
  by_cases hlt : l.length < h * (w * bpp)
  · rw [if_pos hlt]
    obtain ⟨b, h1, h2, h3⟩ := pack_line_rest l (l.length / bpp) hdiv (by omega) (newBitmap fresh w h (w * bpp)).buf (by
      show 2 * (l.length / bpp) ≤ h * (w * bpp); omega)
    rw [h1]
    simp only
    have hbs : b.size = h * (w * bpp) := h2
    rw [memset_eq (by omega)]
    refine ⟨_, rfl, rfl, rfl, rfl, ?_⟩
    intro i hi1 hi2 hi3
    simp only
    rw [if_neg (by omega), h3 i hi1]
    rfl
  · rw [if_neg hlt]
    obtain ⟨b, h1, h2, h3⟩ := pack_line_rest l (l.length / bpp) hdiv (by omega) ⟨l.length, fresh⟩ hdiv
    rw [h1]
    simp only
    have hbs : b.size = l.length := h2
    rw [memcpy_eq (by show 0 + h * (w * bpp) ≤ h * (w * bpp); omega) (by omega)]
    refine ⟨_, rfl, rfl, rfl, rfl, ?_⟩
    intro i hi1 hi2 hi3
    simp only
    rw [if_pos (by omega), show 0 + (i - 0) = i by omega, h3 i hi1]

/-- Instance: a packed Gray16 payload of three bytes for a bitmap of two pixels; the lost byte is number 2. -/
example : parseHeader [3, 1, 1, 0, 7, 8, 9] = some (3, true) ∧ [7, 8, 9].length ≠ 1 * (2 * 2) ∧ 2 * ([7, 8, 9].length / 2) ≤ 2 := by decide

private theorem damaged_throws {c : Codec} {d : List UInt8} {n : Nat} (h : Damaged c d) (hs : c.contentSize d = some n) (cap : Nat) :
    decompressOrThrow c d cap n = .error .runtimeError := by
  unfold decompressOrThrow
  cases hd : c.decompress d with
  | none => rfl
  | some l =>
    dsimp only
    by_cases h1 : l.length > cap
    · rw [if_pos h1]
    · rw [if_neg h1, if_pos]
      intro e
      subst e
      exact h l hd hs

private theorem damaged_all {c : Codec} {d : List UInt8} (h : Damaged c d) (fresh : Nat → UInt8) (bpp w k : Nat) :
    decodeExact c fresh d bpp w k = some (.error .runtimeError) ∧ decodeMismatch c fresh d bpp w k = some (.error .runtimeError) ∧
      decodePackExact c fresh d bpp w k = some (.error .runtimeError) ∧ decodePackMismatch c fresh d bpp w k = some (.error .runtimeError) := by
  unfold decodeExact decodeMismatch decodePackExact decodePackMismatch
  cases hs : c.contentSize d with
  | none => exact ⟨rfl, rfl, rfl, rfl⟩
  | some n =>
    simp only [damaged_throws h hs, ite_self, and_self]

/-- **C38 (damaged data).** Compressed data that cannot be decompressed, or whose contents do not have the size given in them, are reported by an exception: no pixels are made up,
with and without size-mismatch handling, with zstd0 and zstd1. -/
theorem C38_damaged (c : Codec) (fresh : Nat → UInt8) (d : List UInt8) (pt : PixelType) (bpp w h : Nat) (hm : Bool) (hbpp : bytesPerPel pt = some bpp) :
    (Damaged c d → decode0 c fresh d pt w h hm = some (.error .runtimeError)) ∧
    ∀ n packed, parseHeader d = some (n, packed) → Damaged c (d.drop n) → decode1 c fresh d pt w h hm = some (.error .runtimeError) := by
  constructor
  · intro hd
    obtain ⟨h1, h2, -, -⟩ := damaged_all hd fresh bpp w h
    unfold decode0
    rw [hbpp]
    dsimp only
    rw [h1, h2, ite_self]
  · intro n packed hp hd
    obtain ⟨h1, h2, h3, h4⟩ := damaged_all hd fresh bpp w h
    unfold decode1
    rw [hp, hbpp]
    dsimp only
    rw [h1, h2, h3, h4, ite_self, ite_self, ite_self, ite_self, ite_self]

/-- Contents of two bytes although three are announced, behind a header of three bytes. -/
example : parseHeader [3, 1, 1, 0, 7, 8] = some (3, true) ∧ Damaged ⟨fun l => l, fun _ => some 3, fun l => some l.tail⟩ ([3, 1, 1, 0, 7, 8].drop 3) := by
  refine ⟨by decide, fun l h => ?_⟩
  cases h
  decide

end Verif
