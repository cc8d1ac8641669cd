import Verif.Proof.Bitonal
import Verif.Spec.Rect

/-!
# C39 Bitonal pixel operations
-/

namespace Verif
open Blit Czi Bitonal Spec

/-! ## The argument check -/

/-- The bitmap's extent is not empty and its rows lie in the memory block without overlapping. -/
def GoodLock (m : Mask) : Prop := 0 < m.w ∧ 0 < m.h ∧ m.WF

theorem minimalStride_eq {w : Nat} (h : w < 4294967289) : minimalStride w = (w + 7) / 8 := by
  unfold minimalStride
  rw [Nat.mod_eq_of_lt (by omega)]

/-- **C39 (argument check).** For every extent of less than 2^32-7 columns: the operations refuse exactly the lock infos that do not
describe a non-empty bitmap lying inside its memory block. -/
theorem C39_lock_check (m : Mask) (hw : m.w < 4294967289) : checkLock m = true ↔ GoodLock m := by
  unfold checkLock GoodLock Mask.WF
  rw [minimalStride_eq hw, Nat.mul_comm m.stride]
  constructor
  · intro h
    split at h
    · exact absurd h (by simp)
    · split at h
      · exact absurd h (by simp)
      · split at h
        · exact absurd h (by simp)
        · exact ⟨by omega, by omega, by omega, fun _ => by omega⟩
  · rintro ⟨h1, h2, h3, h4⟩
    have := h4 h2
    rw [if_neg (by omega), if_neg (by omega), if_neg (by omega)]

/-- **C39 violated:** for a bitmap of 2^32-1 columns the check's size computation wraps around, so that a memory block of a single
byte is accepted, and reading a pixel accesses memory far outside of it. -/
theorem C39_wide_bitmap_out_of_bounds :
    getPixelValue ⟨4294967295, 1, 1, ⟨1, fun _ => 0⟩⟩ 4294967294 0 = .undefined := by decide +kernel

theorem row_inside (m : Mask) (h : m.WF) (y : Nat) (hy : y < m.h) : y * m.stride + (m.w + 7) / 8 ≤ m.buf.size := by
  have h1 := h.2 (by omega)
  have h2 : y * m.stride ≤ (m.h - 1) * m.stride := Nat.mul_le_mul_right _ (by omega)
  omega

/-- **C39 (reading).** `GetPixelValue` returns the addressed pixel, and throws for coordinates outside the bitmap or a bad lock
info; it never accesses memory outside the bitmap. -/
theorem C39_get_pixel (m : Mask) (hw : m.w < 4294967289) (x y : Nat) :
    (GoodLock m ∧ x < m.w ∧ y < m.h → getPixelValue m x y = .ok (m.at x y)) ∧
    (¬ (GoodLock m ∧ x < m.w ∧ y < m.h) → getPixelValue m x y = .throws) := by
  constructor
  · rintro ⟨hg, hx, hy⟩
    unfold getPixelValue
    rw [(C39_lock_check m hw).mpr hg, if_neg (by simp), if_neg (by omega)]
    have := row_inside m hg.2.2 y hy
    unfold Buf.read
    rw [if_pos (by omega)]
    show Outcome.ok (decide (m.buf.get (y * m.stride + x / 8) &&& columnBit x ≠ 0)) = _
    rw [columnBit_and]
    rfl
  · intro h
    unfold getPixelValue
    by_cases hc : checkLock m = true
    · rw [if_neg (by simp [hc]), if_pos]
      have := (C39_lock_check m hw).mp hc
      by_cases h1 : x < m.w <;> by_cases h2 : y < m.h
      · exact absurd ⟨this, h1, h2⟩ h
      · omega
      · omega
      · omega
    · rw [if_pos (by simpa using hc)]

/-- **C39 (writing).** `SetPixelValue` changes the addressed pixel to the given value and nothing else - neither another pixel, nor
unused bits, nor padding - and throws, changing nothing, for coordinates outside the bitmap or a bad lock info. -/
theorem C39_set_pixel (m : Mask) (hw : m.w < 4294967289) (x y : Nat) (value : Bool) :
    (GoodLock m ∧ x < m.w ∧ y < m.h → ∃ out, setPixelValue m x y value = .ok out ∧
      out.w = m.w ∧ out.h = m.h ∧ out.stride = m.stride ∧ out.buf.size = m.buf.size ∧
      out.at x y = value ∧ (∀ c r, c < 8 * m.stride → (c ≠ x ∨ r ≠ y) → out.at c r = m.at c r)) ∧
    (¬ (GoodLock m ∧ x < m.w ∧ y < m.h) → setPixelValue m x y value = .throws) := by
  constructor
  · rintro ⟨hg, hx, hy⟩
    unfold setPixelValue
    rw [(C39_lock_check m hw).mpr hg, if_neg (by simp), if_neg (by omega)]
    have hrow := row_inside m hg.2.2 y hy
    have hst := hg.2.2.1
    unfold Buf.read
    rw [if_pos (by omega)]
    dsimp only [Option.bind_some]
    unfold Buf.write
    rw [if_pos (by omega)]
    refine ⟨_, rfl, rfl, rfl, rfl, rfl, ?_, ?_⟩
    · unfold Mask.at
      dsimp only
      rw [if_pos rfl, changeBits_testBit _ _ _ _ (by omega), columnBit_testBit, if_pos (by simp)]
    · intro c r hc hne
      unfold Mask.at
      dsimp only
      by_cases hi : r * m.stride + c / 8 = y * m.stride + x / 8
      · obtain ⟨h1, h2⟩ := row_unique hi (by omega) (by omega)
        rw [if_pos hi, changeBits_testBit _ _ _ _ (by omega), columnBit_testBit, if_neg (by
          rw [decide_eq_true_eq]
          omega), ← h1, ← h2]
      · rw [if_neg hi]
  · intro h
    unfold setPixelValue
    by_cases hc : checkLock m = true
    · rw [if_neg (by simp [hc]), if_pos]
      have := (C39_lock_check m hw).mp hc
      by_cases h1 : x < m.w <;> by_cases h2 : y < m.h
      · exact absurd ⟨this, h1, h2⟩ h
      · omega
      · omega
      · omega
    · rw [if_pos (by simpa using hc)]

/-- **C39 (all pixels).** `SetAllPixels` gives every pixel the value and leaves the padding bytes of the rows alone (the unused bits
of the last byte of a row are set too). -/
theorem C39_set_all (m : Mask) (hw : m.w < 4294967289) (value : Bool) :
    (GoodLock m → ∃ out, setAllPixels m value = .ok out ∧ out.w = m.w ∧ out.h = m.h ∧ out.stride = m.stride ∧
      out.buf.size = m.buf.size ∧ (∀ x y, x < m.w → y < m.h → out.at x y = value) ∧
      (∀ c y, (m.w + 7) / 8 ≤ c / 8 → c < 8 * m.stride → out.at c y = m.at c y) ∧
      (∀ c y, m.h ≤ y → c < 8 * m.stride → out.at c y = m.at c y)) ∧
    (¬ GoodLock m → setAllPixels m value = .throws) := by
  constructor
  · intro hg
    unfold setAllPixels
    rw [(C39_lock_check m hw).mpr hg, if_neg (by simp), minimalStride_eq hw]
    obtain ⟨b', h1, h2, h3⟩ := bytes_pixel value 0 ((m.w + 7) / 8) 0 m.stride m.h m.buf (by have := hg.2.2.1; omega)
      (fun y hy => by have := row_inside m hg.2.2 y hy; rw [Nat.zero_add]; omega)
    have he : (loop m.h (fun y b => b.memset (y * m.stride) (if value then 0xff else 0) ((m.w + 7) / 8)) m.buf) = some b' := by
      rw [← h1]
      unfold setByte
      congr 1
      funext y b
      rw [Nat.mul_zero, Nat.zero_add]
    rw [he]
    refine ⟨_, rfl, rfl, rfl, rfl, h2, ?_, ?_, ?_⟩
    · intro x y hx hy
      have := hg.2.2.1
      refine (h3 x y (by omega)).trans ?_
      rw [if_pos (by omega)]
    · intro c y hc hcs
      refine (h3 c y hcs).trans ?_
      rw [if_neg (by omega)]
      rfl
    · intro c y hc hcs
      refine (h3 c y hcs).trans ?_
      rw [if_neg (by omega)]
      rfl
  · intro h
    unfold setAllPixels
    rw [if_pos]
    rw [← C39_lock_check m hw] at h
    simpa using h

/-- The region's right and lower edges are representable. -/
def EdgesOk (roi : IntRect) : Prop :=
  -2147483648 ≤ roi.x + roi.w ∧ roi.x + roi.w ≤ 2147483647 ∧ -2147483648 ≤ roi.y + roi.h ∧ roi.y + roi.h ≤ 2147483647

theorem rightEdge_nonneg (pos size : Int) (extent : Nat) (h0 : 0 ≤ pos + size) (h1 : pos + size ≤ 2147483647) :
    rightEdge pos size extent = min (pos + size) extent := by
  unfold rightEdge toInt32
  rw [Int.emod_eq_of_lt h0 (by omega)]
  omega

theorem rightEdge_neg (pos size : Int) (extent : Nat) (h0 : pos + size < 0) (h1 : -2147483648 ≤ pos + size)
    (he : extent ≤ 2147483648 - 1) : rightEdge pos size extent = extent := by
  unfold rightEdge toInt32
  have : (pos + size) % 4294967296 = pos + size + 4294967296 := by
    rw [← Int.add_emod_right]
    exact Int.emod_eq_of_lt (by omega) (by omega)
  rw [this]
  omega

/-- **C39 (filling; partial: the region must not end left of or above the bitmap, i.e. at a negative coordinate).** For every
bitmap and stride, every region - partly outside too - and either value: exactly the pixels of the bitmap inside the region get the
value; all other pixels, the unused bits and the padding are unchanged. Full statement: the same for all regions - violated, see
`C39_fill_outside_region`. -/
theorem C39_fill_partial (m : Mask) (hw : m.w ≤ 2147483640) (hh : m.h ≤ 2147483647) (roi : IntRect) (he : EdgesOk roi)
    (hx : 0 ≤ roi.x + roi.w) (hy : 0 ≤ roi.y + roi.h) (value : Bool) :
    (GoodLock m → ∃ out, fill m roi value = .ok out ∧ out.w = m.w ∧ out.h = m.h ∧ out.stride = m.stride ∧
      out.buf.size = m.buf.size ∧
      ∀ c y : Nat, c < 8 * m.stride →
        out.at c y = if c < m.w ∧ y < m.h ∧ roi.Has c y then value else m.at c y) ∧
    (¬ GoodLock m → fill m roi value = .throws) := by
  obtain ⟨e1, e2, e3, e4⟩ := he
  constructor
  · intro hg
    unfold fill
    rw [(C39_lock_check m (by omega)).mpr hg, if_neg (by simp), if_neg (by omega)]
    dsimp only
    rw [rightEdge_nonneg _ _ _ hx e2, rightEdge_nonneg _ _ _ hy e4]
    by_cases hem : min (roi.x + roi.w) ↑m.w - max roi.x 0 ≤ 0 ∨ min (roi.y + roi.h) ↑m.h - max roi.y 0 ≤ 0
    · rw [if_pos hem]
      refine ⟨m, rfl, rfl, rfl, rfl, rfl, ?_⟩
      intro c y _
      rw [if_neg]
      unfold IntRect.Has
      omega
    · rw [if_neg hem, if_neg (by omega)]
      obtain ⟨b', h1, h2, h3⟩ := fillClipped_pixel (max roi.x 0).toNat (min (roi.x + roi.w) ↑m.w).toNat (max roi.y 0).toNat
        (min (roi.y + roi.h) ↑m.h - max roi.y 0).toNat m.stride value m.buf (by omega)
        (by have := hg.2.2.1; omega)
        (fun y hy => by
          have := row_inside m hg.2.2 ((max roi.y 0).toNat + y) (by omega)
          omega)
      rw [h1]
      refine ⟨_, rfl, rfl, rfl, rfl, h2, ?_⟩
      intro c y hc
      refine (h3 c y hc).trans ?_
      apply ite_iff
      unfold IntRect.Has
      omega
  · intro h
    unfold fill
    rw [if_pos]
    rw [← C39_lock_check m (by omega)] at h
    simpa using h

/-- **C39 violated:** a region whose right edge is negative - it lies entirely to the left of the bitmap - fills its rows over the
bitmap's whole width. This holds for every bitmap of at most 2^31-8 columns, and every such region that meets its rows. -/
theorem C39_fill_outside_region (m : Mask) (hg : GoodLock m) (hw : m.w ≤ 2147483640) (hh : m.h ≤ 2147483647) (roi : IntRect)
    (he : EdgesOk roi) (hx : roi.x + roi.w < 0) (hxw : roi.x ≤ 0) (hy : 0 ≤ roi.y + roi.h) (value : Bool) :
    ∃ out, fill m roi value = .ok out ∧
      ∀ c y : Nat, c < m.w → y < m.h → roi.y ≤ y → y < roi.y + roi.h → out.at c y = value := by
  obtain ⟨e1, e2, e3, e4⟩ := he
  unfold fill
  rw [(C39_lock_check m (by omega)).mpr hg, if_neg (by simp), if_neg (by omega)]
  dsimp only
  rw [rightEdge_neg _ _ _ hx e1 (by omega), rightEdge_nonneg _ _ _ hy e4]
  by_cases hem : (m.w : Int) - max roi.x 0 ≤ 0 ∨ min (roi.y + roi.h) ↑m.h - max roi.y 0 ≤ 0
  · rw [if_pos hem]
    refine ⟨m, rfl, ?_⟩
    intro c y h1 h2 h3 h4
    exfalso
    omega
  · rw [if_neg hem, if_neg (by omega)]
    obtain ⟨b', h1, h2, h3⟩ := fillClipped_pixel (max roi.x 0).toNat ((m.w : Int)).toNat (max roi.y 0).toNat
      (min (roi.y + roi.h) ↑m.h - max roi.y 0).toNat m.stride value m.buf (by omega)
      (by have := hg.2.2.1; omega)
      (fun y hy => by
        have := row_inside m hg.2.2 ((max roi.y 0).toNat + y) (by omega)
        omega)
    rw [h1]
    refine ⟨_, rfl, ?_⟩
    intro c y g1 g2 g3 g4
    refine (h3 c y (by have := hg.2.2.1; omega)).trans ?_
    rw [if_pos (by omega)]

/-! ## Instances of the hypotheses -/

/-- A bitmap of 11x3 pixels with a stride of 4 bytes. -/
def exampleMask : Mask := ⟨11, 3, 4, ⟨12, fun i => (i * 37).toUInt8⟩⟩

example : GoodLock exampleMask ∧ exampleMask.w ≤ 2147483640 ∧ exampleMask.h ≤ 2147483647 ∧ EdgesOk ⟨-2, 1, 11, 9⟩ := by
  simp [GoodLock, exampleMask, Mask.WF, EdgesOk]

/-- Filling a region that is partly outside. -/
example : (match fill exampleMask ⟨-2, 1, 11, 9⟩ true with
    | .ok m => (List.range 12).map m.buf.get
    | _ => []) = [0, 37, 74, 111, 255, 185, 222, 3, 255, 205, 114, 151] := by decide +kernel

/-- The region `[-5,-2) x [0,2)` lies entirely outside of the bitmap, but its rows are filled. -/
example : EdgesOk ⟨-5, 0, 3, 2⟩ ∧ (match fill exampleMask ⟨-5, 0, 3, 2⟩ true with
    | .ok m => (List.range 12).map m.buf.get
    | _ => []) = [255, 229, 74, 111, 255, 249, 222, 3, 40, 77, 114, 151] := by
  refine ⟨by simp [EdgesOk], by decide +kernel⟩

end Verif
