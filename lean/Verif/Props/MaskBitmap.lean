import Verif.Props.Chunk

namespace Verif

open Czi Spec

theorem guid_eq_self (g : Guid) : g.eq g = true := by simp [Guid.eq]

theorem guid_eq_true {a b : Guid} (h : a.eq b = true) : a = b := by
  obtain ⟨a1, a2, a3, a4⟩ := a
  obtain ⟨b1, b2, b3, b4⟩ := b
  simp only [Guid.eq, Bool.and_eq_true, beq_iff_eq, List.all_eq_true, List.mem_range] at h
  obtain ⟨⟨⟨rfl, rfl⟩, rfl⟩, h4⟩ := h
  congr 1
  apply Vector.ext
  intro i hi
  have := h4 i hi
  simpa [hi] using this

/-- The size `size - 12` as the code computes it. -/
theorem wrap12 (n : Nat) (h : n < 2 ^ 32) :
    (n + (2 ^ 64 - 12)) % 2 ^ 64 = if 12 ≤ n then n - 12 else n + (2 ^ 64 - 12) := by
  split <;> omega

/-- What `maskGeneral` gives for a container with one chunk. -/
theorem maskGeneral_single (c : StoredChunk) (tail : List UInt8) (hne : c.2 ≠ []) (ht : tail.length ≤ 20)
    (hl : (containerBytes [c]).length + 41 < 2 ^ 32) :
    maskGeneral true (containerBytes [c] ++ tail) =
      if c.1 = maskGuid then
        (if 12 ≤ c.2.length + tail.length then
          .ok ⟨fieldNat (c.2 ++ tail) 0 4, fieldNat (c.2 ++ tail) 4 4, fieldNat (c.2 ++ tail) 8 4,
            if 12 ≤ c.2.length then c.2.length - 12 else c.2.length + (2 ^ 64 - 12), 32⟩
         else .undefined)
      else .undefined := by
  have hb : containerBytes [c] = chunkBytes c := by simp [containerBytes]
  have hlen := chunkBytes_length c
  unfold maskGeneral
  rw [C41_single_exact_partial findMask c tail none ⟨by simp, by simpa using hne, by omega⟩ ht hl]
  have hf : ∀ o n, field (containerBytes [c] ++ tail) (20 + o) n = field (c.2 ++ tail) o n := by
    intro o n
    have hg := guidBytes_length c.1
    simp only [field, hb, chunkBytes]
    rw [List.append_assoc (guidBytes c.1 ++ le 4 c.2.length), ← List.drop_drop,
      List.drop_append_of_le_length (by simp [hg]), List.drop_of_length_le (l := guidBytes c.1 ++ _) (by simp [hg]),
      List.nil_append]
  simp only [chunkInfos, present, Nat.zero_add]
  by_cases hg : c.1 = maskGuid
  · rw [if_pos hg]
    have : findMask none 0 ⟨c.1, 20, c.2.length⟩ = (false, some ⟨c.1, 20, c.2.length⟩) := by
      simp [findMask, hg, guid_eq_self]
    simp only [this, if_true]
    have h1 := hf 0 4
    have h2 := hf 4 4
    have h3 := hf 8 4
    simp only [fieldNat]
    rw [Nat.add_zero] at h1
    rw [h1, h2, h3, wrap12 _ (by rw [hb] at hl; omega)]
    have : (20 + 12 ≤ (containerBytes [c] ++ tail).length) ↔ 12 ≤ c.2.length + tail.length := by
      rw [List.length_append, hb, hlen]; omega
    by_cases h : 12 ≤ c.2.length + tail.length
    · rw [if_pos h, if_pos (this.2 h)]
    · rw [if_neg h, if_neg (fun x => h (this.1 x))]
  · rw [if_neg hg]
    have : findMask none 0 ⟨c.1, 20, c.2.length⟩ = (true, none) := by
      unfold findMask
      rw [if_neg]
      intro h
      exact hg (guid_eq_true h)
    simp [this]

/-- The payload of a valid-pixel-mask chunk: width, height, type of representation (0: uncompressed), stride, then the rows. -/
def maskPayload (w h stride : Nat) (bits : List UInt8) : List UInt8 :=
  le 4 w ++ le 4 h ++ le 4 0 ++ le 4 stride ++ bits

theorem field_le_prefix (n v : Nat) (l : List UInt8) : field (le n v ++ l) 0 n = le n v := by
  simp [field]

theorem maskPayload_fields (w h stride : Nat) (bits : List UInt8) (hw : w < 2 ^ 32) (hh : h < 2 ^ 32) (hs : stride < 2 ^ 32) :
    fieldNat (maskPayload w h stride bits) 0 4 = w ∧ fieldNat (maskPayload w h stride bits) 4 4 = h ∧
    fieldNat (maskPayload w h stride bits) 8 4 = 0 ∧ fieldNat (maskPayload w h stride bits) 12 4 = stride := by
  have e : (256 : Nat) ^ 4 = 2 ^ 32 := by decide
  have d : ∀ (n v k : Nat) (l : List UInt8), (le n v ++ l).drop (n + k) = l.drop k := by
    intro n v k l
    rw [← List.drop_drop, List.drop_append_of_le_length (by simp), List.drop_of_length_le (l := le n v) (by simp), List.nil_append]
  have t : ∀ (n v : Nat) (l : List UInt8), (le n v ++ l).take n = le n v := by
    intro n v l
    rw [List.take_append_of_le_length (by simp), List.take_of_length_le (by simp)]
  unfold maskPayload
  simp only [List.append_assoc]
  refine ⟨?_, ?_, ?_, ?_⟩ <;> unfold fieldNat field
  · rw [List.drop_zero, t, unle_le_of_lt (by omega)]
  · rw [d 4 w 0, List.drop_zero, t, unle_le_of_lt (by omega)]
  · rw [d 4 w 4, d 4 h 0, List.drop_zero, t, unle_le_of_lt (by omega)]
  · rw [d 4 w 8, d 4 h 4, d 4 0 0, List.drop_zero, t, unle_le_of_lt (by omega)]

theorem maskPayload_length (w h stride : Nat) (bits : List UInt8) :
    (maskPayload w h stride bits).length = 16 + bits.length := by simp [maskPayload]; omega

/-- The outcome for a payload (with what follows it) that begins like a mask. `extra` is the number of bytes of `bits` that are
not part of the chunk's payload. -/
theorem maskBitmap_single (p tail : List UInt8) (w h stride : Nat) (bits : List UInt8) (hne : p ≠ [])
    (he : p ++ tail = maskPayload w h stride bits)
    (ht : tail.length ≤ 20) (hl : (containerBytes [(maskGuid, p)]).length + 41 < 2 ^ 32)
    (hw : w < 2 ^ 32) (hh : h < 2 ^ 32) (hs : stride < 2 ^ 32) (hw0 : w ≠ 0) (hh0 : h ≠ 0)
    (hst : (w + 7) % 2 ^ 32 / 8 ≤ stride)
    (hsz : p.length < 12 ∨ (16 ≤ p.length ∧ (h - 1) * stride + (w + 7) % 2 ^ 32 / 8 ≤ p.length - 16)) :
    maskBitmap true (containerBytes [(maskGuid, p)] ++ tail) = .ok ⟨w, h, stride, 36⟩ := by
  have hlen := congrArg List.length he
  rw [maskPayload_length, List.length_append] at hlen
  obtain ⟨f1, f2, f3, f4⟩ := maskPayload_fields w h stride bits hw hh hs
  have hb : containerBytes [(maskGuid, p)] = chunkBytes (maskGuid, p) := by simp [containerBytes]
  have hcl := chunkBytes_length (maskGuid, p)
  dsimp only at hcl
  unfold maskBitmap
  rw [maskGeneral_single _ _ hne ht hl]
  simp only [if_true]
  rw [if_pos (by omega)]
  dsimp only
  rw [he, f1, f2, f3]
  have hstr : fieldNat (containerBytes [(maskGuid, p)] ++ tail) 32 4 = stride := by
    have : field (containerBytes [(maskGuid, p)] ++ tail) 32 4 = field (maskPayload w h stride bits) 12 4 := by
      have hg := guidBytes_length maskGuid
      rw [← he]
      simp only [field, hb, chunkBytes]
      rw [List.append_assoc (guidBytes maskGuid ++ le 4 p.length), show 32 = 20 + 12 from rfl, ← List.drop_drop,
        List.drop_append_of_le_length (by simp [hg]), List.drop_of_length_le (l := guidBytes maskGuid ++ _) (by simp [hg]),
        List.nil_append]
    rw [fieldNat, this]
    exact f4
  have hmul : (h - 1) * stride ≤ (2 ^ 32 - 2) * (2 ^ 32 - 1) := Nat.mul_le_mul (by omega) (by omega)
  have hmin : (w + 7) % 2 ^ 32 / 8 < 2 ^ 32 := by omega
  have hmulv : (2 ^ 32 - 2) * (2 ^ 32 - 1) = 18446744060824649730 := by decide
  have hz : ¬ ((if 12 ≤ p.length then p.length - 12 else p.length + (2 ^ 64 - 12)) < 4) := by
    split <;> omega
  rw [if_neg (by simp), if_neg hz, List.length_append, hb, hcl, if_pos (by omega), ← hb, hstr,
    if_neg (by omega), if_neg (by omega), if_neg]
  split <;> omega

/-- **C52 (exact).** For an attachment with a single chunk that is a valid-pixel mask in the uncompressed representation, with
all rows present, the bitmap created has the stored size and stride and its pixels are the stored bits, all inside the attachment. -/
theorem C52_mask_exact_partial (w h stride : Nat) (bits tail : List UInt8) (ht : tail.length ≤ 20)
    (hw0 : 0 < w) (hw : w + 7 < 2 ^ 32) (hh0 : 0 < h) (hh : h < 2 ^ 32) (hs : stride < 2 ^ 32)
    (hst : (w + 7) / 8 ≤ stride) (hb : (h - 1) * stride + (w + 7) / 8 ≤ bits.length) (hl : bits.length + 100 < 2 ^ 32) :
    let data := containerBytes [(maskGuid, maskPayload w h stride bits)] ++ tail
    maskBitmap true data = .ok ⟨w, h, stride, 36⟩ ∧
    ∀ x y, x < w → y < h → ∃ b, bits[y * stride + x / 8]? = some b ∧
      maskPixel data 36 stride x y = some (b.toNat.testBit (7 - x % 8)) := by
  intro data
  have hpl := maskPayload_length w h stride bits
  have hmin : (w + 7) % 2 ^ 32 / 8 = (w + 7) / 8 := by rw [Nat.mod_eq_of_lt hw]
  have hcb : containerBytes [(maskGuid, maskPayload w h stride bits)] = chunkBytes (maskGuid, maskPayload w h stride bits) := by
    simp [containerBytes]
  have hcl := chunkBytes_length (maskGuid, maskPayload w h stride bits)
  dsimp only at hcl
  have hne : maskPayload w h stride bits ≠ [] := by
    intro h0; rw [h0] at hpl; simp at hpl; omega
  constructor
  · show maskBitmap true (containerBytes [(maskGuid, maskPayload w h stride bits)] ++ tail) = _
    refine maskBitmap_single (maskPayload w h stride bits) tail w h stride (bits ++ tail) hne ?_ ht ?_ (by omega) hh hs (by omega) (by omega) (by omega) ?_
    · simp [maskPayload]
    · rw [hcb, hcl]; omega
    · right; rw [hmin]; omega
  · intro x y hx hy
    have hyb : y * stride + x / 8 < bits.length := by
      have : y * stride ≤ (h - 1) * stride := Nat.mul_le_mul_right _ (by omega)
      omega
    have hget : data[36 + y * stride + x / 8]? = bits[y * stride + x / 8]? := by
      show (containerBytes [(maskGuid, maskPayload w h stride bits)] ++ tail)[36 + y * stride + x / 8]? = _
      rw [List.getElem?_append_left (by rw [hcb, hcl, hpl]; omega), hcb]
      unfold chunkBytes maskPayload
      rw [List.getElem?_append_right (by simp [guidBytes_length]; omega),
        List.getElem?_append_right (by simp [guidBytes_length]; omega)]
      congr 1
      simp [guidBytes_length]
      omega
    obtain ⟨b, hbb⟩ : ∃ b, bits[y * stride + x / 8]? = some b := ⟨_, List.getElem?_eq_getElem hyb⟩
    exact ⟨b, hbb, by rw [maskPixel, hget, hbb]; rfl⟩

/-- What a search for the mask finds, as long as no 32-bit wrap-around happens. -/
theorem chunkLoop_findMask (data : List UInt8)
    (h : ∀ k, 20 * k + 20 ≤ data.length → data.length + 20 + fieldNat data (20 * k + 16) 4 < 2 ^ 32 ∧
      12 ≤ fieldNat data (20 * k + 16) 4) (n k offset : Nat) (hn : data.length - 20 * k = n)
    (hk : 20 * k ≤ offset) (ho : offset + 21 ≤ data.length) (c : Chunk) (b : Bool)
    (hc : chunkLoop findMask data (20 * k) offset none = (.ok b, some c)) :
    c.offset + c.size ≤ data.length ∧ 12 ≤ c.size := by
  induction n using Nat.strongRecOn generalizing k offset with
  | _ n ih =>
    have hh := h k (by omega)
    rw [chunkLoop, if_pos (by omega)] at hc
    dsimp only at hc
    rw [Nat.mod_eq_of_lt (by omega : offset + 20 + fieldNat data (20 * k + 16) 4 < 2 ^ 32),
      Nat.mod_eq_of_lt (by omega : offset + 20 < 2 ^ 32)] at hc
    split at hc
    · cases hc
    · rename_i h1
      by_cases hg : (guidOf (field data (20 * k) 16)).eq maskGuid = true
      · have e : ∀ c' : Chunk, c'.guid.eq maskGuid = true → findMask none 0 c' = (false, some c') := by
          intro c' hc'; simp [findMask, hc']
        rw [e _ hg] at hc
        simp only [if_true] at hc
        injection hc with _ h2
        injection h2 with h2
        subst h2
        exact ⟨by dsimp only; omega, hh.2⟩
      · have e : ∀ c' : Chunk, ¬ c'.guid.eq maskGuid = true → findMask none 0 c' = (true, none) := by
          intro c' hc'; simp [findMask, hc']
        rw [e _ hg] at hc
        simp only [Bool.true_eq_false, if_false] at hc
        split at hc
        · cases hc
        · exact ih (data.length - 20 * (k + 1)) (by omega) (k + 1) _ rfl (by omega) (by omega) hc

/-- **C52 (inside).** For every attachment, whatever its contents: if no size field that can be read is smaller than 12 or leads to a
32-bit wrap-around, and the width is at most 2^32 - 8, every pixel of the bitmap created lies inside the attachment. -/
theorem C52_inside_partial (has : Bool) (data : List UInt8) (b : MaskBitmap)
    (h : ∀ k, 20 * k + 20 ≤ data.length → data.length + 20 + fieldNat data (20 * k + 16) 4 < 2 ^ 32 ∧
      12 ≤ fieldNat data (20 * k + 16) 4)
    (hb : maskBitmap has data = .ok b) (hw : b.width + 7 < 2 ^ 32) (x y : Nat) (hx : x < b.width) (hy : y < b.height) :
    (maskPixel data b.dataOffset b.stride x y).isSome = true := by
  have hin : b.dataOffset + y * b.stride + x / 8 < data.length := by
    unfold maskBitmap at hb
    split at hb
    · cases hb
    · cases hb
    · rename_i g hgen
      split at hb
      · cases hb
      split at hb
      · cases hb
      split at hb
      rotate_left
      · cases hb
      dsimp only at hb
      split at hb
      · cases hb
      split at hb
      · cases hb
      split at hb
      · cases hb
      injection hb with hb
      subst hb
      dsimp only at *
      unfold maskGeneral at hgen
      split at hgen
      · cases hgen
      · cases hgen
      · cases hgen
      · rename_i b0 c henum
        split at hgen
        rotate_left
        · cases hgen
        injection hgen with hgen
        have hcc : c.offset + c.size ≤ data.length ∧ 12 ≤ c.size := by
          unfold enumerateChunks at henum
          split at henum
          · cases henum
          split at henum
          · cases henum
          exact chunkLoop_findMask data h _ 0 0 rfl (by omega) (by omega) c b0 henum
        subst hgen
        dsimp only at *
        rename_i hs4 _ _ _ hsz _
        have hyb : y * fieldNat data (c.offset + 12) 4 ≤ (fieldNat data (c.offset + 4) 4 - 1) * fieldNat data (c.offset + 12) 4 :=
          Nat.mul_le_mul_right _ (by omega)
        have hm : (fieldNat data c.offset 4 + 7) % 2 ^ 32 = fieldNat data c.offset 4 + 7 := Nat.mod_eq_of_lt hw
        rw [hm] at hsz
        have hwr : (c.size + (2 ^ 64 - 12)) % 2 ^ 64 ≤ c.size - 12 := by
          have : c.size + (2 ^ 64 - 12) = (c.size - 12) + 2 ^ 64 := by omega
          rw [this, Nat.add_mod_right]
          exact Nat.mod_le _ _
        omega
  rw [maskPixel, List.getElem?_eq_getElem hin]
  rfl

/-- **C52, violated.** If the container has no mask chunk, the code uses an uninitialised variable instead of reporting it; shown for every
container with one chunk that is not a mask. -/
theorem C52_no_mask_undefined (c : StoredChunk) (tail : List UInt8) (hne : c.2 ≠ []) (ht : tail.length ≤ 20)
    (hl : (containerBytes [c]).length + 41 < 2 ^ 32) (hg : c.1 ≠ maskGuid) :
    maskBitmap true (containerBytes [c] ++ tail) = .undefined := by
  unfold maskBitmap
  rw [maskGeneral_single c tail hne ht hl, if_neg hg]

/-- **C52, violated.** A mask chunk with a payload of 8 bytes (width and height only) passes the size check because `size - 12` wraps
around: with 8 arbitrary further bytes for representation and stride, a bitmap of *any* size is created, and none of its pixels is in the
attachment. -/
theorem C52_short_chunk_out_of_bounds (w h stride : Nat) (hw0 : 0 < w) (hw : w + 7 < 2 ^ 32) (hh0 : 0 < h) (hh : h < 2 ^ 32)
    (hs : stride < 2 ^ 32) (hst : (w + 7) / 8 ≤ stride) :
    let data := containerBytes [(maskGuid, le 4 w ++ le 4 h)] ++ (le 4 0 ++ le 4 stride)
    maskBitmap true data = .ok ⟨w, h, stride, 36⟩ ∧ ∀ x y, maskPixel data 36 stride x y = none := by
  intro data
  constructor
  · refine maskBitmap_single (le 4 w ++ le 4 h) (le 4 0 ++ le 4 stride) w h stride [] (by simp [le]) (by simp [maskPayload]) (by simp)
      (by simp [containerBytes, chunkBytes, guidBytes_length]) (by omega) hh hs (by omega) (by omega) ?_ (Or.inl (by simp))
    rw [Nat.mod_eq_of_lt hw]; exact hst
  · intro x y
    have : data.length = 36 := by
      simp [data, containerBytes, chunkBytes, guidBytes_length]
    rw [maskPixel, List.getElem?_eq_none (by omega)]
    rfl

/-- **C52, violated.** For a width of 2^32 - 7 or more the minimal stride computed is 0: a bitmap without any pixel data is accepted. -/
theorem C52_width_wrap_out_of_bounds (w : Nat) (hw : w < 2 ^ 32) (hw7 : 2 ^ 32 - 7 ≤ w) :
    let data := containerBytes [(maskGuid, maskPayload w 1 0 [])]
    maskBitmap true data = .ok ⟨w, 1, 0, 36⟩ ∧ maskPixel data 36 0 0 0 = none := by
  intro data
  have hmin : (w + 7) % 2 ^ 32 / 8 = 0 := by omega
  constructor
  · have := maskBitmap_single (maskPayload w 1 0 []) [] w 1 0 [] (by simp [maskPayload, le]) (by simp) (by simp)
      (by simp [containerBytes, chunkBytes, guidBytes_length, maskPayload_length]) hw (by omega) (by omega) (by omega) (by omega)
      (by omega) (Or.inr (by rw [hmin, maskPayload_length]; simp))
    rwa [List.append_nil] at this
  · have : data.length = 36 := by
      simp [data, containerBytes, chunkBytes, guidBytes_length, maskPayload_length]
    rw [maskPixel, List.getElem?_eq_none (by omega)]
    rfl

/-! ## Non-vacuity -/

example : maskBitmap true (containerBytes [(maskGuid, maskPayload 9 2 2 [0xff, 0x80, 0x01, 0x00])]) = .ok ⟨9, 2, 2, 36⟩ := by
  decide +kernel
example : maskPixel (containerBytes [(maskGuid, maskPayload 9 2 2 [0xff, 0x80, 0x01, 0x00])]) 36 2 7 1 = some true := by
  decide +kernel
example : exGuid ≠ maskGuid := by decide
example : ∀ k, 20 * k + 20 ≤ (containerBytes [(maskGuid, maskPayload 1 1 1 [1])]).length →
    (containerBytes [(maskGuid, maskPayload 1 1 1 [1])]).length + 20 +
      fieldNat (containerBytes [(maskGuid, maskPayload 1 1 1 [1])]) (20 * k + 16) 4 < 2 ^ 32 ∧
    12 ≤ fieldNat (containerBytes [(maskGuid, maskPayload 1 1 1 [1])]) (20 * k + 16) 4 := by
  intro k hk
  have : (containerBytes [(maskGuid, maskPayload 1 1 1 [1])]).length = 37 := by decide +kernel
  have : k = 0 := by omega
  subst this
  decide +kernel

end Verif
