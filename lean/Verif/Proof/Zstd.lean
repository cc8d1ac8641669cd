import Verif.Proof.LoHi
import Verif.Spec.Zstd

namespace Verif.Zstd
open Verif Verif.Blit Verif.LoHi

theorem toList_getD (b : Buf) (i : Nat) (h : i < b.size) : b.toList.getD i 0 = b.get i := by
  unfold Buf.toList
  simp [List.getD, h]

theorem toList_length (b : Buf) : b.toList.length = b.size := by simp [Buf.toList]

theorem rows_le {y i n h : Nat} (hy : y < h) (hi : i < n) : y * n + i < h * n := by
  have := row_lt (s := n) hy; omega

theorem memset_eq {b : Buf} {o n : Nat} {v : UInt8} (h : o + n ≤ b.size) :
    b.memset o v n = some ⟨b.size, fun i => if o ≤ i ∧ i < o + n then v else b.get i⟩ := by
  unfold Buf.memset; rw [if_pos h]

/-- Copying rows tightly. -/
theorem copyTight (bpp : Nat) (src : Buf) (stride w h : Nat) (dst : Buf) (hdst : w * bpp * h ≤ dst.size)
    (hsrc : (h - 1) * stride + w * bpp ≤ src.size) :
    ∃ b, copySamePixelType bpp src 0 stride dst 0 (w * bpp) w h false = some b ∧ b.size = dst.size ∧
      ∀ y i, y < h → i < w * bpp → b.get (y * (w * bpp) + i) = src.get (y * stride + i) := by
  unfold copySamePixelType
  simp only [if_true]
  generalize hn : w * bpp = n at *
  refine loop_inv (fun Y b => b.size = dst.size ∧ ∀ y i, y < Y → i < n → b.get (y * n + i) = src.get (y * stride + i)) _ h dst
    ⟨rfl, by intros; omega⟩ ?_
  rintro Y b hY ⟨hs, hb⟩
  have h1 := rows_le (i := 0) (n := n) (h := h) (y := Y) hY
  have h2 := row_lt (s := n) hY
  have hin := row_in hY hsrc
  rw [Nat.mul_comm n h] at hdst
  refine ⟨_, memcpy_eq (by omega) (by omega), hs, ?_⟩
  intro y i hy hi
  dsimp only
  by_cases hc : y = Y
  · subst hc
    rw [if_pos ⟨by omega, by omega⟩]; congr 1; omega
  · have := row_lt (s := n) (show y < Y by omega)
    rw [if_neg (by omega)]
    exact hb y i (by omega) hi

theorem tightSource_spec (pt : PixelType) (bpp : Nat) (fresh : Nat → UInt8) (w h stride : Nat) (src : Buf)
    (hst : stride = w * bpp ∨ copySupported pt = true) (hsrc : (h - 1) * stride + w * bpp ≤ src.size) (hh : 0 < h) :
    ∃ l, tightSource pt bpp fresh w h stride src = some (.ok l) ∧ l.length = w * bpp * h ∧
      ∀ y i, y < h → i < w * bpp → l.getD (y * (w * bpp) + i) 0 = src.get (y * stride + i) := by
  unfold tightSource
  by_cases hc : stride = w * bpp
  · subst hc
    have hm : w * bpp * h = (h - 1) * (w * bpp) + w * bpp := by
      obtain ⟨k, rfl⟩ : ∃ k, h = k + 1 := ⟨h - 1, by omega⟩
      simp only [Nat.add_sub_cancel]
      rw [Nat.mul_add, Nat.mul_comm k]; omega
    rw [if_pos rfl, if_pos (by omega)]
    refine ⟨_, rfl, by simp, ?_⟩
    intro y i hy hi
    have := rows_le hy hi
    rw [Nat.mul_comm h] at this
    simp [List.getD, this]
  · rw [if_neg hc, if_pos (by simpa [hc] using hst)]
    obtain ⟨b, h1, h2, h3⟩ := copyTight bpp src stride w h ⟨w * bpp * h, fresh⟩ (Nat.le_refl _) hsrc
    rw [h1]
    refine ⟨b.toList, rfl, by rw [toList_length, h2], ?_⟩
    intro y i hy hi
    have := rows_le hy hi
    rw [Nat.mul_comm h] at this
    rw [toList_getD _ _ (by rw [h2]; exact this)]
    exact h3 y i hy hi

theorem decompress_ok {c : Codec} {d l : List UInt8} (hd : c.decompress d = some l) (cap : Nat) (hcap : l.length ≤ cap) :
    decompressOrThrow c d cap l.length = .ok l := by
  unfold decompressOrThrow
  rw [hd]
  simp only [if_neg (show ¬ l.length > cap by omega), ne_eq, not_true, if_false]

theorem decodeMismatch_spec {c : Codec} {d l : List UInt8} (hs : c.contentSize d = some l.length) (hd : c.decompress d = some l)
    (fresh : Nat → UInt8) (bpp w h : Nat) :
    ∃ bm, decodeMismatch c fresh d bpp w h = some (.ok bm) ∧ Shows bm w h (w * bpp) (rows l (w * bpp)) := by
  unfold decodeMismatch
  simp only [hs]
  by_cases hle : l.length ≤ h * (w * bpp)
  · simp only [if_pos hle, decompress_ok hd _ hle]
    refine ⟨⟨w, h, w * bpp, ⟨h * (w * bpp), fun i => if l.length ≤ i ∧ i < l.length + (h * (w * bpp) - l.length) then 0 else
      if i < l.length then l.getD i 0 else fresh i⟩⟩, ?_, rfl, rfl, ?_, ?_⟩
    · rw [memset_eq (show l.length + (h * (w * bpp) - l.length) ≤ h * (w * bpp) by omega)]; rfl
    · intro y i hy hi; exact rows_le hy hi
    · intro y i hy hi
      have := rows_le hy hi
      unfold rows
      dsimp only
      by_cases hc : y * (w * bpp) + i < l.length
      · rw [if_neg (by omega), if_pos hc]
      · rw [if_pos ⟨by omega, by omega⟩]
        simp only [List.getD, List.getElem?_eq_none (show l.length ≤ y * (w * bpp) + i by omega)]; rfl
  · simp only [if_neg hle, decompress_ok hd _ (Nat.le_refl _)]
    refine ⟨⟨w, h, w * bpp, ⟨h * (w * bpp), fun i => if 0 ≤ i ∧ i < 0 + h * (w * bpp) then (Buf.ofList l).get (0 + (i - 0)) else fresh i⟩⟩, ?_, rfl, rfl, ?_, ?_⟩
    · rw [memcpy_eq (by simp [newBitmap]) (by simp [Buf.ofList]; omega)]; rfl
    · intro y i hy hi; exact rows_le hy hi
    · intro y i hy hi
      have := rows_le hy hi
      dsimp only
      rw [if_pos ⟨by omega, by omega⟩]
      simp [rows, Buf.ofList]

theorem decodeExact_ok {c : Codec} {d l : List UInt8} (hs : c.contentSize d = some l.length) (hd : c.decompress d = some l)
    (fresh : Nat → UInt8) (bpp w h : Nat) (hl : l.length = h * (w * bpp)) :
    ∃ bm, decodeExact c fresh d bpp w h = some (.ok bm) ∧ Shows bm w h (w * bpp) (rows l (w * bpp)) := by
  unfold decodeExact
  simp only [hs, ne_eq, hl, not_true, if_false]
  rw [← hl, decompress_ok hd _ (Nat.le_refl _)]
  refine ⟨_, rfl, rfl, rfl, ?_, ?_⟩
  · intro y i hy hi; exact rows_le hy hi
  · intro y i hy hi
    have := rows_le hy hi
    simp only [newBitmap, store, rows]
    rw [if_pos (by omega)]

theorem getD_interleaved (l : List UInt8) (k : Nat) (h : k < l.length) :
    (interleaved l).getD k 0 = l.getD (k / 2 + k % 2 * (l.length / 2)) 0 := by
  unfold interleaved; simp [List.getD, h]

theorem defaultPitch_ge (bpp w : Nat) : w * bpp ≤ defaultPitch bpp w := by
  unfold defaultPitch; rw [Nat.mul_comm w]; omega

theorem checkPack_ok (size w h stride : Nat) (h1 : w * h * 2 ≤ size) (h2 : 2 * w ≤ stride) (h3 : 2 * w < 2 ^ 32) :
    checkPack size w h stride = true := by
  unfold checkPack
  rw [Nat.mod_eq_of_lt (by omega)]
  simp; omega

theorem interleaved_rows (l : List UInt8) (W h : Nat) (hl : l.length = 2 * (W * h)) (y i : Nat) (hy : y < h) (hi : i < 2 * W) :
    rows (interleaved l) (2 * W) y i = l.getD (y * W + i / 2 + i % 2 * (W * h)) 0 := by
  have := rows_le hy hi
  have e : h * (2 * W) = 2 * (W * h) := by rw [Nat.mul_comm W h]; rw [Nat.mul_left_comm]
  unfold rows
  rw [getD_interleaved _ _ (by omega)]
  have e1 : y * (2 * W) = 2 * (y * W) := Nat.mul_left_comm y 2 W
  congr 1
  rw [e1, hl, Nat.mul_div_cancel_left _ (by omega : 0 < 2)]
  have e3 : (2 * (y * W) + i) / 2 = y * W + i / 2 := by omega
  have e4 : (2 * (y * W) + i) % 2 = i % 2 := by omega
  rw [e3, e4]

/-- Packing a complete payload with the right word count. -/
theorem pack_full (l : List UInt8) (W h stride w n : Nat) (fresh : Nat → UInt8) (hl : l.length = 2 * (W * h)) (hn : n = 2 * W)
    (hst : n ≤ stride) (hw : n < 2 ^ 32) :
    ∃ b, packStrided (Buf.ofList l) l.length W h stride (newBitmap fresh w h stride).buf = some (.ok b) ∧
      Shows ⟨w, h, stride, b⟩ w h n (rows (interleaved l) n) := by
  subst hn
  unfold packStrided
  rw [checkPack_ok _ _ _ _ (by omega) hst hw]
  simp only [Bool.not_true, Bool.false_eq_true, if_false]
  have hd : (h - 1) * stride + 2 * W ≤ (newBitmap fresh w h stride).buf.size ∨ h = 0 := by
    rcases Nat.eq_zero_or_pos h with h0 | h0
    · right; exact h0
    · left
      obtain ⟨k, rfl⟩ : ∃ k, h = k + 1 := ⟨h - 1, by omega⟩
      simp only [newBitmap, Nat.add_sub_cancel, Nat.add_mul]; omega
  rcases hd with hd | hd
  · obtain ⟨b, h1, h2⟩ := packC_spec (Buf.ofList l) l.length W h stride (newBitmap fresh w h stride).buf
      (by show l.length / 2 + W * h ≤ l.length; omega) hst hd
    rw [h1]
    refine ⟨b, rfl, rfl, rfl, ?_, ?_⟩
    · intro y i hy hi
      dsimp only
      rw [h2.size]
      simp only [newBitmap]
      exact rows_le hy (by omega)
    · intro y i hy hi
      rw [interleaved_rows l W h hl y i hy hi]
      have hhalf : l.length / 2 = W * h := by omega
      rw [hhalf] at h2
      dsimp only
      rcases Nat.mod_two_eq_zero_or_one i with hm | hm
      · have := h2.low y (i / 2) hy (by omega)
        rw [show i = 2 * (i / 2) by omega, this]
        simp [Buf.ofList]
      · have := h2.high y (i / 2) hy (by omega)
        rw [show y * stride + i = y * stride + 2 * (i / 2) + 1 by omega, this, hm]
        simp [Buf.ofList]; congr 2; omega
  · subst hd
    exact ⟨_, rfl, rfl, rfl, by intros; omega, by intros; omega⟩

theorem decodePackExact_ok {c : Codec} {d l : List UInt8} (hs : c.contentSize d = some l.length) (hd : c.decompress d = some l)
    (fresh : Nat → UInt8) (bpp w h : Nat) (hl : l.length = h * (w * bpp)) (heven : 2 ∣ w * bpp) (hw : w * bpp < 2 ^ 32) :
    ∃ bm, decodePackExact c fresh d bpp w h = some (.ok bm) ∧ Shows bm w h (w * bpp) (rows (interleaved l) (w * bpp)) := by
  unfold decodePackExact
  simp only [hs, ne_eq, hl, not_true, if_false]
  rw [← hl, decompress_ok hd _ (Nat.le_refl _)]
  obtain ⟨W, hW⟩ := heven
  have e : w * bpp / 2 = W := by omega
  dsimp only
  rw [e]
  have hl2 : l.length = 2 * (W * h) := by rw [hl, hW, Nat.mul_comm W h, Nat.mul_left_comm]
  obtain ⟨b, h1, h2⟩ := pack_full l W h (defaultPitch bpp w) w (w * bpp) fresh hl2 hW (defaultPitch_ge bpp w) hw
  have h1' : packStrided (Buf.ofList l) l.length W h (newBitmap fresh w h (defaultPitch bpp w)).stride (newBitmap fresh w h (defaultPitch bpp w)).buf = some (.ok b) := h1
  rw [h1']
  exact ⟨_, rfl, h2⟩

/-- Packing as one line with the right word count. -/
theorem pack_line (l : List UInt8) (heven : 2 ∣ l.length) (hw : l.length < 2 ^ 32) (dst : Buf) (hdst : l.length ≤ dst.size) :
    ∃ b, packStrided (Buf.ofList l) l.length (l.length / 2) 1 l.length dst = some (.ok b) ∧ b.size = dst.size ∧
      (∀ k, k < l.length → b.get k = (interleaved l).getD k 0) := by
  obtain ⟨m, hm⟩ := heven
  have e : l.length / 2 = m := by omega
  unfold packStrided
  rw [e, checkPack_ok _ _ _ _ (by omega) (by omega) (by omega)]
  simp only [Bool.not_true, Bool.false_eq_true, if_false]
  obtain ⟨b, h1, h2⟩ := packC_spec (Buf.ofList l) l.length m 1 l.length dst (by show l.length / 2 + m * 1 ≤ l.length; omega) (by omega) (by omega)
  rw [h1]
  refine ⟨b, rfl, h2.size, ?_⟩
  intro k hk
  rw [getD_interleaved _ _ hk, e]
  rw [e] at h2
  rcases Nat.mod_two_eq_zero_or_one k with hk2 | hk2
  · have := h2.low 0 (k / 2) (by omega) (by omega)
    rw [show 0 * l.length + 2 * (k / 2) = k by omega] at this
    rw [this, hk2]; simp [Buf.ofList]
  · have := h2.high 0 (k / 2) (by omega) (by omega)
    rw [show 0 * l.length + 2 * (k / 2) + 1 = k by omega] at this
    rw [this, hk2]; simp [Buf.ofList]; congr 2; omega

theorem interleaved_length (l : List UInt8) : (interleaved l).length = l.length := by simp [interleaved]

theorem decodePackMismatch_gray16 {c : Codec} {d l : List UInt8} (hs : c.contentSize d = some l.length) (hd : c.decompress d = some l)
    (fresh : Nat → UInt8) (w h : Nat) (heven : 2 ∣ l.length) (hw : w * 2 < 2 ^ 32) (hlen : l.length = h * (w * 2) ∨ l.length < 2 ^ 32) :
    ∃ bm, decodePackMismatch c fresh d 2 w h = some (.ok bm) ∧ Shows bm w h (w * 2) (rows (interleaved l) (w * 2)) := by
  unfold decodePackMismatch
  simp only [hs, decompress_ok hd _ (Nat.le_refl _)]
  by_cases heq : l.length = h * (w * 2)
  · simp only [if_pos heq]
    have e : w * 2 / 2 = w := by omega
    have hl2 : l.length = 2 * (w * h) := by rw [heq, Nat.mul_comm w 2, Nat.mul_left_comm, Nat.mul_comm w h]
    obtain ⟨b, h1, h2⟩ := pack_full l w h (defaultPitch 2 w) w (w * 2) fresh hl2 (by omega) (defaultPitch_ge 2 w) hw
    have h1' : packStrided (Buf.ofList l) l.length (w * 2 / 2) h (newBitmap fresh w h (defaultPitch 2 w)).stride (newBitmap fresh w h (defaultPitch 2 w)).buf = some (.ok b) := by
      rw [e]; exact h1
    rw [h1']
    exact ⟨_, rfl, h2⟩
  · simp only [if_neg heq]
    replace hlen : l.length < 2 ^ 32 := by omega
    by_cases hlt : l.length < h * (w * 2)
    · simp only [if_pos hlt]
      obtain ⟨b, h1, h2, h3⟩ := pack_line l heven hlen (newBitmap fresh w h (w * 2)).buf (by simp only [newBitmap]; omega)
      rw [h1]
      have h2' : b.size = h * (w * 2) := h2
      refine ⟨⟨w, h, w * 2, ⟨b.size, fun i => if l.length ≤ i ∧ i < l.length + (h * (w * 2) - l.length) then 0 else b.get i⟩⟩, ?_, rfl, rfl, ?_, ?_⟩
      · dsimp only
        rw [memset_eq (show l.length + (h * (w * 2) - l.length) ≤ b.size by omega)]; rfl
      · intro y i hy hi
        dsimp only; rw [h2']; exact rows_le hy hi
      · intro y i hy hi
        have := rows_le hy hi
        unfold rows
        dsimp only
        by_cases hc : y * (w * 2) + i < l.length
        · rw [if_neg (by omega), h3 _ hc]
        · rw [if_pos ⟨by omega, by omega⟩]
          simp only [List.getD, List.getElem?_eq_none (show (interleaved l).length ≤ y * (w * 2) + i by rw [interleaved_length]; omega)]; rfl
    · simp only [if_neg hlt]
      obtain ⟨b, h1, h2, h3⟩ := pack_line l heven hlen ⟨l.length, fresh⟩ (Nat.le_refl _)
      rw [h1]
      refine ⟨⟨w, h, w * 2, ⟨h * (w * 2), fun i => if 0 ≤ i ∧ i < 0 + h * (w * 2) then b.get (0 + (i - 0)) else fresh i⟩⟩, ?_, rfl, rfl, ?_, ?_⟩
      · dsimp only
        rw [memcpy_eq (by simp [newBitmap]) (by rw [h2]; dsimp only; omega)]; rfl
      · intro y i hy hi; exact rows_le hy hi
      · intro y i hy hi
        have := rows_le hy hi
        dsimp only
        rw [if_pos ⟨by omega, by omega⟩, show 0 + (y * (w * 2) + i - 0) = y * (w * 2) + i by omega, h3 _ (by omega)]
        rfl

end Verif.Zstd
