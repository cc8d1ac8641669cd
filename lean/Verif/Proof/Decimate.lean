import Verif.Model.Decimate
import Verif.Spec.Decimate
import Verif.Proof.Bitonal

/-! # Helper lemmas for the decimation of bitonal bitmaps -/

namespace Verif
open Blit Czi Bitonal Spec

/-- The position in a little-endian word of the bit for column `s` of 32. -/
def wordPos (s : Nat) : Nat := 8 * (s / 8) + 7 - s % 8

theorem wordPos_lt {s : Nat} (h : s < 32) : wordPos s < 32 := by unfold wordPos; omega

theorem leWord_bit (b : Nat → UInt8) (s : Nat) (hs : s < 32) :
    (leWord (b 0) (b 1) (b 2) (b 3)).getLsbD (wordPos s) = (b (s / 8)).toNat.testBit (7 - s % 8) := by
  show _ = (b (s / 8)).toBitVec.getLsbD (7 - s % 8)
  unfold leWord wordPos
  simp only [BitVec.getLsbD_or, BitVec.getLsbD_shiftLeft, BitVec.getLsbD_setWidth]
  have hq : s / 8 = 0 ∨ s / 8 = 1 ∨ s / 8 = 2 ∨ s / 8 = 3 := by omega
  have hr : s % 8 < 8 := by omega
  have big : ∀ (v : BitVec 8) (i : Nat), 8 ≤ i → v.getLsbD i = false := fun v i h => BitVec.getLsbD_of_ge v i h
  generalize s % 8 = r at *
  rcases hq with h | h | h | h <;> rw [h]
  · rw [show 8 * 0 + 7 - r = 7 - r by omega]
    simp [show 7 - r < 32 by omega, show 7 - r < 8 by omega, show 7 - r < 16 by omega, show 7 - r < 24 by omega]
  · rw [big (b 0).toBitVec (8 * 1 + 7 - r) (by omega), show 8 * 1 + 7 - r - 8 = 7 - r by omega]
    simp [show 15 - r < 32 by omega, show ¬ 15 - r < 8 by omega, show 15 - r < 16 by omega, show 15 - r < 24 by omega, show 7 - r < 32 by omega]
  · rw [big (b 0).toBitVec (8 * 2 + 7 - r) (by omega), big (b 1).toBitVec (8 * 2 + 7 - r - 8) (by omega), show 8 * 2 + 7 - r - 16 = 7 - r by omega]
    simp [show 23 - r < 32 by omega, show ¬ 23 - r < 8 by omega, show ¬ 23 - r < 16 by omega, show 23 - r < 24 by omega, show 7 - r < 32 by omega]
  · rw [big (b 0).toBitVec (8 * 3 + 7 - r) (by omega), big (b 1).toBitVec (8 * 3 + 7 - r - 8) (by omega),
      big (b 2).toBitVec (8 * 3 + 7 - r - 16) (by omega), show 8 * 3 + 7 - r - 24 = 7 - r by omega]
    simp [show 31 - r < 32 by omega, show ¬ 31 - r < 8 by omega, show ¬ 31 - r < 16 by omega, show ¬ 31 - r < 24 by omega, show 7 - r < 32 by omega]

theorem bswap_bit (dw : BitVec 32) (s : Nat) (hs : s < 32) : (bswapDword dw).getLsbD (31 - s) = dw.getLsbD (wordPos s) := by
  have m0 : ∀ i < 32, (0xff000000#32).getLsbD i = decide (24 ≤ i) := by decide
  have m1 : ∀ i < 32, (0x00ff0000#32).getLsbD i = decide (16 ≤ i ∧ i < 24) := by decide
  have m2 : ∀ i < 32, (0x0000ff00#32).getLsbD i = decide (8 ≤ i ∧ i < 16) := by decide
  have m3 : ∀ i < 32, (0x000000ff#32).getLsbD i = decide (i < 8) := by decide
  have big : ∀ (v : BitVec 32) (i : Nat), 32 ≤ i → v.getLsbD i = false := fun v i h => BitVec.getLsbD_of_ge v i h
  unfold bswapDword wordPos
  simp only [BitVec.getLsbD_or, BitVec.getLsbD_shiftLeft, BitVec.getLsbD_ushiftRight, BitVec.getLsbD_and]
  have hq : s / 8 = 0 ∨ s / 8 = 1 ∨ s / 8 = 2 ∨ s / 8 = 3 := by omega
  have hr : s % 8 < 8 := by omega
  have hsd : s = 8 * (s / 8) + s % 8 := by omega
  generalize s % 8 = r at *
  rcases hq with h | h | h | h <;> rw [h] at hsd ⊢
  · rw [big dw (24 + (31 - s)) (by omega), big dw (8 + (31 - s)) (by omega), m2 (31 - s - 8) (by omega), m3 (31 - s - 24) (by omega),
      show 31 - s - 24 = 8 * 0 + 7 - r by omega]
    simp [show 31 - s < 32 by omega, show ¬ 31 - s < 8 by omega, show ¬ 31 - s < 24 by omega, show ¬ (31 - s - 8 < 16) by omega, show 7 - r < 8 by omega]
  · rw [big dw (24 + (31 - s)) (by omega), m1 (8 + (31 - s)) (by omega), m2 (31 - s - 8) (by omega),
      show 31 - s - 8 = 8 * 1 + 7 - r by omega]
    simp [show 31 - s < 32 by omega, show ¬ 31 - s < 8 by omega, show 31 - s < 24 by omega, show ¬ 8 + (31 - s) < 24 by omega, show 15 - r < 16 by omega, show 8 ≤ 15 - r by omega]
  · rw [big dw (24 + (31 - s)) (by omega), m1 (8 + (31 - s)) (by omega), m2 (31 - s - 8) (by omega),
      show 8 + (31 - s) = 8 * 2 + 7 - r by omega]
    simp [show 31 - s < 32 by omega, show ¬ 31 - s < 8 by omega, show 31 - s < 24 by omega, show 16 ≤ 23 - r by omega, show 23 - r < 24 by omega, show ¬ 8 ≤ 31 - s - 8 by omega]
  · rw [m0 (24 + (31 - s)) (by omega), m1 (8 + (31 - s)) (by omega),
      show 24 + (31 - s) = 8 * 3 + 7 - r by omega]
    simp [show 31 - s < 8 by omega, show 31 - s < 24 by omega, show 24 ≤ 31 - r by omega, show ¬ 16 ≤ 8 + (31 - s) by omega]

theorem bswapWord_low (us : BitVec 16) (i : Nat) (hi : i < 8) : ((bswapWord us).setWidth 8).getLsbD i = us.getLsbD (i + 8) := by
  have m0 : ∀ i < 16, (0xff00#16).getLsbD i = decide (8 ≤ i) := by decide
  unfold bswapWord
  simp only [BitVec.getLsbD_setWidth, BitVec.getLsbD_or, BitVec.getLsbD_shiftLeft, BitVec.getLsbD_ushiftRight, BitVec.getLsbD_and]
  rw [m0 (8 + i) (by omega), Nat.add_comm i 8]
  simp [hi]

theorem bswapWord_high (us : BitVec 16) (i : Nat) (hi : i < 8) :
    ((bswapWord us >>> 8).setWidth 8).getLsbD i = us.getLsbD i := by
  have m1 : ∀ i < 16, (0x00ff#16).getLsbD i = decide (i < 8) := by decide
  unfold bswapWord
  simp only [BitVec.getLsbD_setWidth, BitVec.getLsbD_or, BitVec.getLsbD_shiftLeft, BitVec.getLsbD_ushiftRight, BitVec.getLsbD_and]
  rw [show 8 + i - 8 = i by omega, m1 i (by omega), BitVec.getLsbD_of_ge us (8 + (8 + i)) (by omega)]
  simp [hi, show 8 + i < 16 by omega]

theorem table_bit (v : BitVec 64) (shift r : Nat) :
    (tableAt v shift).getLsbD r = (decide (r < 4) && v.getLsbD (shift + 2 * r + 1)) := by
  have k : ∀ b < 256, ∀ r < 4, (BitVec.ofNat 16 (decimateTable.getD b 0)).getLsbD r = b.testBit (2 * r + 1) := by decide +kernel
  have k2 : ∀ b < 256, decimateTable.getD b 0 < 16 := by decide +kernel
  unfold tableAt
  by_cases hr : r < 4
  · rw [k _ (BitVec.isLt _) r hr]
    show ((v >>> shift).setWidth 8).getLsbD (2 * r + 1) = _
    rw [BitVec.getLsbD_setWidth, BitVec.getLsbD_ushiftRight]
    simp [hr, show 2 * r + 1 < 8 by omega, Nat.add_assoc]
  · have := k2 _ ((v >>> shift).setWidth 8).isLt
    have h2 : 2 ^ 4 ≤ 2 ^ r := Nat.pow_le_pow_right (by omega) (by omega)
    rw [BitVec.getLsbD_ofNat, Nat.testBit_lt_two_pow (Nat.lt_of_lt_of_le this h2)]
    simp [hr]

/-- The sixteen bits of the table look-ups are the odd bits of the middle of the filtered value. -/
theorem tables_bit (v : BitVec 64) (j : Nat) (hj : j < 16) :
    (tableAt v 8 ||| tableAt v 16 <<< 4 ||| tableAt v 24 <<< 8 ||| tableAt v 32 <<< 12).getLsbD j = v.getLsbD (2 * j + 9) := by
  simp only [BitVec.getLsbD_or, BitVec.getLsbD_shiftLeft, table_bit]
  have hq : j / 4 = 0 ∨ j / 4 = 1 ∨ j / 4 = 2 ∨ j / 4 = 3 := by omega
  rcases hq with h | h | h | h
  · rw [show 8 + 2 * j + 1 = 2 * j + 9 by omega]
    simp [hj, show j < 4 by omega, show j < 8 by omega, show j < 12 by omega]
  · rw [show 16 + 2 * (j - 4) + 1 = 2 * j + 9 by omega]
    simp [hj, show ¬ j < 4 by omega, show j < 8 by omega, show j < 12 by omega, show j - 4 < 4 by omega]
  · rw [show 24 + 2 * (j - 8) + 1 = 2 * j + 9 by omega]
    simp [hj, show ¬ j < 4 by omega, show ¬ j < 8 by omega, show j < 12 by omega, show ¬ j - 4 < 4 by omega, show j - 8 < 4 by omega]
  · rw [show 32 + 2 * (j - 12) + 1 = 2 * j + 9 by omega]
    simp [hj, show ¬ j < 4 by omega, show ¬ j < 8 by omega, show ¬ j < 12 by omega, show ¬ j - 4 < 4 by omega, show ¬ j - 8 < 4 by omega, show j - 12 < 4 by omega]

theorem bitFilter_bit (n : Nat) (v : BitVec 64) (i : Nat) (h1 : n ≤ i) (h2 : i < 64) :
    (bitFilter n v).getLsbD i = true ↔ ∀ d ≤ n, v.getLsbD (i - d) = true ∧ v.getLsbD (i + d) = true := by
  induction n with
  | zero =>
    unfold bitFilter
    constructor
    · intro h d hd
      rw [show d = 0 by omega]
      exact ⟨h, h⟩
    · intro h
      exact (h 0 (by omega)).1
  | succ n ih =>
    unfold bitFilter
    rw [BitVec.getLsbD_and, BitVec.getLsbD_and, BitVec.getLsbD_shiftLeft, BitVec.getLsbD_ushiftRight]
    rw [Bool.and_eq_true, Bool.and_eq_true, ih (by omega)]
    simp only [h2, show ¬ i < n + 1 by omega, decide_true, decide_false, Bool.not_false, Bool.true_and, Nat.add_comm (n + 1) i]
    constructor
    · rintro ⟨⟨h3, h4⟩, h5⟩ d hd
      by_cases h6 : d ≤ n
      · exact h3 d h6
      · rw [show d = n + 1 by omega]
        exact ⟨h4, h5⟩
    · intro h
      exact ⟨⟨fun d hd => h d (by omega), (h (n + 1) (by omega)).1⟩, (h (n + 1) (by omega)).2⟩

theorem filterInput_after (dw : BitVec 32) (bb ba : BitVec 8) (i : Nat) (h : i < 8) :
    (filterInput dw bb ba).getLsbD i = ba.getLsbD i := by
  unfold filterInput
  simp only [BitVec.getLsbD_or, BitVec.getLsbD_shiftLeft, BitVec.getLsbD_setWidth]
  simp [h, show i < 64 by omega, show i < 40 by omega]

theorem filterInput_word (dw : BitVec 32) (bb ba : BitVec 8) (i : Nat) (h : 8 ≤ i) (h2 : i < 40) :
    (filterInput dw bb ba).getLsbD i = dw.getLsbD (i - 8) := by
  unfold filterInput
  simp only [BitVec.getLsbD_or, BitVec.getLsbD_shiftLeft, BitVec.getLsbD_setWidth]
  rw [BitVec.getLsbD_of_ge ba i h]
  simp [show ¬ i < 8 by omega, show i < 64 by omega, show i < 40 by omega, show i - 8 < 64 by omega]

theorem filterInput_before (dw : BitVec 32) (bb ba : BitVec 8) (i : Nat) (h : 40 ≤ i) (h2 : i < 48) :
    (filterInput dw bb ba).getLsbD i = bb.getLsbD (i - 40) := by
  unfold filterInput
  simp only [BitVec.getLsbD_or, BitVec.getLsbD_shiftLeft, BitVec.getLsbD_setWidth]
  rw [BitVec.getLsbD_of_ge ba i (by omega), BitVec.getLsbD_of_ge dw (i - 8) (by omega)]
  simp [show ¬ i < 40 by omega, show i < 64 by omega, show i - 40 < 64 by omega]

/-- Bit `15 - c` of the result is the conjunction over the neighbourhood of column `2c`; bit `39 - s` of the filter input belongs to
column `s`. -/
theorem filterDword_bit (n : Nat) (hn : n ≤ 7) (dw : BitVec 32) (bb ba : BitVec 8) (c : Nat) (hc : c < 16) :
    (filterDword n dw bb ba).getLsbD (15 - c) = true ↔
      ∀ d ≤ n, (filterInput dw bb ba).getLsbD (39 - 2 * c - d) = true ∧ (filterInput dw bb ba).getLsbD (39 - 2 * c + d) = true := by
  unfold filterDword
  dsimp only
  rw [tables_bit _ _ (by omega), show 2 * (15 - c) + 9 = 39 - 2 * c by omega, bitFilter_bit _ _ _ (by omega) (by omega)]

/-! ## Reading the source -/

/-- Column `s` is set in all rows of the bitmap at a distance of at most `n` from row `y`. -/
def Vert (m : Mask) (n y s : Nat) : Prop := ∀ r < m.h, y ≤ r + n → r ≤ y + n → m.at s r = true

theorem readDword_bits (m : Mask) (r x : Nat) (hb : r * m.stride + x * 4 + 4 ≤ m.buf.size) :
    ∃ dw, readDword m.buf (r * m.stride + x * 4) = some dw ∧ ∀ s < 32, dw.getLsbD (wordPos s) = m.at (32 * x + s) r := by
  unfold readDword
  rw [if_pos (by omega)]
  refine ⟨_, rfl, ?_⟩
  intro s hs
  refine (leWord_bit (fun k => m.buf.get (r * m.stride + x * 4 + k)) s hs).trans ?_
  unfold Mask.at
  rw [show (32 * x + s) / 8 = x * 4 + s / 8 by omega, show (32 * x + s) % 8 = s % 8 by omega, Nat.add_assoc]

theorem low_bit : ∀ k ≤ 8, ∀ s < 8, (lowOnes k).toNat.testBit (7 - s) = decide (k ≤ s) := by decide +kernel

theorem orLow_bit (b : UInt8) (k s : Nat) (hk : k ≤ 8) (hs : s < 8) :
    (orLow b k).toNat.testBit (7 - s) = (decide (k ≤ s) || b.toNat.testBit (7 - s)) := by
  unfold orLow
  rw [testBit_or, low_bit k hk s hs, Bool.or_comm]

theorem ones_bit : ∀ s < 8, (0xff : UInt8).toNat.testBit (7 - s) = true := by decide +kernel

theorem shifted_bit (v : UInt8) (s : Nat) (hs : s < 32) :
    (v.toBitVec.setWidth 32 <<< 24).getLsbD (wordPos s) = (decide (24 ≤ s) && v.toNat.testBit (7 - s % 8)) := by
  show _ = (decide (24 ≤ s) && v.toBitVec.getLsbD (7 - s % 8))
  rw [BitVec.getLsbD_shiftLeft, BitVec.getLsbD_setWidth]
  unfold wordPos
  by_cases h : 24 ≤ s
  · rw [show 8 * (s / 8) + 7 - s % 8 - 24 = 7 - s % 8 by omega]
    simp [h, show 8 * (s / 8) + 7 - s % 8 < 32 by omega, show ¬ 8 * (s / 8) + 7 - s % 8 < 24 by omega, show 7 - s % 8 < 32 by omega]
  · simp [h, show 8 * (s / 8) + 7 - s % 8 < 24 by omega]

/-- The partial word: columns from `k` on are set. -/
theorem readPartial_bits (m : Mask) (r x k : Nat) (hk : 0 < k) (hk2 : k < 32) (hb : r * m.stride + x * 4 + (k + 7) / 8 ≤ m.buf.size) :
    ∃ dw, readPartial m.buf (r * m.stride + x * 4) k = some dw ∧
      ∀ s < 32, dw.getLsbD (wordPos s) = (decide (k ≤ s) || m.at (32 * x + s) r) := by
  have hat : ∀ s, m.at (32 * x + s) r = (m.buf.get (r * m.stride + x * 4 + s / 8)).toNat.testBit (7 - s % 8) := by
    intro s
    unfold Mask.at
    rw [show (32 * x + s) / 8 = x * 4 + s / 8 by omega, show (32 * x + s) % 8 = s % 8 by omega, Nat.add_assoc]
  have rd : ∀ i, i < (k + 7) / 8 → m.buf.read (r * m.stride + x * 4 + i) = some (m.buf.get (r * m.stride + x * 4 + i)) := by
    intro i hi
    unfold Buf.read
    rw [if_pos (by omega)]
  generalize hbase : r * m.stride + x * 4 = base at *
  unfold readPartial
  by_cases h1 : k ≤ 8
  · rw [if_pos h1, show m.buf.read base = _ from rd 0 (by omega)]
    refine ⟨_, rfl, ?_⟩
    intro s hs
    refine (leWord_bit (fun i => if i = 0 then orLow (m.buf.get (base + 0)) k else 0xff) s hs).trans ?_
    rw [hat]
    by_cases h2 : s / 8 = 0
    · rw [if_pos h2, orLow_bit _ _ _ h1 (by omega), h2, show s % 8 = s by omega]
    · rw [if_neg h2, ones_bit _ (by omega), decide_eq_true (by omega), Bool.true_or]
  · rw [if_neg h1]
    by_cases h1b : k ≤ 16
    · rw [if_pos h1b, show m.buf.read base = _ from rd 0 (by omega), rd 1 (by omega)]
      refine ⟨_, rfl, ?_⟩
      intro s hs
      refine (leWord_bit (fun i => if i = 0 then m.buf.get (base + 0) else if i = 1 then orLow (m.buf.get (base + 1)) (k - 8) else 0xff) s hs).trans ?_
      rw [hat]
      by_cases h2 : s / 8 = 0
      · rw [if_pos h2, h2, decide_eq_false (by omega), Bool.false_or]
      · rw [if_neg h2]
        by_cases h3 : s / 8 = 1
        · rw [if_pos h3, orLow_bit _ _ _ (by omega) (by omega), h3]
          congr 1
          apply decide_eq_decide.mpr
          omega
        · rw [if_neg h3, ones_bit _ (by omega), decide_eq_true (by omega), Bool.true_or]
    · rw [if_neg h1b]
      by_cases h1c : k ≤ 24
      · rw [if_pos h1c, show m.buf.read base = _ from rd 0 (by omega), rd 1 (by omega), rd 2 (by omega)]
        refine ⟨_, rfl, ?_⟩
        intro s hs
        refine (leWord_bit (fun i => if i = 0 then m.buf.get (base + 0) else if i = 1 then m.buf.get (base + 1) else
          if i = 2 then orLow (m.buf.get (base + 2)) (k - 16) else 0xff) s hs).trans ?_
        rw [hat]
        by_cases h2 : s / 8 = 0
        · rw [if_pos h2, h2, decide_eq_false (by omega), Bool.false_or]
        · rw [if_neg h2]
          by_cases h3 : s / 8 = 1
          · rw [if_pos h3, h3, decide_eq_false (by omega), Bool.false_or]
          · rw [if_neg h3]
            by_cases h4 : s / 8 = 2
            · rw [if_pos h4, orLow_bit _ _ _ (by omega) (by omega), h4]
              congr 1
              apply decide_eq_decide.mpr
              omega
            · rw [if_neg h4, ones_bit _ (by omega), decide_eq_true (by omega), Bool.true_or]
      · rw [if_neg h1c, ← hbase]
        obtain ⟨dw, e1, e2⟩ := readDword_bits m r x (by omega)
        rw [e1]
        refine ⟨_, rfl, ?_⟩
        intro s hs
        rw [BitVec.getLsbD_or, e2 s hs, shifted_bit _ _ hs, low_bit _ (by omega) _ (by omega), Bool.or_comm]
        congr 1
        by_cases h5 : 24 ≤ s
        · rw [decide_eq_true h5, Bool.true_and]
          apply decide_eq_decide.mpr
          omega
        · rw [decide_eq_false h5, decide_eq_false (p := k ≤ s) (by omega), Bool.false_and]

/-- What the rows are required to satisfy for the reads: the rows of the bitmap lie in the block. -/
def RowsInside (m : Mask) : Prop := ∀ r < m.h, r * m.stride + (m.w + 7) / 8 ≤ m.buf.size

theorem ones32 : ∀ i < 32, (0xffffffff#32).getLsbD i = true := by decide

theorem getDword0_bits (m : Mask) (hr : RowsInside m) (y x : Nat) (hy : y < m.h) (hx : 32 * x + 32 ≤ m.w) :
    ∃ dw, getDword 0 y m.h m.buf (y * m.stride + x * 4) m.stride = some dw ∧
      ∀ s < 32, (dw.getLsbD (wordPos s) = true ↔ Vert m 0 y (32 * x + s)) := by
  obtain ⟨dw, h1, h2⟩ := readDword_bits m y x (by have := hr y hy; omega)
  refine ⟨dw, h1, ?_⟩
  intro s hs
  rw [h2 s hs]
  unfold Vert
  constructor
  · intro h r _ h3 h4
    rw [show r = y by omega]
    exact h
  · intro h
    exact h y hy (by omega) (by omega)

theorem getDword1_bits (m : Mask) (hr : RowsInside m) (y x : Nat) (hy : y + 1 < m.h) (hx : 32 * x + 32 ≤ m.w) :
    ∃ dw, getDword 1 y m.h m.buf (y * m.stride + x * 4) m.stride = some dw ∧
      ∀ s < 32, (dw.getLsbD (wordPos s) = true ↔ Vert m 1 y (32 * x + s)) := by
  obtain ⟨d1, a1, a2⟩ := readDword_bits m y x (by have := hr y (by omega); omega)
  obtain ⟨d2, b1, b2⟩ := readDword_bits m (y + 1) x (by have := hr (y + 1) (by omega); omega)
  have e1 : y * m.stride + x * 4 + m.stride = (y + 1) * m.stride + x * 4 := by rw [Nat.add_mul]; omega
  unfold getDword
  rw [a1, Option.bind_some]
  by_cases h0 : y > 0
  · obtain ⟨d3, c1, c2⟩ := readDword_bits m (y - 1) x (by have := hr (y - 1) (by omega); omega)
    have e2 : y * m.stride + x * 4 - m.stride = (y - 1) * m.stride + x * 4 := by
      obtain ⟨k, rfl⟩ : ∃ k, y = k + 1 := ⟨y - 1, by omega⟩
      rw [Nat.add_mul, show k + 1 - 1 = k by omega]
      omega
    rw [if_pos h0, e2, c1]
    simp only [Option.map_some, Option.bind_some]
    rw [if_pos (by omega), e1, b1]
    refine ⟨_, rfl, ?_⟩
    intro s hs
    rw [BitVec.getLsbD_and, BitVec.getLsbD_and, a2 s hs, b2 s hs, c2 s hs, Bool.and_eq_true, Bool.and_eq_true]
    unfold Vert
    constructor
    · rintro ⟨⟨g1, g2⟩, g3⟩ r _ h3 h4
      rcases (show r = y - 1 ∨ r = y ∨ r = y + 1 by omega) with h | h | h <;> rw [h] <;> assumption
    · intro h
      exact ⟨⟨h y (by omega) (by omega) (by omega), h (y - 1) (by omega) (by omega) (by omega)⟩,
        h (y + 1) (by omega) (by omega) (by omega)⟩
  · rw [if_neg h0, Option.bind_some, if_pos (by omega), e1, b1]
    refine ⟨_, rfl, ?_⟩
    intro s hs
    rw [BitVec.getLsbD_and, a2 s hs, b2 s hs, Bool.and_eq_true]
    unfold Vert
    constructor
    · rintro ⟨g1, g3⟩ r _ h3 h4
      rcases (show r = y ∨ r = y + 1 by omega) with h | h <;> rw [h] <;> assumption
    · intro h
      exact ⟨h y (by omega) (by omega) (by omega), h (y + 1) (by omega) (by omega) (by omega)⟩

/-- From two rows on: the word is the conjunction of the topmost row of the neighbourhood and the row below. -/
theorem getDwordN_bits (m : Mask) (hr : RowsInside m) (n y x : Nat) (hn : 2 ≤ n) (hy : y + 1 < m.h) (hx : 32 * x + 32 ≤ m.w) :
    ∃ dw, getDword n y m.h m.buf (y * m.stride + x * 4) m.stride = some dw ∧
      ∀ s < 32, dw.getLsbD (wordPos s) = (m.at (32 * x + s) (y - n) && m.at (32 * x + s) (y + 1)) := by
  obtain ⟨d1, a1, a2⟩ := readDword_bits m (y - n) x (by have := hr (y - n) (by omega); omega)
  obtain ⟨d2, b1, b2⟩ := readDword_bits m (y + 1) x (by have := hr (y + 1) (by omega); omega)
  have e1 : y * m.stride + x * 4 + m.stride = (y + 1) * m.stride + x * 4 := by rw [Nat.add_mul]; omega
  have e2 : y * m.stride + x * 4 - (y - (y - n)) * m.stride = (y - n) * m.stride + x * 4 := by
    have : y * m.stride = (y - n) * m.stride + (y - (y - n)) * m.stride := by rw [← Nat.add_mul]; congr 1; omega
    omega
  have hu : getDword n y m.h m.buf (y * m.stride + x * 4) m.stride =
      loop (min (y + n) (m.h - 1) + 1 - (y - n)) (fun i dw =>
        (readDword m.buf (if i = 0 then y * m.stride + x * 4 - (y - (y - n)) * m.stride else y * m.stride + x * 4 + m.stride)).map
          (dw &&& ·)) 0xffffffff#32 := by
    match n, hn with
    | n + 2, _ => rfl
  rw [hu, e1, e2]
  have key := loop_inv (fun i (dw : BitVec 32) => ∀ s < 32, dw.getLsbD (wordPos s) =
      ((i == 0 || m.at (32 * x + s) (y - n)) && (decide (i ≤ 1) || m.at (32 * x + s) (y + 1))))
    (fun i dw => (readDword m.buf (if i = 0 then (y - n) * m.stride + x * 4 else (y + 1) * m.stride + x * 4)).map (dw &&& ·))
    (min (y + n) (m.h - 1) + 1 - (y - n)) 0xffffffff#32 ?_ ?_
  · obtain ⟨dw, h1, h2⟩ := key
    refine ⟨dw, h1, ?_⟩
    intro s hs
    rw [h2 s hs]
    have : 2 ≤ min (y + n) (m.h - 1) + 1 - (y - n) := by omega
    have q1 : ((min (y + n) (m.h - 1) + 1 - (y - n)) == 0) = false := by
      rw [beq_eq_false_iff_ne]; omega
    rw [q1, decide_eq_false (by omega), Bool.false_or, Bool.false_or]
  · intro s hs
    rw [ones32 _ (wordPos_lt hs)]
    rfl
  · intro i dw hi hp
    by_cases h0 : i = 0
    · rw [if_pos h0, a1]
      refine ⟨_, rfl, ?_⟩
      intro s hs
      rw [BitVec.getLsbD_and, hp s hs, a2 s hs, h0]
      cases m.at (32 * x + s) (y - n) <;> simp
    · rw [if_neg h0, b1]
      refine ⟨_, rfl, ?_⟩
      intro s hs
      rw [BitVec.getLsbD_and, hp s hs, b2 s hs]
      have q1 : (i == 0) = false := by rw [beq_eq_false_iff_ne]; omega
      have q2 : (i + 1 == 0) = false := by rw [beq_eq_false_iff_ne]; omega
      rw [q1, q2, decide_eq_false (p := i + 1 ≤ 1) (by omega)]
      cases m.at (32 * x + s) (y + 1) <;> simp

theorem partial_bits (m : Mask) (hr : RowsInside m) (n y x k : Nat) (hy : y < m.h) (hk : 0 < k) (hk2 : k < 32) (hx : 32 * x + k = m.w) :
    ∃ dw, getDwordPartial n y m.h m.buf (y * m.stride + x * 4) k m.stride = some dw ∧
      ∀ s < 32, (dw.getLsbD (wordPos s) = true ↔ (s < k → Vert m n y (32 * x + s))) := by
  have e2 : y * m.stride + x * 4 - (y - (y - n)) * m.stride = (y - n) * m.stride + x * 4 := by
    have : y * m.stride = (y - n) * m.stride + (y - (y - n)) * m.stride := by rw [← Nat.add_mul]; congr 1; omega
    omega
  unfold getDwordPartial
  rw [e2]
  have key := loop_inv (fun i (dw : BitVec 32) => ∀ s < 32, (dw.getLsbD (wordPos s) = true ↔
      (s < k → ∀ j < i, m.at (32 * x + s) (y - n + j) = true)))
    (fun i dw => (readPartial m.buf ((y - n) * m.stride + x * 4 + i * m.stride) k).map (dw &&& ·))
    (min (y + n) (m.h - 1) + 1 - (y - n)) 0xffffffff#32 ?_ ?_
  · obtain ⟨dw, h1, h2⟩ := key
    refine ⟨dw, h1, ?_⟩
    intro s hs
    rw [h2 s hs]
    unfold Vert
    constructor
    · intro h hsk r h3 h4 h5
      have := h hsk (r - (y - n)) (by omega)
      rw [show y - n + (r - (y - n)) = r by omega] at this
      exact this
    · intro h hsk j hj
      exact h hsk _ (by omega) (by omega) (by omega)
  · intro s hs
    rw [ones32 _ (wordPos_lt hs)]
    exact ⟨fun _ _ j hj => absurd hj (by omega), fun _ => rfl⟩
  · intro i dw hi hp
    have e3 : (y - n) * m.stride + x * 4 + i * m.stride = (y - n + i) * m.stride + x * 4 := by rw [Nat.add_mul]; omega
    obtain ⟨d, a1, a2⟩ := readPartial_bits m (y - n + i) x k hk hk2 (by
      have := hr (y - n + i) (by omega)
      omega)
    rw [e3, a1]
    refine ⟨_, rfl, ?_⟩
    intro s hs
    rw [BitVec.getLsbD_and, Bool.and_eq_true, hp s hs, a2 s hs, Bool.or_eq_true, decide_eq_true_eq]
    constructor
    · rintro ⟨g1, g2⟩ hsk j hj
      by_cases h : j < i
      · exact g1 hsk j h
      · rw [show j = i by omega]
        rcases g2 with g2 | g2
        · omega
        · exact g2
    · intro g
      refine ⟨fun hsk j hj => g hsk j (by omega), ?_⟩
      by_cases hsk : s < k
      · exact Or.inr (g hsk i (by omega))
      · exact Or.inl (by omega)

/-! ## One line -/

/-- The byte before word `x` of the line. -/
def beforeOf (D : Nat → BitVec 32) (x : Nat) : BitVec 8 := if x = 0 then 0xff#8 else (bswapDword (D (x - 1))).setWidth 8

/-- The number of bytes written for a line. -/
def lineBytes (w : Nat) : Nat := 2 * (w / 32) + (if w % 32 = 0 then 0 else if w % 32 ≤ 16 then 1 else 2)

/-- The bit for column `c` of sixteen in the bytes at `off`. -/
def bit16 (b : Buf) (off c : Nat) : Bool := (b.get (off + c / 8)).toNat.testBit (7 - c % 8)

theorem writeWord_ok (b : Buf) (i : Nat) (v : BitVec 16) (h : i + 2 ≤ b.size) :
    ∃ b', writeWord b i (bswapWord v) = some b' ∧ b'.size = b.size ∧ (∀ j, j < i ∨ i + 2 ≤ j → b'.get j = b.get j) ∧
      ∀ c < 16, bit16 b' i c = v.getLsbD (15 - c) := by
  unfold writeWord Buf.write
  rw [if_pos (by omega), Option.bind_some]
  dsimp only
  rw [if_pos (by omega)]
  refine ⟨_, rfl, rfl, ?_, ?_⟩
  · intro j hj
    dsimp only
    rw [if_neg (by omega), if_neg (by omega)]
  · intro c hc
    unfold bit16
    dsimp only
    by_cases h8 : c < 8
    · rw [if_neg (by omega), if_pos (by omega)]
      refine (bswapWord_low v (7 - c % 8) (by omega)).trans ?_
      congr 1
      omega
    · rw [if_pos (by omega)]
      refine (bswapWord_high v (7 - c % 8) (by omega)).trans ?_
      congr 1
      omega

theorem writeHigh_ok (b : Buf) (i : Nat) (v : BitVec 16) (h : i + 1 ≤ b.size) :
    ∃ b', b.write i (UInt8.ofBitVec ((v >>> 8).setWidth 8)) = some b' ∧ b'.size = b.size ∧ (∀ j, j < i ∨ i + 1 ≤ j → b'.get j = b.get j) ∧
      ∀ c < 8, bit16 b' i c = v.getLsbD (15 - c) := by
  unfold Buf.write
  rw [if_pos (by omega)]
  refine ⟨_, rfl, rfl, ?_, ?_⟩
  · intro j hj
    dsimp only
    rw [if_neg (by omega)]
  · intro c hc
    unfold bit16
    dsimp only
    rw [if_pos (by omega)]
    show ((v >>> 8).setWidth 8).getLsbD (7 - c % 8) = _
    rw [BitVec.getLsbD_setWidth, BitVec.getLsbD_ushiftRight, decide_eq_true (by omega), Bool.true_and]
    congr 1
    omega

theorem line_ok (n y h w stride : Nat) (src : Buf) (row rowDest : Nat) (dest : Buf) (D : Nat → BitVec 32) (A : Nat → BitVec 8)
    (hA : ∀ x < w / 32, getByteAfter src row (x * 4 + 4) w = some (A x)) (hA2 : A (w / 32) = 0xff#8)
    (hD : ∀ x < w / 32, getDword n y h src (row + x * 4) stride = some (D x))
    (hP : 0 < w % 32 → getDwordPartial n y h src (row + w / 32 * 4) (w % 32) stride = some (D (w / 32)))
    (hb : rowDest + lineBytes w ≤ dest.size) :
    ∃ dest', decimateLine n y h w stride src row rowDest dest = some dest' ∧ dest'.size = dest.size ∧
      (∀ i, i < rowDest ∨ rowDest + lineBytes w ≤ i → dest'.get i = dest.get i) ∧
      ∀ x c, c < 16 → (x < w / 32 ∨ x = w / 32 ∧ 0 < w % 32 ∧ (c < 8 ∨ 16 < w % 32)) →
        bit16 dest' (rowDest + 2 * x) c = (filterDword n (bswapDword (D x)) (beforeOf D x) (A x)).getLsbD (15 - c) := by
  have hrem : w - w / 32 * 32 = w % 32 := by omega
  have hlb : lineBytes w = 2 * (w / 32) + (if w % 32 = 0 then 0 else if w % 32 ≤ 16 then 1 else 2) := rfl
  unfold decimateLine
  rw [hrem]
  obtain ⟨s, h1, h2, h3, h4, h5⟩ := loop_inv (fun k (s : BitVec 8 × Buf) => s.1 = beforeOf D k ∧ s.2.size = dest.size ∧
      (∀ i, i < rowDest ∨ rowDest + 2 * k ≤ i → s.2.get i = dest.get i) ∧
      ∀ x c, c < 16 → x < k →
        bit16 s.2 (rowDest + 2 * x) c = (filterDword n (bswapDword (D x)) (beforeOf D x) (A x)).getLsbD (15 - c))
    (fun x (s : BitVec 8 × Buf) =>
      (getByteAfter src row (x * 4 + 4) w).bind fun byteAfter =>
      (getDword n y h src (row + x * 4) stride).bind fun le =>
      (writeWord s.2 (rowDest + 2 * x) (bswapWord (filterDword n (bswapDword le) s.1 byteAfter))).map fun b =>
        ((bswapDword le).setWidth 8, b)) (w / 32) (0xff#8, dest)
    ⟨rfl, rfl, fun _ _ => rfl, fun x c _ hx => absurd hx (by omega)⟩
    (by
      rintro k ⟨b0, b⟩ hk ⟨p1, p2, p3, p4⟩
      dsimp only at p1 p2 p3 p4 ⊢
      rw [hA k hk, hD k hk]
      obtain ⟨b', q1, q2, q3, q4⟩ := writeWord_ok b (rowDest + 2 * k) (filterDword n (bswapDword (D k)) b0 (A k)) (by omega)
      rw [Option.bind_some, Option.bind_some, q1]
      refine ⟨_, rfl, ?_, ?_, ?_, ?_⟩
      · dsimp only
        unfold beforeOf
        rw [if_neg (by omega), show k + 1 - 1 = k by omega]
      · exact q2.trans p2
      · intro i hi
        refine (q3 i (by omega)).trans (p3 i (by omega))
      · intro x c hc hx
        by_cases hxk : x = k
        · subst hxk
          rw [← p1]
          exact q4 c hc
        · refine Eq.trans ?_ (p4 x c hc (by omega))
          unfold bit16
          dsimp only
          rw [q3 _ (by omega)])
  rw [h1, Option.bind_some]
  by_cases hz : w % 32 = 0
  · rw [if_pos hz] at hlb
    rw [if_neg (by omega)]
    exact ⟨s.2, rfl, h3, fun i hi => h4 i (by omega), fun x c hc hx => h5 x c hc (by omega)⟩
  · rw [if_neg hz] at hlb
    rw [if_pos (by omega), hP (by omega), Option.bind_some]
    by_cases h16 : w % 32 ≤ 16
    · rw [if_pos h16] at hlb
      rw [if_pos h16]
      obtain ⟨b', q1, q2, q3, q4⟩ := writeHigh_ok s.2 (rowDest + 2 * (w / 32))
        (filterDword n (bswapDword (D (w / 32))) s.1 0xff#8) (by omega)
      refine ⟨b', q1, q2.trans h3, fun i hi => (q3 i (by omega)).trans (h4 i (by omega)), ?_⟩
      intro x c hc hx
      by_cases hxk : x < w / 32
      · refine Eq.trans ?_ (h5 x c hc hxk)
        unfold bit16
        rw [q3 _ (by omega)]
      · rw [show x = w / 32 by omega, hA2, ← h2]
        exact q4 c (by omega)
    · rw [if_neg h16] at hlb
      rw [if_neg h16]
      obtain ⟨b', q1, q2, q3, q4⟩ := writeWord_ok s.2 (rowDest + 2 * (w / 32))
        (filterDword n (bswapDword (D (w / 32))) s.1 0xff#8) (by omega)
      refine ⟨b', q1, q2.trans h3, fun i hi => (q3 i (by omega)).trans (h4 i (by omega)), ?_⟩
      intro x c hc hx
      by_cases hxk : x < w / 32
      · refine Eq.trans ?_ (h5 x c hc hxk)
        unfold bit16
        rw [q3 _ (by omega)]
      · rw [show x = w / 32 by omega, hA2, ← h2]
        exact q4 c hc

theorem ones8 : ∀ i < 8, (0xff#8).getLsbD i = true := by decide

/-- The word-wise filter computes the conjunction over the neighbourhood, for distances up to 1 or lines of a single word. -/
theorem window_exact (m : Mask) (n y x c : Nat) (D : Nat → BitVec 32) (A : Nat → BitVec 8) (hn : n ≤ 7) (hnw : n ≤ 1 ∨ m.w < 32)
    (hx : x ≤ m.w / 32) (hc : c < 16) (hA2 : A (m.w / 32) = 0xff#8)
    (hD : ∀ x ≤ m.w / 32, ∀ s < 32, ((D x).getLsbD (wordPos s) = true ↔ (32 * x + s < m.w → Vert m n y (32 * x + s)))) :
    (filterDword n (bswapDword (D x)) (beforeOf D x) (A x)).getLsbD (15 - c) = true ↔
      ∀ s < m.w, 32 * x + 2 * c ≤ s + n → s ≤ 32 * x + 2 * c + n → Vert m n y s := by
  have word : ∀ t < 32, ((filterInput (bswapDword (D x)) (beforeOf D x) (A x)).getLsbD (39 - t) = true ↔
      (32 * x + t < m.w → Vert m n y (32 * x + t))) := by
    intro t ht
    rw [filterInput_word _ _ _ _ (by omega) (by omega), show 39 - t - 8 = 31 - t by omega, bswap_bit _ _ ht, hD x hx t ht]
  have before : 0 < x → ((filterInput (bswapDword (D x)) (beforeOf D x) (A x)).getLsbD 40 = true ↔ Vert m n y (32 * x - 1)) := by
    intro h0
    rw [filterInput_before _ _ _ _ (by omega) (by omega)]
    unfold beforeOf
    rw [if_neg (by omega), BitVec.getLsbD_setWidth, decide_eq_true (by omega), Bool.true_and, show 40 - 40 = 31 - 31 by omega,
      bswap_bit _ _ (by omega), hD (x - 1) (by omega) 31 (by omega), show 32 * (x - 1) + 31 = 32 * x - 1 by omega]
    exact ⟨fun h => h (by omega), fun h _ => h⟩
  rw [filterDword_bit n hn _ _ _ _ hc]
  constructor
  · intro h s hs h1 h2
    by_cases hlt : s < 32 * x
    · have := (h 1 (by omega)).2
      rw [show 39 - 2 * c + 1 = 40 by omega, before (by omega)] at this
      rw [show s = 32 * x - 1 by omega]
      exact this
    · have ht : s - 32 * x < 32 := by omega
      have key : (filterInput (bswapDword (D x)) (beforeOf D x) (A x)).getLsbD (39 - (s - 32 * x)) = true := by
        by_cases hle : s - 32 * x ≤ 2 * c
        · have := (h (2 * c - (s - 32 * x)) (by omega)).2
          rw [show 39 - 2 * c + (2 * c - (s - 32 * x)) = 39 - (s - 32 * x) by omega] at this
          exact this
        · have := (h ((s - 32 * x) - 2 * c) (by omega)).1
          rw [show 39 - 2 * c - ((s - 32 * x) - 2 * c) = 39 - (s - 32 * x) by omega] at this
          exact this
      have := (word _ ht).mp key (by omega)
      rw [show 32 * x + (s - 32 * x) = s by omega] at this
      exact this
  · intro h d hd
    constructor
    · by_cases hin : 2 * c + d < 32
      · rw [show 39 - 2 * c - d = 39 - (2 * c + d) by omega, word _ hin]
        exact fun hw => h _ hw (by omega) (by omega)
      · rw [filterInput_after _ _ _ _ (by omega), show x = m.w / 32 by omega, hA2]
        exact ones8 _ (by omega)
    · by_cases hin : d ≤ 2 * c
      · rw [show 39 - 2 * c + d = 39 - (2 * c - d) by omega, word _ (by omega)]
        exact fun hw => h _ hw (by omega) (by omega)
      · by_cases h0 : x = 0
        · rw [filterInput_before _ _ _ _ (by omega) (by omega)]
          unfold beforeOf
          rw [if_pos h0]
          exact ones8 _ (by omega)
        · rw [show 39 - 2 * c + d = 40 by omega, before (by omega)]
          exact h _ (by omega) (by omega) (by omega)

theorem lineBytes_eq (w : Nat) (h : w % 16 ≠ 1) : lineBytes w = (w / 2 + 7) / 8 := by
  unfold lineBytes
  by_cases h0 : w % 32 = 0
  · rw [if_pos h0]; omega
  · rw [if_neg h0]
    by_cases h1 : w % 32 ≤ 16
    · rw [if_pos h1]; omega
    · rw [if_neg h1]; omega

theorem lineBytes_over (w : Nat) (h : w % 16 = 1) : lineBytes w = (w / 2 + 7) / 8 + 1 := by
  unfold lineBytes
  rw [if_neg (by omega)]
  by_cases h1 : w % 32 ≤ 16
  · rw [if_pos h1]; omega
  · rw [if_neg h1]; omega

/-- The reads of a line succeed. -/
theorem line_reads (m : Mask) (hr : RowsInside m) (hst : (m.w + 7) / 8 ≤ m.stride) (n y : Nat) (hy : y + 1 < m.h) :
    ∃ (D : Nat → BitVec 32) (A : Nat → BitVec 8),
      (∀ x < m.w / 32, getByteAfter m.buf (y * m.stride) (x * 4 + 4) m.w = some (A x)) ∧ A (m.w / 32) = 0xff#8 ∧
      (∀ x < m.w / 32, getDword n y m.h m.buf (y * m.stride + x * 4) m.stride = some (D x)) ∧
      (0 < m.w % 32 → getDwordPartial n y m.h m.buf (y * m.stride + m.w / 32 * 4) (m.w % 32) m.stride = some (D (m.w / 32))) ∧
      ((n ≤ 1 ∨ m.w < 32) → ∀ x ≤ m.w / 32, ∀ s < 32,
        ((D x).getLsbD (wordPos s) = true ↔ (32 * x + s < m.w → Vert m n y (32 * x + s)))) := by
  have hp : ∃ P, (0 < m.w % 32 → getDwordPartial n y m.h m.buf (y * m.stride + m.w / 32 * 4) (m.w % 32) m.stride = some P) ∧
      ∀ s < 32, (P.getLsbD (wordPos s) = true ↔ (s < m.w % 32 → Vert m n y (32 * (m.w / 32) + s))) := by
    by_cases h0 : 0 < m.w % 32
    · obtain ⟨P, h1, h2⟩ := partial_bits m hr n y (m.w / 32) (m.w % 32) (by omega) h0 (by omega) (by omega)
      exact ⟨P, fun _ => h1, h2⟩
    · refine ⟨0xffffffff#32, fun h => absurd h h0, ?_⟩
      intro s hs
      rw [ones32 _ (wordPos_lt hs)]
      exact ⟨fun _ h => absurd h (by omega), fun _ => rfl⟩
  obtain ⟨P, p1, p2⟩ := hp
  have hd : ∀ x, ∃ d, x < m.w / 32 → getDword n y m.h m.buf (y * m.stride + x * 4) m.stride = some d ∧
      (n ≤ 1 → ∀ s < 32, (d.getLsbD (wordPos s) = true ↔ Vert m n y (32 * x + s))) := by
    intro x
    by_cases hx : x < m.w / 32
    · by_cases h0 : n = 0
      · subst h0
        obtain ⟨d, h1, h2⟩ := getDword0_bits m hr y x (by omega) (by omega)
        exact ⟨d, fun _ => ⟨h1, fun _ => h2⟩⟩
      · by_cases h1 : n = 1
        · subst h1
          obtain ⟨d, h1, h2⟩ := getDword1_bits m hr y x (by omega) (by omega)
          exact ⟨d, fun _ => ⟨h1, fun _ => h2⟩⟩
        · obtain ⟨d, h1, h2⟩ := getDwordN_bits m hr n y x (by omega) (by omega) (by omega)
          exact ⟨d, fun _ => ⟨h1, fun h => absurd h (by omega)⟩⟩
    · exact ⟨0#32, fun h => absurd h hx⟩
  refine ⟨fun x => if x = m.w / 32 then P else (hd x).choose, fun x => if x = m.w / 32 then 0xff#8 else (m.buf.get (y * m.stride + (x * 4 + 4))).toBitVec,
    ?_, if_pos rfl, ?_, ?_, ?_⟩
  · intro x hx
    dsimp only
    rw [if_neg (by omega)]
    unfold getByteAfter
    rw [if_pos (by omega)]
    unfold Buf.read
    have h1 := hr (y + 1) hy
    rw [Nat.add_mul] at h1
    rw [if_pos (by omega)]
    rfl
  · intro x hx
    dsimp only
    rw [if_neg (by omega)]
    exact ((hd x).choose_spec hx).1
  · intro h
    dsimp only
    rw [if_pos rfl]
    exact p1 h
  · intro hnw x hx s hs
    dsimp only
    by_cases he : x = m.w / 32
    · rw [if_pos he, p2 s hs, ← he]
      exact ⟨fun h h1 => h (by omega), fun h h1 => h (by omega)⟩
    · rw [if_neg he, ((hd x).choose_spec (by omega)).2 (by omega) s hs]
      exact ⟨fun h _ => h, fun h => h (by omega)⟩

end Verif
