import Verif.Model.Bitonal
import Verif.Spec.Blit
import Verif.Proof.Blit

/-! # Helper lemmas for bitonal bitmaps -/

namespace Verif
open Blit Czi Bitonal

theorem testBit_or (a b : UInt8) (i : Nat) : (a ||| b).toNat.testBit i = (a.toNat.testBit i || b.toNat.testBit i) := by
  rw [UInt8.toNat_or, Nat.testBit_or]

theorem testBit_andNot (a b : UInt8) (i : Nat) (hi : i < 8) :
    (a &&& ~~~ b).toNat.testBit i = (a.toNat.testBit i && !b.toNat.testBit i) := by
  show (a &&& ~~~ b).toBitVec.getLsbD i = (a.toBitVec.getLsbD i && !b.toBitVec.getLsbD i)
  rw [UInt8.toBitVec_and, UInt8.toBitVec_not, BitVec.getLsbD_and, BitVec.getLsbD_not]
  simp [hi]

theorem changeBits_testBit (value : Bool) (bits v : UInt8) (i : Nat) (hi : i < 8) :
    (changeBits value bits v).toNat.testBit i = if bits.toNat.testBit i = true then value else v.toNat.testBit i := by
  unfold changeBits
  cases value with
  | true =>
    rw [if_pos rfl, testBit_or]
    cases h : bits.toNat.testBit i <;> simp
  | false =>
    rw [if_neg (by simp), testBit_andNot _ _ _ hi]
    cases h : bits.toNat.testBit i <;> simp

theorem columnBit_testBit (x c : Nat) : (columnBit x).toNat.testBit (7 - c % 8) = decide (x % 8 = c % 8) := by
  unfold columnBit
  have h : ∀ r < 8, ∀ s < 8, ((1 : UInt8) <<< (7 - r).toUInt8).toNat.testBit (7 - s) = decide (r = s) := by decide +kernel
  exact h (x % 8) (Nat.mod_lt _ (by omega)) (c % 8) (Nat.mod_lt _ (by omega))

theorem columnBit_and (v : UInt8) (x : Nat) : decide (v &&& columnBit x ≠ 0) = v.toNat.testBit (7 - x % 8) := by
  unfold columnBit
  have h : ∀ r < 8, ∀ n < 256, decide (UInt8.ofNat n &&& ((1 : UInt8) <<< (7 - r).toUInt8) ≠ 0) = n.testBit (7 - r) := by
    decide +kernel
  have := h (x % 8) (Nat.mod_lt _ (by omega)) v.toNat v.toNat_lt
  rw [UInt8.ofNat_toNat] at this
  exact this

theorem leftBits_testBit (w rem c : Nat) (h0 : 0 < rem) (h8 : rem < 8) (hw : 0 < w) :
    (leftBits w rem).toNat.testBit (7 - c % 8) = decide (rem ≤ c % 8 ∧ c % 8 < rem + w) := by
  have hc := Nat.mod_lt c (show 0 < 8 by omega)
  generalize c % 8 = r at hc
  unfold leftBits
  by_cases h : w ≥ 8
  · rw [if_pos h]
    have k : ∀ rem < 8, ∀ r < 8, ((0xff : UInt8) >>> rem.toUInt8).toNat.testBit (7 - r) = decide (rem ≤ r) := by decide +kernel
    rw [k rem h8 r hc]
    congr 1
    apply propext
    omega
  · rw [if_neg h]
    have k : ∀ w < 8, 0 < w → ∀ rem < 8, ∀ r < 8, (((0xff : UInt8) <<< (8 - w).toUInt8) >>> rem.toUInt8).toNat.testBit (7 - r) =
        decide (rem ≤ r ∧ r < rem + w) := by decide +kernel
    exact k w (by omega) hw rem h8 r hc

theorem rightBits_testBit (rem c : Nat) (h0 : 0 < rem) (h8 : rem < 8) :
    (rightBits rem).toNat.testBit (7 - c % 8) = decide (c % 8 < rem) := by
  have hc := Nat.mod_lt c (show 0 < 8 by omega)
  generalize c % 8 = r at hc
  unfold rightBits
  have k : ∀ rem < 8, 0 < rem → ∀ r < 8, ((0xff : UInt8) <<< (8 - rem).toUInt8).toNat.testBit (7 - r) = decide (r < rem) := by
    decide +kernel
  exact k rem h8 h0 r hc

theorem fullByte_testBit (value : Bool) (c : Nat) : (if value then (0xff : UInt8) else 0).toNat.testBit (7 - c % 8) = value := by
  have hc := Nat.mod_lt c (show 0 < 8 by omega)
  generalize c % 8 = r at hc
  have k : ∀ value : Bool, ∀ r < 8, (if value then (0xff : UInt8) else 0).toNat.testBit (7 - r) = value := by decide +kernel
  exact k value r hc

/-- Row and column are determined by the offset. -/
theorem row_unique {stride y y' a a' : Nat} (h : y * stride + a = y' * stride + a') (ha : a < stride) (ha' : a' < stride) :
    y = y' ∧ a = a' := by
  have h1 : (y * stride + a) / stride = y := by
    rw [Nat.add_comm, Nat.add_mul_div_right _ _ (by omega), Nat.div_eq_of_lt ha, Nat.zero_add]
  have h2 : (y' * stride + a') / stride = y' := by
    rw [Nat.add_comm, Nat.add_mul_div_right _ _ (by omega), Nat.div_eq_of_lt ha', Nat.zero_add]
  have : y = y' := by rw [← h1, ← h2, h]
  subst this
  exact ⟨rfl, by omega⟩

open Classical in
theorem borderByte_ok (value : Bool) (bits : UInt8) (off stride h : Nat) (b : Buf) (hs : 0 < stride)
    (hb : ∀ y < h, off + y * stride < b.size) :
    ∃ b', borderByte value bits off stride h b = some b' ∧ b'.size = b.size ∧
      ∀ i, b'.get i = if ∃ y < h, i = off + y * stride then
        changeBits value bits (b.get i) else b.get i := by
  unfold borderByte
  refine loop_inv (fun n s => s.size = b.size ∧ ∀ i, s.get i = if ∃ y < n, i = off + y * stride then
        changeBits value bits (b.get i) else b.get i) _ h b ?_ ?_
  · refine ⟨rfl, ?_⟩
    intro i
    rw [if_neg]
    rintro ⟨y, hy, _⟩
    omega
  · intro n s hn ⟨hs1, hs2⟩
    have hlt := hb n hn
    have hr : s.read (off + n * stride) = some (s.get (off + n * stride)) := by
      unfold Buf.read; rw [if_pos (by omega)]
    have hnot : ¬ ∃ y < n, off + n * stride = off + y * stride := by
      rintro ⟨y, hy, he⟩
      have := (row_unique (stride := stride) (y := n) (y' := y) (a := 0) (a' := 0) (by omega) hs hs).1
      omega
    rw [hr]
    dsimp only [Option.bind_some]
    unfold Buf.write
    rw [if_pos (by omega)]
    refine ⟨_, rfl, hs1, ?_⟩
    intro i
    dsimp only
    by_cases hi : i = off + n * stride
    · rw [if_pos hi, if_pos ⟨n, by omega, hi⟩, hs2, if_neg hnot, hi]
    · rw [if_neg hi, hs2]
      have : (∃ y < n + 1, i = off + y * stride) ↔ ∃ y < n, i = off + y * stride := by
        constructor
        · rintro ⟨y, hy, he⟩
          refine ⟨y, ?_, he⟩
          rcases Nat.lt_or_ge y n with h | h
          · exact h
          · have : y = n := by omega
            subst this
            exact absurd he hi
        · rintro ⟨y, hy, he⟩
          exact ⟨y, by omega, he⟩
      simp only [this]

open Classical in
theorem setByte_ok (v : UInt8) (off stride w h : Nat) (b : Buf) (hb : ∀ y < h, off + y * stride + w ≤ b.size) :
    ∃ b', setByte v off stride w h b = some b' ∧ b'.size = b.size ∧
      ∀ i, b'.get i = if ∃ y < h, off + y * stride ≤ i ∧ i < off + y * stride + w then v else b.get i := by
  unfold setByte
  refine loop_inv (fun n s => s.size = b.size ∧ ∀ i, s.get i = if ∃ y < n, off + y * stride ≤ i ∧ i < off + y * stride + w
    then v else b.get i) _ h b ?_ ?_
  · refine ⟨rfl, ?_⟩
    intro i
    rw [if_neg]
    rintro ⟨y, hy, _⟩
    omega
  · intro n s hn ⟨hs1, hs2⟩
    have hlt := hb n hn
    unfold Buf.memset
    rw [if_pos (by omega)]
    refine ⟨_, rfl, hs1, ?_⟩
    intro i
    dsimp only
    by_cases hi : off + n * stride ≤ i ∧ i < off + n * stride + w
    · rw [if_pos hi, if_pos ⟨n, by omega, hi⟩]
    · rw [if_neg hi, hs2]
      have : (∃ y < n + 1, off + y * stride ≤ i ∧ i < off + y * stride + w) ↔
          ∃ y < n, off + y * stride ≤ i ∧ i < off + y * stride + w := by
        constructor
        · rintro ⟨y, hy, he⟩
          refine ⟨y, ?_, he⟩
          rcases Nat.lt_or_ge y n with h | h
          · exact h
          · have : y = n := by omega
            subst this
            exact absurd he hi
        · rintro ⟨y, hy, he⟩
          exact ⟨y, by omega, he⟩
      simp only [this]

/-- Pixel `(c,y)` of a buffer with the given stride. -/
def pixel (b : Buf) (stride c y : Nat) : Bool := (b.get (y * stride + c / 8)).toNat.testBit (7 - c % 8)

theorem border_pixel (value : Bool) (bits : UInt8) (q y1 stride h : Nat) (b : Buf) (hq : q < stride)
    (hb : ∀ y < h, (y1 + y) * stride + q < b.size) :
    ∃ b', borderByte value bits (q + y1 * stride) stride h b = some b' ∧ b'.size = b.size ∧
      ∀ c y, c < 8 * stride → pixel b' stride c y =
        if (y1 ≤ y ∧ y < y1 + h) ∧ c / 8 = q ∧ bits.toNat.testBit (7 - c % 8) = true then value else pixel b stride c y := by
  have he : ∀ y, q + y1 * stride + y * stride = (y1 + y) * stride + q := by intro y; rw [Nat.add_mul]; omega
  obtain ⟨b', h1, h2, h3⟩ := borderByte_ok value bits (q + y1 * stride) stride h b (by omega)
    (fun y hy => by rw [he]; exact hb y hy)
  refine ⟨b', h1, h2, ?_⟩
  intro c y hc
  unfold pixel
  rw [h3]
  have hrow : (∃ y' < h, y * stride + c / 8 = q + y1 * stride + y' * stride) ↔ (y1 ≤ y ∧ y < y1 + h) ∧ c / 8 = q := by
    constructor
    · rintro ⟨y', hy', hh⟩
      rw [he] at hh
      obtain ⟨a, d⟩ := row_unique hh (by omega) hq
      omega
    · rintro ⟨⟨a, d⟩, e⟩
      refine ⟨y - y1, by omega, ?_⟩
      rw [he, e, show y1 + (y - y1) = y by omega]
  by_cases hy : (y1 ≤ y ∧ y < y1 + h) ∧ c / 8 = q
  · rw [if_pos (hrow.mpr hy)]
    rw [changeBits_testBit _ _ _ _ (by omega)]
    by_cases hbit : bits.toNat.testBit (7 - c % 8) = true
    · rw [if_pos hbit, if_pos ⟨hy.1, hy.2, hbit⟩]
    · rw [if_neg hbit, if_neg (fun h => hbit h.2.2)]
  · rw [if_neg (fun h => hy (hrow.mp h)), if_neg (fun h => hy ⟨h.1, h.2.1⟩)]

theorem bytes_pixel (value : Bool) (q n y1 stride h : Nat) (b : Buf) (hq : q + n ≤ stride)
    (hb : ∀ y < h, (y1 + y) * stride + q + n ≤ b.size) :
    ∃ b', setByte (if value then 0xff else 0) (stride * y1 + q) stride n h b = some b' ∧ b'.size = b.size ∧
      ∀ c y, c < 8 * stride → pixel b' stride c y =
        if (y1 ≤ y ∧ y < y1 + h) ∧ q ≤ c / 8 ∧ c / 8 < q + n then value else pixel b stride c y := by
  have he : ∀ y, stride * y1 + q + y * stride = (y1 + y) * stride + q := by
    intro y; rw [Nat.add_mul, Nat.mul_comm stride y1]; omega
  obtain ⟨b', h1, h2, h3⟩ := setByte_ok (if value then 0xff else 0) (stride * y1 + q) stride n h b
    (fun y hy => by rw [he]; exact hb y hy)
  refine ⟨b', h1, h2, ?_⟩
  intro c y hc
  unfold pixel
  rw [h3]
  have hrow : (∃ y' < h, stride * y1 + q + y' * stride ≤ y * stride + c / 8 ∧ y * stride + c / 8 < stride * y1 + q + y' * stride + n) ↔
      (y1 ≤ y ∧ y < y1 + h) ∧ q ≤ c / 8 ∧ c / 8 < q + n := by
    constructor
    · rintro ⟨y', hy', ha, hd⟩
      rw [he] at ha hd
      have hh : y * stride + c / 8 = (y1 + y') * stride + (q + (y * stride + c / 8 - ((y1 + y') * stride + q))) := by omega
      obtain ⟨a, d⟩ := row_unique hh (by omega) (by omega)
      omega
    · rintro ⟨⟨a, d⟩, e, f⟩
      refine ⟨y - y1, by omega, ?_⟩
      rw [he, show y1 + (y - y1) = y by omega]
      omega
  by_cases hy : (y1 ≤ y ∧ y < y1 + h) ∧ q ≤ c / 8 ∧ c / 8 < q + n
  · rw [if_pos (hrow.mpr hy), if_pos hy]
    exact fullByte_testBit value c
  · rw [if_neg (fun h => hy (hrow.mp h)), if_neg hy]

theorem ite_iff {α : Type} {P Q : Prop} [Decidable P] [Decidable Q] (h : P ↔ Q) (x y : α) :
    (if P then x else y) = if Q then x else y := by
  by_cases hp : P
  · rw [if_pos hp, if_pos (h.mp hp)]
  · rw [if_neg hp, if_neg (fun q => hp (h.mpr q))]

theorem fillClipped_pixel (x1 x2 y1 h stride : Nat) (value : Bool) (b : Buf) (hx : x1 < x2) (hst : (x2 + 7) / 8 ≤ stride)
    (hb : ∀ y < h, (y1 + y) * stride + (x2 + 7) / 8 ≤ b.size) :
    ∃ b', fillClipped x1 x2 y1 h stride value b = some b' ∧ b'.size = b.size ∧
      ∀ c y, c < 8 * stride → pixel b' stride c y =
        if (y1 ≤ y ∧ y < y1 + h) ∧ x1 ≤ c ∧ c < x2 then value else pixel b stride c y := by
  unfold fillClipped
  dsimp only
  -- whole bytes
  have p1 : ∃ b1, (if (x1 + 7) / 8 * 8 + 8 ≤ x1 + (x2 - x1) then
      setByte (if value then 0xff else 0) (stride * y1 + (x1 + 7) / 8 * 8 / 8) stride ((x2 - x1 - ((x1 + 7) / 8 * 8 - x1)) / 8) h b
      else some b) = some b1 ∧ b1.size = b.size ∧ ∀ c y, c < 8 * stride → pixel b1 stride c y =
        if (y1 ≤ y ∧ y < y1 + h) ∧ (x1 + 7) / 8 ≤ c / 8 ∧ c / 8 < x2 / 8 then value else pixel b stride c y := by
    by_cases hc : (x1 + 7) / 8 * 8 + 8 ≤ x1 + (x2 - x1)
    · rw [if_pos hc]
      obtain ⟨b1, k1, k2, k3⟩ := bytes_pixel value ((x1 + 7) / 8 * 8 / 8) ((x2 - x1 - ((x1 + 7) / 8 * 8 - x1)) / 8) y1 stride h b
        (by omega) (fun y hy => by have := hb y hy; omega)
      refine ⟨b1, k1, k2, ?_⟩
      intro c y hcs
      rw [k3 c y hcs]
      have : (x1 + 7) / 8 * 8 / 8 = (x1 + 7) / 8 := by omega
      have h2 : (x1 + 7) / 8 * 8 / 8 + (x2 - x1 - ((x1 + 7) / 8 * 8 - x1)) / 8 = x2 / 8 := by omega
      rw [h2, this]
    · rw [if_neg hc]
      refine ⟨b, rfl, rfl, ?_⟩
      intro c y _
      rw [if_neg]
      rintro ⟨_, h1, h2⟩
      omega
  obtain ⟨b1, e1, s1, q1⟩ := p1
  rw [e1]
  dsimp only [Option.bind_some]
  -- left border
  have p2 : ∃ b2, (if x1 % 8 ≠ 0 then borderByte value (leftBits (x2 - x1) (x1 % 8)) (x1 / 8 + y1 * stride) stride h b1 else some b1) =
      some b2 ∧ b2.size = b.size ∧ ∀ c y, c < 8 * stride → pixel b2 stride c y =
        if (y1 ≤ y ∧ y < y1 + h) ∧ x1 % 8 ≠ 0 ∧ c / 8 = x1 / 8 ∧ x1 ≤ c ∧ c < x2 then value else pixel b1 stride c y := by
    by_cases hc : x1 % 8 ≠ 0
    · rw [if_pos hc]
      obtain ⟨b2, k1, k2, k3⟩ := border_pixel value (leftBits (x2 - x1) (x1 % 8)) (x1 / 8) y1 stride h b1
        (by omega) (fun y hy => by have := hb y hy; omega)
      refine ⟨b2, k1, by omega, ?_⟩
      intro c y hcs
      rw [k3 c y hcs]
      apply ite_iff
      rw [leftBits_testBit _ _ _ (by omega) (by omega) (by omega), decide_eq_true_eq]
      constructor
      · rintro ⟨a, d, e, f⟩; exact ⟨a, hc, d, by omega, by omega⟩
      · rintro ⟨a, _, d, e, f⟩; exact ⟨a, d, by omega, by omega⟩
    · rw [if_neg hc]
      refine ⟨b1, rfl, s1, ?_⟩
      intro c y _
      rw [if_neg]
      rintro ⟨_, h1, _⟩
      exact hc h1
  obtain ⟨b2, e2, s2, q2⟩ := p2
  rw [e2]
  dsimp only [Option.bind_some]
  -- right border
  have p3 : ∃ b3, (if (x1 % 8 = 0 ∨ x1 / 8 < x2 / 8) ∧ x2 % 8 ≠ 0 then
      borderByte value (rightBits (x2 % 8)) (x2 / 8 + y1 * stride) stride h b2 else some b2) =
      some b3 ∧ b3.size = b.size ∧ ∀ c y, c < 8 * stride → pixel b3 stride c y =
        if (y1 ≤ y ∧ y < y1 + h) ∧ (x1 % 8 = 0 ∨ x1 / 8 < x2 / 8) ∧ c / 8 = x2 / 8 ∧ c < x2 then value else pixel b2 stride c y := by
    by_cases hc : (x1 % 8 = 0 ∨ x1 / 8 < x2 / 8) ∧ x2 % 8 ≠ 0
    · rw [if_pos hc]
      obtain ⟨b3, k1, k2, k3⟩ := border_pixel value (rightBits (x2 % 8)) (x2 / 8) y1 stride h b2
        (by omega) (fun y hy => by have := hb y hy; omega)
      refine ⟨b3, k1, by omega, ?_⟩
      intro c y hcs
      rw [k3 c y hcs]
      apply ite_iff
      rw [rightBits_testBit _ _ (by omega) (by omega), decide_eq_true_eq]
      constructor
      · rintro ⟨a, d, e⟩; exact ⟨a, hc.1, d, by omega⟩
      · rintro ⟨a, _, d, e⟩; exact ⟨a, d, by omega⟩
    · rw [if_neg hc]
      refine ⟨b2, rfl, s2, ?_⟩
      intro c y _
      rw [if_neg]
      rintro ⟨_, h1, h2, h3⟩
      omega
  obtain ⟨b3, e3, s3, q3⟩ := p3
  refine ⟨b3, e3, s3, ?_⟩
  intro c y hcs
  rw [q3 c y hcs, q2 c y hcs, q1 c y hcs]
  by_cases hy : y1 ≤ y ∧ y < y1 + h
  · by_cases hin : x1 ≤ c ∧ c < x2
    · rw [if_pos (show _ ∧ _ ∧ _ from ⟨hy, hin⟩)]
      by_cases g3 : (y1 ≤ y ∧ y < y1 + h) ∧ (x1 % 8 = 0 ∨ x1 / 8 < x2 / 8) ∧ c / 8 = x2 / 8 ∧ c < x2
      · rw [if_pos g3]
      · rw [if_neg g3]
        by_cases g2 : (y1 ≤ y ∧ y < y1 + h) ∧ x1 % 8 ≠ 0 ∧ c / 8 = x1 / 8 ∧ x1 ≤ c ∧ c < x2
        · rw [if_pos g2]
        · rw [if_neg g2, if_pos]
          refine ⟨hy, ?_⟩
          have g3' : ¬ ((x1 % 8 = 0 ∨ x1 / 8 < x2 / 8) ∧ c / 8 = x2 / 8 ∧ c < x2) := fun h => g3 ⟨hy, h⟩
          have g2' : ¬ (x1 % 8 ≠ 0 ∧ c / 8 = x1 / 8 ∧ x1 ≤ c ∧ c < x2) := fun h => g2 ⟨hy, h⟩
          omega
    · rw [if_neg (by rintro ⟨_, h1, h2, h3⟩; omega), if_neg (by rintro ⟨_, h1, h2, h3⟩; omega),
        if_neg (by rintro ⟨_, h1, h2⟩; omega), if_neg (fun h => hin h.2)]
  · rw [if_neg (fun h => hy h.1), if_neg (fun h => hy h.1), if_neg (fun h => hy h.1), if_neg (fun h => hy h.1)]

end Verif
