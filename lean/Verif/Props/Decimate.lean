import Verif.Proof.Decimate
import Verif.Props.Bitonal

/-!
# C40 Decimation of bitonal bitmaps
-/

namespace Verif
open Blit Czi Bitonal Spec

theorem goodLock_rows {m : Mask} (h : GoodLock m) : RowsInside m := fun r hr => row_inside m h.2.2 r hr

/-- The rows of the result do not overlap, so that a line leaves the pixels of the other lines alone. -/
theorem bit16_pixel (b : Buf) (stride X Y : Nat) :
    bit16 b (stride * Y + 2 * (X / 16)) (X % 16) = (b.get (Y * stride + X / 8)).toNat.testBit (7 - X % 8) := by
  unfold bit16
  rw [show X % 16 % 8 = X % 8 by omega, show stride * Y + 2 * (X / 16) + X % 16 / 8 = Y * stride + X / 8 by
    rw [Nat.mul_comm stride]; omega]

/-- What the decimation yields for every bitmap of an admissible width, and every neighbourhood. -/
theorem decimate_lines (n : Nat) (hn : n ≤ 7) (m : Mask) (hg : GoodLock m) (hw : m.w < 4294967289) (h16 : m.w % 16 ≠ 1) (init : Nat → UInt8) :
    ∃ out, decimate n m init = .ok out ∧ out.w = m.w / 2 ∧ out.h = m.h / 2 ∧ out.stride = (m.w / 2 + 7) / 8 ∧
      out.buf.size = m.h / 2 * ((m.w / 2 + 7) / 8) ∧
      ((n ≤ 1 ∨ m.w < 32) → ∀ X Y, X < m.w / 2 → Y < m.h / 2 → (out.at X Y = true ↔ AllSetAround m n X Y)) := by
  unfold decimate
  rw [(C39_lock_check m hw).mpr hg, if_neg (by simp), if_neg (by omega), show (n : Int).toNat = n by omega]
  have key := loop_inv (fun k (b : Buf) => b.size = m.h / 2 * ((m.w / 2 + 7) / 8) ∧
      ((n ≤ 1 ∨ m.w < 32) → ∀ X Y, X < m.w / 2 → Y < k →
        (bit16 b ((m.w / 2 + 7) / 8 * Y + 2 * (X / 16)) (X % 16) = true ↔ AllSetAround m n X Y)))
    (fun y b => decimateLine n (y * 2) m.h m.w m.stride m.buf (m.stride * y * 2) ((m.w / 2 + 7) / 8 * y) b)
    (m.h / 2) (halfBitmap m init).buf ⟨rfl, fun _ X Y _ hY => absurd hY (by omega)⟩ ?_
  · obtain ⟨b, h1, h2, h3⟩ := key
    rw [h1]
    refine ⟨_, rfl, rfl, rfl, rfl, h2, ?_⟩
    intro hnw X Y hX hY
    rw [← h3 hnw X Y hX hY, bit16_pixel]
    rfl
  · intro Y b hY ⟨p1, p2⟩
    have hrow : m.stride * Y * 2 = Y * 2 * m.stride := by rw [Nat.mul_comm m.stride, Nat.mul_right_comm]
    obtain ⟨D, A, r1, r2, r3, r4, r5⟩ := line_reads m (goodLock_rows hg) hg.2.2.1 n (Y * 2) (by omega)
    rw [hrow]
    have hspace : (m.w / 2 + 7) / 8 * Y + lineBytes m.w ≤ b.size := by
      rw [p1, lineBytes_eq _ h16, Nat.mul_comm _ Y]
      exact row_lt hY
    obtain ⟨b', q1, q2, q3, q4⟩ := line_ok n (Y * 2) m.h m.w m.stride m.buf (Y * 2 * m.stride) ((m.w / 2 + 7) / 8 * Y) b D A r1 r2 r3 r4 hspace
    refine ⟨b', q1, q2.trans p1, ?_⟩
    intro hnw X Y' hX hY'
    by_cases hYY : Y' = Y
    · subst hYY
      rw [q4 (X / 16) (X % 16) (by omega) (by omega), window_exact m n (Y' * 2) (X / 16) (X % 16) D A hn hnw (by omega) (by omega) r2 (r5 hnw)]
      unfold Vert AllSetAround
      constructor
      · intro h x y hx hy a1 a2 a3 a4
        exact h x hx (by omega) (by omega) y hy (by omega) (by omega)
      · intro h s hs a1 a2 r hr a3 a4
        exact h s r hs hr (by omega) (by omega) (by omega) (by omega)
    · rw [← p2 hnw X Y' hX (by omega)]
      have hlt : Y' < Y := by omega
      have h8 := row_lt (s := (m.w / 2 + 7) / 8) hlt
      rw [Nat.mul_comm Y', Nat.mul_comm Y] at h8
      have : bit16 b' ((m.w / 2 + 7) / 8 * Y' + 2 * (X / 16)) (X % 16) = bit16 b ((m.w / 2 + 7) / 8 * Y' + 2 * (X / 16)) (X % 16) := by
        unfold bit16
        rw [q3 _ (Or.inl (by omega))]
      rw [this]

/-- **C40 (exactness; partial: neighbourhood sizes 0 and 1, or bitmaps less than 32 columns wide; widths that do not leave a
remainder of 1 when divided by 16).** For every such bitmap, stride and content: the result has half the size, and a pixel is set
if and only if all pixels of the source in the neighbourhood of the corresponding pixel are set. The result does not depend on
the content of the fresh memory. Full statement: the same for all neighbourhood sizes 0..7 and all widths - violated, see below. -/
theorem C40_decimate_exact_partial (n : Nat) (m : Mask) (hg : GoodLock m) (hw : m.w < 4294967289) (hn : n ≤ 7) (hnw : n ≤ 1 ∨ m.w < 32)
    (h16 : m.w % 16 ≠ 1) (init : Nat → UInt8) :
    ∃ out, decimate n m init = .ok out ∧ out.w = m.w / 2 ∧ out.h = m.h / 2 ∧
      ∀ X Y, X < out.w → Y < out.h → (out.at X Y = true ↔ AllSetAround m n X Y) := by
  obtain ⟨out, h1, h2, h3, _, _, h4⟩ := decimate_lines n hn m hg hw h16 init
  exact ⟨out, h1, h2, h3, fun X Y hX hY => h4 hnw X Y (by omega) (by omega)⟩

/-- **C40 (memory; partial: widths that do not leave a remainder of 1 when divided by 16).** For every neighbourhood size from 0 to
7 no byte outside of source and result is accessed. -/
theorem C40_in_bounds_partial (n : Nat) (m : Mask) (hg : GoodLock m) (hw : m.w < 4294967289) (hn : n ≤ 7)
    (h16 : m.w % 16 ≠ 1) (init : Nat → UInt8) :
    ∃ out, decimate n m init = .ok out ∧ out.w = m.w / 2 ∧ out.h = m.h / 2 ∧ (0 < out.w → out.WF) := by
  obtain ⟨out, h1, h2, h3, h4, h5, _⟩ := decimate_lines n hn m hg hw h16 init
  refine ⟨out, h1, h2, h3, ?_⟩
  intro _
  unfold Mask.WF
  rw [h4, h5, h2, h3]
  refine ⟨Nat.le_refl _, fun h0 => ?_⟩
  have := row_lt (s := (m.w / 2 + 7) / 8) (show m.h / 2 - 1 < m.h / 2 by omega)
  omega

/-- **C40 (arguments).** Neighbourhood sizes below 0 or above 7 and bad lock infos are refused. -/
theorem C40_bad_arguments (n : Int) (m : Mask) (hw : m.w < 4294967289) (h : n < 0 ∨ n > 7 ∨ ¬ GoodLock m) (init : Nat → UInt8) :
    decimate n m init = .throws := by
  unfold decimate
  by_cases hc : checkLock m = true
  · rw [if_neg (by simp [hc]), if_pos]
    rcases h with h | h | h
    · exact Or.inl h
    · exact Or.inr h
    · exact absurd ((C39_lock_check m hw).mp hc) h
  · rw [if_pos (by simpa using hc)]

theorem loop_none_mono {σ : Type} (f : Nat → σ → Option σ) (s : σ) (k : Nat) (h : loop k f s = none) : ∀ j, loop (k + j) f s = none := by
  intro j
  induction j with
  | zero => exact h
  | succ j ih =>
    show (loop (k + j) f s).bind _ = none
    rw [ih]
    rfl

/-- A line whose last byte does not fit into the destination. -/
theorem line_none (n y h w stride : Nat) (src : Buf) (row rowDest : Nat) (dest : Buf) (hw : w % 16 = 1)
    (hb : dest.size < rowDest + lineBytes w) : decimateLine n y h w stride src row rowDest dest = none := by
  have hsz : ∀ k s, loop k (fun x (s : BitVec 8 × Buf) =>
      (getByteAfter src row (x * 4 + 4) w).bind fun byteAfter =>
      (getDword n y h src (row + x * 4) stride).bind fun le =>
      (writeWord s.2 (rowDest + 2 * x) (bswapWord (filterDword n (bswapDword le) s.1 byteAfter))).map fun b =>
        ((bswapDword le).setWidth 8, b)) (0xff#8, dest) = some s → s.2.size = dest.size := by
    intro k
    induction k with
    | zero =>
      intro s hs
      injection hs with hs
      rw [← hs]
    | succ k ih =>
      intro s hs
      rw [loop] at hs
      obtain ⟨s', h1, h2⟩ := Option.bind_eq_some_iff.mp hs
      obtain ⟨a, _, h3⟩ := Option.bind_eq_some_iff.mp h2
      obtain ⟨d, _, h4⟩ := Option.bind_eq_some_iff.mp h3
      obtain ⟨b, h5, h6⟩ := Option.map_eq_some_iff.mp h4
      rw [← h6, ← ih s' h1]
      unfold writeWord Buf.write at h5
      obtain ⟨b1, h7, h8⟩ := Option.bind_eq_some_iff.mp h5
      split at h7
      · injection h7 with h7
        split at h8
        · injection h8 with h8
          rw [← h8, ← h7]
        · exact absurd h8 (by simp)
      · exact absurd h7 (by simp)
  unfold decimateLine
  unfold lineBytes at hb
  rw [if_neg (by omega)] at hb
  rw [Option.bind_eq_none_iff]
  intro s hs
  have hs2 := hsz _ s hs
  rw [show w - w / 32 * 32 = w % 32 by omega, if_pos (by omega), Option.bind_eq_none_iff]
  intro le _
  by_cases h1 : w % 32 ≤ 16
  · rw [if_pos h1] at hb ⊢
    unfold Buf.write
    rw [if_neg (by omega)]
  · rw [if_neg h1] at hb ⊢
    unfold writeWord
    rw [Option.bind_eq_none_iff]
    intro b1 hb1
    have : b1.size = s.2.size := by
      unfold Buf.write at hb1
      split at hb1
      · injection hb1 with hb1
        rw [← hb1]
      · exact absurd hb1 (by simp)
    unfold Buf.write
    rw [if_neg (by omega)]

/-- **C40 violated (memory):** for every bitmap of two or more rows whose width leaves a remainder of 1 when divided by 16, and
every neighbourhood size, the last line's result is written past the end of the memory of the result. -/
theorem C40_width_overflow (n : Nat) (m : Mask) (hg : GoodLock m) (hw : m.w < 4294967289) (hn : n ≤ 7) (h16 : m.w % 16 = 1) (hh : 2 ≤ m.h)
    (init : Nat → UInt8) : decimate n m init = .undefined := by
  unfold decimate
  rw [(C39_lock_check m hw).mpr hg, if_neg (by simp), if_neg (by omega), show (n : Int).toNat = n by omega]
  have hnone : loop (m.h / 2) (fun y b =>
      decimateLine n (y * 2) m.h m.w m.stride m.buf (m.stride * y * 2) ((m.w / 2 + 7) / 8 * y) b) (halfBitmap m init).buf = none := by
    by_cases h1 : m.w = 1
    · have : loop 1 (fun y b =>
          decimateLine n (y * 2) m.h m.w m.stride m.buf (m.stride * y * 2) ((m.w / 2 + 7) / 8 * y) b) (halfBitmap m init).buf = none := by
        show decimateLine n (0 * 2) m.h m.w m.stride m.buf (m.stride * 0 * 2) ((m.w / 2 + 7) / 8 * 0) (halfBitmap m init).buf = none
        apply line_none _ _ _ _ _ _ _ _ _ h16
        rw [lineBytes_over _ h16]
        show m.h / 2 * ((m.w / 2 + 7) / 8) < _
        rw [h1]
        omega
      have := loop_none_mono _ _ 1 this (m.h / 2 - 1)
      rw [show 1 + (m.h / 2 - 1) = m.h / 2 by omega] at this
      exact this
    · obtain ⟨b, h2, h3⟩ := loop_inv (fun _ (b : Buf) => b.size = m.h / 2 * ((m.w / 2 + 7) / 8))
        (fun y b => decimateLine n (y * 2) m.h m.w m.stride m.buf (m.stride * y * 2) ((m.w / 2 + 7) / 8 * y) b)
        (m.h / 2 - 1) (halfBitmap m init).buf rfl (by
          intro Y b hY p1
          have hrow : m.stride * Y * 2 = Y * 2 * m.stride := by rw [Nat.mul_comm m.stride, Nat.mul_right_comm]
          obtain ⟨D, A, r1, r2, r3, r4, _⟩ := line_reads m (goodLock_rows hg) hg.2.2.1 n (Y * 2) (by omega)
          rw [hrow]
          have hspace : (m.w / 2 + 7) / 8 * Y + lineBytes m.w ≤ b.size := by
            rw [p1, lineBytes_over _ h16, Nat.mul_comm _ Y]
            have a1 := row_lt (s := (m.w / 2 + 7) / 8) (show Y < Y + 1 by omega)
            have a2 := row_lt (s := (m.w / 2 + 7) / 8) (show Y + 1 < m.h / 2 by omega)
            omega
          obtain ⟨b', q1, q2, _, _⟩ := line_ok n (Y * 2) m.h m.w m.stride m.buf (Y * 2 * m.stride) ((m.w / 2 + 7) / 8 * Y) b D A r1 r2 r3 r4 hspace
          exact ⟨b', q1, q2.trans p1⟩)
      have : loop (m.h / 2 - 1 + 1) (fun y b =>
          decimateLine n (y * 2) m.h m.w m.stride m.buf (m.stride * y * 2) ((m.w / 2 + 7) / 8 * y) b) (halfBitmap m init).buf = none := by
        rw [loop, h2, Option.bind_some]
        apply line_none _ _ _ _ _ _ _ _ _ h16
        rw [h3, lineBytes_over _ h16]
        have : m.h / 2 * ((m.w / 2 + 7) / 8) = (m.w / 2 + 7) / 8 * (m.h / 2 - 1) + (m.w / 2 + 7) / 8 := by
          rw [Nat.mul_comm, ← Nat.mul_succ]
          congr 1
          omega
        omega
      rw [show m.h / 2 - 1 + 1 = m.h / 2 by omega] at this
      exact this
  rw [hnone]
  rfl

/-! ## Instances of the hypotheses, and violations -/

/-- 20 columns, 6 rows, 3 bytes per row; all pixels are set but two in the fourth row. -/
def exampleSource : Mask := ⟨20, 6, 3, ⟨18, fun i => if i = 10 then 0xe7 else 0xff⟩⟩

example : GoodLock exampleSource ∧ exampleSource.w < 32 ∧ exampleSource.w % 16 ≠ 1 := by
  simp [GoodLock, exampleSource, Mask.WF]

/-- The bytes of the result. -/
def resultBytes (o : Outcome Mask) : List UInt8 :=
  match o with
  | .ok m => m.buf.toList
  | _ => []

example : resultBytes (decimate 0 exampleSource (fun _ => 0)) = [0xff, 0xff, 0xff, 0xff, 0xff, 0xff] := by decide +kernel
example : resultBytes (decimate 1 exampleSource (fun _ => 0)) = [0xff, 0xff, 0xf9, 0xff, 0xf9, 0xff] := by decide +kernel
example : resultBytes (decimate 2 exampleSource (fun _ => 0)) = [0xff, 0xff, 0xf8, 0xff, 0xf8, 0xff] := by decide +kernel

/-- 70 columns with padding: the words and the rest of the line. -/
def exampleWide : Mask := ⟨70, 4, 10, ⟨40, fun i => if i = 13 ∨ i = 18 then 0xfe else 0xff⟩⟩

example : GoodLock exampleWide ∧ (1 ≤ 1 ∨ exampleWide.w < 32) ∧ exampleWide.w % 16 ≠ 1 := by
  simp [GoodLock, exampleWide, Mask.WF]

example : resultBytes (decimate 1 exampleWide (fun _ => 0)) =
    [0xff, 0xfe, 0x7f, 0xff, 0xff, 0xff, 0xfe, 0x7f, 0xff, 0xff] := by decide +kernel

/-- 32 columns, 10 rows; the row 8 is clear, all others are set. -/
def clearRow : Mask := ⟨32, 10, 4, ⟨40, fun i => if i / 4 = 8 then 0 else 0xff⟩⟩

/-- **C40 violated (rows):** for neighbourhood sizes 2 to 7 and lines of 32 or more columns, only the topmost row of the
neighbourhood and the row below the pixel are looked at: the pixel `(0, 4)` of the result is set although no pixel of the row `8`
of the source is set. -/
theorem C40_large_neighbourhood_wrong :
    GoodLock clearRow ∧ ∀ n : Nat, 2 ≤ n → n ≤ 7 →
      (∃ out, decimate n clearRow (fun _ => 0) = .ok out ∧ out.at 0 4 = true) ∧ ¬ AllSetAround clearRow n 0 4 := by
  refine ⟨by simp [GoodLock, clearRow, Mask.WF], ?_⟩
  intro n h2 h7
  constructor
  · have k : ∀ n ≤ 7, 2 ≤ n → (match decimate (n : Nat) clearRow (fun _ => 0) with
        | .ok out => out.at 0 4
        | _ => false) = true := by decide +kernel
    have := k n h7 h2
    revert this
    cases h : decimate (n : Nat) clearRow (fun _ => 0) with
    | ok out => exact fun h => ⟨out, rfl, h⟩
    | throws => intro h; exact absurd h (by simp)
    | undefined => intro h; exact absurd h (by simp)
  · intro h
    have := h 0 8 (by decide) (by decide) (by omega) (by omega) (by omega) (by omega)
    exact absurd this (by decide)

/-- 32 columns, 4 rows; only the first pixel of the second row is clear. -/
def clearFirst : Mask := ⟨32, 4, 4, ⟨16, fun i => if i = 4 then 0x7f else 0xff⟩⟩

/-- **C40 violated (right border):** the byte following the last word is compared with the width in pixels instead of bytes, so that
for a width of 32 the first pixels of the next row are taken for neighbours of the last pixel. -/
theorem C40_right_border_wrong :
    GoodLock clearFirst ∧ (∃ out, decimate 2 clearFirst (fun _ => 0) = .ok out ∧ out.at 15 0 = false) ∧ AllSetAround clearFirst 2 15 0 := by
  refine ⟨by simp [GoodLock, clearFirst, Mask.WF], ?_, ?_⟩
  · have k : (match decimate 2 clearFirst (fun _ => 0) with
        | .ok out => !out.at 15 0
        | _ => false) = true := by decide +kernel
    revert k
    cases h : decimate 2 clearFirst (fun _ => 0) with
    | ok out => exact fun h => ⟨out, rfl, by simpa using h⟩
    | throws => intro h; exact absurd h (by simp)
    | undefined => intro h; exact absurd h (by simp)
  · have k : ∀ x < 32, ∀ y < 4, 28 ≤ x → clearFirst.at x y = true := by decide +kernel
    intro x y hx hy h1 _ _ _
    exact k x hx y hy (by omega)

end Verif
