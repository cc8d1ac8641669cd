import Verif.Model.Float
import Mathlib.Tactic.Linarith
import Mathlib.Tactic.Ring
import Mathlib.Tactic.NormNum
import Mathlib.Tactic.Positivity
import Mathlib.Tactic.FieldSimp
import Mathlib.Algebra.Order.Field.Power

/-! # Rounding: error bound, monotony, representable values -/

namespace Verif.Flt

theorem roundEven_err (x : ℚ) : |(roundEven x : ℚ) - x| ≤ 1 / 2 := by
  have h1 := Int.floor_le x
  have h2 := Int.lt_floor_add_one x
  unfold roundEven
  split_ifs <;> rw [abs_le] <;> push_cast <;> constructor <;> linarith

theorem roundEven_int (n : ℤ) : roundEven n = n := by
  unfold roundEven
  simp

theorem roundEven_mono {x y : ℚ} (h : x ≤ y) : roundEven x ≤ roundEven y := by
  have hf : ⌊x⌋ ≤ ⌊y⌋ := Int.floor_le_floor h
  rcases Int.lt_or_eq_of_le hf with h1 | h1
  · have hx : roundEven x ≤ ⌊x⌋ + 1 := by unfold roundEven; split_ifs <;> omega
    have hy : ⌊y⌋ ≤ roundEven y := by unfold roundEven; split_ifs <;> omega
    omega
  · unfold roundEven
    rw [← h1]
    split_ifs <;> first | omega | linarith | (exfalso; linarith)

theorem roundEven_neg (x : ℚ) : roundEven (-x) = - roundEven x := by
  have h1 := Int.floor_le x
  have h2 := Int.lt_floor_add_one x
  by_cases hi : x = ⌊x⌋
  · rw [hi, ← Int.cast_neg, roundEven_int, roundEven_int]
  · have hlt : (⌊x⌋ : ℚ) < x := lt_of_le_of_ne h1 (Ne.symm hi)
    have hn : ⌊-x⌋ = -⌊x⌋ - 1 := by
      rw [Int.floor_eq_iff]; push_cast; constructor <;> linarith
    unfold roundEven
    rw [hn]
    push_cast
    split_ifs <;> first | omega | (exfalso; linarith)

theorem pow_pos' (e : ℤ) : (0 : ℚ) < 2 ^ e := by positivity

theorem log_bounds {x : ℚ} (hx : 0 < x) : (2 : ℚ) ^ Int.log 2 x ≤ x ∧ x < 2 ^ (Int.log 2 x + 1) :=
  ⟨by exact_mod_cast Int.zpow_log_le_self (b := 2) (by norm_num) hx,
   by exact_mod_cast Int.lt_zpow_succ_log_self (b := 2) (by norm_num) x⟩

theorem fround_zero (p : ℕ) : fround p 0 = 0 := by
  unfold fround
  have : roundEven 0 = 0 := by have := roundEven_int 0; simpa using this
  simp [this]

theorem fround_neg (p : ℕ) (x : ℚ) : fround p (-x) = - fround p x := by
  unfold fround lastExp
  rw [abs_neg, neg_div, roundEven_neg]
  push_cast
  ring

/-- The rounding error is at most half a unit in the last place. -/
theorem fround_err (p : ℕ) (x : ℚ) : |fround p x - x| ≤ |x| / 2 ^ p := by
  rcases eq_or_ne x 0 with h | h
  · subst h; simp [fround_zero]
  have hx : 0 < |x| := abs_pos.mpr h
  have hb := (log_bounds hx).1
  unfold fround
  generalize he : lastExp p x = e
  have h2 := pow_pos' e
  have h3 := roundEven_err (x / 2 ^ e)
  have h4 : (roundEven (x / 2 ^ e) : ℚ) * 2 ^ e - x = ((roundEven (x / 2 ^ e) : ℚ) - x / 2 ^ e) * 2 ^ e := by
    field_simp
  rw [h4, abs_mul, abs_of_pos h2]
  have h5 : (2 : ℚ) ^ e * 2 ^ (p : ℤ) = 2 * 2 ^ Int.log 2 |x| := by
    rw [← zpow_add₀ (by norm_num), ← he]
    unfold lastExp
    rw [show Int.log 2 |x| - ((p : ℤ) - 1) + p = 1 + Int.log 2 |x| by ring, zpow_add₀ (by norm_num)]
    norm_num
  rw [zpow_natCast] at h5
  have h6 : (0 : ℚ) < 2 ^ p := by positivity
  rw [le_div_iff₀ h6]
  calc |(roundEven (x / 2 ^ e) : ℚ) - x / 2 ^ e| * 2 ^ e * 2 ^ p
      = |(roundEven (x / 2 ^ e) : ℚ) - x / 2 ^ e| * (2 * 2 ^ Int.log 2 |x|) := by rw [mul_assoc, h5]
    _ ≤ 1 / 2 * (2 * 2 ^ Int.log 2 |x|) := by
        apply mul_le_mul_of_nonneg_right h3; positivity
    _ = 2 ^ Int.log 2 |x| := by ring
    _ ≤ |x| := hb

/-- Numbers with at most `p` significant bits are not changed. -/
theorem fround_exact (p : ℕ) (m : ℤ) (k : ℤ) (h : |m| < 2 ^ p) : fround p (m * 2 ^ k) = m * 2 ^ k := by
  rcases eq_or_ne m 0 with h0 | h0
  · subst h0; simp [fround_zero]
  have hx : (0 : ℚ) < |(m : ℚ) * 2 ^ k| := by
    rw [abs_pos]; exact mul_ne_zero (by exact_mod_cast h0) (pow_pos' k).ne'
  have hl : Int.log 2 |(m : ℚ) * 2 ^ k| < k + p := by
    rw [← Int.lt_zpow_iff_log_lt (b := 2) (by norm_num) hx, abs_mul, abs_of_pos (pow_pos' k)]
    push_cast
    rw [zpow_add₀ (by norm_num), mul_comm, zpow_natCast]
    apply mul_lt_mul_of_pos_left _ (pow_pos' k)
    have : ((|m| : ℤ) : ℚ) < ((2 ^ p : ℤ) : ℚ) := by exact_mod_cast h
    push_cast at this
    exact this
  unfold fround
  generalize he : lastExp p ((m : ℚ) * 2 ^ k) = e
  have hle : e ≤ k := by rw [← he]; unfold lastExp; omega
  have hq : (m : ℚ) * 2 ^ k / 2 ^ e = ((m * 2 ^ (k - e).toNat : ℤ) : ℚ) := by
    push_cast
    rw [← zpow_natCast, Int.toNat_of_nonneg (by omega), zpow_sub₀ (by norm_num)]
    ring
  rw [hq, roundEven_int, ← hq]
  field_simp

theorem fround_pow (p : ℕ) (hp : 0 < p) (k : ℤ) : fround p (2 ^ k) = 2 ^ k := by
  have := fround_exact p 1 k (by simpa using Nat.one_lt_two_pow (by omega : p ≠ 0) |> fun h => (by exact_mod_cast h : (1 : ℤ) < 2 ^ p))
  simpa using this

theorem fround_exact' (p : ℕ) (hp : 0 < p) (m : ℤ) (k : ℤ) (h : |m| ≤ 2 ^ p) : fround p (m * 2 ^ k) = m * 2 ^ k := by
  rcases lt_or_eq_of_le h with h1 | h1
  · exact fround_exact p m k h1
  · rcases abs_eq_abs.mp (show |m| = |(2 : ℤ) ^ p| by rw [h1]; simp) with h3 | h3
    · have h4 : (m : ℚ) * 2 ^ k = 2 ^ (k + p) := by
        rw [h3, zpow_add₀ (by norm_num)]; push_cast; rw [zpow_natCast]; ring
      rw [h4, fround_pow p hp]
    · have h4 : (m : ℚ) * 2 ^ k = -2 ^ (k + p) := by
        rw [h3, zpow_add₀ (by norm_num)]; push_cast; rw [zpow_natCast]; ring
      rw [h4, fround_neg, fround_pow p hp]

theorem fround_int (p : ℕ) (hp : 0 < p) (m : ℤ) (h : |m| ≤ 2 ^ p) : fround p m = m := by
  simpa using fround_exact' p hp m 0 h

theorem fround_nonneg (p : ℕ) {x : ℚ} (h : 0 ≤ x) : 0 ≤ fround p x := by
  unfold fround
  have h1 : (0 : ℤ) ≤ roundEven (x / 2 ^ lastExp p x) := by
    have := roundEven_mono (x := 0) (y := x / 2 ^ lastExp p x) (by positivity)
    have h0 : roundEven 0 = 0 := by simpa using roundEven_int 0
    omega
  have : (0 : ℚ) ≤ (roundEven (x / 2 ^ lastExp p x) : ℚ) := by exact_mod_cast h1
  positivity

/-- Where the rounded value of a positive number lies. -/
theorem fround_between (p : ℕ) (hp : 0 < p) {x : ℚ} (h : 0 < x) :
    2 ^ Int.log 2 x ≤ fround p x ∧ fround p x ≤ 2 ^ (Int.log 2 x + 1) := by
  obtain ⟨h1, h2⟩ := log_bounds h
  unfold fround
  have he : lastExp p x = Int.log 2 x - (p - 1 : ℤ) := by unfold lastExp; rw [abs_of_pos h]
  generalize lastExp p x = e at he
  have hpos := pow_pos' e
  have hA : (2 : ℚ) ^ Int.log 2 x = ((2 ^ (p - 1) : ℤ) : ℚ) * 2 ^ e := by
    push_cast
    rw [← zpow_natCast, ← zpow_add₀ (by norm_num)]
    congr 1
    omega
  have hB : (2 : ℚ) ^ (Int.log 2 x + 1) = ((2 ^ p : ℤ) : ℚ) * 2 ^ e := by
    push_cast
    rw [← zpow_natCast, ← zpow_add₀ (by norm_num)]
    congr 1
    omega
  constructor
  · rw [hA]
    apply mul_le_mul_of_nonneg_right _ hpos.le
    have := roundEven_mono (x := ((2 ^ (p - 1) : ℤ) : ℚ)) (y := x / 2 ^ e) (by rw [le_div_iff₀ hpos, ← hA]; exact h1)
    rw [roundEven_int] at this
    exact_mod_cast this
  · rw [hB]
    apply mul_le_mul_of_nonneg_right _ hpos.le
    have := roundEven_mono (x := x / 2 ^ e) (y := ((2 ^ p : ℤ) : ℚ)) (by rw [div_le_iff₀ hpos, ← hB]; exact h2.le)
    rw [roundEven_int] at this
    exact_mod_cast this

theorem fround_mono_pos (p : ℕ) (hp : 0 < p) {x y : ℚ} (hx : 0 < x) (h : x ≤ y) : fround p x ≤ fround p y := by
  have hy : 0 < y := lt_of_lt_of_le hx h
  have hl : Int.log 2 x ≤ Int.log 2 y := Int.log_mono_right hx h
  rcases Int.lt_or_eq_of_le hl with h1 | h1
  · calc fround p x ≤ 2 ^ (Int.log 2 x + 1) := (fround_between p hp hx).2
      _ ≤ 2 ^ Int.log 2 y := zpow_le_zpow_right₀ (by norm_num) (by omega)
      _ ≤ fround p y := (fround_between p hp hy).1
  · unfold fround
    have he : lastExp p x = lastExp p y := by unfold lastExp; rw [abs_of_pos hx, abs_of_pos hy, h1]
    rw [he]
    have hpos := pow_pos' (lastExp p y)
    apply mul_le_mul_of_nonneg_right _ hpos.le
    have := roundEven_mono (x := x / 2 ^ lastExp p y) (y := y / 2 ^ lastExp p y) (by
      apply div_le_div_of_nonneg_right h hpos.le)
    exact_mod_cast this

theorem fround_nonpos (p : ℕ) {x : ℚ} (h : x ≤ 0) : fround p x ≤ 0 := by
  have := fround_nonneg p (x := -x) (by linarith)
  rw [fround_neg] at this
  linarith

/-- Rounding is monotone. -/
theorem fround_mono (p : ℕ) (hp : 0 < p) {x y : ℚ} (h : x ≤ y) : fround p x ≤ fround p y := by
  rcases lt_trichotomy x 0 with hx | hx | hx
  · rcases lt_or_ge y 0 with hy | hy
    · have := fround_mono_pos p hp (x := -y) (y := -x) (by linarith) (by linarith)
      rw [fround_neg, fround_neg] at this
      linarith
    · exact le_trans (fround_nonpos p hx.le) (fround_nonneg p hy)
  · subst hx
    rw [fround_zero]
    exact fround_nonneg p h
  · exact fround_mono_pos p hp hx h

theorem f32_err (x : ℚ) : |f32 x - x| ≤ |x| / 2 ^ 24 := fround_err 24 x
theorem f32_mono {x y : ℚ} (h : x ≤ y) : f32 x ≤ f32 y := fround_mono 24 (by norm_num) h
theorem f32_int (m : ℤ) (h : |m| ≤ 2 ^ 24) : f32 m = m := fround_int 24 (by norm_num) m h
theorem f32_nonneg {x : ℚ} (h : 0 ≤ x) : 0 ≤ f32 x := fround_nonneg 24 h
theorem f64_mono {x y : ℚ} (h : x ≤ y) : f64 x ≤ f64 y := fround_mono 53 (by norm_num) h
theorem f64_int (m : ℤ) (h : |m| ≤ 2 ^ 53) : f64 m = m := fround_int 53 (by norm_num) m h
theorem f64_nonneg {x : ℚ} (h : 0 ≤ x) : 0 ≤ f64 x := fround_nonneg 53 h
theorem f64_err (x : ℚ) : |f64 x - x| ≤ |x| / 2 ^ 53 := fround_err 53 x
theorem f32_half (m : ℤ) (h : |m| ≤ 2 ^ 24) : f32 (m / 2) = m / 2 := by
  have := fround_exact' 24 (by norm_num) m (-1) h
  rw [zpow_neg_one] at this
  exact this
theorem f64_half (m : ℤ) (h : |m| ≤ 2 ^ 53) : f64 (m / 2) = m / 2 := by
  have := fround_exact' 53 (by norm_num) m (-1) h
  rw [zpow_neg_one] at this
  exact this

end Verif.Flt
