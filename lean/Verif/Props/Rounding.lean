import Verif.Spec.Float
import Verif.Proof.Float
import Mathlib.Tactic.Linarith
import Mathlib.Tactic.Ring
import Mathlib.Tactic.Positivity
import Mathlib.Tactic.FieldSimp

/-!
# The rounding used in the model is that of IEEE 754
-/

namespace Verif
open Flt Spec

theorem roundEven_nearest (x : ℚ) (n : ℤ) : |(roundEven x : ℚ) - x| ≤ |(n : ℚ) - x| := by
  have h1 := Int.floor_le x
  have h2 := Int.lt_floor_add_one x
  have h3 : n ≤ ⌊x⌋ ∨ ⌊x⌋ + 1 ≤ n := by omega
  have h3' : (n : ℚ) ≤ ⌊x⌋ ∨ (⌊x⌋ : ℚ) + 1 ≤ n := by
    rcases h3 with h | h
    · exact .inl (by exact_mod_cast h)
    · exact .inr (by exact_mod_cast h)
  have key : |(roundEven x : ℚ) - x| ≤ x - ⌊x⌋ ∧ |(roundEven x : ℚ) - x| ≤ ⌊x⌋ + 1 - x := by
    unfold roundEven
    split_ifs <;> push_cast <;> constructor <;> rw [abs_le] <;> constructor <;> linarith
  rcases h3' with h | h
  · have : x - ⌊x⌋ ≤ |(n : ℚ) - x| := by
      rw [abs_sub_comm]
      exact le_trans (by linarith) (le_abs_self _)
    linarith [key.1]
  · have : ⌊x⌋ + 1 - x ≤ |(n : ℚ) - x| := le_trans (by linarith) (le_abs_self _)
    linarith [key.2]

theorem roundEven_tie (x : ℚ) (n : ℤ) (h : |(n : ℚ) - x| = |(roundEven x : ℚ) - x|) (hn : n ≠ roundEven x) : roundEven x % 2 = 0 := by
  have h1 := Int.floor_le x
  have h2 := Int.lt_floor_add_one x
  have hn' : (n : ℚ) ≠ roundEven x := by exact_mod_cast hn
  -- the two are on different sides
  have hsum : (n : ℚ) + roundEven x = 2 * x := by
    rcases abs_eq_abs.mp h with e | e
    · exact absurd (by linarith) hn'
    · linarith
  have hz : (n + roundEven x : ℤ) = 2 * x := by push_cast; exact hsum
  unfold roundEven at hn hz ⊢
  split_ifs at hn hz ⊢ with c1 c2 c3
  · exfalso
    have hf : (n : ℚ) - ⌊x⌋ < 1 := by push_cast at hz; linarith
    have hg : (0 : ℚ) ≤ (n : ℚ) - ⌊x⌋ := by push_cast at hz; linarith
    have a1 : n - ⌊x⌋ < 1 := by exact_mod_cast hf
    have a2 : 0 ≤ n - ⌊x⌋ := by exact_mod_cast hg
    omega
  · exfalso
    have hf : (n : ℚ) < ⌊x⌋ + 1 := by
      push_cast at hz
      linarith
    have hg : (⌊x⌋ : ℚ) < n := by push_cast at hz; linarith
    have a1 : n < ⌊x⌋ + 1 := by exact_mod_cast hf
    have a2 : ⌊x⌋ < n := by exact_mod_cast hg
    omega
  · exact c3
  · omega

/-- The rounding of a positive number. -/
theorem fround_rounded_pos (p : ℕ) (hp : 2 ≤ p) {x : ℚ} (hx : 0 < x) : RoundedTo p x (fround p x) := by
  obtain ⟨l1, l2⟩ := log_bounds hx
  have he : lastExp p x = Int.log 2 x - (p - 1 : ℤ) := by unfold lastExp; rw [abs_of_pos hx]
  have hu : (0 : ℚ) < 2 ^ lastExp p x := pow_pos' _
  have hlow : (2 : ℚ) ^ (p - 1 : ℕ) * 2 ^ lastExp p x ≤ x := by
    have : (2 : ℚ) ^ (p - 1 : ℕ) * 2 ^ lastExp p x = 2 ^ Int.log 2 x := by
      rw [← zpow_natCast, ← zpow_add₀ (by norm_num)]
      congr 1
      rw [he]
      push_cast [Nat.cast_sub (show 1 ≤ p by omega)]
      ring
    rw [this]; exact l1
  have hhigh : x < (2 : ℚ) ^ p * 2 ^ lastExp p x := by
    have : (2 : ℚ) ^ p * 2 ^ lastExp p x = 2 ^ (Int.log 2 x + 1) := by
      rw [← zpow_natCast, ← zpow_add₀ (by norm_num)]
      congr 1
      rw [he]
      ring
    rw [this]; exact l2
  unfold fround
  generalize lastExp p x = e at *
  generalize hr : roundEven (x / 2 ^ e) = r
  have hmul : ∀ n : ℤ, |(n : ℚ) * 2 ^ e - x| = |(n : ℚ) - x / 2 ^ e| * 2 ^ e := by
    intro n
    rw [← abs_of_pos hu, ← abs_mul, abs_of_pos hu]
    congr 1
    field_simp
  have hnear : ∀ n : ℤ, |(r : ℚ) * 2 ^ e - x| ≤ |(n : ℚ) * 2 ^ e - x| := by
    intro n
    rw [hmul, hmul, ← hr]
    exact mul_le_mul_of_nonneg_right (roundEven_nearest _ _) hu.le
  have htie : ∀ n : ℤ, |(n : ℚ) * 2 ^ e - x| = |(r : ℚ) * 2 ^ e - x| → n ≠ r → r % 2 = 0 := by
    intro n h hn
    rw [hmul, hmul] at h
    have := mul_right_cancel₀ hu.ne' h
    rw [← hr] at this hn ⊢
    exact roundEven_tie _ n this hn
  have hrlow : (2 : ℤ) ^ (p - 1) ≤ r := by
    have : roundEven (((2 ^ (p - 1) : ℤ) : ℚ)) ≤ roundEven (x / 2 ^ e) := by
      apply roundEven_mono
      rw [le_div_iff₀ hu]
      push_cast
      exact hlow
    rw [roundEven_int, hr] at this
    exact this
  have hrhigh : r ≤ (2 : ℤ) ^ p := by
    have : roundEven (x / 2 ^ e) ≤ roundEven (((2 ^ p : ℤ) : ℚ)) := by
      apply roundEven_mono
      rw [div_le_iff₀ hu]
      push_cast
      exact hhigh.le
    rw [roundEven_int, hr] at this
    exact this
  have hpos : (0 : ℤ) < 2 ^ (p - 1) := by positivity
  have hdouble : (2 : ℤ) ^ p = 2 * 2 ^ (p - 1) := by
    conv_lhs => rw [show p = (p - 1) + 1 by omega]
    ring
  -- every candidate is a multiple of the unit, or not above the smallest number with this exponent
  have hcand : ∀ z, HasBits p z → (∃ n : ℤ, z = n * 2 ^ e) ∨ z ≤ (2 : ℚ) ^ (p - 1) * 2 ^ e := by
    rintro z ⟨m, k, hm, rfl⟩
    rcases le_or_gt e k with hk | hk
    · left
      refine ⟨m * 2 ^ (k - e).toNat, ?_⟩
      push_cast
      rw [mul_assoc, ← zpow_natCast, ← zpow_add₀ (by norm_num)]
      congr 2
      omega
    · right
      have h1 : (m : ℚ) ≤ 2 ^ p := by
        have := le_trans (le_abs_self m) hm
        exact_mod_cast this
      have h2 : (2 : ℚ) ^ k ≤ 2 ^ (e - 1) := zpow_le_zpow_right₀ (by norm_num) (by omega)
      calc (m : ℚ) * 2 ^ k ≤ 2 ^ p * 2 ^ k := mul_le_mul_of_nonneg_right h1 (pow_pos' k).le
        _ ≤ 2 ^ p * 2 ^ (e - 1) := mul_le_mul_of_nonneg_left h2 (by positivity)
        _ = 2 ^ (p - 1) * 2 ^ e := by
          rw [zpow_sub₀ (by norm_num), show (2 : ℚ) ^ p = 2 * 2 ^ (p - 1) by exact_mod_cast hdouble]
          field_simp
  refine ⟨⟨r, e, by rw [abs_of_pos (by omega)]; exact hrhigh, rfl⟩, ?_, ?_⟩
  · intro z hz
    rcases hcand z hz with ⟨n, rfl⟩ | h
    · exact hnear n
    · have h1 := hnear (2 ^ (p - 1))
      push_cast at h1
      refine le_trans h1 ?_
      rw [abs_sub_comm, abs_of_nonneg (by linarith), abs_sub_comm, abs_of_nonneg (by linarith)]
      linarith
  · intro z hz ht hne
    have hex : ∃ n : ℤ, z = n * 2 ^ e := by
      rcases hcand z hz with h | h
      · exact h
      · refine ⟨2 ^ (p - 1), ?_⟩
        have h1 := hnear (2 ^ (p - 1))
        push_cast at h1 ⊢
        rw [← ht, abs_sub_comm, abs_of_nonneg (by linarith), abs_sub_comm, abs_of_nonneg (by linarith)] at h1
        linarith
    obtain ⟨n, rfl⟩ := hex
    have heven := htie n ht (by rintro rfl; exact hne rfl)
    rcases lt_or_eq_of_le hrhigh with h | h
    · exact ⟨r, e, by rw [abs_of_pos (by omega)]; exact hrlow, by rw [abs_of_pos (by omega)]; exact h, heven, rfl⟩
    · refine ⟨2 ^ (p - 1), e + 1, by rw [abs_of_pos hpos], by rw [abs_of_pos hpos]; omega, ?_, ?_⟩
      · rw [show p - 1 = (p - 2) + 1 by omega, pow_succ]
        omega
      · rw [h, hdouble, zpow_add₀ (by norm_num)]
        push_cast
        ring

/-- **C59 (rounding).** The rounding by which floating-point results are modelled (`f32`: 24 bits, `f64`: 53 bits) is that of IEEE 754: to nearest, ties to even. -/
theorem C59_rounding (x : ℚ) : RoundedTo 24 x (f32 x) ∧ RoundedTo 53 x (f64 x) := by
  have key : ∀ p : ℕ, 2 ≤ p → RoundedTo p x (fround p x) := by
    intro p hp
    rcases lt_trichotomy x 0 with h | h | h
    · obtain ⟨⟨m, k, h1, h2⟩, h3, h4⟩ := fround_rounded_pos p hp (x := -x) (by linarith)
      rw [fround_neg] at h2 h3 h4
      have neg : ∀ z, HasBits p z → HasBits p (-z) := by
        rintro z ⟨m, k, a, rfl⟩
        exact ⟨-m, k, by rwa [abs_neg], by push_cast; ring⟩
      have dist : ∀ z : ℚ, |(-z) - (-x)| = |z - x| := by
        intro z
        rw [← abs_neg]
        congr 1
        ring
      refine ⟨⟨-m, k, by rwa [abs_neg], by push_cast; linarith⟩, ?_, ?_⟩
      · intro z hz
        have := h3 (-z) (neg z hz)
        rwa [dist, dist] at this
      · intro z hz ht hne
        obtain ⟨m', k', a1, a2, a3, a4⟩ := h4 (-z) (neg z hz) (by rw [dist, dist]; exact ht) (by intro e; exact hne (by linarith))
        exact ⟨-m', k', by rwa [abs_neg], by rwa [abs_neg], by omega, by push_cast; linarith⟩
    · subst h
      rw [fround_zero]
      refine ⟨⟨0, 0, by positivity, by simp⟩, fun z _ => by simp, ?_⟩
      intro z _ hz hne
      simp at hz
      exact absurd hz hne
    · exact fround_rounded_pos p hp h
  exact ⟨key 24 (by norm_num), key 53 (by norm_num)⟩

example : HasBits 24 (16777215 / 2) := ⟨16777215, -1, by norm_num, by norm_num⟩

end Verif
