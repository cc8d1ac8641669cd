import Verif.Model.NumText
import Verif.Spec.NumText
import Verif.Proof.Float

/-! # Decimal digits of a number: nearest, and recovered after binary rounding -/

namespace Verif.Xml

open Verif.Flt Verif.Spec

theorem log10_bounds {x : ℚ} (hx : 0 < x) : (10 : ℚ) ^ Int.log 10 x ≤ x ∧ x < 10 ^ (Int.log 10 x + 1) :=
  ⟨by exact_mod_cast Int.zpow_log_le_self (b := 10) (by norm_num) hx,
   by exact_mod_cast Int.lt_zpow_succ_log_self (b := 10) (by norm_num) x⟩

theorem log10_eq {x : ℚ} {e : ℤ} (h1 : (10 : ℚ) ^ e ≤ x) (h2 : x < 10 ^ (e + 1)) : Int.log 10 x = e := by
  have hx : 0 < x := lt_of_lt_of_le (by positivity) h1
  obtain ⟨a, b⟩ := log10_bounds hx
  have c1 : Int.log 10 x < e + 1 := by
    have := lt_of_le_of_lt a h2
    exact (zpow_lt_zpow_iff_right₀ (by norm_num : (1 : ℚ) < 10)).1 this
  have c2 : e < Int.log 10 x + 1 := by
    have := lt_of_le_of_lt h1 b
    exact (zpow_lt_zpow_iff_right₀ (by norm_num : (1 : ℚ) < 10)).1 this
  omega

theorem roundEven_eq {x : ℚ} {n : ℤ} (h : |x - n| < 1 / 2) : roundEven x = n := by
  have h1 := roundEven_err x
  have h2 : |((roundEven x - n : ℤ) : ℚ)| < 1 := by
    have : ((roundEven x - n : ℤ) : ℚ) = (roundEven x - x) + (x - n) := by push_cast; ring
    rw [this]
    exact lt_of_le_of_lt (abs_add_le _ _) (by linarith)
  have h3 : |roundEven x - n| < 1 := by exact_mod_cast h2
  have := Int.abs_lt_one_iff.1 h3
  omega

/-- No integer is nearer. -/
theorem roundEven_nearest (x : ℚ) (n : ℤ) : |(roundEven x : ℚ) - x| ≤ |(n : ℚ) - x| := by
  by_cases h : n = roundEven x
  · rw [h]
  · have h1 := roundEven_err x
    have h2 : (1 : ℚ) ≤ |(n : ℚ) - roundEven x| := by
      have : (1 : ℤ) ≤ |n - roundEven x| := Int.one_le_abs (by omega)
      exact_mod_cast this
    have h3 : |(n : ℚ) - roundEven x| ≤ |(n : ℚ) - x| + |(roundEven x : ℚ) - x| := by
      have : (n : ℚ) - roundEven x = (n - x) + -(roundEven x - x) := by ring
      rw [this]
      refine (abs_add_le _ _).trans ?_
      rw [abs_neg]
    linarith

/-- The number that the digits denote. -/
def digitValue (p : ℕ) (me : ℕ × ℤ) : ℚ := me.1 * 10 ^ (me.2 - ((p : ℤ) - 1))

theorem sigDigits_abs (p : ℕ) (x : ℚ) : sigDigits p |x| = sigDigits p x := by
  unfold sigDigits
  simp only [abs_abs, abs_eq_zero]

theorem sigDigits_zero (p : ℕ) : sigDigits p 0 = (0, 0) := by
  unfold sigDigits
  rw [if_pos rfl]

/-- Before the carry. -/
theorem sigDigits_raw {p : ℕ} (hp : 1 ≤ p) {x : ℚ} (hx : 0 < x) :
    (10 : ℤ) ^ (p - 1) ≤ roundEven (x / 10 ^ (Int.log 10 x - ((p : ℤ) - 1))) ∧ roundEven (x / 10 ^ (Int.log 10 x - ((p : ℤ) - 1))) ≤ (10 : ℤ) ^ p := by
  obtain ⟨a, b⟩ := log10_bounds hx
  have hu : (0 : ℚ) < 10 ^ (Int.log 10 x - ((p : ℤ) - 1)) := by positivity
  have e1 : (10 : ℚ) ^ Int.log 10 x = 10 ^ (p - 1) * 10 ^ (Int.log 10 x - ((p : ℤ) - 1)) := by
    rw [← zpow_natCast, ← zpow_add₀ (by norm_num)]
    congr 1
    omega
  have e2 : (10 : ℚ) ^ (Int.log 10 x + 1) = 10 ^ p * 10 ^ (Int.log 10 x - ((p : ℤ) - 1)) := by
    rw [← zpow_natCast, ← zpow_add₀ (by norm_num)]
    congr 1
    omega
  constructor
  · have h : ((10 : ℤ) ^ (p - 1) : ℤ) = roundEven (((10 : ℤ) ^ (p - 1) : ℤ) : ℚ) := (roundEven_int _).symm
    rw [h]
    apply roundEven_mono
    rw [le_div_iff₀ hu]
    push_cast
    rw [← e1]
    exact a
  · have h : ((10 : ℤ) ^ p : ℤ) = roundEven (((10 : ℤ) ^ p : ℤ) : ℚ) := (roundEven_int _).symm
    rw [h]
    apply roundEven_mono
    rw [div_le_iff₀ hu]
    push_cast
    rw [← e2]
    exact b.le

theorem sigDigits_pos {p : ℕ} (hp : 1 ≤ p) {x : ℚ} (hx : 0 < x) :
    10 ^ (p - 1) ≤ (sigDigits p x).1 ∧ (sigDigits p x).1 < 10 ^ p ∧
    digitValue p (sigDigits p x) = roundEven (x / 10 ^ (Int.log 10 x - ((p : ℤ) - 1))) * 10 ^ (Int.log 10 x - ((p : ℤ) - 1)) := by
  obtain ⟨h1, h2⟩ := sigDigits_raw hp hx
  have hn : ((roundEven (x / 10 ^ (Int.log 10 x - ((p : ℤ) - 1)))).toNat : ℤ) = roundEven (x / 10 ^ (Int.log 10 x - ((p : ℤ) - 1))) := by
    apply Int.toNat_of_nonneg
    exact le_trans (by positivity) h1
  unfold sigDigits
  rw [if_neg hx.ne', abs_of_pos hx]
  dsimp only
  generalize roundEven (x / 10 ^ (Int.log 10 x - ((p : ℤ) - 1))) = m at *
  split_ifs with hc
  · dsimp only
    refine ⟨le_refl _, Nat.pow_lt_pow_right (by norm_num) (by omega), ?_⟩
    have hm : m = 10 ^ p := by rw [← hn, hc]; push_cast; rfl
    unfold digitValue
    dsimp only
    rw [hm]
    push_cast
    rw [← zpow_natCast, ← zpow_natCast, ← zpow_add₀ (by norm_num), ← zpow_add₀ (by norm_num)]
    congr 1
    omega
  · dsimp only
    refine ⟨?_, ?_, ?_⟩
    · have : ((10 ^ (p - 1) : ℕ) : ℤ) ≤ (m.toNat : ℤ) := by rw [hn]; push_cast; exact h1
      exact_mod_cast this
    · have : (m.toNat : ℤ) ≤ ((10 ^ p : ℕ) : ℤ) := by rw [hn]; push_cast; exact h2
      have : m.toNat ≤ 10 ^ p := by exact_mod_cast this
      omega
    · unfold digitValue
      dsimp only
      have : (m.toNat : ℚ) = (m : ℚ) := by
        have : ((m.toNat : ℤ) : ℚ) = (m : ℚ) := by rw [hn]
        exact_mod_cast this
      rw [this]

theorem digitValue_err {p : ℕ} (hp : 1 ≤ p) {x : ℚ} (hx : 0 < x) : |digitValue p (sigDigits p x) - x| ≤ x * (10 / (2 * 10 ^ p)) := by
  obtain ⟨_, _, e⟩ := sigDigits_pos hp hx
  rw [e]
  obtain ⟨a, b⟩ := log10_bounds hx
  have hu : (0 : ℚ) < 10 ^ (Int.log 10 x - ((p : ℤ) - 1)) := by positivity
  have h1 := roundEven_err (x / 10 ^ (Int.log 10 x - ((p : ℤ) - 1)))
  have e1 : (10 : ℚ) ^ Int.log 10 x * 10 = 10 ^ p * 10 ^ (Int.log 10 x - ((p : ℤ) - 1)) := by
    rw [← zpow_natCast, ← zpow_add₀ (by norm_num), ← zpow_add_one₀ (by norm_num)]
    congr 1
    omega
  generalize (10 : ℚ) ^ (Int.log 10 x - ((p : ℤ) - 1)) = u at *
  have e2 : (roundEven (x / u) : ℚ) * u - x = (roundEven (x / u) - x / u) * u := by field_simp
  rw [e2, abs_mul, abs_of_pos hu]
  have hp' : (0 : ℚ) < 10 ^ p := by positivity
  have h3 : u ≤ x * 10 / 10 ^ p := by
    rw [le_div_iff₀ hp']
    nlinarith
  calc |(roundEven (x / u) : ℚ) - x / u| * u ≤ 1 / 2 * u := by nlinarith
    _ ≤ 1 / 2 * (x * 10 / 10 ^ p) := by linarith
    _ = x * (10 / (2 * 10 ^ p)) := by field_simp

/-- Digits are recovered from a number that is near. -/
theorem sigDigits_near {p : ℕ} (hp : 1 ≤ p) {m : ℕ} {k : ℤ} (h1 : 10 ^ (p - 1) ≤ m) (h2 : m < 10 ^ p) {y : ℚ} (hy : 2 * 10 ^ p * |y - m * 10 ^ k| < m * 10 ^ k) :
    sigDigits p y = (m, k + ((p : ℤ) - 1)) := by
  have hk : (0 : ℚ) < 10 ^ k := by positivity
  have hm : (0 : ℚ) < m := by
    have : 0 < m := lt_of_lt_of_le (by positivity) h1
    exact_mod_cast this
  have hP : (0 : ℚ) < 10 ^ p := by positivity
  have hP1 : (1 : ℚ) ≤ 10 ^ p := one_le_pow₀ (by norm_num)
  have hm2 : (m : ℚ) + 1 ≤ 10 ^ p := by
    have : m + 1 ≤ 10 ^ p := h2
    exact_mod_cast this
  have hm1 : (10 : ℚ) ^ (p - 1) ≤ m := by exact_mod_cast h1
  have hd : (0 : ℚ) < m * 10 ^ k := by positivity
  -- the distance is below half of the unit of the last digit
  have hdist : |y - m * 10 ^ k| < 1 / 2 * 10 ^ k := by
    have : 2 * 10 ^ p * |y - m * 10 ^ k| < 10 ^ p * 10 ^ k := lt_of_lt_of_le hy (by nlinarith)
    have : 2 * |y - m * 10 ^ k| < 10 ^ k := by
      by_contra hc
      push Not at hc
      nlinarith
    linarith
  have hab := abs_lt.1 hdist
  have hypos : 0 < y := by
    have hm0 : (1 : ℚ) ≤ m := by
      have : 1 ≤ m := le_trans (Nat.one_le_pow _ _ (by norm_num)) h1
      exact_mod_cast this
    nlinarith
  have ee1 : (10 : ℚ) ^ (k + ((p : ℤ) - 1)) = 10 ^ (p - 1) * 10 ^ k := by
    rw [← zpow_natCast, ← zpow_add₀ (by norm_num)]
    congr 1
    omega
  have ee2 : (10 : ℚ) ^ (k + ((p : ℤ) - 1) + 1) = 10 ^ p * 10 ^ k := by
    rw [← zpow_natCast, ← zpow_add₀ (by norm_num)]
    congr 1
    omega
  by_cases hc : (10 : ℚ) ^ (k + ((p : ℤ) - 1)) ≤ y
  · have hlog : Int.log 10 y = k + ((p : ℤ) - 1) := by
      apply log10_eq hc
      rw [ee2]
      nlinarith
    unfold sigDigits
    rw [if_neg hypos.ne', abs_of_pos hypos, hlog]
    dsimp only
    have : k + ((p : ℤ) - 1) - ((p : ℤ) - 1) = k := by omega
    rw [this]
    have hr : roundEven (y / 10 ^ k) = m := by
      apply roundEven_eq
      have : y / 10 ^ k - ((m : ℤ) : ℚ) = (y - m * 10 ^ k) / 10 ^ k := by
        push_cast
        field_simp
      rw [this, abs_div, abs_of_pos hk, div_lt_iff₀ hk]
      exact hdist
    rw [hr, Int.toNat_natCast, if_neg (by omega)]
  · -- just below a power of ten
    push Not at hc
    rw [ee1] at hc
    have hme : m = 10 ^ (p - 1) := by
      have : (m : ℚ) < 10 ^ (p - 1) + 1 := by nlinarith
      have : m < 10 ^ (p - 1) + 1 := by exact_mod_cast this
      omega
    have hPP : (10 : ℚ) ^ p = 10 ^ (p - 1) * 10 := by
      rw [← pow_succ]
      congr 1
      omega
    have hmq : (m : ℚ) = 10 ^ (p - 1) := by rw [hme]; push_cast; rfl
    have hpp : (0 : ℚ) < 10 ^ (p - 1) := by positivity
    have hdist2 : 20 * |y - m * 10 ^ k| < 10 ^ k := by
      rw [hmq] at hy ⊢
      rw [hPP] at hy
      by_contra hcc
      push Not at hcc
      nlinarith
    have hab2 := abs_lt.1 (show |y - m * 10 ^ k| < 10 ^ k / 20 by linarith)
    rw [hmq] at hab2
    have ek : (10 : ℚ) ^ k = 10 ^ (k - 1) * 10 := by
      rw [← zpow_add_one₀ (by norm_num)]
      congr 1
      omega
    have hk1 : (0 : ℚ) < 10 ^ (k - 1) := by positivity
    have hlog : Int.log 10 y = k + ((p : ℤ) - 1) - 1 := by
      apply log10_eq
      · have : (10 : ℚ) ^ (k + ((p : ℤ) - 1) - 1) = 10 ^ (p - 1) * 10 ^ (k - 1) := by
          rw [← zpow_natCast, ← zpow_add₀ (by norm_num)]
          congr 1
          omega
        rw [this]
        have hpp1 : (1 : ℚ) ≤ 10 ^ (p - 1) := one_le_pow₀ (by norm_num)
        rw [ek] at hab2
        nlinarith
      · have : k + ((p : ℤ) - 1) - 1 + 1 = k + ((p : ℤ) - 1) := by omega
        rw [this, ee1]
        exact hc
    unfold sigDigits
    rw [if_neg hypos.ne', abs_of_pos hypos, hlog]
    dsimp only
    have : k + ((p : ℤ) - 1) - 1 - ((p : ℤ) - 1) = k - 1 := by omega
    rw [this]
    have hr : roundEven (y / 10 ^ (k - 1)) = ((10 ^ p : ℕ) : ℤ) := by
      apply roundEven_eq
      have : y / 10 ^ (k - 1) - ((((10 ^ p : ℕ) : ℤ)) : ℚ) = (y - m * 10 ^ k) / 10 ^ (k - 1) := by
        push_cast
        rw [hmq, ek, hPP]
        field_simp
      rw [this, abs_div, abs_of_pos hk1, div_lt_iff₀ hk1]
      rw [ek] at hdist2 ⊢
      linarith
    rw [hr, Int.toNat_natCast, if_pos rfl, hme]
    congr 1
    omega

/-- The decimal number that is written. -/
def decimalOf (p : ℕ) (x : ℚ) : ℚ := (if x < 0 then -1 else 1) * digitValue p (sigDigits p x)

theorem decimalOf_zero (p : ℕ) : decimalOf p 0 = 0 := by
  unfold decimalOf digitValue
  rw [sigDigits_zero]
  simp

theorem decimalOf_neg (p : ℕ) (x : ℚ) : decimalOf p (-x) = -decimalOf p x := by
  rcases lt_trichotomy x 0 with h | h | h
  · unfold decimalOf
    rw [if_neg (by linarith), if_pos h, ← sigDigits_abs p (-x), abs_neg, sigDigits_abs]
    ring
  · rw [h, neg_zero, decimalOf_zero, neg_zero]
  · unfold decimalOf
    rw [if_pos (by linarith), if_neg (by linarith), ← sigDigits_abs p (-x), abs_neg, sigDigits_abs]
    ring

theorem hasDigits_neg {p : ℕ} {d : ℚ} (h : HasDigits p d) : HasDigits p (-d) := by
  obtain ⟨m, k, h1, h2⟩ := h
  exact ⟨-m, k, by rwa [abs_neg], by rw [h2]; push_cast; ring⟩

theorem decimalOf_pos {p : ℕ} (hp : 1 ≤ p) {x : ℚ} (hx : 0 < x) : RoundedToDigits p x (decimalOf p x) := by
  have hd : decimalOf p x = digitValue p (sigDigits p x) := by
    unfold decimalOf
    rw [if_neg (by linarith), one_mul]
  obtain ⟨h1, h2, h3⟩ := sigDigits_pos hp hx
  rw [hd]
  constructor
  · refine ⟨(sigDigits p x).1, (sigDigits p x).2 - ((p : ℤ) - 1), ?_, ?_⟩
    · rw [Nat.abs_cast]
      exact_mod_cast h2
    · unfold digitValue
      push_cast
      rfl
  · rw [h3]
    obtain ⟨a, b⟩ := log10_bounds hx
    have hu : (0 : ℚ) < 10 ^ (Int.log 10 x - ((p : ℤ) - 1)) := by positivity
    -- multiples of the unit of the last digit
    have multiple : ∀ n : ℤ, |(roundEven (x / 10 ^ (Int.log 10 x - ((p : ℤ) - 1))) : ℚ) * 10 ^ (Int.log 10 x - ((p : ℤ) - 1)) - x| ≤ |(n : ℚ) * 10 ^ (Int.log 10 x - ((p : ℤ) - 1)) - x| := by
      intro n
      generalize (10 : ℚ) ^ (Int.log 10 x - ((p : ℤ) - 1)) = u at *
      have e : ∀ z : ℚ, z * u - x = (z - x / u) * u := by intro z; field_simp
      rw [e, e, abs_mul, abs_mul]
      exact mul_le_mul_of_nonneg_right (roundEven_nearest _ _) (abs_nonneg _)
    rintro d' ⟨m, k, hm, rfl⟩
    by_cases hk : Int.log 10 x - ((p : ℤ) - 1) ≤ k
    · have e : (m : ℚ) * 10 ^ k = ((m * 10 ^ (k - (Int.log 10 x - ((p : ℤ) - 1))).toNat : ℤ) : ℚ) * 10 ^ (Int.log 10 x - ((p : ℤ) - 1)) := by
        push_cast
        rw [mul_assoc, ← zpow_natCast, ← zpow_add₀ (by norm_num)]
        congr 2
        omega
      rw [e]
      exact multiple _
    · have e1 : (10 : ℚ) ^ Int.log 10 x = ((10 ^ (p - 1) : ℤ) : ℚ) * 10 ^ (Int.log 10 x - ((p : ℤ) - 1)) := by
        push_cast
        rw [← zpow_natCast, ← zpow_add₀ (by norm_num)]
        congr 1
        omega
      refine (multiple (10 ^ (p - 1))).trans ?_
      rw [← e1, abs_sub_comm, abs_of_nonneg (by linarith)]
      have h4 : (m : ℚ) * 10 ^ k ≤ 10 ^ Int.log 10 x := by
        have hm' : (m : ℚ) ≤ 10 ^ p := by
          have : m ≤ 10 ^ p := (le_abs_self m).trans hm.le
          exact_mod_cast this
        have hk' : (0 : ℚ) < 10 ^ k := by positivity
        calc (m : ℚ) * 10 ^ k ≤ 10 ^ p * 10 ^ k := by nlinarith
          _ = 10 ^ ((p : ℤ) + k) := by rw [← zpow_natCast, ← zpow_add₀ (by norm_num)]
          _ ≤ 10 ^ Int.log 10 x := zpow_le_zpow_right₀ (by norm_num) (by omega)
      rw [abs_sub_comm, abs_of_nonneg (by linarith)]
      linarith

theorem decimalOf_rounded {p : ℕ} (hp : 1 ≤ p) (x : ℚ) : RoundedToDigits p x (decimalOf p x) := by
  rcases lt_trichotomy x 0 with h | h | h
  · obtain ⟨h1, h2⟩ := decimalOf_pos hp (x := -x) (by linarith)
    rw [decimalOf_neg] at h1 h2
    refine ⟨by have := hasDigits_neg h1; rwa [neg_neg] at this, fun d' hd' => ?_⟩
    have := h2 (-d') (hasDigits_neg hd')
    rw [neg_sub_neg, neg_sub_neg, abs_sub_comm, abs_sub_comm x] at this
    exact this
  · rw [h, decimalOf_zero]
    refine ⟨⟨0, 0, by positivity, by simp⟩, fun d' _ => ?_⟩
    rw [sub_zero, abs_zero]
    exact abs_nonneg _
  · exact decimalOf_pos hp h

theorem decimalOf_err {p : ℕ} (hp : 1 ≤ p) (x : ℚ) : |decimalOf p x - x| ≤ |x| * (10 / (2 * 10 ^ p)) := by
  have pos : ∀ x : ℚ, 0 < x → |decimalOf p x - x| ≤ |x| * (10 / (2 * 10 ^ p)) := by
    intro x hx
    have := digitValue_err hp hx
    unfold decimalOf
    rw [if_neg (by linarith), one_mul, abs_of_pos hx]
    exact this
  rcases lt_trichotomy x 0 with h | h | h
  · have := pos (-x) (by linarith)
    rw [decimalOf_neg, neg_sub_neg, abs_sub_comm, abs_neg] at this
    exact this
  · rw [h, decimalOf_zero]; simp
  · exact pos x h

/-- A number with at most `p` digits, written with exactly `p`. -/
theorem hasDigits_full {p : ℕ} (hp : 1 ≤ p) {d : ℚ} (hd : HasDigits p d) (h : 0 < d) : ∃ (m : ℕ) (k : ℤ), 10 ^ (p - 1) ≤ m ∧ m < 10 ^ p ∧ d = m * 10 ^ k := by
  obtain ⟨m, k, h1, h2⟩ := hd
  have hm : 0 < m := by
    have hk : (0 : ℚ) < 10 ^ k := by positivity
    have : (0 : ℚ) < m := by
      by_contra hc
      push Not at hc
      nlinarith
    exact_mod_cast this
  have key : ∀ (n : ℕ) (m : ℕ) (k : ℤ), 0 < m → m < 10 ^ p → 10 ^ (p - 1) - m < n → ∃ (m' : ℕ) (k' : ℤ), 10 ^ (p - 1) ≤ m' ∧ m' < 10 ^ p ∧ (m : ℚ) * 10 ^ k = m' * 10 ^ k' := by
    intro n
    induction n with
    | zero => intro m k _ _ hc; omega
    | succ n ih =>
      intro m k h0 h1 h2
      by_cases hc : 10 ^ (p - 1) ≤ m
      · exact ⟨m, k, hc, h1, rfl⟩
      · have hP : 10 ^ p = 10 ^ (p - 1) * 10 := by
          rw [← pow_succ]
          congr 1
          omega
        obtain ⟨m', k', a, b, c⟩ := ih (10 * m) (k - 1) (by omega) (by omega) (by omega)
        refine ⟨m', k', a, b, ?_⟩
        rw [← c]
        push_cast
        have : (10 : ℚ) ^ k = 10 ^ (k - 1) * 10 := by
          rw [← zpow_add_one₀ (by norm_num)]
          congr 1
          omega
        rw [this]
        ring
  have hm' : (m.toNat : ℤ) = m := Int.toNat_of_nonneg hm.le
  rw [abs_of_pos hm] at h1
  obtain ⟨m', k', a, b, c⟩ := key (10 ^ (p - 1) - m.toNat + 1) m.toNat k (by omega) (by
    have : (m.toNat : ℤ) < ((10 ^ p : ℕ) : ℤ) := by rw [hm']; push_cast; exact h1
    exact_mod_cast this) (by omega)
  refine ⟨m', k', a, b, ?_⟩
  rw [← c, h2]
  congr 1
  have : ((m.toNat : ℤ) : ℚ) = m := by rw [hm']
  exact_mod_cast this.symm

/-- A decimal number with at most `p` digits that was changed a little is written with the same digits. -/
theorem sigDigits_recovered {p : ℕ} (hp : 1 ≤ p) {d y : ℚ} (hd : HasDigits p d) (h : 2 * 10 ^ p * |y - d| < |d|) : sigDigits p y = sigDigits p d ∧ (y < 0 ↔ d < 0) := by
  have pos : ∀ {d y : ℚ}, HasDigits p d → 0 < d → 2 * 10 ^ p * |y - d| < |d| → sigDigits p y = sigDigits p d ∧ 0 < y := by
    intro d y hd h0 h
    rw [abs_of_pos h0] at h
    obtain ⟨m, k, h1, h2, rfl⟩ := hasDigits_full hp hd h0
    refine ⟨?_, ?_⟩
    · rw [sigDigits_near hp h1 h2 h, sigDigits_near hp h1 h2 (y := m * 10 ^ k) (by rw [sub_self, abs_zero, mul_zero]; exact h0)]
    · have hP1 : (1 : ℚ) ≤ 10 ^ p := one_le_pow₀ (by norm_num)
      have h3 : |y - m * 10 ^ k| < m * 10 ^ k := by
        have := abs_nonneg (y - m * 10 ^ k)
        nlinarith
      have := (abs_lt.1 h3).1
      linarith
  rcases lt_trichotomy d 0 with h0 | h0 | h0
  · obtain ⟨h1, h2⟩ := pos (d := -d) (y := -y) (hasDigits_neg hd) (by linarith) (by rw [neg_sub_neg, abs_neg, abs_sub_comm]; exact h)
    rw [← sigDigits_abs p (-y), abs_neg, sigDigits_abs, ← sigDigits_abs p (-d), abs_neg, sigDigits_abs] at h1
    exact ⟨h1, ⟨fun _ => h0, fun _ => by linarith⟩⟩
  · rw [h0] at h
    rw [abs_zero] at h
    exact absurd h (not_lt.2 (by positivity))
  · obtain ⟨h1, h2⟩ := pos hd h0 h
    exact ⟨h1, ⟨fun _ => by linarith, fun _ => by linarith⟩⟩

/-- The same for numbers rounded to `double`, 15 digits. -/
theorem sigDigits_f64 {d : ℚ} (hd : HasDigits 15 d) : sigDigits 15 (f64 d) = sigDigits 15 d ∧ (f64 d < 0 ↔ d < 0) := by
  by_cases h0 : d = 0
  · rw [h0]
    have : f64 0 = 0 := fround_zero 53
    rw [this]
    exact ⟨rfl, Iff.rfl⟩
  · apply sigDigits_recovered (by norm_num) hd
    have := f64_err d
    have hpos := abs_pos.2 h0
    have : 2 * 10 ^ 15 * |f64 d - d| ≤ 2 * 10 ^ 15 * (|d| / 2 ^ 53) := by nlinarith
    refine lt_of_le_of_lt this ?_
    have : (2 : ℚ) * 10 ^ 15 * (|d| / 2 ^ 53) = |d| * (2 * 10 ^ 15 / 2 ^ 53) := by ring
    rw [this]
    have : (2 : ℚ) * 10 ^ 15 / 2 ^ 53 < 1 := by norm_num
    nlinarith

/-- The error of rounding to `double` and then to `float`. -/
theorem f32_f64_err (d : ℚ) : |f32 (f64 d) - d| ≤ |d| / 2 ^ 23 := by
  have h1 := f64_err d
  have h2 := f32_err (f64 d)
  have h3 : |f64 d| ≤ |d| + |d| / 2 ^ 53 := by
    have : f64 d = (f64 d - d) + d := by ring
    rw [this]
    refine (abs_add_le _ _).trans ?_
    linarith
  have h4 : |f32 (f64 d) - d| ≤ |f32 (f64 d) - f64 d| + |f64 d - d| := by
    have : f32 (f64 d) - d = (f32 (f64 d) - f64 d) + (f64 d - d) := by ring
    rw [this]
    exact abs_add_le _ _
  have h5 := abs_nonneg d
  generalize |d| = D at *
  norm_num at h1 h2 h3 ⊢
  linarith

/-- The same for numbers rounded to `double` and then to `float`, 6 digits. -/
theorem sigDigits_f32 {d : ℚ} (hd : HasDigits 6 d) : sigDigits 6 (f32 (f64 d)) = sigDigits 6 d ∧ (f32 (f64 d) < 0 ↔ d < 0) := by
  by_cases h0 : d = 0
  · rw [h0]
    have : f32 (f64 0) = 0 := by
      have : f64 0 = 0 := fround_zero 53
      rw [this]
      exact fround_zero 24
    rw [this]
    exact ⟨rfl, Iff.rfl⟩
  · apply sigDigits_recovered (by norm_num) hd
    have h1 := f32_f64_err d
    have hpos := abs_pos.2 h0
    have : 2 * 10 ^ 6 * |f32 (f64 d) - d| ≤ 2 * 10 ^ 6 * (|d| / 2 ^ 23) := by nlinarith
    refine lt_of_le_of_lt this ?_
    have : (2 : ℚ) * 10 ^ 6 * (|d| / 2 ^ 23) = |d| * (2 * 10 ^ 6 / 2 ^ 23) := by ring
    rw [this]
    have : (2 : ℚ) * 10 ^ 6 / 2 ^ 23 < 1 := by norm_num
    nlinarith

/-- Rounding to binary recovers a binary number that was changed a little. -/
theorem fround_near {p : ℕ} (hp : 1 ≤ p) {x y : ℚ} (hx : ∃ m k : ℤ, |m| < 2 ^ p ∧ x = m * 2 ^ k) (h : 2 * 2 ^ p * |y - x| < |x|) : fround p y = x := by
  -- the distance from the rounded number is below one unit
  have key : ∀ {x y : ℚ}, (∃ m k : ℤ, |m| < 2 ^ p ∧ x = m * 2 ^ k) → 0 < x → 2 * 2 ^ p * |y - x| < |x| → fround p y = x := by
    intro x y hx h0 h
    rw [abs_of_pos h0] at h
    obtain ⟨m, k, hm, rfl⟩ := hx
    have hP1 : (1 : ℚ) ≤ 2 ^ p := one_le_pow₀ (by norm_num)
    have hxy : |y - m * 2 ^ k| < m * 2 ^ k := by
      have := abs_nonneg (y - m * 2 ^ k)
      nlinarith
    have hy0 : 0 < y := by have := (abs_lt.1 hxy).1; linarith
    obtain ⟨a, b⟩ := log_bounds h0
    generalize hx' : (m : ℚ) * 2 ^ k = x at *
    -- x is a multiple of 2^(log x - p + 1)
    have hu : (0 : ℚ) < 2 ^ (Int.log 2 x - ((p : ℤ) - 1)) := by positivity
    have e1 : (2 : ℚ) ^ Int.log 2 x = 2 ^ (p - 1) * 2 ^ (Int.log 2 x - ((p : ℤ) - 1)) := by
      rw [← zpow_natCast, ← zpow_add₀ (by norm_num)]
      congr 1
      omega
    have e2 : (2 : ℚ) ^ (Int.log 2 x + 1) = 2 ^ p * 2 ^ (Int.log 2 x - ((p : ℤ) - 1)) := by
      rw [← zpow_natCast, ← zpow_add₀ (by norm_num)]
      congr 1
      omega
    have hex := fround_exact p m k hm
    rw [hx'] at hex
    -- hence x is an integer multiple n of the unit
    obtain ⟨n, hn⟩ : ∃ n : ℤ, x = n * 2 ^ (Int.log 2 x - ((p : ℤ) - 1)) := by
      refine ⟨roundEven (x / 2 ^ lastExp p x), ?_⟩
      have : lastExp p x = Int.log 2 x - ((p : ℤ) - 1) := by unfold lastExp; rw [abs_of_pos h0]
      rw [← this]
      exact hex.symm
    have hdist : |y - x| < 1 / 2 * 2 ^ (Int.log 2 x - ((p : ℤ) - 1)) := by
      have h1 : 2 * 2 ^ p * |y - x| < 2 ^ p * 2 ^ (Int.log 2 x - ((p : ℤ) - 1)) := by rw [← e2]; exact h.trans b
      have hP : (0 : ℚ) < 2 ^ p := by positivity
      by_contra hc
      push Not at hc
      nlinarith
    have hab := abs_lt.1 hdist
    by_cases hc : (2 : ℚ) ^ Int.log 2 x ≤ y
    · have hylt : y < 2 ^ (Int.log 2 x + 1) := by
        rw [e2]
        have hn1 : (n : ℚ) + 1 ≤ 2 ^ p := by
          have : (n : ℚ) < 2 ^ p := by
            by_contra hcc
            push Not at hcc
            rw [e2] at b
            nlinarith
          have : n < 2 ^ p := by exact_mod_cast this
          have : n + 1 ≤ 2 ^ p := this
          exact_mod_cast this
        nlinarith
      have hlog : Int.log 2 y = Int.log 2 x := by
        obtain ⟨c, d⟩ := log_bounds hy0
        have c1 := (zpow_lt_zpow_iff_right₀ (by norm_num : (1 : ℚ) < 2)).1 (lt_of_le_of_lt c hylt)
        have c2 := (zpow_lt_zpow_iff_right₀ (by norm_num : (1 : ℚ) < 2)).1 (lt_of_le_of_lt hc d)
        omega
      unfold fround
      have hl : lastExp p y = Int.log 2 x - ((p : ℤ) - 1) := by unfold lastExp; rw [abs_of_pos hy0, hlog]
      rw [hl]
      have hr : roundEven (y / 2 ^ (Int.log 2 x - ((p : ℤ) - 1))) = n := by
        apply roundEven_eq
        have : y / 2 ^ (Int.log 2 x - ((p : ℤ) - 1)) - n = (y - x) / 2 ^ (Int.log 2 x - ((p : ℤ) - 1)) := by
          rw [sub_div]
          congr 1
          rw [eq_div_iff hu.ne']
          exact hn.symm
        rw [this, abs_div, abs_of_pos hu, div_lt_iff₀ hu]
        exact hdist
      rw [hr, ← hn]
    · push Not at hc
      have hpp : (0 : ℚ) < 2 ^ (p - 1) := by positivity
      have hn2 : x = 2 ^ Int.log 2 x := by
        have h1 : (n : ℚ) < 2 ^ (p - 1) + 1 := by
          by_contra hcc
          push Not at hcc
          rw [e1] at hc
          nlinarith
        have h2 : (2 : ℚ) ^ (p - 1) ≤ n := by
          by_contra hcc
          push Not at hcc
          rw [e1] at a
          nlinarith
        have h1' : n < 2 ^ (p - 1) + 1 := by exact_mod_cast h1
        have h2' : (2 : ℤ) ^ (p - 1) ≤ n := by exact_mod_cast h2
        have : n = 2 ^ (p - 1) := by omega
        rw [e1]
        refine hn.trans ?_
        rw [this]
        push_cast
        rfl
      -- below a power of two: the unit is half as large
      have hlog : Int.log 2 y = Int.log 2 x - 1 := by
        obtain ⟨c, d⟩ := log_bounds hy0
        have c1 := (zpow_lt_zpow_iff_right₀ (by norm_num : (1 : ℚ) < 2)).1 (lt_of_le_of_lt c hc)
        have hlow : (2 : ℚ) ^ (Int.log 2 x - 1) ≤ y := by
          have : (2 : ℚ) ^ Int.log 2 x = 2 ^ (Int.log 2 x - 1) * 2 := by
            rw [← zpow_add_one₀ (by norm_num)]
            congr 1
            omega
          have h1 : 2 * |y - x| < x := by
            have := abs_nonneg (y - x)
            nlinarith
          have := (abs_lt.1 (show |y - x| < x / 2 by linarith)).1
          linarith
        have c2 := (zpow_lt_zpow_iff_right₀ (by norm_num : (1 : ℚ) < 2)).1 (lt_of_le_of_lt hlow d)
        omega
      unfold fround
      have hl : lastExp p y = Int.log 2 x - (p : ℤ) := by unfold lastExp; rw [abs_of_pos hy0, hlog]; omega
      rw [hl]
      have hu' : (0 : ℚ) < 2 ^ (Int.log 2 x - (p : ℤ)) := by positivity
      have e3 : (2 : ℚ) ^ Int.log 2 x = 2 ^ p * 2 ^ (Int.log 2 x - (p : ℤ)) := by
        rw [← zpow_natCast, ← zpow_add₀ (by norm_num)]
        congr 1
        omega
      have hP : (0 : ℚ) < 2 ^ p := by positivity
      have hdist2 : |y - x| < 1 / 2 * 2 ^ (Int.log 2 x - (p : ℤ)) := by
        by_contra hcc
        push Not at hcc
        rw [hn2, e3] at h
        rw [← e3, ← hn2] at h
        have : x = 2 ^ p * 2 ^ (Int.log 2 x - (p : ℤ)) := by rw [← e3]; exact hn2
        nlinarith
      have hr : roundEven (y / 2 ^ (Int.log 2 x - (p : ℤ))) = 2 ^ p := by
        apply roundEven_eq
        have : y / 2 ^ (Int.log 2 x - (p : ℤ)) - ((2 ^ p : ℤ) : ℚ) = (y - x) / 2 ^ (Int.log 2 x - (p : ℤ)) := by
          rw [sub_div]
          congr 1
          rw [eq_div_iff hu'.ne']
          push_cast
          rw [← e3]
          exact hn2.symm
        rw [this, abs_div, abs_of_pos hu', div_lt_iff₀ hu']
        exact hdist2
      rw [hr]
      push_cast
      rw [← e3]
      exact hn2.symm
  rcases lt_trichotomy x 0 with h0 | h0 | h0
  · have hx' : ∃ m k : ℤ, |m| < 2 ^ p ∧ -x = m * 2 ^ k := by
      obtain ⟨m, k, h1, h2⟩ := hx
      exact ⟨-m, k, by rwa [abs_neg], by rw [h2]; push_cast; ring⟩
    have := key hx' (by linarith) (y := -y) (by rw [neg_sub_neg, abs_neg, abs_sub_comm]; exact h)
    rw [fround_neg] at this
    linarith
  · rw [h0, abs_zero] at h
    exact absurd h (not_lt.2 (by positivity))
  · exact key hx h0 h

/-- 17 digits and more suffice for a `double`. -/
theorem f64_decimalOf {p : ℕ} (hp : 17 ≤ p) {x : ℚ} (hx : IsDouble x) : f64 (decimalOf p x) = x := by
  by_cases h0 : x = 0
  · rw [h0, decimalOf_zero]
    exact fround_zero 53
  · apply fround_near (by norm_num) hx
    have h1 := decimalOf_err (p := p) (by omega) x
    have hpos := abs_pos.2 h0
    have hP : (10 : ℚ) ^ 17 ≤ 10 ^ p := pow_le_pow_right₀ (by norm_num) hp
    have h2 : (10 : ℚ) / (2 * 10 ^ p) ≤ 10 / (2 * 10 ^ 17) := by
      apply div_le_div_of_nonneg_left (by norm_num) (by positivity)
      linarith
    have h3 : |decimalOf p x - x| ≤ |x| * (10 / (2 * 10 ^ 17)) := h1.trans (by nlinarith)
    have h4 : 2 * 2 ^ 53 * |decimalOf p x - x| ≤ 2 * 2 ^ 53 * (|x| * (10 / (2 * 10 ^ 17))) := by nlinarith
    refine lt_of_le_of_lt h4 ?_
    have : (2 : ℚ) * 2 ^ 53 * (|x| * (10 / (2 * 10 ^ 17))) = |x| * (2 * 2 ^ 53 * (10 / (2 * 10 ^ 17))) := by ring
    rw [this]
    have : (2 : ℚ) * 2 ^ 53 * (10 / (2 * 10 ^ 17)) < 1 := by norm_num
    nlinarith

end Verif.Xml
