import Verif.Proof.Lut

namespace Verif.Lut
open Verif.Flt Verif.Czi Verif.Spec

/-! ## More about rounding -/

theorem fround_idem (p : ℕ) (hp : 0 < p) (x : ℚ) : fround p (fround p x) = fround p x := by
  conv => lhs; arg 2; unfold fround
  conv => rhs; unfold fround
  refine fround_exact' p hp _ _ ?_
  rcases eq_or_ne x 0 with h0 | h0
  · subst h0
    rw [show (0 : ℚ) / 2 ^ lastExp p 0 = ((0 : ℤ) : ℚ) by simp, roundEven_int]; simp
  have hx : 0 < |x| := abs_pos.2 h0
  have hb := (log_bounds hx).2
  have hlt : |x| / 2 ^ lastExp p x ≤ ((2 ^ p : ℤ) : ℚ) := by
    rw [div_le_iff₀ (pow_pos' _)]
    unfold lastExp
    push_cast
    rw [show ((2 : ℚ) ^ p) = 2 ^ (p : ℤ) by simp, ← zpow_add₀ (by norm_num)]
    rw [show (p : ℤ) + (Int.log 2 |x| - (p - 1)) = Int.log 2 |x| + 1 by ring]
    exact hb.le
  rw [abs_le]
  have hq : |x / 2 ^ lastExp p x| ≤ ((2 ^ p : ℤ) : ℚ) := by rw [abs_div, abs_of_pos (pow_pos' (lastExp p x))]; exact hlt
  rw [abs_le] at hq
  constructor
  · have := roundEven_mono hq.1
    rw [roundEven_neg, roundEven_int] at this
    exact this
  · have := roundEven_mono hq.2
    rwa [roundEven_int] at this

theorem f32_idem (x : ℚ) : f32 (f32 x) = f32 x := fround_idem 24 (by norm_num) x

theorem f32_pos {x : ℚ} (h : 0 < x) : 0 < f32 x := by
  have := f32_err x
  rw [abs_of_pos h, abs_le] at this
  have h2 : x / 2 ^ 24 < x := by
    rw [div_lt_iff₀ (by norm_num)]; linarith
  linarith [this.1]

theorem f32_zero : f32 0 = 0 := by
  have := f32_int 0 (by norm_num); simpa using this

theorem f32_one : f32 1 = 1 := by
  have := f32_int 1 (by norm_num); simpa using this

theorem f32_real (x : ℚ) : |((f32 x : ℚ) : ℝ) - x| ≤ |(x : ℝ)| / 2 ^ 24 := by
  have h3 : ((|f32 x - x| : ℚ) : ℝ) ≤ ((|x| / 2 ^ 24 : ℚ) : ℝ) := Rat.cast_le.2 (f32_err x)
  push_cast at h3
  exact h3

/-! ## The parameter of the toe slope -/

theorem toeLoop_nonneg {pow : ℚ → ℚ → ℚ} {g factor : ℚ} (hf : 0 ≤ factor) (hp : ∀ y, 1 ≤ y → 1 ≤ pow y g) :
    ∀ n start, 0 ≤ start → 0 ≤ toeLoop pow g factor n start
  | 0, s, h => h
  | n + 1, s, h => by
    have h1 : (1 : ℚ) ≤ f32 (s + 1) := by
      have : f32 1 ≤ f32 (s + 1) := f32_mono (by linarith)
      rwa [f32_one] at this
    have hr : 0 ≤ f32 (factor * f32 (pow (f32 (s + 1)) g - 1)) :=
      f32_nonneg (mul_nonneg hf (f32_nonneg (by linarith [hp _ h1])))
    unfold toeLoop
    dsimp only
    split
    · exact hr
    · exact toeLoop_nonneg hf hp n _ hr

theorem toeLoop_float {pow : ℚ → ℚ → ℚ} {g factor : ℚ} : ∀ n start, f32 start = start → f32 (toeLoop pow g factor n start) = toeLoop pow g factor n start
  | 0, s, h => h
  | n + 1, s, h => by
    unfold toeLoop
    dsimp only
    split
    · exact f32_idem _
    · exact toeLoop_float n _ (f32_idem _)

theorem toeParameter_nonneg {pow : ℚ → ℚ → ℚ} {g : ℚ} (hp : ∀ y, 1 ≤ y → 1 ≤ pow y g) : 0 ≤ toeParameter pow g := by
  unfold toeParameter
  split
  · norm_num
  · split
    · exact f32_nonneg (by norm_num)
    · refine toeLoop_nonneg (f32_nonneg (div_nonneg (by norm_num) (f32_nonneg (mul_self_nonneg _)))) hp _ _ (by norm_num)

theorem f32_224 : f32 224 = 224 := by
  have := f32_int 224 (by norm_num); simpa using this

theorem toeParameter_float (pow : ℚ → ℚ → ℚ) (g : ℚ) : f32 (toeParameter pow g) = toeParameter pow g := by
  unfold toeParameter
  split
  · exact f32_224
  · split
    · exact f32_idem _
    · exact toeLoop_float _ _ f32_224

/-- For the square root the parameter is 224. -/
theorem toeParameter_half (pow : ℚ → ℚ → ℚ) : toeParameter pow (1 / 2) = 224 := by
  unfold toeParameter
  rw [if_pos]
  have h : f32 (1 / 2) = 1 / 2 := by
    have := f32_half 1 (by norm_num); simpa using this
  rw [h, sub_self, f32_zero, abs_zero]
  exact f32_pos (by norm_num)

/-! ## The values for an exponent less than 1 -/

/-- The value before it is restricted to the range. -/
def toeValue (pow : ℚ → ℚ → ℚ) (M : Nat) (g a x : ℚ) : ℚ :=
  f32 (f32 (M * f32 (pow (f32 (f32 (a * x) + 1)) g - 1)) / f32 (pow (f32 (a + 1)) g - 1))

theorem toeEntry_eq (pow : ℚ → ℚ → ℚ) (M : Nat) (g a : ℚ) {lo hi k : Nat} (hk : lo + k < hi) (h1 : hi ≠ lo + 1) (hn : hi ≤ 2 ^ 24)
    (hd : f32 (pow (f32 (a + 1)) g - 1) ≠ 0) : toeEntry pow M g a lo hi k = .ok (clampTo M (toeValue pow M g a (pos lo hi k))) := by
  unfold toeEntry
  rw [position_eq hk h1 hn]
  dsimp only
  rw [if_neg hd]
  rfl

theorem toe_arg {a x : ℚ} (ha : 0 ≤ a) (hx : 0 ≤ x) : 1 ≤ f32 (f32 (a * x) + 1) := by
  have h0 : 0 ≤ f32 (a * x) := f32_nonneg (mul_nonneg ha hx)
  have : f32 1 ≤ f32 (f32 (a * x) + 1) := f32_mono (by linarith)
  rwa [f32_one] at this

theorem toeValue_mono {pow : ℚ → ℚ → ℚ} {M : Nat} {g a : ℚ} (ha : 0 ≤ a) (hm : ∀ y y', 1 ≤ y → y ≤ y' → pow y g ≤ pow y' g)
    (hd : 0 < f32 (pow (f32 (a + 1)) g - 1)) {x x' : ℚ} (hx : 0 ≤ x) (h : x ≤ x') : toeValue pow M g a x ≤ toeValue pow M g a x' := by
  unfold toeValue
  refine f32_mono (div_le_div_of_nonneg_right (f32_mono (mul_le_mul_of_nonneg_left (f32_mono ?_) (Nat.cast_nonneg M))) hd.le)
  have h1 : f32 (a * x) ≤ f32 (a * x') := f32_mono (mul_le_mul_of_nonneg_left h ha)
  have := hm _ _ (toe_arg ha hx) (f32_mono (show f32 (a * x) + 1 ≤ f32 (a * x') + 1 by linarith))
  linarith

theorem toeValue_zero {pow : ℚ → ℚ → ℚ} {M : Nat} {g a : ℚ} (h1 : pow 1 g = 1) : toeValue pow M g a 0 = 0 := by
  unfold toeValue
  rw [mul_zero, f32_zero, zero_add, f32_one, h1, sub_self, f32_zero, mul_zero, f32_zero, zero_div, f32_zero]

theorem toeValue_last {pow : ℚ → ℚ → ℚ} {M : Nat} (hM : M ≤ 65535) {g a : ℚ} (ha : f32 a = a) (hd : 0 < f32 (pow (f32 (a + 1)) g - 1)) :
    M - 1 ≤ clampTo M (toeValue pow M g a 1) := by
  unfold toeValue
  rw [mul_one, ha]
  generalize f32 (pow (f32 (a + 1)) g - 1) = d at hd
  have hM0 : (0 : ℚ) ≤ M := Nat.cast_nonneg M
  have hM1 : (M : ℚ) ≤ 65535 := by exact_mod_cast hM
  have e1 := f32_err (M * d)
  rw [abs_of_nonneg (mul_nonneg hM0 hd.le), abs_le] at e1
  have h1 : M * (1 - 1 / 2 ^ 24) ≤ f32 (M * d) / d := by
    rw [le_div_iff₀ hd]
    have : (M : ℚ) * (1 - 1 / 2 ^ 24) * d = M * d - M * d / 2 ^ 24 := by ring
    linarith [e1.1]
  have hq0 : 0 ≤ f32 (M * d) / d := div_nonneg (f32_nonneg (mul_nonneg hM0 hd.le)) hd.le
  have e2 := f32_err (f32 (M * d) / d)
  rw [abs_of_nonneg hq0, abs_le] at e2
  have h2 : (M : ℚ) - 1 ≤ f32 (f32 (M * d) / d) := by
    have : (f32 (M * d) / d) * (1 - 1 / 2 ^ 24) ≤ f32 (f32 (M * d) / d) := by linarith [e2.1]
    have h3 : M * (1 - 1 / 2 ^ 24) * (1 - 1 / 2 ^ 24) ≤ (f32 (M * d) / d) * (1 - 1 / 2 ^ 24) := mul_le_mul_of_nonneg_right h1 (by norm_num)
    have h4 : (M : ℚ) - 1 ≤ M * (1 - 1 / 2 ^ 24) * (1 - 1 / 2 ^ 24) := by norm_num; linarith
    linarith
  have hv0 : 0 ≤ f32 (f32 (M * d) / d) := f32_nonneg hq0
  generalize f32 (f32 (M * d) / d) = v at *
  unfold clampTo truncInt
  split
  · omega
  · rw [if_neg (by linarith)]
    have : (M : ℤ) - 1 ≤ ⌊v⌋ := Int.le_floor.2 (by push_cast; linarith)
    omega

/-- On `[1,∞)` a power with an exponent of at most 1 grows at most as fast as its argument. -/
theorem rpow_lipschitz_one {u v g : ℝ} (hu : 1 ≤ u) (huv : u ≤ v) (hg0 : 0 ≤ g) (hg : g ≤ 1) : v ^ g - u ^ g ≤ v - u := by
  have hu0 : 0 < u := by linarith
  have hs : -1 ≤ (v - u) / u := le_trans (by norm_num) (div_nonneg (by linarith) hu0.le)
  have hb := rpow_one_add_le_one_add_mul_self hs hg0 hg
  have e : v = u * (1 + (v - u) / u) := by field_simp; ring
  have e' : v ^ g = u ^ g * (1 + (v - u) / u) ^ g := by
    conv => lhs; rw [e]
    exact Real.mul_rpow hu0.le (by have := div_nonneg (show 0 ≤ v - u by linarith) hu0.le; linarith)
  have hug : u ^ g = u * u ^ (g - 1) := by
    rw [mul_comm, ← Real.rpow_add_one hu0.ne']; congr 1; ring
  have h1 : u ^ (g - 1) ≤ 1 := Real.rpow_le_one_of_one_le_of_nonpos hu (by linarith)
  have h2 : 0 ≤ u ^ (g - 1) := Real.rpow_nonneg hu0.le _
  have h3 : v ^ g ≤ u ^ g * (1 + g * ((v - u) / u)) := by
    rw [e']; exact mul_le_mul_of_nonneg_left hb (Real.rpow_nonneg hu0.le _)
  have h4 : u ^ g * (1 + g * ((v - u) / u)) = u ^ g + g * u ^ (g - 1) * (v - u) := by
    rw [hug]; field_simp
  have h5 : g * u ^ (g - 1) * (v - u) ≤ 1 * (v - u) :=
    mul_le_mul_of_nonneg_right (mul_le_one₀ hg h2 h1) (by linarith)
  linarith

theorem rpow_near_one {u v g : ℝ} (hu : 1 ≤ u) (hv : 1 ≤ v) (hg0 : 0 ≤ g) (hg : g ≤ 1) : |v ^ g - u ^ g| ≤ |v - u| := by
  rcases le_total u v with h | h
  · rw [abs_of_nonneg (by linarith : 0 ≤ v - u), abs_of_nonneg (sub_nonneg.2 (Real.rpow_le_rpow (by linarith) h hg0))]
    exact rpow_lipschitz_one hu h hg0 hg
  · rw [abs_of_nonpos (by linarith : v - u ≤ 0), abs_of_nonpos (sub_nonpos.2 (Real.rpow_le_rpow (by linarith) h hg0))]
    have := rpow_lipschitz_one hv h hg0 hg
    linarith

/-- The error of a difference `pow(y, gamma) - 1` for a `y` close to `z`. -/
theorem diff_near {pow : ℚ → ℚ → ℚ} {g y : ℚ} {z a δ : ℝ} (hg : 0 ≤ g ∧ g ≤ 1) (hy : 1 ≤ y) (hz : 1 ≤ z) (hza : z ≤ a + 1)
    (hyz : |(y : ℝ) - z| ≤ (a + 1) / 2 ^ 22) (hδ : |(pow y g : ℝ) - (y : ℝ) ^ (g : ℝ)| ≤ δ) :
    |((f32 (pow y g - 1) : ℚ) : ℝ) - (z ^ (g : ℝ) - 1)| ≤ 2 * δ + (a + 1) / 2 ^ 20 := by
  have hδ0 : 0 ≤ δ := le_trans (abs_nonneg _) hδ
  have hg0 : (0 : ℝ) ≤ g := by exact_mod_cast hg.1
  have hg1 : (g : ℝ) ≤ 1 := by exact_mod_cast hg.2
  have hy' : (1 : ℝ) ≤ y := by exact_mod_cast hy
  have h1 := rpow_near_one hz hy' hg0 hg1
  have h2 := f32_real (pow y g - 1)
  push_cast at h2
  have h3 : |(y : ℝ) ^ (g : ℝ) - 1| ≤ |(y : ℝ) - 1| := by
    have := rpow_near_one (le_refl (1 : ℝ)) hy' hg0 hg1
    rwa [Real.one_rpow] at this
  rw [abs_of_nonneg (by linarith : (0 : ℝ) ≤ (y : ℝ) - 1)] at h3
  rw [abs_le] at hyz
  have h4 : |(pow y g : ℝ) - 1| ≤ δ + (y - 1) := by
    have := abs_sub_le (pow y g : ℝ) ((y : ℝ) ^ (g : ℝ)) 1
    linarith
  have h5 : |(pow y g : ℝ) - 1| / 2 ^ 24 ≤ (δ + (y - 1)) / 2 ^ 24 := by gcongr
  have hyz' : |(y : ℝ) - z| ≤ (a + 1) / 2 ^ 22 := abs_le.2 hyz
  have h6 : |((f32 (pow y g - 1) : ℚ) : ℝ) - (z ^ (g : ℝ) - 1)| ≤
      |((f32 (pow y g - 1) : ℚ) : ℝ) - ((pow y g : ℝ) - 1)| + |(pow y g : ℝ) - (y : ℝ) ^ (g : ℝ)| + |(y : ℝ) ^ (g : ℝ) - z ^ (g : ℝ)| := by
    have a1 := abs_add_three (((f32 (pow y g - 1) : ℚ) : ℝ) - ((pow y g : ℝ) - 1)) ((pow y g : ℝ) - (y : ℝ) ^ (g : ℝ)) ((y : ℝ) ^ (g : ℝ) - z ^ (g : ℝ))
    refine le_trans (le_of_eq ?_) a1
    congr 1; ring
  have h7 : (δ + ((y : ℝ) - 1)) / 2 ^ 24 ≤ δ + (a + 1) / 2 ^ 22 := by
    rw [div_le_iff₀ (by norm_num)]
    norm_num
    norm_num at hyz
    nlinarith [hyz.2]
  have h8 : (a + 1) / 2 ^ 22 + (a + 1) / 2 ^ 22 ≤ (a + 1) / 2 ^ 20 := by
    have : 0 ≤ a + 1 := by linarith
    norm_num; linarith
  linarith

theorem toe_arg_near {A Q x b y : ℝ} (ha' : 0 ≤ A) (hq0 : 0 ≤ Q) (hq1 : Q ≤ 1) (hx0' : 0 ≤ x) (hx1' : x ≤ 1) (hb0 : 0 ≤ b) (hb1 : b ≤ A)
    (r1 : |x - Q| ≤ |Q| / 2 ^ 24) (r2 : |b - A * x| ≤ |A * x| / 2 ^ 24) (r3 : |y - (b + 1)| ≤ |b + 1| / 2 ^ 24) :
    |y - (A * Q + 1)| ≤ (A + 1) / 2 ^ 22 := by
  rw [abs_of_nonneg hq0] at r1
  rw [abs_of_nonneg (mul_nonneg ha' hx0')] at r2
  rw [abs_of_nonneg (show 0 ≤ b + 1 by linarith)] at r3
  have m1 : A * x ≤ A := mul_le_of_le_one_right ha' hx1'
  have m2 : |A * x - A * Q| ≤ A / 2 ^ 24 := by
    rw [← mul_sub, abs_mul, abs_of_nonneg ha']
    have : A * |x - Q| ≤ A * (1 / 2 ^ 24) := mul_le_mul_of_nonneg_left (le_trans r1 (by gcongr)) ha'
    linarith
  have e : (A + 1) / 2 ^ 22 = 4 * ((A + 1) / 2 ^ 24) := by ring
  have e1 : A * x / 2 ^ 24 ≤ A / 2 ^ 24 := by gcongr
  have e2 : (b + 1) / 2 ^ 24 ≤ (A + 1) / 2 ^ 24 := by gcongr
  have e3 : A / 2 ^ 24 ≤ (A + 1) / 2 ^ 24 := by gcongr; linarith
  have := abs_add_three (y - (b + 1)) (b - A * x) (A * x - A * Q)
  rw [show y - (b + 1) + (b - A * x) + (A * x - A * Q) = y - (A * Q + 1) by ring] at this
  rw [e]
  have p : 0 ≤ (A + 1) / 2 ^ 24 := by positivity
  linarith

/-- The accuracy of a value for an exponent less than 1. -/
theorem toe_accuracy {pow : ℚ → ℚ → ℚ} {M : Nat} {g a q : ℚ} {δ : ℝ} (hg : 0 ≤ g ∧ g ≤ 1) (ha : 0 ≤ a) (haf : f32 a = a) (hq : 0 ≤ q ∧ q ≤ 1)
    (hp : ∀ y : ℚ, 1 ≤ y → y ≤ f32 (a + 1) → |(pow y g : ℝ) - (y : ℝ) ^ (g : ℝ)| ≤ δ)
    (hE : 2 * (2 * δ + ((a : ℝ) + 1) / 2 ^ 20) ≤ ((a : ℝ) + 1) ^ (g : ℝ) - 1) :
    |(clampTo M (toeValue pow M g a (f32 q)) : ℝ) - M * ((((a : ℝ) * q + 1) ^ (g : ℝ) - 1) / (((a : ℝ) + 1) ^ (g : ℝ) - 1))| ≤
      1 + 5 * M * (2 * δ + ((a : ℝ) + 1) / 2 ^ 20) / (((a : ℝ) + 1) ^ (g : ℝ) - 1) := by
  have ha' : (0 : ℝ) ≤ a := by exact_mod_cast ha
  have hq0 : (0 : ℝ) ≤ q := by exact_mod_cast hq.1
  have hq1 : (q : ℝ) ≤ 1 := by exact_mod_cast hq.2
  have hg0 : (0 : ℝ) ≤ g := by exact_mod_cast hg.1
  have hg1 : (g : ℝ) ≤ 1 := by exact_mod_cast hg.2
  have hx0 : 0 ≤ f32 q := f32_nonneg hq.1
  have hx1 : f32 q ≤ 1 := by have := f32_mono hq.2; rwa [f32_one] at this
  -- the argument
  have haq : f32 (a * f32 q) ≤ a := by
    have : f32 (a * f32 q) ≤ f32 a := f32_mono (mul_le_of_le_one_right ha hx1)
    rwa [haf] at this
  have hy1 := toe_arg ha hx0
  have hyle : f32 (f32 (a * f32 q) + 1) ≤ f32 (a + 1) := f32_mono (by linarith)
  set y := f32 (f32 (a * f32 q) + 1) with hy
  set E : ℝ := 2 * δ + ((a : ℝ) + 1) / 2 ^ 20 with hEdef
  set D : ℝ := ((a : ℝ) + 1) ^ (g : ℝ) - 1 with hD
  set N : ℝ := ((a : ℝ) * q + 1) ^ (g : ℝ) - 1 with hN
  have hyz : |(y : ℝ) - ((a : ℝ) * q + 1)| ≤ ((a : ℝ) + 1) / 2 ^ 22 := by
    have r1 := f32_real q
    have r2 := f32_real (a * f32 q)
    have r3 := f32_real (f32 (a * f32 q) + 1)
    push_cast at r2 r3
    have hx0' : (0 : ℝ) ≤ (f32 q : ℚ) := by exact_mod_cast hx0
    have hx1' : ((f32 q : ℚ) : ℝ) ≤ 1 := by exact_mod_cast hx1
    have hb0 : (0 : ℝ) ≤ (f32 (a * f32 q) : ℚ) := by exact_mod_cast f32_nonneg (mul_nonneg ha hx0)
    have hb1 : ((f32 (a * f32 q) : ℚ) : ℝ) ≤ a := by exact_mod_cast haq
    generalize ((f32 q : ℚ) : ℝ) = x at *
    generalize ((f32 (a * f32 q) : ℚ) : ℝ) = b at *
    generalize (a : ℝ) = A at *
    generalize (q : ℝ) = Q at *
    exact toe_arg_near ha' hq0 hq1 hx0' hx1' hb0 hb1 r1 r2 r3
  have hz1 : 1 ≤ (a : ℝ) * q + 1 := by have := mul_nonneg ha' hq0; linarith
  have hza : (a : ℝ) * q + 1 ≤ a + 1 := by have := mul_le_of_le_one_right ha' hq1; linarith
  have hn := diff_near (a := (a : ℝ)) hg hy1 hz1 hza hyz (hp y hy1 hyle)
  -- the divisor
  have hA1 : 1 ≤ f32 (a + 1) := by have := f32_mono (show (1 : ℚ) ≤ a + 1 by linarith); rwa [f32_one] at this
  have hAz : |((f32 (a + 1) : ℚ) : ℝ) - ((a : ℝ) + 1)| ≤ ((a : ℝ) + 1) / 2 ^ 22 := by
    have r := f32_real (a + 1)
    push_cast at r
    rw [abs_of_nonneg (by linarith : (0 : ℝ) ≤ (a : ℝ) + 1)] at r
    refine le_trans r ?_
    gcongr <;> norm_num
  have hdn := diff_near (a := (a : ℝ)) hg hA1 (by linarith : (1 : ℝ) ≤ (a : ℝ) + 1) (le_refl _) hAz (hp _ hA1 (le_refl _))
  set n : ℚ := f32 (pow y g - 1) with hndef
  set d : ℚ := f32 (pow (f32 (a + 1)) g - 1) with hddef
  change |(n : ℝ) - N| ≤ E at hn
  change |(d : ℝ) - D| ≤ E at hdn
  have hδ0 : 0 ≤ δ := le_trans (abs_nonneg _) (hp _ hA1 (le_refl _))
  have hEpos : 0 < E := by
    have : 0 < ((a : ℝ) + 1) / 2 ^ 20 := by positivity
    rw [hEdef]; linarith
  have hDpos : 0 < D := by linarith
  have hN0 : 0 ≤ N := by
    have : (1 : ℝ) ≤ ((a : ℝ) * q + 1) ^ (g : ℝ) := Real.one_le_rpow hz1 hg0
    rw [hN]; linarith
  have hND : N ≤ D := by
    have : ((a : ℝ) * q + 1) ^ (g : ℝ) ≤ ((a : ℝ) + 1) ^ (g : ℝ) := Real.rpow_le_rpow (by linarith) hza hg0
    rw [hN, hD]; linarith
  have hDa : D ≤ a := by
    have := rpow_near_one (le_refl (1 : ℝ)) (by linarith : (1 : ℝ) ≤ (a : ℝ) + 1) hg0 hg1
    rw [Real.one_rpow, abs_of_nonneg (by linarith : (0 : ℝ) ≤ (a : ℝ) + 1 - 1), abs_of_nonneg (by linarith)] at this
    rw [hD]; linarith
  have hdD : D / 2 ≤ d := by rw [abs_le] at hdn; linarith [hdn.1]
  have hdpos : (0 : ℝ) < d := by linarith
  have hMnn : (0 : ℝ) ≤ M := Nat.cast_nonneg M
  -- the quotient
  have hquot : |(n : ℝ) / d - N / D| ≤ 4 * E / D := by
    have e : (n : ℝ) / d - N / D = ((n - N) + N / D * (D - d)) / d := by field_simp; ring
    rw [e, abs_div, abs_of_pos hdpos, div_le_iff₀ hdpos]
    have hr : N / D ≤ 1 := (div_le_one hDpos).2 hND
    have hr0 : 0 ≤ N / D := div_nonneg hN0 hDpos.le
    have t1 : |((n : ℝ) - N) + N / D * (D - d)| ≤ E + E := by
      refine le_trans (abs_add_le _ _) (add_le_add hn ?_)
      rw [abs_mul, abs_of_nonneg hr0, abs_sub_comm]
      calc N / D * |(d : ℝ) - D| ≤ 1 * E := mul_le_mul hr hdn (abs_nonneg _) (by norm_num)
        _ = E := one_mul _
    refine le_trans t1 ?_
    have : 4 * E / D * (D / 2) ≤ 4 * E / D * d := mul_le_mul_of_nonneg_left hdD (by positivity)
    have e2 : 4 * E / D * (D / 2) = E + E := by field_simp; ring
    linarith
  have hnn : (n : ℝ) ≤ 3 * d := by
    have : (n : ℝ) / d ≤ 3 := by
      have h1 : N / D ≤ 1 := (div_le_one hDpos).2 hND
      have h2 : 4 * E / D ≤ 2 := by rw [div_le_iff₀ hDpos]; linarith
      rw [abs_le] at hquot
      linarith [hquot.2]
    rwa [div_le_iff₀ hdpos] at this
  have hn0 : (0 : ℝ) ≤ n ∨ (n : ℝ) < 0 := le_or_gt 0 _
  have habs : |(n : ℝ)| ≤ 3 * d := by
    rw [abs_le]; refine ⟨?_, hnn⟩
    rw [abs_le] at hn
    linarith [hn.1]
  -- the two roundings
  have r1 := f32_real (M * n)
  have r2 := f32_real (f32 (M * n) / d)
  push_cast at r1 r2
  have hb1 : |(M : ℝ) * n| ≤ M * (3 * d) := by rw [abs_mul, abs_of_nonneg hMnn]; exact mul_le_mul_of_nonneg_left habs hMnn
  set m : ℝ := ((f32 (M * n) : ℚ) : ℝ) with hmdef
  have hb2 : |m / d - M * (n / d)| ≤ M * 3 / 2 ^ 24 := by
    have e : m / d - M * (n / d) = (m - M * n) / d := by field_simp
    rw [e, abs_div, abs_of_pos hdpos, div_le_iff₀ hdpos]
    refine le_trans r1 ?_
    rw [div_le_iff₀ (by norm_num)]
    calc |(M : ℝ) * n| ≤ M * (3 * d) := hb1
      _ = M * 3 / 2 ^ 24 * d * 2 ^ 24 := by ring
  have hb3 : |m / d| ≤ M * 4 := by
    have h1 : |(M : ℝ) * (n / d)| ≤ M * 3 := by
      rw [abs_mul, abs_of_nonneg hMnn, abs_div, abs_of_pos hdpos]
      exact mul_le_mul_of_nonneg_left ((div_le_iff₀ hdpos).2 habs) hMnn
    have h2 := abs_sub_abs_le_abs_sub (m / d) (M * (n / d))
    have h3 : (M : ℝ) * 3 / 2 ^ 24 ≤ M := by
      rw [div_le_iff₀ (by norm_num)]; nlinarith
    linarith
  have hval : |((toeValue pow M g a (f32 q) : ℚ) : ℝ) - M * (N / D)| ≤ 5 * M * E / D := by
    have hv : toeValue pow M g a (f32 q) = f32 (f32 (M * n) / d) := rfl
    rw [hv]
    have t1 : |((f32 (f32 (M * n) / d) : ℚ) : ℝ) - M * (N / D)| ≤
        |((f32 (f32 (M * n) / d) : ℚ) : ℝ) - m / d| + |m / d - M * (n / d)| + |M * (n / d) - M * (N / D)| := by
      have a1 := abs_add_three (((f32 (f32 (M * n) / d) : ℚ) : ℝ) - m / d) (m / d - M * (n / d)) (M * (n / d) - M * (N / D))
      refine le_trans (le_of_eq ?_) a1
      congr 1; ring
    have t2 : |(M : ℝ) * (n / d) - M * (N / D)| ≤ M * (4 * E / D) := by
      rw [← mul_sub, abs_mul, abs_of_nonneg hMnn]; exact mul_le_mul_of_nonneg_left hquot hMnn
    have t3 : |m / d| / 2 ^ 24 ≤ M * 4 / 2 ^ 24 := by gcongr
    have hED : 7 / 2 ^ 24 ≤ E / D := by
      rw [le_div_iff₀ hDpos]
      have : ((a : ℝ) + 1) / 2 ^ 20 ≤ E := by rw [hEdef]; linarith
      have h2 : 7 / 2 ^ 24 * D ≤ ((a : ℝ) + 1) / 2 ^ 20 := by norm_num; linarith
      linarith
    have t4 : M * (7 / 2 ^ 24) ≤ M * (E / D) := mul_le_mul_of_nonneg_left hED hMnn
    have e : 5 * (M : ℝ) * E / D = M * (4 * E / D) + M * (E / D) := by ring
    rw [e]
    have t5 : (M : ℝ) * 4 / 2 ^ 24 + M * 3 / 2 ^ 24 = M * (7 / 2 ^ 24) := by ring
    linarith
  have hr0 : 0 ≤ N / D := div_nonneg hN0 hDpos.le
  have hr : N / D ≤ 1 := (div_le_one hDpos).2 hND
  exact clampTo_near M _ (mul_nonneg hMnn hr0) (mul_le_of_le_one_right hMnn hr) hval

end Verif.Lut
