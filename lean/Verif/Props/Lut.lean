import Verif.Proof.LutToe

/-!
# C75: look-up tables from a gamma value
-/

namespace Verif
open Verif.Lut Verif.Flt Verif.Czi Verif.Spec

theorem cut_zero (n : Nat) : Spec.cut n 0 = 0 := by
  unfold Spec.cut; rw [zero_mul, f32_zero]; simp

theorem cut_one {n : Nat} (h : n ≤ 2 ^ 24) : Spec.cut n 1 = n := by
  unfold Spec.cut; rw [one_mul, f32_nat h]; simp

/-- **C75 (the ends of the curve).** With a black point and a white point between 0 and 1, an index whose whole step is left of the black point
is below the index where the curve begins, and every index from the white point on is at or after the index where it ends. Both
indices are less than one (and the rounding error) away from the point. -/
theorem C75_ends {n : Nat} {p : ℚ} (hn : n ≤ 2 ^ 24) (h0 : 0 ≤ p) (h1 : p ≤ 1) :
    (∀ i : Nat, (i + 1 : ℚ) ≤ p * n → i < Spec.cut n p) ∧ (∀ i : Nat, i < n → p * n ≤ i → Spec.cut n p ≤ i) ∧
    p * n - 2 ≤ Spec.cut n p ∧ (Spec.cut n p : ℚ) ≤ p * n + 1 := by
  have hpn : p * n ≤ 2 ^ 24 := by
    calc p * n ≤ 1 * n := mul_le_mul_of_nonneg_right h1 (by positivity)
      _ = n := one_mul _
      _ ≤ 2 ^ 24 := by exact_mod_cast hn
  have hp0 : 0 ≤ p * n := mul_nonneg h0 (by positivity)
  refine ⟨?_, ?_, ?_⟩
  · intro i hi
    have hi2 : ((i + 1 : ℕ) : ℚ) ≤ p * n := by push_cast; exact hi
    have : i + 1 ≤ 2 ^ 24 := by
      have : ((i + 1 : ℕ) : ℚ) ≤ ((2 ^ 24 : ℕ) : ℚ) := le_trans hi2 (by push_cast; exact hpn)
      exact_mod_cast this
    have := le_cut this hi2
    omega
  · intro i hi h
    exact cut_le_of (by omega) h
  · have e := f32_err (p * n)
    rw [abs_of_nonneg hp0, abs_le] at e
    have e' : p * n / 2 ^ 24 ≤ 1 := by rw [div_le_one (by norm_num)]; exact hpn
    have hc : (Spec.cut n p : ℚ) = (⌊f32 (p * n)⌋ : ℚ) := by
      unfold Spec.cut
      have : ((⌊f32 (p * n)⌋.toNat : ℕ) : ℤ) = ⌊f32 (p * n)⌋ := Int.toNat_of_nonneg (Int.floor_nonneg.2 (f32_nonneg hp0))
      exact_mod_cast congrArg (Int.cast : ℤ → ℚ) this
    rw [hc]
    have f1 := Int.floor_le (f32 (p * n))
    have f2 := Int.lt_floor_add_one (f32 (p * n))
    constructor
    · linarith [e.1]
    · linarith [e.2]

example : Spec.cut 256 (1 / 2) = 128 := by
  unfold Spec.cut
  rw [show (1 / 2 : ℚ) * ((256 : ℕ) : ℚ) = ((128 : ℤ) : ℚ) by norm_num, f32_int 128 (by norm_num)]
  simp

/-- **C75 (gamma of at least 1).** For a black point and a white point with `0 ≤ black ≤ white ≤ 1` — except if there is exactly one index between
them — the table has exactly as many values as asked for, is 0 below the black point and has the largest value from the white point
on; in between it is the exponential `x^gamma`, truncated, up to the error of the computation (`δ` is the error of the C library's
`pow`). -/
theorem C75_gamma (pow : ℚ → ℚ → ℚ) {M n : Nat} {black white g : ℚ} {δ : ℝ} (hn : n ≤ 2 ^ 24) (hb : 0 ≤ black) (hbw : black ≤ white) (hw : white ≤ 1)
    (hg : 1 ≤ g) (h1 : Spec.cut n white ≠ Spec.cut n black + 1)
    (hp : ∀ x : ℚ, 0 ≤ x → x ≤ 1 → |(pow x g : ℝ) - (x : ℝ) ^ (g : ℝ)| ≤ δ) :
    ∃ t, gammaTable pow M n black white g = .ok t ∧
      IsTable n (Spec.cut n black) (Spec.cut n white) M (fun k v =>
        |(v : ℝ) - M * ((k : ℝ) / ((Spec.cut n white : ℝ) - Spec.cut n black - 1)) ^ (g : ℝ)| ≤ 1 + M * (δ + (g + 1 + δ) / 2 ^ 24)) t := by
  have hhi := cut_le hn hw
  have hlh : Spec.cut n black ≤ Spec.cut n white := cut_mono hbw
  obtain ⟨t, ht, hT, _⟩ := table_ok (M := M) (f := powerEntry pow M g (Spec.cut n black) (Spec.cut n white))
    (g := fun k => clampTo M (f32 (M * pow (pos (Spec.cut n black) (Spec.cut n white) k) g)))
    (R := fun k v => |(v : ℝ) - M * ((k : ℝ) / ((Spec.cut n white : ℝ) - Spec.cut n black - 1)) ^ (g : ℝ)| ≤ 1 + M * (δ + (g + 1 + δ) / 2 ^ 24)) hlh hhi
    (fun k hk => powerEntry_eq pow M g hk h1 (by omega)) (fun k hk => ⟨clampTo_le _ _, power_accuracy pow M g hg δ hp hk h1⟩)
  refine ⟨t, ?_, hT⟩
  unfold gammaTable
  dsimp only
  rw [cutIndex_eq hn hb, cutIndex_eq hn (le_trans hb hbw), if_neg (not_lt.2 hg)]
  exact ht

/-- **C75 (gamma of at least 1, shape).** If `pow` does not decrease and gives 0 for 0 and 1 for 1, then the values do not decrease, the first one
in between is 0 and the last one is the largest value. -/
theorem C75_gamma_shape (pow : ℚ → ℚ → ℚ) {M n : Nat} {black white g : ℚ} (hM : M ≤ 65535) (hn : n ≤ 2 ^ 24) (hb : 0 ≤ black) (hbw : black ≤ white)
    (hw : white ≤ 1) (hg : 1 ≤ g) (h1 : Spec.cut n white ≠ Spec.cut n black + 1)
    (hm : ∀ x y : ℚ, 0 ≤ x → x ≤ y → y ≤ 1 → pow x g ≤ pow y g) (hp0 : pow 0 g = 0) (hp1 : pow 1 g = 1) :
    ∃ t, gammaTable pow M n black white g = .ok t ∧ Ascending t ∧
      IsTable n (Spec.cut n black) (Spec.cut n white) M (fun k v => (k = 0 → v = 0) ∧
        (Spec.cut n black + k + 1 = Spec.cut n white → v = M)) t := by
  have hhi := cut_le hn hw
  have hlh : Spec.cut n black ≤ Spec.cut n white := cut_mono hbw
  set lo := Spec.cut n black with hlo
  set hi := Spec.cut n white with hhi'
  obtain ⟨t, ht, hT, hv⟩ := table_ok (M := M) (f := powerEntry pow M g lo hi)
    (g := fun k => clampTo M (f32 (M * pow (pos lo hi k) g)))
    (R := fun k v => (k = 0 → v = 0) ∧ (lo + k + 1 = hi → v = M)) hlh hhi
    (fun k hk => powerEntry_eq pow M g hk h1 (by omega))
    (fun k hk => ⟨clampTo_le _ _, by
      intro h0
      subst h0
      rw [pos_zero, hp0, mul_zero, f32_zero]
      unfold clampTo truncInt
      rw [if_neg (not_lt.2 (Nat.cast_nonneg M)), if_neg (lt_irrefl _), if_pos (le_refl _)]
      simp, by
      intro hl
      have hk' : k = hi - lo - 1 := by omega
      rw [hk', pos_last (by omega), hp1, mul_one, f32_nat (by omega)]
      unfold clampTo truncInt
      rw [if_neg (lt_irrefl _), if_neg (not_lt.2 (Nat.cast_nonneg M)), if_pos (Nat.cast_nonneg M)]
      simp⟩)
  refine ⟨t, ?_, ?_, hT⟩
  · unfold gammaTable
    dsimp only
    rw [cutIndex_eq hn hb, cutIndex_eq hn (le_trans hb hbw), if_neg (not_lt.2 hg)]
    exact ht
  · refine table_ascending hT hlh hhi hv ?_
    intro k k' hkk hk'
    refine clampTo_mono M (f32_mono (mul_le_mul_of_nonneg_left ?_ (Nat.cast_nonneg M)))
    exact hm _ _ (pos_bounds (by omega) h1).1 (pos_mono hkk hk') (pos_bounds hk' h1).2

private theorem cuts_256 : Spec.cut 256 1 ≠ Spec.cut 256 0 + 1 := by
  rw [cut_zero, cut_one (by norm_num)]; norm_num

private theorem square_le (x y : ℚ) (hx : 0 ≤ x) (h : x ≤ y) (_ : y ≤ 1) : (fun x _ => x * x : ℚ → ℚ → ℚ) x 2 ≤ (fun x _ => x * x : ℚ → ℚ → ℚ) y 2 :=
  mul_le_mul h h hx (le_trans hx h)

/-- The hypotheses are met: the square, a table of 256 bytes. -/
example := C75_gamma (fun x _ => x * x) (M := 255) (n := 256) (black := 0) (white := 1) (g := 2) (δ := 0) (by norm_num) (by norm_num) (by norm_num)
  (by norm_num) (by norm_num) cuts_256 (fun x _ _ => by
    have : ((2 : ℚ) : ℝ) = ((2 : ℕ) : ℝ) := by norm_num
    rw [this, Real.rpow_natCast]
    push_cast
    rw [pow_two, sub_self, abs_zero])

example := C75_gamma_shape (fun x _ => x * x) (M := 255) (n := 256) (black := 0) (white := 1) (g := 2) (by norm_num) (by norm_num) (by norm_num)
  (by norm_num) (by norm_num) (by norm_num) cuts_256 square_le (by norm_num) (by norm_num)

/-- **C75 (gamma less than 1).** Then the table has the size and the ends, too; in between it is the function `((a*x+1)^gamma - 1) / ((a+1)^gamma - 1)` (whose
slope at 0 is finite), truncated, up to the error of the computation, where `a` is the parameter the function computes. -/
theorem C75_toe (pow : ℚ → ℚ → ℚ) {M n : Nat} {black white g : ℚ} {δ : ℝ} (hn : n ≤ 2 ^ 24) (hb : 0 ≤ black) (hbw : black ≤ white) (hw : white ≤ 1)
    (hg0 : 0 ≤ g) (hg : g < 1) (h1 : Spec.cut n white ≠ Spec.cut n black + 1) (hge : ∀ y, 1 ≤ y → 1 ≤ pow y g)
    (hp : ∀ y : ℚ, 1 ≤ y → y ≤ f32 (toeParameter pow g + 1) → |(pow y g : ℝ) - (y : ℝ) ^ (g : ℝ)| ≤ δ)
    (hE : 2 * (2 * δ + ((toeParameter pow g : ℝ) + 1) / 2 ^ 20) ≤ ((toeParameter pow g : ℝ) + 1) ^ (g : ℝ) - 1) :
    ∃ t, gammaTable pow M n black white g = .ok t ∧
      IsTable n (Spec.cut n black) (Spec.cut n white) M (fun k v =>
        |(v : ℝ) - M * ((((toeParameter pow g : ℝ) * ((k : ℝ) / ((Spec.cut n white : ℝ) - Spec.cut n black - 1)) + 1) ^ (g : ℝ) - 1) /
            (((toeParameter pow g : ℝ) + 1) ^ (g : ℝ) - 1))| ≤
          1 + 5 * M * (2 * δ + ((toeParameter pow g : ℝ) + 1) / 2 ^ 20) / (((toeParameter pow g : ℝ) + 1) ^ (g : ℝ) - 1)) t := by
  have hhi := cut_le hn hw
  have hlh : Spec.cut n black ≤ Spec.cut n white := cut_mono hbw
  have ha := toeParameter_nonneg hge
  have haf := toeParameter_float pow g
  have hA1 : 1 ≤ f32 (toeParameter pow g + 1) := by
    have := f32_mono (show (1 : ℚ) ≤ toeParameter pow g + 1 by linarith); rwa [f32_one] at this
  have hδ0 : 0 ≤ δ := le_trans (abs_nonneg _) (hp _ hA1 (le_refl _))
  have ha' : (0 : ℝ) ≤ (toeParameter pow g : ℝ) := by exact_mod_cast ha
  have hd : f32 (pow (f32 (toeParameter pow g + 1)) g - 1) ≠ 0 := by
    have hAz : |((f32 (toeParameter pow g + 1) : ℚ) : ℝ) - ((toeParameter pow g : ℝ) + 1)| ≤ ((toeParameter pow g : ℝ) + 1) / 2 ^ 22 := by
      have r := f32_real (toeParameter pow g + 1)
      push_cast at r
      rw [abs_of_nonneg (by linarith : (0 : ℝ) ≤ (toeParameter pow g : ℝ) + 1)] at r
      refine le_trans r ?_
      gcongr <;> norm_num
    have := diff_near (a := (toeParameter pow g : ℝ)) ⟨hg0, hg.le⟩ hA1 (by linarith : (1 : ℝ) ≤ (toeParameter pow g : ℝ) + 1) (le_refl _) hAz
      (hp _ hA1 (le_refl _))
    intro h
    rw [h, abs_le] at this
    have hpos : 0 < ((toeParameter pow g : ℝ) + 1) / 2 ^ 20 := by positivity
    have h2 := this.1
    push_cast at h2
    linarith
  obtain ⟨t, ht, hT, _⟩ := table_ok (M := M) (f := toeEntry pow M g (toeParameter pow g) (Spec.cut n black) (Spec.cut n white))
    (g := fun k => clampTo M (toeValue pow M g (toeParameter pow g) (pos (Spec.cut n black) (Spec.cut n white) k)))
    (R := fun k v => |(v : ℝ) - M * ((((toeParameter pow g : ℝ) * ((k : ℝ) / ((Spec.cut n white : ℝ) - Spec.cut n black - 1)) + 1) ^ (g : ℝ) - 1) /
            (((toeParameter pow g : ℝ) + 1) ^ (g : ℝ) - 1))| ≤
          1 + 5 * M * (2 * δ + ((toeParameter pow g : ℝ) + 1) / 2 ^ 20) / (((toeParameter pow g : ℝ) + 1) ^ (g : ℝ) - 1)) hlh hhi
    (fun k hk => toeEntry_eq pow M g _ hk h1 (by omega) hd) (fun k hk => ⟨clampTo_le _ _, by
      have hd : (0 : ℚ) < (Spec.cut n white : ℚ) - Spec.cut n black - 1 := by
        have : (Spec.cut n black : ℚ) + 1 < Spec.cut n white := by exact_mod_cast (by omega : Spec.cut n black + 1 < Spec.cut n white)
        linarith
      have hk' : (k : ℚ) ≤ (Spec.cut n white : ℚ) - Spec.cut n black - 1 := by
        have : (Spec.cut n black : ℚ) + k + 1 ≤ Spec.cut n white := by exact_mod_cast (by omega : Spec.cut n black + k + 1 ≤ Spec.cut n white)
        linarith
      have := toe_accuracy (M := M) (q := (k : ℚ) / ((Spec.cut n white : ℚ) - Spec.cut n black - 1)) ⟨hg0, hg.le⟩ ha haf
        ⟨by positivity, by rw [div_le_iff₀ hd]; linarith⟩ hp hE
      push_cast at this
      exact this⟩)
  refine ⟨t, ?_, hT⟩
  unfold gammaTable
  dsimp only
  rw [cutIndex_eq hn hb, cutIndex_eq hn (le_trans hb hbw), if_pos hg]
  exact ht

/-- There is a function `pow` as exact as one likes that is never less than the exact power. -/
theorem exists_pow (δ : ℝ) (hδ : 0 < δ) : ∃ pow : ℚ → ℚ → ℚ, ∀ y g : ℚ, (y : ℝ) ^ (g : ℝ) ≤ pow y g ∧ |(pow y g : ℝ) - (y : ℝ) ^ (g : ℝ)| ≤ δ := by
  have h : ∀ y g : ℚ, ∃ q : ℚ, (y : ℝ) ^ (g : ℝ) < q ∧ (q : ℝ) < (y : ℝ) ^ (g : ℝ) + δ := fun y g => exists_rat_btwn (by linarith)
  choose pow hpow using h
  exact ⟨pow, fun y g => ⟨(hpow y g).1.le, by rw [abs_of_nonneg (by linarith [(hpow y g).1])]; linarith [(hpow y g).2]⟩⟩

theorem rpow_half_225 : ((225 : ℝ)) ^ ((1 : ℝ) / 2) = 15 := by
  rw [show (225 : ℝ) = 15 ^ (2 : ℝ) by norm_num, ← Real.rpow_mul (by norm_num)]
  norm_num

/-- The hypotheses are met: gamma = 1/2 and any `pow` that is exact up to 1/1000 and not less than 1. -/
example (pow : ℚ → ℚ → ℚ) (h : ∀ y g : ℚ, (y : ℝ) ^ (g : ℝ) ≤ pow y g ∧ |(pow y g : ℝ) - (y : ℝ) ^ (g : ℝ)| ≤ 1 / 1000) :=
  C75_toe pow (M := 255) (n := 256) (black := 0) (white := 1) (g := 1 / 2) (δ := 1 / 1000) (by norm_num) (by norm_num) (by norm_num)
    (by norm_num) (by norm_num) (by norm_num) cuts_256 (fun y hy => by
      have h1 : (1 : ℝ) ≤ (y : ℝ) ^ (((1 / 2 : ℚ)) : ℝ) := Real.one_le_rpow (by exact_mod_cast hy) (by norm_num)
      exact_mod_cast le_trans h1 (h y (1 / 2)).1) (fun y _ _ => (h y (1 / 2)).2) (by
      rw [toeParameter_half]
      push_cast
      rw [show ((224 : ℝ) + 1) = 225 by norm_num, rpow_half_225]
      norm_num)

/-- **C75 (gamma less than 1, shape).** If `pow` does not decrease and gives 1 for 1, then the values do not decrease, the first one in between is 0
and the last one is the largest value or one less. -/
theorem C75_toe_shape (pow : ℚ → ℚ → ℚ) {M n : Nat} {black white g : ℚ} (hM : M ≤ 65535) (hn : n ≤ 2 ^ 24) (hb : 0 ≤ black) (hbw : black ≤ white)
    (hw : white ≤ 1) (hg : g < 1) (h1 : Spec.cut n white ≠ Spec.cut n black + 1)
    (hm : ∀ y y' : ℚ, 1 ≤ y → y ≤ y' → pow y g ≤ pow y' g) (hp1 : pow 1 g = 1) (hd : 1 < pow (f32 (toeParameter pow g + 1)) g) :
    ∃ t, gammaTable pow M n black white g = .ok t ∧ Ascending t ∧
      IsTable n (Spec.cut n black) (Spec.cut n white) M (fun k v => (k = 0 → v = 0) ∧
        (Spec.cut n black + k + 1 = Spec.cut n white → M - 1 ≤ v)) t := by
  have hge : ∀ y, 1 ≤ y → 1 ≤ pow y g := fun y hy => by rw [← hp1]; exact hm 1 y (le_refl _) hy
  have ha := toeParameter_nonneg hge
  have haf := toeParameter_float pow g
  have hd' : 0 < f32 (pow (f32 (toeParameter pow g + 1)) g - 1) := f32_pos (by linarith)
  have hhi := cut_le hn hw
  have hlh : Spec.cut n black ≤ Spec.cut n white := cut_mono hbw
  set lo := Spec.cut n black with hlo
  set hi := Spec.cut n white with hhi'
  obtain ⟨t, ht, hT, hv⟩ := table_ok (M := M) (f := toeEntry pow M g (toeParameter pow g) lo hi)
    (g := fun k => clampTo M (toeValue pow M g (toeParameter pow g) (pos lo hi k)))
    (R := fun k v => (k = 0 → v = 0) ∧ (lo + k + 1 = hi → M - 1 ≤ v)) hlh hhi
    (fun k hk => toeEntry_eq pow M g _ hk h1 (by omega) hd'.ne')
    (fun k hk => ⟨clampTo_le _ _, by
      intro h0
      subst h0
      rw [pos_zero, toeValue_zero hp1]
      unfold clampTo truncInt
      rw [if_neg (not_lt.2 (Nat.cast_nonneg M)), if_neg (lt_irrefl _), if_pos (le_refl _)]
      simp, by
      intro hl
      have hk' : k = hi - lo - 1 := by omega
      rw [hk', pos_last (by omega)]
      exact toeValue_last hM haf hd'⟩)
  refine ⟨t, ?_, ?_, hT⟩
  · unfold gammaTable
    dsimp only
    rw [cutIndex_eq hn hb, cutIndex_eq hn (le_trans hb hbw), if_pos hg]
    exact ht
  · refine table_ascending hT hlh hhi hv ?_
    intro k k' hkk hk'
    exact clampTo_mono M (toeValue_mono ha hm hd' (pos_bounds (by omega) h1).1 (pos_mono hkk hk'))

/-- The hypotheses of the last theorem are met: for gamma = 1/2 the parameter is 224, and any function that does not decrease, is 1 at 1 and more at
225 will do. -/
example := C75_toe_shape (fun y _ => 1 + (y - 1) / 16) (M := 255) (n := 256) (black := 0) (white := 1) (g := 1 / 2) (by norm_num) (by norm_num)
  (by norm_num) (by norm_num) (by norm_num) (by norm_num) cuts_256 (fun y y' _ h => by linarith) (by norm_num) (by
    rw [toeParameter_half]
    have : f32 (224 + 1) = 225 := by
      have := f32_int 225 (by norm_num)
      norm_num at this ⊢; exact this
    rw [this]; norm_num)

/-- **C75 (violated: the exponential for gamma less than 1).** The documentation promises the exponential for every gamma. For gamma = 1/2, a table of 256
bytes and the points 0 and 1, value 1 is at most 8, whatever (reasonably exact) `pow` is used; the exponential would be 15. -/
theorem C75_exponential_violated (pow : ℚ → ℚ → ℚ) (hge : ∀ y, 1 ≤ y → 1 ≤ pow y (1 / 2))
    (hp : ∀ y : ℚ, 1 ≤ y → y ≤ 225 → |(pow y (1 / 2) : ℝ) - (y : ℝ) ^ ((1 : ℝ) / 2)| ≤ 1 / 1000) :
    (∃ t v, gammaTable pow 255 256 0 1 (1 / 2) = .ok t ∧ t[1]? = some v ∧ v ≤ 8) ∧ 15 ≤ 255 * ((1 : ℝ) / 255) ^ ((1 : ℝ) / 2) := by
  have e225 : f32 (toeParameter pow (1 / 2) + 1) = 225 := by
    rw [toeParameter_half]
    have := f32_int 225 (by norm_num)
    norm_num at this ⊢; exact this
  have hhalf : ((1 / 2 : ℚ) : ℝ) = 1 / 2 := by norm_num
  constructor
  · obtain ⟨t, ht, hT⟩ := C75_toe pow (M := 255) (n := 256) (black := 0) (white := 1) (g := 1 / 2) (δ := 1 / 1000) (by norm_num) (by norm_num)
      (by norm_num) (by norm_num) (by norm_num) (by norm_num) cuts_256 hge (fun y h1 h2 => by rw [e225] at h2; rw [hhalf]; exact hp y h1 h2) (by
        rw [toeParameter_half]
        push_cast
        rw [show ((224 : ℝ) + 1) = 225 by norm_num, rpow_half_225]
        norm_num)
    have hm := hT.mid 1 (by rw [cut_zero, cut_one (by norm_num)]; norm_num)
    rw [cut_zero, cut_one (by norm_num), toeParameter_half] at hm
    obtain ⟨v, hv, _, hb⟩ := hm
    refine ⟨t, v, ht, hv, ?_⟩
    push_cast at hb
    rw [show ((224 : ℝ) + 1) = 225 by norm_num, rpow_half_225] at hb
    have hs : ((224 : ℝ) * (1 / (256 - 0 - 1)) + 1) ^ ((1 : ℝ) / 2) ≤ 1.371 := by
      rw [← Real.sqrt_eq_rpow]
      exact Real.sqrt_le_iff.2 ⟨by norm_num, by norm_num⟩
    rw [abs_le] at hb
    have h2 := hb.2
    have hv' : (v : ℝ) < 9 := by
      norm_num at h2 hs
      linarith
    have : v < 9 := by exact_mod_cast hv'
    omega
  · rw [← Real.sqrt_eq_rpow]
    have : (1 : ℝ) / 17 ≤ Real.sqrt (1 / 255) := Real.le_sqrt_of_sq_le (by norm_num)
    linarith

/-- The hypotheses are met. -/
example : ∃ pow : ℚ → ℚ → ℚ, (∀ y, 1 ≤ y → 1 ≤ pow y (1 / 2)) ∧
    ∀ y : ℚ, 1 ≤ y → y ≤ 225 → |(pow y (1 / 2) : ℝ) - (y : ℝ) ^ ((1 : ℝ) / 2)| ≤ 1 / 1000 := by
  obtain ⟨pow, h⟩ := exists_pow (1 / 1000) (by norm_num)
  refine ⟨pow, fun y hy => ?_, fun y _ _ => ?_⟩
  · have h1 : (1 : ℝ) ≤ (y : ℝ) ^ (((1 / 2 : ℚ)) : ℝ) := Real.one_le_rpow (by exact_mod_cast hy) (by norm_num)
    exact_mod_cast le_trans h1 (h y (1 / 2)).1
  · have := (h y (1 / 2)).2
    rwa [show ((1 / 2 : ℚ) : ℝ) = 1 / 2 by norm_num] at this

/-- **C75 (violated: one index between the points).** If exactly one index is between the black point and the white point, the call has undefined
behaviour for every gamma: a NaN is converted to an integer. -/
theorem C75_one_index_violated (pow : ℚ → ℚ → ℚ) {M n : Nat} {black white g : ℚ} (hn : n ≤ 2 ^ 24) (hb : 0 ≤ black) (hw : 0 ≤ white)
    (h : Spec.cut n white = Spec.cut n black + 1) : gammaTable pow M n black white g = .undefined := by
  unfold gammaTable
  dsimp only
  rw [cutIndex_eq hn hb, cutIndex_eq hn hw, h]
  have hpos : position (Spec.cut n black) ((Spec.cut n black + 1 : Nat) : Int) 0 = none := by
    unfold position; rw [if_pos (by push_cast; omega)]
  have hone : (((Spec.cut n black + 1 : Nat) : Int) - (Spec.cut n black : Int)).toNat = 1 := by omega
  split
  · unfold table
    rw [hone, collect_stop (by unfold toeEntry; rw [hpos]) 1 (by norm_num)]; rfl
  · unfold table
    rw [hone, collect_stop (by unfold powerEntry; rw [hpos]) 1 (by norm_num)]; rfl

/-- The hypotheses are met: 256 values, black point 0, white point 1/256. -/
example : Spec.cut 256 (1 / 256) = Spec.cut 256 0 + 1 := by
  rw [cut_zero]
  unfold Spec.cut
  rw [show (1 / 256 : ℚ) * ((256 : ℕ) : ℚ) = 1 by norm_num, f32_one]
  simp

/-- **C75 (never too short).** Whatever points and gamma are given (also outside of 0 to 1, or in the wrong order), if the call returns a table it
has at least as many values as asked for. -/
theorem C75_never_short (pow : ℚ → ℚ → ℚ) {M n : Nat} {black white g : ℚ} {t : List Nat} (h : gammaTable pow M n black white g = .ok t) :
    n ≤ t.length := by
  unfold gammaTable at h
  dsimp only at h
  split at h <;> · have := table_length h; omega

/-- **C75 (violated: size).** If the white point is to the left of the black point, the table (for a gamma of at least 1) has more values than asked
for: the indices between the points are there twice. -/
theorem C75_size_violated (pow : ℚ → ℚ → ℚ) {M n : Nat} {black white g : ℚ} (hn : n ≤ 2 ^ 24) (hw : 0 ≤ white) (hwb : white ≤ black) (hb : black ≤ 1)
    (hg : 1 ≤ g) : ∃ t, gammaTable pow M n black white g = .ok t ∧ t.length = n + (Spec.cut n black - Spec.cut n white) := by
  unfold gammaTable
  dsimp only
  rw [cutIndex_eq hn hw, cutIndex_eq hn (le_trans hw hwb), if_neg (not_lt.2 hg)]
  have h1 : Spec.cut n white ≤ Spec.cut n black := cut_mono hwb
  have h2 : Spec.cut n white ≤ n := cut_le hn (le_trans hwb hb)
  unfold table
  rw [show ((Spec.cut n white : Int) - (Spec.cut n black : Int)).toNat = 0 by omega]
  refine ⟨_, rfl, ?_⟩
  simp
  omega

/-- The hypotheses are met: white point 0, black point 1: 512 values instead of 256. -/
example : (256 : Nat) + (Spec.cut 256 1 - Spec.cut 256 0) = 512 := by
  rw [cut_zero, cut_one (by norm_num)]

end Verif
