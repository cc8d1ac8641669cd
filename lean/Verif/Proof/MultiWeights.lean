import Verif.Proof.MultiChannel

namespace Verif.Multi
open Blit Flt Spec

/-- Half a unit in the last place, relative. -/
abbrev ulp : ℚ := 1 / 2 ^ 24

theorem f32_rel {x : ℚ} (h : 0 ≤ x) : x * (1 - ulp) ≤ f32 x ∧ f32 x ≤ x * (1 + ulp) := by
  have := f32_bound h
  constructor
  · have e : x * (1 - ulp) = x - x / 2 ^ 24 := by unfold ulp; ring
    rw [e]; exact this.1
  · have e : x * (1 + ulp) = x + x / 2 ^ 24 := by unfold ulp; ring
    rw [e]; exact this.2

/-- `y` equals `x` up to the relative error `e`. -/
def Rel (e x y : ℚ) : Prop := x * (1 - e) ≤ y ∧ y ≤ x * (1 + e)

/-- One more rounding. -/
theorem Rel.round {e x y : ℚ} (hx : 0 ≤ x) (he : 0 ≤ e) (he' : e ≤ 1) (h : Rel e x y) : Rel (e + 2 * ulp) x (f32 y) := by
  have hy : 0 ≤ y := le_trans (mul_nonneg hx (by linarith)) h.1
  have h1 := f32_rel hy
  have hu : ulp = 1 / 16777216 := by unfold ulp; norm_num
  rw [hu] at h1 ⊢
  constructor
  · have : x * (1 - e) * (1 - 1 / 16777216) ≤ y * (1 - 1 / 16777216) := mul_le_mul_of_nonneg_right h.1 (by norm_num)
    nlinarith [mul_nonneg hx he]
  · have : y * (1 + 1 / 16777216) ≤ x * (1 + e) * (1 + 1 / 16777216) := mul_le_mul_of_nonneg_right h.2 (by norm_num)
    nlinarith [mul_nonneg hx he, mul_nonneg hx (by linarith : 0 ≤ 1 - e)]

theorem Rel.mono {e e' x y : ℚ} (hx : 0 ≤ x) (h : Rel e x y) (he : e ≤ e') : Rel e' x y := by
  constructor
  · nlinarith [h.1]
  · nlinarith [h.2]

theorem Rel.scale {e x y c : ℚ} (hc : 0 ≤ c) (h : Rel e x y) : Rel e (c * x) (c * y) := by
  constructor
  · have := mul_le_mul_of_nonneg_left h.1 hc; linarith
  · have := mul_le_mul_of_nonneg_left h.2 hc; linarith

/-- The quotient by a number that is known up to the relative error `e`. -/
theorem Rel.quot {e w x y : ℚ} (hw : 0 ≤ w) (hx : 0 < x) (he : 0 ≤ e) (he' : e ≤ 1 / 2) (h : Rel e x y) :
    Rel (2 * e) (w / x) (w / y) := by
  have hy : 0 < y := lt_of_lt_of_le (mul_pos hx (by linarith)) h.1
  constructor
  · rw [div_mul_eq_mul_div, div_le_div_iff₀ hx hy]
    have h3 : y * (1 - 2 * e) ≤ x := by
      by_cases hc : 1 - 2 * e ≤ 0
      · nlinarith
      · have : y * (1 - 2 * e) ≤ x * (1 + e) * (1 - 2 * e) := mul_le_mul_of_nonneg_right h.2 (by linarith)
        nlinarith [mul_nonneg hx.le he, mul_nonneg hx.le (mul_nonneg he he)]
    nlinarith [mul_le_mul_of_nonneg_left h3 hw]
  · rw [div_mul_eq_mul_div, div_le_div_iff₀ hy hx]
    have h3 : x ≤ (1 + 2 * e) * y := by
      have : (1 + 2 * e) * (x * (1 - e)) ≤ (1 + 2 * e) * y := mul_le_mul_of_nonneg_left h.1 (by linarith)
      nlinarith [mul_nonneg hx.le (mul_nonneg he (by linarith : 0 ≤ 1 - 2 * e))]
    nlinarith [mul_le_mul_of_nonneg_left h3 hw]

theorem exactSum_nonneg : ∀ cs : List Channel, (∀ c ∈ cs, GoodWeight c) → 0 ≤ exactSum cs
  | [], _ => by simp [exactSum]
  | c :: cs, h => by
    obtain ⟨w, h1, h2⟩ := h c (by simp)
    have := exactSum_nonneg cs fun c hc => h c (by simp [hc])
    unfold exactSum at this ⊢
    simp only [List.map_cons, List.sum_cons, h1, Option.getD_some]
    linarith

theorem weightSum_ok : ∀ (cs : List Channel) (k : Nat) (s S : ℚ), (∀ c ∈ cs, GoodWeight c) → 0 ≤ S →
    Rel (2 * k * ulp) S s → k + cs.length ≤ 2 ^ 22 →
    ∃ s', weightSum cs s = some s' ∧ Rel (2 * (k + cs.length : Nat) * ulp) (S + exactSum cs) s'
  | [], k, s, S, _, _, h, _ => ⟨s, rfl, by simpa [exactSum] using h⟩
  | c :: cs, k, s, S, hg, hS, h, hk => by
    obtain ⟨w, hw, hw0⟩ := hg c (by simp)
    have hu : ulp = 1 / 16777216 := by unfold ulp; norm_num
    have hk' : (k : ℚ) ≤ 4194304 := by
      have : k ≤ 4194304 := by simp at hk; omega
      exact_mod_cast this
    have hk0 : (0 : ℚ) ≤ k := by positivity
    have h1 : Rel (2 * k * ulp) (S + w) (s + w) := by
      rw [hu] at h ⊢
      constructor
      · nlinarith [h.1, mul_nonneg hw0 hk0]
      · nlinarith [h.2, mul_nonneg hw0 hk0]
    have h2 := h1.round (by linarith) (by rw [hu]; positivity) (by rw [hu]; linarith)
    have h3 : Rel (2 * (k + 1 : Nat) * ulp) (S + w) (f32 (s + w)) := by
      have e : 2 * ((k + 1 : Nat) : ℚ) * ulp = 2 * k * ulp + 2 * ulp := by push_cast; ring
      rw [e]; exact h2
    obtain ⟨s', i1, i2⟩ := weightSum_ok cs (k + 1) _ _ (fun c hc => hg c (by simp [hc])) (by linarith) h3 (by simp at hk ⊢; omega)
    refine ⟨s', ?_, ?_⟩
    · simp only [weightSum, hw]
      rw [if_neg (by linarith)]
      exact i1
    · have e1 : S + exactSum (c :: cs) = S + w + exactSum cs := by simp [exactSum, hw]; ring
      have e2 : k + (c :: cs).length = k + 1 + cs.length := by simp; omega
      rw [e1, e2]
      exact i2

theorem weightSum_bad : ∀ (cs : List Channel) (s : ℚ), (∃ c ∈ cs, ¬ GoodWeight c) → weightSum cs s = none
  | [], _, h => by obtain ⟨c, hc, _⟩ := h; simp at hc
  | c :: cs, s, h => by
    unfold weightSum
    cases hw : c.weight with
    | none => rfl
    | some w =>
      by_cases hneg : w < 0
      · simp [hneg]
      · simp only [hneg, if_false]
        apply weightSum_bad
        obtain ⟨d, hd, hd'⟩ := h
        rcases List.mem_cons.mp hd with rfl | hd
        · exact absurd ⟨w, hw, by linarith⟩ hd'
        · exact ⟨d, hd, hd'⟩

theorem toInt_ok {z : ℚ} (h0 : 0 ≤ z) (h1 : z ≤ 2 ^ 30) :
    ∃ a, toInt z = some a ∧ 0 ≤ a ∧ |(a : ℚ) - z| ≤ 1 / 2 + (z + 1 / 2) * ulp := by
  have hu : ulp = 1 / 16777216 := by unfold ulp; norm_num
  have h2 := f32_rel (x := z + 1 / 2) (by linarith)
  have h3 : 0 ≤ f32 (z + 1 / 2) := f32_nonneg (by linarith)
  rw [hu] at h2 ⊢
  have h4 : f32 (z + 1 / 2) < 2147483648 := by norm_num at h1; nlinarith [h2.2]
  refine ⟨⌊f32 (z + 1 / 2)⌋, ?_, Int.floor_nonneg.mpr h3, ?_⟩
  · unfold toInt truncInt
    rw [if_pos ⟨by linarith, h4⟩, if_pos h3]
  · have h5 := Int.floor_le (f32 (z + 1 / 2))
    have h6 := Int.lt_floor_add_one (f32 (z + 1 / 2))
    rw [abs_le]
    constructor
    · linarith [h2.1]
    · linarith [h2.2]

/-- What is added when the mean weight is known up to the relative error. -/
theorem amount_weighted {n : Nat} (hn : 0 < n) (hn' : n ≤ 2 ^ 20) {W w mean : ℚ} (hW : 0 < W) (hw : 0 ≤ w) (hwW : w ≤ W)
    (hm : Rel ((2 * n + 2) * ulp) (W / n) mean) (v : UInt8) :
    ∃ a, toInt (f32 (v.toNat * f32 (w / mean))) = some a ∧ Weighted n W w v a := by
  have hu : ulp = 1 / 16777216 := by unfold ulp; norm_num
  have hnq : (0 : ℚ) < n := by exact_mod_cast hn
  have hnq' : (n : ℚ) ≤ 1048576 := by exact_mod_cast hn'
  have hv : (v.toNat : ℚ) ≤ 255 := by
    have := v.toNat_lt
    exact_mod_cast (by omega : v.toNat ≤ 255)
  have hv0 : (0 : ℚ) ≤ v.toNat := by positivity
  set r : ℚ := n * w / W with hr
  have hr0 : 0 ≤ r := by positivity
  have hrn : r ≤ n := by
    rw [hr, div_le_iff₀ hW]
    nlinarith
  have h1 := hm.quot hw (by positivity) (by rw [hu]; positivity) (by rw [hu]; linarith)
  have e : w / (W / n) = r := by rw [hr]; field_simp
  rw [e] at h1
  have h2 := h1.round hr0 (by rw [hu]; positivity) (by rw [hu]; linarith)
  have h3 := (h2.scale hv0).round (mul_nonneg hv0 hr0) (by rw [hu]; positivity) (by rw [hu]; linarith)
  set z := f32 (v.toNat * f32 (w / mean)) with hz
  have h4 : Rel ((4 * n + 8) * ulp) (v.toNat * r) z := by
    refine h3.mono (mul_nonneg hv0 hr0) (le_of_eq ?_)
    ring
  have hvr : v.toNat * r ≤ 255 * 1048576 := mul_le_mul hv (by linarith) hr0 (by norm_num)
  have hvr0 : 0 ≤ v.toNat * r := mul_nonneg hv0 hr0
  rw [hu] at h4
  have he : (4 * (n : ℚ) + 8) * (1 / 16777216) ≤ 1 := by linarith
  have hz0 : 0 ≤ z := le_trans (mul_nonneg hvr0 (by linarith)) h4.1
  have hz1 : z ≤ 2 ^ 30 := by
    refine le_trans h4.2 ?_
    have : v.toNat * r * (1 + (4 * (n : ℚ) + 8) * (1 / 16777216)) ≤ 255 * 1048576 * 2 :=
      mul_le_mul hvr (by linarith) (by positivity) (by norm_num)
    norm_num at this ⊢
    linarith
  obtain ⟨a, ha, ha0, ha1⟩ := toInt_ok hz0 hz1
  refine ⟨a, ha, ha0, ?_⟩
  rw [hu] at ha1
  have hx : z * (1 / 16777216) ≤ v.toNat * r * (2 / 16777216) := by
    have : z ≤ v.toNat * r * 2 := le_trans h4.2 (mul_le_mul_of_nonneg_left (by linarith) hvr0)
    linarith
  have e2 : (v.toNat : ℚ) * r * (4 * n + 12) / 2 ^ 24 = v.toNat * r * ((4 * n + 8) * (1 / 16777216)) + v.toNat * r * (4 / 16777216) := by
    norm_num; ring
  rw [e2]
  rw [abs_le] at ha1 ⊢
  norm_num at ha1 h4 hx ⊢
  constructor
  · linarith [ha1.1, h4.1]
  · linarith [ha1.2, h4.2]

end Verif.Multi
