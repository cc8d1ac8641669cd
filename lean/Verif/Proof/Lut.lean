import Verif.Model.Spline
import Verif.Spec.Lut
import Verif.Proof.Float
import Mathlib.Analysis.SpecialFunctions.Pow.Real
import Mathlib.Analysis.Convex.SpecificFunctions.Basic

namespace Verif.Lut
open Verif.Flt Verif.Czi Verif.Spec

/-! ## The loops -/

theorem collect_ok {α : Type} {f : Nat → Outcome α} {g : Nat → α} : ∀ n, (∀ k < n, f k = .ok (g k)) →
    collect f n = .ok ((List.range n).map g)
  | 0, _ => rfl
  | n + 1, h => by
    rw [collect, collect_ok n (fun k hk => h k (by omega)), h n (by omega), List.range_succ, List.map_append]
    rfl

theorem collect_stop {α : Type} {f : Nat → Outcome α} (h : f 0 = .undefined) : ∀ n, 0 < n → collect f n = .undefined
  | 0, hn => absurd hn (by omega)
  | 1, _ => by rw [collect, collect, h]; rfl
  | n + 2, _ => by rw [collect, collect_stop h (n + 1) (by omega)]; rfl

theorem collect_throws {α : Type} {f : Nat → Outcome α} (h : f 0 = .throws) : ∀ n, 0 < n → collect f n = .throws
  | 0, hn => absurd hn (by omega)
  | 1, _ => by rw [collect, collect, h]; rfl
  | n + 2, _ => by rw [collect, collect_throws h (n + 1) (by omega)]; rfl

theorem collect_length {α : Type} {f : Nat → Outcome α} : ∀ n {l}, collect f n = .ok l → l.length = n
  | 0, l, h => by cases h; rfl
  | n + 1, l, h => by
    rw [collect] at h
    cases hc : collect f n with
    | throws => rw [hc] at h; cases h
    | undefined => rw [hc] at h; cases h
    | ok m =>
      rw [hc] at h
      change (f n).bind _ = _ at h
      cases hf : f n with
      | throws => rw [hf] at h; cases h
      | undefined => rw [hf] at h; cases h
      | ok v =>
        rw [hf] at h
        cases h
        rw [List.length_append, collect_length n hc]; rfl

theorem table_length {n : Nat} {lo hi : Int} {M : Nat} {f : Nat → Outcome Nat} {t : List Nat} (h : table n lo hi M f = .ok t) :
    t.length = lo.toNat + (hi - lo).toNat + ((n : Int) - hi).toNat := by
  unfold table at h
  cases hc : collect f (hi - lo).toNat with
  | throws => rw [hc] at h; cases h
  | undefined => rw [hc] at h; cases h
  | ok m =>
    rw [hc] at h
    cases h
    simp [collect_length _ hc]
    omega

/-- A table whose values in between are all defined. -/
theorem table_ok {n lo hi M : Nat} {f : Nat → Outcome Nat} {g : Nat → Nat} {R : Nat → Nat → Prop} (hlo : lo ≤ hi) (hhi : hi ≤ n)
    (hf : ∀ k, lo + k < hi → f k = .ok (g k)) (hR : ∀ k, lo + k < hi → g k ≤ M ∧ R k (g k)) :
    ∃ t, table n lo hi M f = .ok t ∧ IsTable n lo hi M R t ∧ ∀ k, lo + k < hi → t[lo + k]? = some (g k) := by
  refine ⟨List.replicate lo 0 ++ (List.range (hi - lo)).map g ++ List.replicate (n - hi) M, ?_, ?_⟩
  · unfold table
    have e : ((hi : Int) - (lo : Int)).toNat = hi - lo := by omega
    rw [e, collect_ok (hi - lo) (fun k hk => hf k (by omega))]
    change Outcome.ok _ = _
    have e2 : ((n : Int) - (hi : Int)).toNat = n - hi := by omega
    rw [e2]; rfl
  have hm : ∀ k, lo + k < hi →
      (List.replicate lo 0 ++ (List.range (hi - lo)).map g ++ List.replicate (n - hi) M)[lo + k]? = some (g k) := by
    intro k hk
    rw [List.getElem?_append_left (by simp; omega), List.getElem?_append_right (by simp)]
    have hk' : k < hi - lo := by omega
    simp [hk']
  refine ⟨⟨?_, ?_, ?_, ?_⟩, hm⟩
  · simp; omega
  · intro i hi'
    rw [List.getElem?_append_left (by simp; omega), List.getElem?_append_left (by simpa using hi')]
    simp [hi']
  · intro i h1 h2
    rw [List.getElem?_append_right (by simp; omega), List.getElem?_replicate, if_pos (by simp; omega)]
  · intro k hk
    exact ⟨g k, hm k hk, (hR k hk).1, (hR k hk).2⟩

theorem table_ascending {n lo hi M : Nat} {R : Nat → Nat → Prop} {t : List Nat} {g : Nat → Nat} (h : IsTable n lo hi M R t) (hlo : lo ≤ hi)
    (hhi : hi ≤ n) (hg : ∀ k, lo + k < hi → t[lo + k]? = some (g k)) (hmono : ∀ k k', k ≤ k' → lo + k' < hi → g k ≤ g k') : Ascending t := by
  intro i j v v' hij hv hv'
  have hj : j < n := by
    rw [← h.size]
    by_contra hc
    rw [List.getElem?_eq_none (by omega)] at hv'
    cases hv'
  have val : ∀ i < n, ∃ w, t[i]? = some w ∧ w ≤ M := by
    intro i hi'
    by_cases h1 : i < lo
    · exact ⟨0, h.dark i h1, Nat.zero_le _⟩
    · by_cases h2 : i < hi
      · obtain ⟨w, hw, hM, _⟩ := h.mid (i - lo) (by omega)
        exact ⟨w, by rwa [show lo + (i - lo) = i by omega] at hw, hM⟩
      · exact ⟨M, h.bright i (by omega) hi', le_refl _⟩
  by_cases h1 : i < lo
  · rw [h.dark i h1] at hv; cases hv; exact Nat.zero_le _
  · by_cases h3 : j < hi
    · have e1 := hg (i - lo) (by omega)
      have e2 := hg (j - lo) (by omega)
      rw [show lo + (i - lo) = i by omega, hv] at e1
      rw [show lo + (j - lo) = j by omega, hv'] at e2
      cases e1; cases e2
      exact hmono _ _ (by omega) (by omega)
    · rw [h.bright j (by omega) hj] at hv'
      cases hv'
      obtain ⟨w, hw, hM⟩ := val i (by omega)
      rw [hw] at hv; cases hv; exact hM

/-! ## The indices of the points -/

theorem f32_nat {n : Nat} (h : n ≤ 2 ^ 24) : f32 (n : ℚ) = n := by
  have := f32_int n (by rw [abs_of_nonneg (by omega)]; exact_mod_cast h)
  exact_mod_cast this

theorem cutIndex_eq {n : Nat} {p : ℚ} (hn : n ≤ 2 ^ 24) (hp : 0 ≤ p) : cutIndex n p = (Spec.cut n p : Int) := by
  unfold cutIndex Spec.cut truncInt
  rw [f32_nat hn]
  have h0 : 0 ≤ f32 (p * n) := f32_nonneg (mul_nonneg hp (by positivity))
  rw [if_pos h0, Int.toNat_of_nonneg (Int.floor_nonneg.2 h0)]

theorem cut_le {n : Nat} {p : ℚ} (hn : n ≤ 2 ^ 24) (hp : p ≤ 1) : Spec.cut n p ≤ n := by
  unfold Spec.cut
  have h : f32 (p * n) ≤ n := by
    calc f32 (p * n) ≤ f32 n := f32_mono (mul_le_of_le_one_left (by positivity) hp)
      _ = n := f32_nat hn
  have : ⌊f32 (p * n)⌋ ≤ (n : Int) := by
    have := Int.floor_mono h
    simpa using this
  omega

theorem cut_mono {n : Nat} {p q : ℚ} (h : p ≤ q) : Spec.cut n p ≤ Spec.cut n q := by
  unfold Spec.cut
  have : ⌊f32 (p * n)⌋ ≤ ⌊f32 (q * n)⌋ := Int.floor_mono (f32_mono (mul_le_mul_of_nonneg_right h (by positivity)))
  omega

theorem le_cut {n i : Nat} {p : ℚ} (hn : i ≤ 2 ^ 24) (h : (i : ℚ) ≤ p * n) : i ≤ Spec.cut n p := by
  unfold Spec.cut
  have h1 : (i : ℚ) ≤ f32 (p * n) := by rw [← f32_nat hn]; exact f32_mono h
  have : (i : Int) ≤ ⌊f32 (p * n)⌋ := Int.le_floor.2 (by exact_mod_cast h1)
  omega

theorem cut_le_of {n i : Nat} {p : ℚ} (hn : i ≤ 2 ^ 24) (h : p * n ≤ (i : ℚ)) : Spec.cut n p ≤ i := by
  unfold Spec.cut
  have h1 : f32 (p * n) ≤ (i : ℚ) := by rw [← f32_nat hn]; exact f32_mono h
  have : ⌊f32 (p * n)⌋ ≤ (i : Int) := by
    have := Int.floor_mono h1
    simpa using this
  omega

/-! ## The values in between -/

/-- The rounded position of value number `k`. -/
def pos (lo hi k : Nat) : ℚ := f32 ((k : ℚ) / ((hi : ℚ) - lo - 1))

theorem position_eq {lo hi k : Nat} (hk : lo + k < hi) (h1 : hi ≠ lo + 1) (hn : hi ≤ 2 ^ 24) :
    position lo hi k = some (pos lo hi k) := by
  unfold position pos
  rw [if_neg (by omega), f32_nat (by omega)]
  have e : (((hi : Int) - (lo : Int) - 1 : Int) : ℚ) = ((hi - lo - 1 : Nat) : ℚ) := by
    rw [show ((hi : Int) - (lo : Int) - 1 : Int) = ((hi - lo - 1 : Nat) : Int) by omega]; rfl
  rw [e, f32_nat (by omega)]
  congr 3
  rw [Nat.cast_sub (by omega), Nat.cast_sub (by omega)]; simp

theorem pos_bounds {lo hi k : Nat} (hk : lo + k < hi) (h1 : hi ≠ lo + 1) : 0 ≤ pos lo hi k ∧ pos lo hi k ≤ 1 := by
  have hd : (0 : ℚ) < (hi : ℚ) - lo - 1 := by
    have : (lo : ℚ) + 1 < hi := by exact_mod_cast (by omega : lo + 1 < hi)
    linarith
  have hk' : (k : ℚ) ≤ (hi : ℚ) - lo - 1 := by
    have : (lo : ℚ) + k + 1 ≤ hi := by exact_mod_cast (by omega : lo + k + 1 ≤ hi)
    linarith
  constructor
  · exact f32_nonneg (by positivity)
  · have : f32 ((k : ℚ) / ((hi : ℚ) - lo - 1)) ≤ f32 ((1 : ℤ) : ℚ) := f32_mono (by rw [div_le_iff₀ hd]; push_cast; linarith)
    rw [f32_int 1 (by norm_num), Int.cast_one] at this
    exact this

theorem pos_mono {lo hi k k' : Nat} (h : k ≤ k') (hk : lo + k' < hi) : pos lo hi k ≤ pos lo hi k' := by
  refine f32_mono (div_le_div_of_nonneg_right (by exact_mod_cast h) ?_)
  have : (lo : ℚ) + 1 ≤ hi := by exact_mod_cast (by omega : lo + 1 ≤ hi)
  linarith

theorem pos_zero (lo hi : Nat) : pos lo hi 0 = 0 := by
  unfold pos
  rw [show ((0 : Nat) : ℚ) / ((hi : ℚ) - lo - 1) = ((0 : ℤ) : ℚ) by simp, f32_int 0 (by norm_num)]; rfl

theorem pos_last {lo hi : Nat} (h1 : lo + 1 < hi) : pos lo hi (hi - lo - 1) = 1 := by
  unfold pos
  have hd : (0 : ℚ) < (hi : ℚ) - lo - 1 := by
    have : (lo : ℚ) + 1 < hi := by exact_mod_cast h1
    linarith
  have e : ((hi - lo - 1 : Nat) : ℚ) = (hi : ℚ) - lo - 1 := by
    rw [Nat.cast_sub (by omega), Nat.cast_sub (by omega)]; simp
  rw [e, div_self hd.ne']
  have := f32_int 1 (by norm_num)
  exact_mod_cast this

theorem clampTo_le (M : Nat) (v : ℚ) : clampTo M v ≤ M := by
  unfold clampTo truncInt
  split
  · exact le_refl _
  · split
    · exact Nat.zero_le _
    · rename_i h1 h2
      rw [if_pos (not_lt.1 h2)]
      have : ⌊v⌋ ≤ (M : Int) := by
        have := Int.floor_mono (not_lt.1 h1)
        simpa using this
      omega

theorem clampTo_mono (M : Nat) {v w : ℚ} (h : v ≤ w) : clampTo M v ≤ clampTo M w := by
  by_cases hw : (M : ℚ) < w
  · have e : clampTo M w = M := by unfold clampTo; rw [if_pos hw]
    rw [e]; exact clampTo_le M v
  · by_cases hv : v < 0
    · have e : clampTo M v = 0 := by
        unfold clampTo
        rw [if_neg (by have := (Nat.cast_nonneg M : (0 : ℚ) ≤ M); linarith), if_pos hv]
      rw [e]; exact Nat.zero_le _
    · unfold clampTo truncInt
      rw [if_neg (by linarith), if_neg hv, if_pos (by linarith), if_neg hw, if_neg (by linarith), if_pos (by linarith)]
      exact Int.toNat_le_toNat (Int.floor_mono h)

/-- The error of restricting and truncating a value near a number of the range. -/
theorem clampTo_near (M : Nat) (v : ℚ) {y e : ℝ} (hy : 0 ≤ y) (hM : y ≤ M) (he : |(v : ℝ) - y| ≤ e) :
    |(clampTo M v : ℝ) - y| ≤ 1 + e := by
  have he0 : 0 ≤ e := le_trans (abs_nonneg _) he
  rw [abs_le] at he ⊢
  unfold clampTo truncInt
  split
  · rename_i h
    have h' : (M : ℝ) < v := by exact_mod_cast h
    constructor <;> linarith
  · split
    · rename_i h
      have h' : (v : ℝ) < 0 := by exact_mod_cast h
      push_cast
      constructor <;> linarith
    · rename_i h1 h2
      rw [if_pos (not_lt.1 h2)]
      have hz : 0 ≤ ⌊v⌋ := Int.floor_nonneg.2 (not_lt.1 h2)
      have e1 : ((⌊v⌋.toNat : ℕ) : ℝ) = ((⌊v⌋ : ℤ) : ℝ) := by
        have : ((⌊v⌋.toNat : ℕ) : ℤ) = ⌊v⌋ := Int.toNat_of_nonneg hz
        exact_mod_cast congrArg (Int.cast : ℤ → ℝ) this
      rw [e1]
      have f1 : ((⌊v⌋ : ℤ) : ℝ) ≤ v := by exact_mod_cast Int.floor_le v
      have f2 : (v : ℝ) < ((⌊v⌋ : ℤ) : ℝ) + 1 := by exact_mod_cast Int.lt_floor_add_one v
      constructor <;> linarith

/-- On `[0,1]` a power with an exponent of at least 1 grows at most as fast as the exponent says. -/
theorem rpow_lipschitz {u v g : ℝ} (hu : 0 ≤ u) (huv : u ≤ v) (hv : v ≤ 1) (hg : 1 ≤ g) : v ^ g - u ^ g ≤ g * (v - u) := by
  rcases eq_or_lt_of_le (le_trans hu huv) with h0 | h0
  · have : u = 0 := by linarith
    rw [this, ← h0]; simp
  have hs : -1 ≤ (u - v) / v := by rw [le_div_iff₀ h0]; linarith
  have hb := one_add_mul_self_le_rpow_one_add hs hg
  have e : u = v * (1 + (u - v) / v) := by field_simp; ring
  have e' : u ^ g = v ^ g * (1 + (u - v) / v) ^ g := by
    conv => lhs; rw [e]
    exact Real.mul_rpow h0.le (by linarith)
  have hvg : v ^ g = v * v ^ (g - 1) := by
    rw [mul_comm, ← Real.rpow_add_one h0.ne']; congr 1; ring
  have h1 : v ^ (g - 1) ≤ 1 := Real.rpow_le_one h0.le hv (by linarith)
  have h2 : 0 ≤ v ^ (g - 1) := Real.rpow_nonneg h0.le _
  have h3 : v ^ g * (1 + g * ((u - v) / v)) ≤ u ^ g := by
    rw [e']; exact mul_le_mul_of_nonneg_left hb (Real.rpow_nonneg h0.le _)
  have h4 : v ^ g * (1 + g * ((u - v) / v)) = v ^ g - g * (v - u) * v ^ (g - 1) := by
    rw [hvg]; field_simp; ring
  have h5 : g * (v - u) * v ^ (g - 1) ≤ g * (v - u) := mul_le_of_le_one_right (mul_nonneg (by linarith) (by linarith)) h1
  linarith

theorem rpow_near {u v g : ℝ} (hu : 0 ≤ u ∧ u ≤ 1) (hv : 0 ≤ v ∧ v ≤ 1) (hg : 1 ≤ g) : |v ^ g - u ^ g| ≤ g * |v - u| := by
  rcases le_total u v with h | h
  · rw [abs_of_nonneg (by linarith : 0 ≤ v - u), abs_of_nonneg (sub_nonneg.2 (Real.rpow_le_rpow hu.1 h (by linarith)))]
    exact rpow_lipschitz hu.1 h hv.2 hg
  · rw [abs_of_nonpos (by linarith : v - u ≤ 0), abs_of_nonpos (sub_nonpos.2 (Real.rpow_le_rpow hv.1 h (by linarith)))]
    have := rpow_lipschitz hv.1 h hu.2 hg
    linarith

theorem powerEntry_eq (pow : ℚ → ℚ → ℚ) (M : Nat) (g : ℚ) {lo hi k : Nat} (hk : lo + k < hi) (h1 : hi ≠ lo + 1) (hn : hi ≤ 2 ^ 24) :
    powerEntry pow M g lo hi k = .ok (clampTo M (f32 (M * pow (pos lo hi k) g))) := by
  unfold powerEntry
  rw [position_eq hk h1 hn]

/-- The accuracy of a value for an exponent of at least 1. -/
theorem power_accuracy (pow : ℚ → ℚ → ℚ) (M : Nat) (g : ℚ) (hg : 1 ≤ g) (δ : ℝ)
    (hp : ∀ x : ℚ, 0 ≤ x → x ≤ 1 → |(pow x g : ℝ) - (x : ℝ) ^ (g : ℝ)| ≤ δ) {lo hi k : Nat} (hk : lo + k < hi) (h1 : hi ≠ lo + 1) :
    |(clampTo M (f32 (M * pow (pos lo hi k) g)) : ℝ) - M * ((k : ℝ) / ((hi : ℝ) - lo - 1)) ^ (g : ℝ)| ≤
      1 + M * (δ + (g + 1 + δ) / 2 ^ 24) := by
  have hd : (0 : ℚ) < (hi : ℚ) - lo - 1 := by
    have : (lo : ℚ) + 1 < hi := by exact_mod_cast (by omega : lo + 1 < hi)
    linarith
  have hk' : (k : ℚ) ≤ (hi : ℚ) - lo - 1 := by
    have : (lo : ℚ) + k + 1 ≤ hi := by exact_mod_cast (by omega : lo + k + 1 ≤ hi)
    linarith
  set q : ℚ := (k : ℚ) / ((hi : ℚ) - lo - 1) with hq
  have hqr : ((q : ℚ) : ℝ) = (k : ℝ) / ((hi : ℝ) - lo - 1) := by rw [hq]; push_cast; ring
  have hq0 : 0 ≤ q := by positivity
  have hq1 : q ≤ 1 := by rw [hq, div_le_iff₀ hd]; linarith
  have hg' : (1 : ℝ) ≤ (g : ℝ) := by exact_mod_cast hg
  obtain ⟨hx0, hx1⟩ := pos_bounds hk h1
  have hx0' : (0 : ℝ) ≤ (pos lo hi k : ℝ) := by exact_mod_cast hx0
  have hx1' : (pos lo hi k : ℝ) ≤ 1 := by exact_mod_cast hx1
  have hq0' : (0 : ℝ) ≤ (q : ℝ) := by exact_mod_cast hq0
  have hq1' : (q : ℝ) ≤ 1 := by exact_mod_cast hq1
  rw [← hqr]
  have hM : (0 : ℝ) ≤ M := Nat.cast_nonneg M
  have hqg0 : 0 ≤ (q : ℝ) ^ (g : ℝ) := Real.rpow_nonneg hq0' _
  have hqg1 : (q : ℝ) ^ (g : ℝ) ≤ 1 := Real.rpow_le_one hq0' hq1' (by linarith)
  have hxg0 : 0 ≤ (pos lo hi k : ℝ) ^ (g : ℝ) := Real.rpow_nonneg hx0' _
  have hxg1 : (pos lo hi k : ℝ) ^ (g : ℝ) ≤ 1 := Real.rpow_le_one hx0' hx1' (by linarith)
  refine clampTo_near M _ (mul_nonneg hM hqg0) (mul_le_of_le_one_right hM hqg1) ?_
  have e1 : |(pos lo hi k : ℝ) - q| ≤ 1 / 2 ^ 24 := by
    have h := f32_err q
    rw [abs_of_nonneg hq0] at h
    have h' : |pos lo hi k - q| ≤ q / 2 ^ 24 := h
    have h'' : |pos lo hi k - q| ≤ 1 / 2 ^ 24 := le_trans h' (by gcongr)
    have h3 : ((|pos lo hi k - q| : ℚ) : ℝ) ≤ ((1 / 2 ^ 24 : ℚ) : ℝ) := Rat.cast_le.2 h''
    push_cast at h3
    exact h3
  have e2 : |(pos lo hi k : ℝ) ^ (g : ℝ) - (q : ℝ) ^ (g : ℝ)| ≤ g / 2 ^ 24 := by
    refine le_trans (rpow_near ⟨hq0', hq1'⟩ ⟨hx0', hx1'⟩ hg') ?_
    calc (g : ℝ) * |(pos lo hi k : ℝ) - q| ≤ g * (1 / 2 ^ 24) := mul_le_mul_of_nonneg_left e1 (by linarith)
      _ = g / 2 ^ 24 := by ring
  have e3 := hp _ hx0 hx1
  have e4 : |(pow (pos lo hi k) g : ℝ)| ≤ 1 + δ := by
    rw [abs_le] at e3 ⊢
    constructor <;> linarith [e3.1, e3.2]
  have e5 : |((f32 (M * pow (pos lo hi k) g) : ℚ) : ℝ) - M * (pow (pos lo hi k) g : ℝ)| ≤ M * ((1 + δ) / 2 ^ 24) := by
    have h := f32_err (M * pow (pos lo hi k) g)
    have h' : |((f32 (M * pow (pos lo hi k) g) : ℚ) : ℝ) - M * (pow (pos lo hi k) g : ℝ)| ≤ |(M : ℝ) * (pow (pos lo hi k) g : ℝ)| / 2 ^ 24 := by
      exact_mod_cast h
    refine le_trans h' ?_
    rw [abs_mul, abs_of_nonneg hM, mul_div_assoc]
    gcongr
  have e6 : |(M : ℝ) * (pow (pos lo hi k) g : ℝ) - M * (q : ℝ) ^ (g : ℝ)| ≤ M * (δ + g / 2 ^ 24) := by
    rw [← mul_sub, abs_mul, abs_of_nonneg hM]
    refine mul_le_mul_of_nonneg_left ?_ hM
    have := abs_sub_le (pow (pos lo hi k) g : ℝ) ((pos lo hi k : ℝ) ^ (g : ℝ)) ((q : ℝ) ^ (g : ℝ))
    linarith
  have := abs_sub_le ((f32 (M * pow (pos lo hi k) g) : ℚ) : ℝ) (M * (pow (pos lo hi k) g : ℝ)) (M * (q : ℝ) ^ (g : ℝ))
  calc _ ≤ M * ((1 + δ) / 2 ^ 24) + M * (δ + g / 2 ^ 24) := by linarith
    _ = _ := by ring

end Verif.Lut
