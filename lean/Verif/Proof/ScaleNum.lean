import Verif.Spec.Scale
import Verif.Proof.Scale

namespace Verif.Scale
open Blit Flt Czi Bitonal Spec

/-- Relative error of an operation on `double`. -/
def u : ℚ := 1 / 2 ^ 53

theorem f64_mul (x : ℚ) : ∃ e, |e| ≤ u ∧ f64 x = x * (1 + e) := by
  by_cases hx : x = 0
  · subst hx
    exact ⟨0, by norm_num [u], by simp [f64, fround_zero]⟩
  · refine ⟨(f64 x - x) / x, ?_, by field_simp; ring⟩
    have h := f64_err x
    rw [abs_div, div_le_iff₀ (abs_pos.mpr hx)]
    unfold u
    linarith

theorem prod_err {a b A B : ℚ} (ha : |a| ≤ A) (hb : |b| ≤ B) : |(1 + a) * (1 + b) - 1| ≤ A + B + A * B := by
  have e : (1 + a) * (1 + b) - 1 = a + b + a * b := by ring
  rw [e]
  have h1 := abs_add_le (a + b) (a * b)
  have h2 := abs_add_le a b
  have h3 : |a * b| ≤ A * B := by
    rw [abs_mul]
    exact mul_le_mul ha hb (abs_nonneg _) (le_trans (abs_nonneg _) ha)
  linarith

theorem prod3_err {a b c : ℚ} (ha : |a| ≤ u) (hb : |b| ≤ u) (hc : |c| ≤ u) : |(1 + a) * (1 + b) * (1 + c) - 1| ≤ 4 * u := by
  have h1 := prod_err ha hb
  have h2 := prod_err (a := (1 + a) * (1 + b) - 1) (b := c) h1 hc
  have e : (1 + ((1 + a) * (1 + b) - 1)) * (1 + c) - 1 = (1 + a) * (1 + b) * (1 + c) - 1 := by ring
  rw [e] at h2
  refine le_trans h2 ?_
  norm_num [u]

/-- The form of both computations: three operations and an addition. -/
theorem chain_err {q q' d : ℚ} (hq : ∃ e, |e| ≤ 4 * u ∧ q' = q * (1 + e)) :
    |f64 (q' + d) - (q + d)| ≤ (6 * |q| + |d|) * u := by
  obtain ⟨e, he, rfl⟩ := hq
  have h := f64_err (q * (1 + e) + d)
  have h1 : |q * (1 + e) + d| ≤ |q| * (1 + 4 * u) + |d| := by
    refine le_trans (abs_add_le _ _) ?_
    rw [abs_mul]
    have : |1 + e| ≤ 1 + 4 * u := by
      have := abs_add_le 1 e
      rw [abs_one] at this
      linarith
    have := mul_le_mul_of_nonneg_left this (abs_nonneg q)
    linarith
  have h2 : |q * (1 + e) + d - (q + d)| ≤ |q| * (4 * u) := by
    have : q * (1 + e) + d - (q + d) = q * e := by ring
    rw [this, abs_mul]
    exact mul_le_mul_of_nonneg_left he (abs_nonneg q)
  have h3 := abs_add_le (f64 (q * (1 + e) + d) - (q * (1 + e) + d)) (q * (1 + e) + d - (q + d))
  have e3 : f64 (q * (1 + e) + d) - (q * (1 + e) + d) + (q * (1 + e) + d - (q + d)) = f64 (q * (1 + e) + d) - (q + d) := by ring
  rw [e3] at h3
  have h4 : |q * (1 + e) + d| / 2 ^ 53 ≤ (|q| * (1 + 4 * u) + |d|) * u := by
    unfold u at h1 ⊢
    rw [div_eq_mul_one_div]
    exact mul_le_mul_of_nonneg_right h1 (by norm_num)
  have h5 : (|q| * (1 + 4 * u) + |d|) * u ≤ (2 * |q| + |d|) * u := by
    apply mul_le_mul_of_nonneg_right _ (by norm_num [u])
    have : (1 + 4 * u) ≤ 2 := by norm_num [u]
    have := mul_le_mul_of_nonneg_left this (abs_nonneg q)
    linarith
  have h6 : (6 * |q| + |d|) * u = (2 * |q| + |d|) * u + |q| * (4 * u) := by ring
  rw [h6]
  exact le_trans h3 (add_le_add (le_trans h (le_trans h4 h5)) h2)

theorem quot_form (a dw sw : ℚ) : ∃ e, |e| ≤ 4 * u ∧ f64 (f64 (f64 a * dw) / sw) = a * dw / sw * (1 + e) := by
  obtain ⟨e1, h1, q1⟩ := f64_mul a
  obtain ⟨e2, h2, q2⟩ := f64_mul (f64 a * dw)
  obtain ⟨e3, h3, q3⟩ := f64_mul (f64 (f64 a * dw) / sw)
  refine ⟨(1 + e1) * (1 + e2) * (1 + e3) - 1, prod3_err h1 h2 h3, ?_⟩
  rw [q3, q2, q1]
  ring

theorem prod_form (t r : ℚ) : ∃ e, |e| ≤ 4 * u ∧ f64 (f64 t * f64 r) = t * r * (1 + e) := by
  obtain ⟨e1, h1, q1⟩ := f64_mul t
  obtain ⟨e2, h2, q2⟩ := f64_mul r
  obtain ⟨e3, h3, q3⟩ := f64_mul (f64 t * f64 r)
  refine ⟨(1 + e1) * (1 + e2) * (1 + e3) - 1, prod3_err h1 h2 h3, ?_⟩
  rw [q3, q2, q1]
  ring

theorem bound_div {x y b : ℚ} (hy : 0 < y) (h : |x| ≤ b * y) : |x / y| ≤ b := by
  rw [abs_div, abs_of_pos hy, div_le_iff₀ hy]
  exact h

theorem lo_err {a : Axis} (h : Moderate a) : |a.lo - inversePosition a 0| ≤ tolerance := by
  have hq : |(0 - a.sp) * a.dw / a.sw| ≤ 2 ^ 29 := by
    apply bound_div h.sw.1
    rw [abs_mul, zero_sub, abs_neg, abs_of_pos h.dw.1]
    refine le_trans ?_ h.magnification
    apply mul_le_mul_of_nonneg_right _ h.dw.1.le
    have : (0 : ℚ) ≤ a.srcN := by positivity
    linarith
  have := chain_err (d := a.dp) (quot_form (0 - a.sp) a.dw a.sw)
  have e : (0 - a.sp) * a.dw / a.sw + a.dp = inversePosition a 0 := by unfold inversePosition; ring
  rw [e] at this
  refine le_trans this ?_
  have hd := h.dp
  have : (6 * |(0 - a.sp) * a.dw / a.sw| + |a.dp|) * u ≤ (6 * 2 ^ 29 + 2 ^ 29) * u := by
    apply mul_le_mul_of_nonneg_right _ (by norm_num [u])
    linarith
  refine le_trans this ?_
  norm_num [u, tolerance]

theorem hi_err {a : Axis} (h : Moderate a) : |a.hi - inversePosition a (a.srcN - 1)| ≤ tolerance := by
  have hc : ((((a.srcN : Int) - 1 : Int) : ℚ) - a.sp) = (a.srcN : ℚ) - 1 - a.sp := by push_cast; ring
  have hn : (1 : ℚ) ≤ a.srcN := by exact_mod_cast h.src.1
  have hq : |((a.srcN : ℚ) - 1 - a.sp) * a.dw / a.sw| ≤ 2 ^ 29 := by
    apply bound_div h.sw.1
    rw [abs_mul, abs_of_pos h.dw.1]
    refine le_trans ?_ h.magnification
    apply mul_le_mul_of_nonneg_right _ h.dw.1.le
    have h1 := abs_sub (a.srcN - 1 : ℚ) a.sp
    rw [abs_of_nonneg (a := (a.srcN - 1 : ℚ)) (by linarith)] at h1
    linarith
  unfold Axis.hi
  rw [hc]
  have := chain_err (d := a.dp) (quot_form ((a.srcN : ℚ) - 1 - a.sp) a.dw a.sw)
  have e : ((a.srcN : ℚ) - 1 - a.sp) * a.dw / a.sw + a.dp = inversePosition a (a.srcN - 1) := by unfold inversePosition; ring
  rw [e] at this
  refine le_trans this ?_
  have hd := h.dp
  have : (6 * |((a.srcN : ℚ) - 1 - a.sp) * a.dw / a.sw| + |a.dp|) * u ≤ (6 * 2 ^ 29 + 2 ^ 29) * u := by
    apply mul_le_mul_of_nonneg_right _ (by norm_num [u])
    linarith
  refine le_trans this ?_
  norm_num [u, tolerance]

theorem castInt_ok {q : ℚ} (h : |q| ≤ 2 ^ 30 + 2) : castInt q = some (truncInt q) := by
  unfold castInt
  rw [abs_le] at h
  rw [if_pos]
  norm_num at h
  constructor <;> linarith [h.1, h.2]

theorem end_err {a : Axis} (h : Moderate a) : |f64 (a.dp + a.dw) - (a.dp + a.dw)| ≤ tolerance := by
  refine le_trans (f64_err _) ?_
  have h1 : |a.dp + a.dw| ≤ 2 ^ 30 := by
    have := abs_add_le a.dp a.dw
    rw [abs_of_pos h.dw.1] at this
    have := h.dp; have := h.dw.2
    norm_num at *
    linarith
  rw [div_le_iff₀ (by norm_num)]
  refine le_trans h1 ?_
  norm_num [tolerance]

theorem range_some {a : Axis} (h : Moderate a) :
    a.range = some
      ((max ⌈a.lo⌉ (max (truncInt a.dp) 0)).toNat,
       (min ⌈a.hi⌉ (min (truncInt (f64 (a.dp + a.dw))) ((a.dstN : Int) - 1)) - max ⌈a.lo⌉ (max (truncInt a.dp) 0) + 1).toNat) := by
  have hinv : ∀ p, |(p - a.sp) * a.dw / a.sw| ≤ 2 ^ 29 → |inversePosition a p| ≤ 2 ^ 30 := by
    intro p hp
    unfold inversePosition
    have := abs_add_le a.dp ((p - a.sp) * a.dw / a.sw)
    have := h.dp
    norm_num at *
    linarith
  have hn : (1 : ℚ) ≤ a.srcN := by exact_mod_cast h.src.1
  have h1 : |inversePosition a 0| ≤ 2 ^ 30 := by
    apply hinv
    apply bound_div h.sw.1
    rw [abs_mul, zero_sub, abs_neg, abs_of_pos h.dw.1]
    refine le_trans ?_ h.magnification
    apply mul_le_mul_of_nonneg_right _ h.dw.1.le
    linarith
  have h2 : |inversePosition a (a.srcN - 1)| ≤ 2 ^ 30 := by
    apply hinv
    apply bound_div h.sw.1
    rw [abs_mul, abs_of_pos h.dw.1]
    refine le_trans ?_ h.magnification
    apply mul_le_mul_of_nonneg_right _ h.dw.1.le
    have h1 := abs_sub (a.srcN - 1 : ℚ) a.sp
    rw [abs_of_nonneg (a := (a.srcN - 1 : ℚ)) (by linarith)] at h1
    linarith
  have ceil_ok : ∀ q p : ℚ, |q - p| ≤ tolerance → |p| ≤ 2 ^ 30 → castInt ⌈q⌉ = some ⌈q⌉ := by
    intro q p hqp hp
    have h3 := Int.le_ceil q
    have h4 := Int.ceil_lt_add_one q
    rw [abs_le] at hqp hp
    have ht : tolerance = 1 / 65536 := rfl
    rw [castInt_ok]
    · congr 1
      unfold truncInt
      split <;> simp
    · rw [abs_le]
      constructor <;> linarith [hqp.1, hqp.2, hp.1, hp.2]
  have hdp : castInt a.dp = some (truncInt a.dp) := castInt_ok (by have := h.dp; norm_num at *; linarith)
  have hend : castInt (f64 (a.dp + a.dw)) = some (truncInt (f64 (a.dp + a.dw))) := by
    apply castInt_ok
    have h5 := end_err h
    have h6 : |a.dp + a.dw| ≤ 2 ^ 30 := by
      have := abs_add_le a.dp a.dw
      rw [abs_of_pos h.dw.1] at this
      have := h.dp; have := h.dw.2
      norm_num at *
      linarith
    have ht : tolerance = 1 / 65536 := rfl
    have := abs_sub_abs_le_abs_sub (f64 (a.dp + a.dw)) (a.dp + a.dw)
    linarith
  unfold Axis.range
  rw [if_neg (by rintro (h0 | h0); exacts [h.sw.1.ne' h0, h.dw.1.ne' h0]), hdp, hend, ceil_ok _ _ (lo_err h) h1, ceil_ok _ _ (hi_err h) h2]
  rfl

/-- Is column `x` painted? -/
def visited (a : Axis) (x : Nat) : Prop := ∃ r, a.range = some r ∧ r.1 ≤ x ∧ x < r.1 + r.2

theorem visited_iff {a : Axis} (h : Moderate a) (x : Nat) :
    visited a x ↔ a.lo ≤ x ∧ truncInt a.dp ≤ x ∧ (x : ℚ) < a.hi + 1 ∧ (x : Int) ≤ truncInt (f64 (a.dp + a.dw)) ∧ x < a.dstN := by
  unfold visited
  rw [range_some h]
  have hlo : ⌈a.lo⌉ ≤ (x : Int) ↔ a.lo ≤ x := by rw [Int.ceil_le]; simp
  have hhi : (x : Int) ≤ ⌈a.hi⌉ ↔ (x : ℚ) < a.hi + 1 := by
    rw [← Int.sub_one_lt_iff, Int.lt_ceil]
    push_cast
    constructor <;> intro h <;> linarith
  rw [← hlo, ← hhi]
  constructor
  · rintro ⟨r, hr, h1, h2⟩
    cases hr
    dsimp only at h1 h2
    omega
  · rintro ⟨h1, h2, h3, h4, h5⟩
    refine ⟨_, rfl, ?_, ?_⟩ <;> dsimp only <;> omega

theorem visits_ok {a : Axis} (h : Moderate a) : Visits a (visited a) := by
  have hl := lo_err h
  have hh := hi_err h
  have he := end_err h
  rw [abs_le] at hl hh he
  constructor
  · intro x h1 h2 h3 h4 h5
    rw [visited_iff h]
    refine ⟨by linarith [hl.2], ?_, by linarith [hh.1], ?_, h1⟩
    · unfold truncInt
      split
      · have := Int.floor_le a.dp
        have : ((⌊a.dp⌋ : Int) : ℚ) ≤ ((x : Int) : ℚ) := by push_cast; linarith
        exact_mod_cast this
      · rw [Int.ceil_le]; push_cast; exact h2
    · have hx : f64 ((x : Int) : ℚ) = (x : Int) := f64_int x (by
        have := h.dst
        rw [abs_of_nonneg (by omega)]
        norm_num at *
        omega)
      have hm : ((x : Int) : ℚ) ≤ f64 (a.dp + a.dw) := by
        rw [← hx]
        apply f64_mono
        push_cast; exact h3.le
      unfold truncInt
      rw [if_pos (le_trans (by positivity) hm)]
      rw [Int.le_floor]
      exact hm
  · intro x hx
    rw [visited_iff h] at hx
    obtain ⟨h1, h2, h3, h4, h5⟩ := hx
    refine ⟨h5, ?_, ?_, by linarith [hl.1], by linarith [hh.2]⟩
    · unfold truncInt at h2
      split at h2
      · have h6 := Int.lt_floor_add_one a.dp
        have : ((⌊a.dp⌋ : Int) : ℚ) ≤ ((x : Int) : ℚ) := by exact_mod_cast h2
        push_cast at this
        linarith
      · rename_i hneg
        have : (0 : ℚ) ≤ x := by positivity
        linarith
    · have h6 : ((x : Int) : ℚ) ≤ (truncInt (f64 (a.dp + a.dw)) : ℚ) := by exact_mod_cast h4
      push_cast at h6
      have h7 : (truncInt (f64 (a.dp + a.dw)) : ℚ) ≤ max 0 (f64 (a.dp + a.dw)) := by
        unfold truncInt
        split
        · exact le_trans (Int.floor_le _) (le_max_right _ _)
        · rename_i hneg
          refine le_trans ?_ (le_max_left _ _)
          have : ⌈f64 (a.dp + a.dw)⌉ ≤ 0 := Int.ceil_le.mpr (by push_cast; linarith)
          exact_mod_cast this
      have hx0 : (0 : ℚ) ≤ x := by positivity
      rcases le_total 0 (f64 (a.dp + a.dw)) with h8 | h8
      · rw [max_eq_right h8] at h7
        exact Or.inl (by linarith [he.2])
      · rw [max_eq_left h8] at h7
        have hz : (x : ℚ) = 0 := le_antisymm (by linarith) hx0
        refine Or.inr ⟨by exact_mod_cast hz, ?_⟩
        have h9 : -1 < f64 (a.dp + a.dw) := by
          unfold truncInt at h4
          split at h4
          · linarith
          · have h10 : (0 : Int) ≤ ⌈f64 (a.dp + a.dw)⌉ := le_trans (by omega) h4
            have h11 := Int.ceil_lt_add_one (f64 (a.dp + a.dw))
            have h12 : (0 : ℚ) ≤ (⌈f64 (a.dp + a.dw)⌉ : ℚ) := by exact_mod_cast h10
            linarith
        linarith [he.2]

theorem lround_near (q : ℚ) : |((lround q : Int) : ℚ) - q| ≤ 1 / 2 := by
  unfold lround
  rw [abs_le]
  split
  · have h1 := Int.floor_le (q + 1 / 2)
    have h2 := Int.lt_floor_add_one (q + 1 / 2)
    constructor <;> linarith
  · have h1 := Int.le_ceil (q - 1 / 2)
    have h2 := Int.ceil_lt_add_one (q - 1 / 2)
    constructor <;> linarith

theorem position_err {a : Axis} (h : Moderate a) {x : Nat} (hx : |((x : ℚ) - a.dp) * a.sw / a.dw| ≤ 2 ^ 32) :
    |a.position x - exactPosition a x| ≤ tolerance := by
  have := chain_err (d := a.sp) (prod_form ((x : ℚ) - a.dp) (a.sw / a.dw))
  have e : ((x : ℚ) - a.dp) * (a.sw / a.dw) + a.sp = exactPosition a x := by unfold exactPosition; ring
  rw [e] at this
  have e2 : a.position x = f64 (f64 (f64 ((x : ℚ) - a.dp) * f64 (a.sw / a.dw)) + a.sp) := by
    unfold Axis.position
    first | rfl | (push_cast; rfl)
  rw [e2]
  refine le_trans this ?_
  have e3 : ((x : ℚ) - a.dp) * (a.sw / a.dw) = ((x : ℚ) - a.dp) * a.sw / a.dw := by ring
  rw [e3]
  have hd := h.sp
  have : (6 * |((x : ℚ) - a.dp) * a.sw / a.dw| + |a.sp|) * u ≤ (6 * 2 ^ 32 + 2 ^ 29) * u := by
    apply mul_le_mul_of_nonneg_right _ (by norm_num [u])
    linarith
  refine le_trans this ?_
  norm_num [u, tolerance]

/-- A painted pixel is within the region of the destination, hence its position in the source is of moderate size. -/
theorem visited_size {a : Axis} (h : Moderate a) {x : Nat} (hx : visited a x) : |((x : ℚ) - a.dp) * a.sw / a.dw| ≤ 2 ^ 32 := by
  obtain ⟨-, h2, h3, -, -⟩ := (visits_ok h).sound x hx
  have ht : tolerance = 1 / 65536 := rfl
  have hr : a.sw / a.dw ≤ 2 ^ 29 := by rw [div_le_iff₀ h.dw.1]; exact h.reduction
  have hr0 : 0 < a.sw / a.dw := div_pos h.sw.1 h.dw.1
  have e3 : ((x : ℚ) - a.dp) * a.sw / a.dw = ((x : ℚ) - a.dp) * (a.sw / a.dw) := by ring
  have e4 : a.dw * (a.sw / a.dw) = a.sw := mul_div_cancel₀ a.sw h.dw.1.ne'
  rw [e3, abs_le]
  have hsw := h.sw.2
  have hlow : -1 ≤ (x : ℚ) - a.dp := by linarith
  have hup : (x : ℚ) - a.dp ≤ a.dw + 2 := by
    rcases h3 with h3 | ⟨h3, h4⟩
    · linarith
    · subst h3; push_cast; linarith
  constructor
  · have := mul_le_mul_of_nonneg_right hlow hr0.le
    linarith
  · have := mul_le_mul_of_nonneg_right hup hr0.le
    have e5 : (a.dw + 2) * (a.sw / a.dw) = a.sw + 2 * (a.sw / a.dw) := by rw [add_mul, e4]
    rw [e5] at this
    linarith

theorem picks_of_err {a : Axis} (hn : 0 < a.srcN) {x : Nat} {p ε : ℚ} (h1 : |a.position x - p| ≤ ε) (hε : ε ≤ 1 / 2) :
    Picks a.srcN p (2 * ε) (a.source x).toNat := by
  have h2 := lround_near (a.position x)
  rw [abs_le] at h1 h2
  unfold Picks Axis.source
  generalize lround (a.position x) = l at *
  generalize a.position x = q at *
  by_cases hl : l < 0
  · rw [if_pos hl]
    refine ⟨by simpa using hn, fun j hj => ?_⟩
    have h3 : (l : ℚ) ≤ -1 := by exact_mod_cast (by omega : l ≤ -1)
    have h4 : (0 : ℚ) ≤ j := by positivity
    have h5 : p ≤ 0 := by linarith
    have e : ((Int.toNat 0 : Nat) : ℚ) = 0 := by simp
    rw [e, abs_of_nonneg (a := (0 : ℚ) - p) (by linarith), abs_of_nonneg (a := (j : ℚ) - p) (by linarith)]
    linarith
  rw [if_neg hl]
  by_cases hl2 : l ≥ (a.srcN : Int)
  · rw [if_pos hl2]
    refine ⟨by omega, fun j hj => ?_⟩
    have h3 : ((a.srcN : Int) : ℚ) ≤ (l : ℚ) := by exact_mod_cast hl2
    have e : ((((a.srcN : Int) - 1).toNat : Nat) : ℚ) = (a.srcN : ℚ) - 1 := by
      have : ((a.srcN : Int) - 1).toNat = a.srcN - 1 := by omega
      rw [this, Nat.cast_sub hn]; simp
    have h4 : (j : ℚ) ≤ (a.srcN : ℚ) - 1 := by
      have : ((j + 1 : Nat) : ℚ) ≤ a.srcN := by exact_mod_cast hj
      push_cast at this; linarith
    push_cast at h3
    rw [e, abs_of_nonpos (a := (a.srcN : ℚ) - 1 - p) (by linarith), abs_of_nonpos (a := (j : ℚ) - p) (by linarith)]
    linarith
  · rw [if_neg hl2]
    refine ⟨by omega, fun j hj => ?_⟩
    have e : ((l.toNat : Nat) : ℚ) = (l : ℚ) := by
      have : ((l.toNat : Nat) : Int) = l := by omega
      exact_mod_cast this
    rw [e]
    by_cases hjl : (j : Int) = l
    · have : (j : ℚ) = (l : ℚ) := by exact_mod_cast hjl
      rw [this]
      linarith [h1.1, h1.2]
    · have h3 : |(l : ℚ) - p| ≤ 1 / 2 + ε := by rw [abs_le]; constructor <;> linarith
      rcases lt_or_gt_of_ne hjl with h4 | h4
      · have h5 : ((j : Int) : ℚ) + 1 ≤ l := by exact_mod_cast h4
        push_cast at h5
        have := neg_abs_le ((j : ℚ) - p)
        linarith
      · have h5 : (l : ℚ) + 1 ≤ ((j : Int) : ℚ) := by exact_mod_cast h4
        push_cast at h5
        have := le_abs_self ((j : ℚ) - p)
        linarith

theorem picks_ok {a : Axis} (h : Moderate a) {x : Nat} (hx : visited a x) :
    Picks a.srcN (exactPosition a x) (2 * tolerance) (a.source x).toNat :=
  picks_of_err h.src.1 (position_err h (visited_size h hx)) (by norm_num [tolerance])

/-! ### Scaling a whole bitmap -/

/-- The axis of `NNResize` without ROIs. -/
def wholeAxis (n m : Nat) : Axis := ⟨n, m, 0, n, 0, m⟩

theorem whole_moderate {n m : Nat} (hn : 0 < n) (hm : 0 < m) (hn' : n ≤ 2 ^ 20) (hm' : m ≤ 2 ^ 20) : Moderate (wholeAxis n m) := by
  have q1 : (0 : ℚ) < n := by exact_mod_cast hn
  have q2 : (0 : ℚ) < m := by exact_mod_cast hm
  have q3 : (n : ℚ) ≤ 2 ^ 20 := by exact_mod_cast hn'
  have q4 : (m : ℚ) ≤ 2 ^ 20 := by exact_mod_cast hm'
  have q5 : (1 : ℚ) ≤ n := by exact_mod_cast hn
  have q6 : (1 : ℚ) ≤ m := by exact_mod_cast hm
  have n1 : n ≤ 2 ^ 29 := le_trans hn' (by norm_num)
  have n2 : m ≤ 2 ^ 29 := le_trans hm' (by norm_num)
  refine ⟨⟨hn, n1⟩, n2, ⟨q1, ?_⟩, ⟨q2, ?_⟩, ?_, ?_, ?_, ?_⟩ <;> simp only [wholeAxis, abs_zero, zero_add]
  · norm_num at *; linarith
  · norm_num at *; linarith
  · norm_num
  · norm_num
  · have h7 : (2 : ℚ) ^ 20 * 1 ≤ 2 ^ 29 * m := mul_le_mul (by norm_num) q6 (by norm_num) (by norm_num)
    linarith
  · have := mul_le_mul_of_nonneg_left q4 q1.le
    norm_num at *; linarith

theorem whole_lo (n m : Nat) : (wholeAxis n m).lo = 0 := by
  simp [wholeAxis, Axis.lo, f64, fround_zero]

theorem whole_hi_err {n m : Nat} (hn : 0 < n) (hm' : m ≤ 2 ^ 20) :
    |(wholeAxis n m).hi - ((n : ℚ) - 1) * m / n| ≤ 1 / 2 ^ 30 := by
  have q1 : (0 : ℚ) < n := by exact_mod_cast hn
  have q4 : (m : ℚ) ≤ 2 ^ 20 := by exact_mod_cast hm'
  have q5 : (1 : ℚ) ≤ n := by exact_mod_cast hn
  have q7 : (0 : ℚ) ≤ m := by positivity
  have hc : ((((n : Int) - 1 : Int) : ℚ) - 0) = (n : ℚ) - 1 := by push_cast; ring
  unfold Axis.hi wholeAxis
  dsimp only
  rw [hc]
  have := chain_err (d := 0) (quot_form ((n : ℚ) - 1) m n)
  rw [add_zero ((n - 1 : ℚ) * m / n)] at this
  refine le_trans this ?_
  have hq : |((n : ℚ) - 1) * m / n| ≤ 2 ^ 20 := by
    apply bound_div q1
    rw [abs_mul, abs_of_nonneg (by linarith), abs_of_nonneg q7]
    nlinarith
  have : (6 * |((n : ℚ) - 1) * m / n| + |(0 : ℚ)|) * u ≤ (6 * 2 ^ 20 + 0) * u := by
    apply mul_le_mul_of_nonneg_right _ (by norm_num [u])
    rw [abs_zero]
    linarith
  refine le_trans this ?_
  norm_num [u]

theorem whole_visited {n m : Nat} (hn : 0 < n) (hm : 0 < m) (hn' : n ≤ 2 ^ 20) (hm' : m ≤ 2 ^ 20) (x : Nat) :
    visited (wholeAxis n m) x ↔ x < m ∧ (x : ℚ) < (wholeAxis n m).hi + 1 := by
  rw [visited_iff (whole_moderate hn hm hn' hm'), whole_lo]
  have e1 : truncInt (wholeAxis n m).dp = 0 := by simp [wholeAxis, truncInt]
  have e2 : truncInt (f64 ((wholeAxis n m).dp + (wholeAxis n m).dw)) = m := by
    have h : f64 (((m : Int) : ℚ)) = ((m : Int) : ℚ) := f64_int m (by
      rw [abs_of_nonneg (by omega)]
      exact_mod_cast le_trans hm' (by norm_num))
    have : (wholeAxis n m).dp + (wholeAxis n m).dw = ((m : Int) : ℚ) := by simp [wholeAxis]
    rw [this, h]
    unfold truncInt
    rw [if_pos (by positivity)]
    simp
  rw [e1, e2]
  have e3 : (wholeAxis n m).dstN = m := rfl
  rw [e3]
  constructor
  · rintro ⟨-, -, h3, -, h5⟩; exact ⟨h5, h3⟩
  · rintro ⟨h5, h3⟩; exact ⟨by positivity, by omega, h3, by omega, h5⟩

/-- All pixels are painted if the destination is less than twice as large. -/
theorem whole_all {n m : Nat} (hn : 0 < n) (hn' : n ≤ 2 ^ 20) (hm' : m ≤ 2 ^ 20) (h : m < 2 * n) {x : Nat} (hx : x < m) :
    visited (wholeAxis n m) x := by
  rw [whole_visited hn (by omega) hn' hm']
  refine ⟨hx, ?_⟩
  have h1 := whole_hi_err hn hm'
  rw [abs_le] at h1
  have q1 : (0 : ℚ) < n := by exact_mod_cast hn
  have q3 : (n : ℚ) ≤ 2 ^ 20 := by exact_mod_cast hn'
  have q4 : (m : ℚ) + 1 ≤ 2 * n := by exact_mod_cast h
  have q5 : (x : ℚ) + 1 ≤ m := by exact_mod_cast hx
  have q6 : ((n : ℚ) - 1) * m / n = m - m / n := by field_simp
  have q7 : (m : ℚ) / n ≤ 2 - 1 / 2 ^ 20 := by
    rw [div_le_iff₀ q1]
    have : (1 / 2 ^ 20 : ℚ) * n ≤ 1 := by
      rw [one_div, inv_mul_le_iff₀ (by norm_num)]; linarith
    linarith
  rw [q6] at h1
  norm_num at *
  linarith

/-- The last pixel is never painted if it is at least twice as large. -/
theorem whole_last {n m : Nat} (hn : 0 < n) (hn' : n ≤ 2 ^ 20) (hm' : m ≤ 2 ^ 20) (h : 2 * n ≤ m) :
    ¬ visited (wholeAxis n m) (m - 1) := by
  rw [whole_visited hn (by omega) hn' hm']
  rintro ⟨-, h2⟩
  have q1 : (0 : ℚ) < n := by exact_mod_cast hn
  have q4 : 2 * (n : ℚ) ≤ m := by exact_mod_cast h
  have e : ((m - 1 : Nat) : ℚ) = (m : ℚ) - 1 := by rw [Nat.cast_sub (by omega)]; simp
  rw [e] at h2
  have hb : ∀ k : Int, |k| ≤ 2 ^ 40 → f64 (k : ℚ) = k := fun k hk => f64_int k (le_trans hk (by norm_num))
  have hnm : n * m ≤ 2 ^ 20 * 2 ^ 20 := Nat.mul_le_mul hn' hm'
  have b1 : |((n : Int) - 1)| ≤ 2 ^ 40 := by
    rw [abs_of_nonneg (by omega)]
    have : ((n : Int)) ≤ 2 ^ 20 := by exact_mod_cast hn'
    norm_num at *; omega
  have b2 : |((n : Int) - 1) * m| ≤ 2 ^ 40 := by
    rw [abs_of_nonneg (by apply mul_nonneg <;> omega)]
    have h3 : ((n : Int) - 1) * m ≤ n * m := by apply mul_le_mul_of_nonneg_right <;> omega
    have h4 : ((n : Int)) * m ≤ 2 ^ 20 * 2 ^ 20 := by exact_mod_cast hnm
    norm_num at *; omega
  have b3 : |(m : Int) - 2| ≤ 2 ^ 40 := by
    rw [abs_of_nonneg (by omega)]
    have : ((m : Int)) ≤ 2 ^ 20 := by exact_mod_cast hm'
    norm_num at *; omega
  have h3 : (wholeAxis n m).hi ≤ m - 2 := by
    unfold Axis.hi wholeAxis
    dsimp only
    rw [sub_zero, hb _ b1]
    have e2 : ((((n : Int) - 1 : Int) : ℚ)) * (m : ℚ) = ((((n : Int) - 1) * m : Int) : ℚ) := by push_cast; ring
    rw [e2, hb _ b2, add_zero]
    have h5 : f64 (((((n : Int) - 1) * m : Int) : ℚ) / n) ≤ (((m : Int) - 2 : Int) : ℚ) := by
      rw [← hb _ b3]
      apply f64_mono
      rw [div_le_iff₀ q1]
      push_cast
      nlinarith
    have h6 := f64_mono h5
    rw [hb _ b3] at h6
    push_cast at h6 ⊢
    exact h6
  linarith

theorem whole_picks {n m : Nat} (hn : 0 < n) (hn' : n ≤ 2 ^ 20) (hm' : m ≤ 2 ^ 20) {x : Nat} (hx : x < m) :
    Picks n ((x : ℚ) * n / m) 0 ((wholeAxis n m).source x).toNat := by
  have q1 : (0 : ℚ) < n := by exact_mod_cast hn
  have q2 : (0 : ℚ) < m := by exact_mod_cast (by omega : 0 < m)
  have q3 : (n : ℚ) ≤ 2 ^ 20 := by exact_mod_cast hn'
  have q4 : (m : ℚ) ≤ 2 ^ 20 := by exact_mod_cast hm'
  have q5 : (x : ℚ) ≤ m := by exact_mod_cast hx.le
  have q6 : (0 : ℚ) ≤ x := by positivity
  have h := chain_err (d := 0) (prod_form ((x : ℚ) - 0) ((n : ℚ) / m))
  have e1 : (wholeAxis n m).position x = f64 (f64 (f64 ((x : ℚ) - 0) * f64 ((n : ℚ) / m)) + 0) := rfl
  have e2 : ((x : ℚ) - 0) * ((n : ℚ) / m) = x * n / m := by ring
  rw [← e1, e2, add_zero] at h
  have hq : |(x : ℚ) * n / m| ≤ 2 ^ 20 := by
    apply bound_div q2
    rw [abs_mul, abs_of_nonneg q6, abs_of_nonneg q1.le]
    nlinarith
  have h1 : |(wholeAxis n m).position x - (x : ℚ) * n / m| ≤ 1 / 2 ^ 30 := by
    refine le_trans h ?_
    have : (6 * |(x : ℚ) * n / m| + |(0 : ℚ)|) * u ≤ (6 * 2 ^ 20 + 0) * u := by
      apply mul_le_mul_of_nonneg_right _ (by norm_num [u])
      rw [abs_zero]
      linarith
    refine le_trans this ?_
    norm_num [u]
  have h2 := picks_of_err (a := wholeAxis n m) hn h1 (by norm_num)
  refine ⟨h2.1, fun j hj => ?_⟩
  have h3 := h2.2 j hj
  -- both distances are multiples of 1/m
  generalize ((wholeAxis n m).source x).toNat = i at *
  have key : ∀ k : Nat, |(k : ℚ) - (x : ℚ) * n / m| = ((|(k : Int) * m - x * n| : Int) : ℚ) / m := by
    intro k
    have : (k : ℚ) - (x : ℚ) * n / m = (((k : Int) * m - x * n : Int) : ℚ) / m := by
      push_cast; field_simp
    rw [this, abs_div, abs_of_pos q2, Int.cast_abs]
  rw [key, key] at h3 ⊢
  rw [add_zero]
  apply div_le_div_of_nonneg_right _ q2.le
  rw [Int.cast_le]
  have h4 : ((|(i : Int) * m - x * n| : Int) : ℚ) ≤ ((|(j : Int) * m - x * n| : Int) : ℚ) + 2 * (1 / 2 ^ 30) * m := by
    have := mul_le_mul_of_nonneg_right h3 q2.le
    rw [add_mul, div_mul_cancel₀ _ q2.ne', div_mul_cancel₀ _ q2.ne'] at this
    exact this
  have h5 : ((|(i : Int) * m - x * n| : Int) : ℚ) < ((|(j : Int) * m - x * n| + 1 : Int) : ℚ) := by
    refine lt_of_le_of_lt h4 ?_
    push_cast
    have h6 : 2 * (1 / 2 ^ 30 : ℚ) * m ≤ 2 * (1 / 2 ^ 30) * 2 ^ 20 := mul_le_mul_of_nonneg_left q4 (by norm_num)
    have h7 : 2 * (1 / 2 ^ 30 : ℚ) * 2 ^ 20 < 1 := by norm_num
    linarith
  rw [Int.cast_lt] at h5
  omega

end Verif.Scale
