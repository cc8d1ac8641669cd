import Verif.Model.ScalingAccessor
import Verif.Proof.ScaleNum
import Verif.Spec.ScalingAccessor

/-! # Rounding errors of the regions computed by the scaling tile accessor -/

namespace Verif.Accessor
open Blit Flt Scale Spec

theorem u_pos : (0 : ℚ) < u := by norm_num [u]

theorem frac_err {q : ℚ} (h0 : 0 ≤ q) (h1 : q ≤ 1) : |f64 q - q| ≤ u := by
  refine le_trans (f64_err q) ?_
  rw [abs_of_nonneg h0]
  unfold u
  rw [div_le_div_iff_of_pos_right (by norm_num)]
  exact h1

/-- Position: `f64 (f64 α * n)`. -/
theorem pos_err {α n : ℚ} (h0 : 0 ≤ α) (h1 : α ≤ 1) (hn : 0 ≤ n) : |f64 (f64 α * n) - α * n| ≤ 3 * u * n := by
  have e1 := frac_err h0 h1
  have e2 := f64_err (f64 α * n)
  have e3 : |f64 α * n - α * n| ≤ u * n := by
    rw [← sub_mul, abs_mul, abs_of_nonneg hn]
    exact mul_le_mul_of_nonneg_right e1 hn
  have e4 : |f64 α * n| ≤ (1 + u) * n := by
    rw [abs_mul, abs_of_nonneg hn]
    apply mul_le_mul_of_nonneg_right _ hn
    rw [abs_le] at e1 ⊢
    have := u_pos
    constructor <;> linarith [e1.1, e1.2]
  have e5 : |f64 α * n| / 2 ^ 53 ≤ 2 * u * n := by
    have h : |f64 α * n| * u ≤ (1 + u) * n * u := mul_le_mul_of_nonneg_right e4 u_pos.le
    have h2 : (1 + u) * n * u ≤ 2 * u * n := by
      have : (1 + u) ≤ 2 := by norm_num [u]
      have := mul_le_mul_of_nonneg_right this (mul_nonneg hn u_pos.le)
      linarith
    have h3 : |f64 α * n| / 2 ^ 53 = |f64 α * n| * u := by unfold u; ring
    rw [h3]
    exact le_trans h h2
  have e6 := abs_sub_le (f64 (f64 α * n)) (f64 α * n) (α * n)
  linarith

/-- Extent: `f64 (f64 (f64 β - f64 α) * n)`. -/
theorem ext_err {α β n : ℚ} (h0 : 0 ≤ α) (h1 : α ≤ β) (h2 : β ≤ 1) (hn : 0 ≤ n) :
    |f64 (f64 (f64 β - f64 α) * n) - (β - α) * n| ≤ 6 * u * n := by
  have ea := frac_err h0 (h1.trans h2)
  have eb := frac_err (h0.trans h1) h2
  have hu := u_pos
  have e1 : |f64 β - f64 α - (β - α)| ≤ 2 * u := by
    rw [abs_le] at ea eb ⊢
    constructor <;> linarith [ea.1, ea.2, eb.1, eb.2]
  have e2 : |f64 β - f64 α| ≤ 1 + 2 * u := by
    rw [abs_le] at e1 ⊢
    constructor <;> linarith [e1.1, e1.2]
  have e3 : |f64 (f64 β - f64 α) - (f64 β - f64 α)| ≤ 2 * u := by
    refine le_trans (f64_err _) ?_
    have h3 : |f64 β - f64 α| / 2 ^ 53 = |f64 β - f64 α| * u := by unfold u; ring
    rw [h3]
    refine mul_le_mul_of_nonneg_right (le_trans e2 ?_) hu.le
    norm_num [u]
  have e4 : |f64 (f64 β - f64 α) - (β - α)| ≤ 4 * u := by
    rw [abs_le] at e1 e3 ⊢
    constructor <;> linarith [e1.1, e1.2, e3.1, e3.2]
  have e5 : |f64 (f64 β - f64 α) * n - (β - α) * n| ≤ 4 * u * n := by
    rw [← sub_mul, abs_mul, abs_of_nonneg hn]
    exact mul_le_mul_of_nonneg_right e4 hn
  have e6 : |f64 (f64 β - f64 α) * n| ≤ 2 * n := by
    rw [abs_mul, abs_of_nonneg hn]
    apply mul_le_mul_of_nonneg_right _ hn
    have h4 : 4 * u ≤ 1 := by norm_num [u]
    rw [abs_le] at e4 ⊢
    constructor <;> linarith [e4.1, e4.2]
  have e7 : |f64 (f64 (f64 β - f64 α) * n) - f64 (f64 β - f64 α) * n| ≤ 2 * u * n := by
    refine le_trans (f64_err _) ?_
    have h3 : |f64 (f64 β - f64 α) * n| / 2 ^ 53 = |f64 (f64 β - f64 α) * n| * u := by unfold u; ring
    rw [h3]
    have := mul_le_mul_of_nonneg_right e6 hu.le
    linarith
  have e8 := abs_sub_le (f64 (f64 (f64 β - f64 α) * n)) (f64 (f64 β - f64 α) * n) ((β - α) * n)
  linarith

/-- Sub-block and request along one axis: not empty, at most `2^19` pixels, the sub-block is not stored enlarged, the zoom is
between `1/1024` and 2. -/
structure GoodAxis (lx lw pw ix iw rx rw : Int) (dstN : Nat) : Prop where
  logical : 0 < lw ∧ lw ≤ 2 ^ 19
  stored : 0 < pw ∧ pw ≤ lw
  roi : 0 < rw ∧ rw ≤ 2 ^ 19
  dst : 0 < dstN ∧ (dstN : Int) ≤ 2 * rw ∧ rw ≤ 2 ^ 10 * dstN
  begin : ix = max lx rx
  extent : 0 < iw ∧ ix + iw = min (lx + lw) (rx + rw)

/-- Relative error of the extents. -/
def eps : ℚ := 6 * u * 2 ^ 20

/-- The computed region differs little from the exact one. -/
structure NearAxis (a : Axis) (sp0 sw0 dp0 dw0 pw dstN : ℚ) : Prop where
  sp : |a.sp - sp0| ≤ 3 * u * pw
  sw : |a.sw - sw0| ≤ eps * sw0
  dp : |a.dp - dp0| ≤ 3 * u * dstN
  dw : |a.dw - dw0| ≤ eps * dw0

theorem blt_near {lx lw pw ix iw rx rw : Int} {srcN dstN : Nat} (h : GoodAxis lx lw pw ix iw rx rw dstN) :
    NearAxis (bltAxis lx lw pw ix iw rx rw srcN dstN)
      ((ix - lx : ℚ) / lw * pw) ((iw : ℚ) / lw * pw) ((ix - rx : ℚ) / rw * dstN) ((iw : ℚ) / rw * dstN) pw dstN := by
  obtain ⟨⟨l1, l2⟩, ⟨p1, p2⟩, ⟨r1, r2⟩, ⟨d1, d2, d3⟩, hx, ⟨w1, w2⟩⟩ := h
  have L1 : (0 : ℚ) < lw := by exact_mod_cast l1
  have L2 : (lw : ℚ) ≤ 2 ^ 20 := le_trans (by exact_mod_cast l2 : (lw : ℚ) ≤ 2 ^ 19) (by norm_num)
  have P1 : (0 : ℚ) < pw := by exact_mod_cast p1
  have R1 : (0 : ℚ) < rw := by exact_mod_cast r1
  have R2 : (rw : ℚ) ≤ 2 ^ 20 := le_trans (by exact_mod_cast r2 : (rw : ℚ) ≤ 2 ^ 19) (by norm_num)
  have D1 : (0 : ℚ) < dstN := by exact_mod_cast d1
  have W1 : (1 : ℚ) ≤ iw := by exact_mod_cast w1
  have a0 : (0 : ℚ) ≤ ((ix - lx : Int) : ℚ) := by exact_mod_cast (by omega : (0 : Int) ≤ ix - lx)
  have a1 : ((ix + iw - lx : Int) : ℚ) ≤ lw := by exact_mod_cast (by omega : ix + iw - lx ≤ lw)
  have b0 : (0 : ℚ) ≤ ((ix - rx : Int) : ℚ) := by exact_mod_cast (by omega : (0 : Int) ≤ ix - rx)
  have b1 : ((ix + iw - rx : Int) : ℚ) ≤ rw := by exact_mod_cast (by omega : ix + iw - rx ≤ rw)
  have ai : ((ix + iw - lx : Int) : ℚ) = ((ix - lx : Int) : ℚ) + iw := by push_cast; ring
  have bi : ((ix + iw - rx : Int) : ℚ) = ((ix - rx : Int) : ℚ) + iw := by push_cast; ring
  have α0 : 0 ≤ ((ix - lx : Int) : ℚ) / lw := div_nonneg a0 L1.le
  have αβ : ((ix - lx : Int) : ℚ) / lw ≤ ((ix + iw - lx : Int) : ℚ) / lw := by
    apply div_le_div_of_nonneg_right _ L1.le; linarith
  have β1 : ((ix + iw - lx : Int) : ℚ) / lw ≤ 1 := by rw [div_le_one L1]; exact a1
  have γ0 : 0 ≤ ((ix - rx : Int) : ℚ) / rw := div_nonneg b0 R1.le
  have γδ : ((ix - rx : Int) : ℚ) / rw ≤ ((ix + iw - rx : Int) : ℚ) / rw := by
    apply div_le_div_of_nonneg_right _ R1.le; linarith
  have δ1 : ((ix + iw - rx : Int) : ℚ) / rw ≤ 1 := by rw [div_le_one R1]; exact b1
  have hε : ∀ n m : ℚ, 0 < n → 0 < m → m ≤ 2 ^ 20 → 6 * u * n ≤ eps * ((iw : ℚ) / m * n) := by
    intro n m hn hm hm2
    have h1 : 1 ≤ 2 ^ 20 * ((iw : ℚ) / m) := by
      rw [mul_div_assoc', le_div_iff₀ hm]
      nlinarith
    have h2 : 6 * u * n * 1 ≤ 6 * u * n * (2 ^ 20 * ((iw : ℚ) / m)) := by
      apply mul_le_mul_of_nonneg_left h1
      exact mul_nonneg (mul_nonneg (by norm_num) u_pos.le) hn.le
    calc 6 * u * n = 6 * u * n * 1 := by ring
      _ ≤ 6 * u * n * (2 ^ 20 * ((iw : ℚ) / m)) := h2
      _ = eps * ((iw : ℚ) / m * n) := by unfold eps; ring
  refine ⟨?_, ?_, ?_, ?_⟩
  · have := pos_err α0 (αβ.trans β1) P1.le
    simp only [bltAxis]
    push_cast at this ⊢
    exact this
  · have h1 := ext_err α0 αβ β1 P1.le
    have e : ((ix + iw - lx : Int) : ℚ) / lw - ((ix - lx : Int) : ℚ) / lw = (iw : ℚ) / lw := by rw [ai]; ring
    rw [e] at h1
    exact le_trans h1 (hε pw lw P1 L1 L2)
  · have := pos_err γ0 (γδ.trans δ1) D1.le
    simp only [bltAxis]
    push_cast at this ⊢
    exact this
  · have h1 := ext_err γ0 γδ δ1 D1.le
    have e : ((ix + iw - rx : Int) : ℚ) / rw - ((ix - rx : Int) : ℚ) / rw = (iw : ℚ) / rw := by rw [bi]; ring
    rw [e] at h1
    exact le_trans h1 (hε dstN rw D1 R1 R2)

/-- The ratio of two numbers with relative error `eps`. -/
theorem ratio_err {a b a0 b0 : ℚ} (ha0 : 0 < a0) (hb0 : 0 < b0) (ha : |a - a0| ≤ eps * a0) (hb : |b - b0| ≤ eps * b0) :
    0 < a ∧ 0 < b ∧ |a / b - a0 / b0| ≤ 3 * eps * (a0 / b0) := by
  have he : eps ≤ 1 / 100 := by norm_num [eps, u]
  have he0 : 0 < eps := by norm_num [eps, u]
  rw [abs_le] at ha hb
  have hea : eps * a0 ≤ 1 / 100 * a0 := mul_le_mul_of_nonneg_right he ha0.le
  have heb : eps * b0 ≤ 1 / 100 * b0 := mul_le_mul_of_nonneg_right he hb0.le
  have pa : 0 < a := by linarith [ha.1]
  have pb : 0 < b := by linarith [hb.1]
  refine ⟨pa, pb, ?_⟩
  have e : a / b - a0 / b0 = (a * b0 - a0 * b) / (b * b0) := by field_simp
  have hr : 3 * eps * (a0 / b0) = (3 * eps * a0 * b) / (b * b0) := by field_simp
  rw [e, hr, abs_div, abs_of_pos (mul_pos pb hb0)]
  apply div_le_div_of_nonneg_right _ (mul_pos pb hb0).le
  have h1 : a * b0 - a0 * b = (a - a0) * b0 - a0 * (b - b0) := by ring
  rw [h1]
  have h2 : |(a - a0) * b0| ≤ eps * a0 * b0 := by
    rw [abs_mul, abs_of_pos hb0]
    exact mul_le_mul_of_nonneg_right (abs_le.mpr ha) hb0.le
  have h3 : |a0 * (b - b0)| ≤ a0 * (eps * b0) := by
    rw [abs_mul, abs_of_pos ha0]
    exact mul_le_mul_of_nonneg_left (abs_le.mpr hb) ha0.le
  have h4 := abs_sub ((a - a0) * b0) (a0 * (b - b0))
  have h5 : 2 * (eps * a0 * b0) ≤ 3 * eps * a0 * b := by
    have h6 : 99 / 100 * b0 ≤ b := by linarith [hb.1]
    have h7 : 0 ≤ 3 * eps * a0 := by positivity
    have h8 := mul_le_mul_of_nonneg_left h6 h7
    have h9 : 0 ≤ eps * a0 * b0 := by positivity
    have h10 : 3 * eps * a0 * (99 / 100 * b0) = 297 / 100 * (eps * a0 * b0) := by ring
    rw [h10] at h8
    linarith
  have h11 : a0 * (eps * b0) = eps * a0 * b0 := by ring
  rw [h11] at h3
  linarith

/-- The exact region, and what follows from its size. -/
structure ExactAxis (sp0 sw0 dp0 dw0 pw n : ℚ) : Prop where
  stored : 0 < pw ∧ pw ≤ 2 ^ 20
  dst : 0 < n ∧ n ≤ 2 ^ 20
  sp : 0 ≤ sp0 ∧ sp0 ≤ pw
  sw : 0 < sw0 ∧ sw0 ≤ pw
  dp : 0 ≤ dp0 ∧ dp0 ≤ n
  dw : 0 < dw0 ∧ dw0 ≤ n
  ratio : sw0 / dw0 ≤ 2 ^ 10
  inv : pw * (dw0 / sw0) ≤ 2 ^ 20
  ratio' : n * (sw0 / dw0) ≤ 2 ^ 20

theorem blt_exact {lx lw pw ix iw rx rw : Int} {dstN : Nat} (h : GoodAxis lx lw pw ix iw rx rw dstN) :
    ExactAxis ((ix - lx : ℚ) / lw * pw) ((iw : ℚ) / lw * pw) ((ix - rx : ℚ) / rw * dstN) ((iw : ℚ) / rw * dstN) pw dstN := by
  obtain ⟨⟨l1, l2⟩, ⟨p1, p2⟩, ⟨r1, r2⟩, ⟨d1, d2, d3⟩, hx, ⟨w1, w2⟩⟩ := h
  have L1 : (0 : ℚ) < lw := by exact_mod_cast l1
  have L2 : (lw : ℚ) ≤ 2 ^ 20 := le_trans (by exact_mod_cast l2 : (lw : ℚ) ≤ 2 ^ 19) (by norm_num)
  have P1 : (0 : ℚ) < pw := by exact_mod_cast p1
  have P2 : (pw : ℚ) ≤ lw := by exact_mod_cast p2
  have R1 : (0 : ℚ) < rw := by exact_mod_cast r1
  have R2 : (rw : ℚ) ≤ 2 ^ 20 := le_trans (by exact_mod_cast r2 : (rw : ℚ) ≤ 2 ^ 19) (by norm_num)
  have D1 : (0 : ℚ) < dstN := by exact_mod_cast d1
  have D2 : (dstN : ℚ) ≤ 2 * rw := by exact_mod_cast d2
  have L3 : (lw : ℚ) ≤ 2 ^ 19 := by exact_mod_cast l2
  have R3 : (rw : ℚ) ≤ 2 ^ 19 := by exact_mod_cast r2
  have D3 : (rw : ℚ) ≤ 2 ^ 10 * dstN := by exact_mod_cast d3
  have W0 : (0 : ℚ) < iw := by exact_mod_cast w1
  have a0 : (0 : ℚ) ≤ (ix : ℚ) - lx := by
    have : (0 : ℚ) ≤ ((ix - lx : Int) : ℚ) := by exact_mod_cast (by omega : (0 : Int) ≤ ix - lx)
    push_cast at this; exact this
  have a1 : (ix : ℚ) - lx + iw ≤ lw := by
    have : ((ix + iw - lx : Int) : ℚ) ≤ lw := by exact_mod_cast (by omega : ix + iw - lx ≤ lw)
    push_cast at this; linarith
  have b0 : (0 : ℚ) ≤ (ix : ℚ) - rx := by
    have : (0 : ℚ) ≤ ((ix - rx : Int) : ℚ) := by exact_mod_cast (by omega : (0 : Int) ≤ ix - rx)
    push_cast at this; exact this
  have b1 : (ix : ℚ) - rx + iw ≤ rw := by
    have : ((ix + iw - rx : Int) : ℚ) ≤ rw := by exact_mod_cast (by omega : ix + iw - rx ≤ rw)
    push_cast at this; linarith
  have frac : ∀ x m n : ℚ, 0 < m → 0 ≤ n → x ≤ m → x / m * n ≤ n := by
    intro x m n hm hn hx
    have : x / m ≤ 1 := by rw [div_le_one hm]; exact hx
    have := mul_le_mul_of_nonneg_right this hn
    linarith
  have er : (iw : ℚ) / lw * pw / ((iw : ℚ) / rw * dstN) = pw / lw * (rw / dstN) := by field_simp
  have ei : (pw : ℚ) * ((iw : ℚ) / rw * dstN / ((iw : ℚ) / lw * pw)) = dstN / rw * lw := by field_simp
  have ei2 : (dstN : ℚ) * ((iw : ℚ) / lw * pw / ((iw : ℚ) / rw * dstN)) = pw / lw * rw := by field_simp
  refine ⟨⟨P1, P2.trans L2⟩, ⟨D1, by linarith⟩, ⟨by positivity, frac _ _ _ L1 P1.le (by linarith)⟩,
    ⟨by positivity, frac _ _ _ L1 P1.le (by linarith)⟩, ⟨by positivity, frac _ _ _ R1 D1.le (by linarith)⟩,
    ⟨by positivity, frac _ _ _ R1 D1.le (by linarith)⟩, ?_, ?_, ?_⟩
  · rw [er]
    have h1 : (pw : ℚ) / lw ≤ 1 := by rw [div_le_one L1]; exact P2
    have h2 : (rw : ℚ) / dstN ≤ 2 ^ 10 := by rw [div_le_iff₀ D1]; exact D3
    have h3 : (0 : ℚ) ≤ rw / dstN := by positivity
    have := mul_le_mul_of_nonneg_right h1 h3
    linarith
  · rw [ei]
    have h1 : (dstN : ℚ) / rw ≤ 2 := by rw [div_le_iff₀ R1]; exact D2
    have := mul_le_mul_of_nonneg_right h1 L1.le
    linarith
  · rw [ei2]
    exact le_trans (frac _ _ _ L1 R1.le P2) R2

theorem ratio_of {a : Axis} {sp0 sw0 dp0 dw0 pw n : ℚ} (h : NearAxis a sp0 sw0 dp0 dw0 pw n) (e : ExactAxis sp0 sw0 dp0 dw0 pw n) :
    0 < a.sw ∧ 0 < a.dw ∧ |a.sw / a.dw - sw0 / dw0| ≤ 3 * eps * (sw0 / dw0) ∧ |a.dw / a.sw - dw0 / sw0| ≤ 3 * eps * (dw0 / sw0) := by
  obtain ⟨h1, h2, h3⟩ := ratio_err e.sw.1 e.dw.1 h.sw h.dw
  exact ⟨h1, h2, h3, (ratio_err e.dw.1 e.sw.1 h.dw h.sw).2.2⟩

theorem eps_small : eps ≤ 1 / 1000000000 := by norm_num [eps, u]
theorem eps_pos : 0 < eps := by norm_num [eps, u]

theorem near_moderate {a : Axis} {sp0 sw0 dp0 dw0 pw n : ℚ} (h : NearAxis a sp0 sw0 dp0 dw0 pw n)
    (e : ExactAxis sp0 sw0 dp0 dw0 pw n) (hs : (a.srcN : ℚ) = pw) (hd : (a.dstN : ℚ) = n) : Moderate a := by
  obtain ⟨r1, r2, r3, r4⟩ := ratio_of h e
  have hu : u ≤ 1 / 1000000000 := by norm_num [u]
  have hup := u_pos
  have he := eps_small
  have hep := eps_pos
  have s1 := e.sw; have s2 := e.dw; have s3 := e.sp; have s4 := e.dp; have s5 := e.stored; have s6 := e.dst
  have k1 : eps * sw0 ≤ 1 * sw0 := mul_le_mul_of_nonneg_right (he.trans (by norm_num)) s1.1.le
  have k2 : eps * dw0 ≤ 1 * dw0 := mul_le_mul_of_nonneg_right (he.trans (by norm_num)) s2.1.le
  have k3 : 3 * u * pw ≤ 1 * pw := mul_le_mul_of_nonneg_right (by linarith) s5.1.le
  have k4 : 3 * u * n ≤ 1 * n := mul_le_mul_of_nonneg_right (by linarith) s6.1.le
  have h1 := abs_le.mp h.sp; have h2 := abs_le.mp h.sw; have h3 := abs_le.mp h.dp; have h4 := abs_le.mp h.dw
  have hsp : |a.sp| ≤ 2 * pw := by rw [abs_le]; constructor <;> linarith
  have hN : a.srcN ≤ 2 ^ 29 := by
    have : (a.srcN : ℚ) ≤ ((2 ^ 29 : Nat) : ℚ) := by rw [hs]; push_cast; linarith
    exact_mod_cast this
  have hN0 : 0 < a.srcN := by
    have : (0 : ℚ) < a.srcN := by rw [hs]; exact s5.1
    exact_mod_cast this
  have hM : a.dstN ≤ 2 ^ 29 := by
    have : (a.dstN : ℚ) ≤ ((2 ^ 29 : Nat) : ℚ) := by rw [hd]; push_cast; linarith
    exact_mod_cast this
  refine ⟨⟨hN0, hN⟩, hM, ⟨r1, by linarith⟩, ⟨r2, by linarith⟩, by linarith, ?_, ?_, ?_⟩
  · rw [abs_le]; constructor <;> linarith
  · have h5 : a.sw / a.dw ≤ 2 ^ 29 := by
      have h6 := (abs_le.mp r3).2
      have h7 := e.ratio
      have h8 : 3 * eps * (sw0 / dw0) ≤ 1 * (sw0 / dw0) :=
        mul_le_mul_of_nonneg_right (by linarith) (div_pos s1.1 s2.1).le
      linarith
    rw [div_le_iff₀ r2] at h5
    exact h5
  · have h5 : (|a.sp| + a.srcN) * (a.dw / a.sw) ≤ 2 ^ 29 := by
      have h6 := (abs_le.mp r4).2
      have h7 := e.inv
      have h8 : 3 * eps * (dw0 / sw0) ≤ 1 * (dw0 / sw0) :=
        mul_le_mul_of_nonneg_right (by linarith) (div_pos s2.1 s1.1).le
      have h9 : a.dw / a.sw ≤ 2 * (dw0 / sw0) := by linarith
      have h10 : |a.sp| + a.srcN ≤ 3 * pw := by rw [hs]; linarith
      have h11 : (|a.sp| + a.srcN) * (a.dw / a.sw) ≤ 3 * pw * (2 * (dw0 / sw0)) :=
        mul_le_mul h10 h9 (div_pos r2 r1).le (by linarith)
      linarith
    have h12 : (|a.sp| + a.srcN) * a.dw = (|a.sp| + a.srcN) * (a.dw / a.sw) * a.sw := by
      field_simp
    rw [h12]
    exact mul_le_mul_of_nonneg_right h5 r1.le

/-- What the rounding of the regions may amount to, in pixels. -/
def roiError : ℚ := 1 / 400

theorem near_position {a : Axis} {sp0 sw0 dp0 dw0 pw n : ℚ} (h : NearAxis a sp0 sw0 dp0 dw0 pw n)
    (e : ExactAxis sp0 sw0 dp0 dw0 pw n) {x : Nat} (hx1 : a.dp - 1 < x) (hx2 : (x : ℚ) ≤ a.dp + a.dw + 2) :
    |exactPosition a x - (sp0 + (x - dp0) * (sw0 / dw0))| ≤ roiError := by
  obtain ⟨r1, r2, r3, r4⟩ := ratio_of h e
  have hup := u_pos
  have he := eps_small
  have hep := eps_pos
  have s1 := e.sw; have s2 := e.dw; have s3 := e.sp; have s4 := e.dp; have s5 := e.stored; have s6 := e.dst
  have hρ : 0 < sw0 / dw0 := div_pos s1.1 s2.1
  have eq : exactPosition a x - (sp0 + (x - dp0) * (sw0 / dw0)) =
      (a.sp - sp0) + (x - a.dp) * (a.sw / a.dw - sw0 / dw0) + (dp0 - a.dp) * (sw0 / dw0) := by
    unfold exactPosition; ring
  rw [eq]
  have t1 : |a.sp - sp0| ≤ 1 / 100000 := by
    refine le_trans h.sp ?_
    have : 3 * u * pw ≤ 3 * u * 2 ^ 20 := mul_le_mul_of_nonneg_left s5.2 (by linarith)
    refine le_trans this ?_
    norm_num [u]
  have hd : |(x : ℚ) - a.dp| ≤ 2 * dw0 + 2 := by
    have h4 := abs_le.mp h.dw
    have k2 : eps * dw0 ≤ 1 * dw0 := mul_le_mul_of_nonneg_right (he.trans (by norm_num)) s2.1.le
    rw [abs_le]; constructor <;> linarith
  -- a sharper bound is needed for the extent
  have hd' : |(x : ℚ) - a.dp| ≤ (1 + eps) * dw0 + 2 := by
    have h4 := abs_le.mp h.dw
    have : 0 < (1 + eps) * dw0 := mul_pos (by linarith) s2.1
    rw [abs_le]; constructor <;> linarith
  have t2 : |((x : ℚ) - a.dp) * (a.sw / a.dw - sw0 / dw0)| ≤ 1 / 430 := by
    rw [abs_mul]
    have h1 := mul_le_mul hd' r3 (abs_nonneg _) (by have : 0 < (1 + eps) * dw0 := mul_pos (by linarith) s2.1; linarith)
    refine le_trans h1 ?_
    have e1 : ((1 + eps) * dw0 + 2) * (3 * eps * (sw0 / dw0)) = 3 * eps * (1 + eps) * sw0 + 6 * eps * (sw0 / dw0) := by
      have hne := s2.1.ne'
      field_simp
      ring
    rw [e1]
    have h2 : 3 * eps * (1 + eps) * sw0 ≤ 3 * eps * (1 + eps) * 2 ^ 20 :=
      mul_le_mul_of_nonneg_left (s1.2.trans s5.2) (by positivity)
    have h3 : 6 * eps * (sw0 / dw0) ≤ 6 * eps * 2 ^ 10 := mul_le_mul_of_nonneg_left e.ratio (by linarith)
    have h4 : 3 * eps * (1 + eps) * 2 ^ 20 + 6 * eps * 2 ^ 10 ≤ 1 / 430 := by norm_num [eps, u]
    linarith
  have t3 : |(dp0 - a.dp) * (sw0 / dw0)| ≤ 1 / 100000 := by
    rw [abs_mul, abs_of_pos hρ, abs_sub_comm]
    have h1 := mul_le_mul_of_nonneg_right h.dp hρ.le
    refine le_trans h1 ?_
    have e1 : 3 * u * n * (sw0 / dw0) = 3 * u * (n * (sw0 / dw0)) := by ring
    rw [e1]
    have := mul_le_mul_of_nonneg_left e.ratio' (by linarith : 0 ≤ 3 * u)
    refine le_trans this ?_
    norm_num [u]
  have a1 := abs_add_le (a.sp - sp0 + (x - a.dp) * (a.sw / a.dw - sw0 / dw0)) ((dp0 - a.dp) * (sw0 / dw0))
  have a2 := abs_add_le (a.sp - sp0) ((x - a.dp) * (a.sw / a.dw - sw0 / dw0))
  have : roiError = 1 / 400 := rfl
  rw [this]
  linarith

theorem near_inverse {a : Axis} {sp0 sw0 dp0 dw0 pw n : ℚ} (h : NearAxis a sp0 sw0 dp0 dw0 pw n)
    (e : ExactAxis sp0 sw0 dp0 dw0 pw n) {p : ℚ} (hp0 : 0 ≤ p) (hp1 : p ≤ pw) :
    |inversePosition a p - (dp0 + (p - sp0) * (dw0 / sw0))| ≤ roiError := by
  obtain ⟨r1, r2, r3, r4⟩ := ratio_of h e
  have hup := u_pos
  have he := eps_small
  have hep := eps_pos
  have s1 := e.sw; have s2 := e.dw; have s3 := e.sp; have s4 := e.dp; have s5 := e.stored; have s6 := e.dst
  have hρ : 0 < dw0 / sw0 := div_pos s2.1 s1.1
  have eq : inversePosition a p - (dp0 + (p - sp0) * (dw0 / sw0)) =
      (a.dp - dp0) + (p - a.sp) * (a.dw / a.sw - dw0 / sw0) + (sp0 - a.sp) * (dw0 / sw0) := by
    unfold inversePosition; ring
  rw [eq]
  have t1 : |a.dp - dp0| ≤ 1 / 100000 := by
    refine le_trans h.dp ?_
    have : 3 * u * n ≤ 3 * u * 2 ^ 20 := mul_le_mul_of_nonneg_left s6.2 (by linarith)
    refine le_trans this ?_
    norm_num [u]
  have hd' : |p - a.sp| ≤ (1 + 3 * u) * pw := by
    have h1 := abs_le.mp h.sp
    rw [abs_le]; constructor <;> linarith
  have t2 : |(p - a.sp) * (a.dw / a.sw - dw0 / sw0)| ≤ 1 / 430 := by
    rw [abs_mul]
    have h1 := mul_le_mul hd' r4 (abs_nonneg _) (by have : 0 < (1 + 3 * u) * pw := mul_pos (by linarith) s5.1; linarith)
    refine le_trans h1 ?_
    have e1 : (1 + 3 * u) * pw * (3 * eps * (dw0 / sw0)) = (1 + 3 * u) * 3 * eps * (pw * (dw0 / sw0)) := by ring
    rw [e1]
    have h2 : (1 + 3 * u) * 3 * eps * (pw * (dw0 / sw0)) ≤ (1 + 3 * u) * 3 * eps * 2 ^ 20 :=
      mul_le_mul_of_nonneg_left e.inv (by positivity)
    refine le_trans h2 ?_
    norm_num [eps, u]
  have t3 : |(sp0 - a.sp) * (dw0 / sw0)| ≤ 1 / 100000 := by
    rw [abs_mul, abs_of_pos hρ, abs_sub_comm]
    have h1 := mul_le_mul_of_nonneg_right h.sp hρ.le
    refine le_trans h1 ?_
    have e1 : 3 * u * pw * (dw0 / sw0) = 3 * u * (pw * (dw0 / sw0)) := by ring
    rw [e1]
    have := mul_le_mul_of_nonneg_left e.inv (by linarith : 0 ≤ 3 * u)
    refine le_trans this ?_
    norm_num [u]
  have a1 := abs_add_le (a.dp - dp0 + (p - a.sp) * (a.dw / a.sw - dw0 / sw0)) ((sp0 - a.sp) * (dw0 / sw0))
  have a2 := abs_add_le (a.dp - dp0) ((p - a.sp) * (a.dw / a.sw - dw0 / sw0))
  have : roiError = 1 / 400 := rfl
  rw [this]
  linarith

/-- `Visits.complete` with the computed first column. -/
theorem visited_if {a : Axis} (h : Moderate a) {x : Nat} (h1 : x < a.dstN) (h2 : a.dp ≤ x) (h3 : (x : ℚ) < a.dp + a.dw) (h4 : a.lo ≤ x)
    (h5 : (x : ℚ) < inversePosition a (a.srcN - 1) + 1 - tolerance) : visited a x := by
  have hh := hi_err h
  rw [abs_le] at hh
  rw [visited_iff h]
  refine ⟨h4, ?_, by linarith [hh.1], ?_, h1⟩
  · unfold truncInt
    split
    · have := Int.floor_le a.dp
      have : ((⌊a.dp⌋ : Int) : ℚ) ≤ ((x : Int) : ℚ) := by push_cast; linarith
      exact_mod_cast this
    · rw [Int.ceil_le]; push_cast; exact h2
  · have hx : f64 ((x : Int) : ℚ) = (x : Int) := f64_int x (by
      have := h.dst
      rw [abs_of_nonneg (by omega)]
      norm_num at *
      omega)
    have hm : ((x : Int) : ℚ) ≤ f64 (a.dp + a.dw) := by
      rw [← hx]
      apply f64_mono
      push_cast; exact h3.le
    unfold truncInt
    rw [if_pos (le_trans (by positivity) hm)]
    rw [Int.le_floor]
    exact hm

/-- If the region begins inside of the sub-block then its first column is painted. -/
theorem lo_nonpos {a : Axis} (h0 : a.dp = 0) (h1 : 0 ≤ a.sp) (h2 : 0 ≤ a.dw) (h3 : 0 ≤ a.sw) : a.lo ≤ 0 := by
  unfold Axis.lo
  rw [h0, add_zero]
  apply fround_nonpos
  apply fround_nonpos
  apply div_nonpos_of_nonpos_of_nonneg _ h3
  apply fround_nonpos
  exact mul_nonpos_of_nonpos_of_nonneg (fround_nonpos _ (by linarith)) h2

/-- The columns visited and the source columns, for the axis of a sub-block. -/
theorem blt_shows {lx lw pw ix iw rx rw : Int} {srcN dstN : Nat} (h : GoodAxis lx lw pw ix iw rx rw dstN) (hs : (srcN : Int) = pw) :
    Moderate (bltAxis lx lw pw ix iw rx rw srcN dstN) ∧
    ShowsAxis lx lw pw rx rw dstN (visited (bltAxis lx lw pw ix iw rx rw srcN dstN))
      (fun x => ((bltAxis lx lw pw ix iw rx rw srcN dstN).source x).toNat) := by
  have hn := blt_near (srcN := srcN) h
  have he := blt_exact h
  have hsq : (srcN : ℚ) = pw := by exact_mod_cast hs
  have hm := near_moderate hn he (by exact hsq) rfl
  refine ⟨hm, ?_⟩
  have hpos := fun x => near_position hn he (x := x)
  have hinv := fun p => near_inverse hn he (p := p)
  have hv := visits_ok hm
  have hpk := fun x p ε => picks_of_err (a := bltAxis lx lw pw ix iw rx rw srcN dstN) hm.src.1 (x := x) (p := p) (ε := ε)
  have hpe := fun x => position_err hm (x := x)
  have hvs := fun x => visited_size hm (x := x)
  have hN : (bltAxis lx lw pw ix iw rx rw srcN dstN).srcN = srcN := rfl
  have hD : (bltAxis lx lw pw ix iw rx rw srcN dstN).dstN = dstN := rfl
  obtain ⟨⟨l1, l2⟩, ⟨p1, p2⟩, ⟨r1, r2⟩, ⟨d1, d2, d3⟩, hx, ⟨w1, w2⟩⟩ := h
  have L1 : (0 : ℚ) < lw := by exact_mod_cast l1
  have P1 : (0 : ℚ) < pw := by exact_mod_cast p1
  have P0 : (1 : ℚ) ≤ pw := by exact_mod_cast p1
  have R1 : (0 : ℚ) < rw := by exact_mod_cast r1
  have D1 : (0 : ℚ) < dstN := by exact_mod_cast d1
  have W0 : (0 : ℚ) < iw := by exact_mod_cast w1
  have hdp := hn.dp
  have hdw := hn.dw
  generalize ha : bltAxis lx lw pw ix iw rx rw srcN dstN = a at *
  set d : ℚ := (rw : ℚ) / dstN with hd
  have hdpos : 0 < d := div_pos R1 D1
  -- columns and document positions
  have hcol : ∀ x : Nat, docPos rx rw dstN x = rx + x * d := by intro x; unfold docPos; rw [hd]; ring
  have hdp0 : ((ix : ℚ) - rx) / rw * dstN = (ix - rx) / d := by rw [hd]; field_simp
  have hdw0 : (iw : ℚ) / rw * dstN = iw / d := by rw [hd]; field_simp
  have ide : ∀ x : Nat, ((ix : ℚ) - lx) / lw * pw + ((x : ℚ) - ((ix : ℚ) - rx) / rw * dstN) *
      ((iw : ℚ) / lw * pw / ((iw : ℚ) / rw * dstN)) = (docPos rx rw dstN x - lx) * pw / lw := by
    intro x; rw [hcol, hd]; field_simp; ring
  have idi : ∀ p : ℚ, ((ix : ℚ) - rx) / rw * dstN + (p - ((ix : ℚ) - lx) / lw * pw) *
      ((iw : ℚ) / rw * dstN / ((iw : ℚ) / lw * pw)) = (lx + p * lw / pw - rx) / d := by
    intro p; rw [hd]; field_simp; ring
  have hre : roiError = 1 / 400 := rfl
  have htol : tolerance = 1 / 65536 := rfl
  have hps : pixelSlack = 1 / 128 := rfl
  have e3 : 3 * u * (dstN : ℚ) ≤ 1 / 100000 := by
    have h1 : 3 * u * (dstN : ℚ) ≤ 3 * u * 2 ^ 20 := mul_le_mul_of_nonneg_left he.dst.2 (by have := u_pos; linarith)
    refine le_trans h1 (by norm_num [u])
  have e4 : eps * ((iw : ℚ) / rw * dstN) ≤ 1 / 100 := by
    have h1 : eps * ((iw : ℚ) / rw * dstN) ≤ eps * 2 ^ 20 :=
      mul_le_mul_of_nonneg_left (he.dw.2.trans he.dst.2) eps_pos.le
    refine le_trans h1 (by norm_num [eps, u])
  have e4' : eps * ((iw : ℚ) / rw * dstN) ≤ 1 / 1000 := by
    have h1 : eps * ((iw : ℚ) / rw * dstN) ≤ eps * 2 ^ 20 :=
      mul_le_mul_of_nonneg_left (he.dw.2.trans he.dst.2) eps_pos.le
    refine le_trans h1 (by norm_num [eps, u])
  have b1 := abs_le.mp hdp
  have b2 := abs_le.mp hdw
  rw [hdp0] at b1
  rw [hdw0] at b2 e4 e4'
  have i0 := abs_le.mp (hinv 0 (le_refl _) P1.le)
  rw [idi 0] at i0
  have i1 := abs_le.mp (hinv (srcN - 1) (by rw [hsq]; linarith) (by rw [hsq]; linarith))
  rw [idi _] at i1
  have i1e : ((lx : ℚ) + (srcN - 1) * lw / pw - rx) / d = (lx + lw - lw / pw - rx) / d := by
    rw [hsq]; congr 1; field_simp; ring
  rw [i1e] at i1
  have i0e : ((lx : ℚ) + 0 * lw / pw - rx) / d = (lx - rx) / d := by congr 1; ring
  rw [i0e] at i0
  -- comparing columns
  have cmp_le : ∀ (x : ℚ) (q c : ℚ), x ≤ (q - rx) / d + c ↔ rx + x * d ≤ q + c * d := by
    intro x q c
    have : (q - rx) / d + c = (q - rx + c * d) / d := by field_simp
    rw [this, le_div_iff₀ hdpos]
    constructor <;> intro h <;> linarith
  have cmp_ge : ∀ (x : ℚ) (q c : ℚ), (q - rx) / d + c ≤ x ↔ q + c * d ≤ rx + x * d := by
    intro x q c
    have : (q - rx) / d + c = (q - rx + c * d) / d := by field_simp
    rw [this, div_le_iff₀ hdpos]
    constructor <;> intro h <;> linarith
  have hend : ((ix : ℚ) - rx) / d + iw / d = (((ix + iw : Int) : ℚ) - rx) / d := by push_cast; ring
  refine ⟨?_, ?_, ?_⟩
  · intro x hxv
    obtain ⟨s1, s2, s3, s4, s5⟩ := hv.sound x hxv
    rw [hN] at s5
    rw [hD] at s1
    refine ⟨s1, ?_, ?_⟩
    · rw [hcol]
      have : ((lx : ℚ) - rx) / d + -pixelSlack ≤ x := by rw [hps]; rw [hre] at i0; rw [htol] at s4; linarith
      rw [cmp_ge] at this
      linarith
    · rw [hcol]
      rcases s3 with s3 | ⟨s3, -⟩
      · have h1 : (x : ℚ) ≤ (((ix + iw : Int) : ℚ) - rx) / d + pixelSlack := by
          rw [← hend, hps]; rw [htol] at s3; linarith
        rw [cmp_le] at h1
        have h2 : ((ix + iw : Int) : ℚ) ≤ (lx : ℚ) + lw := by exact_mod_cast (by omega : ix + iw ≤ lx + lw)
        linarith
      · subst s3
        have h2 : (rx : ℚ) ≤ (lx : ℚ) + lw := by exact_mod_cast (by omega : rx ≤ lx + lw)
        have h3 : 0 < pixelSlack * d := mul_pos (by norm_num [pixelSlack]) hdpos
        push_cast
        linarith
  · intro x hxn c1 c2 c3
    rw [hcol] at c1 c2 c3
    have k2 : (x : ℚ) ≤ ((lx + lw : ℚ) - rx) / d + -pixelSlack := by rw [cmp_le]; linarith
    have k3 : (x : ℚ) ≤ ((lx : ℚ) + lw - lw / pw - rx) / d + (1 - pixelSlack) := by
      have := (cmp_le x (lx + lw - lw / pw) (1 - pixelSlack)).mpr (by linarith)
      exact this
    rw [hps] at k2 k3
    have hx0 : (0 : ℚ) ≤ x := by positivity
    have hx1 : (x : ℚ) + 1 ≤ dstN := by exact_mod_cast hxn
    have hz : lx ≤ rx → a.dp = 0 := by
      intro hc
      have : ix = rx := by omega
      rw [← ha, this]
      simp only [bltAxis, sub_self, Int.cast_zero, zero_div]
      have z : f64 0 = 0 := fround_zero 53
      rw [z, zero_mul, z]
    apply visited_if hm (by rw [hD]; exact hxn)
    · rcases c1 with c1 | c1
      · rw [hz c1]; exact hx0
      · have k1 : ((lx : ℚ) - rx) / d + pixelSlack ≤ x := by rw [cmp_ge]; exact c1
        rw [hps] at k1
        by_cases hc : rx ≤ lx
        · have : ix = lx := by omega
          rw [this] at b1
          linarith
        · rw [hz (by omega)]; exact hx0
    · by_cases hc : lx + lw ≤ rx + rw
      · have h5 : ix + iw = lx + lw := by omega
        have h6 : (((ix + iw : Int) : ℚ) - rx) / d = ((lx + lw : ℚ) - rx) / d := by rw [h5]; push_cast; ring
        rw [h6] at hend
        linarith
      · have h5 : ix + iw = rx + rw := by omega
        have h6 : (((ix + iw : Int) : ℚ) - rx) / d = dstN := by rw [h5, hd]; push_cast; field_simp; ring
        rw [h6] at hend
        linarith
    · rcases c1 with c1 | c1
      · refine le_trans (lo_nonpos (hz c1) ?_ hm.dw.1.le hm.sw.1.le) hx0
        rw [← ha]
        simp only [bltAxis]
        refine f64_nonneg (mul_nonneg (f64_nonneg (div_nonneg ?_ L1.le)) P1.le)
        exact_mod_cast (by omega : 0 ≤ ix - lx)
      · have k1 : ((lx : ℚ) - rx) / d + pixelSlack ≤ x := by rw [cmp_ge]; exact c1
        rw [hps] at k1
        have hl := lo_err hm
        rw [abs_le] at hl
        rw [hre] at i0; rw [htol] at hl; linarith [hl.2]
    · rw [hN]; rw [hre] at i1; rw [htol]; linarith
  · intro x hxv
    obtain ⟨s1, s2, s3, s4, s5⟩ := hv.sound x hxv
    have h1 : (x : ℚ) ≤ a.dp + a.dw + 2 := by
      rcases s3 with s3 | ⟨s3, s6⟩
      · rw [htol] at s3; linarith
      · subst s3; push_cast; rw [htol] at s6; linarith
    have h2 := hpos x s2 h1
    rw [ide x] at h2
    have h3 := hpe x (hvs x hxv)
    have h4 : |a.position x - (docPos rx rw dstN x - lx) * pw / lw| ≤ 1 / 256 := by
      have := abs_sub_le (a.position x) (exactPosition a x) ((docPos rx rw dstN x - lx) * pw / lw)
      rw [hre] at h2; rw [htol] at h3
      linarith
    have h5 := hpk x _ _ h4 (by norm_num)
    rw [hN] at h5
    have h6 : pw.toNat = srcN := by omega
    rw [h6, hps]
    have h7 : (2 : ℚ) * (1 / 256) = 1 / 128 := by norm_num
    rw [h7] at h5
    exact h5

end Verif.Accessor
