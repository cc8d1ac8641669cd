import Verif.Spec.Fill
import Verif.Proof.Blit
import Verif.Proof.Float
import Mathlib.Tactic.Linarith
import Mathlib.Tactic.Positivity
import Mathlib.Tactic.NormNum

/-! # Filled bitmaps: lemmas -/

namespace Verif.Fill
open Verif.Czi Verif.Blit Verif.Bitonal Verif.Flt Verif.Spec

/-! ## Values -/

theorem f32_nat (n : ℕ) (h : n ≤ 2 ^ 24) : f32 n = n := by
  have := f32_int (n : ℤ) (by rw [abs_of_nonneg (by omega)]; exact_mod_cast h)
  exact_mod_cast this

theorem f32_nonpos {x : ℚ} (h : x ≤ 0) : f32 x ≤ 0 := fround_nonpos 24 h

/-- At least `q`. -/
def AtLeast (q : ℚ) : Fl → Prop
  | .num x => q ≤ x
  | .inf neg => neg = false
  | .nan => False

theorem atLeast_ofRat {q x : ℚ} (hq : 0 < q) (hx : 0 < x) (h : q ≤ f32 x) : AtLeast q (Fl.ofRat x) := by
  unfold Fl.ofRat
  split
  · exact decide_eq_false (by linarith)
  · exact h

theorem atLeast_add {p q s : ℚ} {a b : Fl} (hp : 0 < p) (hq : 0 < q) (hs : 0 < s) (ha : AtLeast p a) (hb : AtLeast q b)
    (h : f32 (p + q) = s) : AtLeast s (a.add b) := by
  cases a with
  | nan => exact ha.elim
  | inf n =>
    cases b with
    | nan => exact hb.elim
    | inf m =>
      have h1 : n = false := ha
      have h2 : m = false := hb
      subst h1 h2
      exact rfl
    | num y => exact ha
  | num x =>
    cases b with
    | nan => exact hb.elim
    | inf m => exact hb
    | num y =>
      have h1 : p ≤ x := ha
      have h2 : q ≤ y := hb
      exact atLeast_ofRat hs (by linarith) (by rw [← h]; exact f32_mono (by linarith))

theorem atLeast_scale {p k s : ℚ} {a : Fl} (hp : 0 < p) (hk : 0 < k) (hs : 0 < s) (ha : AtLeast p a) (h : f32 (k * p) = s) :
    AtLeast s (a.scale k) := by
  cases a with
  | nan => exact ha.elim
  | inf n => exact ha
  | num x =>
    have h1 : p ≤ x := ha
    have h2 : k * p ≤ k * x := mul_le_mul_of_nonneg_left h1 hk.le
    have h3 : 0 < k * p := mul_pos hk hp
    exact atLeast_ofRat hs (by linarith) (by rw [← h]; exact f32_mono h2)

theorem dark_ofRat {x : ℚ} (h : x ≤ 0) : Dark (Fl.ofRat x) := by
  unfold Fl.ofRat
  split
  next h1 =>
    refine decide_eq_true (lt_of_le_of_ne h ?_)
    intro h2
    rw [h2, show f32 0 = 0 from fround_zero 24] at h1
    norm_num at h1
  next h1 => exact f32_nonpos h

theorem dark_add {a b : Fl} (ha : Dark a) (hb : Dark b) : Dark (a.add b) := by
  cases a with
  | nan => exact ha.elim
  | inf n =>
    cases b with
    | nan => exact hb.elim
    | inf m =>
      have h1 : n = true := ha
      have h2 : m = true := hb
      subst h1 h2
      exact rfl
    | num y => exact ha
  | num x =>
    cases b with
    | nan => exact hb.elim
    | inf m => exact hb
    | num y =>
      have h1 : x ≤ 0 := ha
      have h2 : y ≤ 0 := hb
      exact dark_ofRat (by linarith)

theorem dark_scale {k : ℚ} {a : Fl} (hk : 0 < k) (ha : Dark a) : Dark (a.scale k) := by
  cases a with
  | nan => exact ha.elim
  | inf n => exact ha
  | num x =>
    have h1 : x ≤ 0 := ha
    exact dark_ofRat (mul_nonpos_of_nonneg_of_nonpos hk.le h1)

theorem clampTop_dark {top : Nat} {a : Fl} (h : Dark a) : clampTop top a = some 0 := by
  cases a with
  | nan => exact h.elim
  | inf n =>
    have h1 : n = true := h
    subst h1
    rfl
  | num x =>
    have h1 : x ≤ 0 := h
    simp only [clampTop, if_pos h1]

theorem clampTop_bright {top : Nat} {a : Fl} (ht : 0 < top) (h : AtLeast top a) : clampTop top a = some top := by
  cases a with
  | nan => exact h.elim
  | inf n =>
    have h1 : n = false := h
    subst h1
    rfl
  | num x =>
    have h1 : (top : ℚ) ≤ x := h
    have h2 : (0 : ℚ) < top := by exact_mod_cast ht
    simp only [clampTop, if_neg (show ¬ x ≤ 0 by linarith), if_pos h1]

/-- The rounding of a value in the range. -/
theorem clampTop_num {top : Nat} (ht : 0 < top) (h16 : top ≤ 65535) (x : ℚ) :
    ∃ v : Nat, clampTop top (.num x) = some v ∧ v ≤ top ∧
      (0 ≤ x → x ≤ top → |(v : ℚ) - x| ≤ 1 / 2 + (top + 1) / 2 ^ 24) := by
  have ht' : (0 : ℚ) < top := by exact_mod_cast ht
  simp only [clampTop]
  by_cases h1 : x ≤ 0
  · refine ⟨0, by rw [if_pos h1], Nat.zero_le _, fun h2 _ => ?_⟩
    have : x = 0 := le_antisymm h1 h2
    subst this
    simp only [Nat.cast_zero, sub_zero, abs_zero]
    positivity
  · rw [if_neg h1]
    by_cases h2 : (top : ℚ) ≤ x
    · refine ⟨top, by rw [if_pos h2], Nat.le_refl _, fun _ h3 => ?_⟩
      have : x = top := le_antisymm h3 h2
      subst this
      simp only [sub_self, abs_zero]
      positivity
    · rw [if_neg h2]
      have hx : 0 < x := lt_of_not_ge h1
      have hx2 : x < top := lt_of_not_ge h2
      have hz0 : 0 ≤ f32 (x + 1 / 2) := f32_nonneg (by linarith)
      have hz1 : f32 (x + 1 / 2) ≤ top + 1 / 2 := by
        have h3 := f32_half (2 * top + 1 : ℤ) (by rw [abs_of_nonneg (by omega)]; omega)
        have h4 := f32_mono (show x + 1 / 2 ≤ ((2 * top + 1 : ℤ) : ℚ) / 2 by push_cast; linarith)
        rw [h3] at h4
        push_cast at h4
        linarith
      have hf0 : 0 ≤ ⌊f32 (x + 1 / 2)⌋ := Int.floor_nonneg.2 hz0
      have hf1 : ⌊f32 (x + 1 / 2)⌋ ≤ top := by
        have : ⌊f32 (x + 1 / 2)⌋ < (top : ℤ) + 1 := Int.floor_lt.2 (by push_cast; linarith)
        omega
      refine ⟨_, rfl, by omega, fun _ _ => ?_⟩
      have hc : (((⌊f32 (x + 1 / 2)⌋).toNat : ℕ) : ℚ) = (⌊f32 (x + 1 / 2)⌋ : ℚ) := by
        have : (((⌊f32 (x + 1 / 2)⌋).toNat : ℕ) : ℤ) = ⌊f32 (x + 1 / 2)⌋ := Int.toNat_of_nonneg hf0
        exact_mod_cast this
      rw [hc]
      have e1 := f32_err (x + 1 / 2)
      rw [abs_of_nonneg (show (0 : ℚ) ≤ x + 1 / 2 by linarith)] at e1
      have e2 : (x + 1 / 2) / 2 ^ 24 ≤ ((top : ℚ) + 1) / 2 ^ 24 := div_le_div_of_nonneg_right (by linarith) (by positivity)
      have e3 := abs_le.1 (le_trans e1 e2)
      have e4 := Int.floor_le (f32 (x + 1 / 2))
      have e5 := Int.lt_floor_add_one (f32 (x + 1 / 2))
      rw [abs_le]
      constructor <;> linarith [e3.1, e3.2]

theorem clampTop_isSome {top : Nat} {a : Fl} (ht : 0 < top) (h16 : top ≤ 65535) (h : a ≠ .nan) :
    ∃ v, clampTop top a = some v ∧ v ≤ top := by
  cases a with
  | nan => exact absurd rfl h
  | inf n => exact ⟨_, rfl, by split <;> omega⟩
  | num x =>
    obtain ⟨v, h1, h2, -⟩ := clampTop_num ht h16 x
    exact ⟨v, h1, h2⟩

theorem ofRat_small {x : ℚ} {n : Nat} (hn : n ≤ 2 ^ 24) (h : |x| ≤ n) : Fl.ofRat x = .num (f32 x) := by
  unfold Fl.ofRat
  rw [if_neg]
  have h1 : f32 x ≤ n := by
    have := f32_mono (le_trans (le_abs_self x) h)
    rwa [f32_nat n hn] at this
  have h2 : f32 (-x) ≤ n := by
    have := f32_mono (le_trans (neg_le_abs x) h)
    rwa [f32_nat n hn] at this
  rw [show f32 (-x) = - f32 x from fround_neg 24 x] at h2
  have h3 : (n : ℚ) ≤ 2 ^ 24 := by exact_mod_cast hn
  have h4 : |f32 x| ≤ n := abs_le.2 ⟨by linarith, h1⟩
  have h5 : (2 : ℚ) ^ 24 < 2 ^ 128 := by norm_num
  linarith

theorem ofRat_ne_nan (x : ℚ) : Fl.ofRat x ≠ .nan := by
  unfold Fl.ofRat
  split <;> intro h <;> cases h

theorem scale_ne_nan {k : ℚ} {a : Fl} (h : a ≠ .nan) : a.scale k ≠ .nan := by
  cases a with
  | nan => exact absurd rfl h
  | inf n => intro h; cases h
  | num x => exact ofRat_ne_nan _

/-! ## Exactness -/

/-- A value close to an integer. -/
theorem clampTop_close {top : Nat} (ht : 0 < top) (h16 : top ≤ 65535) {k : Nat} (hk : k ≤ top) {x : ℚ} (h0 : 0 ≤ x) (h1 : x ≤ top)
    (h : |x - k| ≤ 1 / 4) : clampTop top (.num x) = some k := by
  obtain ⟨v, e1, -, e2⟩ := clampTop_num ht h16 x
  rw [e1]
  have e3 := abs_le.1 (e2 h0 h1)
  have e4 := abs_le.1 h
  have e5 : ((top : ℚ) + 1) / 2 ^ 24 ≤ 1 / 8 := by
    have : (top : ℚ) ≤ 65535 := by exact_mod_cast h16
    rw [div_le_div_iff₀ (by positivity) (by norm_num)]
    norm_num
    linarith
  have e6 : (v : ℚ) < k + 1 := by linarith [e3.2, e4.2]
  have e7 : (k : ℚ) < v + 1 := by linarith [e3.1, e4.1]
  have e8 : v < k + 1 := by exact_mod_cast e6
  have e9 : k < v + 1 := by exact_mod_cast e7
  congr 1
  omega

theorem level_float {top : Nat} (ht : 0 < top) {k : Nat} (hk : k ≤ top) :
    0 ≤ f32 (k / top) ∧ f32 (k / top) ≤ 1 ∧ |(top : ℚ) * f32 (k / top) - k| ≤ top / 2 ^ 24 := by
  have ht' : (0 : ℚ) < top := by exact_mod_cast ht
  have hk' : (k : ℚ) ≤ top := by exact_mod_cast hk
  have q0 : (0 : ℚ) ≤ k / top := by positivity
  have q1 : (k : ℚ) / top ≤ 1 := by rw [div_le_one ht']; exact hk'
  refine ⟨f32_nonneg q0, ?_, ?_⟩
  · have := f32_mono (show (k : ℚ) / top ≤ ((1 : ℕ) : ℚ) by push_cast; exact q1)
    rw [f32_nat 1 (by norm_num)] at this
    exact_mod_cast this
  · have e1 := f32_err (k / top)
    rw [abs_of_nonneg q0] at e1
    have e2 : ((k : ℚ) / top) / 2 ^ 24 ≤ 1 / 2 ^ 24 := div_le_div_of_nonneg_right q1 (by positivity)
    have e3 : |(top : ℚ) * f32 (k / top) - k| = top * |f32 (k / top) - k / top| := by
      rw [← abs_of_pos ht', ← abs_mul, abs_of_pos ht', mul_sub, mul_div_cancel₀ _ ht'.ne']
    rw [e3]
    have e4 := mul_le_mul_of_nonneg_left (le_trans e1 e2) ht'.le
    linarith

theorem channelValue_exact {top : Nat} (ht : 0 < top) (h16 : top ≤ 65535) {k : Nat} (hk : k ≤ top) :
    channelValue top (.num (f32 (k / top))) = some k := by
  have ht' : (0 : ℚ) < top := by exact_mod_cast ht
  obtain ⟨c0, c1, c2⟩ := level_float ht hk
  have e0 : (0 : ℚ) ≤ top * f32 (k / top) := mul_nonneg ht'.le c0
  have e1 : (top : ℚ) * f32 (k / top) ≤ top := by
    have := mul_le_mul_of_nonneg_left c1 ht'.le
    rwa [mul_one] at this
  unfold channelValue
  rw [show (Fl.num (f32 (k / top))).scale top = .num (f32 (top * f32 (k / top))) from
    ofRat_small (n := top) (by omega) (by rw [abs_of_nonneg e0]; exact e1)]
  refine clampTop_close ht h16 hk (f32_nonneg e0) ?_ ?_
  · have := f32_mono e1
    rwa [f32_nat top (by omega)] at this
  · have a1 := f32_err (top * f32 (k / top))
    rw [abs_of_nonneg e0] at a1
    have a2 : (top : ℚ) * f32 (k / top) / 2 ^ 24 ≤ top / 2 ^ 24 := div_le_div_of_nonneg_right e1 (by positivity)
    have a3 := abs_le.1 (le_trans a1 a2)
    have a4 := abs_le.1 c2
    have a5 : (top : ℚ) / 2 ^ 24 ≤ 1 / 8 := by
      have : (top : ℚ) ≤ 65535 := by exact_mod_cast h16
      rw [div_le_div_iff₀ (by positivity) (by norm_num)]
      norm_num
      linarith
    rw [abs_le]
    constructor <;> linarith [a3.1, a3.2, a4.1, a4.2]

/-- One channel. -/
theorem channelValue_level {top : Nat} (ht : 0 < top) (h16 : top ≤ 65535) (c : Fl) (hc : c ≠ .nan) :
    ∃ v, channelValue top c = some v ∧ v ≤ top ∧ IsChannelValue top c v := by
  have ht' : (0 : ℚ) < top := by exact_mod_cast ht
  have h16' : (top : ℚ) ≤ 65535 := by exact_mod_cast h16
  unfold channelValue
  cases c with
  | nan => exact absurd rfl hc
  | inf n => exact ⟨if n then 0 else top, rfl, (by split <;> omega), rfl⟩
  | num x =>
    obtain ⟨v, h1, h2⟩ := clampTop_isSome ht h16 (scale_ne_nan (k := (top : ℚ)) (a := .num x) (by intro h; cases h))
    refine ⟨v, h1, h2, h2, ?_, ?_, ?_, ?_⟩
    · intro hx
      have := clampTop_dark (top := top) (dark_scale (a := .num x) ht' hx)
      rw [this] at h1
      exact (Option.some.inj h1).symm
    · intro hx
      have := clampTop_bright ht (atLeast_scale (p := 1) (s := top) (a := .num x) (by norm_num) ht' ht' hx
        (by rw [mul_one]; exact f32_nat top (by omega)))
      rw [this] at h1
      exact (Option.some.inj h1).symm
    · intro hx0 hx1
      have e0 : (0 : ℚ) ≤ top * x := mul_nonneg ht'.le hx0
      have e1 : (top : ℚ) * x ≤ top := by
        have := mul_le_mul_of_nonneg_left hx1 ht'.le
        rwa [mul_one] at this
      have e2 : (Fl.num x).scale top = .num (f32 (top * x)) :=
        ofRat_small (n := top) (by omega) (by rw [abs_of_nonneg e0]; exact e1)
      rw [e2] at h1
      obtain ⟨v', h3, -, h4⟩ := clampTop_num ht h16 (f32 (top * x))
      rw [h3] at h1
      obtain rfl := Option.some.inj h1
      have e3 : f32 (top * x) ≤ top := by
        have := f32_mono e1
        rwa [f32_nat top (by omega)] at this
      have e4 := h4 (f32_nonneg e0) e3
      have e5 := f32_err (top * x)
      rw [abs_of_nonneg e0] at e5
      have e6 : (top : ℚ) * x / 2 ^ 24 ≤ (top + 1) / 2 ^ 24 := div_le_div_of_nonneg_right (by linarith) (by positivity)
      have e7 := abs_le.1 (le_trans e5 e6)
      have e8 := abs_le.1 e4
      have e9 : 2 * ((top : ℚ) + 1) / 2 ^ 24 = (top + 1) / 2 ^ 24 + (top + 1) / 2 ^ 24 := by ring
      rw [e9, abs_le]
      constructor <;> linarith [e7.1, e7.2, e8.1, e8.2]
    · rintro k hk rfl
      have := channelValue_exact ht h16 hk
      unfold channelValue at this
      rw [this] at h1
      exact (Option.some.inj h1).symm

/-- The sum of components between 0 and 1. -/
theorem sum_unit {c : Colour} {r g b : ℚ} (h : UnitColour c r g b) :
    ∃ s, c.sum = .num s ∧ 0 ≤ s ∧ s ≤ 3 ∧ |s - (r + g + b)| ≤ 6 / 2 ^ 24 := by
  obtain ⟨rfl, ⟨r0, r1⟩, ⟨g0, g1⟩, b0, b1⟩ := h
  have a0 : 0 ≤ f32 (r + g) := f32_nonneg (by linarith)
  have a1 : f32 (r + g) ≤ 2 := by
    have := f32_mono (show r + g ≤ ((2 : ℕ) : ℚ) by push_cast; linarith)
    rw [f32_nat 2 (by norm_num)] at this
    exact_mod_cast this
  have s0 : 0 ≤ f32 (f32 (r + g) + b) := f32_nonneg (by linarith)
  have s1 : f32 (f32 (r + g) + b) ≤ 3 := by
    have := f32_mono (show f32 (r + g) + b ≤ ((3 : ℕ) : ℚ) by push_cast; linarith)
    rw [f32_nat 3 (by norm_num)] at this
    exact_mod_cast this
  refine ⟨f32 (f32 (r + g) + b), ?_, s0, s1, ?_⟩
  · unfold Colour.sum Fl.add
    dsimp only
    have e : Fl.ofRat (r + g) = .num (f32 (r + g)) :=
      ofRat_small (n := 2) (by norm_num) (by rw [abs_of_nonneg (by linarith)]; push_cast; linarith)
    rw [e]
    dsimp only
    exact ofRat_small (n := 3) (by norm_num) (by rw [abs_of_nonneg (by linarith)]; push_cast; linarith)
  · have e1 := f32_err (r + g)
    rw [abs_of_nonneg (show 0 ≤ r + g by linarith)] at e1
    have e2 := f32_err (f32 (r + g) + b)
    rw [abs_of_nonneg (show 0 ≤ f32 (r + g) + b by linarith)] at e2
    have e3 : (r + g) / 2 ^ 24 ≤ 2 / 2 ^ 24 := div_le_div_of_nonneg_right (by linarith) (by positivity)
    have e4 : (f32 (r + g) + b) / 2 ^ 24 ≤ 3 / 2 ^ 24 := div_le_div_of_nonneg_right (by linarith) (by positivity)
    have e5 := abs_le.1 (le_trans e1 e3)
    have e6 := abs_le.1 (le_trans e2 e4)
    have e7 : (0 : ℚ) ≤ 1 / 2 ^ 24 := by positivity
    rw [abs_le]
    constructor <;> linarith [e5.1, e5.2, e6.1, e6.2]

theorem f32_third_int (top : Nat) (h16 : top ≤ 65535) : f32 (1 / 3 * (top * 3 : ℚ)) = top := by
  rw [show (1 / 3 * (top * 3 : ℚ)) = top by ring]
  exact f32_nat top (by omega)

/-- The grey value before rounding. -/
theorem grey_unit {top : Nat} (ht : 0 < top) (h16 : top ≤ 65535) {c : Colour} {r g b : ℚ} (h : UnitColour c r g b) :
    ∃ u, ((c.sum).scale top).scale (1 / 3) = .num u ∧ 0 ≤ u ∧ u ≤ top ∧ |u - top * ((r + g + b) / 3)| ≤ 4 * top / 2 ^ 24 := by
  obtain ⟨s, hs, s0, s1, s2⟩ := sum_unit h
  have ht' : (0 : ℚ) < top := by exact_mod_cast ht
  have t0 : (0 : ℚ) ≤ top * s := mul_nonneg ht'.le s0
  have t1 : (top : ℚ) * s ≤ (3 * top : ℕ) := by
    have := mul_le_mul_of_nonneg_left s1 ht'.le
    push_cast; linarith
  have e1 : (c.sum).scale top = .num (f32 (top * s)) := by
    rw [hs]
    exact ofRat_small (n := 3 * top) (by omega) (by rw [abs_of_nonneg t0]; exact t1)
  have f0 : 0 ≤ f32 (top * s) := f32_nonneg t0
  have f1 : f32 (top * s) ≤ 3 * top := by
    have := f32_mono t1
    rw [f32_nat (3 * top) (by omega)] at this
    exact_mod_cast this
  have g1 : 1 / 3 * f32 (top * s) ≤ top := by linarith
  have e2 : ((c.sum).scale top).scale (1 / 3) = .num (f32 (1 / 3 * f32 (top * s))) := by
    rw [e1]
    exact ofRat_small (n := top) (by omega) (by rw [abs_of_nonneg (by linarith)]; exact g1)
  refine ⟨_, e2, f32_nonneg (by linarith), ?_, ?_⟩
  · have := f32_mono g1
    rwa [f32_nat top (by omega)] at this
  · have a1 := f32_err (1 / 3 * f32 (top * s))
    rw [abs_of_nonneg (show (0 : ℚ) ≤ 1 / 3 * f32 (top * s) by linarith)] at a1
    have a2 := f32_err (top * s)
    rw [abs_of_nonneg t0] at a2
    have a3 : (1 / 3 * f32 (top * s)) / 2 ^ 24 ≤ (top : ℚ) / 2 ^ 24 := div_le_div_of_nonneg_right g1 (by positivity)
    have a4 : (top * s) / 2 ^ 24 ≤ (3 * top : ℚ) / 2 ^ 24 := div_le_div_of_nonneg_right (by push_cast at t1; linarith) (by positivity)
    have a5 := abs_le.1 (le_trans a1 a3)
    have a6 := abs_le.1 (le_trans a2 a4)
    have a7 : |top * s - top * (r + g + b)| ≤ top * (6 / 2 ^ 24) := by
      rw [← mul_sub, abs_mul, abs_of_pos ht']
      exact mul_le_mul_of_nonneg_left s2 ht'.le
    have a8 := abs_le.1 a7
    rw [abs_le]
    constructor <;> linarith [a5.1, a5.2, a6.1, a6.2, a8.1, a8.2]

theorem greyValue_exact {top : Nat} (ht : 0 < top) (h16 : top ≤ 65535) {k : Nat} (hk : k ≤ top) :
    greyValue top ⟨.num (f32 (k / top)), .num (f32 (k / top)), .num (f32 (k / top))⟩ = some k := by
  obtain ⟨c0, c1, c2⟩ := level_float ht hk
  obtain ⟨u, hu, u0, u1, u2⟩ := grey_unit ht h16 (c := ⟨.num (f32 (k / top)), .num (f32 (k / top)), .num (f32 (k / top))⟩)
    (r := f32 (k / top)) (g := f32 (k / top)) (b := f32 (k / top)) ⟨rfl, ⟨c0, c1⟩, ⟨c0, c1⟩, c0, c1⟩
  unfold greyValue
  rw [hu]
  refine clampTop_close ht h16 hk u0 u1 ?_
  have a4 := abs_le.1 c2
  have a5 : (top : ℚ) / 2 ^ 24 ≤ 1 / 200 := by
    have : (top : ℚ) ≤ 65535 := by exact_mod_cast h16
    rw [div_le_div_iff₀ (by positivity) (by norm_num)]
    norm_num
    linarith
  rw [show (f32 (k / top) + f32 (k / top) + f32 (k / top)) / 3 = f32 ((k : ℚ) / top) by ring] at u2
  have a6 := abs_le.1 u2
  have a7 : 4 * (top : ℚ) / 2 ^ 24 = 4 * (top / 2 ^ 24) := by ring
  rw [abs_le]
  constructor <;> linarith [a4.1, a4.2, a6.1, a6.2]

theorem greyValue_grey {top : Nat} (ht : 0 < top) (h16 : top ≤ 65535) (c : Colour) (hc : c.sum ≠ .nan) :
    ∃ v, greyValue top c = some v ∧ v ≤ top ∧ IsGreyValue top c v := by
  have ht' : (0 : ℚ) < top := by exact_mod_cast ht
  unfold greyValue
  obtain ⟨v, h1, h2⟩ := clampTop_isSome ht h16
    (scale_ne_nan (k := 1 / 3) (scale_ne_nan (k := (top : ℚ)) hc))
  refine ⟨v, h1, h2, h2, ?_, ?_, ?_, ?_⟩
  · intro hr hg hb
    have := clampTop_dark (top := top)
      (dark_scale (k := 1 / 3) (by norm_num) (dark_scale (k := (top : ℚ)) ht' (dark_add (dark_add hr hg) hb)))
    unfold Colour.sum at h1
    rw [this] at h1
    exact (Option.some.inj h1).symm
  · intro hr hg hb
    have k1 : ∀ {a : Fl}, Bright a → AtLeast 1 a := by
      intro a ha
      cases a <;> exact ha
    have s1 := atLeast_add (s := 2) (by norm_num) (by norm_num) (by norm_num) (k1 hr) (k1 hg)
      (by have := f32_nat 2 (by norm_num); norm_num at this ⊢; exact this)
    have s2 := atLeast_add (s := 3) (by norm_num) (by norm_num) (by norm_num) s1 (k1 hb)
      (by have := f32_nat 3 (by norm_num); norm_num at this ⊢; exact this)
    have s3 := atLeast_scale (k := (top : ℚ)) (s := top * 3) (by norm_num) ht' (by positivity) s2
      (by have := f32_nat (top * 3) (by omega); push_cast at this; exact this)
    have s4 := atLeast_scale (k := 1 / 3) (s := top) (by positivity) (by norm_num) ht' s3 (f32_third_int top h16)
    have := clampTop_bright ht s4
    unfold Colour.sum at h1
    rw [this] at h1
    exact (Option.some.inj h1).symm
  · intro r g b hu
    obtain ⟨u, hu1, u0, u1, u2⟩ := grey_unit ht h16 hu
    rw [hu1] at h1
    obtain ⟨v', h3, -, h4⟩ := clampTop_num ht h16 u
    rw [h3] at h1
    obtain rfl := Option.some.inj h1
    have e1 := abs_le.1 (h4 u0 u1)
    have e2 := abs_le.1 u2
    have e3 : 5 * ((top : ℚ) + 1) / 2 ^ 24 = 4 * top / 2 ^ 24 + (top + 1) / 2 ^ 24 + 4 / 2 ^ 24 := by ring
    have e4 : (0 : ℚ) ≤ 4 / 2 ^ 24 := by positivity
    rw [e3, abs_le]
    constructor <;> linarith [e1.1, e1.2, e2.1, e2.2]
  · rintro k hk rfl
    have := greyValue_exact ht h16 hk
    unfold greyValue at this
    rw [this] at h1
    exact (Option.some.inj h1).symm

/-! ## Order -/

theorem clampTop_mono {top : Nat} (ht : 0 < top) (h16 : top ≤ 65535) {x y : ℚ} (h : x ≤ y) {v w : Nat}
    (hv : clampTop top (.num x) = some v) (hw : clampTop top (.num y) = some w) : v ≤ w := by
  have hv' : v ≤ top := by
    obtain ⟨v', h1, h2, -⟩ := clampTop_num ht h16 x
    rw [h1] at hv; cases hv; exact h2
  simp only [clampTop, Option.some.injEq] at hv hw
  by_cases hx : x ≤ 0
  · rw [if_pos hx] at hv; omega
  rw [if_neg hx] at hv
  rw [if_neg (show ¬ y ≤ 0 by linarith [lt_of_not_ge hx])] at hw
  by_cases hy : (top : ℚ) ≤ y
  · rw [if_pos hy] at hw; omega
  rw [if_neg hy] at hw
  rw [if_neg (show ¬ (top : ℚ) ≤ x by linarith [lt_of_not_ge hy])] at hv
  have := Int.floor_mono (f32_mono (show x + 1 / 2 ≤ y + 1 / 2 by linarith))
  omega

theorem channelValue_mono {top : Nat} (ht : 0 < top) (h16 : top ≤ 65535) {x y : ℚ} (h : x ≤ y) {v w : Nat}
    (hv : channelValue top (.num x) = some v) (hw : channelValue top (.num y) = some w) : v ≤ w := by
  have ht' : (0 : ℚ) < top := by exact_mod_cast ht
  have hxy : (top : ℚ) * x ≤ top * y := mul_le_mul_of_nonneg_left h ht'.le
  obtain ⟨v', a1, a2, -⟩ := channelValue_level ht h16 (.num x) (by intro h; cases h)
  rw [a1] at hv; cases hv
  by_cases hx : x ≤ 0
  · have := clampTop_dark (top := top) (dark_scale (a := .num x) ht' hx)
    unfold channelValue at a1
    rw [this] at a1
    cases a1
    omega
  by_cases hy : 1 ≤ y
  · have := clampTop_bright ht (atLeast_scale (p := 1) (s := top) (a := .num y) (by norm_num) ht' ht' hy
      (by rw [mul_one]; exact f32_nat top (by omega)))
    unfold channelValue at hw
    rw [this] at hw
    cases hw
    exact a2
  have hx0 := lt_of_not_ge hx
  have hy1 := lt_of_not_ge hy
  have hs : ∀ z : ℚ, 0 < z → z < 1 → (Fl.num z).scale top = .num (f32 (top * z)) := by
    intro z z0 z1
    refine ofRat_small (n := top) (by omega) ?_
    rw [abs_of_nonneg (mul_nonneg ht'.le z0.le)]
    have := mul_le_mul_of_nonneg_left z1.le ht'.le
    rwa [mul_one] at this
  unfold channelValue at a1 hw
  rw [hs x hx0 (by linarith)] at a1
  rw [hs y (by linarith) hy1] at hw
  exact clampTop_mono ht h16 (f32_mono hxy) a1 hw

/-! ## Memory -/

theorem memset_fill_post (w base : Nat) (v : UInt8) (b : Buf) (h1 : base + w ≤ b.size) :
    ∃ b', b.memset base v w = some b' ∧ RowPost 1 w base (fun _ => true) (fun _ _ => v) b b' := by
  unfold Buf.memset
  rw [if_pos h1]
  refine ⟨_, rfl, rfl, ?_, ?_⟩
  · intro x j hx hj
    simp only [if_true]
    rw [if_pos ⟨by omega, by omega⟩]
  · intro i hi
    simp only
    rw [if_neg]
    rintro ⟨h3, h4⟩
    exact hi (i - base) 0 (by omega) (by omega) (by omega)

theorem pixel_post (bpp base : Nat) (px : Nat → UInt8) (b : Buf) (h : base + bpp ≤ b.size) :
    ∃ b', loop bpp (fun j b => b.write (base + j) (px j)) b = some b' ∧ b'.size = b.size ∧
      ∀ i, b'.get i = if base ≤ i ∧ i < base + bpp then px (i - base) else b.get i := by
  obtain ⟨b', h1, h2⟩ := loop_inv
    (fun n b' => b'.size = b.size ∧ ∀ i, b'.get i = if base ≤ i ∧ i < base + n then px (i - base) else b.get i)
    (fun j b => b.write (base + j) (px j)) bpp b
    ⟨rfl, fun i => by rw [if_neg (by omega)]⟩
    (by
      intro j s hj ⟨hs1, hs2⟩
      refine ⟨{ s with get := fun k => if k = base + j then px j else s.get k }, if_pos (by omega), hs1, ?_⟩
      intro i
      dsimp only
      by_cases hi : i = base + j
      · subst hi
        rw [if_pos rfl, if_pos ⟨by omega, by omega⟩]
        congr 1
        omega
      · rw [if_neg hi, hs2 i]
        by_cases h3 : base ≤ i ∧ i < base + j
        · rw [if_pos h3, if_pos ⟨h3.1, by omega⟩]
        · rw [if_neg h3, if_neg (by omega)])
  exact ⟨b', h1, h2⟩

/-- Every pixel has the bytes `px`. -/
structure Filled (bpp : Nat) (px : Nat → UInt8) (bm out : Bitmap) : Prop where
  shape : OnlyPixels bpp bm out
  bytes : ∀ x y j, x < bm.w → y < bm.h → j < bpp → out.byteAt bpp x y j = px j

theorem filled_of_block {bpp : Nat} {px : Nat → UInt8} {bm : Bitmap} {b : Buf}
    (h : BlockPost bpp bm.w bm.h 0 bm.stride (fun _ _ => true) (fun _ _ j => px j) bm.buf b) :
    Filled bpp px bm { bm with buf := b } := by
  refine ⟨⟨rfl, rfl, rfl, h.size, ?_⟩, ?_⟩
  · intro i hi
    refine h.outside i fun x y j hx hy hj => ?_
    have := hi x y j hx hy hj
    omega
  · intro x y j hx hy hj
    have := h.inside x y j hx hy hj
    rw [if_pos rfl, Nat.zero_add] at this
    exact this

theorem row_fits {bpp : Nat} {bm : Bitmap} (hwf : bm.WF bpp) {y : Nat} (hy : y < bm.h) : y * bm.stride + bm.w * bpp ≤ bm.buf.size :=
  row_in hy (hwf.2 (by omega))

theorem fillRows8_post (v : UInt8) (bm : Bitmap) (hwf : bm.WF 1) :
    ∃ b, fillRows8 v bm = some b ∧ Filled 1 (fun _ => v) bm { bm with buf := b } := by
  obtain ⟨b, h1, h2⟩ := blockLoop_post 1 bm.w bm.h 0 bm.stride (fun _ _ => true) (fun _ _ _ => v) bm.buf
    (fun y b => b.memset (y * bm.stride) v bm.w) hwf.1 (by
      intro y b hy hb
      have := row_fits hwf hy
      obtain ⟨b', e1, e2⟩ := memset_fill_post bm.w (0 + y * bm.stride) v b (by omega)
      rw [Nat.zero_add] at e1
      exact ⟨b', e1, e2⟩)
  exact ⟨b, h1, filled_of_block h2⟩

theorem fillRows_post (bpp : Nat) (px : Nat → UInt8) (bm : Bitmap) (hwf : bm.WF bpp) :
    ∃ b, fillRows bpp px bm = some b ∧ Filled bpp px bm { bm with buf := b } := by
  obtain ⟨b, h1, h2⟩ := blockLoop_post bpp bm.w bm.h 0 bm.stride (fun _ _ => true) (fun _ _ j => px j) bm.buf
    (fun y b => loop bm.w (fun x b => loop bpp (fun j b => b.write (y * bm.stride + x * bpp + j) (px j)) b) b) hwf.1 (by
      intro y b hy hb
      have hr := row_fits hwf hy
      obtain ⟨b', e1, e2⟩ := rowLoop_post bpp bm.w (0 + y * bm.stride) (fun _ => true) (fun _ j => px j) b
        (fun x b => loop bpp (fun j b => b.write (y * bm.stride + x * bpp + j) (px j)) b) (by
          intro x b1 hx hb1
          have hx' : x * bpp + bpp ≤ bm.w * bpp := row_lt hx
          obtain ⟨b2, f1, f2, f3⟩ := pixel_post bpp (y * bm.stride + x * bpp) px b1 (by omega)
          refine ⟨b2, f1, f2, fun i => ?_⟩
          rw [f3 i, Nat.zero_add]
          simp only [true_and])
      exact ⟨b', e1, e2⟩)
  exact ⟨b, h1, filled_of_block h2⟩

theorem fill_of_bytes {enc : Fl → Nat → UInt8} {pt : PixelType} {bm : Bitmap} {c : Colour} {px : Nat → UInt8}
    (hwf : bm.WF (fillBytes pt)) (h : pixelBytesOf enc pt c = .ok px) :
    ∃ out, fill enc pt bm c = .ok out ∧ Filled (fillBytes pt) px bm out := by
  unfold fill
  rw [h]
  dsimp only
  by_cases hp : pt = .Gray8
  · subst hp
    rw [if_pos rfl]
    obtain ⟨b, h1, h2⟩ := fillRows8_post (px 0) bm hwf
    rw [h1]
    refine ⟨_, rfl, h2.shape, fun x y j hx hy hj => ?_⟩
    have hj' : j < 1 := hj
    have : j = 0 := by omega
    subst this
    exact h2.bytes x y 0 hx hy (by omega)
  · rw [if_neg hp]
    obtain ⟨b, h1, h2⟩ := fillRows_post (fillBytes pt) px bm hwf
    rw [h1]
    exact ⟨_, rfl, h2⟩

theorem byte16_value (v : Nat) (h : v ≤ 65535) : (byte16 v 0).toNat + 256 * (byte16 v 1).toNat = v := by
  unfold byte16
  rw [if_pos rfl, if_neg (by omega), UInt8.toNat_ofNat_of_lt' (show _ < 256 by omega),
    UInt8.toNat_ofNat_of_lt' (show _ < 256 by omega)]
  omega

end Verif.Fill
