import Verif.Proof.SplineTable
import Mathlib.LinearAlgebra.Matrix.ToLin
import Mathlib.LinearAlgebra.FiniteDimensional.Basic
import Mathlib.Algebra.BigOperators.Fin

namespace Verif.Lut
open Verif.Flt Verif.Czi Verif.Spec

/-- Exact arithmetic. -/
def exact (x : ℚ) : ℚ := x

/-- The step to the next point. -/
def gap (pt : Nat → ℚ × ℚ) (i : Nat) : ℚ := (pt (i + 1)).1 - (pt i).1

/-- Row `i` of the system, where `B (j + 1)` is unknown number `j`. -/
theorem row_sum (s : Nat → ℚ) (A : Nat → Nat → ℚ) (k : Nat) (hd : ∀ i < k, A i i = 2 * (s i + s (i + 1))) (hr : ∀ i, A i (i + 1) = s (i + 1))
    (hl : ∀ i, A (i + 1) i = s (i + 1)) (h0 : ∀ i j, i ≠ j → j ≠ i + 1 → i ≠ j + 1 → A i j = 0) (B : Nat → ℚ) (hB0 : B 0 = 0)
    (hBk : B (k + 1) = 0) (i : Nat) (hi : i < k) :
    ∑ j ∈ Finset.range k, A i j * B (j + 1) = s i * B i + 2 * (s i + s (i + 1)) * B (i + 1) + s (i + 1) * B (i + 2) := by
  have hterm : ∀ j, A i j * B (j + 1) = (if j + 1 = i then s i * B i else 0) + (if j = i then 2 * (s i + s (i + 1)) * B (i + 1) else 0) +
      (if j = i + 1 then s (i + 1) * B (i + 2) else 0) := by
    intro j
    by_cases e1 : j + 1 = i
    · subst e1
      rw [hl, if_pos rfl, if_neg (by omega), if_neg (by omega)]; ring
    · by_cases e2 : j = i
      · subst e2
        rw [hd j hi, if_neg (by omega), if_pos rfl, if_neg (by omega)]; ring
      · by_cases e3 : j = i + 1
        · subst e3
          rw [hr, if_neg (by omega), if_neg (by omega), if_pos rfl]; ring
        · rw [h0 i j (by omega) e3 (by omega), if_neg e1, if_neg e2, if_neg e3]; ring
  rw [Finset.sum_congr rfl fun j _ => hterm j, Finset.sum_add_distrib, Finset.sum_add_distrib]
  have t2 : ∑ j ∈ Finset.range k, (if j = i then 2 * (s i + s (i + 1)) * B (i + 1) else 0) = 2 * (s i + s (i + 1)) * B (i + 1) := by
    rw [Finset.sum_ite_eq' (Finset.range k) i, if_pos (Finset.mem_range.2 hi)]
  have t3 : ∑ j ∈ Finset.range k, (if j = i + 1 then s (i + 1) * B (i + 2) else 0) = s (i + 1) * B (i + 2) := by
    rw [Finset.sum_ite_eq' (Finset.range k) (i + 1)]
    split
    · rfl
    · rename_i h
      have : i + 1 = k := by rw [Finset.mem_range] at h; omega
      rw [show i + 2 = k + 1 by omega, hBk, mul_zero]
  have t1 : ∑ j ∈ Finset.range k, (if j + 1 = i then s i * B i else 0) = s i * B i := by
    cases i with
    | zero =>
      rw [hB0, mul_zero]
      refine Finset.sum_eq_zero fun j _ => ?_
      rw [if_neg (by omega)]
    | succ i =>
      have : ∀ j, (if j + 1 = i + 1 then s (i + 1) * B (i + 1) else 0) = if j = i then s (i + 1) * B (i + 1) else 0 := by
        intro j
        by_cases h : j = i
        · rw [if_pos h, if_pos (by omega)]
        · rw [if_neg h, if_neg (by omega)]
      rw [Finset.sum_congr rfl fun j _ => this j, Finset.sum_ite_eq' (Finset.range k) i, if_pos (Finset.mem_range.2 (by omega))]
  rw [t1, t2, t3]

/-- The system with the right-hand side 0 has only the solution 0 if all steps are positive. -/
theorem rows_injective (s : Nat → ℚ) (k : Nat) (hs : ∀ i ≤ k, 0 < s i) (B : Nat → ℚ) (hB0 : B 0 = 0) (hBk : B (k + 1) = 0)
    (h : ∀ i < k, s i * B i + 2 * (s i + s (i + 1)) * B (i + 1) + s (i + 1) * B (i + 2) = 0) : ∀ i ≤ k + 1, B i = 0 := by
  obtain ⟨m, hm, hmax⟩ := Finset.exists_max_image (Finset.range (k + 2)) (fun i => |B i|) ⟨0, by simp⟩
  have hz : B m = 0 := by
    by_cases h0 : m = 0
    · rw [h0]; exact hB0
    by_cases hk : m = k + 1
    · rw [hk]; exact hBk
    have hmk : m < k + 2 := Finset.mem_range.1 hm
    obtain ⟨i, rfl⟩ : ∃ i, m = i + 1 := ⟨m - 1, by omega⟩
    have e := h i (by omega)
    have a1 := hmax i (Finset.mem_range.2 (by omega))
    have a2 := hmax (i + 2) (Finset.mem_range.2 (by omega))
    have s1 := hs i (by omega)
    have s2 := hs (i + 1) (by omega)
    have e' : 2 * (s i + s (i + 1)) * B (i + 1) = -(s i * B i) - s (i + 1) * B (i + 2) := by linarith
    have ha : 2 * (s i + s (i + 1)) * |B (i + 1)| ≤ s i * |B i| + s (i + 1) * |B (i + 2)| := by
      have := congrArg abs e'
      rw [abs_mul, abs_of_pos (by linarith : (0 : ℚ) < 2 * (s i + s (i + 1)))] at this
      rw [this]
      have := abs_sub (-(s i * B i)) (s (i + 1) * B (i + 2))
      rw [abs_neg, abs_mul, abs_mul, abs_of_pos s1, abs_of_pos s2] at this
      exact this
    have b1 : s i * |B i| ≤ s i * |B (i + 1)| := mul_le_mul_of_nonneg_left a1 s1.le
    have b2 : s (i + 1) * |B (i + 2)| ≤ s (i + 1) * |B (i + 1)| := mul_le_mul_of_nonneg_left a2 s2.le
    have hn := abs_nonneg (B (i + 1))
    have : (s i + s (i + 1)) * |B (i + 1)| ≤ 0 := by linarith
    have : |B (i + 1)| ≤ 0 := by
      by_contra hc
      have := mul_pos (by linarith : 0 < s i + s (i + 1)) (not_le.1 hc)
      linarith
    exact abs_eq_zero.1 (le_antisymm this hn)
  intro i hi
  have := hmax i (Finset.mem_range.2 (by omega))
  rw [hz, abs_zero] at this
  exact abs_eq_zero.1 (le_antisymm this (abs_nonneg _))

/-- A square system with only the trivial solution for 0 has a solution for every right-hand side. -/
theorem solvable (k : Nat) (A : Nat → Nat → ℚ) (hinj : ∀ x : Nat → ℚ, (∀ i < k, ∑ j ∈ Finset.range k, A i j * x j = 0) → ∀ j < k, x j = 0)
    (r : Nat → ℚ) : ∃ x : Nat → ℚ, ∀ i < k, ∑ j ∈ Finset.range k, A i j * x j = r i := by
  let M : Matrix (Fin k) (Fin k) ℚ := fun i j => A i j
  have hsum : ∀ (x : Fin k → ℚ) (i : Fin k), ∑ j ∈ Finset.range k, A i j * (if h : j < k then x ⟨j, h⟩ else 0) = M.mulVec x i := by
    intro x i
    rw [Finset.sum_range]
    refine Finset.sum_congr rfl fun j _ => ?_
    rw [dif_pos j.2]
  have hi : Function.Injective (Matrix.toLin' M) := by
    rw [← LinearMap.ker_eq_bot, LinearMap.ker_eq_bot']
    intro x hx
    have := hinj (fun j => if h : j < k then x ⟨j, h⟩ else 0) (fun i hi => by
      rw [hsum x ⟨i, hi⟩]
      exact congrFun hx ⟨i, hi⟩)
    funext j
    have h := this j j.2
    rw [dif_pos j.2] at h
    exact h
  obtain ⟨x, hx⟩ := (LinearMap.injective_iff_surjective.1 hi) (fun i => r i)
  refine ⟨fun j => if h : j < k then x ⟨j, h⟩ else 0, fun i hi => ?_⟩
  rw [hsum x ⟨i, hi⟩]
  exact congrFun hx ⟨i, hi⟩

/-! ## The coefficients in exact arithmetic -/

theorem matrix_facts {k : Nat} {pt : Nat → ℚ × ℚ} (hs : ∀ i ≤ k, 1 / 1000 ≤ gap pt i) :
    (∀ i < k, splineMatrix exact pt i i = 2 * (gap pt i + gap pt (i + 1))) ∧ (∀ i, splineMatrix exact pt i (i + 1) = gap pt (i + 1)) ∧
    (∀ i, splineMatrix exact pt (i + 1) i = gap pt (i + 1)) ∧
    (∀ i j, i ≠ j → j ≠ i + 1 → i ≠ j + 1 → splineMatrix exact pt i j = 0) := by
  have hat : ∀ i ≤ k, atLeast exact (gap pt i) = gap pt i := by
    intro i hi
    unfold atLeast
    have := hs i hi
    rw [if_neg]
    rw [abs_of_nonneg (by linarith)]
    exact not_lt.2 this
  have hc : ∀ i ≤ k, carriedX exact pt i = gap pt i := by
    intro i hi
    unfold carriedX
    split
    · rename_i h; subst h; rfl
    · exact hat i hi
  refine ⟨?_, ?_, ?_, ?_⟩
  · intro i hi
    unfold splineMatrix
    rw [if_pos rfl, hc i hi.le]; rfl
  · intro i
    unfold splineMatrix
    rw [if_neg (by omega), if_pos rfl]; rfl
  · intro i
    unfold splineMatrix
    rw [if_neg (by omega), if_neg (by omega), if_pos rfl]; rfl
  · intro i j h1 h2 h3
    unfold splineMatrix
    rw [if_neg h1, if_neg h2, if_neg h3]

/-- The right-hand side. -/
theorem rhs_fact {k : Nat} {pt : Nat → ℚ × ℚ} (hs : ∀ i ≤ k, 1 / 1000 ≤ gap pt i) (i : Nat) (hi : i < k) :
    splineRhs exact pt i = 3 * (((pt (i + 2)).2 - (pt (i + 1)).2) / gap pt (i + 1) - ((pt (i + 1)).2 - (pt i).2) / gap pt i) := by
  have hat : ∀ i ≤ k, atLeast exact (gap pt i) = gap pt i := by
    intro i hi
    unfold atLeast
    have := hs i hi
    rw [if_neg]
    rw [abs_of_nonneg (by linarith)]
    exact not_lt.2 this
  have e1 : atLeast exact (stepX exact pt (i + 1)) = gap pt (i + 1) := hat (i + 1) hi
  have e2 : atLeast exact (stepX exact pt i) = gap pt i := hat i hi.le
  unfold splineRhs
  rw [e1, e2]
  rfl

/-- The equations for the second coefficients hold for the result of the solver. -/
theorem second_equations {solve : Solver} (hsolve : Solves solve) {n : Nat} {pt : Nat → ℚ × ℚ} (hs : ∀ i < n, 1 / 1000 ≤ gap pt i) (hn : 0 < n) :
    let b := secondCoeff exact solve n pt
    b 0 = 0 ∧ b n = 0 ∧ ∀ i, i + 1 < n → gap pt i * b i + 2 * (gap pt i + gap pt (i + 1)) * b (i + 1) + gap pt (i + 1) * b (i + 2) =
      3 * (((pt (i + 2)).2 - (pt (i + 1)).2) / gap pt (i + 1) - ((pt (i + 1)).2 - (pt i).2) / gap pt i) := by
  obtain ⟨k, rfl⟩ : ∃ k, n = k + 1 := ⟨n - 1, by omega⟩
  have hs : ∀ i ≤ k, 1 / 1000 ≤ gap pt i := fun i hi => hs i (by omega)
  obtain ⟨hd, hr, hl, h0⟩ := matrix_facts hs
  have hpos : ∀ i ≤ k, 0 < gap pt i := fun i hi => by have := hs i hi; linarith
  have b0 : secondCoeff exact solve (k + 1) pt 0 = 0 := by unfold secondCoeff; rw [if_pos (Or.inl rfl)]
  have bn : secondCoeff exact solve (k + 1) pt (k + 1) = 0 := by unfold secondCoeff; rw [if_pos (Or.inr (le_refl _))]
  refine ⟨b0, bn, ?_⟩
  have hsol := hsolve k (splineMatrix exact pt) (splineRhs exact pt) (solvable k _ (by
    intro x hx j hj
    let B : Nat → ℚ := fun i => if i = 0 ∨ k + 1 ≤ i then 0 else x (i - 1)
    have hB0 : B 0 = 0 := by simp [B]
    have hBk : B (k + 1) = 0 := by simp [B]
    have hB : ∀ j < k, B (j + 1) = x j := by
      intro j hj
      simp only [B]
      rw [if_neg (by omega)]; rfl
    have := rows_injective (gap pt) k hpos B hB0 hBk (fun i hi => by
      rw [← row_sum (gap pt) (splineMatrix exact pt) k hd hr hl h0 B hB0 hBk i hi, ← hx i hi]
      exact Finset.sum_congr rfl fun j hj => by rw [hB j (Finset.mem_range.1 hj)])
    rw [← hB j hj]
    exact this (j + 1) (by omega)) _)
  intro i hi
  have hB : ∀ j < k, secondCoeff exact solve (k + 1) pt (j + 1) = solve k (splineMatrix exact pt) (splineRhs exact pt) j := by
    intro j hj
    unfold secondCoeff
    rw [if_neg (by omega)]; rfl
  rw [← row_sum (gap pt) (splineMatrix exact pt) k hd hr hl h0 (secondCoeff exact solve (k + 1) pt) b0 bn i (by omega), ← rhs_fact hs i (by omega),
    ← hsol i (by omega)]
  exact Finset.sum_congr rfl fun j hj => by rw [hB j (Finset.mem_range.1 hj)]

/-- The coefficients of a piece whose step is not tiny. -/
theorem pieceCoeffs_eq {pt : Nat → ℚ × ℚ} {b : Nat → ℚ} {i : Nat} (h : 1 / 10000000 ≤ |gap pt i|) :
    pieceCoeffs exact pt b i = ⟨(b (i + 1) - b i) / (3 * gap pt i), b i,
      ((pt (i + 1)).2 - (pt i).2) / gap pt i - gap pt i * (b (i + 1) + 2 * b i) / 3, (pt i).2⟩ := by
  unfold pieceCoeffs
  dsimp only
  rw [if_neg (show ¬ |stepX exact pt i| < exact (1 / 10000000) from not_lt.2 h)]
  rfl

/-- The pieces made from second coefficients that satisfy the equations are the natural spline. -/
theorem natural_of_equations {n : Nat} {pt : Nat → ℚ × ℚ} {b : Nat → ℚ} {p : Nat → Coeffs} (hpos : ∀ i < n, 0 < gap pt i)
    (hp : ∀ i < n, p i = ⟨(b (i + 1) - b i) / (3 * gap pt i), b i,
      ((pt (i + 1)).2 - (pt i).2) / gap pt i - gap pt i * (b (i + 1) + 2 * b i) / 3, (pt i).2⟩)
    (b0 : b 0 = 0) (bn : b n = 0)
    (he : ∀ i, i + 1 < n → gap pt i * b i + 2 * (gap pt i + gap pt (i + 1)) * b (i + 1) + gap pt (i + 1) * b (i + 2) =
      3 * (((pt (i + 2)).2 - (pt (i + 1)).2) / gap pt (i + 1) - ((pt (i + 1)).2 - (pt i).2) / gap pt i)) :
    NaturalSpline n pt p := by
  refine ⟨?_, ?_, ?_, ?_, ?_, ?_⟩
  · intro i hi
    rw [hp i hi]; unfold polyValue; ring
  · intro i hi
    have h0 := (hpos i hi).ne'
    rw [hp i hi]; unfold polyValue
    change (b (i + 1) - b i) / (3 * gap pt i) * gap pt i ^ 3 + b i * gap pt i ^ 2 + _ * gap pt i + (pt i).2 = _
    dsimp only
    field_simp
    ring
  · intro i hi
    have h0 := (hpos i (by omega)).ne'
    have h1 := (hpos (i + 1) hi).ne'
    have e := he i hi
    rw [hp i (by omega), hp (i + 1) hi]; unfold polySlope
    change 3 * ((b (i + 1) - b i) / (3 * gap pt i)) * gap pt i ^ 2 + 2 * b i * gap pt i + _ = 3 * _ * 0 ^ 2 + 2 * b (i + 1) * 0 + _
    dsimp only
    have t : 3 * ((b (i + 1) - b i) / (3 * gap pt i)) * gap pt i ^ 2 = (b (i + 1) - b i) * gap pt i := by field_simp
    rw [t]
    rw [show i + 1 + 1 = i + 2 from rfl]
    linarith
  · intro i hi
    have h0 := (hpos i (by omega)).ne'
    rw [hp i (by omega), hp (i + 1) hi]; unfold polyBend
    change 6 * ((b (i + 1) - b i) / (3 * gap pt i)) * gap pt i + 2 * b i = 6 * _ * 0 + 2 * b (i + 1)
    field_simp
    ring
  · intro hn
    rw [hp 0 hn]; unfold polyBend
    dsimp only
    rw [b0]; ring
  · intro i hi
    subst hi
    have h0 := (hpos i (by omega)).ne'
    rw [hp i (by omega)]; unfold polyBend
    change 6 * ((b (i + 1) - b i) / (3 * gap pt i)) * gap pt i + 2 * b i = 0
    rw [bn]
    field_simp
    ring

/-- A natural spline satisfies the equations. -/
theorem equations_of_natural {n : Nat} {pt : Nat → ℚ × ℚ} {p : Nat → Coeffs} (hpos : ∀ i < n, 0 < gap pt i) (h : NaturalSpline n pt p) :
    let b : Nat → ℚ := fun i => if n ≤ i then 0 else (p i).b
    (∀ i < n, p i = ⟨(b (i + 1) - b i) / (3 * gap pt i), b i,
      ((pt (i + 1)).2 - (pt i).2) / gap pt i - gap pt i * (b (i + 1) + 2 * b i) / 3, (pt i).2⟩) ∧ (0 < n → b 0 = 0) ∧
    ∀ i, i + 1 < n → gap pt i * b i + 2 * (gap pt i + gap pt (i + 1)) * b (i + 1) + gap pt (i + 1) * b (i + 2) =
      3 * (((pt (i + 2)).2 - (pt (i + 1)).2) / gap pt (i + 1) - ((pt (i + 1)).2 - (pt i).2) / gap pt i) := by
  dsimp only
  have hb : ∀ i < n, 6 * (p i).a * gap pt i + 2 * (p i).b = 2 * (if n ≤ i + 1 then 0 else (p (i + 1)).b) := by
    intro i hi
    by_cases hl : i + 1 = n
    · rw [if_pos (by omega)]
      have := h.right i hl
      unfold polyBend at this
      change 6 * (p i).a * gap pt i + 2 * (p i).b = 0 at this
      linarith
    · rw [if_neg (by omega)]
      have := h.bend i (by omega)
      unfold polyBend at this
      change 6 * (p i).a * gap pt i + 2 * (p i).b = _ at this
      linarith
  have hpc : ∀ i < n, p i = ⟨((if n ≤ i + 1 then 0 else (p (i + 1)).b) - (if n ≤ i then 0 else (p i).b)) / (3 * gap pt i), (if n ≤ i then 0 else (p i).b),
      ((pt (i + 1)).2 - (pt i).2) / gap pt i - gap pt i * ((if n ≤ i + 1 then 0 else (p (i + 1)).b) + 2 * (if n ≤ i then 0 else (p i).b)) / 3, (pt i).2⟩ := by
    intro i hi
    have h0 := (hpos i hi).ne'
    have e := hb i hi
    generalize (if n ≤ i + 1 then 0 else (p (i + 1)).b) = b1 at e ⊢
    rw [if_neg (by omega : ¬ n ≤ i)]
    have hs := h.starts i hi
    have hen := h.ends i hi
    unfold polyValue at hs hen
    change (p i).a * gap pt i ^ 3 + (p i).b * gap pt i ^ 2 + (p i).c * gap pt i + (p i).d = _ at hen
    have hd : (p i).d = (pt i).2 := by linarith
    have ha : (p i).a = (b1 - (p i).b) / (3 * gap pt i) := by
      rw [eq_div_iff (by positivity)]; linarith
    have hc : (p i).c = ((pt (i + 1)).2 - (pt i).2) / gap pt i - gap pt i * (b1 + 2 * (p i).b) / 3 := by
      rw [hd] at hen
      have : b1 = 3 * (p i).a * gap pt i + (p i).b := by linarith
      rw [this]
      field_simp
      linarith
    rcases hq : p i with ⟨a, b, c, d⟩
    rw [hq] at ha hc hd
    dsimp only at ha hc hd
    dsimp only
    rw [← ha, ← hc, ← hd]
  refine ⟨hpc, ?_, ?_⟩
  · intro hn
    rw [if_neg (by omega)]
    have := h.left hn
    unfold polyBend at this
    linarith
  · intro i hi
    have h0 := (hpos i (by omega)).ne'
    have h1 := (hpos (i + 1) hi).ne'
    have e := h.slope i hi
    have c1 := congrArg Coeffs.c (hpc i (by omega))
    have c2 := congrArg Coeffs.c (hpc (i + 1) hi)
    have a1 := congrArg Coeffs.a (hpc i (by omega))
    dsimp only at c1 c2 a1
    unfold polySlope at e
    change 3 * (p i).a * gap pt i ^ 2 + 2 * (p i).b * gap pt i + (p i).c = _ at e
    rw [show i + 1 + 1 = i + 2 from rfl] at c2
    have bi : (if n ≤ i then 0 else (p i).b) = (p i).b := if_neg (by omega)
    have bi1 : (if n ≤ i + 1 then 0 else (p (i + 1)).b) = (p (i + 1)).b := if_neg (by omega)
    rw [bi, bi1] at c1 a1 ⊢
    rw [bi1] at c2
    have e' : 3 * (p i).a * gap pt i ^ 2 = ((p (i + 1)).b - (p i).b) * gap pt i := by
      rw [a1]; field_simp
    rw [e', c1, c2] at e
    linarith

end Verif.Lut
