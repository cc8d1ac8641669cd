import Verif.Proof.Spline
import Verif.Props.Lut

/-!
# C76: splines, and look-up tables from splines (C75)
-/

namespace Verif
open Verif.Lut Verif.Flt Verif.Czi Verif.Spec

/-- **C75 (table from splines).** For `0 ≤ black ≤ white ≤ 1` — except if there is exactly one index between the points — and pieces that begin between 0
and 1 and have coefficients of at most a million, the table has exactly as many values as asked for, is 0 below the black point and
255 from the white point on; in between it is 255 times the value of the piece for the position, truncated and restricted to 0…255, up to
the error of the computation. -/
theorem C75_spline {l : List Piece} {C : ℚ} {n : Nat} {black white : ℚ} (hne : l ≠ [])
    (hl : ∀ q ∈ l, (0 ≤ q.x ∧ q.x ≤ 1) ∧ |q.p.a| ≤ C ∧ |q.p.b| ≤ C ∧ |q.p.c| ≤ C ∧ |q.p.d| ≤ C) (hC : C ≤ 10 ^ 6)
    (hn : n ≤ 2 ^ 24) (hb : 0 ≤ black) (hbw : black ≤ white) (hw : white ≤ 1) (h1 : Spec.cut n white ≠ Spec.cut n black + 1) :
    ∃ t, splineTable f64 n black white l = .ok t ∧
      IsTable n (Spec.cut n black) (Spec.cut n white) 255 (fun k v =>
        let x := f64 ((k : ℚ) / ((Spec.cut n white : ℚ) - Spec.cut n black - 1))
        ∃ q, PieceFor x l q ∧ |(v : ℚ) - toByteRange (255 * polyValue q.p (x - q.x))| ≤ 1 + C / 2 ^ 32) t := by
  have hhi := cut_le hn hw
  have hlh : Spec.cut n black ≤ Spec.cut n white := cut_mono hbw
  set lo := Spec.cut n black with hlo
  set hi := Spec.cut n white with hhi'
  have hex : ∀ k, lo + k < hi → ∃ v, splineEntry f64 l lo hi k = .ok v ∧ v ≤ 255 ∧
      ∃ q, PieceFor (dpos lo hi k) l q ∧ |(v : ℚ) - toByteRange (255 * polyValue q.p (dpos lo hi k - q.x))| ≤ 1 + C / 2 ^ 32 := by
    intro k hk
    obtain ⟨q, _, hq⟩ := pieceIndex_for (dpos lo hi k) hne
    obtain ⟨v, hv, h255, hn⟩ := splineEntry_near hl hC hk h1 hq
    exact ⟨v, hv, h255, q, hq, hn⟩
  choose! g hg hg255 hgq using hex
  obtain ⟨t, ht, hT, _⟩ := table_ok (M := 255) (f := splineEntry f64 l lo hi) (g := g) (R := fun k v =>
        let x := f64 ((k : ℚ) / ((hi : ℚ) - lo - 1))
        ∃ q, PieceFor x l q ∧ |(v : ℚ) - toByteRange (255 * polyValue q.p (x - q.x))| ≤ 1 + C / 2 ^ 32) hlh hhi hg
    (fun k hk => ⟨hg255 k hk, hgq k hk⟩)
  refine ⟨t, ?_, hT⟩
  unfold splineTable
  dsimp only
  rw [cutIndex_eq hn hb, cutIndex_eq hn (le_trans hb hbw)]
  exact ht

/-- The hypotheses are met: the identity (one piece). -/
example := C75_spline (l := [⟨0, 0, 0, 1, 0⟩]) (C := 1) (n := 256) (black := 0) (white := 1) (by simp)
  (by intro q hq; simp at hq; subst hq; norm_num) (by norm_num) (by norm_num) (by norm_num) (by norm_num) (by norm_num)
  (by rw [cut_zero, cut_one (by norm_num)]; norm_num)

/-- **C75 (table from splines, no pieces).** With an empty list the call throws if there are indices between the points. -/
theorem C75_spline_empty {n : Nat} {black white : ℚ} (rd : ℚ → ℚ) (hn : n ≤ 2 ^ 24) (hb : 0 ≤ black) (hw : 0 ≤ white)
    (h : Spec.cut n black < Spec.cut n white) : splineTable rd n black white [] = .throws := by
  unfold splineTable
  dsimp only
  rw [cutIndex_eq hn hb, cutIndex_eq hn hw]
  unfold table
  rw [collect_throws _ _ (by omega)]
  · rfl
  · unfold splineEntry
    split
    · rfl
    · unfold splineValue
      split
      · rfl
      · rfl

example : splineTable f64 256 0 1 [] = .throws :=
  C75_spline_empty f64 (by norm_num) (by norm_num) (by norm_num) (by rw [cut_zero, cut_one (by norm_num)]; norm_num)

/-- **C75 (violated: one index between the points, splines).** As for gamma: undefined behaviour. -/
theorem C75_spline_one_index_violated {n : Nat} {black white : ℚ} (rd : ℚ → ℚ) {l : List Piece} (hne : l ≠ []) (hn : n ≤ 2 ^ 24) (hb : 0 ≤ black)
    (hw : 0 ≤ white) (h : Spec.cut n white = Spec.cut n black + 1) : splineTable rd n black white l = .undefined := by
  unfold splineTable
  dsimp only
  rw [cutIndex_eq hn hb, cutIndex_eq hn hw, h]
  unfold table
  rw [collect_stop _ _ (by omega)]
  · rfl
  · unfold splineEntry
    rw [if_pos (by push_cast; omega), if_neg hne]

/-- **C75 (never too short, splines).** -/
theorem C75_spline_never_short {n : Nat} {black white : ℚ} (rd : ℚ → ℚ) {l : List Piece} {t : List Nat} (h : splineTable rd n black white l = .ok t) :
    n ≤ t.length := by
  unfold splineTable at h
  dsimp only at h
  have := table_length h
  omega

/-! ## C76 -/

theorem through_eq (ctrl : List (ℚ × ℚ)) (i : Nat) (hi : i ≤ ctrl.length + 1) : curvePoint ctrl i = through ctrl i := by
  unfold curvePoint through
  cases i with
  | zero => simp
  | succ i =>
    rw [if_neg (by omega)]
    by_cases h : i = ctrl.length
    · subst h
      simp
    · rw [if_neg (by omega)]
      have hlt : i < ctrl.length := by omega
      simp [List.getElem?_append_left hlt, hlt]

theorem coefficients_natural {solve : Solver} (hsolve : Solves solve) {n : Nat} {pt : Nat → ℚ × ℚ} (hs : ∀ i < n, 1 / 1000 ≤ gap pt i) (hn : 0 < n) :
    NaturalSpline n pt (pieceCoeffs exact pt (secondCoeff exact solve n pt)) := by
  obtain ⟨b0, bn, he⟩ := second_equations hsolve hs hn
  refine natural_of_equations (fun i hi => by have := hs i hi; linarith) ?_ b0 bn he
  intro i hi
  refine pieceCoeffs_eq ?_
  have := hs i hi
  rw [abs_of_nonneg (by linarith)]
  linarith

theorem natural_congr {n : Nat} {pt pt' : Nat → ℚ × ℚ} {p : Nat → Coeffs} (h : NaturalSpline n pt p) (he : ∀ i ≤ n, pt i = pt' i) : NaturalSpline n pt' p := by
  refine ⟨?_, ?_, ?_, ?_, h.left, ?_⟩
  · intro i hi; rw [← he i hi.le]; exact h.starts i hi
  · intro i hi; rw [← he i hi.le, ← he (i + 1) hi]; exact h.ends i hi
  · intro i hi; rw [← he i (by omega), ← he (i + 1) hi.le]; exact h.slope i hi
  · intro i hi; rw [← he i (by omega), ← he (i + 1) hi.le]; exact h.bend i hi
  · intro i hi; rw [← he i (by omega), ← he (i + 1) (by omega)]; exact h.right i hi

theorem splineData_eq (rd : ℚ → ℚ) (solve : Solver) (ctrl : List (ℚ × ℚ)) :
    splineData rd solve ctrl = .ok ((List.range (ctrl.length + 1)).map fun i =>
      ⟨(through ctrl i).1, pieceCoeffs rd (curvePoint ctrl) (secondCoeff rd solve (ctrl.length + 1) (curvePoint ctrl)) i⟩) := by
  unfold splineData splineCoefficients
  rw [if_neg (by omega)]
  change Outcome.ok _ = _
  rw [show ctrl.length + 2 - 1 = ctrl.length + 1 by omega]
  congr 1
  rw [List.length_map, List.length_range]
  refine List.map_congr_left fun i hi => ?_
  rw [List.mem_range] at hi
  rw [← through_eq ctrl i (by omega)]
  have e : (if i = 0 then (0 : ℚ) else (curvePoint ctrl i).1) = (curvePoint ctrl i).1 := by
    split
    · rename_i h; subst h; simp [curvePoint]
    · rfl
  rw [e, List.getElem?_map, List.getElem?_range hi]
  rfl

theorem spaced_gap {ctrl : List (ℚ × ℚ)} (h : Spaced ctrl) : ∀ i < ctrl.length + 1, 1 / 1000 ≤ gap (curvePoint ctrl) i := by
  intro i hi
  have := h i (by omega)
  unfold gap
  rw [through_eq ctrl i (by omega), through_eq ctrl (i + 1) (by omega)]
  linarith

/-- **C76 (the curve is the natural cubic spline).** For control points from left to right with distances of at least 1/1000 the result has one
piece per interval; piece `i` begins at point `i` (the first one at 0), and the polynomials are the natural cubic spline through (0,0), the
control points and (1,1). Partial: in exact arithmetic, for a solver that solves the (always solvable) linear system exactly. -/
theorem C76_natural_partial {solve : Solver} (hsolve : Solves solve) {ctrl : List (ℚ × ℚ)} (h : Spaced ctrl) :
    ∃ l p, splineData exact solve ctrl = .ok l ∧ l.length = ctrl.length + 1 ∧ (∀ i ≤ ctrl.length, l[i]? = some ⟨(through ctrl i).1, p i⟩) ∧
      NaturalSpline (ctrl.length + 1) (through ctrl) p := by
  refine ⟨_, pieceCoeffs exact (curvePoint ctrl) (secondCoeff exact solve (ctrl.length + 1) (curvePoint ctrl)), splineData_eq exact solve ctrl, ?_, ?_, ?_⟩
  · simp
  · intro i hi
    rw [List.getElem?_map, List.getElem?_range (by omega)]
    rfl
  · exact natural_congr (coefficients_natural hsolve (spaced_gap h) (by omega)) (fun i hi => through_eq ctrl i hi)

/-- **C76 (there is only one).** The natural cubic spline through points with positive distances is unique. -/
theorem C76_unique {n : Nat} {pt : Nat → ℚ × ℚ} (hpos : ∀ i < n, (pt i).1 < (pt (i + 1)).1) {p q : Nat → Coeffs} (hp : NaturalSpline n pt p)
    (hq : NaturalSpline n pt q) : ∀ i < n, p i = q i := by
  intro i hi
  have hg : ∀ i < n, 0 < gap pt i := fun i hi => by unfold gap; have := hpos i hi; linarith
  obtain ⟨p1, p2, p3⟩ := equations_of_natural hg hp
  obtain ⟨q1, q2, q3⟩ := equations_of_natural hg hq
  dsimp only at p1 p2 p3 q1 q2 q3
  obtain ⟨k, rfl⟩ : ∃ k, n = k + 1 := ⟨n - 1, by omega⟩
  have hB := rows_injective (gap pt) k (fun i hi => hg i (by omega))
    (fun i => (if k + 1 ≤ i then 0 else (p i).b) - (if k + 1 ≤ i then 0 else (q i).b))
    (by rw [p2 (by omega), q2 (by omega), sub_self]) (by rw [if_pos (le_refl _), if_pos (le_refl _), sub_self])
    (fun i hi => by
      have e1 := p3 i (by omega)
      have e2 := q3 i (by omega)
      linarith)
  have hb : ∀ i ≤ k + 1, (if k + 1 ≤ i then 0 else (p i).b) = (if k + 1 ≤ i then 0 else (q i).b) := fun i hi => sub_eq_zero.1 (hB i hi)
  rw [p1 i hi, q1 i hi, hb i (by omega), hb (i + 1) (by omega)]

/-- **C76 (through the points).** Whatever the solver computes, the polynomial of an interval that is not shorter than a ten-millionth begins at its left
point and ends at its right point (exact arithmetic). -/
theorem C76_through_partial (solve : Solver) {ctrl : List (ℚ × ℚ)} {i : Nat} (hi : i ≤ ctrl.length)
    (hd : 1 / 10000000 ≤ |(through ctrl (i + 1)).1 - (through ctrl i).1|) :
    ∃ l p, splineData exact solve ctrl = .ok l ∧ l[i]? = some ⟨(through ctrl i).1, p⟩ ∧ polyValue p 0 = (through ctrl i).2 ∧
      polyValue p ((through ctrl (i + 1)).1 - (through ctrl i).1) = (through ctrl (i + 1)).2 := by
  refine ⟨_, pieceCoeffs exact (curvePoint ctrl) (secondCoeff exact solve (ctrl.length + 1) (curvePoint ctrl)) i, splineData_eq exact solve ctrl, ?_, ?_⟩
  · rw [List.getElem?_map, List.getElem?_range (by omega)]
    rfl
  · have e1 := through_eq ctrl i (by omega)
    have e2 := through_eq ctrl (i + 1) (by omega)
    have hg : 1 / 10000000 ≤ |gap (curvePoint ctrl) i| := by unfold gap; rw [e1, e2]; exact hd
    have h0 : gap (curvePoint ctrl) i ≠ 0 := by
      intro h; rw [h, abs_zero] at hg; norm_num at hg
    rw [pieceCoeffs_eq hg, ← e1, ← e2]
    constructor
    · unfold polyValue; ring
    · change polyValue _ (gap (curvePoint ctrl) i) = _
      unfold polyValue
      dsimp only
      field_simp
      ring

/-- There is such a solver. -/
theorem exists_solver : ∃ solve : Solver, Solves solve := by
  classical
  refine ⟨fun k A r => if h : ∃ x : Nat → ℚ, ∀ i < k, ∑ j ∈ Finset.range k, A i j * x j = r i then Classical.choose h else fun _ => 0, ?_⟩
  intro k A r h i hi
  dsimp only
  rw [dif_pos h]
  exact Classical.choose_spec h i hi

private theorem spaced_one : Spaced [(1 / 4, 1 / 2)] := by
  intro i hi
  have : i = 0 ∨ i = 1 := by simp at hi; omega
  rcases this with rfl | rfl <;> simp [through] <;> norm_num

/-- The hypotheses are met: a curve with one control point. -/
example : ∃ solve, ∃ l p, splineData exact solve [(1 / 4, 1 / 2)] = .ok l ∧ l.length = 2 ∧
    (∀ i ≤ 1, l[i]? = some ⟨(through [(1 / 4, 1 / 2)] i).1, p i⟩) ∧ NaturalSpline 2 (through [(1 / 4, 1 / 2)]) p := by
  obtain ⟨solve, hs⟩ := exists_solver
  exact ⟨solve, C76_natural_partial hs spaced_one⟩

example : (1 : ℚ) / 10000000 ≤ |(through [(1 / 4, 1 / 2)] 1).1 - (through [(1 / 4, 1 / 2)] 0).1| := by
  simp [through]; norm_num

theorem through_zero (ctrl : List (ℚ × ℚ)) : through ctrl 0 = (0, 0) := by simp [through]

theorem through_last (ctrl : List (ℚ × ℚ)) : through ctrl (ctrl.length + 1) = (1, 1) := by simp [through]

theorem spaced_mono {ctrl : List (ℚ × ℚ)} (h : Spaced ctrl) : ∀ d i, i + d ≤ ctrl.length + 1 → (through ctrl i).1 + d / 1000 ≤ (through ctrl (i + d)).1
  | 0, i, _ => by simp
  | d + 1, i, hd => by
    have h1 := spaced_mono h d i (by omega)
    have h2 := h (i + d) (by omega)
    rw [show i + (d + 1) = i + d + 1 by omega]
    push_cast
    linarith

/-- **C76 (the value of the curve).** Between point `i` and point `i+1` the value that is used for a table is the value of polynomial `i` of the natural
spline; at the points it is exactly their y-coordinate. Partial: exact arithmetic, as above. -/
theorem C76_value_partial {solve : Solver} (hsolve : Solves solve) {ctrl : List (ℚ × ℚ)} (h : Spaced ctrl) :
    ∃ l p, splineData exact solve ctrl = .ok l ∧ NaturalSpline (ctrl.length + 1) (through ctrl) p ∧
      (∀ i ≤ ctrl.length, ∀ x, (through ctrl i).1 ≤ x → x ≤ (through ctrl (i + 1)).1 →
        splineValue exact x l = .ok (polyValue (p i) (x - (through ctrl i).1))) ∧
      ∀ i ≤ ctrl.length + 1, splineValue exact (through ctrl i).1 l = .ok (through ctrl i).2 := by
  obtain ⟨l, p, hl, hlen, hget, hN⟩ := C76_natural_partial hsolve h
  have inside : ∀ i ≤ ctrl.length, ∀ x, (through ctrl i).1 ≤ x → x ≤ (through ctrl (i + 1)).1 → 0 ≤ x ∧ x ≤ 1 := by
    intro i hi x h1 h2
    have a1 := spaced_mono h i 0 (by omega)
    have a2 := spaced_mono h (ctrl.length + 1 - (i + 1)) (i + 1) (by omega)
    rw [through_zero, Nat.zero_add] at a1
    rw [show i + 1 + (ctrl.length + 1 - (i + 1)) = ctrl.length + 1 by omega, through_last] at a2
    have p1 : (0 : ℚ) ≤ (i : ℚ) / 1000 := by positivity
    have p2 : (0 : ℚ) ≤ ((ctrl.length + 1 - (i + 1) : ℕ) : ℚ) / 1000 := by positivity
    dsimp only at a1 a2
    constructor <;> linarith
  -- strictly inside (or at the right end), and at the very beginning
  have piece : ∀ i ≤ ctrl.length, ∀ x, ((through ctrl i).1 < x ∨ i = 0) → (through ctrl i).1 ≤ x → x ≤ (through ctrl (i + 1)).1 →
      splineValue exact x l = .ok (polyValue (p i) (x - (through ctrl i).1)) := by
    intro i hi x hs h1 h2
    have hpf : PieceFor x l ⟨(through ctrl i).1, p i⟩ := by
      refine ⟨i, hget i hi, hs, ?_⟩
      intro j q' hj hq'
      have hjl : j < l.length := by
        by_contra hc
        rw [List.getElem?_eq_none (by omega)] at hq'
        cases hq'
      have e := hget j (by omega)
      rw [hq'] at e
      cases e
      have := spaced_mono h (j - (i + 1)) (i + 1) (by omega)
      rw [show i + 1 + (j - (i + 1)) = j by omega] at this
      have p2 : (0 : ℚ) ≤ ((j - (i + 1) : ℕ) : ℚ) / 1000 := by positivity
      dsimp only
      linarith
    rw [splineValue_eq exact (inside i hi x h1 h2) hpf]
    congr 1
    unfold pieceValue polyValue exact
    ring
  have full : ∀ i ≤ ctrl.length, ∀ x, (through ctrl i).1 ≤ x → x ≤ (through ctrl (i + 1)).1 →
      splineValue exact x l = .ok (polyValue (p i) (x - (through ctrl i).1)) := by
    intro i hi x h1 h2
    rcases eq_or_lt_of_le h1 with he | hlt
    · cases i with
      | zero => exact piece 0 hi x (Or.inr rfl) h1 h2
      | succ i =>
        -- the left point belongs to the piece before, which ends there
        have hg := h i (by omega)
        rw [piece i (by omega) x (Or.inl (by linarith)) (by linarith) (by linarith), ← he, sub_self, hN.starts (i + 1) (by omega),
          hN.ends i (by omega)]
    · exact piece i hi x (Or.inl hlt) h1 h2
  refine ⟨l, p, hl, hN, full, ?_⟩
  intro i hi
  by_cases hlast : i = ctrl.length + 1
  · subst hlast
    have hg := h ctrl.length (le_refl _)
    rw [full ctrl.length (le_refl _) _ (by linarith) (le_refl _), hN.ends ctrl.length (by omega)]
  · have hg := h i (by omega)
    rw [full i (by omega) _ (le_refl _) (by linarith), sub_self, hN.starts i (by omega)]

/-- **C76 (violated: control points close together).** With a control point closer than 1/1000 to the left end (and not at height 0) the curve has a
kink: the slopes of the two polynomials at the control point differ by `y * (1/x - 1000)`. -/
theorem C76_kink_violated {solve : Solver} (hsolve : Solves solve) {x y : ℚ} (hx : 1 / 10000000 ≤ x) (hx' : x < 1 / 1000) :
    ∃ p q, splineData exact solve [(x, y)] = .ok [⟨0, p⟩, ⟨x, q⟩] ∧ polySlope p x - polySlope q 0 = y * (1 / x - 1000) := by
  have hx0 : x ≠ 0 := by intro h; rw [h] at hx; norm_num at hx
  have h1x : 1 - x ≠ 0 := by intro h; linarith
  have hA : splineMatrix exact (curvePoint [(x, y)]) 0 0 = 2 := by
    unfold splineMatrix carriedX stepX exact curvePoint
    simp
  have hsol := hsolve 1 (splineMatrix exact (curvePoint [(x, y)])) (splineRhs exact (curvePoint [(x, y)]))
    ⟨fun _ => splineRhs exact (curvePoint [(x, y)]) 0 / 2, by
      intro i hi
      obtain rfl : i = 0 := by omega
      rw [Finset.sum_range_one, hA]
      ring⟩ 0 (by omega)
  rw [Finset.sum_range_one] at hsol
  have hR : splineRhs exact (curvePoint [(x, y)]) 0 = 3 * ((1 - y) / (1 - x) - y * 1000) := by
    unfold splineRhs atLeast stepX stepY exact curvePoint
    simp
    rw [if_neg (by rw [abs_of_nonneg (by linarith)]; norm_num; linarith), if_pos (by rw [abs_of_nonneg (by linarith)]; norm_num at hx' ⊢; exact hx')]
    ring
  set B := solve 1 (splineMatrix exact (curvePoint [(x, y)])) (splineRhs exact (curvePoint [(x, y)])) 0 with hB
  rw [hA, hR] at hsol
  have hb : ∀ i, secondCoeff exact solve 2 (curvePoint [(x, y)]) i = if i = 1 then B else 0 := by
    intro i
    unfold secondCoeff
    by_cases h : i = 1
    · subst h; rw [if_neg (by omega), if_pos rfl]
    · rw [if_pos (by omega), if_neg h]
  have g0 : gap (curvePoint [(x, y)]) 0 = x := by unfold gap curvePoint; simp
  have g1 : gap (curvePoint [(x, y)]) 1 = 1 - x := by unfold gap curvePoint; simp
  refine ⟨pieceCoeffs exact (curvePoint [(x, y)]) (secondCoeff exact solve 2 (curvePoint [(x, y)])) 0,
    pieceCoeffs exact (curvePoint [(x, y)]) (secondCoeff exact solve 2 (curvePoint [(x, y)])) 1, ?_, ?_⟩
  · rw [splineData_eq]
    simp [through, List.range_succ]
  · rw [pieceCoeffs_eq (by rw [g0, abs_of_nonneg (by linarith)]; exact hx),
      pieceCoeffs_eq (by rw [g1, abs_of_nonneg (by linarith)]; linarith)]
    rw [g0, g1, hb, hb, hb]
    unfold polySlope
    simp only [if_true, curvePoint]
    norm_num
    have e : B = 3 * ((1 - y) / (1 - x) - y * 1000) / 2 := by linarith
    rw [e]
    field_simp
    ring

/-- The hypotheses are met, and the kink is there: a control point at (1/2000, 1/2). -/
example : (1 : ℚ) / 10000000 ≤ 1 / 2000 ∧ (1 : ℚ) / 2000 < 1 / 1000 ∧ (1 / 2 : ℚ) * (1 / (1 / 2000) - 1000) = 500 := by norm_num

end Verif
