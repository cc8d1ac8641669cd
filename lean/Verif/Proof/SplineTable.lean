import Verif.Proof.LutToe
import Verif.Spec.Spline

namespace Verif.Lut
open Verif.Flt Verif.Czi Verif.Spec

theorem pieceIndex_spec (x : ℚ) : ∀ (l : List Piece) (i index : Nat), index ≤ i →
    let r := pieceIndex x l i index
    (r = index ∧ ∀ (j : Nat) (q : Piece), l[j]? = some q → x ≤ q.x) ∨
    (∃ (j : Nat) (q : Piece), r = i + j ∧ l[j]? = some q ∧ q.x < x ∧ ∀ (j' : Nat) (q' : Piece), j < j' → l[j']? = some q' → x ≤ q'.x)
  | [], i, index, _ => by left; exact ⟨rfl, by simp⟩
  | p :: l, i, index, h => by
    dsimp only
    unfold pieceIndex
    have ih := pieceIndex_spec x l (i + 1) (if p.x < x then i else index) (by split <;> omega)
    dsimp only at ih
    rcases ih with ⟨hr, hl⟩ | ⟨j, q, hr, hq, hx, hl⟩
    · by_cases hp : p.x < x
      · rw [if_pos hp] at hr
        rw [if_pos hp, hr]
        right
        refine ⟨0, p, rfl, rfl, hp, ?_⟩
        intro j' q' hj hq'
        match j', hj with
        | j' + 1, _ => exact hl j' q' hq'
      · rw [if_neg hp] at hr
        rw [if_neg hp, hr]
        left
        refine ⟨rfl, ?_⟩
        intro j q hq
        match j with
        | 0 => cases hq; exact not_lt.1 hp
        | j + 1 => exact hl j q hq
    · right
      refine ⟨j + 1, q, by rw [hr]; omega, hq, hx, ?_⟩
      intro j' q' hj hq'
      match j', hj with
      | j' + 1, hj => exact hl j' q' (by omega) hq'

theorem pieceIndex_for (x : ℚ) {l : List Piece} (h : l ≠ []) : ∃ q, l[pieceIndex x l 0 0]? = some q ∧ PieceFor x l q := by
  rcases pieceIndex_spec x l 0 0 (le_refl _) with ⟨hr, hl⟩ | ⟨j, q, hr, hq, hx, hl⟩
  · cases l with
    | nil => exact absurd rfl h
    | cons p l =>
      refine ⟨p, by rw [hr]; rfl, 0, rfl, Or.inr rfl, ?_⟩
      intro j q' _ hq'
      exact hl j q' hq'
  · refine ⟨q, by rw [hr, Nat.zero_add]; exact hq, j, hq, Or.inl hx, hl⟩

theorem pieceFor_unique {x : ℚ} {l : List Piece} {q q' : Piece} (h : PieceFor x l q) (h' : PieceFor x l q') : q = q' := by
  obtain ⟨i, hi, hx, hl⟩ := h
  obtain ⟨i', hi', hx', hl'⟩ := h'
  have : i = i' := by
    by_contra hne
    rcases Nat.lt_or_gt_of_ne hne with h | h
    · have := hl i' q' h hi'
      rcases hx' with hx' | hx'
      · linarith
      · omega
    · have := hl' i q h hi
      rcases hx with hx | hx
      · linarith
      · omega
  subst this
  rw [hi] at hi'
  exact Option.some.inj hi'

theorem splineValue_eq (rd : ℚ → ℚ) {x : ℚ} (hx : 0 ≤ x ∧ x ≤ 1) {l : List Piece} {q : Piece} (h : PieceFor x l q) :
    splineValue rd x l = .ok (pieceValue rd (rd (x - q.x)) q.p) := by
  have hne : l ≠ [] := by
    rintro rfl
    obtain ⟨i, hi, _⟩ := h
    simp at hi
  obtain ⟨q', hq', hf⟩ := pieceIndex_for x hne
  unfold splineValue
  rw [if_neg (by rintro (h | h) <;> linarith [hx.1, hx.2]), hq', pieceFor_unique hf h]

/-! ## Rounding errors -/

theorem f64_near {x u e B : ℚ} (h : |x - u| ≤ e) (hu : |u| ≤ B) : |f64 x - u| ≤ e + (B + e) / 2 ^ 53 := by
  have h1 := f64_err x
  have h2 : |x| ≤ B + e := by
    have := abs_sub_abs_le_abs_sub x u
    linarith
  have h3 : |x| / 2 ^ 53 ≤ (B + e) / 2 ^ 53 := by gcongr
  have := abs_sub_le (f64 x) x u
  linarith

/-- The coefficients of a polynomial are bounded by `C`. -/
def Bounded (C : ℚ) (p : Coeffs) : Prop := |p.a| ≤ C ∧ |p.b| ≤ C ∧ |p.c| ≤ C ∧ |p.d| ≤ C

theorem mul_near {x u y e B : ℚ} (h : |x - u| ≤ e) (hy : |y| ≤ B) : |x * y - u * y| ≤ e * B := by
  rw [← sub_mul, abs_mul]
  exact mul_le_mul h hy (abs_nonneg _) (le_trans (abs_nonneg _) h)

theorem abs_mul_le {x y A B : ℚ} (hx : |x| ≤ A) (hy : |y| ≤ B) : |x * y| ≤ A * B := by
  rw [abs_mul]; exact mul_le_mul hx hy (abs_nonneg _) (le_trans (abs_nonneg _) hx)

theorem pieceValue_near {z C : ℚ} {p : Coeffs} (hz : |z| ≤ 1) (hp : Bounded C p) :
    |pieceValue f64 z p - polyValue p z| ≤ C / 2 ^ 48 ∧ |polyValue p z| ≤ 4 * C := by
  obtain ⟨ha, hb, hc, hd⟩ := hp
  have hC : 0 ≤ C := le_trans (abs_nonneg _) ha
  unfold pieceValue polyValue
  dsimp only
  have hz2 : |z * z| ≤ 1 := by have := abs_mul_le hz hz; linarith
  have hz3 : |z * z * z| ≤ 1 := by have := abs_mul_le hz2 hz; linarith
  -- products
  have hzc := abs_mul_le hz hc
  have t1 : |f64 (z * p.c) - z * p.c| ≤ C / 2 ^ 53 := by
    have := f64_near (x := z * p.c) (u := z * p.c) (e := 0) (B := C) (by simp) (by linarith)
    linarith
  have y2 := f64_near (x := p.d + f64 (z * p.c)) (u := p.d + z * p.c) (e := C / 2 ^ 53) (B := 2 * C)
    (by rw [show p.d + f64 (z * p.c) - (p.d + z * p.c) = f64 (z * p.c) - z * p.c by ring]; exact t1)
    (by have := abs_add_le p.d (z * p.c); linarith)
  have p2 := f64_near (x := z * z) (u := z * z) (e := 0) (B := 1) (by simp) hz2
  have m2 := mul_near p2 hb
  have hzb := abs_mul_le hz2 hb
  have t2 := f64_near m2 (show |z * z * p.b| ≤ C by linarith)
  have y3 := f64_near (x := f64 (p.d + f64 (z * p.c)) + f64 (f64 (z * z) * p.b)) (u := p.d + z * p.c + z * z * p.b)
    (e := (C / 2 ^ 53 + (2 * C + C / 2 ^ 53) / 2 ^ 53) + ((0 + (1 + 0) / 2 ^ 53) * C + (C + (0 + (1 + 0) / 2 ^ 53) * C) / 2 ^ 53)) (B := 3 * C)
    (by
      rw [show f64 (p.d + f64 (z * p.c)) + f64 (f64 (z * z) * p.b) - (p.d + z * p.c + z * z * p.b) =
        (f64 (p.d + f64 (z * p.c)) - (p.d + z * p.c)) + (f64 (f64 (z * z) * p.b) - z * z * p.b) by ring]
      exact le_trans (abs_add_le _ _) (add_le_add y2 t2))
    (by have := abs_add_three p.d (z * p.c) (z * z * p.b); linarith)
  have m3 := mul_near p2 hz
  have p3 := f64_near m3 hz3
  have m4 := mul_near p3 ha
  have hza := abs_mul_le hz3 ha
  have t3 := f64_near m4 (show |z * z * z * p.a| ≤ C by linarith)
  have habs4 : |p.d + z * p.c + z * z * p.b + z * z * z * p.a| ≤ 4 * C := by
    have h1 := abs_add_three p.d (z * p.c) (z * z * p.b)
    have h2 := abs_add_le (p.d + z * p.c + z * z * p.b) (z * z * z * p.a)
    linarith
  have e0 : p.a * z ^ 3 + p.b * z ^ 2 + p.c * z + p.d = p.d + z * p.c + z * z * p.b + z * z * z * p.a := by ring
  rw [e0]
  refine ⟨?_, habs4⟩
  have y4 := le_trans (abs_add_le _ _) (add_le_add y3 t3)
  rw [show (f64 (f64 (p.d + f64 (z * p.c)) + f64 (f64 (z * z) * p.b)) - (p.d + z * p.c + z * z * p.b)) +
        (f64 (f64 (f64 (z * z) * z) * p.a) - z * z * z * p.a) =
      f64 (f64 (p.d + f64 (z * p.c)) + f64 (f64 (z * z) * p.b)) + f64 (f64 (f64 (z * z) * z) * p.a) -
        (p.d + z * p.c + z * z * p.b + z * z * z * p.a) by ring] at y4
  refine le_trans (f64_near y4 habs4) ?_
  clear y4 t3 m4 p3 m3 y3 t2 m2 p2 y2 t1
  norm_num
  linarith

/-- The value of a polynomial with bounded coefficients changes at most six times as fast as they are large. -/
theorem polyValue_lipschitz {z w C : ℚ} {p : Coeffs} (hz : |z| ≤ 1) (hw : |w| ≤ 1) (hp : Bounded C p) :
    |polyValue p z - polyValue p w| ≤ 6 * C * |z - w| := by
  obtain ⟨ha, hb, hc, hd⟩ := hp
  have hC : 0 ≤ C := le_trans (abs_nonneg _) ha
  have e : polyValue p z - polyValue p w = (p.a * (z * z + z * w + w * w) + p.b * (z + w) + p.c) * (z - w) := by
    unfold polyValue; ring
  rw [e, abs_mul]
  refine mul_le_mul_of_nonneg_right ?_ (abs_nonneg _)
  have h1 : |z * z + z * w + w * w| ≤ 3 := by
    have := abs_add_three (z * z) (z * w) (w * w)
    have a1 := abs_mul_le hz hz
    have a2 := abs_mul_le hz hw
    have a3 := abs_mul_le hw hw
    linarith
  have h2 : |z + w| ≤ 2 := by have := abs_add_le z w; linarith
  have := abs_add_three (p.a * (z * z + z * w + w * w)) (p.b * (z + w)) p.c
  have b1 := abs_mul_le ha h1
  have b2 := abs_mul_le hb h2
  linarith

/-- The conversion of a value to a byte. -/
def byteOf (v : ℚ) : Nat := if truncInt v < 0 then 0 else if 255 < truncInt v then 255 else (truncInt v).toNat

theorem byteOf_le (v : ℚ) : byteOf v ≤ 255 := by
  unfold byteOf; split
  · omega
  · split <;> omega

theorem byteOf_near {v y e : ℚ} (h : |v - y| ≤ e) : |(byteOf v : ℚ) - toByteRange y| ≤ 1 + e := by
  have he : 0 ≤ e := le_trans (abs_nonneg _) h
  rw [abs_le] at h ⊢
  unfold byteOf truncInt toByteRange
  by_cases h0 : 0 ≤ v
  · have f1 := Int.floor_le v
    have f2 := Int.lt_floor_add_one v
    have f0 : 0 ≤ ⌊v⌋ := Int.floor_nonneg.2 h0
    rw [if_pos h0, if_neg (not_lt.2 f0)]
    split
    · rename_i h255
      have : (256 : ℚ) ≤ (⌊v⌋ : ℚ) := by exact_mod_cast (by omega : (256 : ℤ) ≤ ⌊v⌋)
      push_cast
      rcases max_cases 0 (min 255 y) with ⟨m1, _⟩ | ⟨m1, _⟩ <;> rcases min_cases 255 y with ⟨m2, _⟩ | ⟨m2, _⟩ <;> rw [m1] <;> (try rw [m2]) <;>
        constructor <;> linarith [h.1, h.2]
    · rename_i h255
      have hle : (⌊v⌋ : ℚ) ≤ 255 := by exact_mod_cast not_lt.1 h255
      have hz : (0 : ℚ) ≤ (⌊v⌋ : ℚ) := by exact_mod_cast f0
      have e1 : ((⌊v⌋.toNat : ℕ) : ℚ) = (⌊v⌋ : ℚ) := by
        have : ((⌊v⌋.toNat : ℕ) : ℤ) = ⌊v⌋ := Int.toNat_of_nonneg f0
        exact_mod_cast congrArg (Int.cast : ℤ → ℚ) this
      rw [e1]
      rcases max_cases 0 (min 255 y) with ⟨m1, _⟩ | ⟨m1, _⟩ <;> rcases min_cases 255 y with ⟨m2, _⟩ | ⟨m2, _⟩ <;> rw [m1] <;> (try rw [m2]) <;>
        constructor <;> linarith [h.1, h.2]
  · have h0' : v < 0 := not_le.1 h0
    have c1 : (⌈v⌉ : ℤ) ≤ 0 := Int.ceil_le.2 (by push_cast; linarith)
    rw [if_neg h0]
    have goal0 : -(1 + e) ≤ ((0 : ℕ) : ℚ) - max 0 (min 255 y) ∧ ((0 : ℕ) : ℚ) - max 0 (min 255 y) ≤ 1 + e := by
      push_cast
      rcases max_cases 0 (min 255 y) with ⟨m1, _⟩ | ⟨m1, _⟩ <;> rcases min_cases 255 y with ⟨m2, _⟩ | ⟨m2, _⟩ <;> rw [m1] <;> (try rw [m2]) <;>
        constructor <;> linarith [h.1, h.2]
    split
    · exact goal0
    · rw [if_neg (by omega), show ⌈v⌉.toNat = 0 by omega]
      exact goal0

/-- The rounded position of value number `k`, as a `double`. -/
def dpos (lo hi k : Nat) : ℚ := f64 ((k : ℚ) / ((hi : ℚ) - lo - 1))

theorem dpos_bounds {lo hi k : Nat} (hk : lo + k < hi) (h1 : hi ≠ lo + 1) : 0 ≤ dpos lo hi k ∧ dpos lo hi k ≤ 1 := by
  have hd : (0 : ℚ) < (hi : ℚ) - lo - 1 := by
    have : (lo : ℚ) + 1 < hi := by exact_mod_cast (by omega : lo + 1 < hi)
    linarith
  have hk' : (k : ℚ) ≤ (hi : ℚ) - lo - 1 := by
    have : (lo : ℚ) + k + 1 ≤ hi := by exact_mod_cast (by omega : lo + k + 1 ≤ hi)
    linarith
  constructor
  · exact f64_nonneg (by positivity)
  · have : f64 ((k : ℚ) / ((hi : ℚ) - lo - 1)) ≤ f64 ((1 : ℤ) : ℚ) := f64_mono (by rw [div_le_iff₀ hd]; push_cast; linarith)
    rw [f64_int 1 (by norm_num), Int.cast_one] at this
    exact this

theorem f64_unit {x : ℚ} (h : |x| ≤ 1) : |f64 x| ≤ 1 := by
  rw [abs_le] at h ⊢
  have h1 := f64_mono (show x ≤ ((1 : ℤ) : ℚ) by push_cast; exact h.2)
  have h2 := f64_mono (show ((-1 : ℤ) : ℚ) ≤ x by push_cast; exact h.1)
  rw [f64_int 1 (by norm_num)] at h1
  rw [f64_int (-1) (by norm_num)] at h2
  push_cast at h1 h2
  exact ⟨h2, h1⟩

/-- A value of the table from splines. -/
theorem splineEntry_near {l : List Piece} {C : ℚ} (hl : ∀ q ∈ l, (0 ≤ q.x ∧ q.x ≤ 1) ∧ Bounded C q.p) (hC : C ≤ 10 ^ 6) {lo hi k : Nat}
    (hk : lo + k < hi) (h1 : hi ≠ lo + 1) {q : Piece} (hq : PieceFor (dpos lo hi k) l q) :
    ∃ v, splineEntry f64 l lo hi k = .ok v ∧ v ≤ 255 ∧ |(v : ℚ) - toByteRange (255 * polyValue q.p (dpos lo hi k - q.x))| ≤ 1 + C / 2 ^ 32 := by
  have hx := dpos_bounds hk h1
  have hmem : q ∈ l := by obtain ⟨i, hi, _⟩ := hq; exact List.mem_of_getElem? hi
  obtain ⟨hqx, hb⟩ := hl q hmem
  have hC0 : 0 ≤ C := le_trans (abs_nonneg _) hb.1
  unfold splineEntry
  rw [if_neg (by omega)]
  have e : (((hi : Int) - (lo : Int) - 1 : Int) : ℚ) = (hi : ℚ) - lo - 1 := by push_cast; ring
  rw [e]
  change ∃ v, (splineValue f64 (dpos lo hi k) l).bind _ = _ ∧ _
  rw [splineValue_eq f64 hx hq]
  set w := dpos lo hi k - q.x with hw
  have hw1 : |w| ≤ 1 := by rw [abs_le]; constructor <;> linarith [hx.1, hx.2, hqx.1, hqx.2]
  have hz1 := f64_unit hw1
  have hzw : |f64 w - w| ≤ 1 / 2 ^ 53 := le_trans (f64_err w) (by gcongr)
  obtain ⟨n1, n2⟩ := pieceValue_near hz1 hb
  have n3 := polyValue_lipschitz hz1 hw1 hb
  have n4 : 6 * C * |f64 w - w| ≤ 6 * C * (1 / 2 ^ 53) := mul_le_mul_of_nonneg_left hzw (by linarith)
  have n5 := (pieceValue_near hw1 hb).2
  set s := pieceValue f64 (f64 w) q.p with hs
  have n6 : |s - polyValue q.p w| ≤ C / 2 ^ 47 := by
    have := abs_sub_le s (polyValue q.p (f64 w)) (polyValue q.p w)
    norm_num at *
    linarith
  have n7 : |s * 255 - 255 * polyValue q.p w| ≤ 255 * (C / 2 ^ 47) := by
    rw [show s * 255 - 255 * polyValue q.p w = 255 * (s - polyValue q.p w) by ring, abs_mul]
    norm_num at *
    linarith
  have n8 := f64_near n7 (B := 255 * (4 * C)) (by rw [abs_mul]; norm_num at *; linarith)
  have n9 : |f64 (s * 255) - 255 * polyValue q.p w| ≤ C / 2 ^ 32 := by norm_num at *; linarith
  have n10 : |f64 (s * 255)| < 2 ^ 31 := by
    have := abs_sub_abs_le_abs_sub (f64 (s * 255)) (255 * polyValue q.p w)
    have h3 : |255 * polyValue q.p w| ≤ 255 * (4 * C) := by rw [abs_mul]; norm_num at *; linarith
    norm_num at *
    linarith
  refine ⟨byteOf (f64 (s * 255)), ?_, byteOf_le _, byteOf_near n9⟩
  change (if 2 ^ 31 ≤ |f64 (s * 255)| then _ else _) = _
  rw [if_neg (not_le.2 n10)]
  rfl

end Verif.Lut
