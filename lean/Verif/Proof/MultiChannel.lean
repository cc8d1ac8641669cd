import Verif.Spec.MultiChannel
import Verif.Proof.Float
import Verif.Proof.Blit

namespace Verif.Multi
open Blit Flt Spec

theorem castByte_ok {q : ℚ} (h0 : 0 ≤ q) (h1 : q < 256) :
    ∃ v, castByte q = some v ∧ (v.toNat : ℚ) ≤ q ∧ q < v.toNat + 1 := by
  refine ⟨_, if_pos ⟨by linarith, h1⟩, ?_⟩
  unfold truncInt
  rw [if_pos h0]
  have h2 := Int.floor_le q
  have h3 := Int.lt_floor_add_one q
  have h4 : 0 ≤ ⌊q⌋ := Int.floor_nonneg.mpr h0
  have h5 : ⌊q⌋ < 256 := by
    have : (⌊q⌋ : ℚ) < 256 := by linarith
    exact_mod_cast this
  have h6 : ((UInt8.ofNat ⌊q⌋.toNat).toNat : ℚ) = ⌊q⌋ := by
    rw [UInt8.toNat_ofNat']
    have : (⌊q⌋.toNat % 2 ^ 8 : Nat) = ⌊q⌋.toNat := by omega
    rw [this]
    have h7 : ((⌊q⌋.toNat : Int) : ℚ) = ⌊q⌋ := by rw [Int.toNat_of_nonneg h4]
    exact_mod_cast h7
  rw [h6]
  exact ⟨h2, h3⟩

theorem f32_bound {x : ℚ} (h : 0 ≤ x) : x - x / 2 ^ 24 ≤ f32 x ∧ f32 x ≤ x + x / 2 ^ 24 := by
  have h1 := f32_err x
  rw [abs_of_nonneg h] at h1
  have h2 := abs_le.mp h1
  constructor <;> linarith [h2.1, h2.2]

theorem f32_255half : f32 (255 + 1 / 2) = 255 + 1 / 2 := by
  have := f32_half 511 (by norm_num)
  norm_num at this ⊢
  exact this

theorem toByte_ok {z : ℚ} (h0 : 0 ≤ z) (h1 : z ≤ 255) :
    ∃ v, toByte z = some v ∧ |(v.toNat : ℚ) - z| ≤ 1 / 2 + 256 / 2 ^ 24 := by
  have h2 : f32 (z + 1 / 2) ≤ 255 + 1 / 2 := by
    rw [← f32_255half]; exact f32_mono (by linarith)
  have h3 : 0 ≤ f32 (z + 1 / 2) := f32_nonneg (by linarith)
  obtain ⟨v, hv, h4, h5⟩ := castByte_ok h3 (by linarith)
  refine ⟨v, hv, ?_⟩
  have h6 := f32_bound (x := z + 1 / 2) (by linarith)
  rw [abs_le]
  have h7 : (z + 1 / 2) / 2 ^ 24 ≤ 256 / 2 ^ 24 := by
    apply div_le_div_of_nonneg_right _ (by norm_num); linarith
  constructor <;> linarith [h6.1, h6.2]

/-- The float product of a float intensity close to `q` and a colour. -/
theorem product_ok {q f : ℚ} {c : Nat} (hf0 : 0 ≤ f) (hf1 : f ≤ 1) (hfq : |f - q| ≤ 1 / 2 ^ 24) (hc : c ≤ 255) :
    0 ≤ f32 (f * c) ∧ f32 (f * c) ≤ 255 ∧ |f32 (f * c) - q * c| ≤ 510 / 2 ^ 24 := by
  have hc' : (c : ℚ) ≤ 255 := by exact_mod_cast hc
  have hc0 : (0 : ℚ) ≤ c := by positivity
  have h1 : f * c ≤ 255 := by nlinarith
  have h0 : 0 ≤ f * c := by positivity
  refine ⟨f32_nonneg h0, ?_, ?_⟩
  · have := f32_int 255 (by norm_num)
    have h2 := f32_mono h1
    norm_num at this
    linarith
  · have h2 := f32_err (f * c)
    rw [abs_of_nonneg h0] at h2
    have h3 : f * c / 2 ^ 24 ≤ 255 / 2 ^ 24 := div_le_div_of_nonneg_right h1 (by norm_num)
    have h4 : |f * c - q * c| ≤ 255 / 2 ^ 24 := by
      rw [← sub_mul, abs_mul, abs_of_nonneg hc0]
      calc |f - q| * c ≤ 1 / 2 ^ 24 * 255 := mul_le_mul hfq hc' hc0 (by norm_num)
        _ = 255 / 2 ^ 24 := by norm_num
    calc |f32 (f * c) - q * c| = |(f32 (f * c) - f * c) + (f * c - q * c)| := by ring_nf
      _ ≤ |f32 (f * c) - f * c| + |f * c - q * c| := abs_add_le _ _
      _ ≤ 510 / 2 ^ 24 := by
        have : (510 : ℚ) / 2 ^ 24 = 255 / 2 ^ 24 + 255 / 2 ^ 24 := by norm_num
        linarith

theorem tinted_ok (tint : Nat → UInt8) {q f : ℚ} (hf0 : 0 ≤ f) (hf1 : f ≤ 1) (hfq : |f - q| ≤ 1 / 2 ^ 24) :
    ∃ c, tinted tint f = some c ∧ ∀ i, i < 3 → |((c i).toNat : ℚ) - q * (tint i).toNat| ≤ 1 / 2 + 1 / 16384 := by
  have key : ∀ i, ∃ v, toByte (f32 (f * (tint i).toNat)) = some v ∧
      |(v.toNat : ℚ) - q * (tint i).toNat| ≤ 1 / 2 + 1 / 16384 := by
    intro i
    have hb : (tint i).toNat ≤ 255 := by have := (tint i).toNat_lt; omega
    obtain ⟨h1, h2, h3⟩ := product_ok hf0 hf1 hfq hb
    obtain ⟨v, hv, h4⟩ := toByte_ok h1 h2
    refine ⟨v, hv, ?_⟩
    calc |(v.toNat : ℚ) - q * (tint i).toNat|
        = |((v.toNat : ℚ) - f32 (f * (tint i).toNat)) + (f32 (f * (tint i).toNat) - q * (tint i).toNat)| := by ring_nf
      _ ≤ _ := abs_add_le _ _
      _ ≤ (1 / 2 + 256 / 2 ^ 24) + 510 / 2 ^ 24 := by linarith
      _ ≤ 1 / 2 + 1 / 16384 := by norm_num
  obtain ⟨b, hb, hb'⟩ := key 0
  obtain ⟨g, hg, hg'⟩ := key 1
  obtain ⟨r, hr, hr'⟩ := key 2
  refine ⟨bgr b g r, by simp [tinted, hb, hg, hr], ?_⟩
  intro i hi
  rcases (by omega : i = 0 ∨ i = 1 ∨ i = 2) with rfl | rfl | rfl
  · simpa [bgr] using hb'
  · simpa [bgr] using hg'
  · simpa [bgr] using hr'

/-- A quotient `n/m` of integers at most 1, as a float. -/
theorem f32_unit {q : ℚ} (h0 : 0 ≤ q) (h1 : q ≤ 1) : 0 ≤ f32 q ∧ f32 q ≤ 1 ∧ |f32 q - q| ≤ 1 / 2 ^ 24 := by
  refine ⟨f32_nonneg h0, ?_, ?_⟩
  · have := f32_int 1 (by norm_num)
    have h2 := f32_mono h1
    norm_num at this
    linarith
  · have := f32_err q
    rw [abs_of_nonneg h0] at this
    have h3 : q / 2 ^ 24 ≤ 1 / 2 ^ 24 := div_le_div_of_nonneg_right h1 (by norm_num)
    linarith

/-- With an odd denominator there is no tie, and the floating-point error does not matter. -/
theorem nearest_of_odd {v : UInt8} {n m : Nat} (hm : m % 2 = 1) (hm' : m ≤ 765)
    (h : |(v.toNat : ℚ) - n / m| ≤ 1 / 2 + 1 / 16384) : NearestByte v (n / m) := by
  have hm0 : (0 : ℚ) < m := by
    have : 0 < m := by omega
    exact_mod_cast this
  have hm1 : (m : ℚ) ≤ 765 := by exact_mod_cast hm'
  unfold NearestByte
  rw [abs_le] at h
  rw [abs_lt]
  have e : (n : ℚ) / m * m = n := by field_simp
  have a1 : ((n : ℤ) * 2 : ℚ) - 2 * v.toNat * m < m + 1 := by
    have : ((n : ℚ) / m - v.toNat) * m ≤ (1 / 2 + 1 / 16384) * m := mul_le_mul_of_nonneg_right (by linarith [h.1]) hm0.le
    push_cast
    nlinarith
  have a2 : (2 * v.toNat * m : ℚ) - (n : ℤ) * 2 < m + 1 := by
    have : ((v.toNat : ℚ) - n / m) * m ≤ (1 / 2 + 1 / 16384) * m := mul_le_mul_of_nonneg_right (by linarith [h.2]) hm0.le
    push_cast
    nlinarith
  have b1 : (n : ℤ) * 2 - 2 * (v.toNat * m : Nat) < m + 1 := by
    have : (((n : ℤ) * 2 - 2 * (v.toNat * m : Nat) : ℤ) : ℚ) < ((m + 1 : ℤ) : ℚ) := by push_cast at a1 ⊢; linarith
    exact_mod_cast this
  have b2 : 2 * ((v.toNat * m : Nat) : ℤ) - (n : ℤ) * 2 < m + 1 := by
    have : ((2 * ((v.toNat * m : Nat) : ℤ) - (n : ℤ) * 2 : ℤ) : ℚ) < ((m + 1 : ℤ) : ℚ) := by push_cast at a2 ⊢; linarith
    exact_mod_cast this
  have c1 : (n : ℤ) * 2 - 2 * (v.toNat * m : Nat) < m := by omega
  have c2 : 2 * ((v.toNat * m : Nat) : ℤ) - (n : ℤ) * 2 < m := by omega
  have d1 : ((n : ℚ) * 2 - 2 * (v.toNat * m)) < m := by exact_mod_cast c1
  have d2 : (2 * ((v.toNat : ℚ) * m) - n * 2) < m := by exact_mod_cast c2
  constructor
  · by_contra hh
    have : (1 / 2) * (m : ℚ) ≤ ((n : ℚ) / m - v.toNat) * m := mul_le_mul_of_nonneg_right (by linarith) hm0.le
    nlinarith
  · by_contra hh
    have : (1 / 2) * (m : ℚ) ≤ ((v.toNat : ℚ) - n / m) * m := mul_le_mul_of_nonneg_right (by linarith) hm0.le
    nlinarith


theorem almost {v : UInt8} {q : ℚ} (h : |(v.toNat : ℚ) - q| ≤ 1 / 2 + 1 / 16384) : AlmostNearest v q := by
  unfold AlmostNearest
  have : (1 : ℚ) / 16384 ≤ 1 / 8192 := by norm_num
  linarith

theorem mkLevels_ok {maxv : Nat} (hm : maxv ≤ 65535) {bp wp : ℚ} (hb0 : 0 ≤ bp) (hb1 : bp ≤ 1) (hw0 : 0 ≤ wp) (hw1 : wp ≤ 1) :
    mkLevels maxv bp wp = some ⟨blackLevel maxv bp, whiteLevel maxv wp⟩ := by
  have hmq : (0 : ℚ) ≤ maxv := by positivity
  have key : ∀ p : ℚ, 0 ≤ p → p ≤ 1 → 0 ≤ f32 (p * maxv) ∧ f32 (p * maxv) ≤ maxv := by
    intro p h0 h1
    refine ⟨f32_nonneg (by positivity), ?_⟩
    have h2 := f32_int maxv (by rw [abs_of_nonneg (by omega)]; norm_num; omega)
    have h3 : f32 (p * maxv) ≤ f32 ((maxv : ℤ) : ℚ) := f32_mono (by push_cast; nlinarith)
    rw [h2] at h3
    exact_mod_cast h3
  obtain ⟨b0, b1⟩ := key bp hb0 hb1
  obtain ⟨w0, w1⟩ := key wp hw0 hw1
  unfold mkLevels
  rw [if_pos]
  · rfl
  · refine ⟨Int.ceil_nonneg b0, ?_, Int.floor_nonneg.mpr w0, ?_⟩
    · exact Int.ceil_le.mpr (by exact_mod_cast b1)
    · have := Int.floor_le (f32 (wp * maxv))
      have h2 : (⌊f32 (wp * maxv)⌋ : ℚ) ≤ (maxv : ℤ) := by push_cast; linarith
      exact_mod_cast h2

theorem between_unit (b w v : Nat) : 0 ≤ between b w v ∧ between b w v ≤ 1 := by
  unfold between
  split_ifs with h1 h2
  · norm_num
  · norm_num
  · have h3 : (b : ℚ) < v := by exact_mod_cast (by omega : b < v)
    have h4 : (v : ℚ) < w := by exact_mod_cast (by omega : v < w)
    constructor
    · apply div_nonneg <;> linarith
    · rw [div_le_one (by linarith)]; linarith

theorem intensity_ok (b w v : Nat) :
    0 ≤ (Levels.mk b w).intensity v ∧ (Levels.mk b w).intensity v ≤ 1 ∧
      |(Levels.mk b w).intensity v - between b w v| ≤ 1 / 2 ^ 24 := by
  unfold Levels.intensity between
  split_ifs with h1 h2 <;> try (exact absurd ‹_› ‹_›)
  · norm_num
  · norm_num
  · have h := between_unit b w v
    unfold between at h
    rw [if_neg h1, if_neg (by omega)] at h
    exact f32_unit h.1 h.2

theorem levels_byte_ok (b w v : Nat) :
    ∃ r, (Levels.mk b w).byte v = some r ∧ AlmostNearest r (between b w v * 255) := by
  unfold Levels.byte between
  split_ifs with h1 h2 <;> try (exact absurd ‹_› ‹_›)
  · exact ⟨0, rfl, by unfold AlmostNearest; norm_num⟩
  · refine ⟨255, rfl, ?_⟩
    show |((255 : Nat) : ℚ) - 1 * 255| ≤ _
    norm_num
  · have h := between_unit b w v
    unfold between at h
    rw [if_neg h1, if_neg (by omega)] at h
    obtain ⟨u0, u1, u2⟩ := f32_unit h.1 h.2
    obtain ⟨p0, p1, p2⟩ := product_ok u0 u1 u2 (c := 255) (by omega)
    push_cast at p0 p1 p2
    obtain ⟨r, hr, r1, r2⟩ := castByte_ok (q := f32 (f32 (((v : ℚ) - b) / ((w : ℚ) - b)) * 255) + 1 / 2) (by linarith) (by linarith)
    refine ⟨r, hr, ?_⟩
    unfold AlmostNearest
    rw [abs_le] at p2 ⊢
    have e1 : (510 : ℚ) / 2 ^ 24 ≤ 1 / 8192 := by norm_num
    constructor <;> linarith [p2.1, p2.2]

theorem lutAt_ok {b : Buf} {i : Nat} (h : i < b.size) : lutAt (some b) i = some (b.get i) := by
  simp [lutAt, Buf.read, h]

theorem le16_lt (s : Nat → UInt8) (i : Nat) : le16 s i < 65536 := by
  have h1 := (s i).toNat_lt
  have h2 := (s (i + 1)).toNat_lt
  unfold le16
  omega

theorem unit_div {n m : Nat} (h : n ≤ m) (hm : 0 < m) : 0 ≤ (n : ℚ) / m ∧ (n : ℚ) / m ≤ 1 := by
  have : (0 : ℚ) < m := by exact_mod_cast hm
  refine ⟨by positivity, ?_⟩
  rw [div_le_one this]
  exact_mod_cast h

theorem tint_nat (tint : Nat → UInt8) {n m : Nat} (h : n ≤ m) (hm : 0 < m) :
    ∃ c, tinted tint (f32 ((n : ℚ) / m)) = some c ∧
      ∀ i, i < 3 → |((c i).toNat : ℚ) - ((n * (tint i).toNat : Nat) : ℚ) / m| ≤ 1 / 2 + 1 / 16384 := by
  obtain ⟨u0, u1⟩ := unit_div h hm
  obtain ⟨f0, f1, f2⟩ := f32_unit u0 u1
  obtain ⟨c, hc, h1⟩ := tinted_ok tint f0 f1 f2
  refine ⟨c, hc, ?_⟩
  intro i hi
  have := h1 i hi
  have e : (n : ℚ) / m * (tint i).toNat = ((n * (tint i).toNat : Nat) : ℚ) / m := by push_cast; ring
  rwa [e] at this

theorem mean_third (a b c t m : Nat) (hm : 0 < m) :
    ((((a + b + c) * t : Nat) : ℚ) / (3 * m : Nat)) = ((a + b + c : Nat) : ℚ) / 3 / m * t := by
  have : (m : ℚ) ≠ 0 := by positivity
  push_cast
  field_simp

/-- A composable source gives, for every pixel, a colour that is what the specification says. -/
theorem getter_ok {dst : Bitmap} {s : Source} {c : Channel} (h : ProperChannel dst s c) :
    ∃ g, c.getter s.pt = some (some g) ∧ g.bpp = pixelBytes s.pt ∧
      ∀ p : Nat → UInt8, ∃ col, g.get p = some col ∧ ∀ i, i < 3 → Contributes c s.pt p i (col i) := by
  obtain ⟨pt, bm⟩ := s
  have hpt := h.pixels
  dsimp only at hpt
  have b8 : ∀ v : UInt8, v.toNat < 256 := fun v => v.toNat_lt
  by_cases hlut : c.lutCount ≠ 0
  · -- look-up table
    obtain ⟨hn, b, hb, hsz⟩ := h.lut hlut
    have hsize : maxValue pt < b.size := by
      dsimp only at hn
      omega
    have hul : c.usesLut = true := by simp [Channel.usesLut, hlut]
    have hna : pt ≠ .Bgra32 := by
      intro e
      exact hlut (h.alpha e).1
    unfold Channel.getter
    rw [if_pos hul, hb]
    by_cases ht : c.enableTinting = true
    · rw [if_pos ht]
      have c8 : ∀ (p : Nat → UInt8) (l : UInt8) (col : Nat → UInt8), (∀ i, i < 3 → |((col i).toNat : ℚ) - ((l.toNat * (c.tint i).toNat : Nat) : ℚ) / (255 : Nat)| ≤ 1 / 2 + 1 / 16384) →
          ∀ i, i < 3 → NearestByte (col i) (meanOf (fun _ => l.toNat) / 255 * (c.tint i).toNat) := by
        intro p l col h1 i hi
        have h2 := nearest_of_odd (by omega) (by omega) (h1 i hi)
        have e : meanOf (fun _ => l.toNat) / 255 * (c.tint i).toNat = ((l.toNat * (c.tint i).toNat : Nat) : ℚ) / (255 : Nat) := by
          unfold meanOf; push_cast; ring
        rw [e]; exact h2
      have c24 : ∀ (l0 l1 l2 : UInt8) (f : Nat → Nat) (col : Nat → UInt8), f 0 = l0.toNat → f 1 = l1.toNat → f 2 = l2.toNat →
          (∀ i, i < 3 → |((col i).toNat : ℚ) - (((l0.toNat + l1.toNat + l2.toNat) * (c.tint i).toNat : Nat) : ℚ) / (765 : Nat)| ≤ 1 / 2 + 1 / 16384) →
          ∀ i, i < 3 → NearestByte (col i) (meanOf f / 255 * (c.tint i).toNat) := by
        intro l0 l1 l2 f col e0 e1 e2 h1 i hi
        have h2 := nearest_of_odd (by omega) (by omega) (h1 i hi)
        have e := mean_third l0.toNat l1.toNat l2.toNat (c.tint i).toNat 255 (by omega)
        norm_num at e h2
        unfold meanOf
        rw [e0, e1, e2]
        push_cast
        rw [e] at h2
        exact h2
      rcases hpt with rfl | rfl | rfl | rfl | rfl
      · refine ⟨_, rfl, rfl, ?_⟩
        intro p
        simp [maxValue] at hsize
        have hl := lutAt_ok (b := b) (i := (p 0).toNat) (by have := b8 (p 0); omega)
        obtain ⟨col, hc, h1⟩ := tint_nat c.tint (n := (b.get (p 0).toNat).toNat) (m := 255) (by have := b8 (b.get (p 0).toNat); omega) (by omega)
        refine ⟨col, ?_, ?_⟩
        · simp only [hl, Option.bind_some]; exact_mod_cast hc
        · intro i hi
          unfold Contributes
          rw [if_pos hlut]
          refine ⟨b, hb, ?_⟩
          dsimp only
          rw [if_pos ht]
          exact c8 p _ col h1 i hi
      · refine ⟨_, rfl, rfl, ?_⟩
        intro p
        simp [maxValue] at hsize
        have hl := lutAt_ok (b := b) (i := le16 p 0) (by have := le16_lt p 0; omega)
        obtain ⟨col, hc, h1⟩ := tint_nat c.tint (n := (b.get (le16 p 0)).toNat) (m := 255) (by have := b8 (b.get (le16 p 0)); omega) (by omega)
        refine ⟨col, ?_, ?_⟩
        · simp only [hl, Option.bind_some]; exact_mod_cast hc
        · intro i hi
          unfold Contributes
          rw [if_pos hlut]
          refine ⟨b, hb, ?_⟩
          dsimp only
          rw [if_pos ht]
          exact c8 p _ col h1 i hi
      · refine ⟨_, rfl, rfl, ?_⟩
        intro p
        simp [maxValue] at hsize
        have hl := fun k => lutAt_ok (b := b) (i := (p k).toNat) (by have := b8 (p k); omega)
        obtain ⟨col, hc, h1⟩ := tint_nat c.tint
          (n := (b.get (p 0).toNat).toNat + (b.get (p 1).toNat).toNat + (b.get (p 2).toNat).toNat) (m := 765)
          (by have := b8 (b.get (p 0).toNat); have := b8 (b.get (p 1).toNat); have := b8 (b.get (p 2).toNat); omega) (by omega)
        refine ⟨col, ?_, ?_⟩
        · simp only [hl, Option.bind_some]; exact_mod_cast hc
        · intro i hi
          unfold Contributes
          rw [if_pos hlut]
          refine ⟨b, hb, ?_⟩
          dsimp only
          rw [if_pos ht]
          exact c24 _ _ _ _ col rfl rfl rfl h1 i hi
      · exact absurd rfl hna
      · refine ⟨_, rfl, rfl, ?_⟩
        intro p
        simp [maxValue] at hsize
        have hl := fun k => lutAt_ok (b := b) (i := le16 p k) (by have := le16_lt p k; omega)
        obtain ⟨col, hc, h1⟩ := tint_nat c.tint
          (n := (b.get (le16 p 0)).toNat + (b.get (le16 p 2)).toNat + (b.get (le16 p 4)).toNat) (m := 765)
          (by have := b8 (b.get (le16 p 0)); have := b8 (b.get (le16 p 2)); have := b8 (b.get (le16 p 4)); omega) (by omega)
        refine ⟨col, ?_, ?_⟩
        · simp only [hl, Option.bind_some]; exact_mod_cast hc
        · intro i hi
          unfold Contributes
          rw [if_pos hlut]
          refine ⟨b, hb, ?_⟩
          dsimp only
          rw [if_pos ht]
          exact c24 _ _ _ _ col rfl rfl rfl h1 i hi
    · rw [if_neg ht]
      rcases hpt with rfl | rfl | rfl | rfl | rfl
      · refine ⟨_, rfl, rfl, ?_⟩
        intro p
        simp [maxValue] at hsize
        have hl := lutAt_ok (b := b) (i := (p 0).toNat) (by have := b8 (p 0); omega)
        refine ⟨bgr (b.get (p 0).toNat) (b.get (p 0).toNat) (b.get (p 0).toNat), by simp [hl], ?_⟩
        intro i hi
        unfold Contributes
        rw [if_pos hlut]
        refine ⟨b, hb, ?_⟩
        dsimp only
        rw [if_neg ht]
        rcases (by omega : i = 0 ∨ i = 1 ∨ i = 2) with rfl | rfl | rfl <;> rfl
      · refine ⟨_, rfl, rfl, ?_⟩
        intro p
        simp [maxValue] at hsize
        have hl := lutAt_ok (b := b) (i := le16 p 0) (by have := le16_lt p 0; omega)
        refine ⟨bgr (b.get (le16 p 0)) (b.get (le16 p 0)) (b.get (le16 p 0)), by simp [hl], ?_⟩
        intro i hi
        unfold Contributes
        rw [if_pos hlut]
        refine ⟨b, hb, ?_⟩
        dsimp only
        rw [if_neg ht]
        rcases (by omega : i = 0 ∨ i = 1 ∨ i = 2) with rfl | rfl | rfl <;> rfl
      · refine ⟨_, rfl, rfl, ?_⟩
        intro p
        simp [maxValue] at hsize
        have hl := fun k => lutAt_ok (b := b) (i := (p k).toNat) (by have := b8 (p k); omega)
        refine ⟨bgr (b.get (p 0).toNat) (b.get (p 1).toNat) (b.get (p 2).toNat), by simp [hl], ?_⟩
        intro i hi
        unfold Contributes
        rw [if_pos hlut]
        refine ⟨b, hb, ?_⟩
        dsimp only
        rw [if_neg ht]
        rcases (by omega : i = 0 ∨ i = 1 ∨ i = 2) with rfl | rfl | rfl <;> rfl
      · exact absurd rfl hna
      · refine ⟨_, rfl, rfl, ?_⟩
        intro p
        simp [maxValue] at hsize
        have hl := fun k => lutAt_ok (b := b) (i := le16 p k) (by have := le16_lt p k; omega)
        refine ⟨bgr (b.get (le16 p 0)) (b.get (le16 p 2)) (b.get (le16 p 4)), by simp [hl], ?_⟩
        intro i hi
        unfold Contributes
        rw [if_pos hlut]
        refine ⟨b, hb, ?_⟩
        dsimp only
        rw [if_neg ht]
        rcases (by omega : i = 0 ∨ i = 1 ∨ i = 2) with rfl | rfl | rfl <;> rfl
  · have hul : ¬ c.usesLut = true := by simpa [Channel.usesLut] using hlut
    have hlut0 : c.lutCount = 0 := by omega
    unfold Channel.getter
    rw [if_neg hul]
    by_cases hp : 0 < c.blackPoint ∨ c.whitePoint < 1
    · -- black and white point
      have hus : c.usesLevels = true := by
        unfold Channel.usesLevels
        rcases hp with h1 | h1
        · simp [not_le.mpr h1]
        · simp [not_le.mpr h1]
      obtain ⟨q0, q1, q2, q3⟩ := h.points hlut0 hp
      have hna : pt ≠ .Bgra32 := by
        intro e
        exact (h.alpha e).2 hp
      have m8 := mkLevels_ok (maxv := 255) (by omega) q0 q1 q2 q3
      have m16 := mkLevels_ok (maxv := 65535) (by omega) q0 q1 q2 q3
      push_cast at m8 m16
      rw [if_pos hus]
      dsimp only
      rw [m8, m16]
      by_cases ht : c.enableTinting = true
      · rw [if_pos ht]
        have fin : ∀ (p : Nat → UInt8) (m : Nat), IsMean False (colour pt p 0) (colour pt p 1) (colour pt p 2) m →
            ∃ col, tinted c.tint ((Levels.mk (blackLevel (maxValue pt) c.blackPoint) (whiteLevel (maxValue pt) c.whitePoint)).intensity m) = some col ∧
              ∀ i, i < 3 → Contributes c pt p i (col i) := by
          intro p m hm
          obtain ⟨i0, i1, i2⟩ := intensity_ok (blackLevel (maxValue pt) c.blackPoint) (whiteLevel (maxValue pt) c.whitePoint) m
          obtain ⟨col, hc, h1⟩ := tinted_ok c.tint i0 i1 i2
          refine ⟨col, hc, ?_⟩
          intro i hi
          unfold Contributes
          rw [if_neg hlut, if_pos hp]
          dsimp only
          rw [if_pos ht]
          exact ⟨m, hm, almost (h1 i hi)⟩
        rcases hpt with rfl | rfl | rfl | rfl | rfl
        · refine ⟨_, rfl, rfl, ?_⟩
          intro p
          exact fin p _ (by simp [IsMean, colour]; omega)
        · refine ⟨_, rfl, rfl, ?_⟩
          intro p
          exact fin p _ (by simp [IsMean, colour, le16]; omega)
        · refine ⟨_, rfl, rfl, ?_⟩
          intro p
          have := b8 (p 0); have := b8 (p 1); have := b8 (p 2)
          exact fin p _ (by simp [IsMean, colour]; omega)
        · exact absurd rfl hna
        · refine ⟨_, rfl, rfl, ?_⟩
          intro p
          have := b8 (p 0); have := b8 (p 1); have := b8 (p 2); have := b8 (p 3); have := b8 (p 4); have := b8 (p 5)
          exact fin p _ (by simp [IsMean, colour, le16]; omega)
      · rw [if_neg ht]
        have fin : ∀ (p col : Nat → UInt8), (∀ i, i < 3 → AlmostNearest (col i)
              (between (blackLevel (maxValue pt) c.blackPoint) (whiteLevel (maxValue pt) c.whitePoint) (colour pt p i) * 255)) →
            ∀ i, i < 3 → Contributes c pt p i (col i) := by
          intro p col h1 i hi
          unfold Contributes
          rw [if_neg hlut, if_pos hp]
          dsimp only
          rw [if_neg ht]
          exact h1 i hi
        rcases hpt with rfl | rfl | rfl | rfl | rfl
        · refine ⟨_, rfl, rfl, ?_⟩
          intro p
          obtain ⟨v, hv, h1⟩ := levels_byte_ok (blackLevel 255 c.blackPoint) (whiteLevel 255 c.whitePoint) (p 0).toNat
          refine ⟨bgr v v v, by simp [hv], fin p _ ?_⟩
          intro i hi
          rcases (by omega : i = 0 ∨ i = 1 ∨ i = 2) with rfl | rfl | rfl <;> exact h1
        · refine ⟨_, rfl, rfl, ?_⟩
          intro p
          obtain ⟨v, hv, h1⟩ := levels_byte_ok (blackLevel 65535 c.blackPoint) (whiteLevel 65535 c.whitePoint) (le16 p 0)
          refine ⟨bgr v v v, by simp [hv], fin p _ ?_⟩
          intro i hi
          rcases (by omega : i = 0 ∨ i = 1 ∨ i = 2) with rfl | rfl | rfl <;> exact h1
        · refine ⟨_, rfl, rfl, ?_⟩
          intro p
          obtain ⟨v, hv, h1⟩ := levels_byte_ok (blackLevel 255 c.blackPoint) (whiteLevel 255 c.whitePoint) (p 0).toNat
          obtain ⟨v', hv', h1'⟩ := levels_byte_ok (blackLevel 255 c.blackPoint) (whiteLevel 255 c.whitePoint) (p 1).toNat
          obtain ⟨v'', hv'', h1''⟩ := levels_byte_ok (blackLevel 255 c.blackPoint) (whiteLevel 255 c.whitePoint) (p 2).toNat
          refine ⟨bgr v v' v'', by simp [hv, hv', hv''], fin p _ ?_⟩
          intro i hi
          rcases (by omega : i = 0 ∨ i = 1 ∨ i = 2) with rfl | rfl | rfl
          · exact h1
          · exact h1'
          · exact h1''
        · exact absurd rfl hna
        · refine ⟨_, rfl, rfl, ?_⟩
          intro p
          obtain ⟨v, hv, h1⟩ := levels_byte_ok (blackLevel 65535 c.blackPoint) (whiteLevel 65535 c.whitePoint) (le16 p 0)
          obtain ⟨v', hv', h1'⟩ := levels_byte_ok (blackLevel 65535 c.blackPoint) (whiteLevel 65535 c.whitePoint) (le16 p 2)
          obtain ⟨v'', hv'', h1''⟩ := levels_byte_ok (blackLevel 65535 c.blackPoint) (whiteLevel 65535 c.whitePoint) (le16 p 4)
          refine ⟨bgr v v' v'', by simp [hv, hv', hv''], fin p _ ?_⟩
          intro i hi
          rcases (by omega : i = 0 ∨ i = 1 ∨ i = 2) with rfl | rfl | rfl
          · exact h1
          · exact h1'
          · exact h1''
    · have hus : ¬ c.usesLevels = true := by
        unfold Channel.usesLevels
        rw [not_or, not_lt, not_lt] at hp
        simp [hp.1, hp.2]
      rw [if_neg hus]
      by_cases ht : c.enableTinting = true
      · rw [if_pos ht]
        have fin8 : ∀ (p : Nat → UInt8) (n : Nat), maxValue pt = 255 → n = colour pt p 0 + colour pt p 1 + colour pt p 2 → n ≤ 765 →
            ∃ col, tinted c.tint (f32 ((n : ℚ) / 765)) = some col ∧ ∀ i, i < 3 → Contributes c pt p i (col i) := by
          intro p n hmx hn hle
          obtain ⟨col, hc, h1⟩ := tint_nat c.tint (n := n) (m := 765) hle (by omega)
          refine ⟨col, by exact_mod_cast hc, ?_⟩
          intro i hi
          have h2 := nearest_of_odd (by omega) (by omega) (h1 i hi)
          have e := mean_third (colour pt p 0) (colour pt p 1) (colour pt p 2) (c.tint i).toNat 255 (by omega)
          rw [← hn] at e
          unfold Contributes
          rw [if_neg hlut, if_neg hp, if_pos ht, if_pos hmx]
          unfold meanOf
          rw [← hn]
          norm_num at e h2 ⊢
          rw [e] at h2
          exact h2
        have fin16 : ∀ (p : Nat → UInt8) (n : Nat), maxValue pt = 65535 → n = colour pt p 0 + colour pt p 1 + colour pt p 2 → n ≤ 196605 →
            ∃ col, tinted c.tint (f32 ((n : ℚ) / 196605)) = some col ∧ ∀ i, i < 3 → Contributes c pt p i (col i) := by
          intro p n hmx hn hle
          obtain ⟨col, hc, h1⟩ := tint_nat c.tint (n := n) (m := 196605) hle (by omega)
          refine ⟨col, by exact_mod_cast hc, ?_⟩
          intro i hi
          have h2 := almost (h1 i hi)
          have e := mean_third (colour pt p 0) (colour pt p 1) (colour pt p 2) (c.tint i).toNat 65535 (by omega)
          rw [← hn] at e
          unfold Contributes
          rw [if_neg hlut, if_neg hp, if_pos ht, if_neg (by rw [hmx]; omega)]
          unfold meanOf
          rw [← hn]
          norm_num at e h2 ⊢
          rw [e] at h2
          exact h2
        rcases hpt with rfl | rfl | rfl | rfl | rfl
        · refine ⟨_, rfl, rfl, ?_⟩
          intro p
          have h8 := b8 (p 0)
          have := fin8 p ((p 0).toNat + (p 0).toNat + (p 0).toNat) rfl rfl (by omega)
          have e : (((p 0).toNat + (p 0).toNat + (p 0).toNat : Nat) : ℚ) / 765 = (p 0).toNat / 255 := by push_cast; ring
          rw [e] at this
          exact this
        · refine ⟨_, rfl, rfl, ?_⟩
          intro p
          have h16 := le16_lt p 0
          have := fin16 p (le16 p 0 + le16 p 0 + le16 p 0) rfl rfl (by omega)
          have e : ((le16 p 0 + le16 p 0 + le16 p 0 : Nat) : ℚ) / 196605 = le16 p 0 / 65535 := by push_cast; ring
          rw [e] at this
          exact this
        · refine ⟨_, rfl, rfl, ?_⟩
          intro p
          have := b8 (p 0); have := b8 (p 1); have := b8 (p 2)
          exact fin8 p ((p 0).toNat + (p 1).toNat + (p 2).toNat) rfl rfl (by omega)
        · refine ⟨_, rfl, rfl, ?_⟩
          intro p
          have := b8 (p 0); have := b8 (p 1); have := b8 (p 2)
          exact fin8 p ((p 0).toNat + (p 1).toNat + (p 2).toNat) rfl rfl (by omega)
        · refine ⟨_, rfl, rfl, ?_⟩
          intro p
          have := le16_lt p 0; have := le16_lt p 2; have := le16_lt p 4
          exact fin16 p (le16 p 0 + le16 p 2 + le16 p 4) rfl rfl (by omega)
      · rw [if_neg ht]
        have fin : ∀ (p col : Nat → UInt8), (∀ i, i < 3 → if maxValue pt = 255 then (col i).toNat = colour pt p i else (col i).toNat = colour pt p i / 256) →
            ∀ i, i < 3 → Contributes c pt p i (col i) := by
          intro p col h1 i hi
          unfold Contributes
          rw [if_neg hlut, if_neg hp, if_neg ht]
          exact h1 i hi
        rcases hpt with rfl | rfl | rfl | rfl | rfl <;> refine ⟨_, rfl, rfl, fun p => ⟨_, rfl, fin p _ ?_⟩⟩ <;> intro i hi <;>
          rcases (by omega : i = 0 ∨ i = 1 ∨ i = 2) with rfl | rfl | rfl <;> simp [maxValue, bgr, colour] <;>
          (have := b8 (p 0); have := b8 (p 2); have := b8 (p 4); omega)

/-! ## The loops -/

/-- Effect of updating every pixel of a row starting at `base` in place. -/
structure UpdRow (db w base : Nat) (upd : Nat → Nat → (Nat → UInt8) → UInt8) (b0 b : Buf) : Prop where
  size : b.size = b0.size
  inside : ∀ x j, x < w → j < db → b.get (base + x * db + j) = upd x j (fun k => b0.get (base + x * db + k))
  outside : ∀ i, (∀ x j, x < w → j < db → i ≠ base + x * db + j) → b.get i = b0.get i

theorem updRow_loop (db w base : Nat) (upd : Nat → Nat → (Nat → UInt8) → UInt8) (b0 : Buf) (f : Nat → Buf → Option Buf)
    (hupd : ∀ x j o o', (∀ k, k < db → o k = o' k) → j < db → upd x j o = upd x j o')
    (hf : ∀ x b, x < w → b.size = b0.size → ∃ b', f x b = some b' ∧ b'.size = b.size ∧
      ∀ i, b'.get i = if base + x * db ≤ i ∧ i < base + x * db + db then
        upd x (i - (base + x * db)) (fun k => b.get (base + x * db + k)) else b.get i) :
    ∃ b, loop w f b0 = some b ∧ UpdRow db w base upd b0 b := by
  obtain ⟨b, h1, h2⟩ := loop_inv (fun X b => UpdRow db X base upd b0 b) f w b0
    ⟨rfl, by intro x j hx; omega, by intros; rfl⟩ (by
      intro X b hX hb
      obtain ⟨b', hb1, hb2, hb3⟩ := hf X b hX hb.size
      refine ⟨b', hb1, by rw [hb2, hb.size], ?_, ?_⟩
      · intro x j hx hj
        rw [hb3]
        by_cases hxX : x = X
        · subst hxX
          rw [if_pos ⟨by omega, by omega⟩, show base + x * db + j - (base + x * db) = j by omega]
          apply hupd _ _ _ _ _ hj
          intro k hk
          apply hb.outside
          intro x' j' hx' hj' he
          have := row_inj hk hj' (y := x) (y' := x') (s := db) (by omega)
          omega
        · rw [if_neg]
          · exact hb.inside x j (by omega) hj
          · rintro ⟨h3, h4⟩
            have := row_lt (s := db) (show x < X by omega)
            omega
      · intro i hi
        rw [hb3, if_neg]
        · exact hb.outside i (fun x j hx hj => hi x j (by omega) hj)
        · rintro ⟨h3, h4⟩
          exact hi X (i - (base + X * db)) (by omega) (by omega) (by omega))
  exact ⟨b, h1, h2⟩

/-- Effect of updating every pixel of a `w × h` block in place. -/
structure UpdBlock (db w h ds : Nat) (upd : Nat → Nat → Nat → (Nat → UInt8) → UInt8) (b0 b : Buf) : Prop where
  size : b.size = b0.size
  inside : ∀ x y j, x < w → y < h → j < db →
    b.get (y * ds + x * db + j) = upd x y j (fun k => b0.get (y * ds + x * db + k))
  outside : ∀ i, (∀ x y j, x < w → y < h → j < db → i ≠ y * ds + x * db + j) → b.get i = b0.get i

theorem updBlock_loop (db w h ds : Nat) (upd : Nat → Nat → Nat → (Nat → UInt8) → UInt8) (b0 : Buf)
    (f : Nat → Buf → Option Buf) (hds : w * db ≤ ds)
    (hupd : ∀ x y j o o', (∀ k, k < db → o k = o' k) → j < db → upd x y j o = upd x y j o')
    (hf : ∀ y b, y < h → b.size = b0.size → ∃ b', f y b = some b' ∧ UpdRow db w (y * ds) (fun x => upd x y) b b') :
    ∃ b, loop h f b0 = some b ∧ UpdBlock db w h ds upd b0 b := by
  obtain ⟨b, h1, h2⟩ := loop_inv (fun Y b => UpdBlock db w Y ds upd b0 b) f h b0
    ⟨rfl, by intro x y j _ hy; omega, by intros; rfl⟩ (by
      intro Y b hY hb
      obtain ⟨b', hb1, hb2⟩ := hf Y b hY hb.size
      refine ⟨b', hb1, by rw [hb2.size, hb.size], ?_, ?_⟩
      · intro x y j hx hy hj
        by_cases hyY : y = Y
        · subst hyY
          rw [hb2.inside x j hx hj]
          apply hupd _ _ _ _ _ _ hj
          intro k hk
          apply hb.outside
          intro x' y' j' hx' hy' hj' he
          have h1 := col_bound hx hk
          have h2 := col_bound hx' hj'
          have := row_inj (y := y) (y' := y') (s := ds) (r := x * db + k) (r' := x' * db + j') (by omega) (by omega) (by omega)
          omega
        · rw [hb2.outside, hb.inside x y j hx (by omega) hj]
          intro x' j' hx' hj' he
          have h1 := col_bound hx hj
          have h2 := col_bound hx' hj'
          have := row_inj (y := y) (y' := Y) (s := ds) (r := x * db + j) (r' := x' * db + j') (by omega) (by omega) (by omega)
          omega
      · intro i hi
        rw [hb2.outside, hb.outside]
        · intro x y j hx hy hj; exact hi x y j hx (by omega) hj
        · intro x j hx hj; exact hi x Y j hx (by omega) hj)
  exact ⟨b, h1, h2⟩

/-- What is added for the value `v` of a channel. -/
def amount (weight : Option ℚ) (v : UInt8) : Option Int :=
  match weight with
  | none => some (v.toNat : Int)
  | some w => toInt (f32 (v.toNat * w))

/-- The destination byte after a value has been added. -/
def addUp (add : Bool) (p : UInt8) (a : Int) : UInt8 := UInt8.ofNat (min ((if add then (p.toNat : Int) else 0) + a) 255 % 256).toNat

theorem store_byte (st : Store) (p v : UInt8) : st.byte p v = (amount st.weight v).map (addUp st.add p) := rfl

theorem addUp_val (add : Bool) (p : UInt8) {a : Int} (h : 0 ≤ a) :
    ((addUp add p a).toNat : Int) = min ((if add then (p.toNat : Int) else 0) + a) 255 := by
  unfold addUp
  rw [UInt8.toNat_ofNat']
  cases add <;> simp <;> omega

/-- The bitmap pixel of the source. -/
def srcPixel (g : Getter) (src : Bitmap) (x y : Nat) : Nat → UInt8 := fun i => src.buf.get (y * src.stride + x * g.bpp + i)

theorem copyTinting_ok (st : Store) (g : Getter) (src dst : Bitmap) (hst : st.bpp = 3 ∨ st.bpp = 4)
    (hsrc : src.WF g.bpp) (hdst : dst.WF st.bpp) (hw : src.w = dst.w) (hh : src.h = dst.h)
    (col : Nat → Nat → Nat → UInt8) (am : Nat → Nat → Nat → Int)
    (hcol : ∀ x y, x < dst.w → y < dst.h → g.get (srcPixel g src x y) = some (col x y))
    (ham : ∀ x y j, x < dst.w → y < dst.h → j < 3 → amount st.weight (col x y j) = some (am x y j)) :
    ∃ out, copyTinting st g src dst = some out ∧ out.w = dst.w ∧ out.h = dst.h ∧ out.stride = dst.stride ∧ out.WF st.bpp ∧
      (∀ x y j, x < dst.w → y < dst.h → j < 3 → out.byteAt st.bpp x y j = addUp st.add (dst.byteAt st.bpp x y j) (am x y j)) ∧
      (st.bpp = 4 → ∀ x y, x < dst.w → y < dst.h → out.byteAt st.bpp x y 3 = st.alpha.getD (dst.byteAt st.bpp x y 3)) ∧
      (∀ i, dst.IsPadding st.bpp i → out.buf.get i = dst.buf.get i) := by
  let upd : Nat → Nat → Nat → (Nat → UInt8) → UInt8 := fun x y j o =>
    if j < 3 then addUp st.add (o j) (am x y j) else if st.bpp = 4 then st.alpha.getD (o j) else o j
  have hb3 : 3 ≤ st.bpp := by omega
  obtain ⟨hd1, hd2⟩ := hdst
  obtain ⟨hs1, hs2⟩ := hsrc
  obtain ⟨b, hb, hb'⟩ := updBlock_loop st.bpp dst.w dst.h dst.stride upd dst.buf
    (fun y b => loop src.w (fun x b' =>
      if y * src.stride + x * g.bpp + g.bpp ≤ src.buf.size then
        (g.get fun i => src.buf.get (y * src.stride + x * g.bpp + i)).bind fun c =>
          st.apply c (y * dst.stride + x * st.bpp) b'
      else none) b) hd1
    (by
      intro x y j o o' ho hj
      simp only [upd]
      rw [ho j hj])
    (by
      intro y b hy hbs
      rw [hw]
      have hrow : y * dst.stride + dst.w * st.bpp ≤ dst.buf.size := by
        have h3 : y * dst.stride ≤ (dst.h - 1) * dst.stride := Nat.mul_le_mul_right _ (by omega)
        have := hd2 (by omega)
        omega
      have hrow' : y * src.stride + src.w * g.bpp ≤ src.buf.size := by
        have h3 : y * src.stride ≤ (src.h - 1) * src.stride := Nat.mul_le_mul_right _ (by omega)
        have := hs2 (by omega)
        omega
      apply updRow_loop
      · intro x j o o' ho hj
        simp only [upd]
        rw [ho j hj]
      · intro x b' hx hb's
        have e1 := row_lt (s := st.bpp) hx
        have e2 := row_lt (s := g.bpp) (show x < src.w by omega)
        rw [if_pos (by omega)]
        have hc := hcol x y hx hy
        unfold srcPixel at hc
        rw [hc, Option.bind_some]
        unfold Store.apply
        rw [if_pos (by omega)]
        simp only [store_byte, ham x y 0 hx hy (by omega), ham x y 1 hx hy (by omega), ham x y 2 hx hy (by omega),
          Option.map_some, Option.bind_some]
        refine ⟨_, rfl, rfl, ?_⟩
        intro i
        dsimp only
        generalize hD : y * dst.stride + x * st.bpp = D
        by_cases hin : D ≤ i ∧ i < D + st.bpp
        · rw [if_pos hin]
          rcases (by omega : i = D ∨ i = D + 1 ∨ i = D + 2 ∨ (i = D + 3 ∧ st.bpp = 4)) with rfl | rfl | rfl | ⟨rfl, h4⟩
          · simp [upd]
          · simp [upd]
          · simp [upd]
          · simp [upd, h4]
        · rw [if_neg hin, if_neg (by omega), if_neg (by omega), if_neg (by omega), if_neg (by omega)])
  refine ⟨{ dst with buf := b }, ?_, rfl, rfl, rfl, ⟨hd1, ?_⟩, ?_, ?_, ?_⟩
  · unfold copyTinting
    rw [hh, hb]
    rfl
  · intro hpos
    have := hd2 hpos
    show _ ≤ b.size
    rw [hb'.size]
    exact this
  · intro x y j hx hy hj
    have := hb'.inside x y j hx hy (by omega)
    simp only [upd, if_pos hj] at this
    exact this
  · intro h4 x y hx hy
    have := hb'.inside x y 3 hx hy (by omega)
    simp only [upd, h4, if_true, show ¬ (3 < 3) by omega, if_false] at this
    unfold Bitmap.byteAt
    rw [h4]
    exact this
  · intro i hi
    apply hb'.outside
    intro x y j hx hy hj he
    exact hi x y j hx hy hj he

/-! ## The channels -/

/-- For every value of a channel there is something to add, as `R` says. -/
def AmountOk (mean : Option ℚ) (R : Channel → UInt8 → Int → Prop) (c : Channel) : Prop :=
  ∀ v : UInt8, ∃ a, amount (mean.map fun m => f32 (c.weight.getD 0 / m)) v = some a ∧ 0 ≤ a ∧ R c v a

theorem ProperChannel.transfer {dst dst' : Bitmap} {s : Source} {c : Channel} (h : ProperChannel dst s c) (hw : dst'.w = dst.w)
    (hh : dst'.h = dst.h) : ProperChannel dst' s c :=
  ⟨h.pixels, h.data, by rw [hw]; exact h.width, by rw [hh]; exact h.height, h.lut, h.points, h.alpha⟩

theorem channel_ok (alpha : Option UInt8) (mean : Option ℚ) (R : Channel → UInt8 → Int → Prop) (first : Bool) {dst : Bitmap}
    {s : Source} {c : Channel} (h : ProperChannel dst s c) (ha : AmountOk mean R c) (hdst : dst.WF (if alpha.isSome then 4 else 3)) :
    ∃ g out, c.getter s.pt = some (some g) ∧
      copyTinting (mkStore alpha first (mean.map fun m => f32 (c.weight.getD 0 / m))) g s.bm dst = some out ∧
      out.w = dst.w ∧ out.h = dst.h ∧ out.stride = dst.stride ∧ out.WF (if alpha.isSome then 4 else 3) ∧
      (∀ x y j, x < dst.w → y < dst.h → j < 3 → ∃ a, Adds R x y j (s, c) a ∧ 0 ≤ a ∧
        ((out.byteAt (if alpha.isSome then 4 else 3) x y j).toNat : Int) =
          min ((if first then 0 else ((dst.byteAt (if alpha.isSome then 4 else 3) x y j).toNat : Int)) + a) 255) ∧
      (∀ x y a, alpha = some a → x < dst.w → y < dst.h → out.byteAt 4 x y 3 = if first then a else dst.byteAt 4 x y 3) ∧
      (∀ i, dst.IsPadding (if alpha.isSome then 4 else 3) i → out.buf.get i = dst.buf.get i) := by
  obtain ⟨g, hg, hbpp, hget⟩ := getter_ok h
  choose colf hcol1 hcol2 using hget
  choose af haf1 haf2 haf3 using ha
  have hb : (mkStore alpha first (mean.map fun m => f32 (c.weight.getD 0 / m))).bpp = if alpha.isSome then 4 else 3 := rfl
  obtain ⟨out, h1, h2, h3, h4, h5, h6, h7, h8⟩ := copyTinting_ok
    (mkStore alpha first (mean.map fun m => f32 (c.weight.getD 0 / m))) g s.bm dst
    (by rw [hb]; split <;> simp) (by rw [hbpp]; exact h.data) (by rw [hb]; exact hdst) h.width h.height
    (fun x y => colf (srcPixel g s.bm x y)) (fun x y j => af (colf (srcPixel g s.bm x y) j))
    (fun x y _ _ => hcol1 _) (fun x y j _ _ _ => haf1 _)
  rw [hb] at h5 h6 h7 h8
  refine ⟨g, out, hg, h1, h2, h3, h4, h5, ?_, ?_, h8⟩
  · intro x y j hx hy hj
    have hp : srcPixel g s.bm x y = pixelOf s x y := by
      funext i
      unfold srcPixel pixelOf Bitmap.byteAt
      rw [hbpp]
    refine ⟨af (colf (srcPixel g s.bm x y) j), ⟨colf (srcPixel g s.bm x y) j, ?_, haf3 _⟩, haf2 _, ?_⟩
    · rw [← hp]; exact hcol2 _ j hj
    · rw [h6 x y j hx hy hj, addUp_val _ _ (haf2 _)]
      cases first <;> simp [mkStore]
  · intro x y a hal hx hy
    subst hal
    have := h7 rfl x y hx hy
    simp only [Option.isSome_some, if_true] at this
    rw [this]
    cases first <;> simp [mkStore]

theorem channels_rest (alpha : Option UInt8) (mean : Option ℚ) (R : Channel → UInt8 → Int → Prop) :
    ∀ (l : List (Source × Channel)) (dst : Bitmap), (∀ p ∈ l, ProperChannel dst p.1 p.2 ∧ AmountOk mean R p.2) →
      dst.WF (if alpha.isSome then 4 else 3) →
      ∃ out, composeChannels alpha mean false l dst = .ok out ∧ out.w = dst.w ∧ out.h = dst.h ∧ out.stride = dst.stride ∧
        (∀ x y i, x < dst.w → y < dst.h → i < 3 → ∃ t, SumOf (Adds R x y i) l t ∧ 0 ≤ t ∧
          ((out.byteAt (if alpha.isSome then 4 else 3) x y i).toNat : Int) =
            min ((dst.byteAt (if alpha.isSome then 4 else 3) x y i).toNat + t) 255) ∧
        (∀ x y a, alpha = some a → x < dst.w → y < dst.h → out.byteAt 4 x y 3 = dst.byteAt 4 x y 3) ∧
        (∀ i, dst.IsPadding (if alpha.isSome then 4 else 3) i → out.buf.get i = dst.buf.get i)
  | [], dst, _, _ => by
    refine ⟨dst, rfl, rfl, rfl, rfl, ?_, fun _ _ _ _ _ _ => rfl, fun _ _ => rfl⟩
    intro x y i _ _ _
    refine ⟨0, rfl, by omega, ?_⟩
    have := (dst.byteAt (if alpha.isSome then 4 else 3) x y i).toNat_lt
    omega
  | (s, c) :: l, dst, h, hwf => by
    obtain ⟨hp, ha⟩ := h (s, c) (by simp)
    obtain ⟨g, d1, hg, h1, h2, h3, h4, h5, h6, h7, h8⟩ := channel_ok alpha mean R false hp ha hwf
    obtain ⟨out, i1, i2, i3, i4, i5, i6, i7⟩ := channels_rest alpha mean R l d1
      (fun p hpm => ⟨ProperChannel.transfer (h p (by simp [hpm])).1 h2 h3, (h p (by simp [hpm])).2⟩) h5
    refine ⟨out, ?_, by rw [i2, h2], by rw [i3, h3], by rw [i4, h4], ?_, ?_, ?_⟩
    · simp only [composeChannels, hg]
      rw [h1]
      exact i1
    · intro x y i hx hy hi
      obtain ⟨a, a1, a2, a3⟩ := h6 x y i hx hy hi
      obtain ⟨t, t1, t2, t3⟩ := i5 x y i (by omega) (by omega) hi
      refine ⟨a + t, ⟨a, t, a1, t1, rfl⟩, by omega, ?_⟩
      rw [t3, a3]
      simp only [Bool.false_eq_true, if_false]
      omega
    · intro x y a hal hx hy
      rw [i6 x y a hal (by omega) (by omega), h7 x y a hal hx hy]
      simp
    · intro i hi
      rw [i7 i, h8 i hi]
      intro x y j hx hy hj
      rw [h4]
      exact hi x y j (by omega) (by omega) hj

theorem channels_all (alpha : Option UInt8) (mean : Option ℚ) (R : Channel → UInt8 → Int → Prop) (l : List (Source × Channel))
    (dst : Bitmap) (hne : l ≠ []) (h : ∀ p ∈ l, ProperChannel dst p.1 p.2 ∧ AmountOk mean R p.2)
    (hwf : dst.WF (if alpha.isSome then 4 else 3)) :
    ∃ out, composeChannels alpha mean true l dst = .ok out ∧ IsComposition alpha R l dst out := by
  match l, hne, h with
  | (s, c) :: l, _, h =>
    obtain ⟨hp, ha⟩ := h (s, c) (by simp)
    obtain ⟨g, d1, hg, h1, h2, h3, h4, h5, h6, h7, h8⟩ := channel_ok alpha mean R true hp ha hwf
    obtain ⟨out, i1, i2, i3, i4, i5, i6, i7⟩ := channels_rest alpha mean R l d1
      (fun p hpm => ⟨ProperChannel.transfer (h p (by simp [hpm])).1 h2 h3, (h p (by simp [hpm])).2⟩) h5
    refine ⟨out, ?_, by rw [i2, h2], by rw [i3, h3], by rw [i4, h4], ?_, ?_, ?_⟩
    · simp only [composeChannels, hg]
      rw [h1]
      exact i1
    · intro x y i hx hy hi
      obtain ⟨a, a1, a2, a3⟩ := h6 x y i hx hy hi
      obtain ⟨t, t1, t2, t3⟩ := i5 x y i (by omega) (by omega) hi
      refine ⟨a + t, ⟨a, t, a1, t1, rfl⟩, ?_⟩
      rw [t3, a3]
      simp only [if_true]
      omega
    · intro x y a hal hx hy
      rw [i6 x y a hal (by omega) (by omega), h7 x y a hal hx hy]
      simp
    · intro i hi
      rw [i7 i, h8 i hi]
      intro x y j hx hy hj
      rw [h4]
      exact hi x y j (by omega) (by omega) hj

/-! ## The arguments -/

theorem checkSizes_ok (w h : Nat) : ∀ l : List Source, (∀ s ∈ l, s.bm.w = w ∧ s.bm.h = h) → checkSizes w h (l.map some) = some true
  | [], _ => rfl
  | s :: l, hl => by
    have h1 := hl s (by simp)
    simp only [List.map_cons, checkSizes]
    rw [if_neg (by simp [h1.1, h1.2])]
    exact checkSizes_ok w h l fun s hs => hl s (by simp [hs])

theorem lutAccepted_ok {dst : Bitmap} {s : Source} {c : Channel} (h : ProperChannel dst s c) : lutAccepted c s.pt = true := by
  unfold lutAccepted
  split
  · rename_i hpos
    obtain ⟨h1, b, h2, -⟩ := h.lut (by omega)
    have hna : s.pt ≠ .Bgra32 := by
      intro e
      have := (h.alpha e).1
      omega
    have hpt := h.pixels
    rw [h1, h2]
    rcases hpt with e | e | e | e | e <;> rw [e] <;> first | rfl | exact absurd e hna
  · rfl

/-- The arguments of a call with the channels `l`. -/
def argsOf (l : List (Source × Channel)) : Args := ⟨l.length, some (l.map fun p => some p.1), some (l.map (·.2))⟩

theorem check_ok {alpha : Option UInt8} {dst : Bitmap} {l : List (Source × Channel)} (hne : l ≠ [])
    (h : ∀ p ∈ l, ProperChannel dst p.1 p.2) (pt : PixelType) :
    checkArguments pt pt dst (argsOf l) = .accepted l := by
  have hl : 0 < l.length := List.length_pos_of_ne_nil hne
  unfold checkArguments argsOf
  dsimp only
  rw [if_neg (by omega), if_neg (by simp)]
  simp only [Int.toNat_natCast, List.length_map]
  rw [if_neg (by omega)]
  have e1 : List.take l.length (l.map fun p => some p.1) = (l.map (·.1)).map some := by
    rw [List.take_of_length_le (by simp)]
    simp
  have e2 : List.take l.length (l.map (·.2)) = l.map (·.2) := List.take_of_length_le (by simp)
  rw [e1, e2, checkSizes_ok dst.w dst.h (l.map (·.1)) (by
    intro s hs
    obtain ⟨p, hp, rfl⟩ := List.mem_map.mp hs
    exact ⟨(h p hp).width, (h p hp).height⟩)]
  dsimp only
  rw [if_neg (by omega)]
  have e3 : (List.filterMap id (List.map some (l.map (·.1)))).zip (l.map (·.2)) = l := by
    rw [List.filterMap_map]
    simp only [Function.comp_def, id, List.filterMap_some]
    rw [List.zip_map']
    simp
  rw [e3, if_pos]
  rw [List.all_eq_true]
  intro p hp
  exact lutAccepted_ok (h p hp)

theorem compose_ok' (alpha : Option UInt8) (R : Channel → UInt8 → Int → Prop) (l : List (Source × Channel))
    (dst : Bitmap) (hne : l ≠ []) (h : ∀ p ∈ l, ProperChannel dst p.1 p.2)
    (ha : ∀ p ∈ l, AmountOk (meanWeight (l.map (·.2))) R p.2) (hwf : dst.WF (if alpha.isSome then 4 else 3)) :
    ∃ out, composeMultiChannel alpha (if alpha.isSome then .Bgra32 else .Bgr24) dst (argsOf l) = .ok out ∧
      IsComposition alpha R l dst out := by
  unfold composeMultiChannel
  rw [check_ok (alpha := alpha) hne h]
  exact channels_all alpha _ R l dst hne (fun p hp => ⟨h p hp, ha p hp⟩) hwf

end Verif.Multi
