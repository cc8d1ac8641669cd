import Verif.Proof.MultiWeights

namespace Verif.Multi
open Blit Flt Spec

theorem meanWeight_bad {cs : List Channel} (h : ∃ c ∈ cs, ¬ GoodWeight c) : meanWeight cs = none := by
  unfold meanWeight
  rw [weightSum_bad cs 0 h]

theorem weightSum_exact {cs : List Channel} (hg : ∀ c ∈ cs, GoodWeight c) (hn : cs.length ≤ 2 ^ 20) :
    ∃ s, weightSum cs 0 = some s ∧ Rel (2 * cs.length * ulp) (exactSum cs) s := by
  obtain ⟨s, h1, h2⟩ := weightSum_ok cs 0 0 0 hg le_rfl (by simp [Rel]) (by simp at *; omega)
  exact ⟨s, h1, by simpa using h2⟩

/-- A sum of weights that is too small. -/
theorem meanWeight_small {cs : List Channel} (hg : ∀ c ∈ cs, GoodWeight c) (hn : cs.length ≤ 2 ^ 20)
    (h : exactSum cs ≤ 1 / 2 ^ 24) : meanWeight cs = none := by
  obtain ⟨s, h1, h2⟩ := weightSum_exact hg hn
  have h0 := exactSum_nonneg cs hg
  have hn' : (cs.length : ℚ) ≤ 1048576 := by exact_mod_cast hn
  have hu : ulp = 1 / 16777216 := by unfold ulp; norm_num
  have he : 2 * cs.length * ulp ≤ 1 / 8 := by rw [hu]; linarith
  have he0 : 0 ≤ 2 * cs.length * ulp := by rw [hu]; positivity
  unfold meanWeight
  rw [h1]
  have hs0 : 0 ≤ s := le_trans (mul_nonneg h0 (sub_nonneg.mpr (he.trans (by norm_num)))) h2.1
  have hs1 : s ≤ 1 / 2 ^ 24 * (1 + 1 / 8) := le_trans h2.2 (mul_le_mul h (by linarith) (by linarith) (by norm_num))
  simp only []
  rw [if_pos]
  rw [abs_of_nonneg hs0]
  unfold epsilon
  norm_num at hs1 ⊢
  linarith

/-- The mean if there is one. -/
theorem meanWeight_some {cs : List Channel} (hne : cs ≠ []) (hg : ∀ c ∈ cs, GoodWeight c) (hn : cs.length ≤ 2 ^ 20) {m : ℚ}
    (h : meanWeight cs = some m) : Rel ((2 * cs.length + 2) * ulp) (exactSum cs / cs.length) m := by
  obtain ⟨s, h1, h2⟩ := weightSum_exact hg hn
  have h0 := exactSum_nonneg cs hg
  have hl : 0 < cs.length := List.length_pos_iff.mpr hne
  have hl' : (0 : ℚ) < cs.length := by exact_mod_cast hl
  have hn' : (cs.length : ℚ) ≤ 1048576 := by exact_mod_cast hn
  have hu : ulp = 1 / 16777216 := by unfold ulp; norm_num
  have he : 2 * cs.length * ulp ≤ 1 / 8 := by rw [hu]; linarith
  have he0 : 0 ≤ 2 * cs.length * ulp := by rw [hu]; positivity
  have hm : Rel (2 * cs.length * ulp + 2 * ulp) (exactSum cs / cs.length) (f32 (s / cs.length)) := by
    refine Rel.round (by positivity) he0 (he.trans (by norm_num)) ?_
    have := Rel.scale (c := 1 / cs.length) (by positivity) h2
    have e1 : 1 / (cs.length : ℚ) * exactSum cs = exactSum cs / cs.length := by ring
    have e2 : 1 / (cs.length : ℚ) * s = s / cs.length := by ring
    rw [e1, e2] at this
    exact this
  have hm' : m = f32 (s / cs.length) := by
    unfold meanWeight at h
    rw [h1] at h
    simp only [] at h
    split at h
    · simp at h
    · split at h
      · simpa using h.symm
      · simp at h
  rw [hm']
  have e : (2 * (cs.length : ℚ) + 2) * ulp = 2 * cs.length * ulp + 2 * ulp := by ring
  rw [e]; exact hm

theorem f32_abs_ge (x : ℚ) : |x| * (1 - ulp) ≤ |f32 x| := by
  have := f32_err x
  have h2 := abs_sub_abs_le_abs_sub x (f32 x)
  rw [abs_sub_comm] at h2
  unfold ulp
  linarith

/-- Weights that differ noticeably are used. -/
theorem meanWeight_used {cs : List Channel} (hg : ∀ c ∈ cs, GoodWeight c) (hn : cs.length ≤ 2 ^ 20)
    (hW : 1 / 2 ^ 22 ≤ exactSum cs)
    (hd : ∃ c ∈ cs, 1 / 2 ^ 22 + exactSum cs / cs.length * ((2 * cs.length + 2) / 2 ^ 24) <
      |c.weight.getD 0 - exactSum cs / cs.length|) : ∃ m, meanWeight cs = some m := by
  obtain ⟨s, h1, h2⟩ := weightSum_exact hg hn
  obtain ⟨c, hc, hd⟩ := hd
  have hne : cs ≠ [] := by rintro rfl; simp at hc
  have h0 := exactSum_nonneg cs hg
  have hl : 0 < cs.length := List.length_pos_iff.mpr hne
  have hl' : (0 : ℚ) < cs.length := by exact_mod_cast hl
  have hn' : (cs.length : ℚ) ≤ 1048576 := by exact_mod_cast hn
  have hu : ulp = 1 / 16777216 := by unfold ulp; norm_num
  have he : 2 * cs.length * ulp ≤ 1 / 8 := by rw [hu]; linarith
  have he0 : 0 ≤ 2 * cs.length * ulp := by rw [hu]; positivity
  have hm : Rel (2 * cs.length * ulp + 2 * ulp) (exactSum cs / cs.length) (f32 (s / cs.length)) := by
    refine Rel.round (by positivity) he0 (he.trans (by norm_num)) ?_
    have := Rel.scale (c := 1 / cs.length) (by positivity) h2
    have e1 : 1 / (cs.length : ℚ) * exactSum cs = exactSum cs / cs.length := by ring
    have e2 : 1 / (cs.length : ℚ) * s = s / cs.length := by ring
    rw [e1, e2] at this
    exact this
  have hs : epsilon < s := by
    refine lt_of_lt_of_le ?_ h2.1
    have : (1 / 2 ^ 22 : ℚ) * (1 - 1 / 8) ≤ exactSum cs * (1 - 2 * cs.length * ulp) :=
      mul_le_mul hW (by linarith) (by norm_num) h0
    refine lt_of_lt_of_le ?_ this
    unfold epsilon; norm_num
  refine ⟨f32 (s / cs.length), ?_⟩
  unfold meanWeight
  rw [h1]
  simp only []
  have hs0 : 0 ≤ s := le_trans (by unfold epsilon; norm_num) hs.le
  rw [if_neg (by rw [abs_of_nonneg hs0]; exact not_le.mpr hs), if_pos]
  rw [List.any_eq_true]
  refine ⟨c, hc, decide_eq_true ?_⟩
  set mean := f32 (s / cs.length) with hmean
  set M := exactSum cs / cs.length with hM
  have hd' : |mean - M| ≤ M * ((2 * cs.length + 2) / 2 ^ 24) := by
    have e : (2 * (cs.length : ℚ) + 2) / 2 ^ 24 = 2 * cs.length * ulp + 2 * ulp := by unfold ulp; ring
    rw [e, abs_le]
    have := hm.1; have := hm.2
    constructor <;> nlinarith
  have h3 : 1 / 2 ^ 22 < |mean - c.weight.getD 0| := by
    have := abs_sub_abs_le_abs_sub (c.weight.getD 0 - M) (mean - M)
    have e : c.weight.getD 0 - M - (mean - M) = -(mean - c.weight.getD 0) := by ring
    rw [e, abs_neg] at this
    linarith
  refine lt_of_lt_of_le ?_ (f32_abs_ge _)
  have : (1 / 2 ^ 22 : ℚ) * (1 - ulp) ≤ |mean - c.weight.getD 0| * (1 - ulp) :=
    mul_le_mul_of_nonneg_right h3.le (by rw [hu]; norm_num)
  refine lt_of_lt_of_le ?_ this
  rw [hu]; unfold epsilon; norm_num

theorem le_exactSum : ∀ {cs : List Channel}, (∀ c ∈ cs, GoodWeight c) → ∀ c ∈ cs, c.weight.getD 0 ≤ exactSum cs
  | [], _, c, hc => by simp at hc
  | d :: cs, h, c, hc => by
    have h0 := exactSum_nonneg cs fun c hc => h c (by simp [hc])
    obtain ⟨w, hw, hw0⟩ := h d (by simp)
    have e : exactSum (d :: cs) = d.weight.getD 0 + exactSum cs := by simp [exactSum]
    rw [e]
    rcases List.mem_cons.mp hc with rfl | hc
    · linarith
    · have := le_exactSum (fun c hc => h c (by simp [hc])) c hc
      rw [hw] at *
      simp only [Option.getD_some]
      linarith

theorem exactSum_equal {w : ℚ} : ∀ {cs : List Channel}, (∀ c ∈ cs, c.weight = some w) → exactSum cs = cs.length * w
  | [], _ => by simp [exactSum]
  | d :: cs, h => by
    have := exactSum_equal fun c hc => h c (List.mem_cons_of_mem _ hc)
    have e : exactSum (d :: cs) = d.weight.getD 0 + exactSum cs := by simp [exactSum]
    rw [e, this, h d (by simp)]
    simp only [Option.getD_some, List.length_cons]
    push_cast; ring

theorem amountOk_none {R : Channel → UInt8 → Int → Prop} {c : Channel} (h : ∀ v : UInt8, R c v v.toNat) : AmountOk none R c :=
  fun v => ⟨v.toNat, rfl, by omega, h v⟩

/-- Weights that are equal (and positive) come to the same as no weights. -/
theorem amountOk_equal {cs : List Channel} {w : ℚ} (hw : 0 < w) (h : ∀ c ∈ cs, c.weight = some w) (hne : cs ≠ [])
    (hn : cs.length ≤ 4096) {R : Channel → UInt8 → Int → Prop} {c : Channel} (hc : c ∈ cs) (hR : ∀ v : UInt8, R c v v.toNat) :
    AmountOk (meanWeight cs) R c := by
  cases hm : meanWeight cs with
  | none => exact amountOk_none hR
  | some m =>
    intro v
    have hg : ∀ c ∈ cs, GoodWeight c := fun c hc => ⟨w, h c hc, hw.le⟩
    have hl : 0 < cs.length := List.length_pos_iff.mpr hne
    have hl' : (0 : ℚ) < cs.length := by exact_mod_cast hl
    have e := exactSum_equal h
    have hr := meanWeight_some hne hg (le_trans hn (by norm_num)) hm
    have h1 : w ≤ exactSum cs := by
      have := le_exactSum hg c hc
      rwa [h c hc] at this
    obtain ⟨a, ha, hw1, hw2⟩ := amount_weighted hl (le_trans hn (by norm_num)) (W := exactSum cs) (w := w)
      (by rw [e]; positivity) hw.le h1 hr v
    have e2 : (cs.length : ℚ) * w / exactSum cs = 1 := by rw [e]; field_simp
    rw [e2, mul_one] at hw2
    have hv : (v.toNat : ℚ) ≤ 255 := by
      have := v.toNat_lt
      have : v.toNat ≤ 255 := by omega
      exact_mod_cast this
    have hv0 : (0 : ℚ) ≤ v.toNat := by positivity
    have hn' : (cs.length : ℚ) ≤ 4096 := by exact_mod_cast hn
    have h3 : (v.toNat : ℚ) * (4 * cs.length + 12) / 2 ^ 24 ≤ 255 * (4 * 4096 + 12) / 2 ^ 24 := by
      apply div_le_div_of_nonneg_right _ (by norm_num)
      exact mul_le_mul hv (by linarith) (by positivity) (by norm_num)
    have h4 : |(a : ℚ) - v.toNat| < 1 := by
      refine lt_of_le_of_lt hw2 ?_
      norm_num at h3 ⊢
      linarith
    have h5 : a = v.toNat := by
      rw [abs_lt] at h4
      have h6 : (a : ℚ) < ((v.toNat : Int) : ℚ) + 1 := by push_cast; linarith
      have h7 : ((v.toNat : Int) : ℚ) < (a : ℚ) + 1 := by push_cast; linarith
      have h6' : a < (v.toNat : Int) + 1 := by exact_mod_cast h6
      have h7' : (v.toNat : Int) < a + 1 := by exact_mod_cast h7
      omega
    refine ⟨a, ?_, hw1, h5 ▸ hR v⟩
    simp only [amount, Option.map_some, h c hc, Option.getD_some]
    exact ha

theorem amountOk_weighted {cs : List Channel} (hg : ∀ c ∈ cs, GoodWeight c) (hn : cs.length ≤ 2 ^ 20) {m : ℚ} (hW : 0 < exactSum cs)
    (h : meanWeight cs = some m) {c : Channel} (hc : c ∈ cs) :
    AmountOk (meanWeight cs) (fun c v a => Weighted cs.length (exactSum cs) (c.weight.getD 0) v a) c := by
  intro v
  have hne : cs ≠ [] := by rintro rfl; simp at hc
  obtain ⟨w, hw, hw0⟩ := hg c hc
  have := le_exactSum hg c hc
  rw [hw] at this
  obtain ⟨a, h1, h2⟩ := amount_weighted (List.length_pos_iff.mpr hne) hn hW hw0 this (meanWeight_some hne hg hn h) v
  refine ⟨a, ?_, h2.1, ?_⟩
  · simp only [h, amount, Option.map_some, hw, Option.getD_some]
    exact h1
  · simp only [hw, Option.getD_some]
    exact h2

end Verif.Multi
