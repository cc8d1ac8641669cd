import Verif.Proof.NumScan
import Verif.Proof.DateTime

/-! # What is written denotes the decimal number -/

namespace Verif.Xml

open Verif.Flt Verif.Spec Verif.Text

theorem padDigits_digits (p m : ℕ) : Digits (padDigits p m) ∧ digitsValue (padDigits p m) = m := by
  obtain ⟨⟨h1, h2⟩, h3, _⟩ := decimal_spec m
  unfold padDigits
  refine ⟨⟨?_, ?_⟩, ?_⟩
  · intro e
    exact h1 (List.append_eq_nil_iff.1 e).2
  · intro c hc
    rcases List.mem_append.1 hc with h | h
    · rw [(List.mem_replicate.1 h).2]; unfold IsDigit; decide
    · exact h2 c h
  · rw [digitsValue_replicate, h3]

theorem padDigits_length {p m : ℕ} (hp : 1 ≤ p) (hm : m < 10 ^ p) : (padDigits p m).length = p := by
  have := decimal_length hp hm
  unfold padDigits
  rw [List.length_append, List.length_replicate]
  omega

theorem stripZeros_spec (F : Str) : ∃ j, F = stripZeros F ++ List.replicate j '0' := by
  refine ⟨(F.reverse.takeWhile (fun c => c == '0')).length, ?_⟩
  have h : F.reverse = F.reverse.takeWhile (fun c => c == '0') ++ F.reverse.dropWhile (fun c => c == '0') := (List.takeWhile_append_dropWhile).symm
  have hz : F.reverse.takeWhile (fun c => c == '0') = List.replicate (F.reverse.takeWhile (fun c => c == '0')).length '0' := by
    rw [List.eq_replicate_iff]
    refine ⟨rfl, fun c hc => ?_⟩
    have := List.all_eq_true.1 (List.all_takeWhile (l := F.reverse) (p := fun c => c == '0')) c hc
    simpa using this
  have := congrArg List.reverse h
  rw [List.reverse_reverse, List.reverse_append] at this
  unfold stripZeros
  conv => lhs; rw [this]
  congr 1
  conv => lhs; rw [hz]
  rw [List.reverse_replicate]

theorem digitsValue_zeros (j : ℕ) : digitsValue (List.replicate j '0') = 0 := by
  have := digitsValue_replicate j []
  rw [List.append_nil] at this
  rw [this]
  rfl

/-- Digits before and after the point, without the zeros at the end. -/
theorem strip_value (ip F : Str) (e : ℤ) : (digitsValue (ip ++ stripZeros F) : ℚ) * 10 ^ (e - (stripZeros F).length) = digitsValue (ip ++ F) * 10 ^ (e - F.length) := by
  obtain ⟨j, hj⟩ := stripZeros_spec F
  generalize stripZeros F = f at hj
  subst hj
  rw [← List.append_assoc, digitsValue_append (ip ++ f), digitsValue_zeros, List.length_replicate, List.length_append, List.length_replicate]
  push_cast
  rw [add_zero, mul_assoc, ← zpow_natCast, ← zpow_add₀ (by norm_num)]
  congr 2
  omega

theorem strip_digits {F : Str} (h : ∀ c ∈ F, IsDigit c) : ∀ c ∈ stripZeros F, IsDigit c := by
  obtain ⟨j, hj⟩ := stripZeros_spec F
  intro c hc
  apply h
  rw [hj]
  exact List.mem_append_left _ hc

theorem fractionText_cases (f : Str) : fractionText f = [] ∧ f = [] ∨ fractionText f = '.' :: f := by
  unfold fractionText
  split
  · rename_i h; exact Or.inl ⟨rfl, h⟩
  · exact Or.inr rfl

theorem signText_sign (x : ℚ) : SignText (signText x) (if x < 0 then -1 else 1) := by
  unfold signText
  split
  · exact .minus
  · exact .none

theorem exponentText_ok (e : ℤ) : ExponentText (exponentText e) e := by
  obtain ⟨h1, h2⟩ := padDigits_digits 2 e.natAbs
  unfold exponentText
  by_cases h : e < 0
  · have := ExponentText.some (c := 'e') (s := ['-']) (g := -1) (Or.inl rfl) (Or.inr (Or.inr ⟨rfl, rfl⟩)) h1
    rw [h2] at this
    rw [if_pos h]
    have he : -1 * (e.natAbs : ℤ) = e := by omega
    rwa [he] at this
  · have := ExponentText.some (c := 'e') (s := ['+']) (g := 1) (Or.inl rfl) (Or.inr (Or.inl ⟨rfl, rfl⟩)) h1
    rw [h2] at this
    rw [if_neg h]
    have he : 1 * (e.natAbs : ℤ) = e := by omega
    rwa [he] at this

theorem sigDigits_lt {p : ℕ} (hp : 1 ≤ p) (x : ℚ) : (sigDigits p x).1 < 10 ^ p := by
  by_cases h : x = 0
  · rw [h, sigDigits_zero]; positivity
  · rw [← sigDigits_abs]
    exact (sigDigits_pos hp (abs_pos.2 h)).2.1

theorem showE_text {p : ℕ} (hp : 1 ≤ p) (x : ℚ) : NumberText (showE p x) (decimalOf p x) := by
  obtain ⟨⟨h1, h2⟩, h3⟩ := padDigits_digits p (sigDigits p x).1
  have h4 := padDigits_length hp (sigDigits_lt hp x)
  have hsplit : (padDigits p (sigDigits p x).1).take 1 ++ (padDigits p (sigDigits p x).1).drop 1 = padDigits p (sigDigits p x).1 := List.take_append_drop ..
  refine ⟨signText x, (padDigits p (sigDigits p x).1).take 1, fractionText ((padDigits p (sigDigits p x).1).drop 1), (padDigits p (sigDigits p x).1).drop 1, exponentText (sigDigits p x).2, _, _, rfl,
    signText_sign x, ?_, ?_, fractionText_cases _, exponentText_ok _, ?_⟩
  · rw [hsplit]; exact h2
  · rw [hsplit]; exact h1
  · rw [hsplit, h3, List.length_drop, h4]
    unfold decimalOf digitValue
    congr 3
    omega

theorem showG_text {p : ℕ} (hp : 1 ≤ p) (x : ℚ) : NumberText (showG p x) (decimalOf p x) := by
  obtain ⟨⟨h1, h2⟩, h3⟩ := padDigits_digits p (sigDigits p x).1
  have h4 := padDigits_length hp (sigDigits_lt hp x)
  have h0 : IsDigit '0' := by unfold IsDigit; decide
  unfold showG
  dsimp only
  unfold decimalOf digitValue
  generalize hds : padDigits p (sigDigits p x).1 = ds at *
  generalize (sigDigits p x).2 = e
  rw [← h3]
  -- digits before and after the point
  have key : ∀ (ip F ex : Str) (e' : ℤ), (∀ c ∈ ip ++ F, IsDigit c) → ip ≠ [] → ExponentText ex e' → digitsValue (ip ++ F) = digitsValue ds → e' - F.length = e - ((p : ℤ) - 1) →
      NumberText (signText x ++ (ip ++ (fractionText (stripZeros F) ++ ex))) ((if x < 0 then -1 else 1) * ((digitsValue ds : ℚ) * 10 ^ (e - ((p : ℤ) - 1)))) := by
    intro ip F ex e' k1 k2 k3 k4 k5
    refine ⟨signText x, ip, fractionText (stripZeros F), stripZeros F, ex, _, e', rfl, signText_sign x, ?_, ?_, fractionText_cases _, k3, ?_⟩
    · intro c hc
      rcases List.mem_append.1 hc with h | h
      · exact k1 c (by simp [h])
      · exact strip_digits (fun c hc => k1 c (by simp [hc])) c h
    · intro e; exact k2 (List.append_eq_nil_iff.1 e).1
    · rw [strip_value, k4, k5]
  split
  · rename_i he
    split
    · rename_i he0
      have := key (ds.take (e.toNat + 1)) (ds.drop (e.toNat + 1)) [] 0 (by rw [List.take_append_drop]; exact h2) (by
        intro h
        have := congrArg List.length h
        rw [List.length_take, h4, List.length_nil] at this
        omega) .none (by rw [List.take_append_drop]) (by rw [List.length_drop, h4]; omega)
      rwa [List.append_nil] at this
    · rename_i he0
      have := key ['0'] (List.replicate (-e - 1).toNat '0' ++ ds) [] 0 (by
        intro c hc
        rcases List.mem_append.1 hc with h | h
        · rw [List.mem_singleton.1 h]; exact h0
        · rcases List.mem_append.1 h with h | h
          · rw [(List.mem_replicate.1 h).2]; exact h0
          · exact h2 c h) (by simp) .none (by
            rw [List.singleton_append, digitsValue_zero, digitsValue_replicate]) (by
              rw [List.length_append, List.length_replicate, h4]; omega)
      rwa [List.append_nil] at this
  · exact key (ds.take 1) (ds.drop 1) (exponentText e) e (by rw [List.take_append_drop]; exact h2) (by
      intro h
      have := congrArg List.length h
      rw [List.length_take, h4, List.length_nil] at this
      omega) (exponentText_ok e) (by rw [List.take_append_drop]) (by rw [List.length_drop, h4]; omega)

/-- The text depends on the digits and the sign only. -/
theorem showG_congr {p : ℕ} {x y : ℚ} (h : sigDigits p x = sigDigits p y) (hs : x < 0 ↔ y < 0) : showG p x = showG p y := by
  unfold showG
  have : signText x = signText y := by
    unfold signText
    by_cases hx : x < 0
    · rw [if_pos hx, if_pos (hs.1 hx)]
    · rw [if_neg hx, if_neg (fun hy => hx (hs.2 hy))]
  rw [h, this]

end Verif.Xml
