import Verif.Proof.NumShow

/-! # Only number texts are taken for numbers -/

namespace Verif.Xml

open Verif.Flt Verif.Spec Verif.Text

theorem takeWhile_digits (s : Str) : ∀ c ∈ s.takeWhile Char.isDigit, IsDigit c := by
  intro c hc
  have := List.all_eq_true.1 (List.all_takeWhile (l := s) (p := Char.isDigit)) c hc
  exact (isDigit_iff c).1 this

theorem scanExponent_conv {r : Str} {e : ℤ} (h : scanExponent (fun c => c = 'e' || c = 'E') r = (e, [])) : ExponentText r e := by
  cases r with
  | nil =>
    rw [scanExponent] at h
    have h1 := (Prod.ext_iff.1 h).1
    dsimp only at h1
    rw [← h1]
    exact .none
  | cons c r' =>
    rw [scanExponent] at h
    dsimp only at h
    by_cases hc : c = 'e' ∨ c = 'E'
    · rw [if_pos (by simpa using hc)] at h
      by_cases ht : (if r'.head? = some '-' ∨ r'.head? = some '+' then r'.drop 1 else r').takeWhile Char.isDigit = []
      · rw [if_pos ht] at h
        exact absurd (Prod.ext_iff.1 h).2 (by simp)
      · rw [if_neg ht] at h
        obtain ⟨h1, h2⟩ := Prod.ext_iff.1 h
        dsimp only at h1 h2
        generalize htt : (if r'.head? = some '-' ∨ r'.head? = some '+' then r'.drop 1 else r') = t at *
        have hall : t.takeWhile Char.isDigit = t := by
          have := List.takeWhile_append_dropWhile (p := Char.isDigit) (l := t)
          rw [h2, List.append_nil] at this
          exact this
        have hd : Digits t := ⟨by rw [hall] at ht; exact ht, by have := takeWhile_digits t; rwa [hall] at this⟩
        rw [hall, natOf_eq] at h1
        rcases r' with _ | ⟨d, r''⟩
        · simp at htt; rw [htt] at hd; exact absurd rfl hd.1
        · by_cases hd1 : d = '-'
          · subst hd1
            simp at htt
            simp at h1
            subst htt
            have := ExponentText.some (c := c) (s := ['-']) (g := -1) hc (Or.inr (Or.inr ⟨rfl, rfl⟩)) hd
            rw [← h1]
            simpa using this
          · by_cases hd2 : d = '+'
            · subst hd2
              simp at htt
              simp at h1
              subst htt
              have := ExponentText.some (c := c) (s := ['+']) (g := 1) hc (Or.inr (Or.inl ⟨rfl, rfl⟩)) hd
              rw [← h1]
              simpa using this
            · simp [hd1, hd2] at htt
              simp [hd1] at h1
              have := ExponentText.some (c := c) (s := []) (g := 1) hc (Or.inl ⟨rfl, rfl⟩) hd
              rw [← h1, htt]
              simpa using this
    · rw [if_neg (by simpa using hc)] at h
      exact absurd (Prod.ext_iff.1 h).2 (by simp)

theorem scanPoint_conv {s ip fp r : Str} (h : scanPoint Char.isDigit s = some (ip, fp, r)) :
    ∃ pf, s = ip ++ (pf ++ r) ∧ (∀ c ∈ ip ++ fp, IsDigit c) ∧ ip ++ fp ≠ [] ∧ (pf = [] ∧ fp = [] ∨ pf = '.' :: fp) := by
  unfold scanPoint at h
  dsimp only at h
  by_cases hne : s.takeWhile Char.isDigit = [] ∧ (if (s.dropWhile Char.isDigit).head? = some '.' then ((s.dropWhile Char.isDigit).drop 1).takeWhile Char.isDigit else []) = []
  · rw [if_pos hne] at h
    cases h
  · rw [if_neg hne] at h
    simp only [Option.some.injEq, Prod.mk.injEq] at h
    obtain ⟨h1, h2, h3⟩ := h
    have hs := List.takeWhile_append_dropWhile (p := Char.isDigit) (l := s)
    rw [h1, h2] at hne
    have hip : ∀ c ∈ ip, IsDigit c := by rw [← h1]; exact takeWhile_digits s
    have hne' : ip ++ fp ≠ [] := fun e => hne (List.append_eq_nil_iff.1 e)
    by_cases hp : (s.dropWhile Char.isDigit).head? = some '.'
    · rw [if_pos hp] at h2 h3
      have hfp : ∀ c ∈ fp, IsDigit c := by rw [← h2]; exact takeWhile_digits _
      refine ⟨'.' :: fp, ?_, ?_, hne', Or.inr rfl⟩
      · rw [← hs, h1]
        congr 1
        have hc : s.dropWhile Char.isDigit = '.' :: (s.dropWhile Char.isDigit).drop 1 := by
          cases hq : s.dropWhile Char.isDigit with
          | nil => rw [hq] at hp; cases hp
          | cons a b => rw [hq] at hp; simp at hp; simp [hp]
        rw [hc, List.cons_append, ← h2, ← h3, List.takeWhile_append_dropWhile]
      · intro c hc
        rcases List.mem_append.1 hc with h | h
        · exact hip c h
        · exact hfp c h
    · rw [if_neg hp] at h2 h3
      refine ⟨[], ?_, ?_, hne', Or.inl ⟨rfl, h2.symm⟩⟩
      · rw [← hs, h1, h3, List.nil_append]
      · rw [← h2, List.append_nil]; exact hip

theorem scanDecimal_conv {s : Str} {x : ℚ} (h : scanDecimal s = some (x, [])) {sg : Str} {g : ℚ} (hg : SignText sg g) : NumberText (sg ++ s) (g * x) := by
  unfold scanDecimal at h
  cases hp : scanPoint Char.isDigit s with
  | none => rw [hp] at h; cases h
  | some t =>
    obtain ⟨ip, fp, r⟩ := t
    rw [hp, Option.map_some] at h
    dsimp only at h
    obtain ⟨pf, k1, k2, k3, k4⟩ := scanPoint_conv hp
    simp only [Option.some.injEq, Prod.mk.injEq] at h
    have he := scanExponent_conv (r := r) (e := (scanExponent (fun c => c = 'e' || c = 'E') r).1) (Prod.ext rfl h.2)
    refine ⟨sg, ip, pf, fp, r, g, _, by rw [k1], hg, k2, k3, k4, he, ?_⟩
    rw [← h.1, natOf_eq]

theorem startsWith_mem {s w : Str} {c : Char} (h : startsWith w s = true) (hc : c ∈ w) : ∃ d ∈ s, upper d = c := by
  unfold startsWith at h
  rw [beq_iff_eq] at h
  rw [← h] at hc
  obtain ⟨d, hd, e⟩ := List.mem_map.1 hc
  exact ⟨d, List.mem_of_mem_take hd, e⟩

/-- A text that is taken for a (finite) number as a whole, and is not hexadecimal, is a decimal number. -/
theorem wcstod_conv {s : Str} {x : ℚ} (h : wcstod s = some (.fin x, [])) (hx : ∀ c ∈ s, c ≠ 'x' ∧ c ≠ 'X') :
    ∃ w t d, s = w ++ t ∧ (∀ c ∈ w, isSpace c = true) ∧ NumberText t d ∧ x = f64 d := by
  unfold wcstod at h
  dsimp only at h
  generalize hr : s.dropWhile isSpace = r at h
  have hs : s = s.takeWhile isSpace ++ r := by rw [← hr, List.takeWhile_append_dropWhile]
  have hw : ∀ c ∈ s.takeWhile isSpace, isSpace c = true := List.all_eq_true.1 (List.all_takeWhile (l := s) (p := isSpace))
  generalize s.takeWhile isSpace = w at hs hw
  -- without the sign
  have key : ∀ t, (∀ c ∈ t, c ∈ s) → ∀ y, scanNumber t = some (.fin y, []) → scanDecimal t = some (y, []) := by
    intro t ht y e
    have hno : startsWith "0X".toList t = false := by
      cases hq : startsWith "0X".toList t with
      | false => rfl
      | true =>
        obtain ⟨d, hd, he⟩ := startsWith_mem (c := 'X') hq (by decide)
        rcases upper_x he with k | k
        · exact absurd k (hx d (ht d hd)).1
        · exact absurd k (hx d (ht d hd)).2
    unfold scanNumber at e
    rw [hno] at e
    split at e
    · cases e
    · split at e
      · cases e
      · split at e
        · cases e
        · simp only [Bool.false_eq_true, if_false] at e
          cases hd : scanDecimal t with
          | none => rw [hd] at e; cases e
          | some q =>
            rw [hd] at e
            simp only [Option.map_some, Option.some.injEq, Prod.mk.injEq, Num.fin.injEq] at e
            rw [← e.1, ← e.2]
  have hmem : ∀ c ∈ r, c ∈ s := fun c hc => by rw [hs]; exact List.mem_append_right _ hc
  have fin : ∀ (t sg : Str) (g : ℚ) (b : Bool), r = sg ++ t → SignText sg g → (∀ y : ℚ, (if b then -y else y) = g * y) →
      ((scanNumber t).map fun q => ((q.1.signed b).map f64, q.2)) = some (.fin x, []) →
      ∃ w t d, s = w ++ t ∧ (∀ c ∈ w, isSpace c = true) ∧ NumberText t d ∧ x = f64 d := by
    intro t sg g b e1 e2 e3 e4
    cases hq : scanNumber t with
    | none => rw [hq] at e4; cases e4
    | some q =>
      obtain ⟨n, u⟩ := q
      rw [hq] at e4
      simp only [Option.map_some, Option.some.injEq, Prod.mk.injEq] at e4
      obtain ⟨e5, rfl⟩ := e4
      cases n with
      | inf _ => cases e5
      | nan => cases e5
      | fin y =>
        simp only [Num.signed, Num.map, Num.fin.injEq] at e5
        have := scanDecimal_conv (key t (fun c hc => hmem c (by rw [e1]; exact List.mem_append_right _ hc)) y hq) e2
        refine ⟨w, sg ++ t, g * y, by rw [hs, e1], hw, this, ?_⟩
        rw [← e5, e3]
  rcases r with _ | ⟨c, r'⟩
  · exact fin [] [] 1 false rfl .none (by simp) (by simpa using h)
  · by_cases h1 : c = '-'
    · subst h1
      exact fin r' ['-'] (-1) true rfl .minus (by simp) (by simpa using h)
    · by_cases h2 : c = '+'
      · subst h2
        exact fin r' ['+'] 1 false rfl .plus (by simp) (by simpa using h)
      · exact fin (c :: r') [] 1 false rfl .none (by simp) (by simpa [h1, h2] using h)

/-- Rounding to digits what is rounded already. -/
theorem sigDigits_decimalOf {p : ℕ} (hp : 1 ≤ p) (x : ℚ) : sigDigits p (decimalOf p x) = sigDigits p x ∧ (decimalOf p x < 0 ↔ x < 0) := by
  by_cases h0 : x = 0
  · rw [h0, decimalOf_zero]
    exact ⟨rfl, Iff.rfl⟩
  · have hpos := abs_pos.2 h0
    obtain ⟨h1, h2, _⟩ := sigDigits_pos hp hpos
    rw [sigDigits_abs] at h1 h2
    have hm : 0 < (sigDigits p x).1 := lt_of_lt_of_le (by positivity) h1
    have hv : 0 < digitValue p (sigDigits p x) := by
      unfold digitValue
      have : (0 : ℚ) < (sigDigits p x).1 := by exact_mod_cast hm
      positivity
    have hs : |decimalOf p x| = digitValue p (sigDigits p x) := by
      unfold decimalOf
      split
      · rw [neg_one_mul, abs_neg, abs_of_pos hv]
      · rw [one_mul, abs_of_pos hv]
    constructor
    · rw [← sigDigits_abs, hs]
      have := sigDigits_near (p := p) hp h1 h2 (k := (sigDigits p x).2 - ((p : ℤ) - 1)) (y := digitValue p (sigDigits p x)) (by
        unfold digitValue
        rw [sub_self, abs_zero, mul_zero]
        exact hv)
      rw [this]
      refine Prod.ext rfl ?_
      dsimp only
      omega
    · unfold decimalOf
      split
      · rename_i h; constructor
        · intro _; exact h
        · intro _; linarith
      · rename_i h; constructor
        · intro h'; linarith
        · intro h'; exact absurd h' h

/-- A decimal number with at most `p` digits is what it is rounded to. -/
theorem decimalOf_exact {p : ℕ} (hp : 1 ≤ p) {d : ℚ} (h : HasDigits p d) : decimalOf p d = d := by
  have := (decimalOf_rounded hp d).2 d h
  rw [sub_self, abs_zero] at this
  exact sub_eq_zero.1 (abs_nonpos_iff.1 this)

theorem decimalOf_congr {p : ℕ} {x y : ℚ} (h : sigDigits p x = sigDigits p y) (hs : x < 0 ↔ y < 0) : decimalOf p x = decimalOf p y := by
  unfold decimalOf
  rw [h]
  by_cases hx : x < 0
  · rw [if_pos hx, if_pos (hs.1 hx)]
  · rw [if_neg hx, if_neg (fun hy => hx (hs.2 hy))]

theorem double_stable (x : ℚ) : showG 15 (f64 (decimalOf 15 x)) = showG 15 x := by
  obtain ⟨h1, h2⟩ := sigDigits_f64 (decimalOf_rounded (p := 15) (by norm_num) x).1
  obtain ⟨h3, h4⟩ := sigDigits_decimalOf (p := 15) (by norm_num) x
  exact showG_congr (h1.trans h3) (h2.trans h4)

theorem float_stable (x : ℚ) : showG 6 (f32 (f64 (decimalOf 6 x))) = showG 6 x := by
  obtain ⟨h1, h2⟩ := sigDigits_f32 (decimalOf_rounded (p := 6) (by norm_num) x).1
  obtain ⟨h3, h4⟩ := sigDigits_decimalOf (p := 6) (by norm_num) x
  exact showG_congr (h1.trans h3) (h2.trans h4)

theorem double_short {d : ℚ} (h : HasDigits 15 d) : decimalOf 15 (f64 d) = d := by
  obtain ⟨h1, h2⟩ := sigDigits_f64 h
  rw [decimalOf_congr h1 h2, decimalOf_exact (by norm_num) h]

theorem float_short {d : ℚ} (h : HasDigits 6 d) : decimalOf 6 (f32 (f64 d)) = d := by
  obtain ⟨h1, h2⟩ := sigDigits_f32 h
  rw [decimalOf_congr h1 h2, decimalOf_exact (by norm_num) h]

theorem double_err (x : ℚ) : |f64 (decimalOf 15 x) - x| ≤ |x| * (6 / 10 ^ 15) := by
  have h1 := decimalOf_err (p := 15) (by norm_num) x
  have h2 := f64_err (decimalOf 15 x)
  have h3 : |decimalOf 15 x| ≤ |decimalOf 15 x - x| + |x| := by
    have : decimalOf 15 x = (decimalOf 15 x - x) + x := by ring
    calc |decimalOf 15 x| = |(decimalOf 15 x - x) + x| := by rw [← this]
      _ ≤ _ := abs_add_le _ _
  have h4 : |f64 (decimalOf 15 x) - x| ≤ |f64 (decimalOf 15 x) - decimalOf 15 x| + |decimalOf 15 x - x| := by
    have : f64 (decimalOf 15 x) - x = (f64 (decimalOf 15 x) - decimalOf 15 x) + (decimalOf 15 x - x) := by ring
    rw [this]
    exact abs_add_le _ _
  have h5 := abs_nonneg x
  norm_num at h1 h2 ⊢
  linarith

theorem float_err (x : ℚ) : |f32 (f64 (decimalOf 6 x)) - x| ≤ |x| * (6 / 10 ^ 6) := by
  have h1 := decimalOf_err (p := 6) (by norm_num) x
  have h2 := f32_f64_err (decimalOf 6 x)
  have h3 : |decimalOf 6 x| ≤ |decimalOf 6 x - x| + |x| := by
    have : decimalOf 6 x = (decimalOf 6 x - x) + x := by ring
    calc |decimalOf 6 x| = |(decimalOf 6 x - x) + x| := by rw [← this]
      _ ≤ _ := abs_add_le _ _
  have h4 : |f32 (f64 (decimalOf 6 x)) - x| ≤ |f32 (f64 (decimalOf 6 x)) - decimalOf 6 x| + |decimalOf 6 x - x| := by
    have : f32 (f64 (decimalOf 6 x)) - x = (f32 (f64 (decimalOf 6 x)) - decimalOf 6 x) + (decimalOf 6 x - x) := by ring
    rw [this]
    exact abs_add_le _ _
  have h5 := abs_nonneg x
  norm_num at h1 h2 ⊢
  linarith

theorem wcstod_show {t : Str} {d : ℚ} (h : NumberText t d) : wcstod t = some (.fin (f64 d), []) := by
  have := wcstod_text h (w := []) (r := []) (by simp) (fun c cs e => by cases e)
  simpa using this

theorem tryGetDouble_text {n : Node} {t : Str} {d : ℚ} (hv : tryGetValue n = some t) (h : NumberText t d) : tryGetDouble n = .value (.fin (f64 d)) := by
  unfold tryGetDouble
  rw [hv]
  dsimp only
  rw [wcstod_show h]
  rfl

theorem tryGetFloat_text {n : Node} {t : Str} {d : ℚ} (hv : tryGetValue n = some t) (h : NumberText t d) : tryGetFloat n = .value (.fin (f32 (f64 d))) := by
  unfold tryGetFloat
  rw [tryGetDouble_text hv h]
  rfl

end Verif.Xml
