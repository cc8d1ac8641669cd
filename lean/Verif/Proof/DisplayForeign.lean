import Verif.Proof.DisplayMore

/-! # What is left behind a number is the end of the text -/

namespace Verif.Xml

open Verif.Flt Verif.Spec Verif.Text

theorem scanExponent_suffix (l : Char → Bool) (s : Str) : (scanExponent l s).2 <:+ s := by
  unfold scanExponent
  cases s with
  | nil => exact List.suffix_rfl
  | cons c r =>
    dsimp only
    have h : ∀ P : Prop, [Decidable P] → (if P then r.drop 1 else r) <:+ c :: r := by
      intro P _
      split
      · exact (List.drop_suffix 1 r).trans (List.suffix_cons c r)
      · exact List.suffix_cons c r
    split
    · have h' := h (r.head? = some '-' ∨ r.head? = some '+')
      generalize (if r.head? = some '-' ∨ r.head? = some '+' then r.drop 1 else r) = t at h' ⊢
      split
      · exact List.suffix_rfl
      · exact (List.dropWhile_suffix _).trans h'
    · exact List.suffix_rfl

theorem scanPoint_suffix {d : Char → Bool} {s ip fp r : Str} (h : scanPoint d s = some (ip, fp, r)) : r <:+ s := by
  unfold scanPoint at h
  dsimp only at h
  by_cases hp : (s.dropWhile d).head? = some '.'
  · simp only [if_pos hp] at h
    split at h
    · cases h
    · cases h
      exact (List.dropWhile_suffix _).trans ((List.drop_suffix 1 _).trans (List.dropWhile_suffix _))
  · simp only [if_neg hp] at h
    split at h
    · cases h
    · cases h
      exact List.dropWhile_suffix _

theorem scanDecimal_suffix {s r : Str} {x : ℚ} (h : scanDecimal s = some (x, r)) : r <:+ s := by
  unfold scanDecimal at h
  cases hp : scanPoint Char.isDigit s with
  | none => rw [hp] at h; cases h
  | some t =>
    obtain ⟨ip, fp, t⟩ := t
    rw [hp] at h
    cases h
    exact (scanExponent_suffix _ _).trans (scanPoint_suffix hp)

theorem scanHex_suffix {s r : Str} {x : ℚ} (h : scanHex s = some (x, r)) : r <:+ s := by
  unfold scanHex at h
  cases hp : scanPoint isHexDigit s with
  | none => rw [hp] at h; cases h
  | some t =>
    obtain ⟨ip, fp, t⟩ := t
    rw [hp] at h
    cases h
    exact (scanExponent_suffix _ _).trans (scanPoint_suffix hp)

theorem afterNan_suffix (s : Str) : afterNan s <:+ s := by
  unfold afterNan
  split
  · dsimp only
    split
    · exact (List.drop_suffix 1 _).trans ((List.dropWhile_suffix _).trans (List.drop_suffix 1 _))
    · exact List.suffix_rfl
  · exact List.suffix_rfl

theorem scanNumber_suffix {s r : Str} {x : Num} (h : scanNumber s = some (x, r)) : r <:+ s := by
  unfold scanNumber at h
  split at h
  · cases h; exact List.drop_suffix _ _
  · split at h
    · cases h; exact List.drop_suffix _ _
    · split at h
      · cases h; exact (afterNan_suffix _).trans (List.drop_suffix _ _)
      · split at h
        · rename_i x' r' he
          cases h
          split at he
          · exact (scanHex_suffix he).trans (List.drop_suffix _ _)
          · cases he
        · cases hd : scanDecimal s with
          | none => rw [hd] at h; cases h
          | some t =>
            obtain ⟨y, t⟩ := t
            rw [hd] at h
            cases h
            exact scanDecimal_suffix hd

theorem wcstod_suffix {s r : Str} {x : Num} (h : wcstod s = some (x, r)) : r <:+ s := by
  unfold wcstod at h
  dsimp only at h
  generalize hq : scanNumber _ = q at h
  cases q with
  | none => cases h
  | some q =>
    obtain ⟨y, t⟩ := q
    cases h
    refine (scanNumber_suffix hq).trans ?_
    split
    · exact (List.drop_suffix 1 _).trans (List.dropWhile_suffix _)
    · exact List.dropWhile_suffix _

theorem skipSpace_narrow {s : Str} (h : ∀ c ∈ s, c.toNat < 256) : ∃ r, skipSpace s = .ok r ∧ r <:+ s := by
  induction s with
  | nil => exact ⟨[], rfl, List.suffix_rfl⟩
  | cons c s ih =>
    unfold skipSpace narrowSpace
    rw [if_pos (h c (by simp))]
    cases hc : isSpace c with
    | true =>
      obtain ⟨r, h1, h2⟩ := ih (fun x hx => h x (by simp [hx]))
      exact ⟨r, h1, h2.trans (List.suffix_cons c s)⟩
    | false => exact ⟨c :: s, rfl, List.suffix_rfl⟩

theorem skipComma_narrow {s : Str} (h : ∀ c ∈ s, c.toNat < 256) : skipComma s = .throws ∨ ∃ r, skipComma s = .ok r ∧ r <:+ s := by
  obtain ⟨r, h1, h2⟩ := skipSpace_narrow h
  unfold skipComma
  rw [h1]
  cases r with
  | nil => exact .inl rfl
  | cons c r =>
    dsimp only
    split
    · exact .inr ⟨r, rfl, (List.suffix_cons c r).trans h2⟩
    · exact .inl rfl

theorem parsePoint_narrow {s : Str} (h : ∀ c ∈ s, c.toNat < 256) : parsePoint s = .throws ∨ ∃ p r, parsePoint s = .ok (p, r) ∧ r <:+ s := by
  unfold parsePoint
  cases h1 : wcstod s with
  | none => exact .inl rfl
  | some q =>
    obtain ⟨x, r⟩ := q
    have hr := wcstod_suffix h1
    dsimp only
    rcases skipComma_narrow (s := r) (fun c hc => h c (hr.subset hc)) with h2 | ⟨r2, h2, hr2⟩
    · rw [h2]; exact .inl rfl
    · rw [h2]
      dsimp only
      cases h3 : wcstod r2 with
      | none => exact .inl rfl
      | some q =>
        obtain ⟨y, r3⟩ := q
        have hr3 := (wcstod_suffix h3).trans (hr2.trans hr)
        obtain ⟨r4, h4, hr4⟩ := skipSpace_narrow (s := r3) (fun c hc => h c (hr3.subset hc))
        dsimp only
        rw [h4]
        exact .inr ⟨(x, y), r4, rfl, hr4.trans hr3⟩

theorem parsePoints_narrow (k : ℕ) : ∀ s : Str, (∀ c ∈ s, c.toNat < 256) → parsePoints k s ≠ .undefined := by
  induction k with
  | zero => intro s _; cases s <;> simp [parsePoints]
  | succ k ih =>
    intro s h
    cases s with
    | nil => simp [parsePoints]
    | cons c s =>
      unfold parsePoints
      rcases parsePoint_narrow h with h1 | ⟨p, r, h1, hr⟩
      · rw [h1]; simp
      · rw [h1]
        dsimp only
        have := ih r (fun c hc => h c (hr.subset hc))
        cases hq : parsePoints k r with
        | undefined => exact absurd hq this
        | throws => simp
        | ok ps => simp

theorem readSpline_narrow {ch : Node} (h : ∀ t, fieldOf ch "Points".toList = some t → ∀ c ∈ t, c.toNat < 256) :
    ∃ ps, readSpline ch = .ok ps ∧ (∀ t, fieldOf ch "Points".toList = some t → parsePoints t.length t = .throws → ps = []) ∧ (fieldOf ch "Points".toList = none → ps = []) := by
  unfold readSpline
  cases hm : fieldOf ch "Mode".toList with
  | none => exact ⟨[], rfl, fun _ _ _ => rfl, fun _ => rfl⟩
  | some m =>
    dsimp only
    split
    · cases hp : fieldOf ch "Points".toList with
      | none => exact ⟨[], rfl, fun _ e => (by cases e), fun _ => rfl⟩
      | some t =>
        dsimp only
        cases hq : parsePoints t.length t with
        | undefined => exact absurd hq (parsePoints_narrow _ _ (h t hp))
        | throws => exact ⟨[], rfl, fun _ _ _ => rfl, fun _ => rfl⟩
        | ok ps =>
          refine ⟨ps, rfl, fun t' e h' => ?_, fun e => by cases e⟩
          cases e
          rw [hq] at h'
          cases h'
    · exact ⟨[], rfl, fun _ _ _ => rfl, fun _ => rfl⟩

end Verif.Xml
