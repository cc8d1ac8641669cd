import Verif.Proof.IndexSet

/-!
# C26: index sets as text
-/

namespace Verif
open Spec Text

private theorem loose {t : List Char} {a b : Int} (h : IndexItem IndexNumber t a b) : IndexItem LooseNumber t a b := by
  cases h with
  | single t w v ht h32 hw => exact .single _ _ _ (.inl ht) h32 hw
  | interval t w u a b ht hw hu ha hb => exact .interval _ _ _ _ _ (.inl ht) hw (.inl hu) ha hb

/-- **C26 (documented texts).** A text of comma separated numbers and intervals, as documented, is accepted, and an index is contained in the resulting set iff it lies in
one of the intervals the text denotes. -/
theorem C26_documented_text (s : List Char) (l : List (Int × Int)) (h : IndexText IndexNumber s l) :
    ∃ set, parseIndexSet s = .ok set ∧ ∀ i, isContained set i = true ↔ ∃ iv ∈ l, iv.1 ≤ i ∧ i ≤ iv.2 := by
  obtain ⟨parts, h0, rfl, h1, h2⟩ := h
  refine ⟨l, ?_, ?_⟩
  · unfold parseIndexSet
    rw [splitAt_join parts h0 h1, addParts_iff]
    generalize parts.filter (fun p => p ≠ []) = ps at h2
    induction h2 with
    | nil => exact .nil
    | cons h _ ih =>
      obtain ⟨t, ht, hi, hle⟩ := h
      exact .cons ⟨t, ht, loose hi, hle⟩ ih
  · intro i
    unfold isContained
    simp

/-- The documented examples: `5`, `-3-5` and `5-inf`. -/
example : ∃ l, IndexText IndexNumber "5, -3-5,5-inf".toList l := by
  refine ⟨[(5, 5), (-3, 5), (5, 2147483647)], ["5".toList, " -3-5".toList, "5-inf".toList], by simp, by decide, by decide, ?_⟩
  have d5 : Digits ['5'] := ⟨by simp, by simp [IsDigit]⟩
  have d3 : Digits ['3'] := ⟨by simp, by simp [IsDigit]⟩
  have n5 : IndexNumber ['5'] 5 := .plain _ d5
  have n3 : IndexNumber ['-', '3'] (-3) := .minus [] _ (by intro c hc; cases hc) d3
  have wn : White [] := by intro c hc; cases hc
  refine .cons ⟨['5'], ⟨[], [], rfl, by simp [Blanks], by simp [Blanks], by simp, by simp⟩, ?_, by decide⟩
    (.cons ⟨['-', '3', '-', '5'], ⟨[' '], [], rfl, by simp [Blanks], by simp [Blanks], by simp, by simp⟩, ?_, by decide⟩
      (.cons ⟨['5', '-', 'i', 'n', 'f'], ⟨[], [], rfl, by simp [Blanks], by simp [Blanks], by simp, by simp⟩, ?_, by decide⟩ .nil))
  · exact .single ['5'] [] 5 n5 (by simp [IsInt32]) wn
  · exact .interval ['-', '3'] [] ['5'] (-3) 5 n3 wn n5 (by simp [IsInt32]) (by simp [IsInt32])
  · exact .interval ['5'] [] ['i', 'n', 'f'] 5 2147483647 n5 wn .inf (by simp [IsInt32]) (by simp [IsInt32])

/-- **C26 (the accepted texts).** A text is accepted iff it has the documented form, except that a lone sign is taken for the number 0; reversed intervals and numbers that are no `int`s are
rejected. The result is the list of the intervals denoted. -/
theorem C26_accepted_iff_partial (s : List Char) (l : List (Int × Int)) : parseIndexSet s = .ok l ↔ IndexText LooseNumber s l := by
  unfold parseIndexSet
  constructor
  · intro h
    obtain ⟨parts, h0, h1, h2⟩ := exists_parts s
    rw [h1, splitAt_join parts h0 h2, addParts_iff] at h
    exact ⟨parts, h0, h1, h2, h⟩
  · rintro ⟨parts, h0, rfl, h1, h2⟩
    rw [splitAt_join parts h0 h1, addParts_iff]
    exact h2

/-- **C26 violated by lone signs:** `-`, `+` and the interval `+-5` are accepted, with the sign counting as 0; `3 - 7` is rejected. -/
theorem C26_lone_sign_accepted : (parseIndexSet "-".toList = .ok [(0, 0)]) ∧ (parseIndexSet "+".toList = .ok [(0, 0)]) ∧ (parseIndexSet "+-5".toList = .ok [(0, 5)]) ∧
    (parseIndexSet "3 - 7".toList = .error .InvalidSyntax) := by
  refine ⟨?_, ?_, ?_, ?_⟩ <;> rfl

/-- A lone sign is no number of the documented syntax. -/
theorem C26_lone_sign_malformed (v : Int) : ¬ IndexNumber ['-'] v := by
  intro h
  generalize ht : ['-'] = t at h
  cases h with
  | plain ds hd =>
    subst ht
    simpa [IsDigit] using hd.2 '-' (List.mem_cons_self ..)
  | plus w ds hw hd => injection ht with ht _; exact absurd ht (by decide)
  | minus w ds hw hd =>
    injection ht with _ ht
    exact hd.1 (List.append_eq_nil_iff.1 ht.symm).2
  | inf => injection ht with ht _; exact absurd ht (by decide)
  | plusInf w hw => injection ht with ht _; exact absurd ht (by decide)
  | minusInf w hw =>
    injection ht with _ ht
    have := (List.append_eq_nil_iff.1 ht.symm).2
    cases this

end Verif
