import Verif.Props.NumText
import Verif.Proof.XmlValue

/-!
# C71: infinity and not-a-number in the metadata
-/

namespace Verif
open Xml Spec Flt
open Text (isSpace isSpace_iff)

private theorem startsWith_map (w s : Str) : startsWith w s = ((s.map upper).take w.length == w) := by
  unfold startsWith
  rw [List.map_take]

private theorem caseWord_map {t w : Str} (hw : ∀ l ∈ w, ¬ (65 ≤ l.toNat ∧ l.toNat ≤ 90)) (h : CaseWord t w) : t.map upper = w.map upper ∧ t.length = w.length := by
  have := (icasecmp_iff (t := t) hw).2 h
  unfold icasecmp at this
  have e := beq_iff_eq.1 this
  exact ⟨e, by simpa using congrArg List.length e⟩

private theorem wcstod_word {w sg t : Str} {x : Num} {g : ℚ} (hw : ∀ c ∈ w, isSpace c = true) (hs : SignText sg g) (ht : ∃ a r, t = a :: r ∧ (upper a = 'I' ∨ upper a = 'N'))
    (h : scanNumber t = some (x, [])) : wcstod (w ++ (sg ++ t)) = some ((x.signed (decide (sg = ['-']))).map f64, []) := by
  obtain ⟨a, r, rfl, ha⟩ := ht
  have hna : isSpace a = false ∧ a ≠ '-' ∧ a ≠ '+' := by
    refine ⟨?_, ?_, ?_⟩
    · cases hx : isSpace a with
      | false => rfl
      | true =>
        have := (isSpace_iff a).1 hx
        simp only [List.mem_cons, List.not_mem_nil, or_false] at this
        rcases this with rfl | rfl | rfl | rfl | rfl | rfl <;> rcases ha with e | e <;> exact absurd e (by decide)
    · rintro rfl; rcases ha with e | e <;> exact absurd e (by decide)
    · rintro rfl; rcases ha with e | e <;> exact absurd e (by decide)
  unfold wcstod
  cases hs with
  | none =>
    rw [List.nil_append, dropWhile_all hw _ (by intro c cs e; injection e with e _; rw [← e]; exact hna.1)]
    have hh1 : (a :: r).head? ≠ some '-' := by intro e; injection e with e; exact hna.2.1 e
    have hh2 : (a :: r).head? ≠ some '+' := by intro e; injection e with e; exact hna.2.2 e
    dsimp only
    rw [if_neg (by rintro (e | e); exact hh1 e; exact hh2 e), h, decide_eq_false hh1]
    rfl
  | plus =>
    rw [dropWhile_all hw _ (by intro c cs e; injection e with e _; rw [← e]; decide)]
    dsimp only
    have hif : (if (['+'] ++ a :: r).head? = some '-' ∨ (['+'] ++ a :: r).head? = some '+' then List.drop 1 (['+'] ++ a :: r) else ['+'] ++ a :: r) = a :: r := if_pos (Or.inr rfl)
    rw [hif, h]
    rfl
  | minus =>
    rw [dropWhile_all hw _ (by intro c cs e; injection e with e _; rw [← e]; decide)]
    dsimp only
    have hif : (if (['-'] ++ a :: r).head? = some '-' ∨ (['-'] ++ a :: r).head? = some '+' then List.drop 1 (['-'] ++ a :: r) else ['-'] ++ a :: r) = a :: r := if_pos (Or.inl rfl)
    rw [hif, h]
    rfl

/-- **C71 (infinity and not-a-number).** If the value of the node is `inf` or `infinity`, or `nan`, in capital or small letters, with any white space and a sign before it, then
`TryGetValueAsDouble` and `TryGetValueAsFloat` return infinity with this sign, or not-a-number. -/
theorem C71_read_special (n : Node) (w sg t : Str) (g : ℚ) (hv : tryGetValue n = some (w ++ (sg ++ t))) (hw : ∀ c ∈ w, c ∈ [' ', '\t', '\n', '\x0b', '\x0c', '\r'])
    (hs : SignText sg g) :
    (CaseWord t "inf".toList ∨ CaseWord t "infinity".toList → tryGetDouble n = .value (.inf (decide (g = -1))) ∧ tryGetFloat n = .value (.inf (decide (g = -1)))) ∧
    (CaseWord t "nan".toList → tryGetDouble n = .value .nan ∧ tryGetFloat n = .value .nan) := by
  have hsg : decide (sg = ['-']) = decide (g = -1) := by
    cases hs
    · norm_num
    · rw [decide_eq_false (by decide), decide_eq_false (by norm_num)]
    · norm_num
  have hd : ∀ x : Num, wcstod (w ++ (sg ++ t)) = some (x, []) → tryGetDouble n = .value x ∧ tryGetFloat n = .value (x.map f32) := by
    intro x hx
    have : tryGetDouble n = .value x := by
      unfold tryGetDouble
      rw [hv]
      dsimp only
      rw [hx]
      rfl
    refine ⟨this, ?_⟩
    unfold tryGetFloat
    rw [this]
  have hhead : ∀ u : Str, ∀ c cs, u = c :: cs → t.map upper = u → ∃ a r, t = a :: r ∧ upper a = c := by
    rintro u c cs rfl h
    cases t with
    | nil => cases h
    | cons a r => injection h with h _; exact ⟨a, r, rfl, h⟩
  have hw' : ∀ c ∈ w, isSpace c = true := fun c hc => (isSpace_iff c).2 (hw c hc)
  constructor
  · intro h
    have hsc : scanNumber t = some (.inf false, []) ∧ ∃ a r, t = a :: r ∧ upper a = 'I' := by
      rcases h with h | h
      · obtain ⟨e, hl⟩ := caseWord_map (by decide) h
        refine ⟨?_, hhead _ 'I' ['N', 'F'] (by decide) e⟩
        unfold scanNumber
        rw [startsWith_map, startsWith_map, e, if_neg (by decide), if_pos (by decide), List.drop_eq_nil_of_le (by rw [hl]; decide)]
      · obtain ⟨e, hl⟩ := caseWord_map (by decide) h
        refine ⟨?_, hhead _ 'I' ['N', 'F', 'I', 'N', 'I', 'T', 'Y'] (by decide) e⟩
        unfold scanNumber
        rw [startsWith_map, e, if_pos (by decide), List.drop_eq_nil_of_le (by rw [hl]; decide)]
    obtain ⟨h1, a, r, h2, h3⟩ := hsc
    have := hd _ (wcstod_word hw' hs ⟨a, r, h2, .inl h3⟩ h1)
    rw [hsg] at this
    simpa [Num.signed, Num.map] using this
  · intro h
    obtain ⟨e, hl⟩ := caseWord_map (by decide) h
    obtain ⟨a, r, h2, h3⟩ := hhead _ 'N' ['A', 'N'] (by decide) e
    have h1 : scanNumber t = some (.nan, []) := by
      unfold scanNumber
      rw [startsWith_map, startsWith_map, startsWith_map, e, if_neg (by decide), if_neg (by decide), if_pos (by decide), List.drop_eq_nil_of_le (by rw [hl]; decide)]
      rfl
    exact hd _ (wcstod_word hw' hs ⟨a, r, h2, .inr h3⟩ h1)

example : tryGetDouble (.element "v".toList [] [.text false ([' '] ++ (['-'] ++ "Inf".toList))]) = .value (.inf true) := by
  have := ((C71_read_special (.element "v".toList [] [.text false ([' '] ++ (['-'] ++ "Inf".toList))]) [' '] ['-'] "Inf".toList (-1) rfl (by decide) .minus).1
    (.inl ((icasecmp_iff (by decide)).1 (by decide)))).1
  rw [this]
  norm_num

end Verif
