import Verif.Proof.Text

/-!
# Lemmas about bounds as text
-/

namespace Verif.Text
open Spec

/-- An optional sign and digits. -/
theorem matchNumber_signed (neg : Bool) (ds r : List Char) (h : Digits ds) (hr : ∀ c cs, r = c :: cs → c.isDigit = false) :
    matchNumber ((if neg then ['-'] else []) ++ ds ++ r) = some ((if neg then ['-'] else []) ++ ds, r) := by
  have ht := takeWhile_all (p := Char.isDigit) (fun c hc => (isDigit_iff c).2 (h.2 c hc)) r hr
  cases neg with
  | true =>
    show matchNumber ('-' :: (ds ++ r)) = some ('-' :: ds, r)
    unfold matchNumber
    simp only [or_true, if_true, ht.1, ht.2, h.1, if_false]
  | false =>
    show matchNumber (ds ++ r) = some (ds, r)
    cases hd : ds with
    | nil => exact absurd hd h.1
    | cons d t =>
      rw [← hd]
      have hdig : IsDigit d := h.2 d (by rw [hd]; exact List.mem_cons_self ..)
      have hn := digit_not hdig
      have hp : d ≠ '|' := by
        rintro rfl
        simp [IsDigit] at hdig
      have e : ds ++ r = d :: (t ++ r) := by rw [hd]; rfl
      unfold matchNumber
      rw [e]
      dsimp only
      rw [if_neg (fun h => h.elim hn.2.2.1 (fun h => h.elim hp hn.2.2.2.1)), ← e, ht.1, ht.2, if_neg h.1]

theorem printInt_eq (v : Int) : printInt v = (if decide (v < 0) then ['-'] else []) ++ decimal v.natAbs := by
  unfold printInt
  by_cases h : v < 0 <;> simp [h]

theorem signed_decimal (v : Int) : signed (decide (v < 0)) (decimal v.natAbs) = v := by
  unfold signed
  rw [(decimal_spec v.natAbs).2.1]
  by_cases h : v < 0
  · simp [h]; omega
  · simp [h]; omega

theorem tryParseInt_print (v : Int) (h : IsInt32 v) : tryParseInt (printInt v) = some v := by
  rw [printInt_eq, tryParseInt_signed _ _ (decimal_spec _).1.2]
  exact ⟨(signed_decimal v).symm, h⟩

theorem letter_isLetter (d : Dim) : isLetter (dimensionToChar d) = true := by cases d <;> decide

theorem charToDimension_self (d : Dim) : charToDimension (dimensionToChar d) = some d := by cases d <;> decide

/-- The item printed for one dimension. -/
def boundsItem (d : Dim) (s n : Int) : List Char := dimensionToChar d :: (printInt s ++ ':' :: printInt n)

theorem matchBounds_item (d : Dim) (s n : Int) (r : List Char) (hr : ∀ c cs, r = c :: cs → c.isDigit = false) :
    matchBounds (boundsItem d s n ++ r) = some (dimensionToChar d, printInt s, printInt n, r.dropWhile isSpace) := by
  have e1 : matchNumber (printInt s ++ ':' :: (printInt n ++ r)) = some (printInt s, ':' :: (printInt n ++ r)) := by
    rw [printInt_eq s]
    exact matchNumber_signed _ _ _ (decimal_spec _).1 (by intro c cs h; injection h with h _; subst h; decide)
  have e2 : matchNumber (printInt n ++ r) = some (printInt n, r) := by
    rw [printInt_eq n]
    exact matchNumber_signed _ _ _ (decimal_spec _).1 hr
  unfold matchBounds boundsItem
  simp only [List.cons_append, List.append_assoc, letter_isLetter, if_true, e1, e2]

theorem searchBounds_match {s : List Char} {m : Char × List Char × List Char × List Char} (h : matchBounds s = some m) : searchBounds s = some m := by
  cases s with
  | nil => cases h
  | cons c s => rw [searchBounds, h]

theorem matchBounds_letter {s : List Char} (h : ∀ c cs, s = c :: cs → isLetter c = false) : matchBounds s = none := by
  cases s with
  | nil => rfl
  | cons c s =>
    unfold matchBounds
    simp [h c s rfl]

/-- Characters that are no letters are skipped. -/
theorem searchBounds_garbage (g s : List Char) (hg : ∀ c ∈ g, isLetter c = false) : searchBounds (g ++ s) = searchBounds s := by
  induction g with
  | nil => rfl
  | cons x xs ih =>
    rw [List.cons_append, searchBounds, matchBounds_letter (by intro c cs h; injection h with h _; subst h; exact hg x (List.mem_cons_self ..))]
    exact ih (fun c hc => hg c (List.mem_cons_of_mem _ hc))

theorem dropWhile_length (p : Char → Bool) (s : List Char) : (s.dropWhile p).length ≤ s.length := by
  induction s with
  | nil => simp
  | cons c s ih =>
    rw [List.dropWhile_cons]
    split
    · simp only [List.length_cons]; omega
    · exact Nat.le_refl _

theorem matchNumber_text {s t r : List Char} (h : matchNumber s = some (t, r)) : s = t ++ r ∧ t ≠ [] ∧
    ∃ ds, Digits ds ∧ (t = ds ∨ t = '+' :: ds ∨ t = '|' :: ds ∨ t = '-' :: ds) := by
  unfold matchNumber at h
  cases s with
  | nil => cases h
  | cons c u =>
    dsimp only at h
    split at h
    · rename_i hc
      split at h
      · cases h
      · rename_i hne
        injection h with h
        injection h with h1 h2
        subst h1 h2
        refine ⟨?_, by simp, _, ⟨hne, fun c hc => (isDigit_iff c).1 ((span_eq Char.isDigit u).2.1 c hc)⟩, ?_⟩
        · rw [List.cons_append, ← (span_eq Char.isDigit u).1]
        · rcases hc with rfl | rfl | rfl <;> simp
    · split at h
      · cases h
      · rename_i hne
        injection h with h
        injection h with h1 h2
        subst h1 h2
        exact ⟨(span_eq Char.isDigit _).1, hne, _, ⟨hne, fun c hc => (isDigit_iff c).1 ((span_eq Char.isDigit (_ :: _)).2.1 c hc)⟩, .inl rfl⟩

theorem matchBounds_text {s t1 t2 r : List Char} {c : Char} (h : matchBounds s = some (c, t1, t2, r)) :
    ∃ w, s = c :: (t1 ++ ':' :: (t2 ++ (w ++ r))) ∧ t1 ≠ [] ∧ t2 ≠ [] ∧ (∃ ds, Digits ds ∧ (t1 = ds ∨ t1 = '+' :: ds ∨ t1 = '|' :: ds ∨ t1 = '-' :: ds)) ∧
      (∃ ds, Digits ds ∧ (t2 = ds ∨ t2 = '+' :: ds ∨ t2 = '|' :: ds ∨ t2 = '-' :: ds)) := by
  unfold matchBounds at h
  cases s with
  | nil => cases h
  | cons x s1 =>
    dsimp only at h
    split at h
    · split at h
      · cases h
      · rename_i a s2 hm1
        split at h
        · rename_i s3
          split at h
          · cases h
          · rename_i b s4 hm2
            injection h with h
            injection h with h1 h
            injection h with h2 h
            injection h with h3 h4
            subst h1 h2 h3 h4
            obtain ⟨e1, n1, d1⟩ := matchNumber_text hm1
            obtain ⟨e2, n2, d2⟩ := matchNumber_text hm2
            refine ⟨s4.takeWhile isSpace, ?_, n1, n2, d1, d2⟩
            rw [e1, e2, ← (span_eq isSpace s4).1]
        · cases h
    · cases h

theorem searchBounds_text {s t1 t2 r : List Char} {c : Char} (h : searchBounds s = some (c, t1, t2, r)) :
    ∃ g w, s = g ++ c :: (t1 ++ ':' :: (t2 ++ (w ++ r))) ∧ t1 ≠ [] ∧ t2 ≠ [] ∧ (∃ ds, Digits ds ∧ (t1 = ds ∨ t1 = '+' :: ds ∨ t1 = '|' :: ds ∨ t1 = '-' :: ds)) ∧
      (∃ ds, Digits ds ∧ (t2 = ds ∨ t2 = '+' :: ds ∨ t2 = '|' :: ds ∨ t2 = '-' :: ds)) := by
  induction s with
  | nil => cases h
  | cons x xs ih =>
    rw [searchBounds] at h
    split at h
    · rename_i m hm
      subst_vars
      injection h with h
      subst h
      obtain ⟨w, e, k⟩ := matchBounds_text hm
      exact ⟨[], w, e, k⟩
    · obtain ⟨g, w, e, k⟩ := ih h
      exact ⟨x :: g, w, by rw [List.cons_append, ← e], k⟩

theorem searchBounds_shorter {s t1 t2 r : List Char} {c : Char} (h : searchBounds s = some (c, t1, t2, r)) : r.length < s.length := by
  obtain ⟨g, w, e, _⟩ := searchBounds_text h
  rw [e]
  simp only [List.length_append, List.length_cons]
  omega

/-- The number of iterations allotted is enough. -/
theorem boundsLoop_fuel (n m : Nat) (s : List Char) (b : Bounds) (f : Bool) (hn : s.length < n) (hm : s.length < m) :
    boundsLoop n s b f = boundsLoop m s b f := by
  induction n generalizing m s b f with
  | zero => omega
  | succ n ih =>
    cases m with
    | zero => omega
    | succ m =>
      rw [boundsLoop, boundsLoop]
      cases hs : searchBounds s with
      | none => rfl
      | some x =>
        obtain ⟨c, t1, t2, r⟩ := x
        have := searchBounds_shorter hs
        dsimp only
        cases charToDimension c with
        | none => rfl
        | some d =>
          dsimp only
          cases tryParseInt t1 with
          | none => rfl
          | some st =>
            dsimp only
            cases tryParseInt t2 with
            | none => rfl
            | some sz =>
              dsimp only
              split
              · rfl
              · split
                · rfl
                · exact ih m r _ _ (by omega) (by omega)

end Verif.Text
