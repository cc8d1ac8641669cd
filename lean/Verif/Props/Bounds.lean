import Verif.Proof.Bounds

/-!
# C28: bounds as text
-/

namespace Verif
open Spec Text

/-- The items of the dimensions in `l`. -/
private theorem loop_items (b : Bounds) (hb : BoundsOk b) (l : List Dim) (hl : l.Nodup) (n : Nat) (acc : Bounds) (f : Bool)
    (hacc : ∀ d ∈ l, acc d = none)
    (hn : (l.flatMap (boundsPart b)).length < n) :
    boundsLoop n (l.flatMap (boundsPart b)) acc f =
      .ok (fun d => if d ∈ l ∧ (b d).isSome then b d else acc d, f || l.any (fun d => (b d).isSome)) := by
  induction l generalizing n acc f with
  | nil =>
    cases n with
    | zero => simp at hn
    | succ n =>
      rw [List.flatMap_nil, boundsLoop, searchBounds]
      simp
  | cons d ds ih =>
    rw [List.nodup_cons] at hl
    rw [List.flatMap_cons] at hn ⊢
    generalize htail : ds.flatMap (boundsPart b) = tail at *
    unfold boundsPart at hn ⊢
    cases hd : b d with
    | none =>
      rw [hd] at hn
      dsimp only at hn ⊢
      rw [List.nil_append, ih hl.2 n acc f (fun e he => hacc e (List.mem_cons_of_mem _ he)) (by simpa using hn)]
      congr 2
      · funext e
        by_cases he : e = d
        · subst he
          simp [hd]
        · simp [he]
      · simp [hd]
    | some p =>
      obtain ⟨s, k⟩ := p
      rw [hd] at hn
      dsimp only at hn ⊢
      obtain ⟨h1, h2, h3⟩ := hb d s k hd
      have htl : ∀ c cs, tail = c :: cs → c.isDigit = false ∧ isSpace c = false := by
        clear ih hn hacc hl
        subst htail
        induction ds with
        | nil => intro c cs e; simp at e
        | cons e es ihe =>
          intro c cs he
          rw [List.flatMap_cons, boundsPart] at he
          cases hbe : b e with
          | none =>
            rw [hbe] at he
            exact ihe c cs he
          | some q =>
            rw [hbe] at he
            dsimp only at he
            rw [List.cons_append] at he
            injection he with he _
            subst he
            cases e <;> decide
      have hsp : tail.dropWhile isSpace = tail := by
        cases ht : tail with
        | nil => rfl
        | cons c cs => rw [List.dropWhile_cons, if_neg (by simp [(htl c cs ht).2])]
      have hm := matchBounds_item d s k tail (fun c cs h => (htl c cs h).1)
      rw [hsp] at hm
      cases n with
      | zero => simp at hn
      | succ n =>
        have hs := searchBounds_match hm
        unfold boundsItem at hs
        rw [boundsLoop, hs]
        dsimp only
        rw [charToDimension_self]
        dsimp only
        rw [tryParseInt_print s h1, tryParseInt_print k h2]
        dsimp only
        rw [if_neg h3, if_neg (by rw [hacc d (List.mem_cons_self ..)]; simp), ih hl.2 n _ _ ?_ ?_]
        · congr 2
          · funext e
            by_cases he : e = d
            · subst he
              simp [hd, hl.1, Bounds.set]
            · simp [he, Bounds.set]
          · simp only [List.any_cons, hd, Option.isSome_some, Bool.true_or, Bool.or_true]
            cases htl2 : tail with
            | nil => simp
            | cons c cs =>
              have : ds.any (fun d => (b d).isSome) = true := by
                cases ha : ds.any (fun d => (b d).isSome) with
                | true => rfl
                | false =>
                  exfalso
                  rw [List.any_eq_false] at ha
                  have : tail = [] := by
                    rw [← htail, List.flatMap_eq_nil_iff]
                    intro e he
                    have := ha e he
                    unfold boundsPart
                    cases hbe : b e with
                    | none => rfl
                    | some q => rw [hbe] at this; simp at this
                  rw [this] at htl2
                  cases htl2
              rw [this]
              simp
        · intro e he
          unfold Bounds.set
          rw [if_neg (by rintro rfl; exact hl.1 he)]
          exact hacc e (List.mem_cons_of_mem _ he)
        · simp only [List.length_append, List.length_cons] at hn
          omega

/-- **C28 (printing, then parsing).** For bounds with at least one dimension, `int` starts and non-zero `int` sizes, the text of the bounds is parsed to the
same bounds. -/
theorem C28_round_trip_partial (b : Bounds) (h : BoundsOk b) (d : Dim) (hd : (b d).isSome = true) : parseBounds (boundsToString b) = .ok b := by
  unfold parseBounds boundsToString
  rw [loop_items b h Dim.all (by decide) _ _ _ (fun _ _ => rfl) (by omega)]
  dsimp only
  have : (Dim.all.any fun d => (b d).isSome) = true := List.any_eq_true.2 ⟨d, by cases d <;> decide, hd⟩
  rw [this, if_neg (by simp)]
  congr 1
  funext e
  by_cases he : (b e).isSome = true
  · rw [if_pos ⟨by cases e <;> decide, he⟩]
  · rw [if_neg (fun h => he h.2)]
    have : b e = none := by simpa using he
    exact this.symm

/-- The hypotheses are met by bounds with negative starts and the largest size. -/
example : BoundsOk (fun d => if d = .C then some (0, 3) else if d = .Z then some (-2147483648, 2147483647) else none) := by
  intro d s n h
  dsimp only at h
  split at h
  · cases h; simp [IsInt32]
  · split at h
    · cases h; simp [IsInt32]
    · cases h

/-- **C28 violated by empty bounds:** their text is rejected. -/
theorem C28_empty_fails : parseBounds (boundsToString (fun _ => none)) = .error .InvalidSyntax := by
  have : boundsToString (fun _ => none) = [] := by decide
  rw [this]
  rfl

/-- **C28 violated by foreign characters:** whatever characters other than letters are put in front of an accepted text, the result is accepted and
means the same. -/
theorem C28_garbage_accepted (g s : List Char) (hl : ∀ c ∈ g, ¬ (('A' ≤ c ∧ c ≤ 'Z') ∨ ('a' ≤ c ∧ c ≤ 'z'))) : parseBounds (g ++ s) = parseBounds s := by
  have hg : ∀ c ∈ g, isLetter c = false := by
    intro c hc
    have := hl c hc
    simp only [Char.le_def, UInt32.le_iff_toNat_le] at this
    unfold isLetter
    simp only [Bool.or_eq_false_iff, Bool.and_eq_false_iff, decide_eq_false_iff_not]
    change ¬ ((65 ≤ c.toNat ∧ c.toNat ≤ 90) ∨ (97 ≤ c.toNat ∧ c.toNat ≤ 122)) at this
    omega
  have : boundsLoop ((g ++ s).length + 1) (g ++ s) (fun _ => none) false = boundsLoop (s.length + 1) s (fun _ => none) false := by
    rw [boundsLoop_fuel (s.length + 1) ((g ++ s).length + 1) s _ _ (by omega) (by rw [List.length_append]; omega), boundsLoop, boundsLoop, searchBounds_garbage g s hg]
  unfold parseBounds
  rw [this]

/-- Foreign characters before, between and inside; the vertical bar; a negative size. -/
example : (parseBounds "*?!T0:4 ..hello.. C|5:3(9)Z1:-2".toList).isOk = true := by decide +kernel

/-- **C28 (what an accepted text contains).** If a text is accepted, every interval of the result is written in it: the letter, the start (or a number with a
vertical bar, which counts as 0), a colon and the size. -/
theorem C28_values_occur (s : List Char) (b : Bounds) (h : parseBounds s = .ok b) (d : Dim) (st n : Int) (hd : b d = some (st, n)) :
    IsInt32 st ∧ IsInt32 n ∧ n ≠ 0 ∧ ∃ before letter t u after, s = before ++ letter :: (t ++ ':' :: (u ++ after)) ∧ letter ∈ letters d ∧
      (BoundsNumber t st ∨ BarNumber t st) ∧ (BoundsNumber u n ∨ BarNumber u n) := by
  have num : ∀ (t : List Char) (v : Int), (∃ ds, Digits ds ∧ (t = ds ∨ t = '+' :: ds ∨ t = '|' :: ds ∨ t = '-' :: ds)) → tryParseInt t = some v →
      IsInt32 v ∧ (BoundsNumber t v ∨ BarNumber t v) := by
    rintro t v ⟨ds, hds, ht⟩ hv
    have htw : ds.takeWhile Char.isDigit = ds := by
      have := (takeWhile_all (p := Char.isDigit) (fun c hc => (isDigit_iff c).2 (hds.2 c hc)) [] (by intro c cs hh; cases hh)).1
      rwa [List.append_nil] at this
    rcases ht with rfl | rfl | rfl | rfl
    · have := (tryParseInt_signed false _ hds.2 v).1 hv
      exact ⟨this.2, .inl (by rw [this.1]; exact .plain _ hds)⟩
    · have e : strtoll ('+' :: ds) = saturate (digitsValue ds) := by
        show saturate (natOf (ds.takeWhile Char.isDigit) : Int) = _
        rw [htw, natOf_eq]
      unfold tryParseInt at hv
      rw [e] at hv
      split at hv
      · cases hv
      · rename_i hr
        rw [saturate_range] at hr
        have hr := Classical.not_not.1 hr
        rw [saturate_eq hr] at hv
        cases hv
        exact ⟨hr, .inl (.plus _ hds)⟩
    · have e : strtoll ('|' :: ds) = 0 := by
        show saturate (natOf (('|' :: ds).takeWhile Char.isDigit) : Int) = _
        rw [List.takeWhile_cons, if_neg (by decide)]
        decide
      unfold tryParseInt at hv
      rw [e] at hv
      rw [if_neg (by decide)] at hv
      cases hv
      exact ⟨by simp [IsInt32], .inr (.bar _ hds)⟩
    · have := (tryParseInt_signed true _ hds.2 v).1 hv
      exact ⟨this.2, .inl (by rw [this.1]; exact .minus _ hds)⟩
  have loop : ∀ (n : Nat) (s : List Char) (acc b : Bounds) (f f' : Bool), boundsLoop n s acc f = .ok (b, f') → ∀ d st k, b d = some (st, k) → acc d = some (st, k) ∨
      (IsInt32 st ∧ IsInt32 k ∧ k ≠ 0 ∧ ∃ before letter t u after, s = before ++ letter :: (t ++ ':' :: (u ++ after)) ∧ letter ∈ letters d ∧
        (BoundsNumber t st ∨ BarNumber t st) ∧ (BoundsNumber u k ∨ BarNumber u k)) := by
    intro n
    induction n with
    | zero => intro s acc b f f' h; cases h
    | succ n ih =>
      intro s acc b f f' h d st k hd
      rw [boundsLoop] at h
      split at h
      · cases h
        exact .inl hd
      · rename_i c t1 t2 r hs
        obtain ⟨g, w, e, n1, n2, d1, d2⟩ := searchBounds_text hs
        split at h
        · cases h
        · rename_i d' hd'
          split at h
          · cases h
          · rename_i st' hst'
            split at h
            · cases h
            · rename_i k' hk'
              split at h
              · cases h
              · rename_i hk0
                split at h
                · cases h
                · rcases ih _ _ _ _ _ h d st k hd with ha | ⟨i1, i2, i3, before, letter, t, u, after, i4, i5⟩
                  · unfold Bounds.set at ha
                    split at ha
                    · rename_i hdd
                      subst hdd
                      cases ha
                      obtain ⟨j1, j2⟩ := num _ _ d1 hst'
                      obtain ⟨j3, j4⟩ := num _ _ d2 hk'
                      exact .inr ⟨j1, j3, hk0, g, c, t1, t2, w ++ r, e, (charToDimension_iff _ _).1 hd', j2, j4⟩
                    · exact .inl ha
                  · refine .inr ⟨i1, i2, i3, g ++ c :: (t1 ++ ':' :: (t2 ++ (w ++ before))), letter, t, u, after, ?_, i5⟩
                    rw [e, i4]
                    simp
  unfold parseBounds at h
  split at h
  · cases h
  · rename_i b' f hl
    split at h
    · cases h
    · cases h
      rcases loop _ _ _ _ _ _ hl d st n hd with ha | ha
      · cases ha
      · exact ha

/-- **C28 violated by sizes of 0:** bounds with an interval of size 0 are printed to a text that does not denote them. -/
theorem C28_zero_size_fails (b : Bounds) (d : Dim) (st : Int) (hd : b d = some (st, 0)) : parseBounds (boundsToString b) ≠ .ok b := by
  intro h
  exact (C28_values_occur _ _ h d st 0 hd).2.2.1 rfl

end Verif
