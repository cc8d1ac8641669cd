import Verif.Proof.Text

/-!
# C27: coordinates as text
-/

namespace Verif
open Spec Text

/-- **C27 (printing, then parsing).** For every coordinate with `int` values, the text of the coordinate is parsed to the same coordinate. -/
theorem C27_round_trip (c : Coord) (h : CoordInt32 c) : parseCoordinate (coordToString c) = .ok c := by
  let f : Dim → List CoordItem := fun d => match c d with
    | none => []
    | some v => [⟨[], dimensionToChar d, [], if v < 0 then some '-' else none, [], decimal v.natAbs, [], d, v⟩]
  have hmem : ∀ i, i ∈ Dim.all.flatMap f ↔ ∃ d v, c d = some v ∧ i = ⟨[], dimensionToChar d, [], if v < 0 then some '-' else none, [], decimal v.natAbs, [], d, v⟩ := by
    intro i
    rw [List.mem_flatMap]
    constructor
    · rintro ⟨d, _, hi⟩
      dsimp only [f] at hi
      cases hc : c d with
      | none => rw [hc] at hi; simp at hi
      | some v =>
        rw [hc] at hi
        exact ⟨d, v, hc, by simpa using hi⟩
    · rintro ⟨d, v, hc, hi⟩
      refine ⟨d, by cases d <;> decide, ?_⟩
      dsimp only [f]
      rw [hc]
      simpa using hi
  have htext : (((Dim.all.flatMap f).map CoordItem.text).flatten) = coordToString c := by
    unfold coordToString
    generalize Dim.all = l
    induction l with
    | nil => rfl
    | cons d ds ih =>
      rw [List.flatMap_cons, List.flatMap_cons, List.map_append, List.flatten_append, ih]
      congr 1
      dsimp only [f]
      cases hc : c d with
      | none => rfl
      | some v =>
        simp only [List.map_cons, List.map_nil, List.flatten_cons, List.flatten_nil, List.append_nil, CoordItem.text, List.nil_append]
        unfold printInt
        split <;> rfl
  have hok : ∀ i ∈ Dim.all.flatMap f, i.Ok := by
    intro i hi
    obtain ⟨d, v, hc, rfl⟩ := (hmem i).1 hi
    obtain ⟨g1, g2, _⟩ := decimal_spec v.natAbs
    exact {
      before := by intro x hx; cases hx
      letter := letters_head d
      blanks1 := by intro x hx; cases hx
      sign := by dsimp only; split <;> simp
      blanks2 := by intro x hx; cases hx
      digits := g1
      after := by intro x hx; cases hx
      value := by
        dsimp only
        rw [g2]
        by_cases hv : v < 0
        · simp [hv]; omega
        · simp [hv]; omega
      range := h d v hc }
  have hq : ∀ i ∈ Dim.all.flatMap f, ¬ i.LongNegative := by
    rintro i hi ⟨hs, ds, hd, hb⟩
    obtain ⟨d, v, hc, rfl⟩ := (hmem i).1 hi
    have := (decimal_spec v.natAbs).2.2 ds hd
    have : v = 0 := by omega
    subst this
    simp at hs
  unfold parseCoordinate
  rw [← htext, parseItems_text _ hok hq _ (items_length _) _ _ (.inl rfl), foldItems_ok]
  refine ⟨?_, fun i _ => rfl, ?_⟩
  · have hd : ∀ l : List Dim, (l.flatMap f).map CoordItem.dim = l.filter (fun d => (c d).isSome) := by
      intro l
      induction l with
      | nil => rfl
      | cons d ds ih =>
        rw [List.flatMap_cons, List.map_append, ih, List.filter_cons]
        dsimp only [f]
        cases hc : c d <;> simp
    rw [hd]
    exact List.Pairwise.filter _ (by decide : Dim.all.Nodup)
  · intro d v
    constructor
    · intro hc
      exact .inr ⟨_, (hmem _).2 ⟨d, v, hc, rfl⟩, rfl, rfl⟩
    · rintro (hc | ⟨i, hi, rfl, rfl⟩)
      · cases hc
      · obtain ⟨d, v, hc, rfl⟩ := (hmem i).1 hi
        exact hc

/-- A coordinate with the extreme values of `int`. -/
example : parseCoordinate "Z-2147483648C0T2147483647".toList = .ok (((Coord.empty.set .Z (-2147483648)).set .C 0).set .T 2147483647) := by
  have : "Z-2147483648C0T2147483647".toList = coordToString (((Coord.empty.set .Z (-2147483648)).set .C 0).set .T 2147483647) := by decide +kernel
  rw [this]
  refine C27_round_trip _ ?_
  intro d v h
  cases d <;> simp [Coord.set, Coord.empty] at h <;> subst h <;> simp [IsInt32]

/-- **C27 (the accepted texts).** A text is accepted iff it consists of well-formed items with pairwise different dimensions, none of which is a negative number
with leading zeros before ten significant digits; the result is the coordinate they denote. -/
theorem C27_parse_exact (s : List Char) (c : Coord) :
    parseCoordinate s = .ok c ↔
      ∃ items : List CoordItem, s = (items.map CoordItem.text).flatten ∧ (∀ i ∈ items, i.Ok ∧ ¬ i.LongNegative) ∧
        (items.map CoordItem.dim).Nodup ∧ Denotes items c := by
  constructor
  · intro h
    obtain ⟨items, h1, h2, h3⟩ := parseItems_sound _ _ _ _ h
    obtain ⟨g1, _, g2⟩ := (foldItems_ok _ _ _).1 h3
    refine ⟨items, h2, h1, g1, ?_⟩
    intro d v
    rw [g2]
    simp [Coord.empty]
  · rintro ⟨items, rfl, h1, h2, h3⟩
    unfold parseCoordinate
    rw [parseItems_text items (fun i hi => (h1 i hi).1) (fun i hi => (h1 i hi).2) _ (items_length _) _ _ (.inl rfl), foldItems_ok]
    refine ⟨h2, fun _ _ => rfl, ?_⟩
    intro d v
    rw [h3 d v]
    simp [Coord.empty]

/-- **C27 (repeated dimensions).** A text of well-formed items in which a dimension occurs twice is rejected. -/
theorem C27_repeated_dimension_rejected (items : List CoordItem) (h : ∀ i ∈ items, i.Ok) (hd : ¬ (items.map CoordItem.dim).Nodup) :
    ∃ e, parseCoordinate (items.map CoordItem.text).flatten = .error e := by
  cases hp : parseCoordinate (items.map CoordItem.text).flatten with
  | error e => exact ⟨e, rfl⟩
  | ok c => exact absurd ((foldItems_ok _ _ _).1 (parseItems_accepted items h _ _ _ _ (.inl rfl) hp)).1 hd

/-- The hypotheses are met by `"C1 C2"`. -/
example : ∃ items : List CoordItem, (∀ i ∈ items, i.Ok) ∧ ¬ (items.map CoordItem.dim).Nodup ∧
    (items.map CoordItem.text).flatten = "C1 C2".toList := by
  refine ⟨[⟨[], 'C', [], none, [], ['1'], [' '], .C, 1⟩, ⟨[], 'C', [], none, [], ['2'], [], .C, 2⟩], ?_, by decide, by decide⟩
  intro i hi
  simp only [List.mem_cons, List.not_mem_nil, or_false] at hi
  rcases hi with rfl | rfl
  · exact ⟨by simp [Separators], by decide, by simp [Blanks], .inl rfl, by simp [Blanks], ⟨by simp, by simp [IsDigit]⟩, by simp [Separators], by decide, by simp [IsInt32]⟩
  · exact ⟨by simp [Separators], by decide, by simp [Blanks], .inl rfl, by simp [Blanks], ⟨by simp, by simp [IsDigit]⟩, by simp [Separators], by decide, by simp [IsInt32]⟩

/-- **C27 (a valid text is rejected):** `C-01000000000` denotes an `int` and is rejected, while `C-1000000000` is accepted. -/
theorem C27_leading_zero_rejected :
    parseCoordinate "C-01000000000".toList = .error .InvalidSyntax ∧ (parseCoordinate "C-1000000000".toList).isOk = true ∧
      (parseCoordinate "C01000000000".toList).isOk = true := by
  refine ⟨?_, by decide +kernel, by decide +kernel⟩
  have h : (match parseCoordinate "C-01000000000".toList with | .error e => decide (e = ParseError.InvalidSyntax) | .ok _ => false) = true := by decide +kernel
  split at h
  · rename_i e he
    rw [he]
    simpa using h
  · cases h

end Verif
