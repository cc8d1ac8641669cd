import Verif.Proof.SubBlockMeta
import Verif.Props.NumText

/-!
# The metadata of a sub-block: tags and the stage position
-/

namespace Verif
open Xml Spec Flt

/-- **C74 (tags).** For a name without slashes and brackets, `TryGetTagAsString` gives the value of the tag with this name and `TryGetTagAsDouble` the number its value denotes; they return false
if there is no such tag. -/
theorem C74_tag (doc : Node) (name : Str) (hn : NodeName name) :
    (∀ n, IsTag doc name n → tagAsString (some doc) name = .ok (tryGetValue n) ∧ tagAsDouble (some doc) name = .ok (tryGetDouble n)) ∧
    (NoTag doc name → tagAsString (some doc) name = .ok none ∧ tagAsDouble (some doc) name = .ok .fails) := by
  unfold tagAsString tagAsDouble
  dsimp only
  rw [tagNode_name hn]
  constructor
  · intro n h
    rw [isTag_iff.1 h]
    exact ⟨rfl, rfl⟩
  · intro h
    rw [noTag_iff.1 h]
    exact ⟨rfl, rfl⟩

/-- **C74 (numbers).** A tag whose value is a decimal number in the usual notation, after any white space, is read by `TryGetTagAsDouble` as the nearest number of type `double`. -/
theorem C74_number (doc n : Node) (name w t : Str) (d : ℚ) (hn : NodeName name) (h : IsTag doc name n) (hv : tryGetValue n = some (w ++ t))
    (hw : ∀ c ∈ w, c ∈ [' ', '\t', '\n', '\x0b', '\x0c', '\r']) (ht : NumberText t d) : tagAsDouble (some doc) name = .ok (.value (.fin (f64 d))) := by
  rw [((C74_tag doc name hn).1 n h).2, (C71_read n w t d hv hw ht).1]

theorem stage_names : NodeName "StageXPosition".toList ∧ NodeName "StageYPosition".toList := by
  unfold NodeName
  decide +kernel

/-- **C74 (stage position).** `TryGetStagePositionFromTags` returns a position if and only if there are both tags and both are numbers, and then it is these numbers; whenever it returns, it
returns this or false. -/
theorem C74_stage_position (doc : Node) :
    (∀ x y, stagePosition (some doc) = .ok (.value (x, y)) ↔
      ∃ n m, IsTag doc "StageXPosition".toList n ∧ IsTag doc "StageYPosition".toList m ∧ tryGetDouble n = .value x ∧ tryGetDouble m = .value y) ∧
    (stagePosition (some doc) = .ok .hangs ∨ stagePosition (some doc) = .ok .fails ∨ ∃ p, stagePosition (some doc) = .ok (.value p)) ∧
    (NoTag doc "StageXPosition".toList ∨ NoTag doc "StageYPosition".toList → stagePosition (some doc) = .ok .fails) := by
  unfold stagePosition
  simp only
  rw [tagNode_name stage_names.1, tagNode_name stage_names.2]
  simp only [isTag_iff, noTag_iff]
  generalize resolve doc (namesPath ["METADATA".toList, "Tags".toList, "StageXPosition".toList]) = a
  generalize resolve doc (namesPath ["METADATA".toList, "Tags".toList, "StageYPosition".toList]) = b
  cases a with
  | none =>
    refine ⟨fun x y => ⟨?_, ?_⟩, .inr (.inl rfl), fun _ => rfl⟩
    · intro h; cases h
    · rintro ⟨n, m, h, _⟩; cases h
  | some n =>
    cases b with
    | none =>
      refine ⟨fun x y => ⟨?_, ?_⟩, .inr (.inl rfl), fun _ => rfl⟩
      · intro h; cases h
      · rintro ⟨n, m, _, h, _⟩; cases h
    | some m =>
      dsimp only
      refine ⟨fun x y => ⟨?_, ?_⟩, ?_, ?_⟩
      · intro h
        refine ⟨n, m, rfl, rfl, ?_⟩
        cases hx : tryGetDouble n <;> cases hy : tryGetDouble m <;> rw [hx] at h <;> (try rw [hy] at h) <;> simp only [bothNumbers, Except.ok.injEq, Read.value.injEq, Prod.mk.injEq, reduceCtorEq] at h
        obtain ⟨rfl, rfl⟩ := h
        exact ⟨rfl, rfl⟩
      · rintro ⟨n', m', h1, h2, h3, h4⟩
        cases h1
        cases h2
        rw [h3, h4]
        rfl
      · cases tryGetDouble n <;> cases tryGetDouble m <;> simp [bothNumbers]
      · rintro (h | h) <;> cases h

/-- **C74 (the format of attachments).** `TryGetAttachmentDataFormat` gives the value of the node `METADATA/AttachmentSchema/DataFormat`, and false if there is none. -/
theorem C74_data_format (doc : Node) :
    (∀ n p, PathDenotes doc (namesPath ["METADATA".toList, "AttachmentSchema".toList, "DataFormat".toList]) p → doc.at p = some n →
      attachmentDataFormat (some doc) = .ok (tryGetValue n)) ∧
    (NoSuchNode doc ["METADATA".toList, "AttachmentSchema".toList, "DataFormat".toList] → attachmentDataFormat (some doc) = .ok none) := by
  have hp : PathText (namesPath ["METADATA".toList, "AttachmentSchema".toList, "DataFormat".toList]) "METADATA/AttachmentSchema/DataFormat".toList := by
    have := slashes_path (parts := ["METADATA".toList, "AttachmentSchema".toList, "DataFormat".toList]) (by simp) (by unfold NodeName; decide +kernel)
    have e : slashes ["METADATA".toList, "AttachmentSchema".toList, "DataFormat".toList] = "METADATA/AttachmentSchema/DataFormat".toList := by decide +kernel
    rwa [e] at this
  unfold attachmentDataFormat
  dsimp only
  rw [childAt_text hp (noIndex_names _)]
  constructor
  · intro n p h1 h2
    rw [(resolve_denotes (noIndex_names _) doc n).2 ⟨p, h1, h2⟩]
  · intro h
    rw [noSuchNode_iff.1 h]

/-- **C74 (invalid documents).** If the metadata could not be parsed, all functions throw. -/
theorem C74_invalid (name : Str) : attachmentDataFormat none = .error () ∧ tagAsString none name = .error () ∧ tagAsDouble none name = .error () ∧ stagePosition none = .error () :=
  ⟨rfl, rfl, rfl, rfl⟩

/-- **C74 (violation: names are paths).** The name of a tag is used as a path: asked for a tag `a/b`, the functions give what is inside of the tag `a`; and a name that is empty, or begins or ends
with a slash, makes them throw instead of returning false, if there are tags. -/
theorem C74_path_violated (doc : Node) :
    (∀ a b n m, NodeName a → NodeName b → IsTag doc a n → n.children.find? (isNamed b) = some m →
      tagAsString (some doc) (a ++ '/' :: b) = .ok (tryGetValue m) ∧ tagAsDouble (some doc) (a ++ '/' :: b) = .ok (tryGetDouble m)) ∧
    (∀ name a n, IsTag doc a n → EmptyPart name → tagAsString (some doc) name = .error () ∧ tagAsDouble (some doc) name = .error ()) := by
  constructor
  · intro a b n m ha hb hn hm
    have hx : ∀ s ∈ [Selector.first a, Selector.first b], s.NoIndex := by
      intro s hs
      simp only [List.mem_cons, List.not_mem_nil, or_false] at hs
      rcases hs with rfl | rfl <;> trivial
    have e : tagNode doc (a ++ '/' :: b) = .ok (some m) := by
      rw [tagNode_text (.more _ _ _ _ (.first _ ha) (.one _ _ (.first _ hb))) hx]
      have hl : namesPath ["METADATA".toList, "Tags".toList] ++ [Selector.first a, Selector.first b] = namesPath ["METADATA".toList, "Tags".toList, a] ++ [Selector.first b] := rfl
      rw [hl, resolve_append, isTag_iff.1 hn]
      show Except.ok (resolve n [.first b]) = _
      rw [resolve_one]
      exact congrArg _ hm
    unfold tagAsString tagAsDouble
    dsimp only
    rw [e]
    exact ⟨rfl, rfl⟩
  · intro name a n hn hp
    have e : tagNode doc name = .error () := by
      unfold tagNode
      rw [childAt_text tags_path (noIndex_names _)]
      have := isTag_iff.1 hn
      have hl : namesPath ["METADATA".toList, "Tags".toList, a] = namesPath ["METADATA".toList, "Tags".toList] ++ [Selector.first a] := rfl
      rw [hl, resolve_append] at this
      cases ht : resolve doc (namesPath ["METADATA".toList, "Tags".toList]) with
      | none => rw [ht] at this; cases this
      | some t =>
        dsimp only
        unfold childAt
        rw [(C61_empty_part t [] name hp).1]
    unfold tagAsString tagAsDouble
    dsimp only
    rw [e]
    exact ⟨rfl, rfl⟩

/-- **C74 (violation: white space behind a number).** If the tag for the x-position is a number followed by white space, `TryGetStagePositionFromTags` does not return (if there is a tag for the
y-position), and neither does `TryGetTagAsDouble`. -/
theorem C74_hangs_violated (doc n m : Node) (t r : Str) (c : Char) (d : ℚ) (hn : IsTag doc "StageXPosition".toList n) (hm : IsTag doc "StageYPosition".toList m) (ht : NumberText t d)
    (hc : c ∈ [' ', '\t', '\n', '\x0b', '\x0c', '\r']) (hv : tryGetValue n = some (t ++ c :: r)) :
    stagePosition (some doc) = .ok .hangs ∧ tagAsDouble (some doc) "StageXPosition".toList = .ok .hangs := by
  have h := ((C71_hangs_violated n [] c r (by simp) hc).1 t d ht (by rw [List.nil_append]; exact hv)).1
  refine ⟨?_, by rw [((C74_tag doc _ stage_names.1).1 n hn).2, h]⟩
  unfold stagePosition
  simp only
  rw [tagNode_name stage_names.1, tagNode_name stage_names.2, isTag_iff.1 hn, isTag_iff.1 hm]
  dsimp only
  rw [h]
  rfl

/-! ## Examples -/

/-- A sub-block with a stage position and a nested node. -/
def exTags (x : Str) : Node := .element [] [] [.element "METADATA".toList [] [.element "Tags".toList [] [
  .element "StageXPosition".toList [] [.text false x], .element "StageYPosition".toList [] [.text false "-12.5e-1".toList],
  .element "A".toList [] [.element "B".toList [] [.text false "c".toList]]]]]

theorem exTags_x (x : Str) : IsTag (exTags x) "StageXPosition".toList (.element "StageXPosition".toList [] [.text false x]) := isTag_iff.2 rfl
theorem exTags_y (x : Str) : IsTag (exTags x) "StageYPosition".toList (.element "StageYPosition".toList [] [.text false "-12.5e-1".toList]) := isTag_iff.2 rfl

example : stagePosition (some (exTags "-12.5e-1".toList)) = .ok (.value (.fin (f64 (-5 / 4)), .fin (f64 (-5 / 4)))) := by
  refine ((C74_stage_position _).1 _ _).2 ⟨_, _, exTags_x _, exTags_y _, ?_, ?_⟩
  · exact (C71_read _ [] _ _ rfl (by simp) exNumberText).1
  · exact (C71_read _ [] _ _ rfl (by simp) exNumberText).1

example : stagePosition (some (exTags ("-12.5e-1".toList ++ ' ' :: []))) = .ok .hangs :=
  (C74_hangs_violated _ _ _ _ [] ' ' _ (exTags_x _) (exTags_y _) exNumberText (by decide) rfl).1

example : tagAsString (some (exTags [])) "A/B".toList = .ok (some "c".toList) := by
  have := ((C74_path_violated (exTags [])).1 "A".toList "B".toList _ (.element "B".toList [] [.text false "c".toList]) (by unfold NodeName; decide +kernel)
    (by unfold NodeName; decide +kernel) (isTag_iff.2 rfl) rfl).1
  have e : "A/B".toList = "A".toList ++ '/' :: "B".toList := by decide +kernel
  rw [e, this]
  rfl

example : tagAsString (some (exTags [])) [] = .error () :=
  ((C74_path_violated (exTags [])).2 [] _ _ (exTags_x []) ⟨[], [], rfl, .inl rfl, .inl rfl⟩).1

end Verif
