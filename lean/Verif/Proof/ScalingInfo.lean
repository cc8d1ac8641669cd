import Verif.Proof.ChangeList

/-!
# Proofs: scaling information
-/

namespace Verif.Xml
open Spec Flt

theorem scalingPath_text (a : Axis) : PathText (scalingField a "Value") (scalingPath a "Value".toList) ∧
    PathText (scalingField a "DefaultUnitFormat") (scalingPath a "DefaultUnitFormat".toList) := by
  have names : ∀ s ∈ ["Metadata", "Scaling", "Items", "Distance", "Value", "DefaultUnitFormat"], NodeName s.toList := by
    unfold NodeName; decide +kernel
  have hid : AttrName "Id".toList := by unfold AttrName; decide +kernel
  have hval : AttrValue [a.char] := by cases a <;> (unfold AttrValue; decide +kernel)
  have hd : StepText (.having "Distance".toList [("Id".toList, [a.char])]) ("Distance".toList ++ '[' :: ("Id".toList ++ '=' :: [a.char] ++ [']'])) :=
    StepText.having "Distance".toList [("Id".toList, [a.char])] _ (names "Distance" (by decide)) (.one _ _ hid hval)
  have key : ∀ f : String, NodeName f.toList → PathText (scalingField a f)
      ("Metadata".toList ++ '/' :: ("Scaling".toList ++ '/' :: ("Items".toList ++ '/' :: (("Distance".toList ++ '[' :: ("Id".toList ++ '=' :: [a.char] ++ [']'])) ++ '/' :: f.toList)))) := by
    intro f hf
    exact .more _ _ _ _ (.first _ (names "Metadata" (by decide))) (.more _ _ _ _ (.first _ (names "Scaling" (by decide)))
      (.more _ _ _ _ (.first _ (names "Items" (by decide))) (.more _ _ _ _ hd (.one _ _ (.first _ hf)))))
  have e1 : scalingPath a "Value".toList = "Metadata".toList ++ '/' :: ("Scaling".toList ++ '/' :: ("Items".toList ++ '/' :: (("Distance".toList ++ '[' :: ("Id".toList ++ '=' :: [a.char] ++ [']'])) ++ '/' :: "Value".toList))) := by
    cases a <;> decide +kernel
  have e2 : scalingPath a "DefaultUnitFormat".toList = "Metadata".toList ++ '/' :: ("Scaling".toList ++ '/' :: ("Items".toList ++ '/' :: (("Distance".toList ++ '[' :: ("Id".toList ++ '=' :: [a.char] ++ [']'])) ++ '/' :: "DefaultUnitFormat".toList))) := by
    cases a <;> decide +kernel
  exact ⟨by rw [e1]; exact key _ (names _ (by decide)), by rw [e2]; exact key _ (names _ (by decide))⟩

theorem scalingField_noIndex (a : Axis) (f : String) : ∀ s ∈ scalingField a f, s.NoIndex := by
  intro s hs
  simp only [scalingField, List.mem_cons, List.not_mem_nil, or_false] at hs
  rcases hs with rfl | rfl | rfl | rfl | rfl <;> trivial

theorem scalingField_attrs (a : Axis) (f : String) : ∀ s ∈ scalingField a f, ∀ kv ∈ s.attrs, kv.1 ≠ "Type".toList := by
  intro s hs kv hkv
  simp only [scalingField, List.mem_cons, List.not_mem_nil, or_false] at hs
  rcases hs with rfl | rfl | rfl | rfl | rfl
  · cases hkv
  · cases hkv
  · cases hkv
  · rw [List.mem_singleton.1 hkv]; show "Id".toList ≠ "Type".toList; decide +kernel
  · cases hkv

theorem scalingField_diverge {a b : Axis} {f g : String} (h : a ≠ b ∨ f ≠ g) : Diverge (scalingField a f) (scalingField b g) := by
  by_cases hab : a = b
  · subst hab
    have hfg : f ≠ g := h.resolve_left (fun h => h rfl)
    refine .inl ⟨rfl, .inl ⟨rfl, .inl ⟨rfl, .inl ⟨rfl, .inr (apart_name ?_)⟩⟩⟩⟩
    intro e
    exact hfg (String.ext e)
  · refine .inl ⟨rfl, .inl ⟨rfl, .inl ⟨rfl, .inr (apart_attr (k := "Id".toList) (v := [a.char]) (w := [b.char]) (List.mem_singleton.2 rfl) (List.mem_singleton.2 rfl) ?_)⟩⟩⟩
    intro e
    apply hab
    cases a <;> cases b <;> first | rfl | (exfalso; revert e; decide)

/-- The value as something to be written. -/
def scaleItem (s : Scaling) (a : Axis) : Item := ⟨scalingField a "Value", scalingPath a "Value".toList, (s.valid a).map (showG 15)⟩

/-- The unit as something to be written. -/
def unitItem (s : Scaling) (a : Axis) : Item :=
  ⟨scalingField a "DefaultUnitFormat", scalingPath a "DefaultUnitFormat".toList, if s.unit a = [] then none else some (s.unit a)⟩

/-- All of them. -/
def scalingItems (s : Scaling) : List Item := Axis.all.flatMap fun a => [scaleItem s a, unitItem s a]

theorem writeScale_item (s : Scaling) (a : Axis) : writeScale s a = (scaleItem s a).write := by
  funext doc
  unfold writeScale Item.write scaleItem
  cases s.valid a <;> rfl

theorem writeUnit_item (s : Scaling) (a : Axis) : writeUnit s a = (unitItem s a).write := by
  funext doc
  unfold writeUnit Item.write unitItem
  by_cases h : s.unit a = []
  · simp only [if_pos h]
  · simp only [if_neg h]

theorem writeScaling_items (s : Scaling) : writeScaling s = writeAll ((Axis.all.map (scaleItem s)).map Item.write) := by
  unfold writeScaling Axis.all
  simp only [List.map_cons, List.map_nil, writeScale_item]

theorem writeScalingEx_items (s : Scaling) : writeScalingEx s = writeAll ((scalingItems s).map Item.write) := by
  unfold writeScalingEx scalingItems Axis.all
  simp only [List.flatMap_cons, List.flatMap_nil, List.append_nil, List.cons_append, List.nil_append, List.map_cons, List.map_nil, writeScale_item, writeUnit_item]

theorem mem_scalingItems {s : Scaling} {e : Item} : e ∈ scalingItems s ↔ ∃ a, e = scaleItem s a ∨ e = unitItem s a := by
  unfold scalingItems Axis.all
  simp only [List.flatMap_cons, List.flatMap_nil, List.append_nil, List.cons_append, List.nil_append, List.mem_cons, List.not_mem_nil, or_false]
  constructor
  · rintro (h | h | h | h | h | h)
    · exact ⟨.X, .inl h⟩
    · exact ⟨.X, .inr h⟩
    · exact ⟨.Y, .inl h⟩
    · exact ⟨.Y, .inr h⟩
    · exact ⟨.Z, .inl h⟩
    · exact ⟨.Z, .inr h⟩
  · rintro ⟨a, h | h⟩ <;> cases a <;> simp [h]

theorem scaleItem_good (s : Scaling) (a : Axis) : (scaleItem s a).Good := ⟨(scalingPath_text a).1, scalingField_noIndex a _, scalingField_attrs a _⟩
theorem unitItem_good (s : Scaling) (a : Axis) : (unitItem s a).Good := ⟨(scalingPath_text a).2, scalingField_noIndex a _, scalingField_attrs a _⟩

theorem scalingItems_good (s : Scaling) : ∀ e ∈ scalingItems s, e.Good := by
  intro e he
  obtain ⟨a, rfl | rfl⟩ := mem_scalingItems.1 he
  · exact scaleItem_good s a
  · exact unitItem_good s a

theorem scalingItems_pairwise (s : Scaling) : (scalingItems s).Pairwise fun a b => Diverge a.sels b.sels := by
  have hf : "Value" ≠ "DefaultUnitFormat" := by decide
  unfold scalingItems Axis.all
  simp only [List.flatMap_cons, List.flatMap_nil, List.append_nil, List.cons_append, List.nil_append]
  have d1 : ∀ a b : Axis, a ≠ b → Diverge (scaleItem s a).sels (scaleItem s b).sels := fun a b h => scalingField_diverge (.inl h)
  have d2 : ∀ a b : Axis, a ≠ b → Diverge (unitItem s a).sels (unitItem s b).sels := fun a b h => scalingField_diverge (.inl h)
  have d3 : ∀ a b : Axis, Diverge (scaleItem s a).sels (unitItem s b).sels := fun a b => scalingField_diverge (.inr hf)
  have d4 : ∀ a b : Axis, Diverge (unitItem s a).sels (scaleItem s b).sels := fun a b => scalingField_diverge (.inr hf.symm)
  have xy : Axis.X ≠ Axis.Y := by decide
  have xz : Axis.X ≠ Axis.Z := by decide
  have yz : Axis.Y ≠ Axis.Z := by decide
  refine .cons ?_ (.cons ?_ (.cons ?_ (.cons ?_ (.cons ?_ (.cons ?_ .nil)))))
  all_goals
    intro e he
    simp only [List.mem_cons, List.not_mem_nil, or_false] at he
  · rcases he with rfl | rfl | rfl | rfl | rfl <;> first | exact d3 _ _ | exact d1 _ _ xy | exact d1 _ _ xz
  · rcases he with rfl | rfl | rfl | rfl <;> first | exact d4 _ _ | exact d2 _ _ xy | exact d2 _ _ xz
  · rcases he with rfl | rfl | rfl <;> first | exact d3 _ _ | exact d1 _ _ yz
  · rcases he with rfl | rfl <;> first | exact d4 _ _ | exact d2 _ _ yz
  · rcases he with rfl <;> exact d3 _ _

/-- What is read for a field: the text of the node found. -/
theorem select_obs (doc : Node) (a : Axis) (f : String) :
    ((findPath doc ["Metadata".toList, "Scaling".toList]).bind fun np => selectFirst (scalingSteps a f.toList) np) = obs 2 (scalingField a f) doc := by
  rw [findPath_eq]
  have e : obs 2 (scalingField a f) doc = (resolve doc [.first "Metadata".toList, .first "Scaling".toList]).bind (sel [.first "Items".toList, .having "Distance".toList [("Id".toList, [a.char])], .first f.toList]) :=
    obs_append [.first "Metadata".toList, .first "Scaling".toList] [.first "Items".toList, .having "Distance".toList [("Id".toList, [a.char])], .first f.toList] doc
  rw [e]
  have hs : scalingSteps a f.toList = [Selector.first "Items".toList, .having "Distance".toList [("Id".toList, [a.char])], .first f.toList].map Selector.candidate := by
    unfold scalingSteps
    simp only [List.map_cons, List.map_nil]
    congr 1
    · funext c; exact isNamed_first _ c
    · congr 1
      · funext c; exact isNamedWith_having (List.Perm.refl _) c
      · congr 1
        funext c; exact isNamed_first _ c
  unfold sel
  rw [hs]
  rfl

theorem getScalingEx_eq (doc : Node) : getScalingEx doc = ⟨fun a => ((obs 2 (scalingField a "Value") doc).map fun n => asDouble (textIn n.children)).getD .nan,
    fun a => ((obs 2 (scalingField a "DefaultUnitFormat") doc).map fun n => textIn n.children).getD []⟩ := by
  simp only [← select_obs]
  unfold getScalingEx
  cases findPath doc ["Metadata".toList, "Scaling".toList] <;> rfl

theorem getScaling_eq (doc : Node) : getScaling doc = (getScalingEx doc).scale := by
  unfold getScaling getScalingEx
  cases findPath doc ["Metadata".toList, "Scaling".toList] <;> rfl

end Verif.Xml
