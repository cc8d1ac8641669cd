import Verif.Proof.ScalingInfo

/-!
# Scaling information
-/

namespace Verif
open Xml Spec Flt

/-- The text of a number is read with a small error. -/
theorem nearDouble_show (x : ℚ) : NearDouble x (asDouble (showG 15 x)) := by
  refine ⟨f64 (decimalOf 15 x), ?_, double_err x⟩
  rw [asDouble, wcstod_show (showG_text (by norm_num) x)]
  rfl

theorem given_value {s : Scaling} {a : Axis} (h : (scaleItem s a).val ≠ none) : Given s a "Value" := by
  refine .inl ⟨rfl, ?_⟩
  unfold scaleItem Scaling.valid at h
  dsimp only at h
  cases hs : s.scale a with
  | fin x => exact ⟨x, rfl⟩
  | inf b => rw [hs] at h; exact absurd rfl h
  | nan => rw [hs] at h; exact absurd rfl h

theorem given_unit {s : Scaling} {a : Axis} (h : (unitItem s a).val ≠ none) : Given s a "DefaultUnitFormat" := by
  refine .inr ⟨rfl, ?_⟩
  intro e
  unfold unitItem at h
  rw [if_pos e] at h
  exact h rfl

theorem scaleItem_val {s : Scaling} {a : Axis} {x : ℚ} (h : s.scale a = .fin x) : (scaleItem s a).val = some (showG 15 x) := by
  unfold scaleItem Scaling.valid
  rw [h]
  rfl

theorem scaleItem_none {s : Scaling} {a : Axis} (h : ∀ x, s.scale a ≠ .fin x) : (scaleItem s a).val = none := by
  unfold scaleItem Scaling.valid
  cases hs : s.scale a with
  | fin x => exact absurd hs (h x)
  | inf b => rfl
  | nan => rfl

theorem unitItem_val {s : Scaling} {a : Axis} (h : s.unit a ≠ []) : (unitItem s a).val = some (s.unit a) := by
  unfold unitItem
  rw [if_neg h]

theorem unitItem_none {s : Scaling} {a : Axis} (h : s.unit a = []) : (unitItem s a).val = none := by
  unfold unitItem
  rw [if_pos h]

theorem scaling_onlyText {s : Scaling} {doc : Node} (ht : ∀ a f, Given s a f → OnlyText doc (scalingField a f)) : ∀ e ∈ scalingItems s, e.val ≠ none → OnlyText doc e.sels := by
  intro e he hv
  obtain ⟨a, rfl | rfl⟩ := mem_scalingItems.1 he
  · exact ht a _ (given_value hv)
  · exact ht a _ (given_unit hv)

/-- The items that are not to be written are not touched. -/
theorem scaling_untouched (s : Scaling) (doc : Node) (hd : doc.isElement = true) (j : Nat) {e : Item} (he : e ∈ scalingItems s) (hv : e.val = none) :
    obs j e.sels (writeScalingEx s doc).1 = obs j e.sels doc := by
  rw [writeScalingEx_items]
  refine (items_other _ (scalingItems_good s) doc hd).2 j e.sels ?_
  intro x hx hxv
  obtain ⟨a, rfl | rfl⟩ := mem_scalingItems.1 he <;> obtain ⟨b, rfl | rfl⟩ := mem_scalingItems.1 hx
  · refine scalingField_diverge (.inl ?_)
    rintro rfl
    exact hxv hv
  · exact scalingField_diverge (.inr (by decide))
  · exact scalingField_diverge (.inr (by decide))
  · refine scalingField_diverge (.inl ?_)
    rintro rfl
    exact hxv hv

/-- **C73 (what was written is read).** `WriteScalingInfoEx` succeeds if the nodes of the given fields, as far as they exist, contain nothing but text. Then for each axis `GetScalingInfoEx`
gives the scale that was given, with a relative error of at most 6·10⁻¹⁵, and exactly the unit that was given; what was not given is read as before. This holds for every document, in
particular also if there are several nodes `Items` or several nodes `Distance` with the same identifier. (The full statement, that the scale read is the scale written, is false:
`C71_exact_violated`.) -/
theorem C73_read_back_partial (s : Scaling) (doc : Node) (hd : doc.isElement = true) (ht : ∀ a f, Given s a f → OnlyText doc (scalingField a f)) :
    (writeScalingEx s doc).2 = .ok () ∧ ∀ a,
      (∀ x, s.scale a = .fin x → NearDouble x ((getScalingEx (writeScalingEx s doc).1).scale a)) ∧
      ((∀ x, s.scale a ≠ .fin x) → (getScalingEx (writeScalingEx s doc).1).scale a = (getScalingEx doc).scale a) ∧
      (s.unit a ≠ [] → (getScalingEx (writeScalingEx s doc).1).unit a = s.unit a) ∧
      (s.unit a = [] → (getScalingEx (writeScalingEx s doc).1).unit a = (getScalingEx doc).unit a) := by
  obtain ⟨h1, h2⟩ := items_ok _ (scalingItems_good s) (scalingItems_pairwise s) doc hd (scaling_onlyText ht)
  rw [← writeScalingEx_items] at h1 h2
  refine ⟨h1, fun a => ⟨?_, ?_, ?_, ?_⟩⟩
  · intro x hx
    obtain ⟨m, m1, rest, m2, _⟩ := h2 (scaleItem s a) (mem_scalingItems.2 ⟨a, .inl rfl⟩) _ (scaleItem_val hx)
    have e : obs 2 (scalingField a "Value") (writeScalingEx s doc).1 = some m := m1 2
    rw [getScalingEx_eq]
    dsimp only
    rw [e]
    show NearDouble x (asDouble (textIn m.children))
    rw [m2]
    exact nearDouble_show x
  · intro hx
    have e : obs 2 (scalingField a "Value") _ = _ := scaling_untouched s doc hd 2 (mem_scalingItems.2 ⟨a, .inl rfl⟩) (scaleItem_none hx)
    rw [getScalingEx_eq, getScalingEx_eq]
    dsimp only
    rw [e]
    rfl
  · intro hu
    obtain ⟨m, m1, rest, m2, _⟩ := h2 (unitItem s a) (mem_scalingItems.2 ⟨a, .inr rfl⟩) _ (unitItem_val hu)
    have e : obs 2 (scalingField a "DefaultUnitFormat") (writeScalingEx s doc).1 = some m := m1 2
    rw [getScalingEx_eq]
    dsimp only
    rw [e]
    show textIn m.children = _
    rw [m2]
    rfl
  · intro hu
    have e : obs 2 (scalingField a "DefaultUnitFormat") _ = _ := scaling_untouched s doc hd 2 (mem_scalingItems.2 ⟨a, .inr rfl⟩) (unitItem_none hu)
    rw [getScalingEx_eq, getScalingEx_eq]
    dsimp only
    rw [e]
    rfl

/-- **C73 (short numbers).** A scale that a decimal number with at most 15 significant digits is read as is read exactly. -/
theorem C73_exact (s : Scaling) (doc : Node) (hd : doc.isElement = true) (ht : ∀ a f, Given s a f → OnlyText doc (scalingField a f)) (a : Axis) (d : ℚ) (hx : HasDigits 15 d)
    (hs : s.scale a = .fin (f64 d)) : (getScalingEx (writeScalingEx s doc).1).scale a = .fin (f64 d) := by
  obtain ⟨_, h2⟩ := items_ok _ (scalingItems_good s) (scalingItems_pairwise s) doc hd (scaling_onlyText ht)
  rw [← writeScalingEx_items] at h2
  obtain ⟨m, m1, rest, m2, _⟩ := h2 (scaleItem s a) (mem_scalingItems.2 ⟨a, .inl rfl⟩) _ (scaleItem_val hs)
  have e : obs 2 (scalingField a "Value") (writeScalingEx s doc).1 = some m := m1 2
  rw [getScalingEx_eq]
  dsimp only
  rw [e]
  show asDouble (textIn m.children) = _
  rw [m2]
  show asDouble (showG 15 (f64 d)) = _
  have := showG_text (p := 15) (by norm_num) (f64 d)
  rw [double_short hx] at this
  rw [asDouble, wcstod_show this]
  rfl

/-- **C73 (saved).** Saving and loading the document makes no difference for scales; a unit is kept if it does not consist of white space and contains no carriage return. -/
theorem C73_saved (s : Scaling) (doc : Node) (hd : doc.isElement = true) (ht : ∀ a f, Given s a f → OnlyText doc (scalingField a f)) (a : Axis) :
    (∀ x, s.scale a = .fin x → (getScalingEx (reload (writeScalingEx s doc).1)).scale a = (getScalingEx (writeScalingEx s doc).1).scale a) ∧
    ((∀ x, s.scale a ≠ .fin x) → (getScalingEx (reload (writeScalingEx s doc).1)).scale a = (getScalingEx (reload doc)).scale a) ∧
    (s.unit a ≠ [] → ¬ Blank (s.unit a) → '\r' ∉ s.unit a → (getScalingEx (reload (writeScalingEx s doc).1)).unit a = s.unit a) ∧
    (s.unit a = [] → (getScalingEx (reload (writeScalingEx s doc).1)).unit a = (getScalingEx (reload doc)).unit a) := by
  obtain ⟨_, h2⟩ := items_ok _ (scalingItems_good s) (scalingItems_pairwise s) doc hd (scaling_onlyText ht)
  rw [← writeScalingEx_items] at h2
  refine ⟨?_, ?_, ?_, ?_⟩
  · intro x hx
    obtain ⟨m, m1, rest, m2, _⟩ := h2 (scaleItem s a) (mem_scalingItems.2 ⟨a, .inl rfl⟩) _ (scaleItem_val hx)
    have e : obs 2 (scalingField a "Value") (writeScalingEx s doc).1 = some m := m1 2
    rw [getScalingEx_eq, getScalingEx_eq]
    dsimp only
    rw [obs_reload, e]
    show asDouble (textIn (reload m).children) = asDouble (textIn m.children)
    rw [reload_children, m2]
    rcases numberText_plain (showG_text (p := 15) (by norm_num) x) with h | h
    · obtain ⟨sg, ip, pf, fp, ex, g, e, t1, _, t2, t3, t4, _⟩ := showG_text (p := 15) (by norm_num) x
      rw [h] at t1
      simp only [List.nil_eq, List.append_eq_nil_iff] at t1
      obtain ⟨_, rfl, rfl, _⟩ := t1
      rcases t4 with ⟨_, rfl⟩ | t4
      · exact absurd rfl t3
      · cases t4
    · rw [textIn_written h.1, eol_self h.2]
      rfl
  · intro hx
    have e : obs 2 (scalingField a "Value") _ = _ := scaling_untouched s doc hd 2 (mem_scalingItems.2 ⟨a, .inl rfl⟩) (scaleItem_none hx)
    rw [getScalingEx_eq, getScalingEx_eq]
    dsimp only
    rw [obs_reload, obs_reload, e]
    rfl
  · intro hu hb hr
    obtain ⟨m, m1, rest, m2, _⟩ := h2 (unitItem s a) (mem_scalingItems.2 ⟨a, .inr rfl⟩) _ (unitItem_val hu)
    have e : obs 2 (scalingField a "DefaultUnitFormat") (writeScalingEx s doc).1 = some m := m1 2
    rw [getScalingEx_eq]
    dsimp only
    rw [obs_reload, e]
    show textIn (reload m).children = _
    rw [reload_children, m2, textIn_written hb, eol_self hr]
  · intro hu
    have e : obs 2 (scalingField a "DefaultUnitFormat") _ = _ := scaling_untouched s doc hd 2 (mem_scalingItems.2 ⟨a, .inr rfl⟩) (unitItem_none hu)
    rw [getScalingEx_eq, getScalingEx_eq]
    dsimp only
    rw [obs_reload, obs_reload, e]
    rfl

/-- **C73 (no drift).** Writing the scales that were read back instead of the original ones gives the same document, to the last character. -/
theorem C73_no_drift (s s' : Scaling) (doc doc2 : Node) (hd : doc.isElement = true) (ht : ∀ a f, Given s a f → OnlyText doc (scalingField a f)) (hu : s'.unit = s.unit)
    (hs : ∀ a, (∀ x, s.scale a = .fin x → s'.scale a = (getScalingEx (writeScalingEx s doc).1).scale a) ∧ ((∀ x, s.scale a ≠ .fin x) → ∀ x, s'.scale a ≠ .fin x)) :
    writeScalingEx s' doc2 = writeScalingEx s doc2 := by
  obtain ⟨_, h2⟩ := items_ok _ (scalingItems_good s) (scalingItems_pairwise s) doc hd (scaling_onlyText ht)
  rw [← writeScalingEx_items] at h2
  rw [writeScalingEx_items, writeScalingEx_items]
  have key : ∀ a, scaleItem s' a = scaleItem s a ∧ unitItem s' a = unitItem s a := by
    intro a
    refine ⟨?_, by unfold unitItem; rw [hu]⟩
    have hv : (scaleItem s' a).val = (scaleItem s a).val := by
      by_cases hx : ∃ x, s.scale a = .fin x
      · obtain ⟨x, hx⟩ := hx
        obtain ⟨m, m1, rest, m2, _⟩ := h2 (scaleItem s a) (mem_scalingItems.2 ⟨a, .inl rfl⟩) _ (scaleItem_val hx)
        have e : obs 2 (scalingField a "Value") (writeScalingEx s doc).1 = some m := m1 2
        have h' := (hs a).1 x hx
        rw [getScalingEx_eq] at h'
        dsimp only at h'
        rw [e] at h'
        replace h' : s'.scale a = asDouble (textIn m.children) := h'
        rw [m2] at h'
        replace h' : s'.scale a = asDouble (showG 15 x) := h'
        rw [asDouble, wcstod_show (showG_text (by norm_num) x)] at h'
        rw [scaleItem_val h', scaleItem_val hx, double_stable]
      · have h0 : ∀ x, s.scale a ≠ .fin x := fun x h => hx ⟨x, h⟩
        rw [scaleItem_none h0, scaleItem_none ((hs a).2 h0)]
    unfold scaleItem at hv ⊢
    rw [Item.mk.injEq]
    exact ⟨rfl, rfl, hv⟩
  unfold scalingItems
  simp only [key]

/-- **C73 (without units).** `WriteScalingInfo` and `GetScalingInfo` do the same as `WriteScalingInfoEx` and `GetScalingInfoEx` do for an object without units. -/
theorem C73_without_units (s : Scaling) (doc : Node) : writeScaling s doc = writeScalingEx ⟨s.scale, fun _ => []⟩ doc ∧ getScaling doc = (getScalingEx doc).scale := by
  refine ⟨?_, getScaling_eq doc⟩
  rw [writeScaling_items, writeScalingEx_items]
  have e : ∀ a, (unitItem ⟨s.scale, fun _ => []⟩ a).write = fun d => (d, .ok ()) := by
    intro a
    funext d
    rfl
  have e2 : ∀ a, scaleItem ⟨s.scale, fun _ => []⟩ a = scaleItem s a := fun a => rfl
  unfold scalingItems Axis.all
  simp only [List.flatMap_cons, List.flatMap_nil, List.append_nil, List.cons_append, List.nil_append, List.map_cons, List.map_nil, e, e2, writeAll_cons, writeAll]

/-- **C73 (error).** If the node of a field that is given contains an element, then an exception is thrown. -/
theorem C73_throws (s : Scaling) (doc : Node) (hd : doc.isElement = true) (a : Axis) (f : String) (hg : Given s a f) (he : HasElement doc (scalingField a f)) :
    (writeScalingEx s doc).2 = .error () := by
  rw [writeScalingEx_items]
  refine items_error _ (scalingItems_good s) (scalingItems_pairwise s) doc hd ?_
  rcases hg with ⟨rfl, x, hx⟩ | ⟨rfl, hu⟩
  · exact ⟨scaleItem s a, mem_scalingItems.2 ⟨a, .inl rfl⟩, by rw [scaleItem_val hx]; nofun, he⟩
  · exact ⟨unitItem s a, mem_scalingItems.2 ⟨a, .inr rfl⟩, by rw [unitItem_val hu]; nofun, he⟩

/-- **C73 (nothing else).** Whether or not an exception is thrown: other parts of the document (everything that is not inside of `Metadata/Scaling`) are not touched. -/
theorem C73_nothing_else (s : Scaling) (doc : Node) (hd : doc.isElement = true) (x y : Str) (rest : List Str) (hxy : x ≠ "Metadata".toList ∨ y ≠ "Scaling".toList) (n : Node) :
    NodeAt (writeScalingEx s doc).1 (namesPath (x :: y :: rest)) n ↔ NodeAt doc (namesPath (x :: y :: rest)) n := by
  unfold NodeAt
  rw [← resolve_denotes (noIndex_names _), ← resolve_denotes (noIndex_names _), writeScalingEx_items]
  have : resolve (writeAll ((scalingItems s).map Item.write) doc).1 (namesPath (x :: y :: rest)) = resolve doc (namesPath (x :: y :: rest)) := by
    refine obs_resolve_congr fun j => (items_other _ (scalingItems_good s) doc hd).2 j _ ?_
    intro e he _
    have key : ∀ a f, Diverge (scalingField a f) (namesPath (x :: y :: rest)) := by
      intro a f
      by_cases hx : x = "Metadata".toList
      · subst hx
        exact .inl ⟨rfl, .inr (apart_name fun e => hxy.elim (fun h => h rfl) (fun h => h e.symm))⟩
      · exact .inr (apart_name fun e => hx e.symm)
    obtain ⟨a, rfl | rfl⟩ := mem_scalingItems.1 he
    · exact key a _
    · exact key a _
  rw [this]

/-! ## Examples -/

/-- A document with two nodes for the x-axis, of which the second one has a value. -/
def exScalingDoc : Node := .element "ImageDocument".toList [] [.element "Metadata".toList [] [.element "Scaling".toList [] [.element "Items".toList [] [
  .element "Distance".toList [("Id".toList, ['X'])] [.element "DefaultUnitFormat".toList [] [.text false "mm".toList]],
  .element "Distance".toList [("Id".toList, ['X'])] [.element "Value".toList [] [.text false "2".toList]]]]]]

/-- A scale for the x-axis, a unit for the y-axis. -/
def exScaling : Scaling := ⟨fun a => if a = .X then .fin (1 / 2) else .nan, fun a => if a = .Y then "nm".toList else []⟩

theorem exScaling_given (a : Axis) (f : String) (h : Given exScaling a f) : OnlyText exScalingDoc (scalingField a f) := by
  rw [onlyText_iff (scalingField_noIndex a f)]
  rcases h with ⟨rfl, x, hx⟩ | ⟨rfl, hu⟩
  · have : a = .X := by
      cases a
      · rfl
      · cases hx
      · cases hx
    subst this
    have e : resolve exScalingDoc (scalingField .X "Value") = none := by
      have : (resolve exScalingDoc (scalingField .X "Value")).isNone = true := by decide +kernel
      exact Option.isNone_iff_eq_none.1 this
    rw [e]
    nofun
  · have : a = .Y := by
      cases a
      · exact absurd rfl hu
      · rfl
      · exact absurd rfl hu
    subst this
    have e : resolve exScalingDoc (scalingField .Y "DefaultUnitFormat") = none := by
      have : (resolve exScalingDoc (scalingField .Y "DefaultUnitFormat")).isNone = true := by decide +kernel
      exact Option.isNone_iff_eq_none.1 this
    rw [e]
    nofun

example : NearDouble (1 / 2) ((getScalingEx (writeScalingEx exScaling exScalingDoc).1).scale .X) ∧
    (getScalingEx (writeScalingEx exScaling exScalingDoc).1).unit .X = "mm".toList ∧ (getScalingEx (writeScalingEx exScaling exScalingDoc).1).unit .Y = "nm".toList := by
  obtain ⟨_, h⟩ := C73_read_back_partial exScaling exScalingDoc rfl exScaling_given
  refine ⟨(h .X).1 _ rfl, ?_, (h .Y).2.2.1 (by decide +kernel)⟩
  rw [(h .X).2.2.2 rfl]
  decide +kernel

example : Given exScaling .X "Value" ∧ ¬ HasElement exScalingDoc (scalingField .X "Value") ∧
    HasElement (.element [] [] [.element "Metadata".toList [] [.element "Scaling".toList [] [.element "Items".toList [] [
      .element "Distance".toList [("Id".toList, ['X'])] [.element "Value".toList [] [.element "b".toList [] []]]]]]]) (scalingField .X "Value") := by
  refine ⟨.inl ⟨rfl, _, rfl⟩, ?_, ?_⟩
  · rw [hasElement_iff (scalingField_noIndex _ _)]
    rintro ⟨n, h, _⟩
    have : (resolve exScalingDoc (scalingField .X "Value")).isNone = true := by decide +kernel
    rw [h] at this
    cases this
  · rw [hasElement_iff (scalingField_noIndex _ _)]
    exact ⟨.element "Value".toList [] [.element "b".toList [] []], rfl, rfl⟩

end Verif
