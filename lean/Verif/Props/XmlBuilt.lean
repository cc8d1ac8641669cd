import Verif.Props.DocInfo
import Verif.Props.XmlText
import Verif.Proof.XmlBuilt

/-!
# C92 trees that are built through the node interface
-/

namespace Verif
open Spec Xml

/-- **C92 (trees built through the interface, partial).** Whatever sequence of calls `GetOrCreateChildNode`, `AppendChildNode`, `SetAttribute`, `RemoveAttribute` and `SetValue`
is made, on whatever nodes – also calls that throw –, starting from a new document or any writable one: if names are names of XML and strings contain no zero, the text that is
saved can be loaded, and gives the tree (without white-space text, with converted line ends). What is missing is `RemoveChild`, which can bring two pieces of text together. -/
theorem C92_built_partial (doc : Node) (he : doc.isElement = true) (hd : Writable doc) (cs : List Change) (hc : ∀ c ∈ cs, c.Proper) :
    let tree := cs.foldl Change.run doc
    (∀ indent, loadXml (builderXml indent [tree]) = .ok [reload tree]) ∧ loadXml (metadataXml [tree]) = .ok [reload tree] := by
  obtain ⟨h1, _⟩ := changes_writable hd cs hc
  have h2 : (cs.foldl Change.run doc).isElement = true := by rw [changes_isElement, he]
  have := C92_saved_partial [cs.foldl Change.run doc] (single_documentNodes h2) ((allWritable_iff _).2 (by simpa using h1))
  rw [reloadAll_root h2] at this
  exact this

private def sampleChanges : List Change :=
  [.create [] "A/B[x=1]".toList, .value [0, 0] "a < b".toList, .putAttribute [0] "y".toList "\"".toList, .append [] "C".toList, .value [] "no".toList, .dropAttribute [0, 0] "x".toList]

private def sampleBuilt : Node :=
  .element "R".toList [] [.element "A".toList [("y".toList, "\"".toList)] [.element "B".toList [] [.text false "a < b".toList]], .element "C".toList [] []]

private def eqNodes : List (Node × Node) → Nat → Bool
  | [], _ => true
  | _, 0 => false
  | (.text c v, .text d w) :: r, k + 1 => c == d && decide (v = w) && eqNodes r k
  | (.element n as cs, .element m bs ds) :: r, k + 1 => decide (n = m) && decide (as = bs) && cs.length == ds.length && eqNodes (cs.zip ds ++ r) k
  | _ :: _, _ + 1 => false

example : eqNodes [(sampleChanges.foldl Change.run (.element "R".toList [] []), sampleBuilt)] 10 = true := by decide +kernel

example : (∀ c ∈ sampleChanges, c.Proper) ∧ Writable (.element "R".toList [] []) := by
  have n : ∀ s ∈ ["A".toList, "B".toList, "C".toList, "R".toList, "x".toList, "y".toList], XmlName s := by
    intro s hs
    have key : ∀ s ∈ ["A".toList, "B".toList, "C".toList, "R".toList, "x".toList, "y".toList], checkName s = true := by decide +kernel
    exact checkName_spec (key s hs)
  refine ⟨?_, writable_new (n _ (by simp)) (by simp [GoodAttrs])⟩
  intro c hc
  simp only [sampleChanges, List.mem_cons, List.not_mem_nil, or_false] at hc
  rcases hc with rfl | rfl | rfl | rfl | rfl | rfl
  · refine ⟨[.first "A".toList, .having "B".toList [("x".toList, "1".toList)]], ?_, ?_⟩
    · exact .more (.first "A".toList) "A".toList _ "B[x=1]".toList (.first _ (by unfold NodeName; decide))
        (.one _ _ (.having "B".toList [("x".toList, "1".toList)] "x=1".toList (by unfold NodeName; decide)
          (.one "x".toList "1".toList (by unfold AttrName; decide) (by unfold AttrValue; decide))))
    · intro s hs
      simp only [List.mem_cons, List.not_mem_nil, or_false] at hs
      rcases hs with rfl | rfl
      · exact ⟨n _ (by simp [Selector.name]), by intro a ha; cases ha⟩
      · refine ⟨n _ (by simp [Selector.name]), ?_⟩
        intro a ha
        have : a = ("x".toList, "1".toList) := by simpa [Selector.attrs] using ha
        rw [this]
        exact ⟨n _ (by simp), by decide⟩
  · exact (by decide +kernel : '\x00' ∉ "a < b".toList)
  · exact ⟨n _ (by simp), by decide +kernel⟩
  · exact n _ (by simp)
  · exact (by decide +kernel : '\x00' ∉ "no".toList)
  · trivial

private def oneChild (r : Except XErr (List Node)) : Bool :=
  match r with
  | .ok [t] => t.children.length == 1
  | _ => false

private theorem oneChild_spec {r : Except XErr (List Node)} (h : oneChild r = true) : ∃ t, r = .ok [t] ∧ t.children.length = 1 := by
  match r, h with
  | .ok [t], h => exact ⟨t, rfl, by simpa [oneChild] using h⟩

/-- **C92 (violation: removing a child).** After `RemoveChild` of an element between two pieces of text, the document is saved and loaded with one text instead of two. -/
theorem C92_remove_violated :
    let doc : Node := .element ['R'] [] [.text false ['a'], .element ['x'] [] [], .text false ['b']]
    let tree := (removeChild ['x'] doc).1
    Writable doc ∧ (removeChild ['x'] doc).2 = true ∧ tree.children.length = 2 ∧
      ∃ t, loadXml (builderXml false [tree]) = .ok [t] ∧ t.children.length = 1 := by
  refine ⟨?_, by decide +kernel, by decide +kernel, ?_⟩
  · rw [writable_element]
    refine ⟨checkName_spec (by decide), by simp [GoodAttrs], ⟨by simp [Node.isPcdata], by simp [Node.isPcdata], trivial⟩, ?_⟩
    intro c hc
    simp only [List.mem_cons, List.not_mem_nil, or_false] at hc
    rcases hc with rfl | rfl | rfl
    · exact (by decide : '\x00' ∉ ['a'])
    · exact writable_new (checkName_spec (by decide)) (by simp [GoodAttrs])
    · exact (by decide : '\x00' ∉ ['b'])
  · exact oneChild_spec (by decide +kernel)

/-- **C64 (through the XML text, partial).** The general document information written with `WriteGeneralDocumentInfo` is read back with `GetGeneralDocumentInfo` from the
document that is loaded from the saved text (`ICziMetadataBuilder::GetXml`, `CreateMetaFromMetadataSegment`): down to the bytes, for the same texts as in `C64_saved_partial`. -/
theorem C64_bytes_partial (info : GeneralInfo) (doc : Node) (he : doc.isElement = true) (hd : Writable doc) (hr : ∀ r, info.rating = some r → IsInt32 r)
    (ht : ∀ f ∈ givenFields info, f.2 ≠ none → TextOnly doc (documentField f.1))
    (hb : ∀ f ∈ givenFields info, ∀ v, f.2 = some v → ¬ Blank v ∧ '\r' ∉ v) (hz : ∀ f ∈ givenFields info, ∀ v, f.2 = some v → '\x00' ∉ v) (indent : Bool) :
    ∃ old new, loadXml (builderXml indent [doc]) = .ok [old] ∧ loadXml (builderXml indent [(writeGeneral info doc).1]) = .ok [new] ∧
      getGeneral new = overlay info (getGeneral old) := by
  have h1 := general_writable info hd hz
  have h2 : (writeGeneral info doc).1.isElement = true := by
    rw [writeGeneral_eq]
    exact (writeTexts_other _ (generalTexts_ok info).1 doc he).1
  refine ⟨reload doc, reload (writeGeneral info doc).1, ?_, ?_, C64_saved_partial info doc he hr ht hb⟩
  · rw [(C92_saved_partial [doc] (single_documentNodes he) ((allWritable_iff _).2 (by simpa using hd))).1 indent, reloadAll_root he]
  · rw [(C92_saved_partial _ (single_documentNodes h2) ((allWritable_iff _).2 (by simpa using h1))).1 indent, reloadAll_root h2]

example : let info : GeneralInfo := ⟨some "<a & b>".toList, none, none, none, none, none, none, some (-7)⟩
    ∃ old new, loadXml (builderXml true [newDoc]) = .ok [old] ∧ loadXml (builderXml true [(writeGeneral info newDoc).1]) = .ok [new] ∧
      getGeneral new = overlay info (getGeneral old) := by
  have key : ∀ f ∈ givenFields ⟨some "<a & b>".toList, none, none, none, none, none, none, some (-7)⟩, ∀ v ∈ f.2.toList, v.any (fun c => c ∉ [' ', '\t', '\n', '\r']) = true ∧ '\r' ∉ v ∧ '\x00' ∉ v := by
    decide +kernel
  refine C64_bytes_partial _ newDoc rfl (writable_new (checkName_spec (by decide +kernel)) (by simp [GoodAttrs])) ?_ ?_ ?_ ?_ true
  · intro r h
    cases h
    unfold IsInt32
    omega
  · intro f hf _
    apply textOnly_iff.mpr
    intro n hn
    simp only [givenFields, List.mem_cons, List.not_mem_nil, or_false] at hf
    rcases hf with rfl | rfl | rfl | rfl | rfl | rfl | rfl | rfl <;> cases hn
  · intro f hf v hv
    obtain ⟨k1, k2, _⟩ := key f hf v (by simp [hv])
    refine ⟨fun h => ?_, k2⟩
    rw [List.any_eq_true] at k1
    obtain ⟨c, hc, hn⟩ := k1
    have := h c hc
    simp_all
  · intro f hf v hv
    exact (key f hf v (by simp [hv])).2.2

end Verif
