import Verif.Proof.XmlGrammar
import Verif.Proof.XmlBuilt

/-!
# C93 well-formed XML is loaded as the tree it denotes
-/

namespace Verif
open Spec Xml

/-! ## A sample text -/

private def sampleBefore : Str := "<?xml version=\"1.0\"?>\n<!-- a - b -->".toList
private def sampleType : Str := " R [<!ENTITY e \"<x>\"><!-- > -->]".toList
private def sampleElement : Str := "<R a = 'x&#x41;\t\"' b=\"&apos;&#10;\" >\n <E/>1 &lt; 2\r\n<![CDATA[<&]]]]><?p ?>]]&gt;</R >\n".toList
private def sampleNode : Node :=
  .element ['R'] [(['a'], "xA \"".toList), (['b'], "'\n".toList)] [.element ['E'] [] [], .text false "1 < 2\n".toList, .text true "<&]]".toList, .text false "]]>".toList]

private theorem plains (t : Str) (h : t.all (fun c => c ∉ ['<', '&', '\r', '\x00']) = true) {v s : Str} (hs : CharData v s) : CharData (t ++ v) (t ++ s) := by
  induction t with
  | nil => exact hs
  | cons c t ih =>
    rw [List.all_cons, Bool.and_eq_true] at h
    exact .plain (by simpa using h.1) (ih h.2)

private theorem chars (t : Str) (h : t.all (fun c => c ∉ ['<', '>', '"', '\'']) = true) {s : Str} (hs : DoctypeBody s) : DoctypeBody (t ++ s) := by
  induction t with
  | nil => exact hs
  | cons c t ih =>
    rw [List.all_cons, Bool.and_eq_true] at h
    exact .char (by simpa using h.1) (ih h.2)

private theorem sampleDocument : DocumentText sampleNode (sampleBefore ++ ("<!DOCTYPE".toList ++ (sampleType ++ '>' :: sampleElement))) := by
  refine ⟨rfl, by decide +kernel, Or.inr ⟨_, _, _, rfl, ?_, ?_, ?_⟩⟩
  · exact .instruction (n := "xml".toList) (t := " version=\"1.0\"".toList) (checkName_spec (by decide +kernel)) (by decide +kernel) (by unfold FirstAtEnd; decide +kernel)
      (.space (w := ['\n']) (by unfold Blank; decide) (Or.inr ⟨_, rfl⟩) (.comment (t := " a - b ".toList) (by unfold FirstAtEnd; decide +kernel) .nil))
  · exact chars " R [".toList (by decide +kernel) (.declaration (c := 'E') (u := "NTITY e \"<x>\"".toList) (by decide)
      (chars "ENTITY e ".toList (by decide +kernel) (.literal (q := '"') (u := "<x>".toList) (by decide) (by decide +kernel) .nil))
      (.comment (u := " > ".toList) (by unfold FirstAtEnd; decide +kernel) (chars "]".toList (by decide +kernel) .nil)))
  · refine .element (n := ['R']) (a := " a = 'x&#x41;\t\"' b=\"&apos;&#10;\" ".toList) (b := "\n <E/>1 &lt; 2\r\n<![CDATA[<&]]]]><?p ?>]]&gt;".toList) (w := [' ']) (s := ['\n'])
      (checkName_spec (by decide +kernel)) ?_ ?_ (by unfold Blank; decide) (.space (w := ['\n']) (by unfold Blank; decide) (Or.inl rfl) .nil)
    · refine .cons (w := [' ']) (k := ['a']) (b1 := [' ']) (b2 := [' ']) (q := '\'') (t := "x&#x41;\t\"".toList) (a := " b=\"&apos;&#10;\" ".toList) (by simp) (by unfold Blank; decide)
        (checkName_spec (by decide +kernel)) (by unfold Blank; decide) (by unfold Blank; decide) (by decide) ?_ ?_
      · refine .plain (by decide) (.ref (c := 'A') (r := "&#x41;".toList) (.hex (c := 'A') (ds := ['4', '1']) (by decide) ?_) (.white (by decide) (.plain (by decide) .nil)))
        exact .more (s := ['4']) (n := 4) (v := 1) (.one (by unfold HexDigit; decide)) (by unfold HexDigit; decide)
      · refine .cons (w := [' ']) (k := ['b']) (b1 := []) (b2 := []) (q := '"') (t := "&apos;&#10;".toList) (a := " ".toList) (by simp) (by unfold Blank; decide)
          (checkName_spec (by decide +kernel)) (by unfold Blank; decide) (by unfold Blank; decide) (by decide) ?_ (.nil (by unfold Blank; decide))
        refine .ref .apos (.ref (c := '\n') (r := "&#10;".toList) (.dec (c := '\n') (ds := ['1', '0']) (by decide) ?_) .nil)
        exact .more (s := ['1']) (n := 1) (v := 0) (.one (by unfold DecDigit; decide)) (by unfold DecDigit; decide)
    · refine .space (w := "\n ".toList) (by unfold Blank; decide) (Or.inr ⟨_, rfl⟩) (.empty (n := ['E']) (a := []) (checkName_spec (by decide +kernel)) (.nil (by unfold Blank; decide)) ?_)
      refine .text (t := "1 &lt; 2\r\n".toList) (v := "1 < 2\n".toList) ?_ ?_ (Or.inr ⟨_, rfl⟩) ?_
      · exact plains ['1', ' '] (by decide) (.ref .lt (plains [' ', '2'] (by decide) (.crlf .nil)))
      · intro h
        exact absurd (h '1' (by decide +kernel)) (by decide)
      · refine .cdata (v := "<&]]".toList) (t := "<&]]".toList) (.plain (by decide) (.plain (by decide) (.plain (by decide) (.plain (by decide) .nil)))) (by unfold FirstAtEnd; decide +kernel) ?_
        refine .instruction (n := ['p']) (t := [' ']) (checkName_spec (by decide +kernel)) (by decide +kernel) (by unfold FirstAtEnd; decide +kernel) ?_
        exact .text (t := "]]&gt;".toList) (v := "]]>".toList) (s := []) (plains [']', ']'] (by decide) (.ref .gt .nil)) (fun h => absurd (h ']' (by decide +kernel)) (by decide)) (Or.inl rfl) .nil

/-! ## Loading -/

/-- **C93 (well-formed documents).** Every well-formed text of an XML document – with any white space in tags, either kind of quotes, character references, the five predefined
entities, CDATA sections, comments, processing instructions, a document type declaration, any characters, with or without a byte order mark – is loaded, and gives the tree it denotes. -/
theorem C93_loaded (root : Node) (t : Str) (h : DocumentText root t) : loadXml (encode t) = .ok [root] ∧ loadXml (encode ('\ufeff' :: t)) = .ok [root] := load_document h

example : ∃ root t, DocumentText root t := ⟨_, _, sampleDocument⟩

/-- **C93 (the tree is determined).** A text denotes one tree only. -/
theorem C93_unique (a b : Node) (t : Str) (h1 : DocumentText a t) (h2 : DocumentText b t) : a = b := by
  have h := (C93_loaded a t h1).1
  rw [(C93_loaded b t h2).1] at h
  injection h with h
  injection h with h
  exact h.symm

example : ∀ b, DocumentText b (sampleBefore ++ ("<!DOCTYPE".toList ++ (sampleType ++ '>' :: sampleElement))) → sampleNode = b := fun b h => C93_unique _ b _ sampleDocument h

/-! ## What is not as it should be -/

private theorem junk_turns {j : Str} (hj : '<' ∉ j) {q : Str} (hq : AtMarkup q) (top : List Node) : Turns ⟨[], top⟩ (j ++ q) ⟨[], top⟩ q := by
  by_cases hb : Blank j
  · exact Turns.white hb hq _
  · have hne : j ≠ [] := by
      rintro rfl
      exact hb (by intro c hc; cases hc)
    obtain ⟨c, u, e, hm⟩ := skipWs_text hb q
    have hc : c ≠ '<' := by
      rintro rfl
      exact hj hm
    refine .one (by simp [hne]) ?_
    have hd : (j ++ q).dropWhile (· ≠ '<') = q := by
      clear e hm hc hb hne u
      induction j with
      | nil =>
        rcases hq with rfl | ⟨t, rfl⟩
        · rfl
        · simp
      | cons d j ih =>
        rw [List.mem_cons, not_or] at hj
        rw [List.cons_append, List.dropWhile_cons, if_pos (by simpa using Ne.symm hj.1), ih hj.2]
    have h0 : (j ++ q).head? ≠ some '<' := by
      cases j with
      | nil => exact absurd rfl hne
      | cons d j =>
        intro h
        injection h with h
        exact hj (h ▸ List.mem_cons_self ..)
    unfold turn
    split
    · rename_i e0
      rw [e0] at h0
      exact absurd rfl h0
    · rw [e]
      split
      · rename_i e
        cases e
      · rename_i e
        simp only [List.cons.injEq] at e
        exact absurd e.1 hc
      · rw [if_pos (by simp), hd]

/-- **C93 (violation: text outside of the root element).** Text before the root element, which no well-formed document has, is accepted and ignored. -/
theorem C93_junk_violated (root : Node) (j t : Str) (he : root.isElement = true) (hc : ContentOf [root] t) (ha : ∃ u, t = '<' :: u) (h1 : '<' ∉ j)
    (hz : '\x00' ∉ j ++ t) (hb : j.head? ≠ some '\ufeff') : loadXml (encode (j ++ t)) = .ok [root] := by
  obtain ⟨u, rfl⟩ := ha
  have k1 := junk_turns h1 (q := '<' :: u) (Or.inr ⟨_, rfl⟩) []
  have k2 := content_turns hc ⟨[], []⟩ [] (Or.inl rfl) (Or.inr (single_pcdata he))
  rw [List.append_nil, top_addAll] at k2
  have hh : (j ++ '<' :: u).head? ≠ some '\ufeff' := by
    cases j with
    | nil => simp
    | cons c j => exact hb
  have := (parseText_eq hz hh he (k1.trans k2)).1
  rw [loadXml_encode (by cases j <;> simp), this]

private theorem emptyElement (n : Str) (hn : checkName n = true) : ContentOf [.element n [] []] ('<' :: (n ++ ['/', '>'])) :=
  .empty (a := []) (s := []) (checkName_spec hn) (.nil (by intro c hc; cases hc)) .nil

example : loadXml (encode ("no XML ".toList ++ "<a/>".toList)) = .ok [.element ['a'] [] []] :=
  C93_junk_violated _ _ _ rfl (emptyElement ['a'] (by decide)) ⟨_, rfl⟩ (by decide +kernel) (by decide +kernel) (by decide +kernel)

/-- **C93 (violation: two root elements).** Two elements one after the other, which are no well-formed document, are accepted. -/
theorem C93_roots_violated (a b : Node) (s t : Str) (ha : a.isElement = true) (hb : b.isElement = true) (h1 : ContentOf [a] s) (h2 : ContentOf [b] t) (hs : ∃ u, s = '<' :: u)
    (ht : ∃ u, t = '<' :: u) (hz : '\x00' ∉ s ++ t) : loadXml (encode (s ++ t)) = .ok [a, b] := by
  obtain ⟨u, rfl⟩ := hs
  have k1 := content_turns h1 ⟨[], []⟩ t (Or.inr ht) (Or.inr (single_pcdata ha))
  have k2 := content_turns h2 ⟨[], [a]⟩ [] (Or.inl rfl) (Or.inr (single_pcdata hb))
  rw [top_addAll] at k1
  rw [List.append_nil, top_addAll] at k2
  have h := k1.trans k2
  obtain ⟨j, hj, e⟩ := h.parse (('<' :: u ++ t).length + 1) (by omega)
  obtain ⟨j, rfl⟩ : ∃ i, j = i + 1 := ⟨j - 1, by simp at hj; omega⟩
  rw [List.cons_append] at e hz
  rw [loadXml_encode (by simp), List.cons_append, parseText_lt, zeroTerminated_eq hz]
  rw [e, parseTree]
  dsimp only
  rw [List.isEmpty_nil, if_pos rfl]
  dsimp only
  rw [List.cons_append, List.any_cons, ha, Bool.true_or, if_pos rfl]
  rfl

example : loadXml (encode ("<a/>".toList ++ "<b/>".toList)) = .ok [.element ['a'] [] [], .element ['b'] [] []] :=
  C93_roots_violated _ _ _ _ rfl rfl (emptyElement ['a'] (by decide)) (emptyElement ['b'] (by decide)) ⟨_, rfl⟩ ⟨_, rfl⟩ (by decide +kernel)

private theorem oneElementText {n b : Str} {cs : List Node} (hn : XmlName n) (hb : ContentOf cs b) : ContentOf [.element n [] cs] ('<' :: (n ++ '>' :: (b ++ '<' :: '/' :: (n ++ ['>'])))) :=
  .element (a := []) (w := []) (s := []) hn (.nil (by intro c hc; cases hc)) hb (by intro c hc; cases hc) .nil

/-- **C93 (violation: a comment inside of text).** If there is a comment inside of the text of an element, its value (`IXmlNodeRead::TryGetValue`) is only the text before the comment:
of the texts `v` and `w`, `w` is lost. -/
theorem C93_comment_violated (n v t c w u : Str) (hn : XmlName n) (hv : CharData v t) (ht : ¬ Blank t) (hc : FirstAtEnd ['-', '-', '>'] c) (hw : CharData w u) (hu : ¬ Blank u)
    (hz : '\x00' ∉ '<' :: (n ++ '>' :: ((t ++ '<' :: '!' :: '-' :: '-' :: (c ++ '-' :: '-' :: '>' :: u)) ++ '<' :: '/' :: (n ++ ['>'])))) :
    ∃ e, loadXml (encode ('<' :: (n ++ '>' :: ((t ++ '<' :: '!' :: '-' :: '-' :: (c ++ '-' :: '-' :: '>' :: u)) ++ '<' :: '/' :: (n ++ ['>']))))) = .ok [e] ∧ tryGetValue e = some v := by
  refine ⟨.element n [] [.text false v, .text false w], ?_, rfl⟩
  refine (C93_loaded _ _ ⟨rfl, hz, Or.inl (oneElementText hn (.text hv ht (Or.inr ⟨_, rfl⟩) (.comment hc ?_)))⟩).1
  have := ContentOf.text hw hu (Or.inl rfl) .nil
  rwa [List.append_nil] at this

example : ∃ e, loadXml (encode "<a>x<!---->y</a>".toList) = .ok [e] ∧ tryGetValue e = some ['x'] :=
  C93_comment_violated ['a'] ['x'] ['x'] [] ['y'] ['y'] (checkName_spec (by decide)) (.plain (by decide) .nil) (by unfold Blank; decide) (by unfold FirstAtEnd; decide)
    (.plain (by decide) .nil) (by unfold Blank; decide) (by decide +kernel)

/-- **C93 (violation: CDATA).** The value of an element whose text is in a CDATA section cannot be read with `IXmlNodeRead::TryGetValue`. -/
theorem C93_cdata_violated (n v t : Str) (hn : XmlName n) (hv : LineEnds v t) (ht : FirstAtEnd [']', ']', '>'] t)
    (hz : '\x00' ∉ '<' :: (n ++ '>' :: (("<![CDATA[".toList ++ (t ++ [']', ']', '>'])) ++ '<' :: '/' :: (n ++ ['>'])))) :
    ∃ e, loadXml (encode ('<' :: (n ++ '>' :: (("<![CDATA[".toList ++ (t ++ [']', ']', '>'])) ++ '<' :: '/' :: (n ++ ['>']))))) = .ok [e] ∧ tryGetValue e = none := by
  refine ⟨.element n [] [.text true v], ?_, rfl⟩
  exact (C93_loaded _ _ ⟨rfl, hz, Or.inl (oneElementText hn (.cdata hv ht .nil))⟩).1

example : ∃ e, loadXml (encode "<a><![CDATA[x]]></a>".toList) = .ok [e] ∧ tryGetValue e = none :=
  C93_cdata_violated ['a'] ['x'] ['x'] (checkName_spec (by decide)) (.plain (by decide) .nil) (by unfold FirstAtEnd; decide) (by decide +kernel)

private def oneText (r : Except XErr (List Node)) (v : Str) : Bool :=
  match r with
  | .ok [.element _ _ [.text false w]] => w = v
  | _ => false

/-- **C93 (violation: entities).** An entity that is declared in the document is not replaced. -/
theorem C93_entity_violated : ∃ e, loadXml (encode "<!DOCTYPE a [<!ENTITY b \"x\">]><a>&b;</a>".toList) = .ok [e] ∧ tryGetValue e = some "&b;".toList := by
  have h : oneText (loadXml (encode "<!DOCTYPE a [<!ENTITY b \"x\">]><a>&b;</a>".toList)) "&b;".toList = true := by decide +kernel
  revert h
  generalize loadXml _ = r
  generalize "&b;".toList = v
  intro h
  match r, h with
  | .ok [.element n as [.text false w]], h => exact ⟨_, rfl, congrArg some (by simpa [oneText] using h)⟩

end Verif
