import Verif.Props.Document
import Verif.Proof.XmlLoaded

/-!
# C92 the XML text that is written is loaded again as the same tree
-/

namespace Verif
open Spec Xml

/-! ## A sample tree -/

private def sampleRoot : Node :=
  .element "ImageDocument".toList [("xmlns:a".toList, "x<\"y\"> & 'z'\t\r\n".toList)]
    [.element "Title".toList [] [.text false "1 < 2 && \"ä€😀\" ]]>\x01".toList], .text false "\r\n ".toList, .element "Empty-1.x".toList [] [], .text true "a]]b<&>".toList,
      .text false " x\r".toList]

private theorem sampleName (n : Str) (c : Char) (s : Str) (e : n = c :: s) (h1 : isStartSymbol c = true) (h2 : s.all isSymbol = true) : XmlName n :=
  ⟨c, s, e, (isStartSymbol_iff c).1 h1, fun d hd => (isSymbol_iff d).1 (List.all_eq_true.1 h2 d hd)⟩

private theorem sampleWritable : AllWritable [sampleRoot] := by
  unfold sampleRoot
  simp only [AllWritable, Writable, TextsApart, Node.isPcdata]
  have h1 := sampleName "ImageDocument".toList 'I' "mageDocument".toList (by decide +kernel) (by decide +kernel) (by decide +kernel)
  have h2 := sampleName "xmlns:a".toList 'x' "mlns:a".toList (by decide +kernel) (by decide +kernel) (by decide +kernel)
  have h3 := sampleName "Title".toList 'T' "itle".toList (by decide +kernel) (by decide +kernel) (by decide +kernel)
  have h4 := sampleName "Empty-1.x".toList 'E' "mpty-1.x".toList (by decide +kernel) (by decide +kernel) (by decide +kernel)
  have h5 : '\x00' ∉ "x<\"y\"> & 'z'\t\r\n".toList := by decide +kernel
  have h6 : '\x00' ∉ "1 < 2 && \"ä€😀\" ]]>\x01".toList := by decide +kernel
  have h7 : '\x00' ∉ "\r\n ".toList := by decide +kernel
  have h8 : '\x00' ∉ "a]]b<&>".toList := by decide +kernel
  have h9 : '\r' ∉ "a]]b<&>".toList := by decide +kernel
  have h10 : ¬ [']', ']', '>'] <:+: "a]]b<&>".toList := by decide +kernel
  have h11 : '\x00' ∉ " x\r".toList := by decide +kernel
  refine ⟨⟨h1, ?_, ?_, ?_⟩, trivial⟩
  · intro a ha
    rw [List.mem_singleton] at ha
    subst ha
    exact ⟨h2, h5⟩
  · exact ⟨by simp, ⟨by simp, by simp, by simp, trivial⟩⟩
  · exact ⟨⟨h3, by simp, trivial, h6, trivial⟩, h7, ⟨h4, by simp, trivial, trivial⟩, ⟨h8, h9, h10⟩, h11, trivial⟩

private theorem sampleDocument : DocumentNodes [sampleRoot] := by
  refine ⟨fun n hn => ?_, sampleRoot, List.mem_singleton.2 rfl, rfl⟩
  rw [List.mem_singleton] at hn
  subst hn
  rfl

/-! ## Saving and loading -/

/-- **C92 (saved and loaded, partial).** Whatever a writable tree contains – any characters in attributes and texts, markup characters, control characters, characters
beyond ASCII –, the text that `ICziMetadataBuilder::GetXml` (with and without indentation), `ICziMetadata::GetXml` and `ISubBlockMetadata::GetXml` return for it can be
loaded, and gives the same elements in the same order with the same names, attributes and texts, except that white-space text is left out and line ends in texts are
converted. (`reloadAll`, which C64, C72 and others use for "saved and loaded", is therefore what the parser does.) What is missing are these two exceptions:
`C92_blank_violated`, `C92_return_violated`; and trees that are not writable: `C92_neighbours_violated`, `C92_name_violated`. -/
theorem C92_saved_partial (doc : List Node) (h : DocumentNodes doc) (hw : AllWritable doc) :
    (∀ indent, loadXml (builderXml indent doc) = .ok (reloadAll doc)) ∧ loadXml (metadataXml doc) = .ok (reloadAll doc) :=
  ⟨fun b => load_builder h hw b, load_metadata h hw⟩

example : ∃ doc, DocumentNodes doc ∧ AllWritable doc := ⟨[sampleRoot], sampleDocument, sampleWritable⟩

/-- **C92 (the same tree).** If moreover no text is blank or has a carriage return, the tree that is loaded is the one that was saved. -/
theorem C92_same_tree (doc : List Node) (h : DocumentNodes doc) (hw : AllWritable doc) (hp : AllPreserved doc) :
    (∀ indent, loadXml (builderXml indent doc) = .ok doc) ∧ loadXml (metadataXml doc) = .ok doc := by
  have := C92_saved_partial doc h hw
  rw [reloadAll_preserved doc hp] at this
  exact this

private def sampleKept : Node := .element "a".toList [("b".toList, " \r ".toList)] [.text false " <x> ".toList, .element "c".toList [] [], .text true "\t".toList]

example : AllPreserved [sampleKept] ∧ DocumentNodes [sampleKept] ∧ AllWritable [sampleKept] := by
  unfold sampleKept
  have h1 := sampleName "a".toList 'a' [] (by decide +kernel) (by decide +kernel) rfl
  have h2 := sampleName "b".toList 'b' [] (by decide +kernel) (by decide +kernel) rfl
  have h3 := sampleName "c".toList 'c' [] (by decide +kernel) (by decide +kernel) rfl
  refine ⟨?_, ⟨?_, ?_⟩, ?_⟩
  · simp only [AllPreserved, Preserved]
    exact ⟨⟨⟨by decide +kernel, '<', by decide +kernel, by decide⟩, trivial, trivial, trivial⟩, trivial⟩
  · intro n hn
    rw [List.mem_singleton] at hn
    subst hn
    rfl
  · exact ⟨_, List.mem_singleton.2 rfl, rfl⟩
  · simp only [AllWritable, Writable, TextsApart, Node.isPcdata]
    refine ⟨⟨h1, ?_, ⟨by simp, by simp, trivial⟩, by decide +kernel, ⟨h3, by simp, trivial, trivial⟩, ⟨by decide +kernel, by decide +kernel, by decide +kernel⟩, trivial⟩, trivial⟩
    intro a ha
    rw [List.mem_singleton] at ha
    subst ha
    exact ⟨h2, by decide +kernel⟩

/-- **C92 (a second time).** Saving and loading what was loaded changes nothing any more. -/
theorem C92_stable (doc : List Node) (h : DocumentNodes doc) (hw : AllWritable doc) :
    (∀ indent, loadXml (builderXml indent (reloadAll doc)) = .ok (reloadAll doc)) ∧ loadXml (metadataXml (reloadAll doc)) = .ok (reloadAll doc) := by
  have := C92_saved_partial (reloadAll doc) (reloadAll_documentNodes h) (reloadAll_writable doc hw)
  rw [reloadAll_reloadAll] at this
  exact this

example : loadXml (builderXml true (reloadAll [sampleRoot])) = .ok (reloadAll [sampleRoot]) := (C92_stable _ sampleDocument sampleWritable).1 true

/-- **C92 (a document that was loaded).** Whatever text was loaded, names and strings in the tree are such as can be written: the tree has an element, no text outside of
elements, and unless two pieces of text are next to each other somewhere (because of a comment between them), it is writable – saving and loading give `reloadAll` of it. -/
theorem C92_loaded (bytes : List UInt8) (doc : List Node) (hl : loadXml bytes = .ok doc) :
    DocumentNodes doc ∧ (AllSeparated doc → AllWritable doc ∧ (∀ indent, loadXml (builderXml indent doc) = .ok (reloadAll doc)) ∧ loadXml (metadataXml doc) = .ok (reloadAll doc)) := by
  obtain ⟨h1, h2⟩ := loadXml_sound hl
  refine ⟨h1, fun ha => ?_⟩
  have hw := allSound_apart doc h2 ha
  exact ⟨hw, C92_saved_partial doc h1 hw⟩

private def sampleText : Str := "<?xml version='1.0'?><!DOCTYPE a [<!ENTITY b 'c'>]><a b = 'x&#10;&amp;' c=\"y\"><d/>1&lt;2<e ></e\t> <!-- - --></a>".toList
private def sampleTree : Node :=
  .element ['a'] [(['b'], ['x', '\n', '&']), (['c'], ['y'])] [.element ['d'] [] [], .text false ['1', '<', '2'], .element ['e'] [] []]

mutual
private def same : Node → Node → Bool
  | .text c v, .text d w => c == d && decide (v = w)
  | .element n as cs, .element m bs ds => decide (n = m) && decide (as = bs) && sameAll cs ds
  | _, _ => false
private def sameAll : List Node → List Node → Bool
  | [], [] => true
  | c :: cs, d :: ds => same c d && sameAll cs ds
  | _, _ => false
end

mutual
private theorem same_eq : ∀ (a b : Node), same a b = true → a = b
  | .text c v, .text d w, h => by
    simp only [same, Bool.and_eq_true, beq_iff_eq, decide_eq_true_eq] at h
    rw [h.1, h.2]
  | .element n as cs, .element m bs ds, h => by
    simp only [same, Bool.and_eq_true, decide_eq_true_eq] at h
    rw [h.1.1, h.1.2, sameAll_eq cs ds h.2]
  | .text _ _, .element _ _ _, h => by simp [same] at h
  | .element _ _ _, .text _ _, h => by simp [same] at h
private theorem sameAll_eq : ∀ (a b : List Node), sameAll a b = true → a = b
  | [], [], _ => rfl
  | c :: cs, d :: ds, h => by
    simp only [sameAll, Bool.and_eq_true] at h
    rw [same_eq c d h.1, sameAll_eq cs ds h.2]
  | [], _ :: _, h => by simp [sameAll] at h
  | _ :: _, [], h => by simp [sameAll] at h
end

private def isResult (r : Except XErr (List Node)) (d : List Node) : Bool :=
  match r with
  | .error _ => false
  | .ok e => sameAll e d

private theorem isResult_eq {r : Except XErr (List Node)} {d : List Node} (h : isResult r d = true) : r = .ok d := by
  cases r with
  | error e => cases h
  | ok e => rw [sameAll_eq e d h]

example : loadXml (encode sampleText) = .ok [sampleTree] ∧ AllSeparated [sampleTree] := by
  refine ⟨isResult_eq (by decide +kernel), ?_⟩
  unfold sampleTree
  simp only [AllSeparated, Separated, TextsApart, Node.isPcdata]
  simp

/-- **C92 (characters).** UTF-8: the bytes written for a text are read as this text, whatever its characters are. -/
theorem C92_utf8 (s : Str) : (decodeFrom 0 (encode s)).mapM charOf = some s := chars_encode s

example : encode "aä€😀".toList = [0x61, 0xC3, 0xA4, 0xE2, 0x82, 0xAC, 0xF0, 0x9F, 0x98, 0x80] := by decide +kernel

/-! ## Through a file -/

/-- **C92 (through a file).** Metadata written with `SyncWriteMetadata` from the text of an `ICziMetadataBuilder`, or of `ICziMetadata`, is read from the file
with `ReadMetadataSegment` and loads as the same tree, whatever other calls were made (blank text and line ends as in `C92_saved_partial`). -/
theorem C92_file_partial (dup : Bool) (d0 : Czi.Disk) (info : Czi.WriterInfo) (ops : List Czi.WOp) (hi : InfoOk info) (hops : OpsOk ops)
    (hsz : ∀ m, .writeMetadata m ∈ ops → m.xmlBytes.length < 2 ^ 31 ∧ m.attBytes.length < 2 ^ 31)
    (o : Czi.OpenOptions) (al : Czi.Alloc) (hal : ∀ n, al n = true) :
    ∃ disk done, writeDoc dup d0 info ops = some (disk, done) ∧
      ∃ doc, Czi.openDoc al disk.stream o = .ok doc ∧
        ∀ m tree, lastMeta done = some m → DocumentNodes tree → AllWritable tree → (m.xml = some (metadataXml tree) ∨ ∃ indent, m.xml = some (builderXml indent tree)) →
          ∃ md bytes, doc.readMetadata al disk.stream = .ok md ∧ md.xml.bytes = some bytes ∧ md.xml.size = bytes.length ∧ loadXml bytes = .ok (reloadAll tree) := by
  obtain ⟨disk, done, h1, doc, h2, h3, _⟩ := C03_metadata_reads_back_partial dup d0 info ops hi hops hsz o al hal
  refine ⟨disk, done, h1, doc, h2, ?_⟩
  intro m tree hm ht hw hx
  obtain ⟨hb, hmd⟩ := C92_saved_partial tree ht hw
  have key : ∀ bytes, m.xml = some bytes → loadXml bytes = .ok (reloadAll tree) →
      ∃ md bytes, doc.readMetadata al disk.stream = .ok md ∧ md.xml.bytes = some bytes ∧ md.xml.size = bytes.length ∧ loadXml bytes = .ok (reloadAll tree) := by
    intro bytes e hl
    have hne : bytes.length ≠ 0 := by
      intro h0
      rw [List.length_eq_zero_iff] at h0
      subst h0
      cases hl
    refine ⟨metaOf m, bytes, h3 m hm, ?_, ?_, hl⟩
    · show (if m.xmlBytes.length = 0 then none else some m.xmlBytes) = some bytes
      have : m.xmlBytes = bytes := by
        unfold Czi.MetaInfo.xmlBytes
        rw [e]
        rfl
      rw [this, if_neg hne]
    · show ((m.xmlBytes.length : Int)) = bytes.length
      have : m.xmlBytes = bytes := by
        unfold Czi.MetaInfo.xmlBytes
        rw [e]
        rfl
      rw [this]
  rcases hx with e | ⟨b, e⟩
  · exact key _ e hmd
  · exact key _ e (hb b)

example : ∃ m : Czi.MetaInfo, MetaOk m ∧ (m.xmlBytes.length < 2 ^ 31 ∧ m.attBytes.length < 2 ^ 31) ∧ m.xml = some (builderXml true [sampleRoot]) := by
  have h : (builderXml true [sampleRoot]).length < 2 ^ 31 := by decide +kernel
  have e : (⟨some (builderXml true [sampleRoot]), some []⟩ : Czi.MetaInfo).xmlBytes = builderXml true [sampleRoot] := rfl
  refine ⟨⟨some (builderXml true [sampleRoot]), some []⟩, ⟨?_, by decide⟩, ⟨?_, by decide⟩, rfl⟩
  · rw [e]
    omega
  · rw [e]
    exact h

/-! ## What is not preserved -/

private theorem oneElement (n : Str) (as : List (Str × Str)) (cs : List Node) : DocumentNodes [.element n as cs] := by
  refine ⟨fun x hx => ?_, .element n as cs, List.mem_singleton.2 rfl, rfl⟩
  rw [List.mem_singleton] at hx
  subst hx
  rfl

private theorem writable_one {n : Str} {as : List (Str × Str)} {v : Str} (hn : XmlName n) (ha : ∀ a ∈ as, XmlName a.1 ∧ '\x00' ∉ a.2) (hv : '\x00' ∉ v) :
    AllWritable [.element n as [.text false v]] := by
  simp only [AllWritable, Writable, TextsApart]
  exact ⟨⟨hn, ha, trivial, hv, trivial⟩, trivial⟩

/-- **C92 violated for blank text.** A text of white space only – a separator, a single blank as a name – is gone after saving and loading. -/
theorem C92_blank_violated (n : Str) (as : List (Str × Str)) (v : Str) (hn : XmlName n) (ha : ∀ a ∈ as, XmlName a.1 ∧ '\x00' ∉ a.2)
    (hv : ∀ c ∈ v, c ∈ [' ', '\t', '\n', '\r']) (indent : Bool) :
    loadXml (builderXml indent [.element n as [.text false v]]) = .ok [.element n as []] := by
  have hz : '\x00' ∉ v := fun h => absurd (hv _ h) (by decide)
  have hb : v.all isPugiSpace = true := by
    rw [List.all_eq_true]
    intro c hc
    have := hv c hc
    simp only [List.mem_cons, List.not_mem_nil, or_false] at this
    rcases this with rfl | rfl | rfl | rfl <;> decide
  rw [(C92_saved_partial _ (oneElement n as _) (writable_one hn ha hz)).1 indent, reloadAll_step, reloadAll_single rfl, reload, reloadAll, reloadAll, if_pos hb, reloadAll]
  rfl

example : ∃ (n v : Str), XmlName n ∧ v ≠ [] ∧ ∀ c ∈ v, c ∈ [' ', '\t', '\n', '\r'] :=
  ⟨['N'], [' '], ⟨'N', [], rfl, Or.inl ⟨by decide, by decide⟩, by simp⟩, by simp, by simp⟩

/-- **C92 violated for carriage returns.** A text with a carriage return comes back as another text, which has none (a carriage return in an attribute is preserved). -/
theorem C92_return_violated (n : Str) (as : List (Str × Str)) (v : Str) (hn : XmlName n) (ha : ∀ a ∈ as, XmlName a.1 ∧ '\x00' ∉ a.2) (hz : '\x00' ∉ v)
    (hv : ∃ c ∈ v, c ∉ [' ', '\t', '\n', '\r']) (hr : '\r' ∈ v) (indent : Bool) :
    ∃ w, loadXml (builderXml indent [.element n as [.text false v]]) = .ok [.element n as [.text false w]] ∧ '\r' ∉ w ∧ w ≠ v := by
  refine ⟨eol v, ?_, eol_no_return v, fun e => eol_no_return v (e.symm ▸ hr : '\r' ∈ eol v)⟩
  rw [(C92_saved_partial _ (oneElement n as _) (writable_one hn ha hz)).1 indent, reloadAll_step, reloadAll_single rfl, reload, reloadAll, reloadAll, not_blank hv, if_neg (by decide), reloadAll]
  rfl

example : ∃ v : Str, '\x00' ∉ v ∧ (∃ c ∈ v, c ∉ [' ', '\t', '\n', '\r']) ∧ '\r' ∈ v := ⟨['a', '\r'], by decide, ⟨'a', by decide, by decide⟩, by decide⟩

/-- **C92 violated for text next to text.** If a comment separates two pieces of text, the loaded element has two text nodes; saved and loaded again, it has one, and so
a text node – and what `TryGetValue` returns, which is the first one – has changed. -/
theorem C92_neighbours_violated (n : Str) (as : List (Str × Str)) (v w : Str) (hn : XmlName n) (ha : ∀ a ∈ as, XmlName a.1 ∧ '\x00' ∉ a.2) (hv : '\x00' ∉ v) (hw : '\x00' ∉ w)
    (indent : Bool) : loadXml (builderXml indent [.element n as [.text false v, .text false w]]) = .ok (reloadAll [.element n as [.text false (v ++ w)]]) := by
  rw [← (C92_saved_partial [.element n as [.text false (v ++ w)]] (oneElement n as _) (writable_one hn ha (not_mem_append hv hw))).1 indent]
  congr 1
  unfold builderXml saveText
  generalize (if indent = true then (⟨false, [' ', ' ']⟩ : Format) else ⟨true, []⟩) = f
  have e : ∀ l d, printNode f d l (.element n as [.text false v, .text false w]) = printNode f d l (.element n as [.text false (v ++ w)]) := by
    intro l d
    rw [printNode, printNode, printNodes_cons, printNodes_cons, printNodes_nil, printNodes_cons, printNodes_nil, printNode, printNode, printNode]
    simp only [List.isEmpty_cons, Bool.false_eq_true, if_false, leadAfter, List.append_nil]
    simp [escape]
  rw [printNodes_cons, printNodes_cons, printNodes_nil, printNodes_nil, e]
  rfl

example : loadXml (encode "<a>x<!-- -->y</a>".toList) = .ok [.element ['a'] [] [.text false ['x'], .text false ['y']]] ∧
    loadXml (builderXml false [.element ['a'] [] [.text false ['x'], .text false ['y']]]) = .ok [.element ['a'] [] [.text false ['x', 'y']]] :=
  ⟨isResult_eq (by decide +kernel), isResult_eq (by decide +kernel)⟩

/-- **C92 violated for names.** Names are not checked when elements are created: if the name of the root element begins with a character that cannot begin a name (a digit,
say, or a blank), the text that `GetXml` returns cannot be loaded, whatever the element contains. -/
theorem C92_name_violated (c : Char) (n : Str) (as : List (Str × Str)) (cs : List Node) (hc : ¬ NameStart c) (h : c ∉ ['\x00', '/', '?', '!']) (indent : Bool) :
    loadXml (builderXml indent [.element (c :: n) as cs]) = .error .unrecognizedTag := by
  have hs : isStartSymbol c = false := by
    cases e : isStartSymbol c with
    | false => rfl
    | true => exact absurd ((isStartSymbol_iff c).1 e) hc
  simp only [List.mem_cons, List.not_mem_nil, or_false, not_or] at h
  obtain ⟨h0, h1, h2, h3⟩ := h
  have key : ∀ f : Format, ∃ t, saveText false f [.element (c :: n) as cs] = '<' :: c :: t := by
    intro f
    unfold saveText
    rw [if_neg (by decide), List.nil_append, printNodes_cons, printNode]
    exact ⟨_, rfl⟩
  unfold builderXml
  obtain ⟨t, e⟩ := key (if indent = true then ⟨false, [' ', ' ']⟩ else ⟨true, []⟩)
  rw [e, loadXml_encode (by simp), parseText_lt]
  have hz : zeroTerminated ('<' :: c :: t) = '<' :: c :: zeroTerminated t := by
    unfold zeroTerminated
    rw [List.takeWhile_cons, if_pos (by decide), List.takeWhile_cons, if_pos (by simpa using h0)]
  rw [hz, parseTree, turn_lt, tag, hs, if_neg (by decide), if_neg h1, if_neg h2, if_neg h3]

example : ¬ NameStart '1' ∧ '1' ∉ ['\x00', '/', '?', '!'] := by
  refine ⟨fun h => ?_, by decide⟩
  have := (isStartSymbol_iff '1').2 h
  revert this
  decide

end Verif
