import Verif.Proof.DocInfo
import Mathlib.Data.List.Induction

/-!
# C64, C65: document information that is written is read back
-/

namespace Verif
open Xml Spec

/-! ## General document information -/

/-- **C64 (general document information).** In any document in which the nodes of the given fields contain no elements and no CDATA,
`WriteGeneralDocumentInfo` succeeds; `GetGeneralDocumentInfo` then returns the fields given, and for the others what it returned
before. -/
theorem C64_general (info : GeneralInfo) (doc : Node) (hd : doc.isElement = true) (hr : ∀ r, info.rating = some r → IsInt32 r)
    (ht : ∀ f ∈ givenFields info, f.2 ≠ none → TextOnly doc (documentField f.1)) :
    (writeGeneral info doc).2 = .ok () ∧ getGeneral (writeGeneral info doc).1 = overlay info (getGeneral doc) := by
  obtain ⟨h1, h2⟩ := generalTexts_ok info
  have ht' : ∀ e ∈ generalTexts info, e.2 ≠ none → TextOnly doc e.1 := by
    intro e he
    obtain ⟨f, hf, rfl⟩ := List.mem_map.mp he
    exact ht f hf
  rw [writeGeneral_eq]
  refine ⟨(writeTexts_ok _ h1 h2 doc hd ht').1, ?_⟩
  have key : ∀ f ∈ givenFields info, textAt (writeTexts (generalTexts info) doc).1 (documentField f.1) = (f.2 <|> textAt doc (documentField f.1)) := by
    intro f hf
    exact writeTexts_textAt _ h1 h2 doc hd ht' (documentField f.1, f.2) (List.mem_map.mpr ⟨f, hf, rfl⟩)
  rw [getGeneral_eq, getGeneral_eq, overlay]
  have k1 := key ("Name", info.name) (by simp [givenFields])
  have k2 := key ("Title", info.title) (by simp [givenFields])
  have k3 := key ("UserName", info.userName) (by simp [givenFields])
  have k4 := key ("Description", info.description) (by simp [givenFields])
  have k5 := key ("Comment", info.comment) (by simp [givenFields])
  have k6 := key ("Keywords", info.keywords) (by simp [givenFields])
  have k7 := key ("CreationDate", info.creationDate) (by simp [givenFields])
  have k8 := key ("Rating", info.rating.map Text.printInt) (by simp [givenFields])
  dsimp only at k1 k2 k3 k4 k5 k6 k7 k8
  rw [k1, k2, k3, k4, k5, k6, k7, k8]
  congr 1
  cases hrr : info.rating with
  | none => rfl
  | some r =>
    show some (asInt (Text.printInt r)) = some r
    rw [asInt_print (hr r hrr)]

/-- The fields of a new document. -/
def newDoc : Node := .element "ImageDocument".toList [] []

example : (writeGeneral ⟨some "a".toList, none, none, none, none, none, none, none⟩ newDoc).2.toOption = some () := by decide +kernel
example : getGeneral (writeGeneral ⟨some "a".toList, none, some "b".toList, none, none, none, none, none⟩ newDoc).1 =
    ⟨some "a".toList, none, some "b".toList, none, none, none, none, none⟩ := by decide +kernel
-- the hypothesis about the nodes, for a document in which a field is present
example : TextOnly (.element "ImageDocument".toList [] [.element "Metadata".toList [] [.element "Information".toList [] [.element "Document".toList []
    [.element "Name".toList [] [.text false "old".toList]]]]]) (documentField "Name") :=
  textOnly_iff.mpr (by
    intro n hn c hc
    have : n = .element "Name".toList [] [.text false "old".toList] := (Option.some.inj hn).symm
    subst this
    exact ⟨"old".toList, by simpa [Node.children] using hc⟩)

/-- **C64 (a field with elements).** If the node of a given field contains an element, `WriteGeneralDocumentInfo` throws. -/
theorem C64_general_throws (info : GeneralInfo) (doc : Node) (hd : doc.isElement = true)
    (h : ∃ f ∈ givenFields info, f.2 ≠ none ∧ ContainsElement doc (documentField f.1)) : (writeGeneral info doc).2 = .error () := by
  obtain ⟨h1, h2⟩ := generalTexts_ok info
  rw [writeGeneral_eq]
  apply writeTexts_error _ h1 h2 doc hd
  obtain ⟨f, hf, hv, hc⟩ := h
  exact ⟨(documentField f.1, f.2), List.mem_map.mpr ⟨f, hf, rfl⟩, hv, hc⟩

example : ContainsElement (.element "ImageDocument".toList [] [.element "Metadata".toList [] [.element "Information".toList [] [.element "Document".toList []
    [.element "Name".toList [] [.element "x".toList [] []]]]]]) (documentField "Name") :=
  containsElement_iff.mpr ⟨.element "Name".toList [] [.element "x".toList [] []], rfl, rfl⟩

/-- **C64 (after saving and loading, partial).** When the document is saved and loaded again, the fields that were written are read
back, provided that no text is empty or consists of white space only, and none contains a carriage return. The other fields are
what they would have been without writing. What is missing are exactly those texts: `C64_blank_lost`, `C64_return_lost`. -/
theorem C64_saved_partial (info : GeneralInfo) (doc : Node) (hd : doc.isElement = true) (hr : ∀ r, info.rating = some r → IsInt32 r)
    (ht : ∀ f ∈ givenFields info, f.2 ≠ none → TextOnly doc (documentField f.1))
    (hb : ∀ f ∈ givenFields info, ∀ v, f.2 = some v → ¬ Blank v ∧ '\r' ∉ v) :
    getGeneral (reload (writeGeneral info doc).1) = overlay info (getGeneral (reload doc)) := by
  obtain ⟨h1, h2⟩ := generalTexts_ok info
  have ht' : ∀ e ∈ generalTexts info, e.2 ≠ none → TextOnly doc e.1 := by
    intro e he
    obtain ⟨f, hf, rfl⟩ := List.mem_map.mp he
    exact ht f hf
  rw [writeGeneral_eq]
  have key : ∀ f ∈ givenFields info, textAt (reload (writeTexts (generalTexts info) doc).1) (documentField f.1) = (f.2 <|> textAt (reload doc) (documentField f.1)) := by
    intro f hf
    obtain ⟨q1, q2, _⟩ := textAt_reload _ h1 h2 doc hd ht' (documentField f.1, f.2) (List.mem_map.mpr ⟨f, hf, rfl⟩)
    dsimp only at q1 q2
    cases hv : f.2 with
    | none => exact q1 hv
    | some v =>
      obtain ⟨b1, b2⟩ := hb f hf v hv
      rw [q2 v hv b1, eol_self b2]
      rfl
  rw [getGeneral_eq, getGeneral_eq, overlay]
  have k1 := key ("Name", info.name) (by simp [givenFields])
  have k2 := key ("Title", info.title) (by simp [givenFields])
  have k3 := key ("UserName", info.userName) (by simp [givenFields])
  have k4 := key ("Description", info.description) (by simp [givenFields])
  have k5 := key ("Comment", info.comment) (by simp [givenFields])
  have k6 := key ("Keywords", info.keywords) (by simp [givenFields])
  have k7 := key ("CreationDate", info.creationDate) (by simp [givenFields])
  have k8 := key ("Rating", info.rating.map Text.printInt) (by simp [givenFields])
  dsimp only at k1 k2 k3 k4 k5 k6 k7 k8
  rw [k1, k2, k3, k4, k5, k6, k7, k8]
  congr 1
  cases hrr : info.rating with
  | none => rfl
  | some r =>
    show some (asInt (Text.printInt r)) = some r
    rw [asInt_print (hr r hrr)]

example : ¬ Blank "two words".toList ∧ '\r' ∉ "two words".toList := by unfold Blank; decide

/-- **C64 (violation: white space).** A text of white space only is lost when the document is saved and loaded: in a document without
the field (for instance a new one) the field is then read as the empty text. Stated for the title; the fields are treated alike. -/
theorem C64_blank_lost (v : Str) (hv : Blank v) (doc : Node) (hd : doc.isElement = true) (hn : NoSuchNode doc (documentField "Title")) :
    let written := (writeGeneral ⟨none, some v, none, none, none, none, none, none⟩ doc).1
    (getGeneral written).title = some v ∧ (getGeneral (reload written)).title = some [] := by
  generalize hi : (⟨none, some v, none, none, none, none, none, none⟩ : GeneralInfo) = info
  obtain ⟨h1, h2⟩ := generalTexts_ok info
  have ht' : ∀ e ∈ generalTexts info, e.2 ≠ none → TextOnly doc e.1 := by
    intro e he hne
    obtain ⟨f, hf, rfl⟩ := List.mem_map.mp he
    rw [← hi] at hf
    simp only [givenFields, List.mem_cons, List.not_mem_nil, or_false, Option.map_none] at hf
    rcases hf with rfl | rfl | rfl | rfl | rfl | rfl | rfl | rfl <;> first | exact absurd rfl hne | exact fun p n hp => (hn p hp).elim
  have hmem : (documentField "Title", some v) ∈ generalTexts info := by rw [← hi]; simp [generalTexts, givenFields]
  dsimp only
  rw [writeGeneral_eq, getGeneral_eq, getGeneral_eq]
  exact ⟨writeTexts_textAt _ h1 h2 doc hd ht' _ hmem, (textAt_reload _ h1 h2 doc hd ht' _ hmem).2.2 v rfl hv hn⟩

/-- **C64 (violation: carriage returns).** A text that contains a carriage return (and is not all white space) is never read back after
saving and loading: the line ends have been converted. -/
theorem C64_return_lost (v : Str) (hb : ¬ Blank v) (hv : '\r' ∈ v) (doc : Node) (hd : doc.isElement = true) (hn : TextOnly doc (documentField "Title")) :
    let written := (writeGeneral ⟨none, some v, none, none, none, none, none, none⟩ doc).1
    (getGeneral written).title = some v ∧ (getGeneral (reload written)).title ≠ some v := by
  generalize hi : (⟨none, some v, none, none, none, none, none, none⟩ : GeneralInfo) = info
  obtain ⟨h1, h2⟩ := generalTexts_ok info
  have ht' : ∀ e ∈ generalTexts info, e.2 ≠ none → TextOnly doc e.1 := by
    intro e he hne
    obtain ⟨f, hf, rfl⟩ := List.mem_map.mp he
    rw [← hi] at hf
    simp only [givenFields, List.mem_cons, List.not_mem_nil, or_false, Option.map_none] at hf
    rcases hf with rfl | rfl | rfl | rfl | rfl | rfl | rfl | rfl <;> first | exact absurd rfl hne | exact hn
  have hmem : (documentField "Title", some v) ∈ generalTexts info := by rw [← hi]; simp [generalTexts, givenFields]
  dsimp only
  rw [writeGeneral_eq, getGeneral_eq, getGeneral_eq]
  refine ⟨writeTexts_textAt _ h1 h2 doc hd ht' _ hmem, ?_⟩
  dsimp only
  rw [(textAt_reload _ h1 h2 doc hd ht' _ hmem).2.1 v rfl hb]
  intro e
  have h := eol_none v
  rw [Option.some.inj e] at h
  exact h hv

example : ¬ Blank "a\r\nb".toList ∧ '\r' ∈ "a\r\nb".toList := by unfold Blank; decide
example : NoSuchNode newDoc (documentField "Title") := noSuchNode_iff.mpr rfl

/-- **C64 (numbers in the metadata).** Where a number is read from the metadata (rating, sizes), a decimal number in the text gives
that number, or the nearest one in the range of a 32-bit integer. -/
theorem C64_number (t : Str) (x : Int) (h : XmlInt t x) :
    IsInt32 (asInt t) ∧ (IsInt32 x → asInt t = x) ∧ (x < -2147483648 → asInt t = -2147483648) ∧ (2147483647 < x → asInt t = 2147483647) := by
  rw [asInt_text h]
  refine ⟨?_, ?_, ?_, ?_⟩
  · unfold IsInt32; split <;> first | omega | (split <;> omega)
  · unfold IsInt32; intro hx; rw [if_neg (by omega), if_neg (by omega)]
  · intro hx; rw [if_pos hx]
  · intro hx; rw [if_neg (by omega), if_pos hx]

/-- **C64 (numbers in arbitrary texts).** Whatever the text is, the result is the number at its beginning (decimal, or hexadecimal after `0x`), or the
nearest one in the range of a 32-bit integer; every text has such a number at its beginning (0 if there are no digits). -/
theorem C64_number_any (t : Str) : (∃ x, IntegerAt t x) ∧ ∀ x, IntegerAt t x →
    IsInt32 (asInt t) ∧ (IsInt32 x → asInt t = x) ∧ (x < -2147483648 → asInt t = -2147483648) ∧ (2147483647 < x → asInt t = 2147483647) := by
  refine ⟨integerAt_exists t, fun x h => ?_⟩
  rw [asInt_any h]
  refine ⟨?_, ?_, ?_, ?_⟩
  · unfold IsInt32; split <;> first | omega | (split <;> omega)
  · unfold IsInt32; intro hx; rw [if_neg (by omega), if_neg (by omega)]
  · intro hx; rw [if_pos hx]
  · intro hx; rw [if_neg (by omega), if_pos hx]

example : IntegerAt " -0x1fz".toList (-31) :=
  ⟨[' '], ['-'], "0x1fz".toList, 31, rfl, by simp [Blank], by simp, (by intro h; cases h),
    .inl ⟨'x', ['1', 'f'], ['z'], rfl, .inl rfl, .cons '1' 1 ['f'] 15 (by unfold HexDigit; decide) (.cons 'f' 15 [] 0 (by unfold HexDigit; decide) .nil),
      (by intro c cs e; injection e with e _; subst e; intro w; unfold HexDigit; have : 'z'.toNat = 122 := rfl; omega)⟩, rfl⟩
example : asInt " -0x1fz".toList = -31 ∧ asInt "0xFFFFFFFFF".toList = 2147483647 ∧ asInt "12abc".toList = 12 ∧ asInt "abc".toList = 0 := by decide

example : XmlInt " -0012".toList (-12) :=
  ⟨[' '], ['-'], "0012".toList, rfl, by simp [Blank], by simp, ⟨by decide, by unfold IsDigit; decide⟩, by decide⟩

/-! ## Sizes -/

/-- **C64 (sizes).** After `WriteFillWithSubBlockStatistics`, `GetDimensionInfo` returns for every dimension of the statistics the size
given there; the start is the one the document stated before (it is not written). Dimensions not in the statistics are as they
were. The sizes in x and y and the number of m-indices are the values of the nodes `SizeX`, `SizeY` and `SizeM`. -/
theorem C64_sizes (w h : Int) (b : Bounds) (m : Option (Int × Int)) (doc : Node) (hd : doc.isElement = true) (hb : ∀ d s n, b d = some (s, n) → IsInt32 n)
    (ht : ∀ name ∈ ["SizeX", "SizeY", "SizeM"] ++ Dim.all.map (fun d => "Size" ++ dimName d), TextOnly doc (imageField name)) :
    let doc' := (writeStatistics w h b m doc).1
    (writeStatistics w h b m doc).2 = .ok () ∧
    ValueIs doc' (imageField "SizeX") (Text.printInt w) ∧ ValueIs doc' (imageField "SizeY") (Text.printInt h) ∧
    (∀ lo hi, m = some (lo, hi) → ValueIs doc' (imageField "SizeM") (Text.printInt (hi - lo + 1))) ∧
    (∀ d s n, b d = some (s, n) → ∃ start, getDimension doc' d = some (start, (n, true)) ∧
      (∀ r, getDimension doc d = some r → start = r.1) ∧ (getDimension doc d = none → start = (0, false))) ∧
    (∀ d, b d = none → getDimension doc' d = getDimension doc d) := by
  obtain ⟨h1, h2, h3⟩ := statTexts_ok w h b m
  have hsub : ∀ e ∈ statTexts w h b m, TextOnly doc e.1 := by
    intro e he
    have : e.1 ∈ (statTexts w h b m).map (·.1) := List.mem_map.mpr ⟨e, he, rfl⟩
    rw [statTexts_fst] at this
    obtain ⟨s, hs, e'⟩ := List.mem_map.mp this
    rw [← e']
    apply ht s
    simp only [sizeNames, List.mem_append, List.mem_cons, List.not_mem_nil, or_false] at hs ⊢
    rcases hs with ((h | h) | h) | h
    · exact .inl (.inl h)
    · exact .inl (.inr (.inl h))
    · exact .inr h
    · exact .inl (.inr (.inr h))
  have ht' : ∀ e ∈ statTexts w h b m, e.2 ≠ none → TextOnly doc e.1 := fun e he _ => hsub e he
  dsimp only
  rw [writeStatistics_eq]
  have hval := writeTexts_value _ h1 h2 doc hd ht'
  have hmemd : ∀ d, (imageField ("Size" ++ dimName d), (b d).map (fun i => Text.printInt i.2)) ∈ statTexts w h b m := by
    intro d
    apply List.mem_append_left
    apply List.mem_append_right
    exact List.mem_map.mpr ⟨d, by cases d <;> decide, rfl⟩
  have hstart : ∀ d, textAt (writeTexts (statTexts w h b m) doc).1 (imageField ("Start" ++ dimName d)) = textAt doc (imageField ("Start" ++ dimName d)) := by
    intro d
    rw [textAt, (writeTexts_other _ h1 doc hd).2 _ (fun e he => h3 e he d)]
    rfl
  have hsize := fun d => writeTexts_textAt _ h1 h2 doc hd ht' _ (hmemd d)
  refine ⟨(writeTexts_ok _ h1 h2 doc hd ht').1, ?_, ?_, ?_, ?_, ?_⟩
  · exact hval (imageField "SizeX", some (Text.printInt w)) (by simp [statTexts]) _ rfl
  · exact hval (imageField "SizeY", some (Text.printInt h)) (by simp [statTexts]) _ rfl
  · intro lo hi hm
    exact hval (imageField "SizeM", m.map (fun r => Text.printInt (r.2 - r.1 + 1))) (by simp [statTexts]) _ (by rw [hm]; rfl)
  · intro d s n hdn
    have hs := hsize d
    rw [hdn] at hs
    dsimp only at hs
    have hs' : textAt (writeTexts (statTexts w h b m) doc).1 (imageField ("Size" ++ dimName d)) = some (Text.printInt n) := hs
    rw [getDimension_eq, getDimension_eq, hstart, hs']
    have hp := asInt_print (hb d s n hdn)
    cases textAt doc (imageField ("Start" ++ dimName d)) with
    | none =>
      refine ⟨(0, false), ?_, ?_, fun _ => rfl⟩
      · show some ((0, false), (asInt (Text.printInt n), true)) = _
        rw [hp]
      · intro r
        cases textAt doc (imageField ("Size" ++ dimName d)) with
        | none => intro hr; cases hr
        | some t => intro hr; cases hr; rfl
    | some t =>
      refine ⟨(asInt t, true), ?_, ?_, ?_⟩
      · show some ((asInt t, true), (asInt (Text.printInt n), true)) = _
        rw [hp]
      · intro r
        cases textAt doc (imageField ("Size" ++ dimName d)) <;> (intro hr; cases hr; rfl)
      · cases textAt doc (imageField ("Size" ++ dimName d)) <;> (intro hr; cases hr)
  · intro d hdn
    have hs := hsize d
    rw [hdn] at hs
    have hs' : textAt (writeTexts (statTexts w h b m) doc).1 (imageField ("Size" ++ dimName d)) = textAt doc (imageField ("Size" ++ dimName d)) := hs
    rw [getDimension_eq, getDimension_eq, hstart, hs']

example : TextOnly newDoc (imageField "SizeX") := textOnly_iff.mpr (by intro n hn; cases hn)
/-- Statistics with two dimensions; the indices of T start at 5. -/
def someBounds : Bounds := fun d => match d with | .T => some (5, 3) | .C => some (0, 2) | _ => none

/-- **C64 (violation: the start of a dimension).** For a document that states neither start nor size of a dimension (for instance a new
one), the start read after `WriteFillWithSubBlockStatistics` is 0, whatever the start in the statistics is. -/
theorem C64_start_lost (w h : Int) (b : Bounds) (m : Option (Int × Int)) (doc : Node) (hd : doc.isElement = true) (hb : ∀ d s n, b d = some (s, n) → IsInt32 n)
    (ht : ∀ name ∈ ["SizeX", "SizeY", "SizeM"] ++ Dim.all.map (fun d => "Size" ++ dimName d), TextOnly doc (imageField name))
    (d : Dim) (s n : Int) (hbd : b d = some (s, n)) (hn : getDimension doc d = none) :
    getDimension (writeStatistics w h b m doc).1 d = some ((0, false), (n, true)) := by
  obtain ⟨_, _, _, _, h5, _⟩ := C64_sizes w h b m doc hd hb ht
  obtain ⟨start, e1, _, e3⟩ := h5 d s n hbd
  rw [e1, e3 hn]

example : someBounds .T = some (5, 3) ∧ getDimension newDoc .T = none := by decide +kernel

/-! ## Time and z -/

set_option maxHeartbeats 1000000 in
/-- **C64 (violation: time and z).** What `WriteDimInfoT_Interval`, `WriteDimInfoT_List`, `WriteDimInfoZ_Interval` and
`WriteDimInfoZ_List` write is never read: they write below `Metadata/Information/Dimensions`, `GetDimensionTInfo` and
`GetDimensionZInfo` read below `Metadata/Information/Image/Dimensions`. For every document and all arguments, the two return what
they returned before (for a new document: null). -/
theorem C64_positions_not_read (doc : Node) (hd : doc.isElement = true) (start : Option DateTime) (pos offset increment offsets : Option Str) :
    (∀ w ∈ [writeDimInfoTInterval start offset increment, writeDimInfoTList start offsets, writeDimInfoZInterval pos offset increment,
        writeDimInfoZList pos offsets],
      getDimensionT (w doc).1 = getDimensionT doc ∧ getDimensionZ (w doc).1 = getDimensionZ doc) := by
  have names : ∀ s ∈ ["T", "Z", "StartTime", "StartPosition", "Positions", "Interval", "Start", "Increment", "List", "Offsets"], NodeName s.toList := by
    unfold NodeName
    decide
  have key : ∀ L : List (List String × Str), (∀ e ∈ L, ∀ s ∈ e.1, s ∈ ["T", "Z", "StartTime", "StartPosition", "Positions", "Interval", "Start", "Increment", "List", "Offsets"]) →
      getDimensionT (writeTexts (L.map (fun e => (dimensionsField e.1, some e.2))) doc).1 = getDimensionT doc ∧
      getDimensionZ (writeTexts (L.map (fun e => (dimensionsField e.1, some e.2))) doc).1 = getDimensionZ doc := by
    intro L hL
    apply dimensions_unread _ doc hd
    intro e he
    obtain ⟨x, hx, rfl⟩ := List.mem_map.mp he
    exact ⟨x.1, rfl, fun s hs => names s (hL x hx s hs)⟩
  intro w hw
  simp only [List.mem_cons, List.not_mem_nil, or_false] at hw
  rcases hw with rfl | rfl | rfl | rfl
  · cases start with
    | none =>
      have := key ((offset.map (fun s => (["T", "Positions", "Interval", "Start"], s))).toList ++ (increment.map (fun s => (["T", "Positions", "Interval", "Increment"], s))).toList)
        (by cases offset <;> cases increment <;> simp)
      cases offset <;> cases increment <;> exact this
    | some t =>
      cases hs : toXmlString t with
      | none =>
        have : (writeDimInfoTInterval (some t) offset increment doc).1 = doc := by
          rw [writeDimInfoTInterval, writeDimInfoT]
          simp only [List.cons_append, writeAll_cons, hs]
        rw [this]
        exact ⟨rfl, rfl⟩
      | some x =>
        have := key ([(["T", "StartTime"], x)] ++ ((offset.map (fun s => (["T", "Positions", "Interval", "Start"], s))).toList ++ (increment.map (fun s => (["T", "Positions", "Interval", "Increment"], s))).toList))
          (by cases offset <;> cases increment <;> simp)
        have e : writeDimInfoTInterval (some t) offset increment doc = writeTexts (([(["T", "StartTime"], x)] ++ ((offset.map (fun s => (["T", "Positions", "Interval", "Start"], s))).toList ++ (increment.map (fun s => (["T", "Positions", "Interval", "Increment"], s))).toList)).map (fun e => (dimensionsField e.1, some e.2))) doc := by
          rw [writeDimInfoTInterval, writeDimInfoT]
          simp only [hs]
          cases offset <;> cases increment <;> rfl
        rw [e]
        exact this
  · cases start with
    | none =>
      have := key ((offsets.map (fun s => (["T", "Positions", "List", "Offsets"], s))).toList) (by cases offsets <;> simp)
      cases offsets <;> exact this
    | some t =>
      cases hs : toXmlString t with
      | none =>
        have : (writeDimInfoTList (some t) offsets doc).1 = doc := by
          rw [writeDimInfoTList, writeDimInfoT]
          simp only [List.cons_append, writeAll_cons, hs]
        rw [this]
        exact ⟨rfl, rfl⟩
      | some x =>
        have := key ([(["T", "StartTime"], x)] ++ (offsets.map (fun s => (["T", "Positions", "List", "Offsets"], s))).toList) (by cases offsets <;> simp)
        have e : writeDimInfoTList (some t) offsets doc = writeTexts (([(["T", "StartTime"], x)] ++ (offsets.map (fun s => (["T", "Positions", "List", "Offsets"], s))).toList).map (fun e => (dimensionsField e.1, some e.2))) doc := by
          rw [writeDimInfoTList, writeDimInfoT]
          simp only [hs]
          cases offsets <;> rfl
        rw [e]
        exact this
  · have := key ((pos.map (fun s => (["Z", "StartPosition"], s))).toList ++ (offset.map (fun s => (["Z", "Positions", "Interval", "Start"], s))).toList ++ (increment.map (fun s => (["Z", "Positions", "Interval", "Increment"], s))).toList)
      (by cases pos <;> cases offset <;> cases increment <;> simp)
    cases pos <;> cases offset <;> cases increment <;> exact this
  · have := key ((pos.map (fun s => (["T", "StartTime"], s))).toList ++ (offsets.map (fun s => (["Z", "Positions", "List", "Offsets"], s))).toList)
      (by cases pos <;> cases offsets <;> simp)
    cases pos <;> cases offsets <;> exact this

example : getDimensionT (writeDimInfoTInterval none (some "1".toList) (some "2".toList) newDoc).1 = none := by decide +kernel

/-- **C64 (violation: start position of z).** `WriteDimInfoZ_List` stores the start position as the start *time*. -/
theorem C64_z_start_is_time (doc : Node) (hd : doc.isElement = true) (pos : Str) (ht : TextOnly doc (dimensionsField ["T", "StartTime"])) :
    ValueIs (writeDimInfoZList (some pos) none doc).1 (dimensionsField ["T", "StartTime"]) pos := by
  have hn : ∀ s ∈ dimensionsField ["T", "StartTime"], NodeName s := by
    unfold NodeName
    decide
  have e : writeDimInfoZList (some pos) none doc = writeTexts [(dimensionsField ["T", "StartTime"], some pos)] doc := rfl
  rw [e]
  refine writeTexts_value [(dimensionsField ["T", "StartTime"], some pos)] ?_ (by simp) doc hd ?_ (dimensionsField ["T", "StartTime"], some pos) (by simp) pos rfl
  · intro e he
    rw [List.mem_singleton.mp he]
    exact ⟨by simp [dimensionsField], hn⟩
  · intro e he _
    rw [List.mem_singleton.mp he]
    exact ht

example : TextOnly newDoc (dimensionsField ["T", "StartTime"]) := textOnly_iff.mpr (by intro n hn; cases hn)

/-! ## Custom values -/

/-- **C65 (which keys).** `SetOrAddCustomKeyValuePair` throws, and changes nothing, if the key is not a name of letters, digits and
underscores (not beginning with a digit), or if it begins with the letters "xml". -/
theorem C65_invalid_key (key : Str) (v : CustomValue) (doc : Node) (h : ¬ (Identifier key ∧ ¬ Reserved key)) :
    setCustom key v doc = (doc, .error ()) := by
  have : validKey key = false := by
    cases hk : validKey key with
    | false => rfl
    | true => exact absurd ((validKey_iff key).mp hk) h
  rw [setCustom, this]
  rfl

example : ¬ (Identifier "Xml_1".toList ∧ ¬ Reserved "Xml_1".toList) := by
  intro h
  exact h.2 ⟨'X', 'm', 'l', "_1".toList, rfl, .inr rfl, .inl rfl, .inl rfl⟩

/-- **C65 (setting a value).** With a valid key, if the node for the key (if there is one) contains no elements and no CDATA: the call
succeeds, the node then has the value and the type given, and the node of any other key is as before. -/
theorem C65_set (key : Str) (v : CustomValue) (doc : Node) (hd : doc.isElement = true) (hk : Identifier key ∧ ¬ Reserved key)
    (ht : TextOnly doc (customField key)) :
    (setCustom key v doc).2 = .ok () ∧ CustomIs (setCustom key v doc).1 key (some (shownAs v)) ∧
    ∀ k r, k ≠ key → CustomIs doc k r → CustomIs (setCustom key v doc).1 k r := by
  obtain ⟨_, h2, _, h4⟩ := setCustom_spec ((validKey_iff key).mpr hk) v doc hd
  obtain ⟨h5, m, rest, h6, h7, _, h8⟩ := h4 ht
  refine ⟨h5, (by rw [← shown_eq v]; exact customIs_some h6 h7 h8), ?_⟩
  intro k r hne hr
  exact customIs_congr (h2 _ (diverge_custom (Ne.symm hne))) hr

/-- **C65 (a node with elements).** If the node for the key contains an element, the call throws; the nodes of other keys are as before. -/
theorem C65_set_throws (key : Str) (v : CustomValue) (doc : Node) (hd : doc.isElement = true) (hk : Identifier key ∧ ¬ Reserved key)
    (ht : ContainsElement doc (customField key)) :
    (setCustom key v doc).2 = .error () ∧ ∀ k r, k ≠ key → CustomIs doc k r → CustomIs (setCustom key v doc).1 k r := by
  obtain ⟨_, h2, h3, _⟩ := setCustom_spec ((validKey_iff key).mpr hk) v doc hd
  refine ⟨h3 ht, ?_⟩
  intro k r hne hr
  exact customIs_congr (h2 _ (diverge_custom (Ne.symm hne))) hr

/-- **C65 (histories).** After any sequence of calls on a document without custom values (for instance a new one), the custom values
are a finite map: for every key the node has value and type of the last call with this key, and there is no node for a key that
was not set; calls with invalid keys have no effect, and all others succeed. -/
theorem C65_history (ops : List (Str × CustomValue)) (doc : Node) (hd : doc.isElement = true)
    (h0 : NoSuchNode doc ["Metadata".toList, "Information".toList, "CustomAttributes".toList, "KeyValue".toList]) :
    (∀ key, Identifier key ∧ ¬ Reserved key →
      CustomIs (afterSets ops doc) key ((lastSet key ops).map shownAs) ∧
      ∀ v, (setCustom key v (afterSets ops doc)).2 = .ok ()) ∧
    (∀ key, ¬ (Identifier key ∧ ¬ Reserved key) →
      NoSuchNode (afterSets ops doc) (customField key) ∧ ∀ v, (setCustom key v (afterSets ops doc)).2 = .error ()) := by
  have hnone : ∀ key, resolve doc (namesPath (customField key)) = none := by
    intro key
    show resolve doc (namesPath ["Metadata".toList, "Information".toList, "CustomAttributes".toList, "KeyValue".toList] ++ namesPath [key]) = none
    rw [resolve_append, noSuchNode_iff.mp h0]
    rfl
  -- the invariant, over the calls in reverse order
  have inv : ∀ ops : List (Str × CustomValue), (afterSets ops doc).isElement = true ∧
      (∀ key, Identifier key ∧ ¬ Reserved key → TextOnly (afterSets ops doc) (customField key) ∧
        CustomIs (afterSets ops doc) key ((lastSet key ops).map shownAs)) ∧
      (∀ key, ¬ (Identifier key ∧ ¬ Reserved key) → resolve (afterSets ops doc) (namesPath (customField key)) = none) := by
    intro ops
    induction ops using List.reverseRecOn with
    | nil =>
      refine ⟨hd, ?_, fun key _ => hnone key⟩
      intro key _
      refine ⟨textOnly_iff.mpr ?_, noSuchNode_iff.mpr (hnone key)⟩
      intro n hn
      have hn' : resolve doc (namesPath (customField key)) = some n := hn
      rw [hnone key] at hn'
      cases hn'
    | append_singleton ops e ih =>
      obtain ⟨i1, i2, i3⟩ := ih
      obtain ⟨k, v⟩ := e
      have hstep : afterSets (ops ++ [(k, v)]) doc = (setCustom k v (afterSets ops doc)).1 := by
        rw [afterSets, List.foldl_append]
        rfl
      have hlast : ∀ key, lastSet key (ops ++ [(k, v)]) = if k = key then some v else lastSet key ops :=
        fun key => lastSet_append key k v ops
      rw [hstep]
      by_cases hk : Identifier k ∧ ¬ Reserved k
      · obtain ⟨s1, s2, _, s4⟩ := setCustom_spec ((validKey_iff k).mpr hk) v (afterSets ops doc) i1
        obtain ⟨_, m, rest, h6, h7, h7', h8⟩ := s4 (i2 k hk).1
        refine ⟨s1, ?_, ?_⟩
        · intro key hkey
          rw [hlast key]
          by_cases hkk : k = key
          · subst hkk
            rw [if_pos rfl]
            refine ⟨textOnly_iff.mpr ?_, (by rw [Option.map_some, ← shown_eq v]; exact customIs_some h6 h7 h8)⟩
            intro n hn c hc
            rw [h6] at hn
            rw [← Option.some.inj hn, h7] at hc
            rcases List.mem_cons.mp hc with rfl | hc
            · exact ⟨v.text, rfl⟩
            · exact h7' c hc
          · rw [if_neg hkk]
            have := s2 _ (diverge_custom hkk)
            exact ⟨textOnly_congr this (i2 key hkey).1, customIs_congr this (i2 key hkey).2⟩
        · intro key hkey
          have hkk : k ≠ key := by rintro rfl; exact hkey hk
          rw [s2 _ (diverge_custom hkk)]
          exact i3 key hkey
      · rw [C65_invalid_key k v _ hk]
        refine ⟨i1, ?_, i3⟩
        intro key hkey
        have hkk : k ≠ key := by rintro rfl; exact hk hkey
        rw [hlast key, if_neg hkk]
        exact i2 key hkey
  obtain ⟨i1, i2, i3⟩ := inv ops
  refine ⟨?_, ?_⟩
  · intro key hkey
    refine ⟨(i2 key hkey).2, fun v => ?_⟩
    exact ((setCustom_spec ((validKey_iff key).mpr hkey) v _ i1).2.2.2 (i2 key hkey).1).1
  · intro key hkey
    refine ⟨noSuchNode_iff.mpr (i3 key hkey), fun v => ?_⟩
    rw [C65_invalid_key key v _ hkey]

example : NoSuchNode newDoc ["Metadata".toList, "Information".toList, "CustomAttributes".toList, "KeyValue".toList] := noSuchNode_iff.mpr rfl
example : Identifier "key_1".toList ∧ ¬ Reserved "key_1".toList := (validKey_iff _).mp (by decide)
example : lastSet "a".toList [("a".toList, .int32 1), ("b".toList, .boolean true), ("a".toList, .string "x".toList)] = some (.string "x".toList) := by decide

/-- **C65 (the value of an integer).** An integer set with `SetOrAddCustomKeyValuePair` is what `TryGetValueAsInt32` of the node
returns. -/
theorem C65_int_text (v : Int) (h : IsInt32 v) (n : Node) (hn : tryGetValue n = some (CustomValue.int32 v).text) : tryGetInt32 n = .value v := by
  apply readSigned_value.mpr
  exact ⟨_, hn, printInt_text v, h.1, h.2⟩

end Verif
