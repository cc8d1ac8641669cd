import Verif.Proof.JsonOptions

/-! # C87 - options given to the C interface as JSON texts -/

namespace Verif
open Verif.Czi hiding cstr
open Verif.CApi Verif.Spec Verif.JsonOpt

/-- **C87 (duplicate sub-blocks).** For every text, a writer made through the C interface allows duplicate sub-blocks if and only if the
text is an object in which "allow_duplicate_subblocks" is `true`. -/
theorem C87_duplicates (parse : Parser) (text : Option (List Char)) :
    createWriter parse text = true ↔ ∃ m, SaysObject parse text m ∧ HasValue m "allow_duplicate_subblocks" (.bool true) := by
  unfold createWriter tryWriterOptions
  cases ho : object parse text with
  | none =>
    simp only [Option.bind_none, Option.getD_none, Bool.false_eq_true, false_iff]
    rintro ⟨m, hm, _⟩
    rw [object_some.2 hm] at ho
    cases ho
  | some m =>
    have hm := object_some.1 ho
    simp only [Option.bind_some]
    constructor
    · intro h
      cases hb : asBool (member m "allow_duplicate_subblocks") with
      | none => rw [hb] at h; cases h
      | some b =>
        rw [hb] at h
        have : b = true := h
        subst this
        exact ⟨m, hm, member_some.1 (asBool_some.1 hb)⟩
    · rintro ⟨m', hm', h⟩
      have := object_some.2 hm'
      rw [ho] at this
      cases this
      rw [asBool_some.2 (member_some.2 h)]
      rfl

/-- **C87 (the information for the writer).** For every text that is an object: the reserved sizes are exactly those in the text (numbers with 32 bits), the bounds
of the m-index are those in the text if both are there and in order, the file GUID is the one in the text if there is one that is not
zero, and otherwise the generated one. -/
theorem C87_info {parse : Parser} {text : Option (List Char)} {m : List (List Char × Json)} (h : SaysObject parse text m) (fresh : Guid) :
    (∀ n : Nat, (writerInfo parse text fresh).reservedAttDir = some n ↔ HasValue m "reserved_size_attachments_directory" (.int n) ∧ n < 4294967296) ∧
    (∀ n : Nat, (writerInfo parse text fresh).reservedSubDir = some n ↔ HasValue m "reserved_size_subblock_directory" (.int n) ∧ n < 4294967296) ∧
    (∀ n : Nat, (writerInfo parse text fresh).reservedMetadata = some n ↔ HasValue m "reserved_size_metadata_segment" (.int n) ∧ n < 4294967296) ∧
    (∀ a b : Int, (writerInfo parse text fresh).mBounds = some (a, b) ↔
      HasValue m "minimum_m_index" (.int a) ∧ HasValue m "maximum_m_index" (.int b) ∧ Is32 a ∧ Is32 b ∧ a ≤ b) ∧
    (∀ (g : Guid) (s : List Char), HasValue m "file_guid" (.str s) → tryParseGuid (cstr s) = some g → g ≠ nullGuid → (writerInfo parse text fresh).guid = g) ∧
    ((∀ (s : List Char) (g : Guid), HasValue m "file_guid" (.str s) → tryParseGuid (cstr s) = some g → g = nullGuid) → (writerInfo parse text fresh).guid = fresh) ∧
    (writerInfo parse text fresh).dimBounds = none := by
  rw [writerInfo_object (object_some.2 h)]
  refine ⟨?_, ?_, ?_, ?_, ?_, ?_, rfl⟩
  · intro n
    show asUint (member m "reserved_size_attachments_directory") = some n ↔ _
    rw [asUint_some, member_some]
  · intro n
    show asUint (member m "reserved_size_subblock_directory") = some n ↔ _
    rw [asUint_some, member_some]
  · intro n
    show asUint (member m "reserved_size_metadata_segment") = some n ↔ _
    rw [asUint_some, member_some]
  · intro a b
    show ((optBounds m).bind fun b => if b.2 < b.1 then none else some b) = some (a, b) ↔ _
    unfold optBounds
    constructor
    · intro h
      cases ha : asInt (member m "minimum_m_index") with
      | none => rw [ha] at h; cases h
      | some a' =>
        cases hb : asInt (member m "maximum_m_index") with
        | none => rw [ha, hb] at h; cases h
        | some b' =>
          rw [ha, hb] at h
          simp only [Option.bind_some] at h
          by_cases hl : b' < a'
          · rw [if_pos hl] at h; cases h
          · rw [if_neg hl] at h
            cases h
            obtain ⟨h1, h2⟩ := asInt_some.1 ha
            obtain ⟨h3, h4⟩ := asInt_some.1 hb
            exact ⟨member_some.1 h1, member_some.1 h3, h2, h4, by omega⟩
    · rintro ⟨h1, h2, h3, h4, h5⟩
      rw [asInt_some.2 ⟨member_some.2 h1, h3⟩, asInt_some.2 ⟨member_some.2 h2, h4⟩]
      simp only [Option.bind_some]
      rw [if_neg (by omega)]
  · intro g s hs hg hn
    show (match optGuid m with | some g => if g = nullGuid then fresh else g | none => fresh) = g
    have : optGuid m = some g := by
      unfold optGuid
      rw [asStr_some.2 ⟨s, member_some.2 hs, rfl⟩]
      exact hg
    rw [this]
    dsimp only
    rw [if_neg hn]
  · intro hn
    show (match optGuid m with | some g => if g = nullGuid then fresh else g | none => fresh) = fresh
    cases hg : optGuid m with
    | none => rfl
    | some g =>
      dsimp only
      unfold optGuid at hg
      cases hs : asStr (member m "file_guid") with
      | none => rw [hs] at hg; cases hg
      | some t =>
        rw [hs] at hg
        obtain ⟨s, h1, rfl⟩ := asStr_some.1 hs
        rw [if_pos (hn s g (member_some.1 h1) hg)]

/-- **C87 (options for an accessor).** The colour and the switches are those given, and masks are used if and only if the additional text is an object in which
"mask_aware" is `true`. -/
theorem C87_accessor {φ : Type} (parse : Parser) (blank : φ) (o : AccessorInterop φ) :
    (accessorOptions parse blank (some o)).red = o.red ∧ (accessorOptions parse blank (some o)).green = o.green ∧
    (accessorOptions parse blank (some o)).blue = o.blue ∧ (accessorOptions parse blank (some o)).sortByM = o.sortByM ∧
    (accessorOptions parse blank (some o)).useVisibilityCheck = o.useVisibilityCheck ∧
    ((accessorOptions parse blank (some o)).maskAware = true ↔ ∃ m, SaysObject parse o.additional m ∧ HasValue m "mask_aware" (.bool true)) := by
  refine ⟨rfl, rfl, rfl, rfl, rfl, ?_⟩
  show ((object parse o.additional).bind fun m => asBool (member m "mask_aware")).getD false = true ↔ _
  cases ho : object parse o.additional with
  | none =>
    simp only [Option.bind_none, Option.getD_none, Bool.false_eq_true, false_iff]
    rintro ⟨m, hm, _⟩
    rw [object_some.2 hm] at ho
    cases ho
  | some m =>
    simp only [Option.bind_some]
    constructor
    · intro h
      cases hb : asBool (member m "mask_aware") with
      | none => rw [hb] at h; cases h
      | some b =>
        rw [hb] at h
        have : b = true := h
        subst this
        exact ⟨m, object_some.1 ho, member_some.1 (asBool_some.1 hb)⟩
    · rintro ⟨m', hm', h⟩
      have := object_some.2 hm'
      rw [ho] at this
      cases this
      rw [asBool_some.2 (member_some.2 h)]
      rfl

/-- **C87 (no options for an accessor).** Without options, the background is the blank one, tiles are sorted by their M-index, and neither the visibility nor masks are
taken into account. -/
theorem C87_accessor_default {φ : Type} (parse : Parser) (blank : φ) :
    (accessorOptions parse blank none).red = blank ∧ (accessorOptions parse blank none).green = blank ∧ (accessorOptions parse blank none).blue = blank ∧
    (accessorOptions parse blank none).sortByM = true ∧ (accessorOptions parse blank none).useVisibilityCheck = false ∧
    (accessorOptions parse blank none).maskAware = false :=
  ⟨rfl, rfl, rfl, rfl, rfl, rfl⟩

/-- **C87 (properties of a stream).** A text with properties is refused unless it is an object and all its members are properties that the library knows, with
values of their types. Otherwise the stream is created with exactly these properties (for a name that occurs repeatedly, the first value). Names and
strings count up to their first zero character - see below. -/
theorem C87_properties (parse : Parser) (text : List Char) (ht : text ≠ []) :
    ((∃ bag, createStreamBag parse propTable (some text) = some bag) ↔
      ∃ m, SaysObject parse (some text) m ∧ ∀ e ∈ m, ∃ p ∈ propTable, ∃ v, cstr e.1 = p.name.toList ∧ PropIs p.type e.2 v) ∧
    (∀ m bag, SaysObject parse (some text) m → createStreamBag parse propTable (some text) = some bag →
      (∀ p ∈ propTable, ∀ v, mapFind bag p.id = some v ↔ FirstProp m p v) ∧ ∀ e ∈ bag, ∃ p ∈ propTable, p.id = e.1) := by
  have hc : createStreamBag parse propTable (some text) = propertyBag parse propTable text := by
    show (if text = [] then some [] else propertyBag parse propTable text) = _
    rw [if_neg ht]
  rw [hc]
  unfold propertyBag
  constructor
  · constructor
    · rintro ⟨bag, h⟩
      split at h
      · rename_i m hm
        exact ⟨m, ⟨text, rfl, hm⟩, (bag_iff propTable_good m []).1 ⟨bag, h⟩⟩
      · cases h
    · rintro ⟨m, ⟨t, h1, h2⟩, h3⟩
      cases h1
      rw [h2]
      exact (bag_iff propTable_good m []).2 h3
  · rintro m bag ⟨t, h1, h2⟩ h
    cases h1
    rw [h2] at h
    dsimp only at h
    refine ⟨?_, bag_ids propTable_good m [] bag h (by simp)⟩
    intro p hp v
    rw [bag_lookup propTable_good m [] bag (by unfold KeysSorted; exact List.Pairwise.nil) h p hp v]
    constructor
    · rintro (h | h)
      · cases h
      · exact h.2
    · intro h
      exact Or.inr ⟨rfl, h⟩

/-- **C87 (no properties).** Without a text, or with an empty one, there are no properties. -/
theorem C87_no_properties (parse : Parser) (table : List PropInfo) : createStreamBag parse table none = some [] ∧ createStreamBag parse table (some []) = some [] := ⟨rfl, rfl⟩

/-- **C87 (options that are not understood are ignored, violated).** A text for the writer that is not JSON or not an object - every such text - is not refused: the
writer is made as if there were no text. -/
theorem C87_invalid_ignored_violated (parse : Parser) (text : List Char) (h : ∀ m, parse text ≠ some (.obj m)) (fresh : Guid) :
    createWriter parse (some text) = createWriter parse none ∧ writerInfo parse (some text) fresh = writerInfo parse none fresh := by
  have ho : object parse (some text) = none := by
    cases hx : object parse (some text) with
    | none => rfl
    | some m =>
      obtain ⟨t, h1, h2⟩ := object_some.1 hx
      cases h1
      exact absurd h2 (h m)
  constructor
  · unfold createWriter tryWriterOptions
    rw [ho]
    rfl
  · rw [writerInfo_none ho, writerInfo_none rfl]

/-- **C87 (one bound alone is ignored, violated).** If only one of the bounds of the m-index is given, then there are no bounds. -/
theorem C87_one_bound_violated {parse : Parser} {text : Option (List Char)} {m : List (List Char × Json)} (h : SaysObject parse text m) (fresh : Guid)
    (hm : (∀ v, ¬ HasValue m "minimum_m_index" v) ∨ ∀ v, ¬ HasValue m "maximum_m_index" v) : (writerInfo parse text fresh).mBounds = none := by
  cases hb : (writerInfo parse text fresh).mBounds with
  | none => rfl
  | some b =>
    obtain ⟨h1, h2, _⟩ := ((C87_info h fresh).2.2.2.1 b.1 b.2).1 hb
    rcases hm with hm | hm
    · exact absurd h1 (hm _)
    · exact absurd h2 (hm _)

/-- **C87 (a GUID that is none is ignored, violated).** If the string for the file GUID cannot be read as a GUID, the call is not refused: the file gets a new GUID. -/
theorem C87_bad_guid_violated {parse : Parser} {text : Option (List Char)} {m : List (List Char × Json)} (h : SaysObject parse text m) (fresh : Guid)
    {s : List Char} (hs : HasValue m "file_guid" (.str s)) (hg : tryParseGuid (cstr s) = none) : (writerInfo parse text fresh).guid = fresh := by
  refine (C87_info h fresh).2.2.2.2.2.1 ?_
  intro s' g h1 h2
  have e : some (Json.str s) = some (Json.str s') := by rw [← member_some.2 hs, ← member_some.2 h1]
  cases e
  rw [hg] at h2
  cases h2

/-- **C87 (zero characters, violated).** What follows a zero character in a name or in a string is dropped: a member with the name of a property, a zero and anything else
is taken for the property, and the value of a string property is cut. -/
theorem C87_zero_violated (parse : Parser) (text a b c d : List Char) (ht : text ≠ []) (p : PropInfo) (hp : p ∈ propTable) (hty : p.type = .string)
    (hn : p.name.toList = a) (ha : NoZero a) (hc : NoZero c)
    (h : parse text = some (.obj [(a ++ Char.ofNat 0 :: b, .str (c ++ Char.ofNat 0 :: d))])) :
    ∃ bag, createStreamBag parse propTable (some text) = some bag ∧ mapFind bag p.id = some (.string c) := by
  have cut : ∀ x y, NoZero x → cstr (x ++ Char.ofNat 0 :: y) = x := by
    intro x y hx
    unfold cstr
    induction x with
    | nil => rfl
    | cons z x ih =>
      have hz := hx z (by simp)
      rw [List.cons_append, List.takeWhile_cons, if_pos (by simpa using hz), ih fun w hw => hx w (by simp [hw])]
  obtain ⟨h1, h2⟩ := C87_properties parse text ht
  have hv : PropIs p.type (.str (c ++ Char.ofNat 0 :: d)) (.string c) := by
    rw [hty]
    show c = cstr _
    rw [cut c d hc]
  have hname : cstr (a ++ Char.ofNat 0 :: b) = p.name.toList := by rw [cut a b ha, hn]
  obtain ⟨bag, hb⟩ := h1.2 ⟨_, ⟨text, rfl, h⟩, by
    intro e he
    rw [List.mem_singleton.1 he]
    exact ⟨p, hp, _, hname, hv⟩⟩
  exact ⟨bag, hb, ((h2 _ bag ⟨text, rfl, h⟩ hb).1 p hp _).2 ⟨[], _, _, [], rfl, hname, by simp, hv⟩⟩

/-! ### Examples -/

private def sampleObj : List (List Char × Json) :=
  [("reserved_size_metadata_segment".toList, .int 50000), ("minimum_m_index".toList, .int 0), ("maximum_m_index".toList, .int 100),
   ("allow_duplicate_subblocks".toList, .bool true), ("mask_aware".toList, .bool true)]

private def sampleParse : Parser := fun t => if t = ['x'] then some (.obj sampleObj) else if t = ['p'] then some (.obj [("CurlHttp_Timeout".toList, .int 5)]) else none

/-- A case for `C87_info`, `C87_duplicates`, `C87_accessor`, `C87_properties`, `C87_invalid_ignored_violated`. -/
example (fresh : Guid) : createWriter sampleParse (some ['x']) = true ∧ (writerInfo sampleParse (some ['x']) fresh).mBounds = some (0, 100) ∧
    (writerInfo sampleParse (some ['x']) fresh).reservedMetadata = some 50000 ∧ (writerInfo sampleParse (some ['x']) fresh).guid = fresh ∧
    (accessorOptions sampleParse (0 : Nat) (some ⟨1, 2, 3, true, true, some ['x']⟩)).maskAware = true ∧
    createStreamBag sampleParse propTable (some ['p']) = some [(102, .int32 5)] ∧ createStreamBag sampleParse propTable (some ['x']) = none ∧
    (∀ m, sampleParse ['y'] ≠ some (.obj m)) := by
  refine ⟨by decide +kernel, rfl, rfl, rfl, by decide +kernel, by decide +kernel, by decide +kernel, ?_⟩
  intro m h
  cases h

/-- A case for `C87_one_bound_violated` and `C87_bad_guid_violated`. -/
example (fresh : Guid) : ∃ (parse : Parser) (m : List (List Char × Json)), SaysObject parse (some []) m ∧ (∀ v, ¬ HasValue m "maximum_m_index" v) ∧
    HasValue m "minimum_m_index" (.int 7) ∧ HasValue m "file_guid" (.str ['?']) ∧ tryParseGuid (cstr ['?']) = none ∧
    (writerInfo parse (some []) fresh).mBounds = none ∧ (writerInfo parse (some []) fresh).guid = fresh := by
  have hm : SaysObject (fun _ => some (.obj [("minimum_m_index".toList, .int 7), ("file_guid".toList, .str ['?'])])) (some [])
    [("minimum_m_index".toList, .int 7), ("file_guid".toList, .str ['?'])] := ⟨[], rfl, rfl⟩
  have h1 : ∀ v, ¬ HasValue [("minimum_m_index".toList, .int 7), ("file_guid".toList, .str ['?'])] "maximum_m_index" v := by
    intro v hv
    have := member_some.2 hv
    have e : member [("minimum_m_index".toList, .int 7), ("file_guid".toList, .str ['?'])] "maximum_m_index" = none := by decide +kernel
    rw [e] at this
    cases this
  have h2 : HasValue [("minimum_m_index".toList, .int 7), ("file_guid".toList, .str ['?'])] "file_guid" (.str ['?']) := by
    apply member_some.1
    rfl
  have h3 : tryParseGuid (cstr ['?']) = none := by decide +kernel
  exact ⟨_, _, hm, h1, member_some.1 rfl, h2, h3, C87_one_bound_violated hm fresh (Or.inr h1), C87_bad_guid_violated hm fresh h2 h3⟩

/-- A case for `C87_zero_violated`. -/
example : ∃ (parse : Parser) (bag : List (Int × PropValue)), parse ['x'] = some (.obj [("CurlHttp_Proxy".toList ++ Char.ofNat 0 :: ['!'], .str (['a'] ++ Char.ofNat 0 :: ['b']))]) ∧
    createStreamBag parse propTable (some ['x']) = some bag ∧ mapFind bag 100 = some (.string ['a']) := by
  obtain ⟨bag, h1, h2⟩ := C87_zero_violated (fun _ => some (.obj [("CurlHttp_Proxy".toList ++ Char.ofNat 0 :: ['!'], .str (['a'] ++ Char.ofNat 0 :: ['b']))])) ['x']
    "CurlHttp_Proxy".toList ['!'] ['a'] ['b'] (by decide) ⟨"CurlHttp_Proxy", 100, .string⟩ (by decide) rfl rfl (by unfold NoZero; decide) (by unfold NoZero; decide) rfl
  exact ⟨_, bag, rfl, h1, h2⟩

end Verif
