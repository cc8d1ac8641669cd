import Verif.Proof.Lookup
import Verif.Props.SubBlock
import Verif.Props.ReaderWriter

/-!
# C81: an index denotes the same sub-block or attachment in every call
-/

namespace Verif
open Spec Czi

/-- The attachments a reader knows, with their indices. -/
private theorem reader_names {al : Alloc} {s : Stream} {o : OpenOptions} {doc : Doc} (h : openDoc al s o = .ok doc) :
    ∀ e ∈ doc.attachments, (0 : UInt8) ∈ e.name.toList := by
  unfold openDoc openDocWith at h
  obtain ⟨hd, _, h⟩ := Except.bind_eq_ok h
  obtain ⟨⟨es, x⟩, _, h⟩ := Except.bind_eq_ok h
  dsimp only at h
  split at h
  · obtain ⟨⟨as, y⟩, h1, h⟩ := Except.bind_eq_ok h
    cases h
    intro e he
    obtain ⟨i, hi, rfl⟩ := List.mem_iff_getElem.1 he
    exact attachment_names_terminated _ _ _ _ _ h1 ((i : Int), as[i]) ((indexed_mem _ _ _).2 ⟨by omega, by simp⟩)
  · cases h
    intro e he
    cases he

private theorem readEntry_info {al : Alloc} {s : Stream} {o : OpenOptions} {e : Entry} {b : SubBlock} (ho : o.headerPrecedence = false)
    (h : readEntry al s o e = .ok b) : b.info = infoFromEntry e := by
  have fin : ∀ d, readEntry.finish o e d = .ok b → b.info = infoFromEntry e := by
    intro d hd
    unfold readEntry.finish at hd
    rw [ho] at hd
    rw [if_neg (by simp)] at hd
    cases hd
    rfl
  unfold readEntry at h
  obtain ⟨d, _, h⟩ := Except.bind_eq_ok h
  split at h
  · split at h
    · cases h
    · cases h
    · exact fin _ h
  · exact fin _ h

open Classical in
/-- **C81 (attachments of a reader).** For every document that can be opened there is one list of indices and descriptions, numbered from 0, one for each attachment, such that:
the count is its length; `TryGetAttachmentInfo` returns exactly these descriptions and false from the count on; both enumerations present exactly these (the
filtered one, if no type has eight characters, those of the type and name asked for), in this order, until the callback returns false; and whatever
`ReadAttachment` returns comes with the description of that index. Each description has the GUID, type and name of the entry of the directory. For negative
indices see `C81_negative_index_violated`. -/
theorem C81_reader_attachments_partial (al : Alloc) (s : Stream) (o : OpenOptions) (doc : Doc) (h : openDoc al s o = .ok doc) :
    let r : Reader := ⟨true, doc⟩
    ∃ items : List (Int × RawAttInfo), items.length = doc.attachments.length ∧
      (∀ (n : Nat) (hn : n < doc.attachments.length), ∃ i, items[n]? = some ((n : Int), i) ∧ DescribesAtt i doc.attachments[n]) ∧
      r.attachmentCount = .ok items.length ∧
      (∀ k i, 0 ≤ k → (r.attachmentInfo k = .ok (some i) ↔ (k, i) ∈ items)) ∧
      (∀ k, (items.length : Int) ≤ k → r.attachmentInfo k = .ok none ∧ r.readAttachment al s k = .ok none) ∧
      (∀ (σ : Type) (f : σ → Int → RawAttInfo → Bool × σ) (st : σ),
        r.enumerateAttachments f st = .ok (presentItems f items st) ∧ r.attachmentSubset none none f st = .ok (presentItems f items st)) ∧
      (∀ (σ : Type) (f : σ → Int → RawAttInfo → Bool × σ) (st : σ) (type name : Option (List UInt8)), (∀ t, type = some t → CString t) →
        (∀ n, name = some n → CString n) → (∀ e ∈ doc.attachments, (0 : UInt8) ∈ e.contentFileType.toList) →
        r.attachmentSubset type name f st =
          .ok (presentItems f (items.filter fun p => HasTypeAndName type name p.2) st)) ∧
      (∀ k i d, r.readAttachment al s k = .ok (some (i, d)) → (k, i) ∈ items) := by
  intro r
  have hz := reader_names h
  have hzi : ∀ p ∈ indexed doc.attachments, (0 : UInt8) ∈ p.2.name.toList := by
    intro p hp
    obtain ⟨k, e⟩ := p
    obtain ⟨_, he⟩ := (indexed_mem _ _ _).1 hp
    exact hz e (List.mem_of_getElem? he)
  have hmem : ∀ (k : Int) i, (k, i) ∈ (indexed doc.attachments).map (fun p => (p.1, p.2.told 0)) ↔ 0 ≤ k ∧ ∃ e, doc.attachments[k.toNat]? = some e ∧ i = e.told 0 := by
    intro k i
    rw [List.mem_map]
    constructor
    · intro ⟨⟨k', e⟩, h1, h2⟩
      obtain ⟨h3, h4⟩ := (indexed_mem _ _ _).1 h1
      injection h2 with h5 h6
      dsimp only at h5 h6
      subst h5 h6
      exact ⟨h3, e, h4, rfl⟩
    · intro ⟨h1, e, h2, h3⟩
      exact ⟨(k, e), (indexed_mem _ _ _).2 ⟨h1, h2⟩, by rw [h3]⟩
  refine ⟨(indexed doc.attachments).map (fun p => (p.1, p.2.told 0)), by simp [indexed_length], ?_, ?_, ?_, ?_, ?_, ?_, ?_⟩
  · intro n hn
    refine ⟨doc.attachments[n].told 0, ?_, told_describes _⟩
    rw [List.getElem?_map, indexed_getElem?, List.getElem?_eq_getElem hn]
    rfl
  · simp [Reader.attachmentCount, Reader.guard, r, indexed_length]
  · intro k i hk
    rw [hmem]
    show (Reader.guard r _) = _ ↔ _
    unfold Reader.guard
    rw [if_neg (by simp [r]), vectorTryGet_nonneg _ hk]
    show Outcome.bind (Outcome.ok doc.attachments[k.toNat]?) _ = _ ↔ _
    cases he : doc.attachments[k.toNat]? with
    | none => simp [Outcome.bind]
    | some e =>
      simp only [Outcome.bind, rawInfo_eq e 0 (hz e (List.mem_of_getElem? he)), Outcome.ok.injEq, Option.some.injEq, exists_eq_left', hk, true_and]
      exact eq_comm
  · intro k hk
    rw [List.length_map, indexed_length] at hk
    have hg : vectorTryGet r.doc.attachments k = .ok none := by
      rw [vectorTryGet_nonneg _ (by omega), List.getElem?_eq_none]
      show doc.attachments.length ≤ _
      omega
    constructor
    · show Reader.guard r _ = _
      unfold Reader.guard
      rw [if_neg (by simp [r]), hg]
      rfl
    · show Reader.guard r _ = _
      unfold Reader.guard
      rw [if_neg (by simp [r]), hg]
      rfl
  · intro σ f st
    constructor
    · show Reader.guard r _ = _
      unfold Reader.guard
      rw [if_neg (by simp [r])]
      exact enumAtts_eq f (fun _ => 0) _ hzi st
    · show Reader.guard r _ = _
      unfold Reader.guard
      rw [if_neg (by simp [r])]
      exact enumAttSubset_all f _ hzi st
  · intro σ f st type name ht hn hc
    show Reader.guard r _ = _
    unfold Reader.guard
    rw [if_neg (by simp [r])]
    refine enumAttSubset_eq f _ type name ht hn ?_ hzi st
    intro p hp
    obtain ⟨k, e⟩ := p
    obtain ⟨_, he⟩ := (indexed_mem _ _ _).1 hp
    exact hc e (List.mem_of_getElem? he)
  · intro k i d hr
    rw [hmem]
    unfold Reader.readAttachment Reader.guard at hr
    rw [if_neg (by simp [r])] at hr
    by_cases hk : 0 ≤ k
    · rw [vectorTryGet_nonneg _ hk] at hr
      refine ⟨hk, ?_⟩
      have hr : Outcome.bind (Outcome.ok doc.attachments[k.toNat]?) _ = _ := hr
      cases he : doc.attachments[k.toNat]? with
      | none => rw [he] at hr; cases hr
      | some e =>
        rw [he] at hr
        simp only [Outcome.bind] at hr
        split at hr
        · cases hr
        · cases hr
        · rw [rawInfo_eq e 0 (hz e (List.mem_of_getElem? he))] at hr
          simp only [Outcome.ok.injEq, Option.some.injEq, Prod.mk.injEq] at hr
          exact ⟨e, rfl, hr.1.symm⟩
    · rw [vectorTryGet_neg _ (by omega)] at hr
      cases hr

open Classical in
/-- **C81 (sub-blocks of a reader).** For every document that can be opened there is one list of indices and descriptions, numbered from 0, one for each sub-block (each the description in the
directory), such that: `TryGetSubBlockInfo` returns exactly these, and false from their number on; `EnumerateSubBlocks` presents exactly these, in this order,
until the callback returns false; `EnumerateSubBlocksEx` presents the same with the positions in the file, `EnumSubset` those in the given plane, region
and layer; and (unless the option asks for the information of the sub-block header) a sub-block that `ReadSubBlock` returns comes with the description of its index. -/
theorem C81_reader_subblocks_partial (al : Alloc) (s : Stream) (o : OpenOptions) (doc : Doc) (h : openDoc al s o = .ok doc) :
    let r : Reader := ⟨true, doc⟩
    ∃ items : List (Int × Entry), items.length = doc.entries.length ∧ (∀ (n : Nat) (hn : n < doc.entries.length), items[n]? = some ((n : Int), doc.entries[n])) ∧
      (∀ k i, 0 ≤ k → (r.subBlockInfo k = .ok (some i) ↔ ∃ e, (k, e) ∈ items ∧ i = infoFromEntry e)) ∧
      (∀ k, (items.length : Int) ≤ k → r.subBlockInfo k = .ok none ∧ r.readSubBlock al s k = .ok none) ∧
      (∀ (σ : Type) (f : σ → Int → SbInfo → Bool × σ) (st : σ),
        r.enumerateSubBlocks f st = .ok (presentItems f (items.map fun p => (p.1, infoFromEntry p.2)) st)) ∧
      (∀ (σ : Type) (f : σ → Int → SbInfo × Nat → Bool × σ) (st : σ),
        r.enumerateSubBlocksEx f st = .ok (presentItems f (items.map fun p => (p.1, infoFromEntry p.2, p.2.filePosition)) st)) ∧
      (∀ (σ : Type) (f : σ → Int → SbInfo → Bool × σ) (st : σ) (plane : Option Coord) (roi : Option IntRect) (l0 : Bool),
        r.subBlockSubset plane roi l0 f st =
          .ok (presentItems f ((items.filter fun p => Matches plane roi l0 p.2).map fun p => (p.1, infoFromEntry p.2)) st)) ∧
      (o.headerPrecedence = false → ∀ k b, r.readSubBlock al s k = .ok (some b) → ∃ e, (k, e) ∈ items ∧ b.info = infoFromEntry e) := by
  intro r
  have hmem := indexed_mem doc.entries
  refine ⟨indexed doc.entries, indexed_length _, ?_, ?_, ?_, ?_, ?_, ?_, ?_⟩
  · intro n hn
    rw [indexed_getElem?, List.getElem?_eq_getElem hn]
    rfl
  · intro k i hk
    unfold Reader.subBlockInfo
    rw [vectorTryGet_nonneg _ hk]
    show Outcome.bind (Outcome.ok doc.entries[k.toNat]?) _ = _ ↔ _
    cases he : doc.entries[k.toNat]? with
    | none => simp [Outcome.bind, hmem, he]
    | some e => simp [Outcome.bind, hmem, he, hk, eq_comm]
  · intro k hk
    rw [indexed_length] at hk
    have hg : vectorTryGet r.doc.entries k = .ok none := by
      rw [vectorTryGet_nonneg _ (by omega), List.getElem?_eq_none]
      show doc.entries.length ≤ _
      omega
    constructor
    · unfold Reader.subBlockInfo
      rw [hg]
      rfl
    · show Reader.guard r _ = _
      unfold Reader.guard
      rw [if_neg (by simp [r]), hg]
      rfl
  · intro σ f st
    show Reader.guard r _ = _
    unfold Reader.guard
    rw [if_neg (by simp [r]), enumerate_map]
  · intro σ f st
    show Reader.guard r _ = _
    unfold Reader.guard
    rw [if_neg (by simp [r])]
    exact congrArg Outcome.ok (enumerate_map (fun e => (infoFromEntry e, e.filePosition)) f _ st)
  · intro σ f st plane roi l0
    show Reader.guard r _ = _
    unfold Reader.guard
    rw [if_neg (by simp [r]), C19_subset_exact, presentItems_map]
  · intro ho k b hb
    unfold Reader.readSubBlock Reader.guard at hb
    rw [if_neg (by simp [r])] at hb
    have hdo : doc.options = o := by
      unfold openDoc openDocWith at h
      obtain ⟨hd, _, h⟩ := Except.bind_eq_ok h
      obtain ⟨⟨es, x⟩, _, h⟩ := Except.bind_eq_ok h
      dsimp only at h
      split at h
      · obtain ⟨⟨as, y⟩, h1, h⟩ := Except.bind_eq_ok h
        cases h; rfl
      · cases h; rfl
    by_cases hk : 0 ≤ k
    · rw [vectorTryGet_nonneg _ hk] at hb
      have hb : Outcome.bind (Outcome.ok doc.entries[k.toNat]?) _ = _ := hb
      cases he : doc.entries[k.toNat]? with
      | none => rw [he] at hb; cases hb
      | some e =>
        rw [he] at hb
        simp only [Outcome.bind] at hb
        split at hb
        · cases hb
        · cases hb
        · rename_i b' hb'
          simp only [Outcome.ok.injEq, Option.some.injEq] at hb
          subst hb
          refine ⟨e, (hmem _ _).2 ⟨hk, he⟩, ?_⟩
          have hb' : readEntry al s doc.options e = .ok b' := hb'
          rw [hdo] at hb'
          exact readEntry_info ho hb'
    · rw [vectorTryGet_neg _ (by omega)] at hb
      cases hb

/-- **C81 violated for negative indices.** "If the specified index is not valid, then false is returned" (an empty pointer, for the functions that read): a reader throws an exception for every negative index. -/
theorem C81_negative_index_violated (r : Reader) (al : Alloc) (s : Stream) (k : Int) (hk : k < 0) :
    r.attachmentInfo k = .throws ∧ r.readAttachment al s k = .throws ∧ r.subBlockInfo k = .throws ∧ r.readSubBlock al s k = .throws := by
  refine ⟨?_, ?_, ?_, ?_⟩
  · unfold Reader.attachmentInfo Reader.guard
    rw [vectorTryGet_neg _ hk]
    split <;> rfl
  · unfold Reader.readAttachment Reader.guard
    rw [vectorTryGet_neg _ hk]
    split <;> rfl
  · unfold Reader.subBlockInfo
    rw [vectorTryGet_neg _ hk]
    rfl
  · unfold Reader.readSubBlock Reader.guard
    rw [vectorTryGet_neg _ hk]
    split <;> rfl

/-- **C81 (after `Close`).** On a reader that was closed these calls fail, whatever the document and the arguments. -/
theorem C81_closed_partial (r r' : Reader) (h : r.close = .ok r') (al : Alloc) (s : Stream) (k : Int) :
    r.operational = true ∧ r'.attachmentCount = .throws ∧ r'.attachmentInfo k = .throws ∧ r'.readAttachment al s k = .throws ∧ r'.readSubBlock al s k = .throws ∧
    r'.close = .throws ∧
    (∀ (σ : Type) (f : σ → Int → RawAttInfo → Bool × σ) (st : σ), r'.enumerateAttachments f st = .throws) ∧
    (∀ (σ : Type) (f : σ → Int → RawAttInfo → Bool × σ) (st : σ) type name, r'.attachmentSubset type name f st = .throws) ∧
    (∀ (σ : Type) (f : σ → Int → SbInfo → Bool × σ) (st : σ), r'.enumerateSubBlocks f st = .throws) ∧
    (∀ (σ : Type) (f : σ → Int → SbInfo × Nat → Bool × σ) (st : σ), r'.enumerateSubBlocksEx f st = .throws) ∧
    (∀ (σ : Type) (f : σ → Int → SbInfo → Bool × σ) (st : σ) plane roi l0, r'.subBlockSubset plane roi l0 f st = .throws) := by
  unfold Reader.close Reader.guard at h
  split at h
  · cases h
  · rename_i ho
    injection h with h
    subst h
    exact ⟨by simpa using ho, rfl, rfl, rfl, rfl, rfl, fun _ _ _ => rfl, fun _ _ _ _ _ => rfl, fun _ _ _ => rfl, fun _ _ _ => rfl, fun _ _ _ _ _ _ => rfl⟩

/-- **C81 violated after `Close`.** "Further calls to other methods will fail": `TryGetSubBlockInfo` and `TransformPoint` go on answering as before. -/
theorem C81_closed_violated (r r' : Reader) (h : r.close = .ok r') (k : Int) (dflt : Frame) (ox oy : Int) (src : Frame) (px py : Int) (dst : Frame) :
    r'.subBlockInfo k = r.subBlockInfo k ∧ r'.transform dflt ox oy src px py dst = r.transform dflt ox oy src px py dst := by
  unfold Reader.close Reader.guard at h
  split at h
  · cases h
  · injection h with h
    subst h
    exact ⟨rfl, rfl⟩


open Classical in
/-- **C81 (attachments of a reader-writer).** After any calls on a reader-writer (including ones that threw), if no attachment was given with a name that fills its whole field: there is one list of keys and
descriptions with ascending keys such that the count is its length; `TryGetAttachmentInfo` returns exactly these descriptions, and false for every other
integer; the filtered enumeration presents exactly those with the type and name asked for; what `ReadAttachment` returns comes with the description of its key;
each description has the GUID, type and name of the entry of the directory. `EnumerateAttachments` presents the same keys with the same GUIDs and names, whatever the
memory held before, and the same types unless they have eight characters (`C81_eight_character_type_violated`). -/
theorem C81_editor_attachments_partial (al : Alloc) (d : Disk) (info : RWInfo) (s0 : RW) (h : rwCreate al ⟨RWState.init, d⟩ info = (s0, none)) (ops : List EditOp)
    (hn : ∀ op ∈ ops, NameEnds op) :
    let s := rwCalls s0 ops
    ∃ items : List (Int × RawAttInfo), (items.map Prod.fst).Pairwise (· < ·) ∧ s.attachmentCount = .ok items.length ∧
      (∀ k i, s.attachmentInfo k = .ok (some i) ↔ (k, i) ∈ items) ∧
      (∀ k, k ∉ items.map Prod.fst → s.attachmentInfo k = .ok none ∧ s.readAttachmentInfo al k = .ok none) ∧
      (∀ k i, (k, i) ∈ items → ∃ e, s.w.att.tryGet k = some e ∧ DescribesAtt i e) ∧
      (∀ (σ : Type) (f : σ → Int → RawAttInfo → Bool × σ) (st : σ), s.attachmentSubset none none f st = .ok (presentItems f items st)) ∧
      (∀ (σ : Type) (f : σ → Int → RawAttInfo → Bool × σ) (st : σ) (type name : Option (List UInt8)), (∀ t, type = some t → CString t) →
        (∀ n, name = some n → CString n) → (∀ k i t, (k, i) ∈ items → TextAt i.fileType t → t.length < 8) →
        s.attachmentSubset type name f st = .ok (presentItems f (items.filter fun p => HasTypeAndName type name p.2) st)) ∧
      (∀ k i b, s.readAttachmentInfo al k = .ok (some (i, b)) → (k, i) ∈ items) ∧
      (∀ junk : Int → UInt8, ∃ items' : List (Int × RawAttInfo), items'.length = items.length ∧
        (∀ (σ : Type) (f : σ → Int → RawAttInfo → Bool × σ) (st : σ), s.enumerateAttachments junk f st = .ok (presentItems f items' st)) ∧
        ∀ (n : Nat) (k : Int) (i : RawAttInfo), items[n]? = some (k, i) → ∃ i' : RawAttInfo, items'[n]? = some (k, i') ∧ i'.guid = i.guid ∧ i'.name = i.name ∧
          ∀ t, TextAt i.fileType t → t.length < 8 → TextAt i'.fileType t) := by
  intro s
  have hi : EditInv True true s.w := editInv_calls ops s0 (editInv_create al d info s0 h) (fun _ => hn)
  clear_value s
  have hz := hi.names trivial
  have hs := hi.attOk.sorted
  have hop := hi.flag
  have hg : ∀ {α : Type} (x : Outcome α), s.guard x = x := by
    intro α x
    unfold RW.guard
    rw [if_neg (by rw [hop]; simp)]
  have hmem : ∀ (k : Int) i, (k, i) ∈ s.w.att.atts.map (fun p => (p.1, p.2.told 0)) ↔ ∃ e, s.w.att.tryGet k = some e ∧ i = e.told 0 := by
    intro k i
    rw [List.mem_map]
    constructor
    · intro ⟨⟨k', e⟩, h1, h2⟩
      injection h2 with h5 h6
      dsimp only at h5 h6
      subst h5 h6
      exact ⟨e, mapFind_of_mem hs h1, rfl⟩
    · intro ⟨e, h2, h3⟩
      exact ⟨(k, e), mem_of_mapFind h2, by rw [h3]⟩
  have hzk : ∀ {k e}, s.w.att.tryGet k = some e → (0 : UInt8) ∈ e.name.toList := fun h1 => hz _ (mem_of_mapFind h1)
  have hfile : ∀ e : AttEntry, ((e.contentFileType.toList ++ e.name.toList).take 9).set 8 0 = e.contentFileType.toList ++ [0] := by
    intro e
    apply List.ext_getElem
    · simp
    · intro i h1 h2
      simp only [List.length_append, Vector.length_toList, List.length_singleton] at h2
      rw [List.getElem_set]
      split
      · subst i
        rw [List.getElem_append_right (by simp)]
        simp
      · rw [List.getElem_take, List.getElem_append_left (by simp; omega), List.getElem_append_left (by simp; omega)]
  have htype : ∀ e : AttEntry, (∀ t, TextAt (e.told 0).fileType t → t.length < 8) → (0 : UInt8) ∈ e.contentFileType.toList := by
    intro e he
    refine Classical.byContradiction fun hc => ?_
    have := he _ (textAt_cstr e.contentFileType.toList 0 (Or.inr rfl))
    rw [cstr_full _ hc] at this
    simp at this
  refine ⟨s.w.att.atts.map (fun p => (p.1, p.2.told 0)), ?_, ?_, ?_, ?_, ?_, ?_, ?_, ?_, ?_⟩
  · rw [List.map_map]
    exact keys_sorted hs
  · unfold RW.attachmentCount
    rw [hg, List.length_map]
  · intro k i
    rw [hmem]
    unfold RW.attachmentInfo
    rw [hg]
    cases he : s.w.att.tryGet k with
    | none => simp
    | some e =>
      dsimp only
      unfold stdString
      rw [if_pos (hzk he), hfile]
      simp only [Outcome.bind, Outcome.ok.injEq, Option.some.injEq, exists_eq_left']
      exact eq_comm
  · intro k hk
    have : s.w.att.tryGet k = none := by
      cases he : s.w.att.tryGet k with
      | none => rfl
      | some e =>
        refine absurd ?_ hk
        rw [List.map_map]
        exact List.mem_map.2 ⟨(k, e), mem_of_mapFind he, rfl⟩
    unfold RW.attachmentInfo RW.readAttachmentInfo
    rw [hg, hg, this]
    exact ⟨rfl, rfl⟩
  · intro k i hk
    obtain ⟨e, h1, h2⟩ := (hmem k i).1 hk
    exact ⟨e, h1, h2 ▸ told_describes e⟩
  · intro σ f st
    unfold RW.attachmentSubset
    rw [hg]
    exact enumAttSubset_all f _ hz st
  · intro σ f st type name ht hn' hc
    unfold RW.attachmentSubset
    rw [hg]
    refine enumAttSubset_eq f _ type name ht hn' ?_ hz st
    intro p hp
    exact htype _ fun t h1 => hc p.1 _ t (List.mem_map.2 ⟨p, hp, rfl⟩) h1
  · intro k i b hr
    rw [hmem]
    unfold RW.readAttachmentInfo at hr
    rw [hg] at hr
    cases he : s.w.att.tryGet k with
    | none => rw [he] at hr; cases hr
    | some e =>
      rw [he] at hr
      dsimp only at hr
      split at hr
      · cases hr
      · cases hr
      · rw [rawInfo_eq e 0 (hzk he)] at hr
        simp only [Outcome.bind, Outcome.ok.injEq, Option.some.injEq, Prod.mk.injEq] at hr
        exact ⟨e, rfl, hr.1.symm⟩
  · intro junk
    refine ⟨s.w.att.atts.map (fun p => (p.1, p.2.told (junk p.1))), by simp, ?_, ?_⟩
    · intro σ f st
      unfold RW.enumerateAttachments
      rw [hg]
      exact enumAtts_eq f junk _ hz st
    · intro n k i hni
      rw [List.getElem?_map] at hni ⊢
      cases hp : s.w.att.atts[n]? with
      | none => rw [hp] at hni; cases hni
      | some p =>
        rw [hp] at hni
        injection hni with hni
        injection hni with h1 h2
        subst h1 h2
        refine ⟨p.2.told (junk p.1), rfl, rfl, rfl, ?_⟩
        intro t ht hl
        have hz8 : (0 : UInt8) ∈ p.2.contentFileType.toList := htype _ fun t' ht' => by rw [textAt_unique ht' ht]; exact hl
        rw [textAt_unique ht (textAt_cstr _ 0 (Or.inr rfl))]
        exact textAt_cstr _ _ (Or.inl hz8)

/-- **C81 violated by the enumeration of a reader-writer.** For every reader-writer and attachment whose type has eight characters: if the memory happened to hold anything but zero, `EnumerateAttachments` presents that
attachment with a type that is not terminated ("a null-terminated character array"), so reading it as a text leaves the structure. -/
theorem C81_eight_character_type_violated (s : RW) (hop : s.w.operational = true) (hz : ∀ p ∈ s.w.att.atts, (0 : UInt8) ∈ p.2.name.toList) (k : Int) (e : AttEntry)
    (he : (k, e) ∈ s.w.att.atts) (h8 : (0 : UInt8) ∉ e.contentFileType.toList) (junk : Int → UInt8) (hj : junk k ≠ 0) :
    ∃ seen, s.enumerateAttachments junk (fun (st : List (Int × RawAttInfo)) k i => (true, st ++ [(k, i)])) [] = .ok seen ∧
      ∃ i, (k, i) ∈ seen ∧ ∀ t, ¬ TextAt i.fileType t := by
  have hrec : ∀ (l : List (Int × RawAttInfo)) acc, presentItems (fun (st : List (Int × RawAttInfo)) k i => (true, st ++ [(k, i)])) l acc = acc ++ l := by
    intro l
    induction l with
    | nil => simp [presentItems]
    | cons p l ih => intro acc; simp [presentItems, ih]
  refine ⟨s.w.att.atts.map (fun p => (p.1, p.2.told (junk p.1))), ?_, e.told (junk k), List.mem_map.2 ⟨(k, e), he, rfl⟩, ?_⟩
  · unfold RW.enumerateAttachments RW.guard
    rw [if_neg (by rw [hop]; simp), enumAtts_eq _ _ _ hz, hrec]
    rfl
  · intro t ⟨_, rest, ht⟩
    have : (0 : UInt8) ∈ (e.told (junk k)).fileType := by rw [ht]; simp
    simp only [AttEntry.told, List.mem_append, List.mem_singleton] at this
    rcases this with h1 | h1
    · exact h8 h1
    · exact hj h1.symm

/-- **C81 violated for long names.** If an attachment was given to a reader-writer with a name of 80 characters (`SetName` makes one of every longer text), then asking for its information, and every enumeration
that does not stop before it, is undefined behaviour: the name is copied past the end of the entry. -/
theorem C81_long_name_violated (s : RW) (hop : s.w.operational = true) (pre post : List (Int × AttEntry)) (k : Int) (e : AttEntry) (hs : s.w.att.atts = pre ++ (k, e) :: post)
    (hk : s.w.att.tryGet k = some e) (h80 : (0 : UInt8) ∉ e.name.toList) (junk : Int → UInt8) :
    s.attachmentInfo k = .undefined ∧
    ∀ (σ : Type) (f : σ → Int → RawAttInfo → Bool × σ) (st : σ), (∀ st j i, (f st j i).1 = true) →
      s.enumerateAttachments junk f st = .undefined ∧ s.attachmentSubset none none f st = .undefined := by
  have hraw : ∀ b, e.rawInfo b = .undefined := by
    intro b
    unfold AttEntry.rawInfo stdString
    rw [if_neg h80]
    rfl
  have hor : ∀ (e : AttEntry) b, e.rawInfo b = .undefined ∨ ∃ i, e.rawInfo b = .ok i := by
    intro e b
    unfold AttEntry.rawInfo stdString
    split
    · exact Or.inr ⟨_, rfl⟩
    · exact Or.inl rfl
  refine ⟨?_, ?_⟩
  · unfold RW.attachmentInfo RW.guard stdString
    rw [if_neg (by rw [hop]; simp), hk]
    dsimp only
    rw [if_neg h80]
    rfl
  · intro σ f st hf
    unfold RW.enumerateAttachments RW.attachmentSubset RW.guard
    rw [if_neg (by rw [hop]; simp), if_neg (by rw [hop]; simp), hs]
    clear hs
    constructor
    · induction pre generalizing st with
      | nil => rw [List.nil_append, enumAtts, hraw]; rfl
      | cons p pre ih =>
        rw [List.cons_append, enumAtts]
        rcases hor p.2 (junk p.1) with h1 | ⟨i, h1⟩
        · rw [h1]; rfl
        · rw [h1]
          simp only [Outcome.bind, hf, if_true]
          exact ih _
    · induction pre generalizing st with
      | nil =>
        rw [List.nil_append, enumAttSubset]
        show Outcome.bind (e.rawInfo 0) _ = _
        rw [hraw]
        rfl
      | cons p pre ih =>
        rw [List.cons_append, enumAttSubset]
        show Outcome.bind (p.2.rawInfo 0) _ = _
        rcases hor p.2 0 with h1 | ⟨i, h1⟩
        · rw [h1]; rfl
        · rw [h1]
          simp only [Outcome.bind, hf, if_true]
          exact ih _

open Classical in
/-- **C81 (sub-blocks of a reader-writer).** After any calls on a reader-writer (including ones that threw) there is one list of keys and entries with ascending keys such that `TryGetSubBlockInfo` returns exactly
their descriptions, and false for every other integer (as does `ReadSubBlock` with an empty pointer), and the enumerations present exactly these (all of them, or those in the given plane, region
and layer), in this order, until the callback returns false. -/
theorem C81_editor_subblocks (al : Alloc) (d : Disk) (info : RWInfo) (s0 : RW) (h : rwCreate al ⟨RWState.init, d⟩ info = (s0, none)) (ops : List EditOp) :
    let s := rwCalls s0 ops
    ∃ items : List (Int × Entry), (items.map Prod.fst).Pairwise (· < ·) ∧
      (∀ k i, s.subBlockInfo k = .ok (some i) ↔ ∃ e, (k, e) ∈ items ∧ i = infoFromEntry e) ∧
      (∀ k, k ∉ items.map Prod.fst → s.subBlockInfo k = .ok none ∧ s.readSubBlock al k = .ok none) ∧
      (∀ k e, (k, e) ∈ items → s.readSubBlock al k = (rwReadEntry al s.disk.stream e).map some) ∧
      (∀ (σ : Type) (f : σ → Int → SbInfo → Bool × σ) (st : σ),
        s.enumerateSubBlocks f st = .ok (presentItems f (items.map fun p => (p.1, infoFromEntry p.2)) st)) ∧
      (∀ (σ : Type) (f : σ → Int → SbInfo → Bool × σ) (st : σ) (plane : Option Coord) (roi : Option IntRect) (l0 : Bool),
        s.subBlockSubset plane roi l0 f st =
          .ok (presentItems f ((items.filter fun p => Matches plane roi l0 p.2).map fun p => (p.1, infoFromEntry p.2)) st)) := by
  intro s
  have hi : EditInv False true s.w := editInv_calls ops s0 (editInv_create al d info s0 h).weaken (fun x => x.elim)
  clear_value s
  have hs := hi.dirOk.sorted
  have hop := hi.flag
  have hg : ∀ {α : Type} (x : Outcome α), s.guard x = x := by
    intro α x
    unfold RW.guard
    rw [if_neg (by rw [hop]; simp)]
  refine ⟨s.w.dir.subBlks, keys_sorted hs, ?_, ?_, ?_, ?_, ?_⟩
  · intro k i
    unfold RW.subBlockInfo
    rw [hg, Outcome.ok.injEq, Option.map_eq_some_iff]
    constructor
    · intro ⟨e, h1, h2⟩
      exact ⟨e, mem_of_mapFind h1, h2.symm⟩
    · intro ⟨e, h1, h2⟩
      exact ⟨e, mapFind_of_mem hs h1, h2.symm⟩
  · intro k hk
    have : s.w.dir.tryGet k = none := by
      cases he : s.w.dir.tryGet k with
      | none => rfl
      | some e => exact absurd (List.mem_map.2 ⟨(k, e), mem_of_mapFind he, rfl⟩) hk
    unfold RW.subBlockInfo RW.readSubBlock
    rw [hg, this, if_neg (by rw [hop]; simp)]
    exact ⟨rfl, rfl⟩
  · intro k e he
    unfold RW.readSubBlock
    rw [if_neg (by rw [hop]; simp), show s.w.dir.tryGet k = some e from mapFind_of_mem hs he]
  · intro σ f st
    unfold RW.enumerateSubBlocks
    rw [hg, enumerate_map]
  · intro σ f st plane roi l0
    unfold RW.subBlockSubset
    rw [hg, C19_subset_exact, presentItems_map]

/-! ## The hypotheses are met -/

/-- A document with a sub-block and two attachments that a reader opens. -/
theorem exLookup_reader : ∃ doc : Doc, openDoc (fun _ => true) exDisk2.stream exOpt = .ok doc ∧ doc.entries.length = 1 ∧ doc.attachments.length = 2 := by
  obtain ⟨doc, _, h1, _, _, h4, h5, _⟩ := exSound2
  exact ⟨doc, h1.opened, h4, h5⟩

example : ∃ doc : Doc, openDoc (fun _ => true) exDisk2.stream exOpt = .ok doc ∧
    ∃ i, (⟨true, doc⟩ : Reader).attachmentInfo 1 = .ok (some i) ∧ (⟨true, doc⟩ : Reader).attachmentInfo 2 = .ok none ∧
      ∃ b, (⟨true, doc⟩ : Reader).subBlockInfo 0 = .ok (some b) := by
  obtain ⟨doc, h, h1, h2⟩ := exLookup_reader
  obtain ⟨items, a1, a2, _, a4, a5, _⟩ := C81_reader_attachments_partial _ _ _ _ h
  obtain ⟨items', b1, b2, b3, _⟩ := C81_reader_subblocks_partial _ _ _ _ h
  obtain ⟨i, hi, _⟩ := a2 1 (by omega)
  refine ⟨doc, h, i, (a4 1 i (by decide)).2 (List.mem_of_getElem? hi), (a5 2 (by omega)).1, _, (b3 0 _ (by decide)).2 ⟨_, List.mem_of_getElem? (b2 0 (by omega)), rfl⟩⟩

/-- `Close` succeeds on an open reader. -/
example (doc : Doc) : (⟨true, doc⟩ : Reader).close = .ok ⟨false, doc⟩ := rfl

/-- The type of an attachment with eight characters. -/
def exAtt8 : AddAtt := { exAtt with contentFileType := #v[67, 90, 73, 49, 50, 51, 52, 53] }

/-- An attachment with a name of eighty characters. -/
def exAtt80 : AddAtt := { exAtt with guid := ⟨1, 2, 5, Vector.replicate 8 4⟩, name := Vector.replicate 80 65 }

example : rwCreate (fun _ => true) ⟨RWState.init, Disk.empty⟩ ⟨false, exInfo.guid⟩ = (exNew, none) ∧
    (∀ op ∈ [EditOp.addSubBlock exSub, .addAttachment exAtt, .removeAttachment 7, .addAttachment exOther], NameEnds op) := by
  refine ⟨exNew_create, ?_⟩
  intro op hop
  simp only [List.mem_cons, List.not_mem_nil, or_false] at hop
  rcases hop with rfl | rfl | rfl | rfl
  · exact trivial
  · show (0 : UInt8) ∈ exAtt.name.toList
    decide +kernel
  · exact trivial
  · show (0 : UInt8) ∈ exOther.name.toList
    decide +kernel

/-- After adding three attachments, the second with a type of eight characters: the hypotheses of `C81_eight_character_type_violated`. -/
example : let s := rwCalls exNew [.addAttachment exOther, .addAttachment { exAtt8 with guid := ⟨1, 2, 6, Vector.replicate 8 4⟩ }]
    s.w.operational = true ∧ s.w.att.atts.map Prod.fst = [0, 1] ∧ (∀ p ∈ s.w.att.atts, (0 : UInt8) ∈ p.2.name.toList) ∧
      s.w.att.atts.map (fun p => decide ((0 : UInt8) ∉ p.2.contentFileType.toList)) = [false, true] := by
  refine ⟨by decide +kernel, by decide +kernel, by decide +kernel, by decide +kernel⟩

/-- After adding an attachment with a name of eighty characters: the hypotheses of `C81_long_name_violated`. -/
example : let s := rwCalls exNew [.addAttachment exOther, .addAttachment exAtt80]
    s.w.operational = true ∧ s.w.att.atts.map Prod.fst = [0, 1] ∧
      (s.w.att.tryGet 1).map (fun e => decide ((0 : UInt8) ∉ e.name.toList)) = some true := by
  refine ⟨by decide +kernel, by decide +kernel, by decide +kernel⟩

end Verif
