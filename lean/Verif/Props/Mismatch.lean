import Verif.Props.Strict
import Verif.Props.ParseSafe
import Verif.Props.Coord

/-! # C53, C54, C55: wrong segments, contradicting headers, re-opening -/

namespace Verif.Spec

open Verif.Czi

/-- The segment identifiers of the file format: a name padded with zero bytes to 16 bytes. -/
def identifier (name : List UInt8) : List UInt8 := name ++ List.replicate (16 - name.length) 0

/-- Two m-indices agree: both absent (INT_MIN or INT_MAX), or equal. -/
def SameM (a b : Int) : Prop := ((a = -2147483648 ∨ a = 2147483647) ∧ (b = -2147483648 ∨ b = 2147483647)) ∨ a = b

/-- The header of a sub-block segment agrees with its entry in the directory. -/
structure Agrees (e : Entry) (d : SbData) : Prop where
  pixelType : e.pixelType = d.pixelType
  compression : e.compression = d.compression
  coordinate : ∀ k, e.coordinate k = d.coordinate k
  m : ∃ m, d.mIndex = some m ∧ SameM e.mIndex m
  x : d.x = some e.x
  y : d.y = some e.y
  w : d.w = some e.width
  h : d.h = some e.height
  pw : d.pw = some e.storedWidth
  ph : d.ph = some e.storedHeight

/-- The header of a sub-block segment gives all dimensions (X and Y, schema DV). -/
structure Complete (d : SbData) : Prop where
  m : d.mIndex.isSome = true
  x : d.x.isSome = true
  y : d.y.isSome = true
  w : d.w.isSome = true
  h : d.h.isSome = true
  pw : d.pw.isSome = true
  ph : d.ph.isSome = true
  spare : d.spare0.isSome = true

end Verif.Spec

namespace Verif

open Czi Spec

/-! ## C53 -/

theorem identifiers : fileMagic = identifier (ascii "ZISRAWFILE") ∧ subDirMagic = identifier (ascii "ZISRAWDIRECTORY") ∧
    attDirMagic = identifier (ascii "ZISRAWATTDIR") ∧ subBlockMagic = identifier (ascii "ZISRAWSUBBLOCK") ∧ attMagic = identifier (ascii "ZISRAWATTACH") ∧
    metadataMagic = identifier (ascii "ZISRAWMETADATA") := by decide +kernel

theorem readExact_map_error {α : Type} {s : Stream} {off n : Nat} {f : List UInt8 → Except RErr α} (hf : ∀ b, field b 0 16 = field (s off n) 0 16 → (f b).isOk = false) :
    ((readExact s off n).bind f).isOk = false := by
  unfold readExact
  simp only []
  split
  · exact hf _ rfl
  · rfl

/-- **C53.** For every content of the stream: a structure is only ever taken from a segment with the identifier of its kind. If the stream does not start
with ZISRAWFILE, if the directory positions do not lead to a ZISRAWDIRECTORY (or ZISRAWATTDIR), a sub-block's to a ZISRAWSUBBLOCK, an attachment's to a ZISRAWATTACH or
the metadata's to a ZISRAWMETADATA, then opening or reading throws. -/
theorem C53_wrong_segment_rejected (alloc : Alloc) (s : Stream) (o : OpenOptions) :
    (field (s 0 544) 0 16 ≠ identifier (ascii "ZISRAWFILE") → (openDoc alloc s o).isOk = false) ∧
    (∀ h, readHeader s = .ok h → field (s h.subDirPos 160) 0 16 ≠ identifier (ascii "ZISRAWDIRECTORY") → (openDoc alloc s o).isOk = false) ∧
    (∀ h, readHeader s = .ok h → h.attDirPos ≠ 0 → field (s h.attDirPos 288) 0 16 ≠ identifier (ascii "ZISRAWATTDIR") → (openDoc alloc s o).isOk = false) ∧
    (∀ e : Entry, field (s e.filePosition 288) 0 16 ≠ identifier (ascii "ZISRAWSUBBLOCK") → (readEntry alloc s o e).isOk = false) ∧
    (∀ pos, field (s pos 288) 0 16 ≠ identifier (ascii "ZISRAWATTACH") → (readAttachmentData alloc s pos).isOk = false) ∧
    (∀ pos, field (s pos 288) 0 16 ≠ identifier (ascii "ZISRAWMETADATA") → (readMetadataData alloc s pos).isOk = false) := by
  obtain ⟨i1, i2, i3, i4, i5, i6⟩ := identifiers
  rw [← i1, ← i2, ← i3, ← i4, ← i5, ← i6]
  have ok {α β : Type} {a : Except RErr α} {f : α → Except RErr β} (h : a.isOk = false) : (a.bind f).isOk = false := by
    cases a with
    | error e => rfl
    | ok x => cases h
  have sub : ∀ p off, field (s off 160) 0 16 ≠ subDirMagic → (readSubDir alloc s p off).isOk = false := by
    intro p off hne
    unfold readSubDir
    refine readExact_map_error (fun b hb => ?_)
    rw [if_pos (by unfold segMagic; rw [hb]; exact hne)]
    rfl
  have att : ∀ off, field (s off 288) 0 16 ≠ attDirMagic → (readAttDir alloc s off).isOk = false := by
    intro off hne
    unfold readAttDir
    refine readExact_map_error (fun b hb => ?_)
    rw [if_pos (by unfold segMagic; rw [hb]; exact hne)]
    rfl
  refine ⟨?_, ?_, ?_, ?_, ?_, ?_⟩
  · intro hne
    unfold openDoc openDocWith
    apply ok
    unfold readHeader
    refine readExact_map_error (fun b hb => ?_)
    rw [if_neg (by unfold segMagic; rw [hb]; exact hne)]
    rfl
  · intro h hh hne
    unfold openDoc openDocWith
    rw [hh]
    show Except.isOk (Except.bind (readSubDir alloc s (parseOptions o) h.subDirPos) _) = false
    exact ok (sub _ _ hne)
  · intro h hh h0 hne
    unfold openDoc openDocWith
    rw [hh]
    show Except.isOk (Except.bind (readSubDir alloc s (parseOptions o) h.subDirPos) _) = false
    cases readSubDir alloc s (parseOptions o) h.subDirPos with
    | error e => rfl
    | ok r =>
      simp only [Except.bind]
      rw [if_pos h0]
      exact ok (att _ hne)
  · intro e hne
    unfold readEntry
    apply ok
    unfold readSubBlockData
    apply ok
    unfold readSbHeader
    refine readExact_map_error (fun b hb => ?_)
    rw [if_pos (by unfold segMagic; rw [hb]; exact hne)]
    rfl
  · intro pos hne
    unfold readAttachmentData
    refine readExact_map_error (fun b hb => ?_)
    rw [if_pos (by unfold segMagic; rw [hb]; exact hne)]
    rfl
  · intro pos hne
    unfold readMetadataData
    refine readExact_map_error (fun b hb => ?_)
    rw [if_pos (by unfold segMagic; rw [hb]; exact hne)]
    rfl

/-- An empty stream does not start with the identifier. -/
example : field ((fun _ _ => [] : Stream) 0 544) 0 16 ≠ identifier (ascii "ZISRAWFILE") := by decide +kernel

/-! ## C54 -/

theorem isValidMindex_iff (m : Int) : isValidMindex m = false ↔ (m = -2147483648 ∨ m = 2147483647) := by
  unfold isValidMindex intMax intMin
  simp
  omega

theorem orUB_false (a b : Option Bool) : orUB a b = some false ↔ a = some false ∧ b = some false := by
  cases a with
  | none => simp [orUB]
  | some v => cases v <;> simp [orUB]

theorem differs_false (a : Int) (b : Option Int) : differs a b = some false ↔ b = some a := by
  cases b with
  | none => simp [differs]
  | some v => simp [differs]; exact eq_comm

theorem discrepancy_false_iff (e : Entry) (d : SbData) : discrepancy e d = some false ↔ Agrees e d := by
  unfold discrepancy
  simp only [orUB_false, differs_false]
  have hm : (d.mIndex.map fun m => isValidMindex e.mIndex != isValidMindex m || (isValidMindex m && decide (e.mIndex ≠ m))) = some false ↔
      ∃ m, d.mIndex = some m ∧ SameM e.mIndex m := by
    cases d.mIndex with
    | none => simp
    | some m =>
      simp only [Option.map_some, Option.some.injEq, exists_eq_left']
      unfold SameM
      rw [← isValidMindex_iff, ← isValidMindex_iff]
      by_cases hem : e.mIndex = m
      · simp [hem]
      · cases h1 : isValidMindex e.mIndex <;> cases h2 : isValidMindex m <;> simp [hem]
  rw [hm]
  have hc := C22_compare_total_order.2.1 e.coordinate d.coordinate
  simp only [Option.some.injEq, decide_eq_false_iff_not, ne_eq, Classical.not_not, hc]
  constructor
  · rintro ⟨a, b, c, m, x, y, w, h, pw, ph⟩
    exact ⟨a, b, c, m, x, y, w, h, pw, ph⟩
  · rintro ⟨a, b, c, m, x, y, w, h, pw, ph⟩
    exact ⟨a, b, c, m, x, y, w, h, pw, ph⟩

/-- What `ReadSubBlock` returns: pixels and metadata from the segment, the information from the directory or, if so configured, from the segment. -/
def delivered (o : OpenOptions) (e : Entry) (d : SbData) (r : SubBlock) : Prop :=
  r.metadata = d.metadata ∧ r.data = d.data ∧ r.attachment = d.attachment ∧
  (if o.headerPrecedence then infoFromHeader d = some r.info else r.info = infoFromEntry e)

/-- **C54 (strict, the default).** A sub-block is only ever delivered if its own header agrees with the directory in pixel type, compression, coordinate, m-index,
position, logical and physical size; if the header is complete and contradicts the directory in any of these, reading throws a mismatch exception. -/
theorem C54_strict (alloc : Alloc) (s : Stream) (o : OpenOptions) (ho : o.ignoreDiscrepancy = false) (e : Entry) (d : SbData)
    (hd : readSubBlockData alloc s e.filePosition = .ok d) :
    (∀ r, readEntry alloc s o e = .ok r → Agrees e d ∧ delivered o e d r) ∧
    (Complete d → ¬ Agrees e d → readEntry alloc s o e = .error .mismatch) ∧
    (Complete d → Agrees e d → ∃ r, readEntry alloc s o e = .ok r ∧ delivered o e d r) := by
  have fin : ∀ r, readEntry.finish o e d = .ok r → delivered o e d r := by
    intro r hr
    unfold readEntry.finish at hr
    unfold delivered
    split at hr
    · rename_i hp
      rw [if_pos hp]
      split at hr
      · cases hr
      · rename_i i hi
        cases hr
        exact ⟨rfl, rfl, rfl, hi⟩
    · rename_i hp
      rw [if_neg hp]
      cases hr
      exact ⟨rfl, rfl, rfl, rfl⟩
  have fin2 : Complete d → ∃ r, readEntry.finish o e d = .ok r := by
    intro hc
    unfold readEntry.finish
    split
    · have : (infoFromHeader d).isSome = true := by
        obtain ⟨h1, h2, h3, h4, h5, h6, h7, h8⟩ := hc
        simp only [Option.isSome_iff_exists] at h1 h2 h3 h4 h5 h6 h7 h8
        obtain ⟨v1, e1⟩ := h1; obtain ⟨v2, e2⟩ := h2; obtain ⟨v3, e3⟩ := h3; obtain ⟨v4, e4⟩ := h4
        obtain ⟨v5, e5⟩ := h5; obtain ⟨v6, e6⟩ := h6; obtain ⟨v7, e7⟩ := h7; obtain ⟨v8, e8⟩ := h8
        simp [infoFromHeader, e1, e2, e3, e4, e5, e6, e7, e8]
      split
      · rename_i hn
        rw [hn] at this; cases this
      · exact ⟨_, rfl⟩
    · exact ⟨_, rfl⟩
  have hre : readEntry alloc s o e = (match discrepancy e d with | none => .error .undefined | some true => .error .mismatch | some false => readEntry.finish o e d) := by
    unfold readEntry
    rw [hd]
    show (if o.ignoreDiscrepancy = false then _ else _) = _
    rw [if_pos ho]
    cases discrepancy e d with
    | none => rfl
    | some v => cases v <;> rfl
  rw [hre]
  refine ⟨?_, ?_, ?_⟩
  · intro r hr
    split at hr
    · cases hr
    · cases hr
    · rename_i hf
      exact ⟨(discrepancy_false_iff e d).1 hf, fin r hr⟩
  · intro hc hn
    have h1 := discrepancy_some e d hc.m ⟨hc.x, hc.w, hc.pw⟩ ⟨hc.y, hc.h, hc.ph⟩
    have h2 : discrepancy e d ≠ some false := fun h => hn ((discrepancy_false_iff e d).1 h)
    cases hdis : discrepancy e d with
    | none => rw [hdis] at h1; cases h1
    | some v =>
      cases v with
      | true => rfl
      | false => exact absurd hdis h2
  · intro hc ha
    rw [(discrepancy_false_iff e d).2 ha]
    obtain ⟨r, hr⟩ := fin2 hc
    exact ⟨r, hr, fin r hr⟩

/-- **C54 (lax).** If contradictions are to be ignored, every sub-block with a complete header is delivered, with the pixels of the segment and the information of the
directory or of the segment, as configured. -/
theorem C54_lax (alloc : Alloc) (s : Stream) (o : OpenOptions) (ho : o.ignoreDiscrepancy = true) (e : Entry) (d : SbData)
    (hd : readSubBlockData alloc s e.filePosition = .ok d) (hc : Complete d ∨ o.headerPrecedence = false) : ∃ r, readEntry alloc s o e = .ok r ∧ delivered o e d r := by
  have hre : readEntry alloc s o e = readEntry.finish o e d := by
    unfold readEntry
    rw [hd]
    show (if o.ignoreDiscrepancy = false then _ else _) = _
    rw [if_neg (by simp [ho])]
  rw [hre]
  unfold readEntry.finish delivered
  by_cases hp : o.headerPrecedence = true
  · rw [if_pos hp]
    have hc := hc.resolve_right (by simp [hp])
    obtain ⟨h1, h2, h3, h4, h5, h6, h7, h8⟩ := hc
    simp only [Option.isSome_iff_exists] at h1 h2 h3 h4 h5 h6 h7 h8
    obtain ⟨v1, e1⟩ := h1; obtain ⟨v2, e2⟩ := h2; obtain ⟨v3, e3⟩ := h3; obtain ⟨v4, e4⟩ := h4
    obtain ⟨v5, e5⟩ := h5; obtain ⟨v6, e6⟩ := h6; obtain ⟨v7, e7⟩ := h7; obtain ⟨v8, e8⟩ := h8
    have hi : infoFromHeader d = some ⟨pixelTypeFromInt d.pixelType, d.compression, d.coordinate, v1, v2, v3, v4, v5, v6, v7, pyramidTypeFromByte v8⟩ := by
      simp [infoFromHeader, e1, e2, e3, e4, e5, e6, e7, e8]
    rw [hi]
    refine ⟨_, rfl, rfl, rfl, rfl, ?_⟩
    simp [hp]
  · rw [if_neg hp]
    refine ⟨_, rfl, rfl, rfl, rfl, ?_⟩
    simp [hp]

/-- A complete header, and entries that agree with it and contradict it. -/
def exData : SbData := ⟨0, 0, Coord.empty.set .C 1, some 1, some 2, some 30, some 40, some 30, some 40, some 2147483647, some 0, ⟨0, none⟩, ⟨0, none⟩, ⟨0, none⟩⟩
example : Complete exData ∧ Agrees ⟨Coord.empty.set .C 1, -2147483648, 1, 2, 30, 40, 30, 40, 0, 0, 0, 0⟩ exData ∧
    ¬ Agrees ⟨Coord.empty.set .C 1, -2147483648, 1, 2, 30, 40, 30, 41, 0, 0, 0, 0⟩ exData := by
  refine ⟨⟨rfl, rfl, rfl, rfl, rfl, rfl, rfl, rfl⟩, ⟨rfl, rfl, fun _ => rfl, ⟨_, rfl, .inl ⟨.inl rfl, .inr rfl⟩⟩, rfl, rfl, rfl, rfl, rfl, rfl⟩, fun h => ?_⟩
  have := h.ph
  simp [exData] at this

/-! ## C55 -/

/-- **C55 (partial: documents with an attachment directory).** Opening a document with a reader object that was used for another one before gives the same
as opening it with a new object, if the document has an attachment directory or cannot be opened. -/
theorem C55_reopen_partial (alloc : Alloc) (s : Stream) (o : OpenOptions) (old : List AttEntry) (h : ∀ hd, readHeader s = .ok hd → hd.attDirPos ≠ 0) :
    openDocWith alloc s o old = openDoc alloc s o := by
  unfold openDoc openDocWith
  show Except.bind _ _ = Except.bind _ _
  cases hh : readHeader s with
  | error e => rfl
  | ok hd =>
    simp only [Except.bind]
    show Except.bind _ _ = Except.bind _ _
    cases readSubDir alloc s (parseOptions o) hd.subDirPos with
    | error e => rfl
    | ok r =>
      simp only [Except.bind]
      rw [if_pos (h hd hh), if_pos (h hd hh)]

/-- **C55 (sub-blocks and metadata).** In all cases header, sub-blocks and options are those of the new document. -/
theorem C55_reopen_subblocks (alloc : Alloc) (s : Stream) (o : OpenOptions) (old : List AttEntry) (doc : Doc) (h : openDocWith alloc s o old = .ok doc) :
    ∃ new, openDoc alloc s o = .ok new ∧ doc.header = new.header ∧ doc.entries = new.entries ∧ doc.options = new.options := by
  by_cases h0 : ∀ hd, readHeader s = .ok hd → hd.attDirPos ≠ 0
  · rw [C55_reopen_partial alloc s o old h0] at h
    exact ⟨doc, h, rfl, rfl, rfl⟩
  · have ⟨hd, hh⟩ := Classical.not_forall.1 h0
    have ⟨h1, h2⟩ := Classical.not_imp.1 hh
    unfold openDocWith at h
    unfold openDoc openDocWith
    rw [h1] at h ⊢
    change Except.bind (readSubDir alloc s (parseOptions o) hd.subDirPos) _ = _ at h
    show ∃ new, Except.bind (readSubDir alloc s (parseOptions o) hd.subDirPos) _ = _ ∧ _
    cases hr : readSubDir alloc s (parseOptions o) hd.subDirPos with
    | error e => rw [hr] at h; cases h
    | ok r =>
      rw [hr] at h
      simp only [Except.bind] at h ⊢
      rw [if_neg h2] at h
      rw [if_neg h2]
      cases h
      exact ⟨_, rfl, rfl, rfl, rfl⟩

/-- **C55, violated.** If the document has no attachment directory, then a reader object that was used for another document before still lists that one's
attachments. -/
theorem C55_stale_attachments (alloc : Alloc) (s : Stream) (o : OpenOptions) (old : List AttEntry) (hd : Header) (hh : readHeader s = .ok hd)
    (h0 : hd.attDirPos = 0) (doc : Doc) (h : openDocWith alloc s o old = .ok doc) : doc.attachments = old := by
  unfold openDocWith at h
  rw [hh] at h
  change Except.bind (readSubDir alloc s (parseOptions o) hd.subDirPos) _ = _ at h
  cases hr : readSubDir alloc s (parseOptions o) hd.subDirPos with
  | error e => rw [hr] at h; cases h
  | ok r =>
    rw [hr] at h
    simp only [Except.bind] at h
    rw [if_neg (by simp [h0])] at h
    cases h
    rfl

end Verif
