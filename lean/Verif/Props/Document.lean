import Verif.Proof.DocMore

/-!
# C01 sub-blocks, C02 attachments, C03 metadata, C05 segments, C06 callbacks, C07 zero fill

`Spec.writeDoc dup d0 info ops` is a document written from `Create` to `Close`: the file and the calls that did not throw. The file is then
opened with `openDoc` and read with any options. `al` is the allocator of the reader (here: allocations succeed).
-/

namespace Verif
open Spec Czi

attribute [local irreducible] zeros

/-! ## A sample document -/

/-- A sub-block of four bytes at T=1 with m-index 3, delivered in two chunks, with metadata and an attachment, and a callback that ends early. -/
def exSub : AddInfo where
  coordinate := Coord.empty.set .T 1
  mIndex := some 3
  x := -10
  y := 20
  logicalWidth := 4
  logicalHeight := 2
  physicalWidth := 2
  physicalHeight := 1
  pixelType := .Gray16
  pyramidType := .SingleSubBlock
  compression := 0
  sizeMetadata := 3
  sizeData := 4
  sizeAttachment := 2
  metadata := some ⟨[[60, 47, 62]], false⟩
  data := some ⟨[[1, 2], [3]], false⟩
  attachment := some ⟨[[7], [8, 9]], true⟩

/-- An attachment of two bytes named "ab". -/
def exAtt : AddAtt where
  guid := ⟨1, 2, 3, Vector.replicate 8 4⟩
  contentFileType := #v[67, 90, 73, 0, 0, 0, 0, 0]
  name := Vector.replicate 80 0 |>.set 0 97 |>.set 1 98
  data := some [5, 6]

def exMeta : MetaInfo := ⟨some [60, 97, 47, 62], some []⟩

def exInfo : WriterInfo := ⟨⟨9, 8, 7, Vector.replicate 8 6⟩, none, none, some 2, none, some 1⟩

/-- Two sub-blocks that differ in the coordinate, an attachment, the metadata twice, and a duplicate. -/
def exOps : List WOp :=
  [.addSubBlock exSub, .writeMetadata exMeta, .addAttachment exAtt, .addSubBlock { exSub with coordinate := Coord.empty.set .T 2 }, .addSubBlock exSub,
   .writeMetadata ⟨some [60, 98, 47, 62], some [1]⟩]

theorem exSub_sources : SourcesOk exSub where
  metadata := ⟨by intro s h; cases h; decide, by intro s h; cases h; decide⟩
  data := ⟨by intro s h; cases h; decide, by intro s h; cases h; decide⟩
  attachment := ⟨by intro s h; cases h; decide, by intro s h; cases h; decide⟩

theorem exSub_ok (t : Int) (ht : IsInt32 t) : SubOk { exSub with coordinate := Coord.empty.set .T t } where
  fits := {
    coordinate := by
      intro d v h
      unfold Coord.set Coord.empty at h
      simp only at h
      split at h
      · injection h with h; subst h; exact ht
      · cases h
    mIndex := by intro m h; cases h; exact ⟨by decide, by decide⟩
    x := (⟨by decide, by decide⟩ : IsInt32 exSub.x)
    y := (⟨by decide, by decide⟩ : IsInt32 exSub.y)
    logicalWidth := (⟨by decide, by decide⟩ : IsInt32 exSub.logicalWidth)
    logicalHeight := (⟨by decide, by decide⟩ : IsInt32 exSub.logicalHeight)
    physicalWidth := (⟨by decide, by decide⟩ : IsInt32 exSub.physicalWidth)
    physicalHeight := (⟨by decide, by decide⟩ : IsInt32 exSub.physicalHeight)
    compression := (⟨by decide, by decide⟩ : IsInt32 exSub.compression) }
  sources := ⟨exSub_sources.metadata, exSub_sources.data, exSub_sources.attachment⟩
  metadataSize := (by decide : exSub.sizeMetadata ≤ 2147483647)
  dataSize := (by decide : exSub.sizeData < 2 ^ 59)
  attachmentSize := (by decide : exSub.sizeAttachment ≤ 2147483647)

theorem exOps_ok : OpsOk exOps where
  each := by
    intro op h
    simp only [exOps, List.mem_cons, List.not_mem_nil, or_false] at h
    rcases h with rfl | rfl | rfl | rfl | rfl | rfl
    · exact exSub_ok 1 ⟨by decide, by decide⟩
    · exact ⟨by decide, by decide⟩
    · show (2 : Nat) < _; decide
    · exact exSub_ok 2 ⟨by decide, by decide⟩
    · exact exSub_ok 1 ⟨by decide, by decide⟩
    · exact ⟨by decide, by decide⟩
  count := by decide
  total := by decide

theorem exInfo_ok : InfoOk exInfo where
  metadata := by intro n h; cases h; decide
  subDir := by intro n h; cases h
  attDir := by intro n h; cases h; decide

/-! ## C01 -/

/-- **C01 (partial: sub-blocks with less than 2 GB of data, whose callbacks end at most 4096 bytes early).** Whatever was in the file before, with
every reservation, for every sequence of calls between `Create` and `Close` (sub-blocks, attachments and metadata in any order, with
rejected calls among them): `Close` succeeds, the reader opens the file with any options, enumerates the sub-blocks whose add did not throw, in some
order, and delivers each of them as it was given. Outside the excluded cases: `C01_large_data_unreadable`, `C06_short_callback_corrupts`. -/
theorem C01_sub_blocks_read_back_partial (dup : Bool) (d0 : Disk) (info : WriterInfo) (ops : List WOp) (hi : InfoOk info) (hops : OpsOk ops)
    (hsz : ∀ a ∈ subsOf ops, a.sizeData ≤ 2147483647) (o : OpenOptions) (al : Alloc) (hal : ∀ n, al n = true) :
    ∃ disk done, writeDoc dup d0 info ops = some (disk, done) ∧
      ∃ doc, openDoc al disk.stream o = .ok doc ∧
      ∃ sbs : List SubBlock, sbs.length = doc.entries.length ∧
        (∀ i (h : i < sbs.length), doc.readSubBlock al disk.stream i = .ok (some sbs[i])) ∧
        (sbs.map viewRead).Perm ((subsOf done).map viewAdded) ∧
        ∀ i (h : i < sbs.length) (h' : i < doc.entries.length), viewInfo (infoFromEntry doc.entries[i]) = viewInfo sbs[i].info := by
  obtain ⟨d, done, e, segs, q, sp, mp, ap, dir, att, hw⟩ := writeDoc_written dup d0 info ops hi hops
  have hsub : ∀ a ∈ subsOf done, a.sizeData ≤ 2147483647 := by
    intro a ha
    refine hsz a ?_
    have hs := writeDoc_sublist e
    exact (hs.filterMap _).subset ha
  obtain ⟨as, eo, _, _⟩ := hw.open hal o
  obtain ⟨sbs, k1, k2, k3, k4⟩ := hw.subBlocks hal o hsub
  refine ⟨d, done, e, _, eo, sbs, k1, ?_, k3, ?_⟩
  · intro i h
    unfold Doc.readSubBlock
    dsimp only
    rw [List.getElem?_eq_getElem (by omega)]
    dsimp only
    rw [k2 i (by omega) h]
    rfl
  · intro i h h'
    exact k4 i h' h

/-- The sample document meets the hypotheses. -/
example : InfoOk exInfo ∧ OpsOk exOps ∧ ∀ a ∈ subsOf exOps, a.sizeData ≤ 2147483647 := by
  refine ⟨exInfo_ok, exOps_ok, ?_⟩
  intro a ha
  simp only [subsOf, exOps, List.filterMap_cons, List.filterMap_nil, List.mem_cons, List.not_mem_nil, or_false] at ha
  rcases ha with rfl | rfl | rfl <;> decide

/-- **C01 violated for large data:** in every document, a sub-block of 2 GB or more that was added successfully cannot be read: the
number of bytes read is converted to `int32_t`. -/
theorem C01_large_data_unreadable (dup : Bool) (d0 : Disk) (info : WriterInfo) (ops : List WOp) (hi : InfoOk info) (hops : OpsOk ops)
    (disk : Disk) (done : List WOp) (h : writeDoc dup d0 info ops = some (disk, done))
    (a : AddInfo) (ha : a ∈ subsOf done) (hl : 2147483647 < a.sizeData) (o : OpenOptions) (al : Alloc) (hal : ∀ n, al n = true) :
    ∃ doc, openDoc al disk.stream o = .ok doc ∧ ∃ i < doc.entries.length, ∀ r, doc.readSubBlock al disk.stream i ≠ .ok r := by
  obtain ⟨d, done', e, segs, q, sp, mp, ap, dir, att, hw⟩ := writeDoc_written dup d0 info ops hi hops
  rw [h] at e
  injection e with e
  injection e with e1 e2
  subst e1 e2
  obtain ⟨as, eo, _, _⟩ := hw.open hal o
  obtain ⟨i, hi, k⟩ := hw.large_data hal o ha hl
  refine ⟨_, eo, i, hi, ?_⟩
  intro r hr
  unfold Doc.readSubBlock at hr
  dsimp only at hr
  rw [List.getElem?_eq_getElem hi] at hr
  dsimp only at hr
  cases hx : readEntry al disk.stream o dir[i] with
  | ok sb => exact k sb hx
  | error er => rw [hx] at hr; cases hr

/-- A sub-block of 2 GB is accepted by the writer. -/
example : ∃ a : AddInfo, SubOk a ∧ a.check = true ∧ 2147483647 < a.sizeData := by
  obtain ⟨l, hl⟩ : ∃ l : List UInt8, l.length = 2147483648 := ⟨List.replicate _ 0, List.length_replicate⟩
  refine ⟨{ exSub with sizeData := 2147483648, data := some ⟨[l], false⟩ }, ?_, rfl, ?_⟩
  rotate_left
  · show 2147483647 < 2147483648
    omega
  have h := exSub_ok 1 ⟨by decide, by decide⟩
  refine ⟨?_, ⟨h.sources.metadata, ⟨?_, ?_⟩, h.sources.attachment⟩, h.metadataSize, ?_, h.attachmentSize⟩
  · exact ⟨h.fits.coordinate, h.fits.mIndex, h.fits.x, h.fits.y, h.fits.logicalWidth, h.fits.logicalHeight, h.fits.physicalWidth,
      h.fits.physicalHeight, h.fits.compression⟩
  · intro s e
    simp only [Option.some.injEq] at e
    subst e
    intro h; cases h
  · intro s e
    simp only [Option.some.injEq] at e
    subst e
    simp [hl]
  · show 2147483648 < 2 ^ 59
    omega

/-! ## C02 -/

/-- The reservation for the attachment directory (0 means 10) does not exceed the number of attachments, unless there are none. -/
def ReservationFilled (info : WriterInfo) (n : Nat) : Prop := n = 0 ∨ ∀ r, info.reservedAttDir = some r → (if r = 0 then 10 else r) ≤ n

/-- **C02 (partial: the reservation for the attachment directory is not larger than needed, the name ends within its 80 bytes, less than
2 GB).** The reader lists exactly the attachments whose add did not throw, in order, and delivers each of them as it was given. Outside the
excluded cases: `C02_reservation_loses_attachments`, `C02_long_name_truncated`, `C02_large_attachment_unreadable`. -/
theorem C02_attachments_read_back_partial (dup : Bool) (d0 : Disk) (info : WriterInfo) (ops : List WOp) (hi : InfoOk info) (hops : OpsOk ops)
    (hat : ∀ a ∈ attsOf ops, a.bytes.length < 2 ^ 31 ∧ 0 ∈ a.name.toList)
    (o : OpenOptions) (al : Alloc) (hal : ∀ n, al n = true) :
    ∃ disk done, writeDoc dup d0 info ops = some (disk, done) ∧
      (ReservationFilled info (attsOf done).length →
      ∃ doc, openDoc al disk.stream o = .ok doc ∧ doc.attachments.length = (attsOf done).length ∧
        ∀ i (h : i < (attsOf done).length), doc.readAttachment al disk.stream i = .ok (some (attachmentOf (attsOf done)[i]))) := by
  obtain ⟨d, done, e, segs, q, sp, mp, ap, dir, att, hw⟩ := writeDoc_written dup d0 info ops hi hops
  refine ⟨d, done, e, ?_⟩
  intro hres
  have hs := writeDoc_sublist e
  have hsub : ∀ a ∈ attsOf done, a.bytes.length < 2 ^ 31 ∧ 0 ∈ a.name.toList := fun a ha => hat a ((hs.filterMap _).subset ha)
  obtain ⟨as, eo, k1, k2⟩ := hw.open hal o
  have hl := hw.att_length
  have has : as = att.map AttEntry.read := by
    by_cases hn : att = []
    · rw [k1 hn, hn]; rfl
    · rw [k2 hn]
      have hne : att.length ≠ 0 := fun h => hn (List.length_eq_zero_iff.1 h)
      have hod : attOnDisk info.reservedAttDir att = attEntriesBytes att := by
        unfold attOnDisk
        cases hr : info.reservedAttDir with
        | none => rfl
        | some r =>
          dsimp only
          rcases hres with h0 | h0
          · omega
          · have := h0 r hr
            rw [if_neg (by omega)]
      have := attEntriesOf_bytes att hw.att_pos []
      rw [List.append_nil] at this
      rw [hod, this]
  subst has
  refine ⟨_, eo, by simp [hl], ?_⟩
  intro i h
  have hm := hsub _ (List.getElem_mem h)
  rw [hw.readAttachment hal _ _ o i h hm.1]
  congr 2
  unfold attachmentRead
  rw [List.take_of_length_le]
  · rfl
  · unfold cstr
    have := takeWhile_length_lt (fun x : UInt8 => decide (x ≠ 0)) hm.2 (by simp)
    rw [Vector.length_toList] at this
    exact Nat.le_of_lt_succ this

/-- The sample document meets the hypotheses. -/
example : (∀ a ∈ attsOf exOps, a.bytes.length < 2 ^ 31 ∧ 0 ∈ a.name.toList) ∧ ReservationFilled exInfo (attsOf exOps).length ∧ (attsOf exOps).length = 1 := by
  refine ⟨?_, .inr ?_, rfl⟩
  · intro a ha
    simp only [attsOf, exOps, List.filterMap_cons, List.filterMap_nil, List.mem_cons, List.not_mem_nil, or_false] at ha
    subst ha
    exact ⟨by decide, by decide⟩
  · intro r h
    cases h
    decide

/-- **C02 violated by reservations:** in every document in which the reservation for the attachment directory is larger than the number n > 0
of attachments, the reader lists only n - 2 attachments (none if n ≤ 2): the zero fill after the directory overwrites the last entries. -/
theorem C02_reservation_loses_attachments (dup : Bool) (d0 : Disk) (info : WriterInfo) (ops : List WOp) (hi : InfoOk info) (hops : OpsOk ops)
    (disk : Disk) (done : List WOp) (h : writeDoc dup d0 info ops = some (disk, done)) (r : Nat) (hr : info.reservedAttDir = some r)
    (hn : 0 < (attsOf done).length) (hlt : (attsOf done).length < (if r = 0 then 10 else r))
    (o : OpenOptions) (al : Alloc) (hal : ∀ n, al n = true) :
    ∃ doc, openDoc al disk.stream o = .ok doc ∧ doc.attachments.length = (attsOf done).length - 2 := by
  obtain ⟨d, done', e, segs, q, sp, mp, ap, dir, att, hw⟩ := writeDoc_written dup d0 info ops hi hops
  rw [h] at e
  injection e with e
  injection e with e1 e2
  subst e1 e2
  obtain ⟨as, eo, _, k2⟩ := hw.open hal o
  have hl := hw.att_length
  refine ⟨_, eo, ?_⟩
  have hne : att ≠ [] := by intro h; rw [h] at hl; simp at hl; omega
  dsimp only
  rw [k2 hne]
  unfold attOnDisk
  rw [hr]
  dsimp only
  rw [if_pos (by omega), attEntries_lost att hw.att_pos, hl]

/-- **C02 violated by long names:** a name of 80 characters (the size of the field, accepted by `SetName`) is delivered with 79. -/
theorem C02_long_name_truncated (al : Alloc) (s : Stream) (doc : Doc) (i : Nat) (r : Attachment) (h : doc.readAttachment al s i = .ok (some r))
    (hd : ∃ stream o, openDoc al stream o = .ok doc) : r.name.length ≤ 79 := by
  obtain ⟨st, o, hd⟩ := hd
  exact attachment_name_short hd h

/-- **C02 violated for large attachments:** nothing of 2 GB or more is ever delivered. -/
theorem C02_large_attachment_unreadable (al : Alloc) (hal : ∀ n, al n = true) (s : Stream) (doc : Doc) (i : Nat) (r : Attachment)
    (h : doc.readAttachment al s i = .ok (some r)) : r.data.size ≤ 2147483647 := by
  unfold Doc.readAttachment at h
  split at h
  · cases h
  · split at h
    · cases h
    · rename_i hd
      have := readAttachmentData_limit hal hd
      injection h with h
      injection h with h
      subst h
      exact this

/-! ## C03 -/

/-- **C03 (partial: XML and its attachment smaller than 2 GB).** After `Close`, the reader delivers the metadata of the last successful
`SyncWriteMetadata` unchanged, however often it was rewritten, whatever was reserved and whatever else was added; if there was none, the
reader says so. -/
theorem C03_metadata_reads_back_partial (dup : Bool) (d0 : Disk) (info : WriterInfo) (ops : List WOp) (hi : InfoOk info) (hops : OpsOk ops)
    (hsz : ∀ m, .writeMetadata m ∈ ops → m.xmlBytes.length < 2 ^ 31 ∧ m.attBytes.length < 2 ^ 31)
    (o : OpenOptions) (al : Alloc) (hal : ∀ n, al n = true) :
    ∃ disk done, writeDoc dup d0 info ops = some (disk, done) ∧
      ∃ doc, openDoc al disk.stream o = .ok doc ∧
        (∀ m, lastMeta done = some m → doc.readMetadata al disk.stream = .ok (metaOf m)) ∧
        (lastMeta done = none → doc.readMetadata al disk.stream = .error .notPresent) := by
  obtain ⟨d, done, e, segs, q, sp, mp, ap, dir, att, hw⟩ := writeDoc_written dup d0 info ops hi hops
  have hs := writeDoc_sublist e
  have hm : ∀ m, lastMeta done = some m → m.xmlBytes.length < 2 ^ 31 ∧ m.attBytes.length < 2 ^ 31 := by
    intro m hm
    exact hsz m (hs.subset (lastMeta_mem hm))
  obtain ⟨as, eo, _, _⟩ := hw.open hal o
  have := hw.metadata hal o dir as hm
  refine ⟨d, done, e, _, eo, ?_, ?_⟩
  · intro m hm
    rw [hm] at this
    exact this
  · intro hm
    rw [hm] at this
    exact this

/-- The sample document meets the hypotheses (with two rewrites, the second larger than the first). -/
example : ∀ m, .writeMetadata m ∈ exOps → m.xmlBytes.length < 2 ^ 31 ∧ m.attBytes.length < 2 ^ 31 := by
  intro m h
  simp only [exOps, List.mem_cons, List.not_mem_nil, or_false, reduceCtorEq, false_or, WOp.writeMetadata.injEq] at h
  rcases h with rfl | rfl
  · exact ⟨by decide, by decide⟩
  · exact ⟨by decide, by decide⟩

/-- **C03 violated for large metadata:** nothing of 2 GB or more is ever delivered (the writer accepts it). -/
theorem C03_large_metadata_unreadable (al : Alloc) (hal : ∀ n, al n = true) (s : Stream) (doc : Doc) (m : MetaInfo)
    (hl : 2147483647 < m.xmlBytes.length) : doc.readMetadata al s ≠ .ok (metaOf m) := by
  intro h
  have := (readMetadata_limit hal h).1
  simp only [metaOf, payload] at this
  omega

example : ∃ m : MetaInfo, MetaOk m ∧ 2147483647 < m.xmlBytes.length := by
  obtain ⟨l, hl⟩ : ∃ l : List UInt8, l.length = 2147483648 := ⟨List.replicate _ 32, List.length_replicate⟩
  have e1 : (⟨some l, some []⟩ : MetaInfo).xmlBytes = l := rfl
  have e2 : (⟨some l, some []⟩ : MetaInfo).attBytes = [] := rfl
  refine ⟨⟨some l, some []⟩, ⟨?_, ?_⟩, ?_⟩
  · rw [e1, hl]; omega
  · rw [e2]; simp
  · rw [e1, hl]; omega

/-! ## C05 -/

/-- **C05 (partial: callbacks end at most 4096 bytes early).** The finished file is a sequence of aligned segments without overlap, the used size of
each is at most the allocated size, and everything the reader goes by — the directories, the metadata, each sub-block and each attachment — is one of these
segments, with the right identifier. Outside the excluded case: `C05_short_callback_overlap`. -/
theorem C05_segments_partial (dup : Bool) (d0 : Disk) (info : WriterInfo) (ops : List WOp) (hi : InfoOk info) (hops : OpsOk ops)
    (o : OpenOptions) (al : Alloc) (hal : ∀ n, al n = true) :
    ∃ disk done, writeDoc dup d0 info ops = some (disk, done) ∧
      ∃ segs, Segmented disk segs ∧ (0, 512) ∈ segs ∧
      ∃ doc, openDoc al disk.stream o = .ok doc ∧
        (doc.header.subDirPos ∈ segs.map Prod.fst ∧ idAt disk doc.header.subDirPos = subDirMagic) ∧
        (doc.header.metadataPos ≠ 0 → doc.header.metadataPos ∈ segs.map Prod.fst ∧ idAt disk doc.header.metadataPos = metadataMagic) ∧
        (doc.header.attDirPos ≠ 0 → doc.header.attDirPos ∈ segs.map Prod.fst ∧ idAt disk doc.header.attDirPos = attDirMagic) ∧
        (∀ e ∈ doc.entries, e.filePosition ∈ segs.map Prod.fst ∧ idAt disk e.filePosition = subBlockMagic) ∧
        (ReservationFilled info (attsOf done).length →
          ∀ e ∈ doc.attachments, e.filePosition ∈ segs.map Prod.fst ∧ idAt disk e.filePosition = attMagic) := by
  obtain ⟨d, done, e, segs, q, sp, mp, ap, dir, att, hw⟩ := writeDoc_written dup d0 info ops hi hops
  obtain ⟨as, eo, k1, k2⟩ := hw.open hal o
  have key : ∀ g ∈ segs, g.pos ∈ ((0, 512) :: segs.map (fun g => (g.pos, g.alloc))).map Prod.fst ∧ idAt d g.pos = g.owner.id := by
    intro g hg
    refine ⟨?_, Seg.idAt (hw.closed.onDisk g hg).2.2.1⟩
    rw [List.map_cons, List.map_map]
    exact List.mem_cons_of_mem _ (List.mem_map_of_mem (f := Prod.fst ∘ fun g : Seg => (g.pos, g.alloc)) hg)
  refine ⟨d, done, e, _, hw.segmented, List.mem_cons_self .., _, eo, ?_, ?_, ?_, ?_, ?_⟩
  · obtain ⟨al1, hs⟩ := hw.closed.subDir
    exact key _ hs
  · intro hne
    have hm := hw.closed.metadata
    cases hmt : lastMeta done with
    | none => rw [hmt] at hm; exact absurd hm hne
    | some m =>
      rw [hmt] at hm
      obtain ⟨al1, hs⟩ := hm
      exact key _ hs
  · intro hne
    rcases hw.closed.attDir with ⟨_, h0⟩ | ⟨al1, hs, _⟩
    · exact absurd h0 hne
    · exact key _ hs
  · intro x hx
    have := (hw.dirPerm.mem_iff).1 hx
    rw [List.mem_map] at this
    obtain ⟨p, hp, rfl⟩ := this
    obtain ⟨al2, hg⟩ := subPairs_mem hp
    exact key _ hg
  · intro hres x hx
    have hl := hw.att_length
    have has : as = att.map AttEntry.read := by
      by_cases hn : att = []
      · rw [k1 hn, hn]; rfl
      · rw [k2 hn]
        have hne : att.length ≠ 0 := fun h => hn (List.length_eq_zero_iff.1 h)
        have hod : attOnDisk info.reservedAttDir att = attEntriesBytes att := by
          unfold attOnDisk
          cases hr : info.reservedAttDir with
          | none => rfl
          | some r =>
            dsimp only
            rcases hres with h0 | h0
            · omega
            · have := h0 r hr
              rw [if_neg (by omega)]
        have := attEntriesOf_bytes att hw.att_pos []
        rw [List.append_nil] at this
        rw [hod, this]
    subst has
    obtain ⟨y, hy, rfl⟩ := List.mem_map.1 hx
    rw [hw.attEq, List.mem_map] at hy
    obtain ⟨p, hp, rfl⟩ := hy
    obtain ⟨al2, hg⟩ := attPairs_mem hp
    exact key _ hg

/-! ## C07 -/

/-- **C07 (partial: at most 4096 bytes).** Exactly the requested bytes become zero, everything else is unchanged, and `n` is
reported. -/
theorem C07_zero_fill_partial (p n : Nat) (hn : n ≤ 4096) : ∃ ws, writeZeroes p n = ⟨ws, .ok n⟩ ∧
    ∀ d i, (apply d ws).get i = if p ≤ i ∧ i < p + n then 0 else d.get i := by
  obtain ⟨ws, e, h⟩ := writeZeroes_spec p n (by omega)
  rw [zeroAmount_small hn] at e h
  refine ⟨ws, e, ?_⟩
  intro d i
  rw [apply_contig h]
  simp only [Disk.write, zeros_length]
  split
  · rw [zeros_eq, List.getD_eq_getElem?_getD]
    rw [List.getElem?_replicate]
    split <;> rfl
  · rfl

/-- **C07 violated beyond 4096 bytes:** too few bytes are written and reported: only half of the blocks of 4096 bytes, rounded up. The byte at
the end of the requested range keeps its old value. -/
theorem C07_zero_fill_too_short (p n : Nat) (hn : 4096 < n) (h63 : n < 2 ^ 63) : ∃ ws k, writeZeroes p n = ⟨ws, .ok k⟩ ∧ k < n ∧
    k = ((n + 4095) / 4096 + 1) / 2 * 4096 ∧ ∀ d, (apply d ws).get (p + n - 1) = d.get (p + n - 1) := by
  obtain ⟨ws, e, h⟩ := writeZeroes_spec p n h63
  have hlt := zeroAmount_lt hn
  refine ⟨ws, _, e, hlt, ?_, ?_⟩
  · unfold zeroAmount
    rw [if_neg (by omega)]
  · intro d
    rw [apply_contig h, Disk.write_get_out]
    rw [zeros_length]
    omega

example : ∃ ws, writeZeroes 100 8192 = ⟨ws, .ok 4096⟩ := by
  obtain ⟨ws, k, h, _, hk, _⟩ := C07_zero_fill_too_short 100 8192 (by decide) (by decide)
  rw [hk] at h
  exact ⟨ws, h⟩

/-! ## C06 -/

/-- **C06 (partial: the callback ends at most 4096 bytes early).** A payload of the announced size is written: the chunks delivered, cut off at the
announced size, or followed by zeros up to it; nothing else changes, and what follows starts at the announced end. -/
theorem C06_callback_payload_partial (p size : Nat) (s : Source) (hs : size < 2 ^ 63) (hn : NoNull size (some s)) (h4 : ShortBy4096 size (some s)) :
    ∃ ws, writePayload p size (some s) = ⟨ws, .ok size⟩ ∧
      ∀ d i, (apply d ws).get i = if p ≤ i ∧ i < p + size then (payloadOf size (some s)).getD (i - p) 0 else d.get i := by
  obtain ⟨ws, e, h⟩ := writePayload_ok p size (some s) hs (fun _ => rfl) (payloadFails_iff hn)
  rw [payloadContent_eq h4 (fun _ => rfl)] at e h
  rw [payloadOf_length] at e
  refine ⟨ws, e, ?_⟩
  intro d i
  rw [apply_contig h]
  simp only [Disk.write, payloadOf_length]

example : NoNull 10 (some ⟨[[1, 2], [3]], false⟩) ∧ ShortBy4096 10 (some ⟨[[1, 2], [3]], false⟩) ∧
    payloadOf 10 (some ⟨[[1, 2], [3]], false⟩) = [1, 2, 3, 0, 0, 0, 0, 0, 0, 0] ∧
    payloadOf 2 (some ⟨[[1], [2, 3]], false⟩) = [1, 2] := by
  refine ⟨by intro s h; cases h; decide, by intro s h; cases h; decide, by decide, by decide⟩

/-- **C06 exactly:** the announced size is reached if and only if the callback ends at most 4096 bytes early; otherwise fewer bytes are written, and what follows
starts too early. -/
theorem C06_size_reached_iff (p size : Nat) (s : Source) (hs : size < 2 ^ 63) (hn : NoNull size (some s)) :
    ∃ ws k, writePayload p size (some s) = ⟨ws, .ok k⟩ ∧ k ≤ size ∧ (k = size ↔ ShortBy4096 size (some s)) := by
  obtain ⟨ws, e, h⟩ := writePayload_ok p size (some s) hs (fun _ => rfl) (payloadFails_iff hn)
  refine ⟨ws, _, e, ?_⟩
  have hlen : (payloadContent size (some s)).length = min size s.chunks.flatten.length + zeroAmount (size - s.chunks.flatten.length) := by
    unfold payloadContent
    split
    · rename_i h0
      subst h0
      rw [Nat.zero_sub, zeroAmount_zero]
      simp
    · simp only [Source.content, Source.bytes, List.length_append, List.length_take, zeros_length]
  rw [hlen]
  have h1 := zeroAmount_le (size - s.chunks.flatten.length)
  refine ⟨by omega, ?_, ?_⟩
  · intro he s' hs'
    cases hs'
    refine Classical.byContradiction fun hc => ?_
    have := zeroAmount_lt (c := size - s.chunks.flatten.length) (by omega)
    omega
  · intro h4
    have := h4 s rfl
    rw [zeroAmount_small (by omega)]
    omega

end Verif
