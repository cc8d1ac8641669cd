import Verif.Proof.EditCrashDoc

/-! What cannot be read after a crash. -/

namespace Verif.Czi

open Spec

attribute [local irreducible] zeros

theorem cut_one (d : Disk) (w : Write) (ws : List Write) : apply d (cut (w :: ws) 1 0) = d.write w.1 w.2 := by
  unfold cut
  rw [show (w :: ws).take 1 = [w] from rfl, show (w :: ws).drop 1 = ws from rfl, apply_append]
  show apply (d.write w.1 w.2) _ = _
  cases ws with
  | nil => rfl
  | cons v vs =>
    show (d.write w.1 w.2).write v.1 (v.2.take 0) = _
    rw [List.take_zero]
    unfold Disk.write
    rw [if_pos rfl]
    dsimp only
    congr 1
    funext i
    rw [if_neg (by simp only [List.length_nil]; omega)]

theorem cut_head {w : Write} {ws : List Write} {k : Nat} (hk : 1 ≤ k) (j : Nat) : cut (w :: ws) k j = w :: cut ws (k - 1) j := by
  obtain ⟨k, rfl⟩ : ∃ m, k = m + 1 := ⟨k - 1, by omega⟩
  rfl

theorem cut_all {ws : List Write} {k : Nat} (hk : ws.length ≤ k) (j : Nat) : cut ws k j = ws := by
  unfold cut
  rw [List.take_of_length_le hk, List.drop_eq_nil_of_le hk]
  exact List.append_nil _

theorem deleted_holds (d : Disk) (p : Nat) : Holds (d.write p deletedMagic) p deletedMagic := by
  have h : Contig p [(p, deletedMagic)] (deletedMagic ++ []) := by rw [List.append_nil]; exact Contig.single p deletedMagic
  exact Holds.contig (d := d) h (by decide)

theorem deleted_read {d : Disk} {p : Nat} (h : Holds d p deletedMagic) : d.read p 16 = deletedMagic := h.read_eq deletedMagic_length

theorem readEntry_magic {al : Alloc} {d : Disk} {o : OpenOptions} {e : Entry} {sb : SubBlock} (h : readEntry al d.stream o e = .ok sb) :
    d.read e.filePosition 16 = subBlockMagic := by
  unfold readEntry at h
  obtain ⟨v, h1, _⟩ := Except.bind_eq_ok h
  unfold readSubBlockData at h1
  obtain ⟨r, h2, _⟩ := Except.bind_eq_ok h1
  unfold readSbHeader at h2
  obtain ⟨b, h3, h4⟩ := Except.bind_eq_ok h2
  obtain ⟨rfl, hs⟩ := readExact_size h3
  split at h4
  · cases h4
  · rename_i hm
    have := Decidable.not_not.1 hm
    unfold segMagic at this
    rw [Disk.field_read (by omega) (hs (by omega)), Nat.add_zero] at this
    exact this

theorem readSubDir_magic {al : Alloc} {d : Disk} {o : ParseOptions} {pos : Nat} {r : List Entry × Int} (h : readSubDir al d.stream o pos = .ok r) :
    d.read pos 16 = subDirMagic := by
  unfold readSubDir at h
  obtain ⟨b, h1, h2⟩ := Except.bind_eq_ok h
  obtain ⟨rfl, hs⟩ := readExact_size h1
  have hs := hs (by omega)
  split at h2
  · cases h2
  · rename_i hm
    have := Decidable.not_not.1 hm
    unfold segMagic at this
    rw [Disk.field_read (by omega) hs, Nat.add_zero] at this
    exact this

theorem readSubBlock_deleted {al : Alloc} {d : Disk} {doc : Doc} {i : Nat} {e : Entry} (he : doc.entries[i]? = some e) (h : Holds d e.filePosition deletedMagic)
    (r : Option SubBlock) : doc.readSubBlock al d.stream i ≠ .ok r := by
  unfold Doc.readSubBlock
  rw [he]
  dsimp only
  intro hr
  cases hx : readEntry al d.stream doc.options e with
  | error x => rw [hx] at hr; cases hr
  | ok sb =>
    have h1 := readEntry_magic hx
    rw [deleted_read h] at h1
    exact absurd h1 (by decide)

theorem readAttachment_deleted {al : Alloc} {d : Disk} {doc : Doc} {i : Nat} {e : AttEntry} (he : doc.attachments[i]? = some e)
    (h : Holds d e.filePosition deletedMagic) (r : Option Attachment) : doc.readAttachment al d.stream i ≠ .ok r := by
  rw [Doc.readAttachment_eq, he]
  dsimp only
  intro hr
  cases hx : rwReadAtt al d.stream e with
  | error x => rw [hx] at hr; cases hr
  | ok sb =>
    have h1 := rwReadAtt_magic hx
    rw [deleted_read h] at h1
    exact absurd h1 (by decide)

theorem readMetadata_deleted {al : Alloc} {d : Disk} {doc : Doc} (h : Holds d doc.header.metadataPos deletedMagic) (m : MetaData) :
    doc.readMetadata al d.stream ≠ .ok m := by
  unfold Doc.readMetadata
  split
  · intro hr; cases hr
  · intro hr
    have h1 := (readMetadata_size hr).2
    rw [deleted_read h] at h1
    exact absurd h1 (by decide)

theorem unopenable_sub {al : Alloc} {d : Disk} {hd : Header} (hh : readHeader d.stream = .ok hd) (h : Holds d hd.subDirPos deletedMagic) : Unopenable al d := by
  intro o doc hx
  obtain ⟨hd', es, x, as, h1, h2, _, _⟩ := openDoc_inv hx
  rw [hh] at h1
  cases h1
  have h3 := readSubDir_magic h2
  rw [deleted_read h] at h3
  exact absurd h3 (by decide)

theorem unopenable_att {al : Alloc} {d : Disk} {hd : Header} (hh : readHeader d.stream = .ok hd) (h0 : hd.attDirPos ≠ 0)
    (h : Holds d hd.attDirPos deletedMagic) : Unopenable al d := by
  intro o doc hx
  obtain ⟨hd', es, x, as, h1, h2, _, h4⟩ := openDoc_inv hx
  rw [hh] at h1
  cases h1
  rcases h4 with ⟨c, _⟩ | ⟨_, y, hy⟩
  · exact h0 c
  · have h3 := (readAttDir_alloc hy).2.2
    rw [deleted_read h] at h3
    exact absurd h3 (by decide)

/-! ## The first write when a segment has to move -/

theorem place_marks {α : Type} {i : SegInfo} {mark : SegInfo → Bool} {n need own : Nat} (f : Nat × Nat → Plan α) (h1 : i.alloc < need) (h2 : 0 < i.alloc)
    (h3 : 0 < i.pos) (h4 : mark i = true) : (place (some i) mark n need own >>= f).writes = (i.pos, deletedMagic) :: (f (n, own)).writes := by
  have : place (some i) mark n need own = ⟨[(i.pos, deletedMagic)], .ok (n, own)⟩ := by
    unfold place markUnused writeDeleted
    dsimp only
    rw [if_neg (by omega), if_pos ⟨h2, h3, h4⟩]
    rfl
  rw [this, Plan.bind_ok]
  rfl

theorem subDir_marks {i : SegInfo} {n : Nat} {es : List Entry} (h1 : i.alloc < align (128 + (es.map entryBytes).flatten.length)) (h2 : 0 < i.alloc)
    (h3 : 0 < i.pos) : ∃ ws, (writeSubDir (some i) (fun _ => true) n es).writes = (i.pos, deletedMagic) :: ws :=
  ⟨_, place_marks _ h1 h2 h3 rfl⟩

theorem attDir_marks {i : SegInfo} {n : Nat} {es : List AttEntry} (h1 : i.alloc < 256 + es.length * 128) (h2 : 0 < i.alloc)
    (h3 : 0 < i.pos) : ∃ ws, (writeAttDir (some i) (fun _ => true) n es).writes = (i.pos, deletedMagic) :: ws :=
  ⟨_, place_marks _ h1 h2 h3 rfl⟩

theorem header_write {d : Disk} {hd : Header} (h : readHeader d.stream = .ok hd) (hs : 544 ≤ d.size) {p : Nat} (hp : 544 ≤ p) (l : List UInt8) :
    readHeader (d.write p l).stream = .ok hd :=
  readHeader_agree h hs (apply_agree (d := d) (ws := [(p, l)]) (by intro w hw; rcases List.mem_singleton.1 hw with rfl; right; exact hp))

theorem close_sub_crash {al : Alloc} {d : Disk} {o : OpenOptions} {doc : Doc} {info : RWInfo} {s : RW} (h : SoundDoc al d o doc)
    (hc : rwCreate al ⟨RWState.init, d⟩ info = (s, none)) {ops : List EditOp} (ho : ∀ p ∈ ops, EditOk p) (ha : 0 < allocAt d doc.header.subDirPos)
    (hm : AppendsSubDir (rwCalls s ops)) : Unopenable al (leftBy (rwCalls s ops) .close 1 0) := by
  obtain ⟨top, last, a, hop⟩ := opened_crash h hc
  obtain ⟨h1, h2, h3⟩ := hop.calls ho
  have hseg : (rwCalls s ops).w.subDirSeg = some ⟨doc.header.subDirPos, allocAt d doc.header.subDirPos, false⟩ := congrArg Prod.fst h1.dirSegs
  have h544 : 544 ≤ doc.header.subDirPos := h.behind _ (by unfold segmentsOf; simp)
  obtain ⟨n, en, _, _⟩ := h1.ensureNext hop.base h2
  obtain ⟨ws, hw⟩ := subDir_marks (n := n) (hm.2 _ hseg) ha (by dsimp only; omega)
  have hwr : ∃ vs, editWrites (rwCalls s ops) .close = (doc.header.subDirPos, deletedMagic) :: vs := by
    unfold editWrites
    rw [if_neg (by rw [h1.operational]; intro x; cases x)]
    dsimp only
    unfold closeWrites closeSubDirWrites
    rw [if_pos hm.1, en]
    dsimp only
    rw [hseg, hw]
    exact ⟨_, rfl⟩
  obtain ⟨vs, hvs⟩ := hwr
  unfold leftBy
  rw [hvs, cut_one]
  refine unopenable_sub (header_write h3.header h3.size h544 _) ?_
  rw [hop.places.1]
  exact deleted_holds _ _

theorem close_att_crash {al : Alloc} {d : Disk} {o : OpenOptions} {doc : Doc} {info : RWInfo} {s : RW} (h : SoundDoc al d o doc)
    (hc : rwCreate al ⟨RWState.init, d⟩ info = (s, none)) {ops : List EditOp} (ho : ∀ p ∈ ops, EditOk p) (h0 : doc.header.attDirPos ≠ 0)
    (ha : 0 < allocAt d doc.header.attDirPos) (hn : (rwCalls s ops).w.dir.isModified = false)
    (hm : AppendsAttDir (rwCalls s ops)) : Unopenable al (leftBy (rwCalls s ops) .close 1 0) := by
  obtain ⟨top, last, a, hop⟩ := opened_crash h hc
  obtain ⟨h1, h2, h3⟩ := hop.calls ho
  have hseg : (rwCalls s ops).w.attDirSeg = some ⟨doc.header.attDirPos, allocAt d doc.header.attDirPos, false⟩ := by
    have := congrArg Prod.snd h1.dirSegs
    rw [show (rwCalls s ops).w.attDirSeg = segAt d doc.header.attDirPos from this]
    unfold segAt
    rw [if_neg h0]
  have h544 : 544 ≤ doc.header.attDirPos := h.behind _ (by unfold segmentsOf; simp [h0])
  obtain ⟨n, en, _, _⟩ := h1.ensureNext hop.base h2
  have hlt := hm.2 _ hseg
  obtain ⟨ws, hw⟩ := attDir_marks (n := n) (i := ⟨doc.header.attDirPos, allocAt d doc.header.attDirPos, false⟩)
    (es := (rwCalls s ops).w.att.atts.map Prod.snd) (by rw [List.length_map]; dsimp only at hlt ⊢; omega) ha (by dsimp only; omega)
  have hwr : ∃ vs, editWrites (rwCalls s ops) .close = (doc.header.attDirPos, deletedMagic) :: vs := by
    unfold editWrites
    rw [if_neg (by rw [h1.operational]; intro x; cases x)]
    dsimp only
    unfold closeWrites closeSubDirWrites rwCloseSubDir writesThen
    rw [hn]
    dsimp only
    unfold closeAttDirWrites
    rw [if_neg (by intro x; cases x), if_neg (by intro x; cases x)]
    dsimp only
    rw [if_pos hm.1, en]
    dsimp only
    rw [hseg, hw]
    exact ⟨_, rfl⟩
  obtain ⟨vs, hvs⟩ := hwr
  unfold leftBy
  rw [hvs, cut_one]
  refine unopenable_att (header_write h3.header h3.size h544 _) (by rw [hop.places.2.1]; exact h0) ?_
  rw [hop.places.2.1]
  exact deleted_holds _ _

theorem meta_crash {al : Alloc} {d : Disk} {o : OpenOptions} {doc : Doc} {info : RWInfo} {s : RW} (h : SoundDoc al d o doc)
    (hc : rwCreate al ⟨RWState.init, d⟩ info = (s, none)) {m : MetaInfo} (hm : EditOk (.writeMetadata m)) (hmc : m.check = true)
    (h0 : doc.header.metadataPos ≠ 0) (ha : 0 < allocAt d doc.header.metadataPos)
    (hlt : allocAt d doc.header.metadataPos < align (256 + (m.xmlBytes.length + m.attBytes.length))) {k : Nat} (hk : 1 ≤ k) (j : Nat) (r : MetaData) :
    (reopened info doc).readMetadata al (leftBy s (.writeMetadata m) k j).stream ≠ .ok r := by
  obtain ⟨top, last, a, hop⟩ := opened_crash h hc
  have hseg : s.w.metaSeg = some ⟨doc.header.metadataPos, allocAt d doc.header.metadataPos, false⟩ := by
    rw [hop.metaSeg]
    unfold segAt
    rw [if_neg h0]
  obtain ⟨n, en, hn, _⟩ := hop.knows.ensureNext hop.base hop.sizes
  have hg := heapOf_meta (d := d) h0
  have hfin := hop.base.high _ _ hg
  have h544 := hop.base.low _ _ hg
  have hsmall := hop.base.small
  have hfin : doc.header.metadataPos + 32 + allocAt d doc.header.metadataPos ≤ top := hfin
  have h544 : 544 ≤ doc.header.metadataPos := h544
  obtain ⟨mw, pos, alloc, hpl, ws, ew, hcon⟩ := writeMetadata_ok (some ⟨doc.header.metadataPos, allocAt d doc.header.metadataPos, false⟩) (fun _ => true) n m
    (by intro i hi; cases hi; dsimp only; omega) (by have := hm.1; have := hm.2; omega)
  have hbl := m.body_length alloc
  rcases hpl with ⟨i, e1, e2, _⟩ | ⟨_, e2, e3, e4⟩
  · cases e1
    dsimp only at e2
    omega
  · subst e2
    have hmw : mw = [(doc.header.metadataPos, deletedMagic)] := by
      rw [e4]
      unfold markUnused writeDeleted
      dsimp only
      rw [if_pos ⟨ha, by omega, rfl⟩]
      rfl
    have hwr : editWrites s (.writeMetadata m) = (doc.header.metadataPos, deletedMagic) :: ws := by
      unfold editWrites
      rw [if_neg (by rw [hop.knows.operational]; intro x; cases x)]
      dsimp only
      unfold writeMetadataWrites
      rw [if_neg (by rw [hmc]; intro x; cases x), en]
      dsimp only
      rw [hseg, ew, hmw]
      rfl
    have h3 := le_align (256 + (m.xmlBytes.length + m.attBytes.length))
    have hw := fill_within hcon (by omega)
    refine readMetadata_deleted ?_ r
    rw [hop.places.2.2]
    unfold leftBy
    rw [hwr, cut_head hk]
    show Holds (apply (s.disk.write doc.header.metadataPos deletedMagic) _) _ _
    refine (deleted_holds s.disk doc.header.metadataPos).agree (apply_agree ?_)
    intro w hx
    obtain ⟨v, hv, f1, f2⟩ := cut_mem hx
    have := (hw v hv).1
    rw [deletedMagic_length]
    right
    omega

theorem openedDir_get {s : RW} {doc : Doc} (h : s.w.dir = RWDir.init.addAll doc.entries) {i : Nat} {e : Entry} (he : doc.entries[i]? = some e) :
    s.w.dir.tryGet i = some e := by
  rw [h, (openedDir doc.entries).2.2.2.2, if_pos (by omega), Int.toNat_natCast, he]

theorem openedAtts_get {s : RW} {doc : Doc} (h : s.w.att = RWAtts.init.addAll doc.attachments) {i : Nat} {e : AttEntry} (he : doc.attachments[i]? = some e) :
    s.w.att.tryGet i = some e := by
  rw [h, (openedAtts doc.attachments).2.2.2.2, if_pos (by omega), Int.toNat_natCast, he]

theorem removeSub_crash {al : Alloc} {d : Disk} {o : OpenOptions} {doc : Doc} {info : RWInfo} {s : RW} (h : SoundDoc al d o doc)
    (hc : rwCreate al ⟨RWState.init, d⟩ info = (s, none)) {i : Nat} (hi : i < doc.entries.length) {k : Nat} (hk : 1 ≤ k) (j : Nat) (r : Option SubBlock) :
    (reopened info doc).readSubBlock al (leftBy s (.removeSubBlock i) k j).stream i ≠ .ok r := by
  obtain ⟨top, last, a, hop⟩ := opened_crash h hc
  have he := List.getElem?_eq_getElem hi
  have hget := openedDir_get hop.dir he
  obtain ⟨d', ed, _⟩ := rwdir_remove hop.knows.dirInv hget
  have hwr : editWrites s (.removeSubBlock i) = [(doc.entries[i].filePosition, deletedMagic)] := by
    unfold editWrites
    rw [if_neg (by rw [hop.knows.operational]; intro x; cases x)]
    dsimp only
    unfold removeSubBlockWrites
    rw [ed]
    rfl
  refine readSubBlock_deleted (e := doc.entries[i]) he ?_ r
  unfold leftBy
  rw [hwr, cut_all (by simpa using hk)]
  exact deleted_holds _ _

theorem removeAtt_crash {al : Alloc} {d : Disk} {o : OpenOptions} {doc : Doc} {info : RWInfo} {s : RW} (h : SoundDoc al d o doc)
    (hc : rwCreate al ⟨RWState.init, d⟩ info = (s, none)) {i : Nat} (hi : i < doc.attachments.length) {k : Nat} (hk : 1 ≤ k) (j : Nat) (r : Option Attachment) :
    (reopened info doc).readAttachment al (leftBy s (.removeAttachment i) k j).stream i ≠ .ok r := by
  obtain ⟨top, last, a, hop⟩ := opened_crash h hc
  have he := List.getElem?_eq_getElem hi
  have hget := openedAtts_get hop.att he
  obtain ⟨d', ed, _⟩ := rwatt_remove hop.knows.attInv hget
  have hwr : editWrites s (.removeAttachment i) = [(doc.attachments[i].filePosition, deletedMagic)] := by
    unfold editWrites
    rw [if_neg (by rw [hop.knows.operational]; intro x; cases x)]
    dsimp only
    unfold removeAttachmentWrites
    rw [ed]
    rfl
  refine readAttachment_deleted (e := doc.attachments[i]) he ?_ r
  unfold leftBy
  rw [hwr, cut_all (by simpa using hk)]
  exact deleted_holds _ _

theorem replaceSub_crash {al : Alloc} {d : Disk} {o : OpenOptions} {doc : Doc} {info : RWInfo} {s : RW} (h : SoundDoc al d o doc)
    (hc : rwCreate al ⟨RWState.init, d⟩ info = (s, none)) {i : Nat} (hi : i < doc.entries.length) {x : AddInfo} (hx : EditOk (.replaceSubBlock i x))
    (hlt : allocAt d doc.entries[i].filePosition + 32 < x.usedSize) {k : Nat} (hk : (editWrites s (.replaceSubBlock i x)).length ≤ k) (j : Nat)
    (r : Option SubBlock) : (reopened info doc).readSubBlock al (leftBy s (.replaceSubBlock i x) k j).stream i ≠ .ok r := by
  obtain ⟨top, last, a, hop⟩ := opened_crash h hc
  have he := List.getElem?_eq_getElem hi
  have hget := openedDir_get hop.dir he
  have hg := heapOf_sub (d := d) he
  have hgood := hop.keeps.keep _ _ hg id
  obtain ⟨g1, g2⟩ := (origSeg d doc.entries[i].filePosition).hdr _ hgood
  have hfin := hop.base.high _ _ hg
  have hsmall := hop.base.small
  have hfin : doc.entries[i].filePosition + 32 + allocAt d doc.entries[i].filePosition ≤ top := hfin
  obtain ⟨f1, f2, sb, sb', _, f4, _⟩ := h.subBlocks _ (List.mem_of_getElem? he)
  have hm := rwReadEntry_magic ((LooksOnlyAt.good f2 s.disk hgood).trans f4)
  obtain ⟨u, hu⟩ := readSegmentHeader_eq (p := doc.entries[i].filePosition) (alloc := allocAt d doc.entries[i].filePosition) g1 g2 (by omega) hm
  have hwr : ∃ ws, editWrites s (.replaceSubBlock i x) = ws ++ [(doc.entries[i].filePosition, deletedMagic)] := by
    unfold editWrites
    rw [if_neg (by rw [hop.knows.operational]; intro x; cases x)]
    dsimp only
    unfold replaceSubBlockWrites
    rw [hget]
    dsimp only
    rw [hu]
    dsimp only
    rw [(u64_alloc (a := allocAt d doc.entries[i].filePosition) (by omega)).2, if_pos hlt]
    obtain ⟨n, en, hn, _⟩ := hop.knows.ensureNext hop.base hop.sizes
    rw [en]
    dsimp only
    obtain ⟨ws, ew, _⟩ := sub_append hx.1 hx.2.2 n
    rw [ew]
    refine ⟨ws, ?_⟩
    rw [Plan.bind_ok]
    unfold writeDeleted
    rw [Plan.write_eq, Plan.bind_ok, Plan.pure_eq]
    dsimp only
    rw [List.append_nil]
  obtain ⟨ws, hws⟩ := hwr
  refine readSubBlock_deleted (e := doc.entries[i]) he ?_ r
  unfold leftBy
  rw [cut_all hk, hws, apply_append]
  exact deleted_holds _ _

theorem replaceAtt_crash {al : Alloc} {d : Disk} {o : OpenOptions} {doc : Doc} {info : RWInfo} {s : RW} (h : SoundDoc al d o doc)
    (hc : rwCreate al ⟨RWState.init, d⟩ info = (s, none)) {i : Nat} (hi : i < doc.attachments.length) {x : AddAtt} (hx : EditOk (.replaceAttachment i x))
    (hlt : allocAt d doc.attachments[i].filePosition < 256 + x.bytes.length) {k : Nat} (hk : (editWrites s (.replaceAttachment i x)).length ≤ k) (j : Nat)
    (r : Option Attachment) : (reopened info doc).readAttachment al (leftBy s (.replaceAttachment i x) k j).stream i ≠ .ok r := by
  obtain ⟨top, last, a, hop⟩ := opened_crash h hc
  have he := List.getElem?_eq_getElem hi
  have hget := openedAtts_get hop.att he
  have hg := heapOf_att (d := d) he
  have hgood := hop.keeps.keep _ _ hg id
  obtain ⟨g1, g2⟩ := (origSeg d doc.attachments[i].filePosition).hdr _ hgood
  have hfin := hop.base.high _ _ hg
  have hsmall := hop.base.small
  have hfin : doc.attachments[i].filePosition + 32 + allocAt d doc.attachments[i].filePosition ≤ top := hfin
  obtain ⟨f1, sb, f4⟩ := h.attachments _ (List.mem_of_getElem? he)
  have hm := rwReadAtt_magic ((LooksOnlyAt.good f1 s.disk hgood).trans f4)
  obtain ⟨u, hu⟩ := readSegmentHeader_eq (p := doc.attachments[i].filePosition) (alloc := allocAt d doc.attachments[i].filePosition) g1 g2 (by omega) hm
  have hwr : ∃ ws, editWrites s (.replaceAttachment i x) = ws ++ [(doc.attachments[i].filePosition, deletedMagic)] := by
    unfold editWrites
    rw [if_neg (by rw [hop.knows.operational]; intro x; cases x)]
    dsimp only
    unfold replaceAttachmentWrites
    rw [hget]
    dsimp only
    rw [hu]
    dsimp only
    rw [(u64_alloc (a := allocAt d doc.attachments[i].filePosition) (by omega)).1, if_pos hlt]
    obtain ⟨n, en, hn, _⟩ := hop.knows.ensureNext hop.base hop.sizes
    rw [en]
    dsimp only
    obtain ⟨ws, ew, _⟩ := att_append x hx.1 n
    rw [ew]
    refine ⟨ws, ?_⟩
    rw [Plan.bind_ok]
    unfold writeDeleted
    rw [Plan.write_eq]
  obtain ⟨ws, hws⟩ := hwr
  refine readAttachment_deleted (e := doc.attachments[i]) he ?_ r
  unfold leftBy
  rw [cut_all hk, hws, apply_append]
  exact deleted_holds _ _

end Verif.Czi
