import Verif.Proof.FailedAdd
import Verif.Props.Document

/-!
# C48 crashes while writing, C08 failed adds

`crashed dup info ops k j` is the file left if the process stops after `k` complete writes and `j` bytes of the next one (`Spec/Crash.lean`).
-/

namespace Verif
open Spec Czi

attribute [local irreducible] zeros

/-! ## C48 -/

/-- **C48 (partial: the last write, of the file header, is not cut inside one of the three 8-byte positions in it, unless the bytes missing are zero because of the size of the file; under 2 GB and with
names that end, as in C01–C03; attachment reservation filled as in C02).** For every sequence of calls and every crash point: either the file does not
open (only if the last write was not complete), or it opens and
- all sub-blocks added are listed, and each reads back as given,
- either no attachment is listed, or all are and each reads back as given,
- the metadata are reported as not present, or are those of the last successful `SyncWriteMetadata`. -/
theorem C48_crash_partial (dup : Bool) (info : WriterInfo) (ops : List WOp) (hi : InfoOk info) (hops : OpsOk ops)
    (hsz : ∀ a ∈ subsOf ops, a.sizeData ≤ 2147483647) (hat : ∀ a ∈ attsOf ops, a.bytes.length < 2 ^ 31 ∧ 0 ∈ a.name.toList)
    (hmt : ∀ m, .writeMetadata m ∈ ops → m.xmlBytes.length < 2 ^ 31 ∧ m.attBytes.length < 2 ^ 31)
    (k j : Nat) (o : OpenOptions) (al : Alloc) (hal : ∀ n, al n = true) :
    ∃ disk done, writeDoc dup Disk.empty info ops = some (disk, done) ∧ (ReservationFilled info (attsOf done).length →
      (k + 1 = (docTrace dup info ops).length → ¬ TornPosition disk.size j) →
      ((∀ doc, openDoc al (crashed dup info ops k j).stream o ≠ .ok doc) ∧
        (k + 1 < (docTrace dup info ops).length ∨ k + 1 = (docTrace dup info ops).length ∧ j ≤ 84)) ∨
      ∃ doc, openDoc al (crashed dup info ops k j).stream o = .ok doc ∧
        (∃ sbs : List SubBlock, sbs.length = doc.entries.length ∧
          (∀ i (h : i < sbs.length), doc.readSubBlock al (crashed dup info ops k j).stream i = .ok (some sbs[i])) ∧
          (sbs.map viewRead).Perm ((subsOf done).map viewAdded)) ∧
        (doc.attachments = [] ∨ doc.attachments.length = (attsOf done).length ∧
          ∀ i (h : i < (attsOf done).length), doc.readAttachment al (crashed dup info ops k j).stream i = .ok (some (attachmentOf (attsOf done)[i]))) ∧
        (doc.readMetadata al (crashed dup info ops k j).stream = .error .notPresent ∨
          ∃ m, lastMeta done = some m ∧ doc.readMetadata al (crashed dup info ops k j).stream = .ok (metaOf m))) := by
  obtain ⟨d, done, e, segs, q, sp, mp, ap, dir, att, hw, hcases⟩ := crash_cases dup info ops hi hops
  refine ⟨d, done, e, ?_⟩
  intro hres hkj
  have hs := writeDoc_sublist e
  have hsub : ∀ a ∈ subsOf done, a.sizeData ≤ 2147483647 := fun a ha => hsz a ((hs.filterMap _).subset ha)
  have hatt : ∀ a ∈ attsOf done, a.bytes.length < 2 ^ 31 ∧ 0 ∈ a.name.toList := fun a ha => hat a ((hs.filterMap _).subset ha)
  have hm : ∀ m, lastMeta done = some m → m.xmlBytes.length < 2 ^ 31 ∧ m.attBytes.length < 2 ^ 31 := fun m hm => hmt m (hs.subset (lastMeta_mem hm))
  rcases hcases k j hkj with ⟨h, h'⟩ | ⟨mp', mt', h, hmt'⟩ | h
  · exact .inl ⟨h al o, h'⟩
  · right
    obtain ⟨as, eo, k1, _⟩ := h.open hal o
    obtain ⟨sbs, s1, s2, s3, _⟩ := h.subBlocks hal o hsub
    have hm' : ∀ m, mt' = some m → m.xmlBytes.length < 2 ^ 31 ∧ m.attBytes.length < 2 ^ 31 := by
      intro m e
      rcases hmt' with rfl | rfl
      · cases e
      · exact hm m e
    refine ⟨_, eo, ⟨sbs, s1, ?_, s3⟩, .inl (k1 rfl), ?_⟩
    · intro i h
      unfold Doc.readSubBlock
      dsimp only
      rw [List.getElem?_eq_getElem (by omega)]
      dsimp only
      rw [s2 i (by omega) h]
      rfl
    · have := h.metadata hal o dir as hm'
      cases mt' with
      | none => exact .inl this
      | some m =>
        refine .inr ⟨m, ?_, this⟩
        rcases hmt' with h | h
        · cases h
        · exact h.symm
  · right
    have eo := h.listed hres hal o
    obtain ⟨sbs, s1, s2, s3, _⟩ := h.subBlocks hal o hsub
    refine ⟨_, eo, ⟨sbs, s1, ?_, s3⟩, .inr ⟨by simp [h.att_length], ?_⟩, ?_⟩
    · intro i h
      unfold Doc.readSubBlock
      dsimp only
      rw [List.getElem?_eq_getElem (by omega)]
      dsimp only
      rw [s2 i (by omega) h]
      rfl
    · intro i hi
      have hm := hatt _ (List.getElem_mem hi)
      rw [h.readAttachment hal _ _ o i hi hm.1]
      congr 2
      unfold attachmentRead
      rw [List.take_of_length_le]
      · rfl
      · unfold cstr
        have := takeWhile_length_lt (fun x : UInt8 => decide (x ≠ 0)) hm.2 (by simp)
        rw [Vector.length_toList] at this
        exact Nat.le_of_lt_succ this
    · have := h.metadata hal o dir (att.map AttEntry.read) hm
      cases hl : lastMeta done with
      | none => rw [hl] at this; exact .inl this
      | some m => rw [hl] at this; exact .inr ⟨m, rfl, this⟩

/-- Most crash points are not excluded: any before the last write; in the last write any at a multiple of 4 other than 88, 96 and 108, and in a file below 16 MB
all but those in the first two bytes of a position. -/
example : (∀ k j n size, k + 1 < n → (k + 1 = n → ¬ TornPosition size j)) ∧ (∀ size, ¬ TornPosition size 84 ∧ ¬ TornPosition size 92 ∧ ¬ TornPosition size 112) ∧
    ∀ size, size < 2 ^ 24 → ¬ TornPosition size 87 ∧ ¬ TornPosition size 96 ∧ ¬ TornPosition size 111 := by
  unfold TornPosition
  exact ⟨by omega, by omega, by omega⟩

private def exFakeInfo : WriterInfo := ⟨⟨0x5253495A, 0x5741, 0x454D, #v[0x54, 0x41, 0x44, 0x41, 0x54, 0x41, 0, 0]⟩, none, none, none, none, none⟩

private def exFakeOps : List WOp := [.addSubBlock exSub, .addAttachment { exAtt with data := some (List.replicate 192 7) }, .writeMetadata exMeta]

private def exFake : Disk := crashed false exFakeInfo exFakeOps ((docTrace false exFakeInfo exFakeOps).length - 1) 93

private theorem ok_of_map {ε α β : Type} {x : Except ε α} {f : α → β} {v : β} (h : x.toOption.map f = some v) : ∃ a, x = .ok a ∧ f a = v := by
  cases x with
  | error e => cases h
  | ok a => exact ⟨a, rfl, Option.some.inj h⟩

/-- **C48 is violated by a position that is torn.** A document whose metadata begin at 1344 = 5 · 256 + 64. The last write is cut after the first byte of this position,
so that the header points to 64, where the identifier of the file is; if its bytes spell the name of a metadata segment, then the document opens, and its metadata are
not those given, but empty. -/
theorem C48_torn_position_violated : ∃ (info : WriterInfo) (ops : List WOp) (disk : Disk) (done : List WOp) (m : MetaInfo) (k j : Nat),
    writeDoc false Disk.empty info ops = some (disk, done) ∧ lastMeta done = some m ∧ m.xmlBytes ≠ [] ∧ k + 1 = (docTrace false info ops).length ∧
    TornPosition disk.size j ∧
    ∃ doc x, openDoc (fun _ => true) (crashed false info ops k j).stream OpenOptions.default = .ok doc ∧
      doc.readMetadata (fun _ => true) (crashed false info ops k j).stream = .ok x ∧ x ≠ metaOf m := by
  have h1 : (writeDoc false Disk.empty exFakeInfo exFakeOps).map (fun r => (decide (256 ≤ r.1.size), (lastMeta r.2).map MetaInfo.xmlBytes)) =
      some (true, some [60, 97, 47, 62]) := by decide +kernel
  have h2 : (openDoc (fun _ => true) exFake.stream OpenOptions.default).toOption.map (fun d => (d.readMetadata (fun _ => true) exFake.stream).toOption.map
      (fun x => x.xml.bytes)) = some (some none) := by decide +kernel
  have h3 : 0 < (docTrace false exFakeInfo exFakeOps).length := by decide +kernel
  obtain ⟨r, e1, e2⟩ := Option.map_eq_some_iff.1 h1
  obtain ⟨disk, done⟩ := r
  injection e2 with e2 e3
  obtain ⟨m, e4, e5⟩ := Option.map_eq_some_iff.1 e3
  obtain ⟨doc, e6, e7⟩ := ok_of_map h2
  obtain ⟨x, e8, e9⟩ := ok_of_map e7
  refine ⟨exFakeInfo, exFakeOps, disk, done, m, (docTrace false exFakeInfo exFakeOps).length - 1, 93, e1, e4, ?_, by omega,
    .inr (.inl ⟨by omega, by omega, of_decide_eq_true e2⟩), doc, x, e6, e8, ?_⟩
  · rw [e5]; exact List.cons_ne_nil _ _
  · intro h
    rw [h] at e9
    unfold metaOf at e9
    rw [e5] at e9
    dsimp only at e9
    revert e9
    decide +kernel

/-! ## C08 -/

/-- **C08 (partial: calls that do not get as far as writing).** Between `Create` and `Close`, a call with sources that deliver no null pointer and
sizes in range, on a stream that does not fail: if it throws (invalid argument, coordinate out of bounds, duplicate), then neither the writer nor the file
has changed; so the document is the one without the call. Outside: `C08_failed_add_is_listed`, `C08_failed_attachment_is_listed`. -/
theorem C08_rejected_call_changes_nothing_partial (dup : Bool) (d0 : Disk) (info : WriterInfo) (ops : List WOp) (hi : InfoOk info) (hops : OpsOk ops)
    (op : WOp) (hop : OpOk op) (e : WErr) (h : (step (opened dup d0 info ops).1 op).2 = some e) :
    (step (opened dup d0 info ops).1 op).1 = (opened dup d0 info ops).1 := by
  obtain ⟨segs, hinv, hn, _⟩ := opened_inv dup d0 info ops hi hops
  generalize (opened dup d0 info ops).1 = s at *
  cases op with
  | create i => exact hop.elim
  | close => exact hop.elim
  | addSubBlock a =>
    rcases step_addSubBlock hinv (a := a) hop with ⟨e, he⟩ | ⟨s', he, _, _⟩
    · rw [he]
    · rw [he] at h; cases h
  | addAttachment a =>
    rcases step_addAttachment hinv (a := a) hop with ⟨e, he⟩ | ⟨s', he, _, _⟩
    · rw [he]
    · rw [he] at h; cases h
  | writeMetadata m =>
    rcases step_writeMetadata hinv (m := m) hop (by omega) with ⟨e, he⟩ | ⟨s', segs1, he, _, _⟩
    · rw [he]
    · rw [he] at h; cases h

/-- A duplicate is rejected in the sample document. -/
example : (step (opened false Disk.empty exInfo [.addSubBlock exSub]).1 (.addSubBlock exSub)).2 = some .subBlockExists := by decide +kernel

/-- **C08 violated for sub-blocks:** in every document, if `SyncAddSubBlock` throws because a write fails (at whatever point, whatever part of
it got to the file) or because a callback delivers a null pointer, then a following `Close` succeeds, and the document lists one sub-block more than
were added. -/
theorem C08_failed_add_is_listed (dup : Bool) (d0 : Disk) (info : WriterInfo) (ops : List WOp) (hi : InfoOk info) (hops : OpsOk ops)
    (hlen : ops.length + 1 < 2 ^ 31) (a : AddInfo) (ha : AddFits a) (fs : List Fault) (e : WErr) (hc : e = .getDataCall ∨ e = .ioError)
    (h : (stepOp (opened dup d0 info ops).1 (.addSubBlock a) fs).2.1 = some e) (o : OpenOptions) (al : Alloc) (hal : ∀ n, al n = true) :
    ∃ s', step (stepOp (opened dup d0 info ops).1 (.addSubBlock a) fs).1 .close = (s', none) ∧
      ∃ doc, openDoc al s'.disk.stream o = .ok doc ∧ doc.entries.length = (subsOf (opened dup d0 info ops).2).length + 1 ∧
        a.entry (opened dup d0 info ops).1.w.next ∈ doc.entries := by
  obtain ⟨segs, hinv, hn, hle⟩ := opened_inv dup d0 info ops hi hops
  generalize opened dup d0 info ops = r at *
  obtain ⟨htry, ws, hst, hws⟩ := add_fails hc h
  have hperm := tryAdd_perm htry
  have hd1 := hinv.dir_length
  have hd2 := hinv.att_length
  have hsl : (subsOf r.2).length ≤ r.2.length := List.length_filterMap_le _ _
  have hall : (attsOf r.2).length ≤ r.2.length := List.length_filterMap_le _ _
  have hpl := hperm.length_eq
  rw [List.length_cons] at hpl
  have hph := hinv.toInvPhys.garbage (s' := ⟨{ r.1.w with dir := (r.1.w.dir.tryAdd (a.entry r.1.w.next)).1 }, apply r.1.disk ws⟩) rfl hws rfl rfl rfl rfl rfl
  obtain ⟨d, segs', q, sp, mp, ap, ws', e2, hcl, ⟨hq, _⟩, hf, hab, _, _⟩ := step_close hph hinv.attReserved hn (by dsimp only; omega) (by dsimp only; omega)
  rw [hst]
  refine ⟨_, e2, ?_⟩
  have hfits : ∀ x ∈ (r.1.w.dir.tryAdd (a.entry r.1.w.next)).1.subBlks, EntryFits x := by
    intro x hx
    rcases List.mem_cons.1 (hperm.mem_iff.1 hx) with rfl | hx
    · exact ha.entryFits (by omega)
    · exact hinv.fits hn x hx
  obtain ⟨as, eo, _, _⟩ := hcl.open hq hfits (by dsimp only; omega) (by dsimp only; omega) (fun hne => (hab hne).1) hal o
  refine ⟨_, eo, ?_, hperm.mem_iff.2 (List.mem_cons_self ..)⟩
  dsimp only
  omega

/-- A callback that delivers a null pointer, in the sample document. -/
example : (stepOp (opened false Disk.empty exInfo [.addSubBlock exSub]).1 (.addSubBlock { exSub with mIndex := some 4, data := some ⟨[], true⟩ }) []).2.1 =
    some .getDataCall := by decide +kernel

/-- A write that fails after 7 bytes, in the sample document. -/
example : (stepOp (opened false Disk.empty exInfo [.addSubBlock exSub]).1 (.addSubBlock { exSub with mIndex := some 4 }) [none, some 7]).2.1 =
    some .ioError := by decide +kernel

/-- **C08 violated for attachments:** the same if a write of `SyncAddAttachment` fails (without a reservation for the attachment directory). -/
theorem C08_failed_attachment_is_listed (dup : Bool) (d0 : Disk) (info : WriterInfo) (ops : List WOp) (hi : InfoOk info) (hops : OpsOk ops)
    (hlen : ops.length + 1 < 2 ^ 31) (hres : info.reservedAttDir = none) (a : AddAtt) (fs : List Fault)
    (h : (stepOp (opened dup d0 info ops).1 (.addAttachment a) fs).2.1 = some .ioError) (o : OpenOptions) (al : Alloc) (hal : ∀ n, al n = true) :
    ∃ s', step (stepOp (opened dup d0 info ops).1 (.addAttachment a) fs).1 .close = (s', none) ∧
      ∃ doc, openDoc al s'.disk.stream o = .ok doc ∧ doc.attachments.length = (attsOf (opened dup d0 info ops).2).length + 1 := by
  obtain ⟨segs, hinv, hn, hle⟩ := opened_inv dup d0 info ops hi hops
  generalize opened dup d0 info ops = r at *
  obtain ⟨ws, hst, hws⟩ := addAtt_fails h
  have hd1 := hinv.dir_length
  have hd2 := hinv.att_length
  have hsl : (subsOf r.2).length ≤ r.2.length := List.length_filterMap_le _ _
  have hall : (attsOf r.2).length ≤ r.2.length := List.length_filterMap_le _ _
  have hph := hinv.toInvPhys.garbage (s' := ⟨{ r.1.w with att := r.1.w.att ++ [a.entry r.1.w.next] }, apply r.1.disk ws⟩) rfl hws rfl rfl rfl rfl rfl
  have hal2 : (r.1.w.att ++ [a.entry r.1.w.next]).length = (attsOf r.2).length + 1 := by simp [hd2]
  obtain ⟨d, segs', q, sp, mp, ap, ws', e2, hcl, ⟨hq, _⟩, hf, hab, _, _⟩ := step_close hph hinv.attReserved hn (by dsimp only; omega) (by dsimp only; omega)
  rw [hst]
  refine ⟨_, e2, ?_⟩
  obtain ⟨as, eo, _, k2⟩ := hcl.open hq (hinv.fits hn) (by dsimp only; omega) (by dsimp only; omega) (fun hne => (hab hne).1) hal o
  refine ⟨_, eo, ?_⟩
  dsimp only at k2 ⊢
  have hpos : ∀ x ∈ r.1.w.att ++ [a.entry r.1.w.next], x.filePosition < 2 ^ 64 := by
    intro x hx
    rcases List.mem_append.1 hx with hx | hx
    · exact hinv.att_pos hn x hx
    · rw [List.mem_singleton.1 hx]
      show r.1.w.next < 2 ^ 64
      omega
  have hb := attEntriesOf_bytes _ hpos []
  rw [List.append_nil] at hb
  rw [k2 (by simp)]
  unfold attOnDisk
  rw [hres]
  dsimp only
  rw [hb, List.length_map, hal2]

/-- A write that fails, in a sample document. -/
example : (stepOp (opened false Disk.empty { exInfo with reservedAttDir := none } [.addSubBlock exSub]).1 (.addAttachment exAtt) [some 3]).2.1 =
    some .ioError := by decide +kernel

end Verif
