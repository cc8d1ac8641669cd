import Verif.Proof.EditCrashClose
import Verif.Props.ReaderWriter

/-!
# C82: A crash while a document is edited

The reader-writer (`CziReaderWriter.cpp`) writes to the file call by call, before the directories and the file header say so: those are written by
`Close`. A crash is modelled as stopping after any number of complete writes and any number of bytes of the next one; writes reach the file in program
order.
-/

namespace Verif

open Verif.Spec Verif.Czi

/-- **C82 (what a crash can leave behind).** Every call, whether it succeeds or fails, changes the file by exactly the writes of its trace, in this
order. So the files left by a crash during the call are those with a beginning of the trace applied: from the file before the call
(`leftBy s op 0 0`) to the file after it. -/
theorem C82_writes (s : RW) (op : EditOp) :
    (editStep s op).1.disk = apply s.disk (editWrites s op) ∧ leftBy s op 0 0 = s.disk ∧
    ∀ k j, (editWrites s op).length ≤ k → leftBy s op k j = (editStep s op).1.disk := by
  refine ⟨edit_disk s op, ?_, fun k j hk => ?_⟩
  · unfold leftBy cut
    cases editWrites s op <;> first | rfl | (show apply s.disk _ = _; simp [apply, Disk.write_nil])
  · unfold leftBy
    rw [cut_all hk, edit_disk]

/-- **C82 (crash before `Close`).** Open any sound document with a reader-writer and make any calls, some of which may fail; let the process stop at any
point during a further call that is not `Close`. The file can be opened, with the list of sub-blocks and attachments as it was before editing; every
sub-block and every attachment that no call replaced or removed, and the metadata if no call wrote them, read exactly as before editing. -/
theorem C82_untouched_partial {al : Alloc} {d : Disk} {o : OpenOptions} {doc : Doc} {info : RWInfo} {s : RW} (h : SoundDoc al d o doc)
    (hc : rwCreate al ⟨RWState.init, d⟩ info = (s, none)) {ops : List EditOp} {op : EditOp} (ho : ∀ p ∈ op :: ops, EditOk p) (k j : Nat) :
    openDoc al (leftBy (rwCalls s ops) op k j).stream o = .ok (reopened info doc) ∧
    (∀ i : Nat, (∀ p ∈ op :: ops, ¬ ChangesSub i p) →
      (reopened info doc).readSubBlock al (leftBy (rwCalls s ops) op k j).stream i = doc.readSubBlock al d.stream i) ∧
    (∀ i : Nat, (∀ p ∈ op :: ops, ¬ ChangesAtt i p) →
      (reopened info doc).readAttachment al (leftBy (rwCalls s ops) op k j).stream i = doc.readAttachment al d.stream i) ∧
    ((∀ p ∈ op :: ops, ¬ WritesMetadata p) →
      (reopened info doc).readMetadata al (leftBy (rwCalls s ops) op k j).stream = doc.readMetadata al d.stream) :=
  crash_reads h hc ho k j

/-- **C82 (crash while opening).** `Create` on a document writes at most the GUID. Wherever this stops, the file can be opened and everything in it
reads as before; only the GUID may be changed. -/
theorem C82_open {al : Alloc} {d : Disk} {o : OpenOptions} {doc : Doc} (h : SoundDoc al d o doc) (info : RWInfo) (k j : Nat) :
    ∃ g, openDoc al (apply d (cut (openWrites info) k j)).stream o = .ok { doc with header := { doc.header with guid := g } } ∧
    (∀ i : Nat, ({ doc with header := { doc.header with guid := g } } : Doc).readSubBlock al (apply d (cut (openWrites info) k j)).stream i = doc.readSubBlock al d.stream i) ∧
    (∀ i : Nat, ({ doc with header := { doc.header with guid := g } } : Doc).readAttachment al (apply d (cut (openWrites info) k j)).stream i = doc.readAttachment al d.stream i) ∧
    ({ doc with header := { doc.header with guid := g } } : Doc).readMetadata al (apply d (cut (openWrites info) k j)).stream = doc.readMetadata al d.stream :=
  open_crash h info k j

/-- **C82 (violated: `Close` that moves the sub-block directory).** Whenever `Close` needs a new place for the sub-block directory, its first write marks
the old directory as deleted, to which the file header still points: if the process stops after this write, the file cannot be opened at all,
though no sub-block of it may have been touched. -/
theorem C82_close_violated {al : Alloc} {d : Disk} {o : OpenOptions} {doc : Doc} {info : RWInfo} {s : RW} (h : SoundDoc al d o doc)
    (hc : rwCreate al ⟨RWState.init, d⟩ info = (s, none)) {ops : List EditOp} (ho : ∀ p ∈ ops, EditOk p) (ha : 0 < allocAt d doc.header.subDirPos)
    (hm : AppendsSubDir (rwCalls s ops)) : Unopenable al (leftBy (rwCalls s ops) .close 1 0) :=
  close_sub_crash h hc ho ha hm

/-- **C82 (violated: `Close` that moves the attachment directory).** The same holds for the attachment directory. -/
theorem C82_close_attachments_violated {al : Alloc} {d : Disk} {o : OpenOptions} {doc : Doc} {info : RWInfo} {s : RW} (h : SoundDoc al d o doc)
    (hc : rwCreate al ⟨RWState.init, d⟩ info = (s, none)) {ops : List EditOp} (ho : ∀ p ∈ ops, EditOk p) (h0 : doc.header.attDirPos ≠ 0)
    (ha : 0 < allocAt d doc.header.attDirPos) (hn : (rwCalls s ops).w.dir.isModified = false)
    (hm : AppendsAttDir (rwCalls s ops)) : Unopenable al (leftBy (rwCalls s ops) .close 1 0) :=
  close_att_crash h hc ho h0 ha hn hm

/-- **C82 (violated: metadata).** If `WriteMetadata` needs a new place, then from its first write on (also when the call has returned) until `Close` has
written the file header, the file has neither the old nor the new metadata: reading them fails. -/
theorem C82_metadata_violated {al : Alloc} {d : Disk} {o : OpenOptions} {doc : Doc} {info : RWInfo} {s : RW} (h : SoundDoc al d o doc)
    (hc : rwCreate al ⟨RWState.init, d⟩ info = (s, none)) {m : MetaInfo} (hm : EditOk (.writeMetadata m)) (hmc : m.check = true)
    (h0 : doc.header.metadataPos ≠ 0) (ha : 0 < allocAt d doc.header.metadataPos)
    (hlt : allocAt d doc.header.metadataPos < align (256 + (m.xmlBytes.length + m.attBytes.length))) {k : Nat} (hk : 1 ≤ k) (j : Nat) :
    openDoc al (leftBy s (.writeMetadata m) k j).stream o = .ok (reopened info doc) ∧
    ∀ r, (reopened info doc).readMetadata al (leftBy s (.writeMetadata m) k j).stream ≠ .ok r :=
  ⟨(crash_reads h hc (ops := []) (op := .writeMetadata m) (by simpa using hm) k j).1, fun r => meta_crash h hc hm hmc h0 ha hlt hk j r⟩

/-- **C82 (violated: removing).** After `RemoveSubBlock` or `RemoveAttachment` and before `Close`, the file still lists the item, but reading it fails. -/
theorem C82_remove_violated {al : Alloc} {d : Disk} {o : OpenOptions} {doc : Doc} {info : RWInfo} {s : RW} (h : SoundDoc al d o doc)
    (hc : rwCreate al ⟨RWState.init, d⟩ info = (s, none)) {i k : Nat} (hk : 1 ≤ k) (j : Nat) :
    (i < doc.entries.length → openDoc al (leftBy s (.removeSubBlock i) k j).stream o = .ok (reopened info doc) ∧
      ∀ r, (reopened info doc).readSubBlock al (leftBy s (.removeSubBlock i) k j).stream i ≠ .ok r) ∧
    (i < doc.attachments.length → openDoc al (leftBy s (.removeAttachment i) k j).stream o = .ok (reopened info doc) ∧
      ∀ r, (reopened info doc).readAttachment al (leftBy s (.removeAttachment i) k j).stream i ≠ .ok r) :=
  ⟨fun hi => ⟨(crash_reads h hc (ops := []) (op := .removeSubBlock i) (by simp [EditOk]) k j).1, fun r => removeSub_crash h hc hi hk j r⟩,
   fun hi => ⟨(crash_reads h hc (ops := []) (op := .removeAttachment i) (by simp [EditOk]) k j).1, fun r => removeAtt_crash h hc hi hk j r⟩⟩

/-- **C82 (violated: replacing by something larger).** After `ReplaceSubBlock` or `ReplaceAttachment` that needs a new place and before `Close`, the file
lists the item, but it has neither the old nor the new contents: reading it fails. -/
theorem C82_replace_violated {al : Alloc} {d : Disk} {o : OpenOptions} {doc : Doc} {info : RWInfo} {s : RW} (h : SoundDoc al d o doc)
    (hc : rwCreate al ⟨RWState.init, d⟩ info = (s, none)) (i k j : Nat) :
    (∀ (hi : i < doc.entries.length) (x : AddInfo), EditOk (.replaceSubBlock i x) → allocAt d doc.entries[i].filePosition + 32 < x.usedSize →
      (editWrites s (.replaceSubBlock i x)).length ≤ k → openDoc al (leftBy s (.replaceSubBlock i x) k j).stream o = .ok (reopened info doc) ∧
      ∀ r, (reopened info doc).readSubBlock al (leftBy s (.replaceSubBlock i x) k j).stream i ≠ .ok r) ∧
    (∀ (hi : i < doc.attachments.length) (x : AddAtt), EditOk (.replaceAttachment i x) → allocAt d doc.attachments[i].filePosition < 256 + x.bytes.length →
      (editWrites s (.replaceAttachment i x)).length ≤ k → openDoc al (leftBy s (.replaceAttachment i x) k j).stream o = .ok (reopened info doc) ∧
      ∀ r, (reopened info doc).readAttachment al (leftBy s (.replaceAttachment i x) k j).stream i ≠ .ok r) :=
  ⟨fun hi x hx hlt hk => ⟨(crash_reads h hc (ops := []) (op := .replaceSubBlock i x) (by simpa using hx) k j).1, fun r => replaceSub_crash h hc hi hx hlt hk j r⟩,
   fun hi x hx hlt hk => ⟨(crash_reads h hc (ops := []) (op := .replaceAttachment i x) (by simpa using hx) k j).1, fun r => replaceAtt_crash h hc hi hx hlt hk j r⟩⟩

/-- **C82 (violated: `Close` that rewrites the sub-block directory in its place).** The bytes written begin with the new number of entries. If the process
stops after these and before the entries (`36 ≤ j ≤ 160`), a file that can be opened lists the first of the old entries, as many as the new directory has:
a sub-block that no call has touched is no longer listed if its old index is not below this number. This is so, for example, for the last sub-block of any
document after its first one has been removed. -/
theorem C82_close_in_place_violated {al : Alloc} {d : Disk} {o : OpenOptions} {doc : Doc} {info : RWInfo} {s : RW} (h : SoundDoc al d o doc)
    (hc : rwCreate al ⟨RWState.init, d⟩ info = (s, none)) {ops : List EditOp} (ho : ∀ p ∈ ops, EditOk p) (hm : (rwCalls s ops).w.dir.isModified = true)
    (hin : ¬ AppendsSubDir (rwCalls s ops)) (hsz : (rwCalls s ops).disk.size < 2 ^ 63) {i : Nat} (hi : i < doc.entries.length)
    (hn : (rwCalls s ops).w.dir.subBlks.length ≤ i) {j : Nat} (hj : 36 ≤ j) (hj' : j ≤ 160) {doc' : Doc}
    (hd : openDoc al (leftBy (rwCalls s ops) .close 0 j).stream o = .ok doc') :
    doc'.entries <+: doc.entries ∧ doc.entries[i] ∉ doc'.entries := by
  obtain ⟨h1, h2⟩ := close_torn h hc ho hm hin hsz (by omega) hj hj' hd
  exact ⟨h1, not_in_prefix h1 (sound_positions h) hi (by omega)⟩

/-! ## Concrete cases -/

theorem exRW2_create : rwCreate (fun _ => true) ⟨RWState.init, exDisk2⟩ ⟨false, exInfo.guid⟩ = (exRW2, none) := by
  have h : (rwCreate (fun _ => true) ⟨RWState.init, exDisk2⟩ ⟨false, exInfo.guid⟩).2 = none := by decide +kernel
  unfold exRW2
  rw [← h]

/-- The attachment that a reader of the file finds under index `i`. -/
def attachmentIn (d : Disk) (i : Nat) : Option (List UInt8) :=
  match openDoc (fun _ => true) d.stream exOpt with
  | .ok doc => match doc.readAttachment (fun _ => true) d.stream i with
    | .ok (some a) => a.data.bytes
    | _ => none
  | .error _ => none

/-- **C82 (violated: replacing in place).** `ReplaceAttachment` with data that fit overwrites the old data: if it stops in between, the attachment reads
as a mixture: here `[5, 6]` is replaced by `[7, 8]`, and after the crash a reader gets `[7, 6]`. -/
theorem C82_torn_violated : (∃ doc, SoundDoc (fun _ => true) exDisk2 exOpt doc) ∧
    rwCreate (fun _ => true) ⟨RWState.init, exDisk2⟩ ⟨false, exInfo.guid⟩ = (exRW2, none) ∧
    EditOk (.replaceAttachment 0 { exAtt with data := some [7, 8] }) ∧
    attachmentIn exDisk2 0 = some [5, 6] ∧
    attachmentIn (leftBy exRW2 (.replaceAttachment 0 { exAtt with data := some [7, 8] }) 1 1) 0 = some [7, 6] ∧
    attachmentIn (editStep exRW2 (.replaceAttachment 0 { exAtt with data := some [7, 8] })).1.disk 0 = some [7, 8] := by
  obtain ⟨doc, c, h1, _⟩ := exSound2
  exact ⟨⟨doc, h1⟩, exRW2_create, ⟨by decide, by decide⟩, by decide +kernel, by decide +kernel, by decide +kernel⟩

/-- `C82_untouched_partial` applies: attachment 0 is replaced, a sub-block added; the crash happens while attachment 1 is removed. The sub-block is untouched. -/
example : ∃ doc c, SoundDoc (fun _ => true) exDisk2 exOpt doc ∧ Initially (fun _ => true) exDisk2.stream doc c ∧ doc.entries.length = 1 ∧
    (∀ p ∈ [EditOp.removeAttachment 1, .replaceAttachment 0 exBig, .addSubBlock { exSub with coordinate := Coord.empty.set .T 2 }], EditOk p ∧ ¬ ChangesSub 0 p ∧ ¬ WritesMetadata p) := by
  obtain ⟨doc, c, h1, h2, _, h4, _⟩ := exSound2
  refine ⟨doc, c, h1, h2, h4, ?_⟩
  intro p hp
  simp only [List.mem_cons, List.not_mem_nil, or_false] at hp
  rcases hp with rfl | rfl | rfl
  · exact ⟨trivial, id, id⟩
  · exact ⟨⟨by decide +kernel, by decide +kernel⟩, id, id⟩
  · exact ⟨⟨exSub_ok 2 ⟨by decide, by decide⟩, by decide⟩, id, id⟩

/-- The hypotheses of `C82_close_violated` and `C82_close_attachments_violated`: adding a second sub-block, and adding a third attachment. -/
example : (∃ doc, SoundDoc (fun _ => true) exDisk2 exOpt doc ∧ 0 < allocAt exDisk2 doc.header.subDirPos ∧ doc.header.attDirPos ≠ 0 ∧ 0 < allocAt exDisk2 doc.header.attDirPos) ∧
    AppendsSubDir (rwCalls exRW2 [.addSubBlock { exSub with coordinate := Coord.empty.set .T 2 }]) ∧
    AppendsAttDir (rwCalls exRW2 [.addAttachment { exOther with guid := ⟨7, 7, 7, Vector.replicate 8 7⟩ }]) ∧
    (rwCalls exRW2 [.addAttachment { exOther with guid := ⟨7, 7, 7, Vector.replicate 8 7⟩ }]).w.dir.isModified = false := by
  obtain ⟨doc, c, h1, _, _, _, _, h6⟩ := exSound2
  have hx : (openDoc (fun _ => true) exDisk2.stream exOpt).toOption.map
      (fun doc => (decide (0 < allocAt exDisk2 doc.header.subDirPos), decide (doc.header.attDirPos ≠ 0))) = some (true, true) := by decide +kernel
  rw [h1.opened] at hx
  injection hx with hx
  injection hx with x1 x2
  refine ⟨⟨doc, h1, of_decide_eq_true x1, of_decide_eq_true x2, by omega⟩, ⟨by decide +kernel, ?_⟩, ⟨by decide +kernel, ?_⟩, by decide +kernel⟩
  · intro i hi
    have : ((rwCalls exRW2 [.addSubBlock { exSub with coordinate := Coord.empty.set .T 2 }]).w.subDirSeg).map (fun i => decide (i.alloc <
      align (128 + (((rwCalls exRW2 [.addSubBlock { exSub with coordinate := Coord.empty.set .T 2 }]).w.dir.subBlks.map Prod.snd).map entryBytes).flatten.length))) = some true := by
      decide +kernel
    rw [hi] at this
    injection this with this
    exact of_decide_eq_true this
  · intro i hi
    have : ((rwCalls exRW2 [.addAttachment { exOther with guid := ⟨7, 7, 7, Vector.replicate 8 7⟩ }]).w.attDirSeg).map (fun i => decide (i.alloc <
      256 + 128 * (rwCalls exRW2 [.addAttachment { exOther with guid := ⟨7, 7, 7, Vector.replicate 8 7⟩ }]).w.att.atts.length)) = some true := by
      decide +kernel
    rw [hi] at this
    injection this with this
    exact of_decide_eq_true this

/-- The hypotheses of `C82_remove_violated` and `C82_replace_violated`. -/
example : ∃ doc, SoundDoc (fun _ => true) exDisk2 exOpt doc ∧ 0 < doc.entries.length ∧ 0 < doc.attachments.length ∧
    EditOk (.replaceSubBlock 0 { exSub with sizeAttachment := 700, attachment := some ⟨[[7]], false⟩ }) ∧ EditOk (.replaceAttachment 0 exBig) ∧
    (∀ h : 0 < doc.entries.length, allocAt exDisk2 doc.entries[0].filePosition + 32 < ({ exSub with sizeAttachment := 700, attachment := some ⟨[[7]], false⟩ } : AddInfo).usedSize) ∧
    (∀ h : 0 < doc.attachments.length, allocAt exDisk2 doc.attachments[0].filePosition < 256 + exBig.bytes.length) := by
  obtain ⟨doc, c, h1, _, _, h4, h5, h6⟩ := exSound2
  have hx : (openDoc (fun _ => true) exDisk2.stream exOpt).toOption.map (fun doc =>
      (doc.entries.map (fun e => allocAt exDisk2 e.filePosition), doc.attachments.map (fun e => allocAt exDisk2 e.filePosition))) = some ([288], [288, 288]) := by decide +kernel
  rw [h1.opened] at hx
  injection hx with hx
  injection hx with x1 x2
  have hbig : 288 < 256 + exBig.bytes.length := by decide +kernel
  refine ⟨doc, h1, by omega, by omega, ?_, ⟨by decide +kernel, by decide +kernel⟩, ?_, ?_⟩
  · have h0 := exSub_ok 1 ⟨by decide, by decide⟩
    exact ⟨{ fits := ⟨h0.fits.coordinate, h0.fits.mIndex, h0.fits.x, h0.fits.y, h0.fits.logicalWidth, h0.fits.logicalHeight, h0.fits.physicalWidth, h0.fits.physicalHeight, h0.fits.compression⟩,
             sources := ⟨h0.sources.metadata, h0.sources.data, ⟨(by intro s h1 h2; cases h1; cases h2), (by intro s h; cases h; decide)⟩⟩, metadataSize := h0.metadataSize, dataSize := h0.dataSize, attachmentSize := by decide }, by decide, by decide⟩
  · intro h
    have := List.getElem_of_eq x1 (i := 0) (by rw [List.length_map]; exact h)
    rw [List.getElem_map] at this
    dsimp only [List.getElem_cons_zero] at this
    rw [this]
    decide
  · intro h
    have := List.getElem_of_eq x2 (i := 0) (by rw [List.length_map]; exact h)
    rw [List.getElem_map] at this
    dsimp only [List.getElem_cons_zero] at this
    exact Nat.lt_of_le_of_lt (Nat.le_of_eq this) hbig

/-- The file after writing metadata to `exDisk1` and `Close`. -/
def exDisk3 : Disk := (rwClose (edit exRW1 Content.empty [.writeMetadata exMeta]).1).1.disk

/-- It is a sound document with metadata; the hypotheses of `C82_metadata_violated` are met by metadata of 500 bytes. -/
example : ∃ doc, SoundDoc (fun _ => true) exDisk3 exOpt doc ∧ doc.header.metadataPos ≠ 0 ∧ 0 < allocAt exDisk3 doc.header.metadataPos ∧
    EditOk (.writeMetadata ⟨some (List.replicate 500 32), some []⟩) ∧ (⟨some (List.replicate 500 32), some []⟩ : MetaInfo).check = true ∧
    allocAt exDisk3 doc.header.metadataPos < align (256 + ((⟨some (List.replicate 500 32), some []⟩ : MetaInfo).xmlBytes.length +
      (⟨some (List.replicate 500 32), some []⟩ : MetaInfo).attBytes.length)) := by
  obtain ⟨doc, c, h1, h2, h3, h4, h5, h6⟩ := exSound1
  have hops : ∀ op ∈ [EditOp.writeMetadata exMeta], EditOk op ∧ NoAttachment op := by
    intro op hop
    simp only [List.mem_cons, List.not_mem_nil, or_false] at hop
    subst hop
    exact ⟨⟨by decide, by decide⟩, trivial⟩
  obtain ⟨s, g1, _, _, g4⟩ := C11_subblock_edits_partial (fun _ => rfl) ⟨false, exInfo.guid⟩ h1 h2 h3
    (ops := [.writeMetadata exMeta]) ⟨fun op hop => (hops op hop).1, by rw [h4, h5]; decide, by decide⟩ (fun op hop => (hops op hop).2)
  have hs : s = exRW1 := by
    unfold exRW1
    rw [g1]
  rw [hs] at g4
  obtain ⟨w, d, doc', f1, f2, _, f4, f5⟩ := g4
  have hd : exDisk3 = d := by
    unfold exDisk3
    rw [edit_fst _ exRW1 _ c, f1]
  rw [← hd] at f2 f4
  have hlt : 288 < align (256 + ((⟨some (List.replicate 500 32), some []⟩ : MetaInfo).xmlBytes.length +
      (⟨some (List.replicate 500 32), some []⟩ : MetaInfo).attBytes.length)) := by decide +kernel
  have hx : (openDoc (fun _ => true) exDisk3.stream exOpt).toOption.map (fun doc =>
      (decide (doc.header.metadataPos ≠ 0), allocAt exDisk3 doc.header.metadataPos)) = some (true, 288) := by decide +kernel
  rw [f2] at hx
  injection hx with hx
  injection hx with x1 x2
  refine ⟨doc', f4, of_decide_eq_true x1, by omega, ⟨by decide +kernel, by decide +kernel⟩, by decide +kernel, ?_⟩
  exact Nat.lt_of_le_of_lt (Nat.le_of_eq x2) hlt

/-- The file after adding a second sub-block to `exDisk1` and `Close`. -/
def exDisk4 : Disk := (rwClose (edit exRW1 Content.empty [.addSubBlock { exSub with coordinate := Coord.empty.set .T 2 }]).1).1.disk

/-- The reader-writer that has opened it. -/
def exRW4 : RW := (rwCreate (fun _ => true) ⟨RWState.init, exDisk4⟩ ⟨false, exInfo.guid⟩).1

/-- The coordinates in T of the sub-blocks that a reader of the file finds. -/
def timesIn (d : Disk) : Option (List (Option Int)) := (openDoc (fun _ => true) d.stream exOpt).toOption.map fun doc => doc.entries.map fun e => e.coordinate .T

/-- The hypotheses of `C82_close_in_place_violated`: the first of two sub-blocks is removed; a crash inside `Close` leaves a file that lists the removed
sub-block, but not the other one. -/
example : (∃ doc, SoundDoc (fun _ => true) exDisk4 exOpt doc ∧ doc.entries.length = 2) ∧
    rwCreate (fun _ => true) ⟨RWState.init, exDisk4⟩ ⟨false, exInfo.guid⟩ = (exRW4, none) ∧ EditOk (.removeSubBlock 0) ∧ ¬ ChangesSub 1 (.removeSubBlock 0) ∧
    (rwCalls exRW4 [.removeSubBlock 0]).w.dir.isModified = true ∧ ¬ AppendsSubDir (rwCalls exRW4 [.removeSubBlock 0]) ∧
    (rwCalls exRW4 [.removeSubBlock 0]).disk.size < 2 ^ 63 ∧ (rwCalls exRW4 [.removeSubBlock 0]).w.dir.subBlks.length = 1 ∧
    timesIn exDisk4 = some [some 1, some 2] ∧ timesIn (leftBy (rwCalls exRW4 [.removeSubBlock 0]) .close 0 160) = some [some 1] ∧
    timesIn (editStep (rwCalls exRW4 [.removeSubBlock 0]) .close).1.disk = some [some 2] := by
  obtain ⟨doc, c, h1, h2, h3, h4, h5, h6⟩ := exSound1
  have hops : ∀ op ∈ [EditOp.addSubBlock { exSub with coordinate := Coord.empty.set .T 2 }], EditOk op ∧ NoAttachment op := by
    intro op hop
    simp only [List.mem_cons, List.not_mem_nil, or_false] at hop
    subst hop
    exact ⟨⟨exSub_ok 2 ⟨by decide, by decide⟩, by decide⟩, trivial⟩
  obtain ⟨s, g1, _, _, g4⟩ := C11_subblock_edits_partial (fun _ => rfl) ⟨false, exInfo.guid⟩ h1 h2 h3
    (ops := [.addSubBlock { exSub with coordinate := Coord.empty.set .T 2 }]) ⟨fun op hop => (hops op hop).1, by rw [h4, h5]; decide, by decide⟩
    (fun op hop => (hops op hop).2)
  have hs : s = exRW1 := by
    unfold exRW1
    rw [g1]
  rw [hs] at g4
  obtain ⟨w, d, doc', f1, f2, _, f4, f5⟩ := g4
  have hd : exDisk4 = d := by
    unfold exDisk4
    rw [edit_fst _ exRW1 _ c, f1]
  rw [← hd] at f2 f4
  have ht : timesIn exDisk4 = some [some 1, some 2] := by decide +kernel
  have hl : doc'.entries.length = 2 := by
    have hx : (openDoc (fun _ => true) exDisk4.stream exOpt).toOption.map (fun doc => doc.entries.length) = some 2 := by decide +kernel
    rw [f2] at hx
    injection hx
  have hcr : (rwCreate (fun _ => true) ⟨RWState.init, exDisk4⟩ ⟨false, exInfo.guid⟩).2 = none := by decide +kernel
  refine ⟨⟨doc', f4, hl⟩, ?_, trivial, by unfold ChangesSub; decide, by decide +kernel, ?_, by decide +kernel, by decide +kernel, ht, by decide +kernel, by decide +kernel⟩
  · unfold exRW4
    rw [← hcr]
  · intro hx
    have : ((rwCalls exRW4 [.removeSubBlock 0]).w.subDirSeg).map (fun i => decide (i.alloc <
      align (128 + (((rwCalls exRW4 [.removeSubBlock 0]).w.dir.subBlks.map Prod.snd).map entryBytes).flatten.length))) = some false := by decide +kernel
    cases hseg : (rwCalls exRW4 [.removeSubBlock 0]).w.subDirSeg with
    | none => rw [hseg] at this; cases this
    | some i =>
      rw [hseg] at this
      injection this with this
      exact of_decide_eq_false this (hx.2 i hseg)

end Verif
