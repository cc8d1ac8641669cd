import Verif.Proof.EditWritten
import Verif.Props.ReaderWriter

/-!
# C11: editing documents that were written with an `ICziWriter`

`writeDoc dup d0 info ops` is a session with a writer: `Create`, the calls `ops`, `Close`. Here the documents it leaves are shown to be sound
documents, so that the theorems about editing apply to them.
-/

namespace Verif
open Spec Czi

attribute [local irreducible] zeros

/-- A bound for the size of the file the writer makes. -/
def Spec.writtenSize (ops : List WOp) : Nat := (ops.map opBytes).sum + 4096 * ops.length + 2 ^ 51

/-- All data can be read back (less than 2 GiB each). -/
def Spec.ReadableOp : WOp → Prop
  | .addSubBlock a => a.sizeData ≤ 2147483647
  | .addAttachment a => a.bytes.length ≤ 2147483647
  | .writeMetadata m => m.xmlBytes.length ≤ 2147483647 ∧ m.attBytes.length ≤ 2147483647
  | _ => True

/-- **C11 (documents of the writer are sound).** Whatever is written with a writer, with or without reserved segments, duplicates, failing calls:
the file is a sound document, for every way to open it; it has not more sub-blocks and attachments than calls were made. Without reservation, the
attachment directory has no free space. -/
theorem C11_written_sound (dup : Bool) (d0 : Disk) (info : WriterInfo) (ops : List WOp) (hi : InfoOk info) (hops : OpsOk ops)
    (hsz : ∀ op ∈ ops, ReadableOp op) (o : OpenOptions) (al : Alloc) (hal : ∀ n, al n = true) :
    ∃ disk done, writeDoc dup d0 info ops = some (disk, done) ∧ ∃ doc, SoundDoc al disk o doc ∧ EndsBy disk doc (writtenSize ops) ∧
      doc.entries.length ≤ ops.length ∧ doc.attachments.length ≤ ops.length ∧
      (info.reservedAttDir = none → doc.header.attDirPos ≠ 0 → allocAt disk doc.header.attDirPos = 256 + 128 * doc.attachments.length) := by
  obtain ⟨d, done, e, segs, q, sp, mp, ap, dir, att, hw, hq, hres⟩ := writeDoc_bounded dup d0 info ops hi hops
  have hs := writeDoc_sublist e
  have hs' : done.Sublist ops := hs
  have hsub : ∀ a ∈ subsOf done, a.sizeData ≤ 2147483647 := by
    intro a ha
    obtain ⟨op, hop, h⟩ := List.mem_filterMap.1 ha
    have := hsz op (hs'.subset hop)
    cases op <;> cases h
    exact this
  have hatt : ∀ a ∈ attsOf done, a.bytes.length ≤ 2147483647 := by
    intro a ha
    obtain ⟨op, hop, h⟩ := List.mem_filterMap.1 ha
    have := hsz op (hs'.subset hop)
    cases op <;> cases h
    exact this
  have hmeta : ∀ m, lastMeta done = some m → m.xmlBytes.length ≤ 2147483647 ∧ m.attBytes.length ≤ 2147483647 := fun m hm =>
    hsz _ (hs'.subset (lastMeta_mem hm))
  obtain ⟨doc, k1, k2, k3, k4, k5, k6, k7⟩ := hw.sound hal o hsub hatt hmeta
  have hn := hs'.length_le
  have hsl : (subsOf done).length ≤ done.length := List.length_filterMap_le _ _
  have hall : (attsOf done).length ≤ done.length := List.length_filterMap_le _ _
  have hatl := hw.att_length
  have hdl : dir.length = (subsOf done).length := by
    rw [hw.dirPerm.length_eq, ← hw.subsEq]
    simp
  have hal' : doc.attachments.length ≤ att.length := by
    by_cases h0 : att = []
    · rw [k6 h0]
      exact Nat.zero_le _
    · rw [k7 h0]
      have := (attOnDisk_positions info.reservedAttDir att hw.att_pos).length_le
      rwa [List.length_map, List.length_map] at this
  refine ⟨d, done, e, doc, k1, ?_, by rw [k4]; omega, by omega, ?_⟩
  · intro p hp
    refine Nat.le_trans (k2 p hp) ?_
    unfold writtenSize
    unfold opsSize at hq
    omega
  · intro hnone hne
    rw [k3] at hne ⊢
    dsimp only at hne ⊢
    have hne' : att ≠ [] := fun h0 => hne (hw.closed.attNone h0)
    have hg := hres hne' hnone
    have hend := hw.closed.endAt_eq hw.small hg
    unfold endAt at hend
    dsimp only at hend
    have hlen : doc.attachments.length = att.length := by
      rw [k7 hne', hnone]
      have h1 := attEntriesOf_bytes att hw.att_pos []
      rw [List.append_nil] at h1
      show (attEntriesOf (attEntriesBytes att) att.length).length = _
      rw [h1, List.length_map]
    omega

/-- **C11 (editing what the writer wrote: sub-blocks and metadata).** Write any document with a writer; open it with a reader-writer and make any
calls concerning sub-blocks and metadata: everything works, and what was not edited is unchanged. -/
theorem C11_written_subblock_edits (dup : Bool) (d0 : Disk) (info : WriterInfo) (ops : List WOp) (hi : InfoOk info) (hops : OpsOk ops)
    (hsz : ∀ op ∈ ops, ReadableOp op) (edits : List EditOp) (he : EditsOk ops.length (writtenSize ops) edits) (hna : ∀ op ∈ edits, NoAttachment op)
    (rwInfo : RWInfo) (o : OpenOptions) (al : Alloc) (hal : ∀ n, al n = true) :
    ∃ disk done, writeDoc dup d0 info ops = some (disk, done) ∧ ∃ doc c s, openDoc al disk.stream o = .ok doc ∧ Initially al disk.stream doc c ∧
      rwCreate al ⟨RWState.init, disk⟩ rwInfo = (s, none) ∧ EditorShows al s c ∧ EditorShows al (edit s c edits).1 (edit s c edits).2 ∧
      ClosesWith al o (edit s c edits).1 (edit s c edits).2 (sizeAfter (writtenSize ops) edits) := by
  obtain ⟨disk, done, e, doc, h1, h2, h3, h4, _⟩ := C11_written_sound dup d0 info ops hi hops hsz o al hal
  obtain ⟨c, hc⟩ := C11_contents h1
  have hm : EditsOk (max doc.entries.length doc.attachments.length) (writtenSize ops) edits := ⟨he.each, by have := he.count; omega, he.total⟩
  obtain ⟨s, k1, k2, k3, k4⟩ := C11_subblock_edits_partial hal rwInfo h1 hc h2 hm hna
  exact ⟨disk, done, e, doc, c, s, h1.opened, hc, k1, k2, k3, k4⟩

/-- **C11 (editing what the writer wrote: adding attachments).** The same for adding attachments, if the writer did not reserve space for
the attachment directory. (With a reservation: `C14_remove_attachment_damages` and `C02` show what happens to a directory with free space.) -/
theorem C11_written_attachment_adds (dup : Bool) (d0 : Disk) (info : WriterInfo) (ops : List WOp) (hi : InfoOk info) (hops : OpsOk ops)
    (hsz : ∀ op ∈ ops, ReadableOp op) (hres : info.reservedAttDir = none) (edits : List EditOp) (he : EditsOk ops.length (writtenSize ops) edits)
    (hna : ∀ op ∈ edits, AddsAttachment op) (rwInfo : RWInfo) (o : OpenOptions) (al : Alloc) (hal : ∀ n, al n = true) :
    ∃ disk done, writeDoc dup d0 info ops = some (disk, done) ∧ ∃ doc c s, openDoc al disk.stream o = .ok doc ∧ Initially al disk.stream doc c ∧
      rwCreate al ⟨RWState.init, disk⟩ rwInfo = (s, none) ∧ EditorShows al s c ∧ EditorShows al (edit s c edits).1 (edit s c edits).2 ∧
      ClosesWith al o (edit s c edits).1 (edit s c edits).2 (sizeAfter (writtenSize ops) edits) := by
  obtain ⟨disk, done, e, doc, h1, h2, h3, h4, h5⟩ := C11_written_sound dup d0 info ops hi hops hsz o al hal
  obtain ⟨c, hc⟩ := C11_contents h1
  have hm : EditsOk (max doc.entries.length doc.attachments.length) (writtenSize ops) edits := ⟨he.each, by have := he.count; omega, he.total⟩
  obtain ⟨s, k1, k2, k3, k4⟩ := C11_attachment_adds_partial hal rwInfo h1 hc h2 hm hna (fun hne => Nat.le_of_eq (h5 hres hne))
  exact ⟨disk, done, e, doc, c, s, h1.opened, hc, k1, k2, k3, k4⟩

/-- The sample document (reserved segments, a rejected call, attachments, metadata), edited: a sub-block added, one removed, new metadata. -/
example : (∀ op ∈ exOps, ReadableOp op) ∧ EditsOk exOps.length (writtenSize exOps) [.addSubBlock exSub, .removeSubBlock 0, .writeMetadata ⟨some [60, 65, 47, 62], none⟩] ∧
    ∀ op ∈ [EditOp.addSubBlock exSub, .removeSubBlock 0, .writeMetadata ⟨some [60, 65, 47, 62], none⟩], NoAttachment op := by
  refine ⟨?_, ⟨?_, by decide, by decide⟩, ?_⟩
  · intro op hop
    simp only [exOps, List.mem_cons, List.not_mem_nil, or_false] at hop
    rcases hop with rfl | rfl | rfl | rfl | rfl | rfl <;> first | exact ⟨by decide, by decide⟩ | (show (_ : Nat) ≤ _; decide)
  · intro op hop
    simp only [List.mem_cons, List.not_mem_nil, or_false] at hop
    rcases hop with rfl | rfl | rfl
    · exact exSub_editOk
    · exact trivial
    · exact ⟨by decide, by decide⟩
  · intro op hop
    simp only [List.mem_cons, List.not_mem_nil, or_false] at hop
    rcases hop with rfl | rfl | rfl <;> exact trivial

/-- The document of the writer is not empty. -/
example : ((writeDoc false Disk.empty { exInfo with reservedAttDir := none } exOps).map (fun r => (r.2.length, r.1.size))) = some (5, 2624) ∧
    InfoOk { exInfo with reservedAttDir := none } := by
  refine ⟨by decide +kernel, exInfo_ok.metadata, exInfo_ok.subDir, by intro n h; cases h⟩

end Verif
