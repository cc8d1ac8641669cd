import Verif.Proof.Short
import Verif.Props.Document

/-!
# C05, C06: callbacks that end far too early
-/

namespace Verif
open Spec Czi

attribute [local irreducible] zeros

/-- A sub-block whose numbers and sizes are in range, and whose callbacks deliver no null pointer, but whose data callback ends more than `k` bytes early. -/
structure EarlyData (a : AddInfo) (k : Nat) : Prop where
  fits : AddFits a
  runs : a.Runs
  metadata : ShortBy4096 a.sizeMetadata a.metadata
  early : ∃ src, a.data = some src ∧ src.chunks.flatten.length + k < a.sizeData

theorem _root_.Verif.Spec.SubOk.runs {a : AddInfo} (h : SubOk a) : a.Runs :=
  ⟨h.metadataSize, h.attachmentSize, h.dataSize, h.sources.metadata.1, h.sources.data.1, h.sources.attachment.1⟩

/-- **C05 violated by short callbacks:** in every state of the writer, if a sub-block whose data callback ends more than 12288 bytes early is added, and another
sub-block after it (both without exception), then the second segment starts inside the first one. -/
theorem C05_short_callback_overlap (s s1 s2 : Sys) (a b : AddInfo) (ha : EarlyData a 12288) (hb : SubOk b)
    (h1 : step s (.addSubBlock a) = (s1, none)) (h2 : step s1 (.addSubBlock b) = (s2, none)) :
    ∃ ea ∈ s2.w.dir.subBlks, ∃ eb ∈ s2.w.dir.subBlks, ∃ alloc used used' alloc',
      ea = a.entry ea.filePosition ∧ eb = b.entry eb.filePosition ∧
      SegmentAt s2.disk ea.filePosition alloc used ∧ idAt s2.disk ea.filePosition = subBlockMagic ∧
      SegmentAt s2.disk eb.filePosition alloc' used' ∧ idAt s2.disk eb.filePosition = subBlockMagic ∧
      ea.filePosition < eb.filePosition ∧ eb.filePosition < ea.filePosition + 32 + alloc := by
  obtain ⟨src, hs, hm⟩ := ha.early
  obtain ⟨ck, tr, rfl⟩ := step_add_result ha.runs h1
  obtain ⟨ck2, tr2, rfl⟩ := step_add_result hb.runs h2
  have hsh := wrote_short hs hm s.w.next
  have hge : 288 ≤ a.segSize := by unfold AddInfo.segSize; omega
  have hge2 : 288 ≤ b.segSize := by unfold AddInfo.segSize; omega
  have p1 := tryAdd_perm tr
  have p2 := tryAdd_perm tr2
  dsimp only at p2 ⊢
  have hua := a.used_lt ha.runs
  have hub := b.used_lt hb.runs
  have hla := align_lt a.usedSize
  have hlb := align_lt b.usedSize
  have hwa : ∃ r, a.wrote s.w.next = a.segBytes s.w.next a.allocSize ++ r := by
    unfold AddInfo.wrote AddInfo.body
    simp only [List.append_assoc]
    exact ⟨_, rfl⟩
  have hwb : ∃ r, b.wrote (s.w.next + (a.wrote s.w.next).length) = b.segBytes (s.w.next + (a.wrote s.w.next).length) b.allocSize ++ r := by
    unfold AddInfo.wrote AddInfo.body
    simp only [List.append_assoc]
    exact ⟨_, rfl⟩
  have hwa0 : a.wrote s.w.next ≠ [] := by intro h; rw [h] at hsh; simp at hsh; omega
  have hha : Holds ((s.disk.write s.w.next (a.wrote s.w.next)).write (s.w.next + (a.wrote s.w.next).length) (b.wrote (s.w.next + (a.wrote s.w.next).length)))
      s.w.next (a.segBytes s.w.next a.allocSize) := by
    have h0 : Holds (s.disk.write s.w.next (a.wrote s.w.next)) s.w.next (a.wrote s.w.next) := Holds.write hwa0
    obtain ⟨r, hr⟩ := hwa
    rw [hr] at h0
    have := h0.left
    rw [← hr] at this
    refine this.other (.inr ?_)
    rw [AddInfo.segBytes_length]
    omega
  have hhb : Holds ((s.disk.write s.w.next (a.wrote s.w.next)).write (s.w.next + (a.wrote s.w.next).length) (b.wrote (s.w.next + (a.wrote s.w.next).length)))
      (s.w.next + (a.wrote s.w.next).length) (b.segBytes (s.w.next + (a.wrote s.w.next).length) b.allocSize) := by
    obtain ⟨r, hr⟩ := hwb
    have h0 : b.wrote (s.w.next + (a.wrote s.w.next).length) ≠ [] := by
      rw [hr]
      intro h
      have := congrArg List.length h
      rw [List.length_append, AddInfo.segBytes_length] at this
      simp at this
      omega
    have h1 := Holds.write (d := s.disk.write s.w.next (a.wrote s.w.next)) (p := s.w.next + (a.wrote s.w.next).length) h0
    rw [hr] at h1 ⊢
    exact h1.left
  obtain ⟨ga, ia⟩ := segmentAt_of hha (by unfold AddInfo.allocSize; omega) (by omega)
  obtain ⟨gb, ib⟩ := segmentAt_of hhb (by unfold AddInfo.allocSize; omega) (by omega)
  refine ⟨a.entry s.w.next, ?_, b.entry (s.w.next + (a.wrote s.w.next).length), ?_, a.allocSize, _, _, b.allocSize, rfl, rfl, ga, ia, gb, ib, ?_, ?_⟩
  · exact p2.mem_iff.2 (List.mem_cons_of_mem _ (p1.mem_iff.2 (List.mem_cons_self ..)))
  · exact p2.mem_iff.2 (List.mem_cons_self ..)
  · show s.w.next < s.w.next + (a.wrote s.w.next).length
    omega
  · show s.w.next + (a.wrote s.w.next).length < s.w.next + 32 + a.allocSize
    omega

/-- A sub-block of 32 KB of which the callback delivers three bytes. -/
def exEarly : AddInfo := { exSub with mIndex := some 7, sizeData := 40000, sizeAttachment := 0, attachment := none }

theorem exEarly_early : EarlyData exEarly 32768 where
  fits := by
    have h := (exSub_ok 1 ⟨by decide, by decide⟩).fits
    exact ⟨h.coordinate, by intro m h; cases h; exact ⟨by decide, by decide⟩, h.x, h.y, h.logicalWidth, h.logicalHeight, h.physicalWidth, h.physicalHeight, h.compression⟩
  runs := ⟨(by decide : (3 : Nat) ≤ _), (by decide : (0 : Nat) ≤ _), (by decide : (40000 : Nat) < _), exSub_sources.metadata.1,
    (by rintro s ⟨⟩ ⟨⟩), (by rintro s ⟨⟩)⟩
  metadata := exSub_sources.metadata.2
  early := ⟨⟨[[1, 2], [3]], false⟩, rfl, by show 3 + 32768 < 40000; decide⟩

/-- The sample meets the hypotheses: both adds succeed. -/
example : EarlyData exEarly 12288 ∧ (step (step ⟨WState.init false, Disk.empty⟩ (.create exInfo)).1 (.addSubBlock exEarly)).2 = none := by
  refine ⟨?_, by decide +kernel⟩
  obtain ⟨h1, h2, h3, src, h4, h5⟩ := exEarly_early
  exact ⟨h1, h2, h3, src, h4, by omega⟩

/-- **C06 violated by short callbacks:** if a sub-block (without attachment, for simplicity) whose data callback ends more than 32768 bytes early is added, and a
sub-block with at least as many bytes of data after it, then reading the first delivers data that are not those of the callback
extended with zeros: the segment of the second sub-block appears in them. -/
theorem C06_short_callback_corrupts (s s1 s2 : Sys) (a b : AddInfo) (ha : EarlyData a 32768) (h0 : a.sizeAttachment = 0) (hd : a.sizeData < 2 ^ 31) (hb : SubOk b)
    (hab : a.sizeData ≤ b.sizeData) (hn : s.w.next < 2 ^ 62)
    (h1 : step s (.addSubBlock a) = (s1, none)) (h2 : step s1 (.addSubBlock b) = (s2, none)) (o : OpenOptions) (al : Alloc) (hal : ∀ n, al n = true) :
    ∃ e ∈ s2.w.dir.subBlks, e = a.entry e.filePosition ∧ ∃ sb, readEntry al s2.disk.stream o e = .ok sb ∧
      ∃ (bytes : List UInt8) (i : Nat), sb.data = ⟨a.sizeData, some bytes⟩ ∧ bytes[i]? = some 90 ∧ (payloadOf a.sizeData a.data)[i]? = some 0 := by
  obtain ⟨src, hs, hm⟩ := ha.early
  obtain ⟨ck, tr, rfl⟩ := step_add_result ha.runs h1
  obtain ⟨ck2, tr2, rfl⟩ := step_add_result hb.runs h2
  have hge : 288 ≤ a.segSize := by unfold AddInfo.segSize; omega
  have p1 := tryAdd_perm tr
  have p2 := tryAdd_perm tr2
  dsimp only at p2 ⊢
  obtain ⟨c1, c2, c3⟩ := AddInfo.check_sources ck
  have hml : (payloadContent a.sizeMetadata a.metadata).length = a.sizeMetadata := by
    rw [payloadContent_eq ha.metadata c1, payloadOf_length]
  have hdl := payloadContent_some a.sizeData src
  have hsf := shortfall_big (c := a.sizeData - src.chunks.flatten.length) (by omega)
  have hbl : (a.body s.w.next a.allocSize).length = a.segSize + a.sizeMetadata + (src.chunks.flatten.length + zeroAmount (a.sizeData - src.chunks.flatten.length)) := by
    have : payloadContent a.sizeAttachment a.attachment = [] := by unfold payloadContent; rw [if_pos h0]
    unfold AddInfo.body
    simp only [List.length_append, AddInfo.segBytes_length, this, hml, hs, hdl, List.length_nil]
    omega
  have hus : a.usedSize = a.segSize + a.sizeData + a.sizeMetadata := by unfold AddInfo.usedSize; omega
  have hla := align_lt a.usedSize
  have hle := le_align a.usedSize
  have hwl : (a.wrote s.w.next).length = (a.body s.w.next a.allocSize).length + zeroAmount (a.allocSize + 32 - (a.body s.w.next a.allocSize).length) := by
    unfold AddInfo.wrote
    rw [List.length_append, zeros_length]
  have hal32 : a.allocSize + 32 = align a.usedSize := by unfold AddInfo.allocSize; omega
  have hsf2 := shortfall (c := a.allocSize + 32 - (a.body s.w.next a.allocSize).length) (by rw [hal32]; omega)
  generalize hz1 : zeroAmount (a.sizeData - src.chunks.flatten.length) = z1 at *
  generalize hz2 : zeroAmount (a.allocSize + 32 - (a.body s.w.next a.allocSize).length) = z2 at *
  generalize hp' : s.w.next + (a.wrote s.w.next).length = p' at *
  have hbw1 : ∃ r, b.wrote p' = subBlockMagic ++ r := by
    obtain ⟨z, e⟩ := b.segBytes_split p' b.allocSize
    unfold AddInfo.wrote AddInfo.body
    rw [e]
    unfold AddInfo.head segHeader
    simp only [List.append_assoc]
    exact ⟨_, rfl⟩
  have hbw2 : b.usedSize ≤ (b.wrote p').length := by
    have hl := SubOk.body_length hb ck2 p' b.allocSize
    unfold AddInfo.wrote
    rw [List.length_append]
    omega
  obtain ⟨rb, hbw1⟩ := hbw1
  have hbu : a.sizeData ≤ b.usedSize := by unfold AddInfo.usedSize; omega
  have hbne : b.wrote p' ≠ [] := by
    intro h
    rw [h] at hbw2
    simp only [List.length_nil] at hbw2
    omega
  have hHb := Holds.write (d := s.disk.write s.w.next (a.wrote s.w.next)) (p := p') hbne
  have hwa0 : a.wrote s.w.next ≠ [] := by intro h; rw [h] at hwl; simp at hwl; omega
  have hHa : Holds ((s.disk.write s.w.next (a.wrote s.w.next)).write p' (b.wrote p')) s.w.next
      (a.segBytes s.w.next a.allocSize ++ payloadContent a.sizeMetadata a.metadata) := by
    have k : Holds (s.disk.write s.w.next (a.wrote s.w.next)) s.w.next (a.wrote s.w.next) := Holds.write hwa0
    have hwa : ∃ r, a.wrote s.w.next = (a.segBytes s.w.next a.allocSize ++ payloadContent a.sizeMetadata a.metadata) ++ r := by
      unfold AddInfo.wrote AddInfo.body
      simp only [List.append_assoc]
      exact ⟨_, rfl⟩
    obtain ⟨r, hr⟩ := hwa
    rw [hr] at k
    have := k.left
    rw [← hr] at this
    refine this.other (.inr ?_)
    rw [List.length_append, AddInfo.segBytes_length, hml]
    omega
  have hsize : s.w.next + a.segSize + a.sizeMetadata + a.sizeData ≤ ((s.disk.write s.w.next (a.wrote s.w.next)).write p' (b.wrote p')).size := by
    have := hHb.1
    omega
  obtain ⟨sb, e1, e2⟩ := overlaid_read hHa hs ha.fits ha.runs ha.metadata ck h0 hd (by omega) hn hsize hal o
  refine ⟨a.entry s.w.next, p2.mem_iff.2 (List.mem_cons_of_mem _ (p1.mem_iff.2 (List.mem_cons_self ..))), rfl, sb, e1, _,
    p' - (s.w.next + a.segSize + a.sizeMetadata), e2, ?_, ?_⟩
  · unfold Disk.read
    rw [List.getElem?_map, List.getElem?_range (by omega)]
    rw [hbw1] at hHb
    have := hHb.left.2 0 (by decide)
    rw [Nat.add_zero] at this
    rw [Option.map_some, show s.w.next + a.segSize + a.sizeMetadata + (p' - (s.w.next + a.segSize + a.sizeMetadata)) = p' by omega, hbw1, this]
    rfl
  · rw [hs]
    unfold payloadOf
    dsimp only
    rw [List.getElem?_take_of_lt (by omega), List.getElem?_append_right (by omega), List.getElem?_replicate, if_pos (by omega)]

/-- The sample meets the hypotheses, with `exEarly` as the first sub-block and a complete one of the same size as the second. -/
example : EarlyData exEarly 32768 ∧ exEarly.sizeAttachment = 0 ∧ exEarly.sizeData < 2 ^ 31 ∧
    (step (step (step ⟨WState.init false, Disk.empty⟩ (.create exInfo)).1 (.addSubBlock exEarly)).1
      (.addSubBlock { exEarly with mIndex := some 8, data := some ⟨[List.replicate 40000 1], false⟩ })).2 = none :=
  ⟨exEarly_early, rfl, by decide, by decide +kernel⟩

end Verif
