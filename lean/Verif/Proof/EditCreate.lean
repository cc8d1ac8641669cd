import Verif.Proof.EditOpen

/-! A reader-writer that has opened a well-formed document. -/

namespace Verif.Czi

open Spec

attribute [local irreducible] zeros

theorem openDoc_inv {al : Alloc} {s : Stream} {o : OpenOptions} {doc : Doc} (h : openDoc al s o = .ok doc) :
    ∃ hd es x as, readHeader s = .ok hd ∧ readSubDir al s (parseOptions o) hd.subDirPos = .ok (es, x) ∧ doc = ⟨hd, es, as, o⟩ ∧
      ((hd.attDirPos = 0 ∧ as = []) ∨ (hd.attDirPos ≠ 0 ∧ ∃ y, readAttDir al s hd.attDirPos = .ok (as, y))) := by
  unfold openDoc openDocWith at h
  obtain ⟨hd, h1, h⟩ := Except.bind_eq_ok h
  obtain ⟨⟨es, x⟩, h2, h⟩ := Except.bind_eq_ok h
  dsimp only at h
  split at h
  · rename_i hne
    obtain ⟨⟨as, y⟩, h3, h⟩ := Except.bind_eq_ok h
    injection h with h
    exact ⟨hd, es, x, as, h1, h2, h.symm, Or.inr ⟨hne, y, h3⟩⟩
  · rename_i hne
    injection h with h
    exact ⟨hd, es, x, [], h1, h2, h.symm, Or.inl ⟨Decidable.not_not.1 hne, rfl⟩⟩

theorem rwReadEntry_size {al : Alloc} {d : Disk} {e : Entry} {sb : SubBlock} (h : rwReadEntry al d.stream e = .ok sb) : e.filePosition + 288 ≤ d.size := by
  unfold rwReadEntry at h
  obtain ⟨x, h1, _⟩ := Except.bind_eq_ok h
  unfold readSubBlockData at h1
  obtain ⟨y, h2, _⟩ := Except.bind_eq_ok h1
  unfold readSbHeader at h2
  obtain ⟨b, h3, _⟩ := Except.bind_eq_ok h2
  exact (readExact_size h3).2 (by omega)

theorem rwReadAtt_size {al : Alloc} {d : Disk} {e : AttEntry} {a : Attachment} (h : rwReadAtt al d.stream e = .ok a) : e.filePosition + 288 ≤ d.size := by
  unfold rwReadAtt at h
  cases hx : readAttachmentData al d.stream e.filePosition with
  | error _ => rw [hx] at h; cases h
  | ok x =>
    unfold readAttachmentData at hx
    obtain ⟨b, h3, _⟩ := Except.bind_eq_ok hx
    exact (readExact_size h3).2 (by omega)

theorem readMetadata_size {al : Alloc} {d : Disk} {p : Nat} {m : MetaData} (h : readMetadataData al d.stream p = .ok m) :
    p + 288 ≤ d.size ∧ d.read p 16 = metadataMagic := by
  unfold readMetadataData at h
  obtain ⟨b, h3, h4⟩ := Except.bind_eq_ok h
  obtain ⟨rfl, hs⟩ := readExact_size h3
  have hs := hs (by omega)
  split at h4
  · cases h4
  · rename_i hm
    have hm := Decidable.not_not.1 hm
    unfold segMagic at hm
    rw [Disk.field_read (by omega) hs, Nat.add_zero] at hm
    exact ⟨hs, hm⟩

/-- The segment info of a position in the header. -/
def segAt (d : Disk) (p : Nat) : Option SegInfo := if p = 0 then none else some ⟨p, allocAt d p, false⟩

/-- The segment of a position in the header. -/
def lsegAt (d : Disk) (p : Nat) : Option LSeg := if p = 0 then none else some (origSeg d p)

theorem segPos_segAt (d : Disk) (p : Nat) : segPos (segAt d p) = p := by
  unfold segAt
  split
  · rename_i h; rw [h]; rfl
  · rfl

theorem segAt_dir (d : Disk) (p : Nat) : DirSlot (segAt d p) (lsegAt d p) := by
  unfold segAt lsegAt
  split
  · trivial
  · exact ⟨rfl, rfl⟩

theorem lsegAt_some {d : Disk} {p : Nat} {g : LSeg} (h : lsegAt d p = some g) : p ≠ 0 ∧ g = origSeg d p := by
  unfold lsegAt at h
  split at h
  · cases h
  · rename_i hp
    injection h with h
    exact ⟨hp, h.symm⟩

/-- The segments of a document that has been opened. -/
def origHeap (d : Disk) (hd : Header) (dir : RWDir) (att : RWAtts) : Slot → Option LSeg
  | .sub k => (dir.tryGet k).map (fun e => origSeg d e.filePosition)
  | .att k => (att.tryGet k).map (fun e => origSeg d e.filePosition)
  | .subDir => some (origSeg d hd.subDirPos)
  | .attDir => lsegAt d hd.attDirPos
  | .metadata => lsegAt d hd.metadataPos

theorem origHeap_segs {d : Disk} {hd : Header} {dir : RWDir} {att : RWAtts} {es : List Entry} {as : List AttEntry} {o : OpenOptions}
    (hdir : RWInv dir) (hatt : AttInv att) (h1 : dir.subBlks.map Prod.snd = es) (h2 : att.atts.map Prod.snd = as) :
    segmentsOf ⟨hd, es, as, o⟩ = (slotsOf (dir.subBlks.map Prod.fst) (att.atts.map Prod.fst) (decide (hd.attDirPos ≠ 0)) (decide (hd.metadataPos ≠ 0))).map
      (posIn (origHeap d hd dir att)) ∧
    (∀ t g, origHeap d hd dir att t = some g →
      t ∈ slotsOf (dir.subBlks.map Prod.fst) (att.atts.map Prod.fst) (decide (hd.attDirPos ≠ 0)) (decide (hd.metadataPos ≠ 0)) ∧
      g = origSeg d (posIn (origHeap d hd dir att) t)) ∧
    (∀ t ∈ slotsOf (dir.subBlks.map Prod.fst) (att.atts.map Prod.fst) (decide (hd.attDirPos ≠ 0)) (decide (hd.metadataPos ≠ 0)),
      origHeap d hd dir att t = some (origSeg d (posIn (origHeap d hd dir att) t))) := by
  subst h1 h2
  refine ⟨?_, ?_, ?_⟩
  · unfold segmentsOf slotsOf
    dsimp only
    rw [List.map_append, List.map_append, List.map_cons, List.map_append]
    congr 1
    · rw [List.map_map, List.map_map, List.map_map]
      apply List.map_congr_left
      intro p hp
      have : origHeap d hd dir att (.sub p.1) = some (origSeg d p.2.filePosition) := by
        dsimp only [origHeap]
        rw [show dir.tryGet p.1 = some p.2 from mapFind_mem hdir.sorted hp]
        rfl
      exact (posIn_some this).symm
    · congr 1
      · rw [List.map_map, List.map_map, List.map_map]
        apply List.map_congr_left
        intro p hp
        have : origHeap d hd dir att (.att p.1) = some (origSeg d p.2.filePosition) := by
          dsimp only [origHeap]
          rw [show att.tryGet p.1 = some p.2 from mapFind_mem hatt.sorted hp]
          rfl
        exact (posIn_some this).symm
      · congr 1
        congr 1
        · by_cases c : hd.attDirPos = 0
          · rw [if_pos c, if_neg (by simpa using c)]; rfl
          · rw [if_neg c, if_pos (by simpa using c)]
            have : origHeap d hd dir att .attDir = some (origSeg d hd.attDirPos) := by
              dsimp only [origHeap]
              unfold lsegAt
              rw [if_neg c]
            rw [List.map_singleton, posIn_some this]
            rfl
        · by_cases c : hd.metadataPos = 0
          · rw [if_pos c, if_neg (by simpa using c)]; rfl
          · rw [if_neg c, if_pos (by simpa using c)]
            have : origHeap d hd dir att .metadata = some (origSeg d hd.metadataPos) := by
              dsimp only [origHeap]
              unfold lsegAt
              rw [if_neg c]
            rw [List.map_singleton, posIn_some this]
            rfl
  · intro t g hg
    refine ⟨?_, ?_⟩
    · unfold slotsOf
      simp only [List.mem_append, List.mem_cons, List.mem_map]
      cases t with
      | sub k =>
        left
        unfold origHeap at hg
        obtain ⟨e, he, _⟩ := Option.map_eq_some_iff.1 hg
        exact ⟨k, ⟨_, mapFind_key he, rfl⟩, rfl⟩
      | att k =>
        right; left
        unfold origHeap at hg
        obtain ⟨e, he, _⟩ := Option.map_eq_some_iff.1 hg
        exact ⟨k, ⟨_, mapFind_key he, rfl⟩, rfl⟩
      | subDir => right; right; left; rfl
      | attDir =>
        right; right; right; left
        unfold origHeap at hg
        rw [if_pos (by simpa using (lsegAt_some hg).1)]
        simp
      | metadata =>
        right; right; right; right
        unfold origHeap at hg
        rw [if_pos (by simpa using (lsegAt_some hg).1)]
        simp
    · rw [posIn_some hg]
      cases t with
      | sub k =>
        unfold origHeap at hg
        obtain ⟨e, _, rfl⟩ := Option.map_eq_some_iff.1 hg
        rfl
      | att k =>
        unfold origHeap at hg
        obtain ⟨e, _, rfl⟩ := Option.map_eq_some_iff.1 hg
        rfl
      | subDir =>
        unfold origHeap at hg
        injection hg with hg
        subst hg
        rfl
      | attDir =>
        unfold origHeap at hg
        rw [(lsegAt_some hg).2]
        rfl
      | metadata =>
        unfold origHeap at hg
        rw [(lsegAt_some hg).2]
        rfl
  · intro t ht
    unfold slotsOf at ht
    simp only [List.mem_append, List.mem_cons, List.mem_map] at ht
    rcases ht with ⟨k, ⟨p, hp, rfl⟩, rfl⟩ | ⟨k, ⟨p, hp, rfl⟩, rfl⟩ | rfl | ht | ht
    · have : origHeap d hd dir att (.sub p.1) = some (origSeg d p.2.filePosition) := by
        dsimp only [origHeap]
        rw [show dir.tryGet p.1 = some p.2 from mapFind_mem hdir.sorted hp]
        rfl
      rw [posIn_some this, this]
      rfl
    · have : origHeap d hd dir att (.att p.1) = some (origSeg d p.2.filePosition) := by
        dsimp only [origHeap]
        rw [show att.tryGet p.1 = some p.2 from mapFind_mem hatt.sorted hp]
        rfl
      rw [posIn_some this, this]
      rfl
    · rfl
    · split at ht
      · rename_i c
        simp at ht
        subst ht
        have : origHeap d hd dir att .attDir = some (origSeg d hd.attDirPos) := by
          dsimp only [origHeap]
          unfold lsegAt
          rw [if_neg (by simpa using c)]
        rw [posIn_some this, this]
        rfl
      · cases ht
    · split at ht
      · rename_i c
        simp at ht
        subst ht
        have : origHeap d hd dir att .metadata = some (origSeg d hd.metadataPos) := by
          dsimp only [origHeap]
          unfold lsegAt
          rw [if_neg (by simpa using c)]
        rw [posIn_some this, this]
        rfl
      · cases ht

theorem rwOpenMeta_ok {w : RWState} {d d1 : Disk} (hw : w.metaSeg = none)
    (h : w.header.metadataPos ≠ 0 → Holds d1 (w.header.metadataPos + 16) (le 8 (allocAt d w.header.metadataPos)) ∧ w.header.metadataPos + 32 ≤ d1.size ∧
      allocAt d w.header.metadataPos < 2 ^ 62 ∧ d1.read w.header.metadataPos 16 = metadataMagic) :
    rwOpenMeta w d1 = ({ w with metaSeg := segAt d w.header.metadataPos }, none) := by
  unfold rwOpenMeta segAt
  by_cases c : w.header.metadataPos = 0
  · rw [if_neg (by omega), if_pos c, ← hw]
  · obtain ⟨h1, h2, h3, h4⟩ := h c
    obtain ⟨u, hu⟩ := readSegmentHeader_eq h1 h2 (by omega) h4
    rw [if_pos c, if_neg c, hu]
    dsimp only
    rw [(u64_alloc h3).1]

theorem rwOpenAtt_ok {al : Alloc} {w : RWState} {d d1 : Disk} {as : List AttEntry} (hw : w.att = RWAtts.init) (hw2 : w.attDirSeg = none)
    (h : (w.header.attDirPos = 0 ∧ as = []) ∨ (w.header.attDirPos ≠ 0 ∧ ∃ y, readAttDir al d1.stream w.header.attDirPos = .ok (as, y) ∧
      u64 y = allocAt d w.header.attDirPos)) :
    rwOpenAtt al w d1 = rwOpenMeta { w with att := RWAtts.init.addAll as, attDirSeg := segAt d w.header.attDirPos } d1 := by
  unfold rwOpenAtt segAt
  rcases h with ⟨h1, rfl⟩ | ⟨h1, y, h2, h3⟩
  · rw [if_neg (by omega), if_pos h1, openedAtts_nil, ← hw, ← hw2]
  · rw [if_pos h1, if_neg h1, h2]
    dsimp only
    rw [h3, hw]

/-- The object after opening. -/
def openedState (d : Disk) (hd : Header) (es : List Entry) (as : List AttEntry) : RWState :=
  ⟨true, hd, RWDir.init.addAll es, RWAtts.init.addAll as, lastPos hd (RWDir.init.addAll es) (RWAtts.init.addAll as), none,
    segAt d hd.metadataPos, some ⟨hd.subDirPos, allocAt d hd.subDirPos, false⟩, segAt d hd.attDirPos⟩

theorem segAlloc_at {d : Disk} {p n : Nat} (hn : 32 ≤ n) (hs : p + n ≤ d.size) (ha : allocAt d p < 2 ^ 62) : u64 (segAlloc (d.read p n)) = allocAt d p := by
  rw [segAlloc_eq (allocAt_holds (by omega)) (by omega) hs (by omega), (u64_alloc ha).1]

theorem create_full {al : Alloc} {d : Disk} {o : OpenOptions} {doc : Doc} {c : Content} {N : Nat} (info : RWInfo) (h : SoundDoc al d o doc)
    (hi : Initially al d.stream doc c) (hN1 : doc.entries.length ≤ N) (hN2 : doc.attachments.length ≤ N) :
    ∃ s H top, rwCreate al ⟨RWState.init, d⟩ info = (s, none) ∧ Ed al o s c False H top N ∧ (∃ p ∈ segmentsOf doc, top = endAt d p) ∧ s.w.subDirSeg ≠ none ∧
      s.disk = (if info.force then apply d (guidWrites info.guid) else d) ∧ s.w.att = RWAtts.init.addAll doc.attachments ∧
      s.w.dir = RWDir.init.addAll doc.entries ∧ s.w.attDirSeg = segAt d doc.header.attDirPos ∧
      H = origHeap d doc.header (RWDir.init.addAll doc.entries) (RWAtts.init.addAll doc.attachments) ∧
      s.w = openedState d (if info.force then { doc.header with guid := info.guid } else doc.header) doc.entries doc.attachments := by
  obtain ⟨hd, es, x, as, hh, hsub, rfl, hatt⟩ := openDoc_inv h.opened
  dsimp only at *
  obtain ⟨i1, i2, i3, i4, i5⟩ := openedDir es
  obtain ⟨j1, j2, j3, j4, j5⟩ := openedAtts as
  obtain ⟨q1, q2, q3⟩ := origHeap_segs (d := d) (hd := hd) (o := o) i1 j1 i2 j2
  -- positions
  have small : ∀ p ∈ segmentsOf ⟨hd, es, as, o⟩, p < 2 ^ 62 ∧ allocAt d p < 2 ^ 62 ∧ endAt d p < 2 ^ 62 := by
    intro p hp
    have := h.size p hp
    unfold endAt at this ⊢
    omega
  have m1 : hd.subDirPos ∈ segmentsOf ⟨hd, es, as, o⟩ := by unfold segmentsOf; simp
  have m2 : hd.attDirPos ≠ 0 → hd.attDirPos ∈ segmentsOf ⟨hd, es, as, o⟩ := by intro c; unfold segmentsOf; simp [c]
  have m3 : hd.metadataPos ≠ 0 → hd.metadataPos ∈ segmentsOf ⟨hd, es, as, o⟩ := by intro c; unfold segmentsOf; simp [c]
  have m4 : ∀ e ∈ es, e.filePosition ∈ segmentsOf ⟨hd, es, as, o⟩ := by
    intro e he; unfold segmentsOf; simp only [List.mem_append]; exact Or.inl (List.mem_map.2 ⟨e, he, rfl⟩)
  have m5 : ∀ e ∈ as, e.filePosition ∈ segmentsOf ⟨hd, es, as, o⟩ := by
    intro e he; unfold segmentsOf; simp only [List.mem_append]; exact Or.inr (Or.inl (List.mem_map.2 ⟨e, he, rfl⟩))
  have z1 : hd.subDirPos < 2 ^ 62 := (small _ m1).1
  have z2 : hd.attDirPos < 2 ^ 62 := by
    by_cases c : hd.attDirPos = 0
    · omega
    · exact (small _ (m2 c)).1
  have z3 : hd.metadataPos < 2 ^ 62 := by
    by_cases c : hd.metadataPos = 0
    · omega
    · exact (small _ (m3 c)).1
  obtain ⟨fits, hx, hx2⟩ := readSubDir_fits hsub
  -- the segments are on the file
  have onDisk : ∀ p ∈ segmentsOf ⟨hd, es, as, o⟩, p + 32 ≤ d.size := by
    intro p hp
    unfold segmentsOf at hp
    simp only [List.mem_append, List.mem_cons, List.mem_map] at hp
    rcases hp with ⟨e, he, rfl⟩ | ⟨e, he, rfl⟩ | rfl | hp | hp
    · obtain ⟨_, _, sb, sb', _, e2, _⟩ := h.subBlocks e he
      have := rwReadEntry_size e2
      omega
    · obtain ⟨_, a, e2⟩ := h.attachments e he
      have := rwReadAtt_size e2
      omega
    · omega
    · split at hp
      · cases hp
      · rw [List.mem_singleton] at hp
        subst hp
        rcases hatt with ⟨c, _⟩ | ⟨_, y, hy⟩
        · contradiction
        · have := (readAttDir_alloc hy).2.1
          omega
    · split at hp
      · cases hp
      · rename_i c
        rw [List.mem_singleton] at hp
        subst hp
        obtain ⟨_, m, hm⟩ := h.metadata c
        have := (readMetadata_size hm).1
        dsimp only at this
        omega
  -- the file after opening
  obtain ⟨d1, hd1def⟩ : ∃ d1, d1 = (if info.force then apply d (guidWrites info.guid) else d) := ⟨_, rfl⟩
  obtain ⟨hd1, hhd1⟩ : ∃ hd1, hd1 = (if info.force then { hd with guid := info.guid } else hd) := ⟨_, rfl⟩
  have hag : ∀ p hi, 544 ≤ p → Agree d d1 p hi := by
    intro p hi hp
    rw [hd1def]
    split
    · exact guidWrites_agree d _ p hi (by omega)
    · exact Agree.refl d p hi
  have hh1 : readHeader d1.stream = .ok hd1 := by
    rw [hd1def, hhd1]
    split
    · exact readHeader_guid hh _
    · exact hh
  have hp1 : hd1.subDirPos = hd.subDirPos ∧ hd1.attDirPos = hd.attDirPos ∧ hd1.metadataPos = hd.metadataPos := by
    rw [hhd1]
    split <;> exact ⟨rfl, rfl, rfl⟩
  have good1 : ∀ p ∈ segmentsOf ⟨hd, es, as, o⟩, (origSeg d p).good d1 := fun p hp => ⟨hag p _ (h.behind p hp), onDisk p hp⟩
  have hsub1 : readSubDir al d1.stream ParseOptions.lax hd.subDirPos = .ok (es, x) := by
    have := LooksOnlyAt.good (h.subDir ParseOptions.lax) d1 (good1 _ m1)
    exact this.trans (readSubDir_lax _ _ _ _ _ hsub)
  have hlast : lastPos hd1 (RWDir.init.addAll es) (RWAtts.init.addAll as) = lastPos hd (RWDir.init.addAll es) (RWAtts.init.addAll as) := by
    unfold lastPos
    rw [hp1.1, hp1.2.1, hp1.2.2]
  -- opening
  have hopen : rwCreate al ⟨RWState.init, d⟩ info = (⟨openedState d hd1 es as, d1⟩, none) := by
    unfold rwCreate
    rw [if_neg (by intro c; cases c)]
    dsimp only
    rw [hh]
    dsimp only
    rw [← hd1def, ← hhd1]
    unfold rwOpenDir
    dsimp only
    rw [hp1.1, hsub1]
    dsimp only
    rw [rwOpenAtt_ok (d := d) (as := as) rfl rfl ?_, rwOpenMeta_ok (d := d) rfl ?_]
    · dsimp only
      rw [hx, segAlloc_at (by omega) hx2 (by have := small _ m1; omega)]
      unfold openedState
      rw [hp1.1]
      rfl
    · dsimp only
      rw [hp1.2.2]
      intro c
      have g := good1 _ (m3 c)
      obtain ⟨hl, m, hm⟩ := h.metadata c
      have hm1 : readMetadataData al d1.stream hd.metadataPos = .ok m := (LooksOnlyAt.good hl d1 g).trans hm
      obtain ⟨g1, g2⟩ := (origSeg d hd.metadataPos).hdr d1 g
      exact ⟨g1, g2, by have := small _ (m3 c); omega, (readMetadata_size hm1).2⟩
    · dsimp only
      rw [hp1.2.1]
      rcases hatt with c | ⟨c, y, hy⟩
      · exact Or.inl c
      · refine Or.inr ⟨c, y, (LooksOnlyAt.good (h.attDir c) d1 (good1 _ (m2 c))).trans hy, ?_⟩
        obtain ⟨e1, e2, _⟩ := readAttDir_alloc hy
        rw [e1]
        exact segAlloc_at (by omega) e2 (by have := small _ (m2 c); omega)
  obtain ⟨l1, l2⟩ := lastPos_max (o := o) (hd := hd) i2 j2 z1 z2 z3
  have hnd := slotsOf_nodup (keys_sorted i1.sorted) (keys_sorted j1.sorted) (decide (hd.attDirPos ≠ 0)) (decide (hd.metadataPos ≠ 0))
  have hap := h.apart
  generalize hL : lastPos hd (RWDir.init.addAll es) (RWAtts.init.addAll as) = L at *
  generalize hS : slotsOf ((RWDir.init.addAll es).subBlks.map Prod.fst) ((RWAtts.init.addAll as).atts.map Prod.fst) (decide (hd.attDirPos ≠ 0)) (decide (hd.metadataPos ≠ 0)) = S at *
  generalize hH : origHeap d hd (RWDir.init.addAll es) (RWAtts.init.addAll as) = H at *
  have hsmem : ∀ t ∈ S, posIn H t ∈ segmentsOf ⟨hd, es, as, o⟩ := by
    intro t ht
    rw [q1]
    exact List.mem_map.2 ⟨t, ht, rfl⟩
  have happ : ∀ t u g g', t ≠ u → H t = some g → H u = some g' → g.Apart g' := by
    intro t u g g' hne ht hu
    obtain ⟨a1, a2⟩ := q2 t g ht
    obtain ⟨b1, b2⟩ := q2 u g' hu
    rw [q1, List.pairwise_map] at hap
    have := pairwise_of_mem (fun a b hr => Or.symm hr) hap t a1 u b1 hne
    rw [a2, b2]
    exact this
  obtain ⟨u, hu, huL⟩ : ∃ u ∈ S, posIn H u = L := by
    rw [q1] at l1
    obtain ⟨u, hu, e⟩ := List.mem_map.1 l1
    exact ⟨u, hu, e⟩
  have hLast : H u = some (origSeg d L) := by rw [q3 u hu, huL]
  have hbelow : ∀ t g, H t = some g → (g.pos = L ∧ g.alloc = allocAt d L) ∨ g.fin ≤ L := by
    intro t g hg
    by_cases c : t = u
    · subst c
      rw [hLast] at hg
      injection hg with hg
      subst hg
      exact Or.inl ⟨rfl, rfl⟩
    · right
      obtain ⟨a1, a2⟩ := q2 t g hg
      have l3 := l2 _ (hsmem t a1)
      rcases happ t u g _ c hg hLast with e | e
      · exact e
      · rw [origSeg_fin] at e
        unfold endAt at e
        rw [a2] at e
        have e : L + 32 + allocAt d L ≤ posIn H t := e
        omega
  have hendL : endAt d L < 2 ^ 62 := (small _ l1).2.2
  refine ⟨_, H, endAt d L, hopen, ⟨?_, ?_⟩, ⟨L, l1, rfl⟩, (by intro c; cases c), hd1def, rfl, rfl, congrArg (segAt d) hp1.2.1, rfl,
    congrArg (fun x => openedState d x es as) hhd1⟩
  · refine ⟨⟨?_, ?_, ?_, happ⟩, hh1, ?_, ?_, ?_, ?_⟩
    · intro t g hg
      obtain ⟨a1, a2⟩ := q2 t g hg
      rw [a2]
      exact good1 _ (hsmem t a1)
    · intro t g hg
      obtain ⟨a1, a2⟩ := q2 t g hg
      have := h.behind _ (hsmem t a1)
      rw [a2]
      exact this
    · intro t g hg
      rcases hbelow t g hg with ⟨e1, e2⟩ | e
      · unfold LSeg.fin endAt
        omega
      · unfold endAt
        omega
    · exact (readHeader_fields.1 hh1).1
    · have := h.behind _ l1
      unfold endAt
      omega
    · intro n hn
      cases hn
    · intro _
      obtain ⟨g1, g2⟩ := (origSeg d L).hdr d1 (good1 _ l1)
      refine ⟨allocAt d L, ?_, ?_, ?_, ?_⟩
      · show Holds d1 (lastPos hd1 _ _ + 16) _
        rw [hlast]
        exact g1
      · show lastPos hd1 _ _ + 32 ≤ d1.size
        rw [hlast]
        exact g2
      · show lastPos hd1 _ _ + 32 + _ = _
        rw [hlast]
        rfl
      · show ∀ t g, H t = some g → (g.pos = lastPos hd1 _ _ ∧ _) ∨ g.fin ≤ lastPos hd1 _ _
        rw [hlast]
        exact hbelow
  · have hnoS : ∀ k, c.subs k = none ∨ 0 ≤ k := by
      intro k
      by_cases hk : 0 ≤ k
      · exact Or.inr hk
      · exact Or.inl (hi.noSub k (by omega))
    have hsubSlot : ∀ k, SubSlot al o ((RWDir.init.addAll es).tryGet k) (H (.sub k)) (c.subs k) := by
      intro k
      rw [← hH]
      dsimp only [origHeap]
      rw [i5 k]
      by_cases hk : 0 ≤ k
      · rw [if_pos hk]
        have e1 := hi.subBlock k.toNat
        rw [show ((k.toNat : Nat) : Int) = k by omega] at e1
        unfold Doc.readSubBlock at e1
        dsimp only at e1
        cases he : es[k.toNat]? with
        | none =>
          rw [he] at e1
          have e1 : Except.ok none = Except.ok (c.subs k) := e1
          injection e1 with e1
          rw [← e1]
          trivial
        | some e =>
          have hmem := List.mem_of_getElem? he
          obtain ⟨f1, f2, sb, sb', f3, f4, f5⟩ := h.subBlocks e hmem
          rw [he] at e1
          dsimp only at e1
          rw [f3] at e1
          have e1 : Except.ok (some (viewRead sb)) = Except.ok (c.subs k) := e1
          injection e1 with e1
          rw [← e1]
          refine ⟨rfl, fits e hmem, sb, sb', rfl, f5, ?_⟩
          intro d' hd'
          exact ⟨(LooksOnlyAt.good f1 d' hd').trans f3, (LooksOnlyAt.good f2 d' hd').trans f4⟩
      · rw [if_neg hk, hi.noSub k (by omega)]
        trivial
    have hattSlot : ∀ k, AttSlot al ((RWAtts.init.addAll as).tryGet k) (H (.att k)) (c.atts k) := by
      intro k
      rw [← hH]
      dsimp only [origHeap]
      rw [j5 k]
      by_cases hk : 0 ≤ k
      · rw [if_pos hk]
        have e1 := hi.attachment k.toNat
        rw [show ((k.toNat : Nat) : Int) = k by omega, Doc.readAttachment_eq] at e1
        dsimp only at e1
        cases he : as[k.toNat]? with
        | none =>
          rw [he] at e1
          have e1 : Except.ok none = Except.ok (c.atts k) := e1
          injection e1 with e1
          rw [← e1]
          trivial
        | some e =>
          have hmem := List.mem_of_getElem? he
          obtain ⟨f1, a, f3⟩ := h.attachments e hmem
          rw [he] at e1
          dsimp only at e1
          rw [f3] at e1
          have e1 : Except.ok (some a) = Except.ok (c.atts k) := e1
          injection e1 with e1
          rw [← e1]
          have hfit : e.filePosition < 2 ^ 64 ∧ cstr (nameRead e.name).toList = cstr e.name.toList := by
            rcases hatt with ⟨_, rfl⟩ | ⟨_, y, hy⟩
            · cases hmem
            · exact readAttDir_fits hy e hmem
          refine ⟨rfl, hfit.1, hfit.2, ?_⟩
          intro d' hd'
          exact (LooksOnlyAt.good f1 d' hd').trans f3
      · rw [if_neg hk, hi.noAtt k (by omega)]
        trivial
    have hmetaSlot : MetaSlot al (segAt d hd1.metadataPos) (H .metadata) c.metadata := by
      rw [← hH, hp1.2.2]
      dsimp only [origHeap]
      have e1 := hi.metadata
      unfold Doc.readMetadata at e1
      dsimp only at e1
      unfold segAt lsegAt
      by_cases cm : hd.metadataPos = 0
      · rw [if_pos cm, if_pos cm]
        rw [if_pos (Or.inr cm)] at e1
        cases hc : c.metadata with
        | none => trivial
        | some m => rw [hc] at e1; cases e1
      · rw [if_neg cm, if_neg cm]
        obtain ⟨hl, m, hm⟩ := h.metadata cm
        dsimp only at hm hl
        rw [if_neg (by omega), hm] at e1
        cases hc : c.metadata with
        | none => rw [hc] at e1; cases e1
        | some m' =>
          rw [hc] at e1
          injection e1 with e1
          subst e1
          refine ⟨rfl, rfl, ?_⟩
          intro d' hd'
          exact (LooksOnlyAt.good hl d' hd').trans hm
    refine ⟨rfl, i1, j1, ?_, ?_, hsubSlot, hattSlot, hmetaSlot, ?_, ?_, ?_, ?_, rfl, (segPos_segAt d _).symm, ?_, ?_⟩
    · rw [hi.nextSub]; exact i3.symm
    · rw [hi.nextAtt]; exact j3.symm
    · show DirSlot (some ⟨hd1.subDirPos, allocAt d hd1.subDirPos, false⟩) (H .subDir)
      rw [← hH, hp1.1]
      exact ⟨rfl, rfl⟩
    · show DirSlot (segAt d hd1.attDirPos) (H .attDir)
      rw [← hH, hp1.2.1]
      exact segAt_dir d _
    · intro _ g hg
      rw [← hH] at hg
      dsimp only [origHeap] at hg
      injection hg with hg
      subst hg
      refine ⟨fun po => readSubDir al d.stream po hd.subDirPos, ?_, x, ?_⟩
      · intro d' hd' po
        exact LooksOnlyAt.good (h.subDir po) d' hd'
      · show readSubDir al d.stream (parseOptions o) hd.subDirPos = .ok ((RWDir.init.addAll es).subBlks.map Prod.snd, x)
        rw [i2]
        exact hsub
    · intro _
      rw [← hH]
      dsimp only [origHeap]
      show (∀ g, lsegAt d hd.attDirPos = some g → ∃ x, ∀ d', g.good d' → readAttDir al d'.stream g.pos = .ok ((RWAtts.init.addAll as).atts.map Prod.snd, x)) ∧
        (lsegAt d hd.attDirPos = none → (RWAtts.init.addAll as).atts = [])
      rw [j2]
      rcases hatt with ⟨c0, rfl⟩ | ⟨c0, y, hy⟩
      · refine ⟨?_, fun _ => rfl⟩
        intro g hg
        exact absurd c0 (lsegAt_some hg).1
      · refine ⟨?_, ?_⟩
        · intro g hg
          rw [(lsegAt_some hg).2]
          exact ⟨y, fun d' hd' => (LooksOnlyAt.good (h.attDir c0) d' hd').trans hy⟩
        · intro hg
          unfold lsegAt at hg
          rw [if_neg c0] at hg
          cases hg
    · show (RWDir.init.addAll es).subBlks.length ≤ N
      rw [← List.length_map (f := Prod.snd), i2]
      exact hN1
    · show (RWAtts.init.addAll as).atts.length ≤ N
      rw [← List.length_map (f := Prod.snd), j2]
      exact hN2

theorem create_ok {al : Alloc} {d : Disk} {o : OpenOptions} {doc : Doc} {c : Content} {N : Nat} (info : RWInfo) (h : SoundDoc al d o doc)
    (hi : Initially al d.stream doc c) (hN1 : doc.entries.length ≤ N) (hN2 : doc.attachments.length ≤ N) :
    ∃ s H top, rwCreate al ⟨RWState.init, d⟩ info = (s, none) ∧ Ed al o s c False H top N ∧ (∃ p ∈ segmentsOf doc, top = endAt d p) ∧ s.w.subDirSeg ≠ none ∧
      s.disk = (if info.force then apply d (guidWrites info.guid) else d) ∧ s.w.att = RWAtts.init.addAll doc.attachments ∧
      s.w.dir = RWDir.init.addAll doc.entries ∧ s.w.attDirSeg = segAt d doc.header.attDirPos := by
  obtain ⟨s, H, top, h1, h2, h3, h4, h5, h6, h7, h8, _, _⟩ := create_full info h hi hN1 hN2
  exact ⟨s, H, top, h1, h2, h3, h4, h5, h6, h7, h8⟩

end Verif.Czi
