import Verif.Proof.EditCrash
import Verif.Spec.EditCrash

/-! What can be read after a crash. -/

namespace Verif.Czi

open Spec

/-- The header with another GUID. -/
def SamePlaces (h h' : Header) : Prop := h'.subDirPos = h.subDirPos ∧ h'.attDirPos = h.attDirPos ∧ h'.metadataPos = h.metadataPos

/-- The segments of a document. -/
def heapOf (d : Disk) (doc : Doc) : Slot → Option LSeg :=
  origHeap d doc.header (RWDir.init.addAll doc.entries) (RWAtts.init.addAll doc.attachments)

theorem heapOf_sub {d : Disk} {doc : Doc} {i : Nat} {e : Entry} (h : doc.entries[i]? = some e) : heapOf d doc (.sub i) = some (origSeg d e.filePosition) := by
  unfold heapOf origHeap
  dsimp only
  rw [(openedDir doc.entries).2.2.2.2, if_pos (by omega), Int.toNat_natCast, h]
  rfl

theorem heapOf_att {d : Disk} {doc : Doc} {i : Nat} {e : AttEntry} (h : doc.attachments[i]? = some e) :
    heapOf d doc (.att i) = some (origSeg d e.filePosition) := by
  unfold heapOf origHeap
  dsimp only
  rw [(openedAtts doc.attachments).2.2.2.2, if_pos (by omega), Int.toNat_natCast, h]
  rfl

theorem heapOf_meta {d : Disk} {doc : Doc} (h : doc.header.metadataPos ≠ 0) : heapOf d doc .metadata = some (origSeg d doc.header.metadataPos) := by
  unfold heapOf origHeap
  dsimp only
  unfold lsegAt
  rw [if_neg h]

theorem heapOf_attDir {d : Disk} {doc : Doc} (h : doc.header.attDirPos ≠ 0) : heapOf d doc .attDir = some (origSeg d doc.header.attDirPos) := by
  unfold heapOf origHeap
  dsimp only
  unfold lsegAt
  rw [if_neg h]

theorem sound_reads {al : Alloc} {d d' : Disk} {o : OpenOptions} {doc : Doc} {hd : Header} {T : Slot → Prop} (h : SoundDoc al d o doc)
    (hk : Keeps (heapOf d doc) hd T d') (hp : SamePlaces doc.header hd) (h1 : ¬ T .subDir) (h2 : ¬ T .attDir) :
    openDoc al d'.stream o = .ok { doc with header := hd } ∧
    (∀ i : Nat, ¬ T (.sub i) → ({ doc with header := hd } : Doc).readSubBlock al d'.stream i = doc.readSubBlock al d.stream i) ∧
    (∀ i : Nat, ¬ T (.att i) → ({ doc with header := hd } : Doc).readAttachment al d'.stream i = doc.readAttachment al d.stream i) ∧
    (¬ T .metadata → ({ doc with header := hd } : Doc).readMetadata al d'.stream = doc.readMetadata al d.stream) := by
  obtain ⟨p1, p2, p3⟩ := hp
  refine ⟨?_, ?_, ?_, ?_⟩
  · obtain ⟨hd0, es, x, as, hh, hsub, e, hatt⟩ := openDoc_inv h.opened
    subst e
    have e1 : readSubDir al d'.stream (parseOptions o) hd0.subDirPos = .ok (es, x) :=
      (LooksOnlyAt.good (h.subDir (parseOptions o)) d' (hk.keep .subDir _ rfl h1)).trans hsub
    unfold openDoc openDocWith
    rw [hk.header]
    show (readSubDir al d'.stream (parseOptions o) hd.subDirPos >>= _) = _
    rw [p1]
    dsimp only
    rw [e1]
    show (if hd.attDirPos ≠ 0 then _ else _) = _
    rw [p2]
    dsimp only
    rcases hatt with ⟨c, rfl⟩ | ⟨c, y, hy⟩
    · rw [if_neg (by omega)]
    · rw [if_pos c]
      have e2 : readAttDir al d'.stream hd0.attDirPos = .ok (as, y) :=
        (LooksOnlyAt.good (h.attDir c) d' (hk.keep .attDir _ (heapOf_attDir (doc := ⟨hd0, es, as, o⟩) c) h2)).trans hy
      rw [e2]
      rfl
  · intro i hi
    unfold Doc.readSubBlock
    dsimp only
    cases he : doc.entries[i]? with
    | none => rfl
    | some e =>
      dsimp only
      have ho : doc.options = o := by
        obtain ⟨_, _, _, _, _, _, e, _⟩ := openDoc_inv h.opened
        rw [e]
      rw [ho]
      rw [LooksOnlyAt.good (h.subBlocks e (List.mem_of_getElem? he)).1 d' (hk.keep _ _ (heapOf_sub he) hi)]
  · intro i hi
    rw [Doc.readAttachment_eq, Doc.readAttachment_eq]
    dsimp only
    cases he : doc.attachments[i]? with
    | none => rfl
    | some e =>
      dsimp only
      rw [LooksOnlyAt.good (h.attachments e (List.mem_of_getElem? he)).1 d' (hk.keep _ _ (heapOf_att he) hi)]
  · intro hi
    unfold Doc.readMetadata
    dsimp only
    rw [p3]
    split
    · rfl
    · rename_i c
      have c : doc.header.metadataPos ≠ 0 := fun x => c (Or.inr x)
      exact LooksOnlyAt.good (h.metadata c).1 d' (hk.keep _ _ (heapOf_meta c) hi)

/-- A reader-writer that has opened a document. -/
structure Opened (d : Disk) (doc : Doc) (info : RWInfo) (top last a : Nat) (s : RW) : Prop where
  base : Base (heapOf d doc) top last a
  knows : Knows (heapOf d doc) top last (some ⟨doc.header.subDirPos, allocAt d doc.header.subDirPos, false⟩, segAt d doc.header.attDirPos) s.w
  sizes : Sizes (heapOf d doc) last a s.disk
  keeps : Keeps (heapOf d doc) (reopened info doc).header (fun _ => False) s.disk
  places : SamePlaces doc.header (reopened info doc).header
  metaSeg : s.w.metaSeg = segAt d doc.header.metadataPos
  dir : s.w.dir = RWDir.init.addAll doc.entries
  att : s.w.att = RWAtts.init.addAll doc.attachments

theorem opened_crash {al : Alloc} {d : Disk} {o : OpenOptions} {doc : Doc} {info : RWInfo} {s : RW} (h : SoundDoc al d o doc)
    (hc : rwCreate al ⟨RWState.init, d⟩ info = (s, none)) : ∃ top last a, Opened d doc info top last a s := by
  obtain ⟨c, hi⟩ := contents_exist h
  obtain ⟨s', H, top, h1, h2, ⟨p, hp, htop⟩, h3, h4, h5, h6, h7, h8, h9⟩ := create_full (N := max doc.entries.length doc.attachments.length) info h hi
    (Nat.le_max_left ..) (Nat.le_max_right ..)
  have hs : s' = s := by
    have := h1.symm.trans hc
    injection this
  subst hs
  have hplaces : SamePlaces doc.header (reopened info doc).header := by
    unfold reopened SamePlaces
    dsimp only
    split <;> exact ⟨rfl, rfl, rfl⟩
  have hnext : s'.w.next = none := by rw [h9]; rfl
  obtain ⟨a, l1, l2, l3, l4⟩ := h2.phys.next_none hnext
  have hH : H = heapOf d doc := h8
  subst hH
  refine ⟨top, s'.w.last, a, ⟨h2.phys.heap.low, h2.phys.heap.high, h2.phys.heap.apart, l4, l3, h2.phys.low, by rw [htop]; exact h.size p hp⟩, ?_,
    ⟨fun t g hg => g.hdr _ (h2.phys.heap.good t g hg), l1, l2⟩, ⟨fun t g hg _ => h2.phys.heap.good t g hg, ?_, h2.phys.size⟩, hplaces, ?_, h6, h5⟩
  · refine ⟨h2.log.operational, h2.log.dirInv, h2.log.attInv, (by intro n hn; rw [hnext] at hn; cases hn), fun _ => rfl, ?_, ?_, ?_, ?_⟩
    · intro k e he
      refine Or.inl ⟨origSeg d e.filePosition, ?_, rfl⟩
      unfold heapOf origHeap
      dsimp only
      rw [← h6, he]
      rfl
    · intro k e he
      refine Or.inl ⟨origSeg d e.filePosition, ?_, rfl⟩
      unfold heapOf origHeap
      dsimp only
      rw [← h5, he]
      rfl
    · intro i hi'
      rw [h9] at hi'
      unfold openedState at hi'
      dsimp only at hi'
      rw [show (if info.force then { doc.header with guid := info.guid } else doc.header).metadataPos = doc.header.metadataPos from hplaces.2.2] at hi'
      unfold segAt at hi'
      split at hi'
      · cases hi'
      · rename_i c
        cases hi'
        have hg := heapOf_meta (d := d) c
        have := h2.phys.heap.high _ _ hg
        have hsm := h.size p hp
        unfold LSeg.fin at this
        have this : doc.header.metadataPos + 32 + allocAt d doc.header.metadataPos ≤ top := this
        exact ⟨by dsimp only; omega, Or.inl ⟨_, hg, rfl, rfl⟩⟩
    · rw [h9]
      unfold openedState
      dsimp only
      have e1 : (if info.force then { doc.header with guid := info.guid } else doc.header).subDirPos = doc.header.subDirPos := hplaces.1
      have e2 : (if info.force then { doc.header with guid := info.guid } else doc.header).attDirPos = doc.header.attDirPos := hplaces.2.1
      rw [e1, e2]
  · have := h2.phys.header
    rw [h9] at this
    exact this
  · rw [h9]
    unfold openedState
    dsimp only
    have e1 : (if info.force then { doc.header with guid := info.guid } else doc.header).metadataPos = doc.header.metadataPos := hplaces.2.2
    rw [e1]

theorem touched_sub {ops : List EditOp} {i : Int} (h : ∀ p ∈ ops, ¬ ChangesSub i p) : ¬ touched ops (.sub i) := by
  rintro ⟨p, hp, e⟩
  refine h p hp ?_
  cases p <;> simp only [slotOf, Option.some.injEq, Slot.sub.injEq, reduceCtorEq] at e <;> exact e

theorem touched_att {ops : List EditOp} {i : Int} (h : ∀ p ∈ ops, ¬ ChangesAtt i p) : ¬ touched ops (.att i) := by
  rintro ⟨p, hp, e⟩
  refine h p hp ?_
  cases p <;> simp only [slotOf, Option.some.injEq, Slot.att.injEq, reduceCtorEq] at e <;> exact e

theorem touched_meta {ops : List EditOp} (h : ∀ p ∈ ops, ¬ WritesMetadata p) : ¬ touched ops .metadata := by
  rintro ⟨p, hp, e⟩
  refine h p hp ?_
  cases p <;> simp only [slotOf, Option.some.injEq, reduceCtorEq] at e <;> exact trivial

theorem touched_dirs (ops : List EditOp) : ¬ touched ops .subDir ∧ ¬ touched ops .attDir := by
  constructor <;>
  · rintro ⟨p, hp, e⟩
    cases p <;> simp only [slotOf, Option.some.injEq, reduceCtorEq] at e

/-- After some calls. -/
theorem Opened.calls {d : Disk} {doc : Doc} {info : RWInfo} {top last a : Nat} {s : RW} (h : Opened d doc info top last a s) {ops : List EditOp}
    (ho : ∀ p ∈ ops, EditOk p) :
    Knows (heapOf d doc) top last (some ⟨doc.header.subDirPos, allocAt d doc.header.subDirPos, false⟩, segAt d doc.header.attDirPos) (rwCalls s ops).w ∧
    Sizes (heapOf d doc) last a (rwCalls s ops).disk ∧ Keeps (heapOf d doc) (reopened info doc).header (touched ops) (rwCalls s ops).disk := by
  obtain ⟨h1, h2, h3⟩ := crash_calls h.base ops h.knows h.sizes h.keeps ho
  exact ⟨h1, h2, h3.mono (fun t ht => ht.resolve_left id)⟩

theorem crash_reads {al : Alloc} {d : Disk} {o : OpenOptions} {doc : Doc} {info : RWInfo} {s : RW} (h : SoundDoc al d o doc)
    (hc : rwCreate al ⟨RWState.init, d⟩ info = (s, none)) {ops : List EditOp} {op : EditOp} (ho : ∀ p ∈ op :: ops, EditOk p) (k j : Nat) :
    openDoc al (leftBy (rwCalls s ops) op k j).stream o = .ok (reopened info doc) ∧
    (∀ i : Nat, (∀ p ∈ op :: ops, ¬ ChangesSub i p) →
      (reopened info doc).readSubBlock al (leftBy (rwCalls s ops) op k j).stream i = doc.readSubBlock al d.stream i) ∧
    (∀ i : Nat, (∀ p ∈ op :: ops, ¬ ChangesAtt i p) →
      (reopened info doc).readAttachment al (leftBy (rwCalls s ops) op k j).stream i = doc.readAttachment al d.stream i) ∧
    ((∀ p ∈ op :: ops, ¬ WritesMetadata p) →
      (reopened info doc).readMetadata al (leftBy (rwCalls s ops) op k j).stream = doc.readMetadata al d.stream) := by
  obtain ⟨top, last, a, hop⟩ := opened_crash h hc
  obtain ⟨h1, h2, h3⟩ := hop.calls (fun p hp => ho p (List.mem_cons_of_mem _ hp))
  obtain ⟨h4, _⟩ := crash_step hop.base h1 h2 (ho op (List.mem_cons_self ..))
  have hk := (h3.cut hop.base h4 k j).mono (T' := touched (op :: ops)) (by
    intro t ht
    rcases ht with ⟨p, hp, e⟩ | e
    · exact ⟨p, List.mem_cons_of_mem _ hp, e⟩
    · exact ⟨op, List.mem_cons_self .., e⟩)
  obtain ⟨e1, e2, e3, e4⟩ := sound_reads h hk hop.places (touched_dirs _).1 (touched_dirs _).2
  exact ⟨e1, fun i hi => e2 i (touched_sub hi), fun i hi => e3 i (touched_att hi), fun hi => e4 (touched_meta hi)⟩

/-! ## Opening -/

theorem guid_writes_mem {g : Guid} {w : Write} (h : w ∈ guidWrites g) : 48 ≤ w.1 ∧ w.1 + w.2.length ≤ 80 := by
  unfold guidWrites at h
  simp only [List.mem_cons, List.not_mem_nil, or_false] at h
  rcases h with rfl | rfl <;> dsimp only <;> rw [guidBytes_length] <;> omega

theorem open_crash {al : Alloc} {d : Disk} {o : OpenOptions} {doc : Doc} (h : SoundDoc al d o doc) (info : RWInfo) (k j : Nat) :
    ∃ g, openDoc al (apply d (cut (openWrites info) k j)).stream o = .ok { doc with header := { doc.header with guid := g } } ∧
    (∀ i : Nat, ({ doc with header := { doc.header with guid := g } } : Doc).readSubBlock al (apply d (cut (openWrites info) k j)).stream i = doc.readSubBlock al d.stream i) ∧
    (∀ i : Nat, ({ doc with header := { doc.header with guid := g } } : Doc).readAttachment al (apply d (cut (openWrites info) k j)).stream i = doc.readAttachment al d.stream i) ∧
    ({ doc with header := { doc.header with guid := g } } : Doc).readMetadata al (apply d (cut (openWrites info) k j)).stream = doc.readMetadata al d.stream := by
  have hw : ∀ w ∈ cut (openWrites info) k j, 48 ≤ w.1 ∧ w.1 + w.2.length ≤ 80 := by
    intro w hx
    obtain ⟨v, hv, e1, e2⟩ := cut_mem hx
    unfold openWrites at hv
    split at hv
    · have := guid_writes_mem hv
      omega
    · cases hv
  have hag : ∀ lo hi, hi ≤ 48 ∨ 80 ≤ lo → Agree d (apply d (cut (openWrites info) k j)) lo hi := by
    intro lo hi hh
    refine apply_agree ?_
    intro w hx
    have := hw w hx
    omega
  generalize apply d (cut (openWrites info) k j) = d' at hag
  have hsz := (hag 80 80 (Or.inr (Nat.le_refl _))).1
  obtain ⟨hd0, es, x, as, hh, _, e, _⟩ := openDoc_inv h.opened
  obtain ⟨f1, f2, f3⟩ := readHeader_fields.1 hh
  have hdoc : doc.header = hd0 := by rw [e]
  have hd' : readHeader d'.stream = .ok { doc.header with guid := guidOf (d'.read 64 16) } := by
    rw [readHeader_fields]
    refine ⟨by omega, ?_, ?_⟩
    · rw [(hag 0 48 (Or.inl (Nat.le_refl _))).read (by omega) (by omega) (by omega)]
      exact f2
    · rw [hdoc, f3]
      rw [(hag 0 48 (Or.inl (Nat.le_refl _))).read (p := 32) (by omega) (by omega) (by omega)]
      rw [(hag 0 48 (Or.inl (Nat.le_refl _))).read (p := 36) (by omega) (by omega) (by omega)]
      rw [(hag 80 544 (Or.inr (Nat.le_refl _))).read (p := 84) (by omega) (by omega) (by omega)]
      rw [(hag 80 544 (Or.inr (Nat.le_refl _))).read (p := 92) (by omega) (by omega) (by omega)]
      rw [(hag 80 544 (Or.inr (Nat.le_refl _))).read (p := 104) (by omega) (by omega) (by omega)]
  obtain ⟨c, hi⟩ := contents_exist h
  obtain ⟨s', H, top, h1, h2, ⟨p, hp, htop⟩, h3, h4, h5, h6, h7, h8, h9⟩ := create_full (N := max doc.entries.length doc.attachments.length)
    ⟨false, info.guid⟩ h hi (Nat.le_max_left ..) (Nat.le_max_right ..)
  have hk : Keeps (heapOf d doc) { doc.header with guid := guidOf (d'.read 64 16) } (fun _ => False) d' := by
    refine ⟨?_, hd', by omega⟩
    intro t g hg _
    rw [← show H = heapOf d doc from h8] at hg
    have hgood := h2.phys.heap.good t g hg
    rw [h4] at hgood
    have h544 := h2.phys.heap.low t g hg
    exact g.loc _ _ (hag _ _ (Or.inr (by omega))) hgood
  obtain ⟨e1, e2, e3, e4⟩ := sound_reads h hk ⟨rfl, rfl, rfl⟩ id id
  exact ⟨_, e1, fun i => e2 i id, fun i => e3 i id, e4 id⟩

end Verif.Czi
