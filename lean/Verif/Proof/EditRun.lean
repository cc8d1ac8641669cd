import Verif.Proof.EditCreate

/-! Sequences of calls on a reader-writer. -/

namespace Verif.Czi

open Spec

attribute [local irreducible] zeros

/-! ## A new document -/

theorem holds_headerAlloc {d : Disk} {g : Guid} {a b c : Nat} (h : Holds d 0 (fileHeader g a b c)) : Holds d (0 + 16) (le 8 512) := by
  unfold fileHeader segHeader at h
  simp only [List.append_assoc] at h
  have h16 := h.right.left
  rw [fileMagic_length] at h16
  exact h16

theorem create_new {al : Alloc} {d : Disk} (hd : d.size < 544) (o : OpenOptions) (info : RWInfo) :
    ∃ s, rwCreate al ⟨RWState.init, d⟩ info = (s, none) ∧ Ed al o s Content.empty False (fun _ => none) 544 0 ∧
      s.w.subDirSeg = none ∧ s.w.dir.isModified = false ∧ s.w.att = RWAtts.init ∧ s.w.attDirSeg = none ∧ s.w.dir = RWDir.init ∧
      s.disk = apply d [(0, fileHeader info.guid 0 0 0)] ∧ s.w.header.metadataPos = segPos s.w.metaSeg := by
  have hr : readHeader d.stream = .error .notEnough := by
    unfold readHeader readExact
    have : (d.stream 0 544).length ≠ 544 := by
      unfold Disk.stream Disk.read
      simp
      omega
    dsimp only
    rw [if_neg this]
    rfl
  have hho : Holds (apply d [(0, fileHeader info.guid 0 0 0)]) 0 (fileHeader info.guid 0 0 0) := Holds.write (fileHeader_ne_nil _ _ _ _)
  have hsz : 544 ≤ (apply d [(0, fileHeader info.guid 0 0 0)]).size := by
    have := hho.1
    rw [fileHeader_length] at this
    omega
  refine ⟨⟨⟨true, ⟨1, 0, info.guid, 0, 0, 0⟩, RWDir.init, RWAtts.init, 0, none, none, none, none⟩, apply d [(0, fileHeader info.guid 0 0 0)]⟩, ?_, ?_, rfl, rfl, rfl, rfl, rfl, rfl, rfl⟩
  · unfold rwCreate
    rw [if_neg (by intro c; cases c)]
    dsimp only
    rw [hr]
    rfl
  · refine ⟨⟨⟨?_, ?_, ?_, ?_⟩, readHeader_ok hho (by omega) (by omega) (by omega), hsz, by omega, ?_, ?_⟩, ?_⟩
    · intro t g hg; cases hg
    · intro t g hg; cases hg
    · intro t g hg; cases hg
    · intro t u g g' _ hg; cases hg
    · intro n hn; cases hn
    · intro _
      refine ⟨512, ?_, (by show 0 + 32 ≤ (apply d [(0, fileHeader info.guid 0 0 0)]).size; omega), rfl, ?_⟩
      · exact holds_headerAlloc hho
      · intro t g hg; cases hg
    · refine ⟨rfl, ⟨List.Pairwise.nil, (fun p hp => by cases hp)⟩, ⟨List.Pairwise.nil, (fun p hp => by cases hp)⟩, rfl, rfl, fun _ => trivial, fun _ => trivial, trivial,
        trivial, trivial, ?_, ?_, rfl, rfl, Nat.le_refl _, Nat.le_refl _⟩
      · intro _ g hg; cases hg
      · intro _
        exact ⟨(fun g hg => by cases hg), (fun _ => rfl)⟩

/-! ## What the object shows -/

theorem Ed.shows {al : Alloc} {o : OpenOptions} {s : RW} {c : Content} {H : Slot → Option LSeg} {top N : Nat} {grown : Prop}
    (h : Ed al o s c grown H top N) : EditorShows al s c := by
  have hop : ¬ s.w.operational = false := by rw [h.log.operational]; exact Bool.noConfusion
  refine ⟨?_, ?_, ?_⟩
  · intro k
    unfold RW.readSubBlock
    rw [if_neg hop]
    have hs := h.log.sub k
    cases hk : s.w.dir.tryGet k with
    | none =>
      rw [hk] at hs
      rw [hs.none.2]
      rfl
    | some e =>
      rw [hk] at hs
      obtain ⟨g, v, hg, hv, _, _, sb, sb', _, e2, hread⟩ := hs.some
      dsimp only
      rw [(hread _ (h.phys.heap.good _ g hg)).2, hv, ← e2]
      rfl
  · intro k
    unfold RW.readAttachment
    rw [if_neg hop]
    have hs := h.log.att k
    cases hk : s.w.att.tryGet k with
    | none =>
      rw [hk] at hs
      rw [hs.none.2]
    | some e =>
      rw [hk] at hs
      obtain ⟨g, v, hg, hv, _, _, _, hread⟩ := hs.some
      dsimp only
      rw [hread _ (h.phys.heap.good _ g hg), hv]
      rfl
  · unfold RW.readMetadata
    rw [if_neg hop]
    have hs := h.log.metadata
    cases hk : s.w.metaSeg with
    | none =>
      rw [hk] at hs
      rw [hs.none.2]
    | some i =>
      rw [hk] at hs
      obtain ⟨g, v, hg, hv, _, _, hread⟩ := hs.some
      dsimp only
      rw [hread _ (h.phys.heap.good _ g hg), hv]
      rfl

/-! ## Sequences -/

theorem Ed.edit {al : Alloc} (hal : ∀ n, al n = true) {o : OpenOptions} (ops : List EditOp) : ∀ {s : RW} {c : Content} {H : Slot → Option LSeg} {top N : Nat} {grown : Prop},
    Ed al o s c grown H top N → (∀ op ∈ ops, EditOk op) → Tame grown s ops → top + (ops.map editBytes).sum + 4096 * ops.length < 2 ^ 61 →
    ∃ H' top', Ed al o (Spec.edit s c ops).1 (Spec.edit s c ops).2 (Grown grown s ops) H' top' (N + ops.length) ∧
      top' ≤ top + (ops.map editBytes).sum + 4096 * ops.length ∧ (Spec.edit s c ops).1.w.subDirSeg = s.w.subDirSeg := by
  induction ops with
  | nil =>
    intro s c H top N grown h _ _ _
    exact ⟨H, top, h, by show top ≤ top + 0 + 4096 * 0; omega, rfl⟩
  | cons op ops ih =>
    intro s c H top N grown h hok ht hb
    obtain ⟨t1, t2⟩ := ht
    simp only [List.map_cons, List.sum_cons, List.length_cons] at hb ⊢
    obtain ⟨b, hb0⟩ : ∃ b, b = top + editBytes op + 4096 := ⟨_, rfl⟩
    obtain ⟨H1, top1, h1, h2, h3⟩ := h.step hal (hok op (List.mem_cons_self ..)) t1 (b := b) (by omega) (by omega)
    obtain ⟨H2, top2, h4, h5, h6⟩ := ih h1 (fun x hx => hok x (List.mem_cons_of_mem _ hx)) t2 (by omega)
    refine ⟨H2, top2, ?_, by omega, h6.trans h3⟩
    rw [show N + (ops.length + 1) = N + 1 + ops.length by omega]
    exact h4

/-- Everything after `Close`. -/
theorem Ed.finish {al : Alloc} (hal : ∀ n, al n = true) {o : OpenOptions} {s : RW} {c : Content} {H : Slot → Option LSeg} {top N : Nat} {grown : Prop}
    (h : Ed al o s c grown H top N) (hN : N < 2 ^ 31) (htop : top < 2 ^ 60) (hne : s.w.subDirSeg ≠ none ∨ s.w.dir.isModified = true) (ht : TameClose grown s) :
    ∃ w d doc, rwClose s = (⟨w, d⟩, none) ∧ openDoc al d.stream o = .ok doc ∧ ReaderShows al d.stream doc c ∧ SoundDoc al d o doc ∧
      EndsBy d doc (top + 2 ^ 41) ∧ doc.header.guid = s.w.header.guid ∧ doc.entries = s.w.dir.subBlks.map Prod.snd ∧
      doc.attachments.length = s.w.att.atts.length := by
  obtain ⟨w, d, hd, H', top', e1, dn, e2, e3, e4, _, _, e5⟩ := h.close hal hN htop hne ht
  obtain ⟨as, a1, a2⟩ := dn.open
  obtain ⟨a3, a4⟩ := dn.sound a1 a2
  refine ⟨w, d, _, e1, a2, dn.shows a1, a3, fun p hp => Nat.le_trans (a4 p hp) e5, e2, by rw [← e3], ?_⟩
  have := congrArg List.length a1
  rw [← e4]
  simpa using this

/-! ## Which calls succeed -/

theorem Ed.subKnown {al : Alloc} {o : OpenOptions} {s : RW} {c : Content} {H : Slot → Option LSeg} {top N : Nat} {grown : Prop}
    (h : Ed al o s c grown H top N) (k : Int) : (s.w.dir.tryGet k).isSome = (c.subs k).isSome := (h.log.sub k).isSome

theorem Ed.removeSubBlock_result {al : Alloc} {o : OpenOptions} {s : RW} {c : Content} {H : Slot → Option LSeg} {top N : Nat} {grown : Prop}
    (h : Ed al o s c grown H top N) (k : Int) : (editStep s (.removeSubBlock k)).2 = if (c.subs k).isSome then none else some .invalidId := by
  rw [← h.subKnown k]
  unfold editStep
  rw [if_neg (by rw [h.log.operational]; exact Bool.noConfusion)]
  dsimp only
  unfold rwRemoveSubBlock
  cases hk : s.w.dir.tryGet k with
  | none =>
    have : s.w.dir.tryRemove k = (s.w.dir, none) := by
      unfold RWDir.tryRemove
      rw [show mapFind s.w.dir.subBlks k = none from hk]
    rw [this]
    rfl
  | some e =>
    obtain ⟨d', ed, _⟩ := rwdir_remove h.log.dirInv hk
    rw [ed]
    dsimp only
    unfold RW.exec writeDeleted
    rw [Plan.write_eq]
    rfl

theorem Ed.removeAttachment_result {al : Alloc} {o : OpenOptions} {s : RW} {c : Content} {H : Slot → Option LSeg} {top N : Nat} {grown : Prop}
    (h : Ed al o s c grown H top N) (k : Int) : (editStep s (.removeAttachment k)).2 = if (c.atts k).isSome then none else some .invalidId := by
  rw [← (h.log.att k).isSome]
  unfold editStep
  rw [if_neg (by rw [h.log.operational]; exact Bool.noConfusion)]
  dsimp only
  unfold rwRemoveAttachment
  cases hk : s.w.att.tryGet k with
  | none =>
    have : s.w.att.tryRemove k = (s.w.att, none) := by
      unfold RWAtts.tryRemove
      rw [show mapFind s.w.att.atts k = none from hk]
    rw [this]
    rfl
  | some e =>
    obtain ⟨d', ed, _⟩ := rwatt_remove h.log.attInv hk
    rw [ed]
    dsimp only
    unfold RW.exec writeDeleted
    rw [Plan.write_eq]
    rfl

theorem Ed.replaceAttachment_result {al : Alloc} {o : OpenOptions} {s : RW} {c : Content} {H : Slot → Option LSeg} {top N : Nat} {grown : Prop}
    (h : Ed al o s c grown H top N) (htop : top < 2 ^ 61) (k : Int) {a : AddAtt} (hd : a.bytes.length ≤ 2147483647) :
    (editStep s (.replaceAttachment k a)).2 = if (c.atts k).isSome then none else some .invalidId := by
  rw [← (h.log.att k).isSome]
  unfold editStep
  rw [if_neg (by rw [h.log.operational]; exact Bool.noConfusion)]
  dsimp only
  unfold rwReplaceAttachment
  cases hk : s.w.att.tryGet k with
  | none => rfl
  | some e =>
    have hs := h.log.att k
    rw [hk] at hs
    obtain ⟨g, v, hgk, _, hp, _, _, hread⟩ := hs.some
    have hgood := h.phys.heap.good _ g hgk
    obtain ⟨hh, hsz⟩ := g.hdr _ hgood
    have hfin := h.phys.heap.high _ g hgk
    have hfin' : g.fin = g.pos + 32 + g.alloc := rfl
    have hm := rwReadAtt_magic (hread _ hgood)
    obtain ⟨u, hu⟩ := readSegmentHeader_eq hh hsz (by omega) (hp ▸ hm)
    dsimp only
    rw [← hp, hu]
    dsimp only
    obtain ⟨u1, u2⟩ := u64_alloc (a := g.alloc) (by omega)
    rw [u1]
    split
    · unfold rwReplaceAttachmentAtEnd
      obtain ⟨n, en, hpn⟩ := ensureNext_ok h.phys (by omega)
      rw [en]
      dsimp only
      obtain ⟨ws, ew, hho, hw⟩ := att_append a hd n
      rw [ew, Plan.bind_ok]
      unfold RW.exec writeDeleted
      rw [Plan.write_eq]
      rfl
    · unfold rwReplaceAttachmentInPlace
      obtain ⟨ws, kk, ew, hho, hw⟩ := att_inPlace a g.pos (alloc := g.alloc) (by omega) (by omega)
      rw [ew]
      rfl

theorem Ed.replaceSubBlock_result {al : Alloc} {o : OpenOptions} {s : RW} {c : Content} {H : Slot → Option LSeg} {top N : Nat} {grown : Prop}
    (h : Ed al o s c grown H top N) (htop : top < 2 ^ 61) (k : Int) {a : AddInfo} (ha : SubOk a) (hd : a.sizeData ≤ 2147483647) (hc : a.check = true) :
    ((c.subs k).isSome = false → (editStep s (.replaceSubBlock k a)).2 = some .invalidId) ∧
    (∀ e, s.w.dir.tryGet k = some e → allocAt s.disk e.filePosition % 32 = 0 → (editStep s (.replaceSubBlock k a)).2 = none) := by
  rw [← h.subKnown k]
  unfold editStep
  rw [if_neg (by rw [h.log.operational]; exact Bool.noConfusion)]
  dsimp only
  unfold rwReplaceSubBlock
  refine ⟨?_, ?_⟩
  · intro hn
    cases hk : s.w.dir.tryGet k with
    | none => rfl
    | some e => rw [hk] at hn; cases hn
  · intro e hk hal
    rw [hk]
    have hs := h.log.sub k
    rw [hk] at hs
    obtain ⟨g, v, hgk, _, hp, _, sb, sb', _, _, hread⟩ := hs.some
    have hgood := h.phys.heap.good _ g hgk
    obtain ⟨hh, hsz⟩ := g.hdr _ hgood
    have hfin := h.phys.heap.high _ g hgk
    have hfin' : g.fin = g.pos + 32 + g.alloc := rfl
    have hm := rwReadEntry_magic (hread _ hgood).2
    obtain ⟨u, hu⟩ := readSegmentHeader_eq hh hsz (by omega) (hp ▸ hm)
    rw [← hp, allocAt_eq hh hsz (by omega)] at hal
    dsimp only
    rw [← hp, hu]
    dsimp only
    obtain ⟨u1, u2⟩ := u64_alloc (a := g.alloc) (by omega)
    rw [u1, u2]
    have h1 := a.usedSize_ge
    have h2 := a.usedSize_le
    have h3 := le_align a.usedSize
    have h4 := align_lt a.usedSize
    split
    · unfold rwReplaceSubBlockAtEnd
      obtain ⟨n, en, hpn⟩ := ensureNext_ok h.phys (by omega)
      rw [en]
      dsimp only
      obtain ⟨ws, ew, hho, hw⟩ := sub_append ha hc n
      rw [ew, Plan.bind_ok]
      unfold RW.exec writeDeleted
      rw [Plan.write_eq, Plan.bind_ok, Plan.pure_eq]
    · rename_i hge
      unfold rwReplaceSubBlockInPlace
      have : align a.usedSize % 32 = 0 := by unfold align; omega
      obtain ⟨ws, kk, ew, hho, hw⟩ := sub_inPlace ha hc g.pos (alloc := g.alloc) (by omega) (by omega)
      rw [ew]
      rfl

theorem Ed.addSubBlock_result {al : Alloc} {o : OpenOptions} {s : RW} {c : Content} {H : Slot → Option LSeg} {top N : Nat} {grown : Prop}
    (h : Ed al o s c grown H top N) (htop : top < 2 ^ 61) {a : AddInfo} (ha : SubOk a) :
    (editStep s (.addSubBlock a)).2 = none ∨ ((editStep s (.addSubBlock a)).2 = some .invalidArgument ∧ a.check = false) ∨
      (editStep s (.addSubBlock a)).2 = some .subBlockExists := by
  unfold editStep
  rw [if_neg (by rw [h.log.operational]; exact Bool.noConfusion)]
  dsimp only
  unfold rwAddSubBlock
  split
  · rename_i hc
    exact Or.inr (Or.inl ⟨rfl, hc⟩)
  · rename_i hc
    have hc : a.check = true := by simpa using hc
    obtain ⟨n, en, hp⟩ := ensureNext_ok h.phys (by omega)
    rw [en]
    dsimp only
    rcases rwdir_tryAdd h.log.dirInv (a.entry n) with e | ⟨d', e, _⟩
    · rw [e]
      exact Or.inr (Or.inr rfl)
    · rw [e]
      obtain ⟨ws, ew, hh, hw⟩ := sub_append ha hc n
      dsimp only
      unfold RW.exec
      rw [ew]
      exact Or.inl rfl

theorem Ed.addAttachment_result {al : Alloc} {o : OpenOptions} {s : RW} {c : Content} {H : Slot → Option LSeg} {top N : Nat} {grown : Prop}
    (h : Ed al o s c grown H top N) (htop : top < 2 ^ 61) {a : AddAtt} (hd : a.bytes.length ≤ 2147483647) :
    (editStep s (.addAttachment a)).2 = none ∨ ((editStep s (.addAttachment a)).2 = some .invalidArgument ∧ a.check = false) ∨
      (editStep s (.addAttachment a)).2 = some .attachmentExists := by
  unfold editStep
  rw [if_neg (by rw [h.log.operational]; exact Bool.noConfusion)]
  dsimp only
  unfold rwAddAttachment
  split
  · rename_i hc
    exact Or.inr (Or.inl ⟨rfl, hc⟩)
  · obtain ⟨n, en, hp⟩ := ensureNext_ok h.phys (by omega)
    rw [en]
    dsimp only
    rcases rwatt_tryAdd h.log.attInv (a.entry n) with e | ⟨d', e, _⟩
    · rw [e]
      exact Or.inr (Or.inr rfl)
    · rw [e]
      obtain ⟨ws, ew, hh, hw⟩ := att_append a hd n
      dsimp only
      unfold RW.exec
      rw [ew]
      exact Or.inl rfl

theorem Ed.writeMetadata_result {al : Alloc} {o : OpenOptions} {s : RW} {c : Content} {H : Slot → Option LSeg} {top N : Nat} {grown : Prop}
    (h : Ed al o s c grown H top N) (htop : top < 2 ^ 61) {m : MetaInfo} (hx : m.xmlBytes.length ≤ 2147483647) (ha : m.attBytes.length ≤ 2147483647) :
    (editStep s (.writeMetadata m)).2 = if m.check = false then some .invalidArgument else none := by
  unfold editStep
  rw [if_neg (by rw [h.log.operational]; exact Bool.noConfusion)]
  dsimp only
  unfold rwWriteMetadata
  split
  · rfl
  · obtain ⟨n, en, hpn⟩ := ensureNext_ok h.phys (by omega)
    rw [en]
    dsimp only
    have hsm : ∀ x, s.w.metaSeg = some x → x.alloc < 2 ^ 62 := by
      intro x hx'
      have hs := h.log.metadata
      rw [hx'] at hs
      obtain ⟨g', v', h1, _, _, h2, _⟩ := hs.some
      have h3 := h.phys.heap.high _ g' h1
      unfold LSeg.fin at h3
      omega
    obtain ⟨mw, pos, alloc, hpl, ws, ew, hcon⟩ := writeMetadata_ok s.w.metaSeg (fun _ => true) n m hsm (by omega)
    rw [ew]
    rfl

end Verif.Czi
