import Verif.Proof.EditLog

/-! The calls on a reader-writer preserve the relation between the object, the file and the contents. -/

namespace Verif.Czi

open Spec

attribute [local irreducible] zeros

/-! ## The segments written -/

theorem AddInfo.usedSize_le (a : AddInfo) : a.usedSize ≤ 320 + (a.sizeMetadata + a.sizeData + a.sizeAttachment) := by
  have := a.dimCount_le
  unfold AddInfo.usedSize AddInfo.segSize
  omega

theorem fill_within {pos alloc : Nat} {ws : List Write} {b : List UInt8} (h : Contig pos ws (b ++ zeros (zeroAmount (alloc + 32 - b.length))))
    (hb : b.length ≤ 32 + alloc) : WithinW pos (pos + 32 + alloc) ws := by
  refine h.within.mono (Nat.le_refl _) ?_
  rw [List.length_append, zeros_length]
  have := filled_le hb
  omega

theorem sub_append {a : AddInfo} (ha : SubOk a) (hc : a.check = true) (n : Nat) :
    ∃ ws, writeSubBlock n none a = ⟨ws, .ok (align a.usedSize)⟩ ∧ (∀ d, Holds (apply d ws) n (a.body n (align a.usedSize - 32))) ∧
      WithinW n (n + align a.usedSize) ws := by
  have h1 := a.usedSize_ge
  have h2 := a.usedSize_le
  have h3 := le_align a.usedSize
  have h4 := align_lt a.usedSize
  have h5 := ha.dataSize
  have h6 := ha.metadataSize
  have h7 := ha.attachmentSize
  have hl := ha.body_length hc n (align a.usedSize - 32)
  obtain ⟨ws, e, k⟩ := writeSubBlock_ok n none a (align a.usedSize - 32) (ha.writable hc) (by omega) (Or.inl ⟨rfl, rfl⟩)
  refine ⟨ws, ?_, fun d => Holds.contig k ?_, ?_⟩
  · rw [e, List.length_append, zeros_length, hl, zeroAmount_small (by omega)]
    congr 2
    omega
  · intro h
    rw [h, List.length_nil] at hl
    omega
  · have := fill_within k (by omega)
    exact this.mono (Nat.le_refl _) (by omega)

theorem sub_inPlace {a : AddInfo} (ha : SubOk a) (hc : a.check = true) (p : Nat) {alloc : Nat} (hal : alloc < 2 ^ 62) (hf : align a.usedSize - 32 ≤ alloc) :
    ∃ ws k, writeSubBlock p (some alloc) a = ⟨ws, .ok k⟩ ∧ (∀ d, Holds (apply d ws) p (a.body p alloc)) ∧
      WithinW p (p + 32 + alloc) ws := by
  have h1 := a.usedSize_ge
  have h3 := le_align a.usedSize
  have hl := ha.body_length hc p alloc
  obtain ⟨ws, e, k⟩ := writeSubBlock_ok p (some alloc) a alloc (ha.writable hc) hal (Or.inr ⟨rfl, hf⟩)
  refine ⟨ws, _, e, fun d => Holds.contig k ?_, fill_within k (by omega)⟩
  intro h
  rw [h, List.length_nil] at hl
  omega

theorem sub_tooSmall {a : AddInfo} (ha : SubOk a) (p : Nat) {alloc : Nat} (hf : alloc < align a.usedSize - 32) :
    writeSubBlock p (some alloc) a = ⟨[], .error .runtimeError⟩ := by
  have h6 := ha.metadataSize
  have h7 := ha.attachmentSize
  unfold writeSubBlock
  rw [if_neg (by omega), if_neg (by omega)]
  simp only [if_pos hf]
  rfl

theorem att_append (a : AddAtt) (hb : a.bytes.length ≤ 2147483647) (n : Nat) :
    ∃ ws, writeAttachment n none a = ⟨ws, .ok (32 + align (256 + a.bytes.length))⟩ ∧
      (∀ d, Holds (apply d ws) n (a.body n (align (256 + a.bytes.length)))) ∧
      WithinW n (n + 32 + align (256 + a.bytes.length)) ws := by
  have h3 := le_align (256 + a.bytes.length)
  have h4 := align_lt (256 + a.bytes.length)
  have hl := a.body_length n (align (256 + a.bytes.length))
  obtain ⟨ws, e, k⟩ := writeAttachment_ok n none a (align (256 + a.bytes.length)) (by omega) rfl
  refine ⟨ws, ?_, fun d => Holds.contig k ?_, fill_within k (by omega)⟩
  · rw [e, List.length_append, zeros_length, hl, zeroAmount_small (by omega)]
    congr 2
    omega
  · intro h
    rw [h, List.length_nil] at hl
    omega

theorem att_inPlace (a : AddAtt) (p : Nat) {alloc : Nat} (hal : alloc < 2 ^ 62) (hf : 256 + a.bytes.length ≤ alloc) :
    ∃ ws k, writeAttachment p (some alloc) a = ⟨ws, .ok k⟩ ∧ (∀ d, Holds (apply d ws) p (a.body p alloc)) ∧
      WithinW p (p + 32 + alloc) ws := by
  have hl := a.body_length p alloc
  obtain ⟨ws, e, k⟩ := writeAttachment_ok p (some alloc) a alloc hal rfl
  refine ⟨ws, _, e, fun d => Holds.contig k ?_, fill_within k (by omega)⟩
  intro h
  rw [h, List.length_nil] at hl
  omega

/-! ## Changing the contents -/

theorem Log.mono {al : Alloc} {o : OpenOptions} {w : RWState} {c : Content} {H : Slot → Option LSeg} {N N' : Nat} (h : Log al o w c H N)
    (hn : N ≤ N') : Log al o w c H N' :=
  { h with subLen := Nat.le_trans h.subLen hn, attLen := Nat.le_trans h.attLen hn }

theorem Log.next {al : Alloc} {o : OpenOptions} {w : RWState} {c : Content} {H : Slot → Option LSeg} {N : Nat} (h : Log al o w c H N)
    (n : Option Nat) : Log al o { w with next := n } c H N :=
  ⟨h.operational, h.dirInv, h.attInv, h.nextSub, h.nextAtt, h.sub, h.att, h.metadata, h.subDir, h.attDir, h.subDirRead, h.attDirRead, h.hdrSub, h.hdrAtt,
    h.subLen, h.attLen⟩

theorem Log.setSub {al : Alloc} {o : OpenOptions} {w : RWState} {c : Content} {H : Slot → Option LSeg} {N N' : Nat} (h : Log al o w c H N)
    (hN : N ≤ N') {k : Int} {d : RWDir} {e : Option Entry} {g : Option LSeg} {v : Option SbView} (hi : RWInv d)
    (hget : ∀ j, d.tryGet j = if j = k then e else w.dir.tryGet j) (hm : d.isModified = true) (hl : d.subBlks.length ≤ N')
    (hs : SubSlot al o e g v) :
    Log al o { w with dir := d } { c with subs := setAt c.subs k v, nextSub := d.next } (put H (.sub k) g) N' := by
  refine ⟨h.operational, hi, h.attInv, rfl, h.nextAtt, ?_, ?_, ?_, ?_, ?_, ?_, ?_, h.hdrSub, h.hdrAtt, hl, Nat.le_trans h.attLen hN⟩
  · intro j
    show SubSlot al o (d.tryGet j) _ (setAt c.subs k v j)
    rw [hget j]
    unfold setAt
    by_cases hj : j = k
    · subst hj
      rw [if_pos rfl, if_pos rfl, put_self]
      exact hs
    · rw [if_neg hj, if_neg hj, put_other _ _ (by intro x; cases x; exact hj rfl)]
      exact h.sub j
  · intro j
    rw [put_other _ _ (by intro x; cases x)]
    exact h.att j
  · rw [put_other _ _ (by intro x; cases x)]
    exact h.metadata
  · rw [put_other _ _ (by intro x; cases x)]
    exact h.subDir
  · rw [put_other _ _ (by intro x; cases x)]
    exact h.attDir
  · intro hx
    rw [show ({ w with dir := d } : RWState).dir = d from rfl, hm] at hx
    cases hx
  · rw [put_other _ _ (by intro x; cases x)]
    exact h.attDirRead

theorem Log.setAtt {al : Alloc} {o : OpenOptions} {w : RWState} {c : Content} {H : Slot → Option LSeg} {N N' : Nat} (h : Log al o w c H N)
    (hN : N ≤ N') {k : Int} {d : RWAtts} {e : Option AttEntry} {g : Option LSeg} {v : Option Attachment} (hi : AttInv d)
    (hget : ∀ j, d.tryGet j = if j = k then e else w.att.tryGet j) (hm : d.isModified = true) (hl : d.atts.length ≤ N')
    (hs : AttSlot al e g v) :
    Log al o { w with att := d } { c with atts := setAt c.atts k v, nextAtt := d.next } (put H (.att k) g) N' := by
  refine ⟨h.operational, h.dirInv, hi, h.nextSub, rfl, ?_, ?_, ?_, ?_, ?_, ?_, ?_, h.hdrSub, h.hdrAtt, Nat.le_trans h.subLen hN, hl⟩
  · intro j
    rw [put_other _ _ (by intro x; cases x)]
    exact h.sub j
  · intro j
    show AttSlot al (d.tryGet j) _ (setAt c.atts k v j)
    rw [hget j]
    unfold setAt
    by_cases hj : j = k
    · subst hj
      rw [if_pos rfl, if_pos rfl, put_self]
      exact hs
    · rw [if_neg hj, if_neg hj, put_other _ _ (by intro x; cases x; exact hj rfl)]
      exact h.att j
  · rw [put_other _ _ (by intro x; cases x)]
    exact h.metadata
  · rw [put_other _ _ (by intro x; cases x)]
    exact h.subDir
  · rw [put_other _ _ (by intro x; cases x)]
    exact h.attDir
  · rw [put_other _ _ (by intro x; cases x)]
    exact h.subDirRead
  · intro hx
    rw [show ({ w with att := d } : RWState).att = d from rfl, hm] at hx
    cases hx

theorem Log.setMeta {al : Alloc} {o : OpenOptions} {w : RWState} {c : Content} {H : Slot → Option LSeg} {N : Nat} (h : Log al o w c H N)
    {i : Option SegInfo} {g : Option LSeg} {v : Option MetaData} (hs : MetaSlot al i g v) :
    Log al o { w with metaSeg := i } { c with metadata := v } (put H .metadata g) N := by
  refine ⟨h.operational, h.dirInv, h.attInv, h.nextSub, h.nextAtt, ?_, ?_, ?_, ?_, ?_, ?_, ?_, h.hdrSub, h.hdrAtt, h.subLen, h.attLen⟩
  · intro j
    rw [put_other _ _ (by intro x; cases x)]
    exact h.sub j
  · intro j
    rw [put_other _ _ (by intro x; cases x)]
    exact h.att j
  · rw [put_self]
    exact hs
  · rw [put_other _ _ (by intro x; cases x)]
    exact h.subDir
  · rw [put_other _ _ (by intro x; cases x)]
    exact h.attDir
  · rw [put_other _ _ (by intro x; cases x)]
    exact h.subDirRead
  · rw [put_other _ _ (by intro x; cases x)]
    exact h.attDirRead

/-! ## The invariant -/

/-- The object, the file and the contents belong together. -/
structure Ed (al : Alloc) (o : OpenOptions) (s : RW) (c : Content) (grown : Prop) (H : Slot → Option LSeg) (top N : Nat) : Prop where
  phys : Phys s.disk s.w.header s.w.next s.w.last grown H top
  log : Log al o s.w c H N

theorem ensureNext_ok {s : RW} {hd : Header} {grown : Prop} {H : Slot → Option LSeg} {top : Nat}
    (h : Phys s.disk hd s.w.next s.w.last grown H top) (ht : top < 2 ^ 62) :
    ∃ n, s.ensureNext = .ok (⟨{ s.w with next := some n }, s.disk⟩, n) ∧ Phys s.disk hd (some n) s.w.last grown H top := by
  obtain ⟨w, disk⟩ := s
  unfold RW.ensureNext
  dsimp only at h ⊢
  cases hn : w.next with
  | some n =>
    refine ⟨n, ?_, hn ▸ h⟩
    obtain ⟨w1, w2, w3, w4, w5, w6, w7, w8, w9⟩ := w
    cases hn
    rfl
  | none =>
    obtain ⟨a, h1, h2, h3, _⟩ := h.next_none hn
    obtain ⟨u, hu⟩ := readSegmentHeaderAny_eq h1 h2 (by omega)
    rw [hu]
    dsimp only
    have e : u64 ((a : Int) + 32 + (w.last : Int)) = top := by
      rw [show (a : Int) + 32 + (w.last : Int) = ((a + 32 + w.last : Nat) : Int) by push_cast; rfl, u64_eq (by omega)]
      omega
    refine ⟨top, by rw [e], h.heap, h.header, h.size, h.low, ?_, by intro x; cases x⟩
    intro n hn'
    cases hn'
    exact ⟨h.low, Nat.le_refl _, fun _ => rfl, fun g hg => h.heap.high _ g hg⟩

/-- The state and contents after a call. -/
def After (al : Alloc) (o : OpenOptions) (s : RW) (c : Content) (op : EditOp) (grown : Prop) (N bound : Nat) (r : RW × Option WErr) : Prop :=
  ∃ H top, Ed al o r.1 (if r.2.isNone then c.after op else c) grown H top N ∧ top ≤ bound ∧ r.1.w.subDirSeg = s.w.subDirSeg

theorem Ed.weaken {al : Alloc} {o : OpenOptions} {s : RW} {c : Content} {grown grown' : Prop} {H : Slot → Option LSeg} {top N N' : Nat}
    (h : Ed al o s c grown H top N) (hg : grown → grown') (hN : N ≤ N') : Ed al o s c grown' H top N' :=
  ⟨h.phys.weaken hg, h.log.mono hN⟩

theorem After.failed {al : Alloc} {o : OpenOptions} {s s' : RW} {c : Content} {op : EditOp} {grown grown' : Prop} {H : Slot → Option LSeg} {top N N' b : Nat}
    (h : Ed al o s' c grown H top N) (hg : grown → grown') (hN : N ≤ N') (hb : top ≤ b) (hs : s'.w.subDirSeg = s.w.subDirSeg) (e : WErr) :
    After al o s c op grown' N' b (s', some e) := ⟨H, top, h.weaken hg hN, hb, hs⟩

theorem Ed.addSubBlock {al : Alloc} (hal : ∀ n, al n = true) {o : OpenOptions} {s : RW} {c : Content} {H : Slot → Option LSeg} {top N : Nat} {grown : Prop}
    (h : Ed al o s c grown H top N) (hg : ¬ grown) {a : AddInfo} (ha : SubOk a) (hd : a.sizeData ≤ 2147483647) {b : Nat}
    (hb : top + editBytes (.addSubBlock a) + 4096 ≤ b) (hb2 : b < 2 ^ 61) :
    After al o s c (.addSubBlock a) grown (N + 1) b (rwAddSubBlock s a) := by
  unfold editBytes at hb
  dsimp only at hb
  unfold rwAddSubBlock
  split
  · exact After.failed h id (by omega) (by omega) rfl _
  · rename_i hc
    have hc : a.check = true := by simpa using hc
    obtain ⟨n, en, hp⟩ := ensureNext_ok h.phys (by omega)
    rw [en]
    dsimp only
    obtain ⟨n1, n2, n3, _⟩ := hp.next_some n rfl
    have ntop := n3 hg
    rcases rwdir_tryAdd h.log.dirInv (a.entry n) with e | ⟨d', e, i1, i2, i3, i4, i5⟩
    · rw [e]
      exact After.failed (s' := ⟨{ s.w with next := some n }, s.disk⟩) ⟨hp, h.log.next _⟩ id (by omega) (by omega) rfl _
    · rw [e]
      obtain ⟨ws, ew, hh, hw⟩ := sub_append ha hc n
      dsimp only
      unfold RW.exec
      rw [ew]
      dsimp only
      have h1 := a.usedSize_ge
      have h2 := a.usedSize_le
      have h3 := le_align a.usedSize
      have h4 := align_lt a.usedSize
      have hl : a.usedSize ≤ 32 + (align a.usedSize - 32) := by omega
      refine ⟨put H (.sub s.w.dir.next) (some (subSeg a n (align a.usedSize - 32) ha hc hl)), n + align a.usedSize, ⟨?_, ?_⟩, by omega, rfl⟩
      · refine hp.append ntop rfl ?_ (fun w hw' => Or.inl (hw w hw').1) (hh _) ⟨by omega, Nat.le_refl _, fun _ => rfl⟩ (by intro x; cases x)
        show n + 32 + (align a.usedSize - 32) ≤ _
        omega
      · have := (h.log.setSub (Nat.le_succ N) i1 i2 i4 (by have := h.log.subLen; omega) (subSlot_new hal o ha hc hd (pos := n) (by omega) hl)).next (some (n + align a.usedSize))
        rw [i3, ← h.log.nextSub] at this
        rw [← h.log.nextSub]
        exact this

theorem Ed.addAttachment {al : Alloc} (hal : ∀ n, al n = true) {o : OpenOptions} {s : RW} {c : Content} {H : Slot → Option LSeg} {top N : Nat} {grown : Prop}
    (h : Ed al o s c grown H top N) (hg : ¬ grown) {a : AddAtt} (hd : a.bytes.length ≤ 2147483647) (hnm : 0 ∈ a.name.toList) {b : Nat}
    (hb : top + editBytes (.addAttachment a) + 4096 ≤ b) (hb2 : b < 2 ^ 61) :
    After al o s c (.addAttachment a) grown (N + 1) b (rwAddAttachment s a) := by
  unfold editBytes at hb
  dsimp only at hb
  unfold rwAddAttachment
  split
  · exact After.failed h id (by omega) (by omega) rfl _
  · obtain ⟨n, en, hp⟩ := ensureNext_ok h.phys (by omega)
    rw [en]
    dsimp only
    obtain ⟨n1, n2, n3, _⟩ := hp.next_some n rfl
    have ntop := n3 hg
    rcases rwatt_tryAdd h.log.attInv (a.entry n) with e | ⟨d', e, i1, i2, i3, i4, i5⟩
    · rw [e]
      exact After.failed (s' := ⟨{ s.w with next := some n }, s.disk⟩) ⟨hp, h.log.next _⟩ id (by omega) (by omega) rfl _
    · rw [e]
      obtain ⟨ws, ew, hh, hw⟩ := att_append a hd n
      dsimp only
      unfold RW.exec
      rw [ew]
      dsimp only
      have h3 := le_align (256 + a.bytes.length)
      have h4 := align_lt (256 + a.bytes.length)
      refine ⟨put H (.att s.w.att.next) (some (attSeg a n (align (256 + a.bytes.length)) h3)), n + (32 + align (256 + a.bytes.length)), ⟨?_, ?_⟩, by omega, rfl⟩
      · refine hp.append ntop rfl ?_ (fun w hw' => Or.inl (hw w hw').1) (hh _) ⟨by omega, Nat.le_refl _, fun _ => rfl⟩ (by intro x; cases x)
        show n + 32 + (align (256 + a.bytes.length)) ≤ _
        omega
      · have := (h.log.setAtt (Nat.le_succ N) i1 i2 i4 (by have := h.log.attLen; omega) (attSlot_new hal hd hnm (pos := n) (by omega) h3)).next
          (some (n + (32 + align (256 + a.bytes.length))))
        rw [i3, ← h.log.nextAtt] at this
        rw [← h.log.nextAtt]
        exact this

/-- Marking a segment as deleted keeps its allocated size. -/
theorem delete_alloc {d : Disk} {g : LSeg} (h : g.good d) : Holds (apply d [(g.pos, deletedMagic)]) (g.pos + 16) (le 8 g.alloc) := by
  refine (g.hdr d h).1.frame (lo := g.pos) (hi := g.pos + 16) ?_ (Or.inr (Nat.le_refl _))
  intro w hw
  rcases List.mem_singleton.1 hw with rfl
  refine ⟨Nat.le_refl _, ?_⟩
  dsimp only
  rw [deletedMagic_length]

theorem delete_within (g : LSeg) : WithinW g.pos g.fin [(g.pos, deletedMagic)] := by
  intro w hw
  rcases List.mem_singleton.1 hw with rfl
  refine ⟨Nat.le_refl _, ?_⟩
  have := deletedMagic_length
  unfold LSeg.fin
  dsimp only
  omega

theorem Ed.removeSubBlock {al : Alloc} {o : OpenOptions} {s : RW} {c : Content} {H : Slot → Option LSeg} {top N : Nat} {grown : Prop}
    (h : Ed al o s c grown H top N) (k : Int) : After al o s c (.removeSubBlock k) grown (N + 1) top (rwRemoveSubBlock s k) := by
  unfold rwRemoveSubBlock
  cases hk : s.w.dir.tryGet k with
  | none =>
    have : s.w.dir.tryRemove k = (s.w.dir, none) := by
      unfold RWDir.tryRemove
      rw [show mapFind s.w.dir.subBlks k = none from hk]
    rw [this]
    exact After.failed h id (by omega) (Nat.le_refl _) rfl _
  | some e =>
    obtain ⟨d', ed, i1, i2, i3, i4, i5⟩ := rwdir_remove h.log.dirInv hk
    rw [ed]
    have hs := h.log.sub k
    rw [hk] at hs
    obtain ⟨g, v, hg, _, hp, _⟩ := hs.some
    dsimp only
    unfold RW.exec writeDeleted
    rw [Plan.write_eq, ← hp]
    dsimp only
    refine ⟨put H (.sub k) none, top, ⟨?_, ?_⟩, Nat.le_refl _, rfl⟩
    · exact h.phys.inPlace hg (delete_within g) (delete_alloc (h.phys.heap.good _ g hg)) (by intro g' x; cases x)
    · have := h.log.setSub (Nat.le_succ N) i1 i2 i4 (by have := h.log.subLen; omega) (show SubSlot al o none none none from trivial)
      rw [i3, ← h.log.nextSub] at this
      exact this

theorem Ed.removeAttachment {al : Alloc} {o : OpenOptions} {s : RW} {c : Content} {H : Slot → Option LSeg} {top N : Nat} {grown : Prop}
    (h : Ed al o s c grown H top N) (k : Int) : After al o s c (.removeAttachment k) grown (N + 1) top (rwRemoveAttachment s k) := by
  unfold rwRemoveAttachment
  cases hk : s.w.att.tryGet k with
  | none =>
    have : s.w.att.tryRemove k = (s.w.att, none) := by
      unfold RWAtts.tryRemove
      rw [show mapFind s.w.att.atts k = none from hk]
    rw [this]
    exact After.failed h id (by omega) (Nat.le_refl _) rfl _
  | some e =>
    obtain ⟨d', ed, i1, i2, i3, i4, i5⟩ := rwatt_remove h.log.attInv hk
    rw [ed]
    have hs := h.log.att k
    rw [hk] at hs
    obtain ⟨g, v, hg, _, hp, _⟩ := hs.some
    dsimp only
    unfold RW.exec writeDeleted
    rw [Plan.write_eq, ← hp]
    dsimp only
    refine ⟨put H (.att k) none, top, ⟨?_, ?_⟩, Nat.le_refl _, rfl⟩
    · exact h.phys.inPlace hg (delete_within g) (delete_alloc (h.phys.heap.good _ g hg)) (by intro g' x; cases x)
    · have := h.log.setAtt (Nat.le_succ N) i1 i2 i4 (by have := h.log.attLen; omega) (show AttSlot al none none none from trivial)
      rw [i3, ← h.log.nextAtt] at this
      exact this

theorem u64_alloc {a : Nat} (h : a < 2 ^ 62) : u64 (a : Int) = a ∧ u64 ((a : Int) + 32) = a + 32 := by
  refine ⟨u64_eq (by omega), ?_⟩
  rw [show (a : Int) + 32 = ((a + 32 : Nat) : Int) by push_cast; rfl, u64_eq (by omega)]

theorem Ed.replaceSubBlock {al : Alloc} (hal : ∀ n, al n = true) {o : OpenOptions} {s : RW} {c : Content} {H : Slot → Option LSeg} {top N : Nat} {grown : Prop}
    (h : Ed al o s c grown H top N) {k : Int} {a : AddInfo} (ha : SubOk a) (hd : a.sizeData ≤ 2147483647) (hc : a.check = true)
    (hg : grown → ¬ Appends s (.replaceSubBlock k a)) {b : Nat} (hb : top + editBytes (.replaceSubBlock k a) + 4096 ≤ b) (hb2 : b < 2 ^ 61) :
    After al o s c (.replaceSubBlock k a) grown (N + 1) b (rwReplaceSubBlock s k a) := by
  unfold editBytes at hb
  dsimp only at hb
  unfold rwReplaceSubBlock
  cases hk : s.w.dir.tryGet k with
  | none => exact After.failed h id (by omega) (by omega) rfl _
  | some e =>
    have hs := h.log.sub k
    rw [hk] at hs
    obtain ⟨g, v, hgk, _, hp, _, sb, sb', _, _, hread⟩ := hs.some
    have hgood := h.phys.heap.good _ g hgk
    obtain ⟨hh, hsz⟩ := g.hdr _ hgood
    have hfin := h.phys.heap.high _ g hgk
    have hfin' : g.fin = g.pos + 32 + g.alloc := rfl
    have hm := rwReadEntry_magic (hread _ hgood).2
    obtain ⟨u, hu⟩ := readSegmentHeader_eq hh hsz (by omega) (hp ▸ hm)
    dsimp only
    rw [← hp, hu]
    dsimp only
    obtain ⟨u1, u2⟩ := u64_alloc (a := g.alloc) (by omega)
    rw [u1, u2]
    have h1 := a.usedSize_ge
    have h2 := a.usedSize_le
    have h3 := le_align a.usedSize
    have h4 := align_lt a.usedSize
    split
    · rename_i hlt
      have hng : ¬ grown := fun x => hg x ⟨e, hk, by rw [← hp, allocAt_eq hh hsz (by omega)]; exact hlt⟩
      unfold rwReplaceSubBlockAtEnd
      obtain ⟨n, en, hpn⟩ := ensureNext_ok h.phys (by omega)
      rw [en]
      dsimp only
      obtain ⟨n1, n2, n3, _⟩ := hpn.next_some n rfl
      have ntop := n3 hng
      obtain ⟨ws, ew, hho, hw⟩ := sub_append ha hc n
      rw [ew, Plan.bind_ok]
      unfold RW.exec writeDeleted
      rw [Plan.write_eq, Plan.bind_ok, Plan.pure_eq]
      dsimp only
      obtain ⟨i1, i2, i3, i4, i5⟩ := rwdir_modify h.log.dirInv hk (a.entry n)
      have hl : a.usedSize ≤ 32 + (align a.usedSize - 32) := by omega
      refine ⟨put H (.sub k) (some (subSeg a n (align a.usedSize - 32) ha hc hl)), n + align a.usedSize + 32, ⟨?_, ?_⟩, by omega, rfl⟩
      · refine hpn.append ntop rfl ?_ ?_ ?_ ⟨by omega, Nat.le_refl _, fun _ => rfl⟩ (by intro x; cases x)
        · show n + 32 + (align a.usedSize - 32) ≤ _
          omega
        · intro w hw'
          rw [List.append_nil] at hw'
          rcases List.mem_append.1 hw' with hw' | hw'
          · exact Or.inl (hw w hw').1
          · exact Or.inr ⟨g, hgk, delete_within g w hw'⟩
        · show Holds _ n _
          rw [List.append_nil, apply_append]
          refine (hho s.disk).frame (delete_within g) (Or.inr (by omega))
      · have := (h.log.setSub (Nat.le_succ N) i1 i2 i4 (by have := h.log.subLen; omega) (subSlot_new hal o ha hc hd (pos := n) (by omega) hl)).next
          (some (n + align a.usedSize + 32))
        rw [i3, ← h.log.nextSub] at this
        exact this
    · rename_i hge
      unfold rwReplaceSubBlockInPlace
      by_cases hsm : g.alloc < align a.usedSize - 32
      · rw [sub_tooSmall ha g.pos hsm]
        unfold RW.exec
        exact After.failed h id (by omega) (by omega) rfl _
      · obtain ⟨ws, kk, ew, hho, hw⟩ := sub_inPlace ha hc g.pos (alloc := g.alloc) (by omega) (by omega)
        rw [ew]
        unfold RW.exec
        dsimp only
        obtain ⟨i1, i2, i3, i4, i5⟩ := rwdir_modify h.log.dirInv hk (a.entry g.pos)
        have hl : a.usedSize ≤ 32 + g.alloc := by omega
        refine ⟨put H (.sub k) (some (subSeg a g.pos g.alloc ha hc hl)), top, ⟨?_, ?_⟩, by omega, rfl⟩
        · refine h.phys.inPlace hgk hw (((subSeg a g.pos g.alloc ha hc hl).hdr _ (hho s.disk)).1) ?_
          intro g' hg'
          cases hg'
          exact ⟨rfl, rfl, hho _⟩
        · have := h.log.setSub (Nat.le_succ N) i1 i2 i4 (by have := h.log.subLen; omega) (subSlot_new hal o ha hc hd (pos := g.pos) (by omega) hl)
          rw [i3, ← h.log.nextSub] at this
          exact this

theorem Ed.replaceAttachment {al : Alloc} (hal : ∀ n, al n = true) {o : OpenOptions} {s : RW} {c : Content} {H : Slot → Option LSeg} {top N : Nat} {grown : Prop}
    (h : Ed al o s c grown H top N) {k : Int} {a : AddAtt} (hd : a.bytes.length ≤ 2147483647) (hnm : 0 ∈ a.name.toList)
    (hg : grown → ¬ Appends s (.replaceAttachment k a)) {b : Nat} (hb : top + editBytes (.replaceAttachment k a) + 4096 ≤ b) (hb2 : b < 2 ^ 61) :
    After al o s c (.replaceAttachment k a) (grown ∨ Appends s (.replaceAttachment k a)) (N + 1) b (rwReplaceAttachment s k a) := by
  unfold editBytes at hb
  dsimp only at hb
  unfold rwReplaceAttachment
  cases hk : s.w.att.tryGet k with
  | none => exact After.failed h Or.inl (by omega) (by omega) rfl _
  | some e =>
    have hs := h.log.att k
    rw [hk] at hs
    obtain ⟨g, v, hgk, _, hp, _, _, hread⟩ := hs.some
    have hgood := h.phys.heap.good _ g hgk
    obtain ⟨hh, hsz⟩ := g.hdr _ hgood
    have hfin := h.phys.heap.high _ g hgk
    have hfin' : g.fin = g.pos + 32 + g.alloc := rfl
    have hm := rwReadAtt_magic (hread _ hgood)
    obtain ⟨u, hu⟩ := readSegmentHeader_eq hh hsz (by omega) (hp ▸ hm)
    dsimp only
    rw [← hp, hu]
    dsimp only
    obtain ⟨u1, u2⟩ := u64_alloc (a := g.alloc) (by omega)
    rw [u1]
    have h3 := le_align (256 + a.bytes.length)
    have h4 := align_lt (256 + a.bytes.length)
    split
    · rename_i hlt
      have happ : Appends s (.replaceAttachment k a) := ⟨e, hk, by rw [← hp, allocAt_eq hh hsz (by omega)]; exact hlt⟩
      have hng : ¬ grown := fun x => hg x happ
      unfold rwReplaceAttachmentAtEnd
      obtain ⟨n, en, hpn⟩ := ensureNext_ok h.phys (by omega)
      rw [en]
      dsimp only
      obtain ⟨n1, n2, n3, _⟩ := hpn.next_some n rfl
      have ntop := n3 hng
      obtain ⟨ws, ew, hho, hw⟩ := att_append a hd n
      rw [ew, Plan.bind_ok]
      unfold RW.exec writeDeleted
      rw [Plan.write_eq]
      dsimp only
      obtain ⟨i1, i2, i3, i4, i5⟩ := rwatt_modify h.log.attInv hk (a.entry n)
      refine ⟨put H (.att k) (some (attSeg a n (align (256 + a.bytes.length)) h3)), n + 32 + align (256 + a.bytes.length), ⟨?_, ?_⟩, by omega, rfl⟩
      · refine hpn.append ntop rfl (Nat.le_refl _) ?_ ?_ ⟨Nat.le_refl _, by omega, fun x => absurd (Or.inr happ) x⟩ (by intro x; cases x)
        · intro w hw'
          rcases List.mem_append.1 hw' with hw' | hw'
          · exact Or.inl (hw w hw').1
          · exact Or.inr ⟨g, hgk, delete_within g w hw'⟩
        · show Holds _ n _
          rw [apply_append]
          refine (hho s.disk).frame (delete_within g) (Or.inr (by omega))
      · have := (h.log.setAtt (Nat.le_succ N) i1 i2 i4 (by have := h.log.attLen; omega) (attSlot_new hal hd hnm (pos := n) (by omega) h3)).next
          (some n)
        rw [i3, ← h.log.nextAtt] at this
        exact this
    · rename_i hge
      unfold rwReplaceAttachmentInPlace
      obtain ⟨ws, kk, ew, hho, hw⟩ := att_inPlace a g.pos (alloc := g.alloc) (by omega) (by omega)
      rw [ew]
      unfold RW.exec
      dsimp only
      obtain ⟨i1, i2, i3, i4, i5⟩ := rwatt_modify h.log.attInv hk (a.entry g.pos)
      have hl : 256 + a.bytes.length ≤ g.alloc := by omega
      refine ⟨put H (.att k) (some (attSeg a g.pos g.alloc hl)), top, ⟨?_, ?_⟩, by omega, rfl⟩
      · refine (h.phys.weaken Or.inl).inPlace hgk hw (((attSeg a g.pos g.alloc hl).hdr _ (hho s.disk)).1) ?_
        intro g' hg'
        cases hg'
        exact ⟨rfl, rfl, hho _⟩
      · have := h.log.setAtt (Nat.le_succ N) i1 i2 i4 (by have := h.log.attLen; omega) (attSlot_new hal hd hnm (pos := g.pos) (by omega) hl)
        rw [i3, ← h.log.nextAtt] at this
        exact this

/-- The writes that mark a segment that is not reused. -/
theorem mark_within {i : Option SegInfo} {mark : SegInfo → Bool} {g : Option LSeg} (h : DirSlot i g) :
    ∀ w ∈ (markUnused i mark).writes, ∃ g0, g = some g0 ∧ g0.pos ≤ w.1 ∧ w.1 + w.2.length ≤ g0.fin := by
  intro w hw
  rcases markUnused_writes i mark with e | ⟨x, e1, _, e2⟩
  · rw [e] at hw; cases hw
  · subst e1
    obtain ⟨g', e3, e4, e5⟩ := h.some
    rw [e2, ← e4] at hw
    exact ⟨g', e3, delete_within g' w hw⟩

theorem MetaSlot.dir {al : Alloc} {i : Option SegInfo} {g : Option LSeg} {v : Option MetaData} (h : MetaSlot al i g v) : DirSlot i g := by
  cases i with
  | none => rw [h.none.1]; trivial
  | some i =>
    obtain ⟨g', v', rfl, _, h1, h2, _⟩ := h.some
    exact ⟨h1, h2⟩

theorem Ed.writeMetadata {al : Alloc} (hal : ∀ n, al n = true) {o : OpenOptions} {s : RW} {c : Content} {H : Slot → Option LSeg} {top N : Nat} {grown : Prop}
    (h : Ed al o s c grown H top N) {m : MetaInfo} (hx : m.xmlBytes.length ≤ 2147483647) (ha : m.attBytes.length ≤ 2147483647)
    (hg : grown → ¬ Appends s (.writeMetadata m)) {b : Nat} (hb : top + editBytes (.writeMetadata m) + 4096 ≤ b) (hb2 : b < 2 ^ 61) :
    After al o s c (.writeMetadata m) grown (N + 1) b (rwWriteMetadata s m) := by
  unfold editBytes at hb
  dsimp only at hb
  unfold rwWriteMetadata
  split
  · exact After.failed h id (by omega) (by omega) rfl _
  · obtain ⟨n, en, hpn⟩ := ensureNext_ok h.phys (by omega)
    rw [en]
    dsimp only
    obtain ⟨n1, n2, n3, n4⟩ := hpn.next_some n rfl
    have hsm : ∀ x, s.w.metaSeg = some x → x.alloc < 2 ^ 62 := by
      intro x hx'
      have hs := h.log.metadata
      rw [hx'] at hs
      obtain ⟨g', v', h1, _, _, h2, _⟩ := hs.some
      have h3 := h.phys.heap.high _ g' h1
      unfold LSeg.fin at h3
      omega
    obtain ⟨mw, pos, alloc, hpl, ws, ew, hcon⟩ := writeMetadata_ok s.w.metaSeg (fun _ => true) n m hsm (by omega)
    rw [ew]
    unfold RW.exec
    dsimp only
    have h3 := le_align (256 + (m.xmlBytes.length + m.attBytes.length))
    have h4 := align_lt (256 + (m.xmlBytes.length + m.attBytes.length))
    have hbl := m.body_length alloc
    have hne : m.body alloc ≠ [] := by
      intro x
      rw [x, List.length_nil] at hbl
      omega
    rcases hpl with ⟨x, e1, e2, e3, e4, e5⟩ | ⟨e1, e2, e3, e4⟩
    · subst e3
      have hs := h.log.metadata
      rw [e1] at hs
      obtain ⟨g, v, hgm, _, hp1, hp2, _⟩ := hs.some
      have hgf := n4 g hgm
      have hgl := h.phys.heap.high _ g hgm
      have hgf' : g.fin = g.pos + 32 + g.alloc := rfl
      have epos : pos = g.pos := by omega
      have eall : alloc = g.alloc := by omega
      subst epos eall
      rw [if_neg (by omega)]
      have hl : 256 + (m.xmlBytes.length + m.attBytes.length) ≤ g.alloc := by omega
      have hho : Holds (apply s.disk ([] ++ ws)) g.pos (m.body g.alloc) := Holds.contig hcon hne
      refine ⟨put H .metadata (some (metaSegOf m g.pos g.alloc hl)), top, ⟨?_, ?_⟩, by omega, rfl⟩
      · refine hpn.inPlace hgm (fill_within hcon (by omega)) (((metaSegOf m g.pos g.alloc hl).hdr _ hho).1) ?_
        intro g' hg'
        cases hg'
        exact ⟨rfl, rfl, hho⟩
      · have := ((h.log.mono (Nat.le_succ N)).setMeta (metaSlot_new hal hx ha x.deleted (pos := g.pos) (by omega) hl)).next (some n)
        have e : (⟨g.pos, g.alloc, x.deleted⟩ : SegInfo) = x := by
          obtain ⟨x1, x2, x3⟩ := x
          simp only [SegInfo.mk.injEq] at *
          exact ⟨by omega, by omega, trivial⟩
        rw [e, ← e1] at this
        exact this
    · subst e2 e3
      rw [if_pos rfl]
      have hng : ¬ grown := fun x => hg x e1
      have ntop := n3 hng
      have hho : ∀ d, Holds (apply d ws) pos (m.body (align (256 + (m.xmlBytes.length + m.attBytes.length)))) := fun d => Holds.contig hcon hne
      have hw := fill_within hcon (by omega)
      refine ⟨put H .metadata (some (metaSegOf m pos _ h3)), pos + (align (256 + (m.xmlBytes.length + m.attBytes.length))) + 32, ⟨?_, ?_⟩, by omega, rfl⟩
      · refine hpn.append ntop rfl ?_ ?_ ?_ ⟨by omega, Nat.le_refl _, fun _ => rfl⟩ (fun _ => ?_)
        · show pos + 32 + (align (256 + (m.xmlBytes.length + m.attBytes.length))) ≤ _
          omega
        · intro w hw'
          rcases List.mem_append.1 hw' with hw' | hw'
          · rw [e4] at hw'
            exact Or.inr (mark_within h.log.metadata.dir w hw')
          · exact Or.inl (hw w hw').1
        · show Holds _ pos _
          rw [apply_append]
          exact hho _
        · show pos + 32 + (align (256 + (m.xmlBytes.length + m.attBytes.length))) ≤ _
          omega
      · exact ((h.log.mono (Nat.le_succ N)).setMeta (metaSlot_new hal hx ha false (pos := pos) (by omega) h3)).next _

/-- A call on an operational object. -/
theorem Ed.step {al : Alloc} (hal : ∀ n, al n = true) {o : OpenOptions} {s : RW} {c : Content} {H : Slot → Option LSeg} {top N : Nat} {grown : Prop}
    (h : Ed al o s c grown H top N) {op : EditOp} (hop : EditOk op) (hg : grown → ¬ Appends s op) {b : Nat}
    (hb : top + editBytes op + 4096 ≤ b) (hb2 : b < 2 ^ 61) :
    After al o s c op (grown ∨ GrowsAttachment s op) (N + 1) b (editStep s op) := by
  have wk : ∀ {r : RW × Option WErr} {b' : Nat}, b' ≤ b → After al o s c op grown (N + 1) b' r → After al o s c op (grown ∨ GrowsAttachment s op) (N + 1) b r := by
    intro r b' hb' ⟨H', t', h1, h2, h3⟩
    exact ⟨H', t', h1.weaken Or.inl (Nat.le_refl _), by omega, h3⟩
  unfold editStep
  rw [if_neg (by rw [h.log.operational]; exact Bool.noConfusion)]
  cases op with
  | addSubBlock a => exact wk (Nat.le_refl _) (h.addSubBlock hal (fun x => hg x trivial) hop.1 hop.2 hb hb2)
  | addAttachment a => exact wk (Nat.le_refl _) (h.addAttachment hal (fun x => hg x trivial) hop.1 hop.2 hb hb2)
  | replaceSubBlock k a => exact wk (Nat.le_refl _) (h.replaceSubBlock hal hop.1 hop.2.1 hop.2.2 hg hb hb2)
  | replaceAttachment k a => exact h.replaceAttachment hal hop.1 hop.2 hg hb hb2
  | removeSubBlock k => exact wk (by omega) (h.removeSubBlock k)
  | removeAttachment k => exact wk (by omega) (h.removeAttachment k)
  | writeMetadata m => exact wk (Nat.le_refl _) (h.writeMetadata hal hop.1 hop.2 hg hb hb2)
  | close => exact absurd hop id

end Verif.Czi
