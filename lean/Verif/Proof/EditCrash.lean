import Verif.Proof.EditTrace
import Verif.Proof.EditClean
import Verif.Proof.Low
import Verif.Spec.Lookup

/-! What the calls on a reader-writer leave alone, at every point of their writes. -/

namespace Verif.Czi

open Spec

attribute [local irreducible] zeros

/-! ## Where the writes go -/

/-- The segments of the document that was opened, the last of them ending at `top`. -/
structure Base (H : Slot → Option LSeg) (top last a : Nat) : Prop where
  low : ∀ t g, H t = some g → 544 ≤ g.pos
  high : ∀ t g, H t = some g → g.fin ≤ top
  apart : ∀ t u g g', t ≠ u → H t = some g → H u = some g' → g.Apart g'
  below : ∀ t g, H t = some g → (g.pos = last ∧ g.alloc = a) ∨ g.fin ≤ last
  top_eq : last + 32 + a = top
  behind : 544 ≤ top
  small : top < 2 ^ 62

/-- Writes behind the segments of the document, or within one of them, the header of which is kept. -/
structure Conf (H : Slot → Option LSeg) (top : Nat) (u : Option Slot) (ws : List Write) : Prop where
  place : ∀ w ∈ ws, top ≤ w.1 ∨ ∃ g, u.bind H = some g ∧ g.pos ≤ w.1 ∧ w.1 + w.2.length ≤ g.fin
  alloc : ∀ g, u.bind H = some g → ∀ d, Holds d (g.pos + 16) (le 8 g.alloc) → Holds (apply d ws) (g.pos + 16) (le 8 g.alloc)

theorem Conf.nil (H : Slot → Option LSeg) (top : Nat) (u : Option Slot) : Conf H top u [] :=
  ⟨(by intro w hw; cases hw), fun _ _ _ h => h⟩

theorem Conf.low {H : Slot → Option LSeg} {top last a : Nat} (B : Base H top last a) (u : Option Slot) {ws : List Write} (h : ∀ w ∈ ws, top ≤ w.1) :
    Conf H top u ws := by
  refine ⟨fun w hw => Or.inl (h w hw), ?_⟩
  intro g hg d hd
  refine hd.agree (apply_agree (fun w hw => Or.inr ?_))
  obtain ⟨t, rfl, ht⟩ := Option.bind_eq_some_iff.1 hg
  have h1 := B.high t g ht
  have h2 := h w hw
  unfold LSeg.fin at h1
  rw [le_length]
  omega

theorem Conf.delete {H : Slot → Option LSeg} {top : Nat} {t : Slot} {g : LSeg} (hg : H t = some g) : Conf H top (some t) [(g.pos, deletedMagic)] := by
  refine ⟨fun w hw => Or.inr ⟨g, hg, delete_within g w hw⟩, ?_⟩
  intro g' hg' d hd
  have : g' = g := by
    have e : H t = some g' := hg'
    rw [hg] at e
    injection e with e
    exact e.symm
  subst this
  refine hd.agree (apply_agree (fun w hw => Or.inl ?_))
  rcases List.mem_singleton.1 hw with rfl
  dsimp only
  rw [deletedMagic_length]

theorem Conf.append {H : Slot → Option LSeg} {top : Nat} {u : Option Slot} {a b : List Write} (h1 : Conf H top u a) (h2 : Conf H top u b) :
    Conf H top u (a ++ b) := by
  refine ⟨?_, ?_⟩
  · intro w hw
    rcases List.mem_append.1 hw with hw | hw
    · exact h1.place w hw
    · exact h2.place w hw
  · intro g hg d hd
    rw [apply_append]
    exact h2.alloc g hg _ (h1.alloc g hg d hd)

theorem Conf.inPlace {H : Slot → Option LSeg} {top : Nat} {t : Slot} {g : LSeg} (hg : H t = some g) {ws : List Write} (hw : WithinW g.pos g.fin ws)
    (ha : ∀ d, Holds (apply d ws) (g.pos + 16) (le 8 g.alloc)) : Conf H top (some t) ws := by
  refine ⟨fun w hx => Or.inr ⟨g, hg, hw w hx⟩, ?_⟩
  intro g' hg' d _
  have : g' = g := by
    have e : H t = some g' := hg'
    rw [hg] at e
    injection e with e
    exact e.symm
  subst this
  exact ha d

theorem cut_mem {ws : List Write} {k j : Nat} {w : Write} (h : w ∈ cut ws k j) : ∃ v ∈ ws, w.1 = v.1 ∧ w.2.length ≤ v.2.length := by
  unfold cut at h
  rcases List.mem_append.1 h with h | h
  · exact ⟨w, List.mem_of_mem_take h, rfl, Nat.le_refl _⟩
  · rw [Option.mem_toList] at h
    obtain ⟨v, hv, rfl⟩ := Option.map_eq_some_iff.1 h
    refine ⟨v, List.mem_of_mem_drop (List.mem_of_mem_head? hv), rfl, ?_⟩
    dsimp only
    rw [List.length_take]
    omega

/-! ## The file -/

/-- The segments that are not in `T` are as they were. -/
structure Keeps (H : Slot → Option LSeg) (hd : Header) (T : Slot → Prop) (d : Disk) : Prop where
  keep : ∀ t g, H t = some g → ¬ T t → g.good d
  header : readHeader d.stream = .ok hd
  size : 544 ≤ d.size

/-- The sizes of the segments are as they were. -/
structure Sizes (H : Slot → Option LSeg) (last a : Nat) (d : Disk) : Prop where
  alloc : ∀ t g, H t = some g → Holds d (g.pos + 16) (le 8 g.alloc) ∧ g.pos + 32 ≤ d.size
  last : Holds d (last + 16) (le 8 a) ∧ last + 32 ≤ d.size

theorem Keeps.writes {H : Slot → Option LSeg} {top last a : Nat} (B : Base H top last a) {hd : Header} {T : Slot → Prop} {d : Disk}
    (h : Keeps H hd T d) {u : Option Slot} {ws : List Write}
    (hw : ∀ w ∈ ws, top ≤ w.1 ∨ ∃ g, u.bind H = some g ∧ g.pos ≤ w.1 ∧ w.1 + w.2.length ≤ g.fin) :
    Keeps H hd (fun t => T t ∨ u = some t) (apply d ws) := by
  have hag : Agree d (apply d ws) 0 544 := apply_agree (fun w hx => by
    have := B.behind
    rcases hw w hx with h1 | ⟨g, hg, h1, h2⟩
    · right; omega
    · obtain ⟨t, rfl, ht⟩ := Option.bind_eq_some_iff.1 hg
      have := B.low t g ht
      right; omega)
  refine ⟨?_, readHeader_agree h.header h.size hag, Nat.le_trans h.size hag.1⟩
  intro t g hg hT
  refine g.loc _ _ (apply_agree ?_) (h.keep t g hg (fun x => hT (Or.inl x)))
  intro w hx
  have h3 := B.high t g hg
  unfold LSeg.fin at h3
  rcases hw w hx with h1 | ⟨g', hg', h1, h2⟩
  · right; omega
  · obtain ⟨t', e, ht'⟩ := Option.bind_eq_some_iff.1 hg'
    have hne : t ≠ t' := fun x => hT (Or.inr (by rw [e, x]))
    have := B.apart t t' g g' hne hg ht'
    unfold LSeg.Apart LSeg.fin at this
    unfold LSeg.fin at h2
    omega

theorem Sizes.writes {H : Slot → Option LSeg} {top last a : Nat} (B : Base H top last a) {d : Disk}
    (h : Sizes H last a d) {u : Option Slot} {ws : List Write} (hw : Conf H top u ws) : Sizes H last a (apply d ws) := by
  have hs : d.size ≤ (apply d ws).size := (apply_agree (d := d) (ws := ws) (lo := 0) (hi := 0) (by intro w _; right; omega)).1
  refine ⟨?_, ?_, Nat.le_trans h.last.2 hs⟩
  · intro t g hg
    obtain ⟨h1, h2⟩ := h.alloc t g hg
    refine ⟨?_, Nat.le_trans h2 hs⟩
    by_cases hu : u = some t
    · subst hu
      exact hw.alloc g hg d h1
    · refine h1.agree (apply_agree ?_)
      intro w hx
      have h3 := B.high t g hg
      unfold LSeg.fin at h3
      rw [le_length]
      rcases hw.place w hx with h1 | ⟨g', hg', h1, h2⟩
      · right; omega
      · obtain ⟨t', e, ht'⟩ := Option.bind_eq_some_iff.1 hg'
        have hne : t ≠ t' := fun x => hu (by rw [e, x])
        have := B.apart t t' g g' hne hg ht'
        unfold LSeg.Apart LSeg.fin at this
        unfold LSeg.fin at h2
        omega
  · by_cases hu : ∃ g, u.bind H = some g ∧ g.pos = last ∧ g.alloc = a
    · obtain ⟨g, hg, rfl, rfl⟩ := hu
      exact hw.alloc g hg d h.last.1
    · refine h.last.1.agree (apply_agree ?_)
      intro w hx
      have h4 := B.top_eq
      rw [le_length]
      rcases hw.place w hx with h1 | ⟨g', hg', h1, h2⟩
      · right; omega
      · obtain ⟨t', e, ht'⟩ := Option.bind_eq_some_iff.1 hg'
        rcases B.below t' g' ht' with ⟨e1, e2⟩ | h5
        · exact absurd ⟨g', hg', e1, e2⟩ hu
        · left; omega

/-! ## The object -/

/-- What the object knows: where a segment of the document is, or something behind all of them. -/
structure Knows (H : Slot → Option LSeg) (top last : Nat) (sd : Option SegInfo × Option SegInfo) (w : RWState) : Prop where
  operational : w.operational = true
  dirInv : RWInv w.dir
  attInv : AttInv w.att
  next : ∀ n, w.next = some n → top ≤ n
  last : w.next = none → w.last = last
  sub : ∀ k e, w.dir.tryGet k = some e → (∃ g, H (.sub k) = some g ∧ g.pos = e.filePosition) ∨ top ≤ e.filePosition
  att : ∀ k e, w.att.tryGet k = some e → (∃ g, H (.att k) = some g ∧ g.pos = e.filePosition) ∨ top ≤ e.filePosition
  metaSeg : ∀ i, w.metaSeg = some i → i.alloc < 2 ^ 62 ∧ ((∃ g, H .metadata = some g ∧ g.pos = i.pos ∧ g.alloc = i.alloc) ∨ top ≤ i.pos)
  dirSegs : (w.subDirSeg, w.attDirSeg) = sd

theorem Knows.setNext {H : Slot → Option LSeg} {top last : Nat} {sd : Option SegInfo × Option SegInfo} {w : RWState} (h : Knows H top last sd w) {n : Nat} (hn : top ≤ n) :
    Knows H top last sd { w with next := some n } :=
  ⟨h.operational, h.dirInv, h.attInv, (by intro m hm; cases hm; exact hn), (by intro x; cases x), h.sub, h.att, h.metaSeg, h.dirSegs⟩

theorem Knows.setDir {H : Slot → Option LSeg} {top last : Nat} {sd : Option SegInfo × Option SegInfo} {w : RWState} (h : Knows H top last sd w) {d : RWDir} (hd : RWInv d)
    {k : Int} {v : Option Entry} (hget : ∀ j, d.tryGet j = if j = k then v else w.dir.tryGet j)
    (hv : ∀ e, v = some e → (∃ g, H (.sub k) = some g ∧ g.pos = e.filePosition) ∨ top ≤ e.filePosition) :
    Knows H top last sd { w with dir := d } := by
  refine ⟨h.operational, hd, h.attInv, h.next, h.last, ?_, h.att, h.metaSeg, h.dirSegs⟩
  intro j e he
  have he : d.tryGet j = some e := he
  rw [hget j] at he
  split at he
  · rename_i c
    subst c
    exact hv e he
  · exact h.sub j e he

theorem Knows.setAtt {H : Slot → Option LSeg} {top last : Nat} {sd : Option SegInfo × Option SegInfo} {w : RWState} (h : Knows H top last sd w) {d : RWAtts} (hd : AttInv d)
    {k : Int} {v : Option AttEntry} (hget : ∀ j, d.tryGet j = if j = k then v else w.att.tryGet j)
    (hv : ∀ e, v = some e → (∃ g, H (.att k) = some g ∧ g.pos = e.filePosition) ∨ top ≤ e.filePosition) :
    Knows H top last sd { w with att := d } := by
  refine ⟨h.operational, h.dirInv, hd, h.next, h.last, h.sub, ?_, h.metaSeg, h.dirSegs⟩
  intro j e he
  have he : d.tryGet j = some e := he
  rw [hget j] at he
  split at he
  · rename_i c
    subst c
    exact hv e he
  · exact h.att j e he

theorem Knows.ensureNext {H : Slot → Option LSeg} {top last a : Nat} (B : Base H top last a) {sd : Option SegInfo × Option SegInfo} {s : RW}
    (h : Knows H top last sd s.w) (hs : Sizes H last a s.disk) :
    ∃ n, s.ensureNext = .ok (⟨{ s.w with next := some n }, s.disk⟩, n) ∧ top ≤ n ∧ Knows H top last sd { s.w with next := some n } := by
  cases hn : s.w.next with
  | some n =>
    refine ⟨n, ?_, h.next n hn, h.setNext (h.next n hn)⟩
    unfold RW.ensureNext
    rw [hn]
    dsimp only
    rw [← hn]
  | none =>
    have hl := h.last hn
    have ht := B.small
    have hte := B.top_eq
    obtain ⟨u, hu⟩ := readSegmentHeaderAny_eq hs.last.1 hs.last.2 (by omega)
    refine ⟨top, ?_, Nat.le_refl _, h.setNext (Nat.le_refl _)⟩
    unfold RW.ensureNext
    rw [hn]
    dsimp only
    rw [hl, hu]
    dsimp only
    rw [show u64 ((a : Int) + 32 + (last : Int)) = top by
      rw [show (a : Int) + 32 + (last : Int) = ((a + 32 + last : Nat) : Int) by push_cast; rfl, u64_eq (by omega)]; omega]

/-- The segment a call writes to, of those of the document. -/
def slotOf : EditOp → Option Slot
  | .replaceSubBlock k _ => some (.sub k)
  | .removeSubBlock k => some (.sub k)
  | .replaceAttachment k _ => some (.att k)
  | .removeAttachment k => some (.att k)
  | .writeMetadata _ => some .metadata
  | _ => none

theorem readSegmentHeader_ok {d : Disk} {p alloc : Nat} {magic : List UInt8} {r : Int × Int} (h : readSegmentHeader d.stream magic p = .ok r)
    (hh : Holds d (p + 16) (le 8 alloc)) (hs : p + 32 ≤ d.size) (ha : alloc < 2 ^ 63) : r.1 = (alloc : Int) := by
  unfold readSegmentHeader at h
  rw [readExact_disk hs] at h
  have h : (if segMagic (d.read p 32) ≠ magic then Except.error RErr.corrupted else Except.ok (segAlloc (d.read p 32), segUsed (d.read p 32))) = .ok r := h
  split at h
  · cases h
  · injection h with h
    rw [← h]
    exact segAlloc_eq hh (by omega) hs ha

variable {H : Slot → Option LSeg} {top last a : Nat} {sd : Option SegInfo × Option SegInfo} {s : RW}

theorem crash_addSubBlock (B : Base H top last a) (h : Knows H top last sd s.w) (hs : Sizes H last a s.disk) {x : AddInfo} (hx : SubOk x) :
    Conf H top none (addSubBlockWrites s x) ∧ Knows H top last sd (rwAddSubBlock s x).1.w := by
  unfold addSubBlockWrites rwAddSubBlock
  split
  · exact ⟨Conf.nil _ _ _, h⟩
  · rename_i hc
    obtain ⟨n, en, hn, hk⟩ := h.ensureNext B hs
    rw [en]
    dsimp only
    rcases rwdir_tryAdd h.dirInv (x.entry n) with e | ⟨d', e, i1, i2, i3, i4, i5⟩
    · rw [e]
      exact ⟨Conf.nil _ _ _, hk⟩
    · rw [e]
      dsimp only
      obtain ⟨ws, ew, hh, hw⟩ := sub_append hx (by simpa using hc) n
      unfold RW.exec
      rw [ew]
      dsimp only
      refine ⟨Conf.low B none (fun w hw' => by have := (hw w hw').1; omega), ?_⟩
      exact (h.setDir i1 i2 (by intro e he; cases he; exact Or.inr hn)).setNext (by omega)

theorem crash_addAttachment (B : Base H top last a) (h : Knows H top last sd s.w) (hs : Sizes H last a s.disk) {x : AddAtt} (hx : x.bytes.length ≤ 2147483647) :
    Conf H top none (addAttachmentWrites s x) ∧ Knows H top last sd (rwAddAttachment s x).1.w := by
  unfold addAttachmentWrites rwAddAttachment
  split
  · exact ⟨Conf.nil _ _ _, h⟩
  · rename_i hc
    obtain ⟨n, en, hn, hk⟩ := h.ensureNext B hs
    rw [en]
    dsimp only
    rcases rwatt_tryAdd h.attInv (x.entry n) with e | ⟨d', e, i1, i2, i3, i4, i5⟩
    · rw [e]
      exact ⟨Conf.nil _ _ _, hk⟩
    · rw [e]
      dsimp only
      obtain ⟨ws, ew, hh, hw⟩ := att_append x hx n
      unfold RW.exec
      rw [ew]
      dsimp only
      refine ⟨Conf.low B none (fun w hw' => by have := (hw w hw').1; omega), ?_⟩
      exact (h.setAtt i1 i2 (by intro e he; cases he; exact Or.inr hn)).setNext (by omega)

/-- A segment marked as deleted: of the document or behind. -/
theorem Conf.mark (B : Base H top last a) {t : Slot} {p : Nat} (h : (∃ g, H t = some g ∧ g.pos = p) ∨ top ≤ p) : Conf H top (some t) [(p, deletedMagic)] := by
  rcases h with ⟨g, hg, rfl⟩ | h
  · exact Conf.delete hg
  · exact Conf.low B _ (by intro w hw; rcases List.mem_singleton.1 hw with rfl; exact h)

theorem crash_removeSubBlock (B : Base H top last a) (h : Knows H top last sd s.w) (k : Int) :
    Conf H top (some (.sub k)) (removeSubBlockWrites s k) ∧ Knows H top last sd (rwRemoveSubBlock s k).1.w := by
  unfold removeSubBlockWrites rwRemoveSubBlock
  cases hk : s.w.dir.tryGet k with
  | none =>
    have : s.w.dir.tryRemove k = (s.w.dir, none) := by
      unfold RWDir.tryRemove
      rw [show mapFind s.w.dir.subBlks k = none from hk]
    rw [this]
    exact ⟨Conf.nil _ _ _, h⟩
  | some e =>
    obtain ⟨d', ed, i1, i2, i3, i4, i5⟩ := rwdir_remove h.dirInv hk
    rw [ed]
    exact ⟨Conf.mark B (h.sub k e hk), h.setDir i1 i2 (by intro e he; cases he)⟩

theorem crash_removeAttachment (B : Base H top last a) (h : Knows H top last sd s.w) (k : Int) :
    Conf H top (some (.att k)) (removeAttachmentWrites s k) ∧ Knows H top last sd (rwRemoveAttachment s k).1.w := by
  unfold removeAttachmentWrites rwRemoveAttachment
  cases hk : s.w.att.tryGet k with
  | none =>
    have : s.w.att.tryRemove k = (s.w.att, none) := by
      unfold RWAtts.tryRemove
      rw [show mapFind s.w.att.atts k = none from hk]
    rw [this]
    exact ⟨Conf.nil _ _ _, h⟩
  | some e =>
    obtain ⟨d', ed, i1, i2, i3, i4, i5⟩ := rwatt_remove h.attInv hk
    rw [ed]
    exact ⟨Conf.mark B (h.att k e hk), h.setAtt i1 i2 (by intro e he; cases he)⟩

theorem crash_replaceSubBlock (B : Base H top last a) (h : Knows H top last sd s.w) (hs : Sizes H last a s.disk) (k : Int) {x : AddInfo} (hx : SubOk x)
    (hc : x.check = true) :
    Conf H top (some (.sub k)) (replaceSubBlockWrites s k x) ∧ Knows H top last sd (rwReplaceSubBlock s k x).1.w := by
  unfold replaceSubBlockWrites rwReplaceSubBlock
  cases hk : s.w.dir.tryGet k with
  | none => exact ⟨Conf.nil _ _ _, h⟩
  | some e =>
    dsimp only
    cases hr : readSegmentHeader s.disk.stream subBlockMagic e.filePosition with
    | error _ => exact ⟨Conf.nil _ _ _, h⟩
    | ok r =>
      obtain ⟨al, ul⟩ := r
      dsimp only
      split
      · unfold rwReplaceSubBlockAtEnd
        obtain ⟨n, en, hn, hkn⟩ := h.ensureNext B hs
        rw [en]
        dsimp only
        obtain ⟨ws, ew, hh, hw⟩ := sub_append hx hc n
        rw [ew, Plan.bind_ok]
        unfold RW.exec writeDeleted
        rw [Plan.write_eq, Plan.bind_ok, Plan.pure_eq]
        dsimp only
        rw [List.append_nil]
        obtain ⟨i1, i2, i3, i4, i5⟩ := rwdir_modify h.dirInv hk (x.entry n)
        refine ⟨(Conf.low B _ (fun w hw' => by have := (hw w hw').1; omega)).append (Conf.mark B (h.sub k e hk)), ?_⟩
        exact (h.setDir i1 i2 (by intro e he; cases he; exact Or.inr hn)).setNext (by omega)
      · unfold rwReplaceSubBlockInPlace
        have hkk : ∀ p : Plan Nat, Knows H top last sd (RW.exec s p (fun s _ => (⟨{ s.w with dir := (s.w.dir.tryModify k (x.entry e.filePosition)).1 }, s.disk⟩, none))).1.w := by
          intro p
          unfold RW.exec
          cases p.result with
          | error _ => exact h
          | ok _ =>
            obtain ⟨i1, i2, i3, i4, i5⟩ := rwdir_modify h.dirInv hk (x.entry e.filePosition)
            exact h.setDir i1 i2 (by intro e' he; cases he; exact h.sub k e hk)
        refine ⟨?_, hkk _⟩
        rcases h.sub k e hk with ⟨g, hg, hp⟩ | hp
        · obtain ⟨h1, h2⟩ := hs.alloc _ g hg
          have h3 := B.high _ g hg
          have h4 := B.small
          unfold LSeg.fin at h3
          rw [hp] at h1 h2
          have ha := readSegmentHeader_ok hr h1 h2 (by omega)
          dsimp only at ha
          rw [ha, (u64_alloc (a := g.alloc) (by omega)).1]
          by_cases hsm : g.alloc < align x.usedSize - 32
          · rw [sub_tooSmall hx _ hsm]
            exact Conf.nil _ _ _
          · obtain ⟨ws, kk, ew, hho, hw⟩ := sub_inPlace hx hc e.filePosition (alloc := g.alloc) (by omega) (by omega)
            rw [ew]
            have hl : x.usedSize ≤ 32 + g.alloc := by have := le_align x.usedSize; omega
            refine Conf.inPlace hg (by unfold LSeg.fin; rw [hp]; exact hw) ?_
            intro d
            rw [hp]
            exact ((subSeg x e.filePosition g.alloc hx hc hl).hdr _ (hho d)).1
        · refine Conf.low B _ ?_
          intro w hw
          have := writeSubBlock_low _ _ _ w hw
          omega

theorem crash_replaceAttachment (B : Base H top last a) (h : Knows H top last sd s.w) (hs : Sizes H last a s.disk) (k : Int) {x : AddAtt}
    (hx : x.bytes.length ≤ 2147483647) :
    Conf H top (some (.att k)) (replaceAttachmentWrites s k x) ∧ Knows H top last sd (rwReplaceAttachment s k x).1.w := by
  unfold replaceAttachmentWrites rwReplaceAttachment
  cases hk : s.w.att.tryGet k with
  | none => exact ⟨Conf.nil _ _ _, h⟩
  | some e =>
    dsimp only
    cases hr : readSegmentHeader s.disk.stream attMagic e.filePosition with
    | error _ => exact ⟨Conf.nil _ _ _, h⟩
    | ok r =>
      obtain ⟨al, ul⟩ := r
      dsimp only
      split
      · unfold rwReplaceAttachmentAtEnd
        obtain ⟨n, en, hn, hkn⟩ := h.ensureNext B hs
        rw [en]
        dsimp only
        obtain ⟨ws, ew, hh, hw⟩ := att_append x hx n
        rw [ew, Plan.bind_ok]
        unfold RW.exec writeDeleted
        rw [Plan.write_eq]
        dsimp only
        obtain ⟨i1, i2, i3, i4, i5⟩ := rwatt_modify h.attInv hk (x.entry n)
        refine ⟨(Conf.low B _ (fun w hw' => by have := (hw w hw').1; omega)).append (Conf.mark B (h.att k e hk)), ?_⟩
        exact (h.setAtt i1 i2 (by intro e he; cases he; exact Or.inr hn)).setNext (by omega)
      · rename_i hge
        unfold rwReplaceAttachmentInPlace
        have hkk : ∀ p : Plan Nat, Knows H top last sd (RW.exec s p (fun s _ => (⟨{ s.w with att := s.w.att.tryModify k (x.entry e.filePosition) }, s.disk⟩, none))).1.w := by
          intro p
          unfold RW.exec
          cases p.result with
          | error _ => exact h
          | ok _ =>
            obtain ⟨i1, i2, i3, i4, i5⟩ := rwatt_modify h.attInv hk (x.entry e.filePosition)
            exact h.setAtt i1 i2 (by intro e' he; cases he; exact h.att k e hk)
        refine ⟨?_, hkk _⟩
        rcases h.att k e hk with ⟨g, hg, hp⟩ | hp
        · obtain ⟨h1, h2⟩ := hs.alloc _ g hg
          have h3 := B.high _ g hg
          have h4 := B.small
          unfold LSeg.fin at h3
          rw [hp] at h1 h2
          have ha := readSegmentHeader_ok hr h1 h2 (by omega)
          dsimp only at ha
          rw [ha, (u64_alloc (a := g.alloc) (by omega)).1] at hge
          rw [ha, (u64_alloc (a := g.alloc) (by omega)).1]
          obtain ⟨ws, kk, ew, hho, hw⟩ := att_inPlace x e.filePosition (alloc := g.alloc) (by omega) (by omega)
          rw [ew]
          refine Conf.inPlace hg (by unfold LSeg.fin; rw [hp]; exact hw) ?_
          intro d
          rw [hp]
          exact ((attSeg x e.filePosition g.alloc (by omega)).hdr _ (hho d)).1
        · refine Conf.low B _ ?_
          intro w hw
          have := writeAttachment_low _ _ _ w hw
          omega

theorem crash_writeMetadata (B : Base H top last a) (h : Knows H top last sd s.w) (hs : Sizes H last a s.disk) {m : MetaInfo}
    (hx : m.xmlBytes.length ≤ 2147483647) (ha : m.attBytes.length ≤ 2147483647) :
    Conf H top (some .metadata) (writeMetadataWrites s m) ∧ Knows H top last sd (rwWriteMetadata s m).1.w := by
  unfold writeMetadataWrites rwWriteMetadata
  split
  · exact ⟨Conf.nil _ _ _, h⟩
  · obtain ⟨n, en, hn, hk⟩ := h.ensureNext B hs
    rw [en]
    dsimp only
    obtain ⟨mw, pos, alloc, hpl, ws, ew, hcon⟩ := writeMetadata_ok s.w.metaSeg (fun _ => true) n m (fun i hi => (h.metaSeg i hi).1) (by omega)
    rw [ew]
    unfold RW.exec
    dsimp only
    have h3 := le_align (256 + (m.xmlBytes.length + m.attBytes.length))
    have h4 := align_lt (256 + (m.xmlBytes.length + m.attBytes.length))
    have hbl := m.body_length alloc
    have hne : m.body alloc ≠ [] := by
      intro x
      rw [x, List.length_nil] at hbl
      omega
    rcases hpl with ⟨i, e1, e2, e3, e4, e5⟩ | ⟨e1, e2, e3, e4⟩
    · subst e3 e4 e5
      have hw := fill_within hcon (by omega)
      obtain ⟨hl, hi⟩ := h.metaSeg i e1
      refine ⟨?_, ?_⟩
      · rw [List.nil_append]
        rcases hi with ⟨g, hg, hp, hal⟩ | hi
        · refine Conf.inPlace hg (by unfold LSeg.fin; rw [hp, hal]; exact hw) ?_
          intro d
          have hho : Holds (apply d ws) i.pos (m.body i.alloc) := Holds.contig hcon hne
          rw [hp, hal]
          exact ((metaSegOf m i.pos i.alloc (by omega)).hdr _ hho).1
        · exact Conf.low B _ (fun w hw' => by have := (hw w hw').1; omega)
      · split
        · rename_i c
          refine ⟨hk.operational, hk.dirInv, hk.attInv, ?_, (by intro x; cases x), hk.sub, hk.att, ?_, hk.dirSegs⟩
          · intro n' hn'
            cases hn'
            omega
          · intro i' hi'
            cases hi'
            exact ⟨hl, Or.inr (by dsimp only; omega)⟩
        · exact hk
    · subst e2 e3
      have hw := fill_within hcon (by omega)
      rw [if_pos rfl]
      refine ⟨?_, ?_⟩
      · refine Conf.append ?_ (Conf.low B _ (fun w hw' => by have := (hw w hw').1; omega))
        rw [e4]
        rcases markUnused_writes s.w.metaSeg (fun _ => true) with e | ⟨i, hi, _, e⟩
        · rw [e]
          exact Conf.nil _ _ _
        · rw [e]
          refine Conf.mark B ?_
          rcases (h.metaSeg i hi).2 with ⟨g, hg, hp, _⟩ | hp
          · exact Or.inl ⟨g, hg, hp⟩
          · exact Or.inr hp
      · refine ⟨hk.operational, hk.dirInv, hk.attInv, ?_, (by intro x; cases x), hk.sub, hk.att, ?_, hk.dirSegs⟩
        · intro n' hn'
          cases hn'
          omega
        · intro i' hi'
          cases hi'
          exact ⟨by dsimp only; omega, Or.inr hn⟩

theorem crash_step (B : Base H top last a) (h : Knows H top last sd s.w) (hs : Sizes H last a s.disk) {op : EditOp} (hop : EditOk op) :
    Conf H top (slotOf op) (editWrites s op) ∧ Knows H top last sd (editStep s op).1.w := by
  unfold editWrites editStep
  rw [if_neg (by rw [h.operational]; intro x; cases x), if_neg (by rw [h.operational]; intro x; cases x)]
  cases op with
  | addSubBlock x => exact crash_addSubBlock B h hs hop.1
  | addAttachment x => exact crash_addAttachment B h hs hop.1
  | replaceSubBlock k x => exact crash_replaceSubBlock B h hs k hop.1 hop.2.2
  | replaceAttachment k x => exact crash_replaceAttachment B h hs k hop.1
  | removeSubBlock k => exact crash_removeSubBlock B h k
  | removeAttachment k => exact crash_removeAttachment B h k
  | writeMetadata m => exact crash_writeMetadata B h hs hop.1 hop.2
  | close => exact absurd hop (by intro x; exact x)

/-- The segments the calls write to. -/
def touched (ops : List EditOp) (t : Slot) : Prop := ∃ op ∈ ops, slotOf op = some t

theorem Keeps.mono {hd : Header} {T T' : Slot → Prop} {d : Disk} (h : Keeps H hd T d) (hT : ∀ t, T t → T' t) : Keeps H hd T' d :=
  ⟨fun t g hg hn => h.keep t g hg (fun x => hn (hT t x)), h.header, h.size⟩

theorem crash_calls (B : Base H top last a) {hd : Header} : ∀ (ops : List EditOp) {s : RW} {T : Slot → Prop}, Knows H top last sd s.w → Sizes H last a s.disk →
    Keeps H hd T s.disk → (∀ op ∈ ops, EditOk op) →
    Knows H top last sd (rwCalls s ops).w ∧ Sizes H last a (rwCalls s ops).disk ∧ Keeps H hd (fun t => T t ∨ touched ops t) (rwCalls s ops).disk
  | [], s, T, h, hs, hk, _ => ⟨h, hs, hk.mono (fun _ x => Or.inl x)⟩
  | op :: ops, s, T, h, hs, hk, ho => by
    obtain ⟨h1, h2⟩ := crash_step B h hs (ho op (List.mem_cons_self ..))
    have hs' := hs.writes B h1
    have hk' := hk.writes B h1.place
    rw [← edit_disk] at hs' hk'
    obtain ⟨a1, a2, a3⟩ := crash_calls B ops h2 hs' hk' (fun p hp => ho p (List.mem_cons_of_mem _ hp))
    refine ⟨a1, a2, a3.mono ?_⟩
    intro t ht
    rcases ht with (ht | ht) | ⟨p, hp, ht⟩
    · exact Or.inl ht
    · exact Or.inr ⟨op, List.mem_cons_self .., ht⟩
    · exact Or.inr ⟨p, List.mem_cons_of_mem _ hp, ht⟩

theorem Keeps.cut (B : Base H top last a) {hd : Header} {T : Slot → Prop} {d : Disk} (h : Keeps H hd T d) {u : Option Slot} {ws : List Write}
    (hw : Conf H top u ws) (k j : Nat) : Keeps H hd (fun t => T t ∨ u = some t) (apply d (cut ws k j)) := by
  refine h.writes B ?_
  intro w hx
  obtain ⟨v, hv, e1, e2⟩ := cut_mem hx
  rw [e1]
  rcases hw.place v hv with h1 | ⟨g, hg, h1, h2⟩
  · exact Or.inl h1
  · exact Or.inr ⟨g, hg, h1, by omega⟩

end Verif.Czi
