import Verif.Proof.EditFault
import Verif.Proof.EditClean
import Verif.Spec.EditFault

/-! Edits on a stream that can fail, and the relation between the object, the file and the contents. -/

namespace Verif.Czi

open Spec

attribute [local irreducible] zeros

/-! ## A call that does not fail because of the stream -/

theorem execF_ok {α : Type} {s : RW} {p : Plan α} {fs : List Fault} {k : RW → α → RW × Option WErr}
    (h : (s.execF p fs k).2.1 ≠ some .ioError) : (s.execF p fs k).1 = (s.exec p k).1 ∧ (s.execF p fs k).2.1 = (s.exec p k).2 := by
  unfold RW.execF at h ⊢
  unfold RW.exec
  cases hw : performWrites s.disk p.writes fs with
  | mk d r =>
    obtain ⟨b, fs1⟩ := r
    rw [hw] at h
    cases b with
    | false => exact absurd rfl h
    | true =>
      have := performWrites_all _ _ _ _ _ hw
      subst this
      dsimp only
      cases p.result with
      | error e => exact ⟨rfl, rfl⟩
      | ok a => exact ⟨rfl, rfl⟩

theorem stepF_ok {s : RW} {op : EditOp} {fs : List Fault} (ho : op ≠ .close) (h : (editStepF s op fs).2.1 ≠ some .ioError) :
    (editStepF s op fs).1 = (editStep s op).1 ∧ (editStepF s op fs).2.1 = (editStep s op).2 := by
  unfold editStepF at h ⊢
  unfold editStep
  by_cases hop : s.w.operational = false
  · rw [if_pos hop, if_pos hop]
    exact ⟨rfl, rfl⟩
  · rw [if_neg hop] at h ⊢
    rw [if_neg hop]
    cases op with
    | addSubBlock a =>
      dsimp only at h ⊢
      unfold rwAddSubBlockF at h ⊢
      unfold rwAddSubBlock
      by_cases hc : a.check = false
      · rw [if_pos hc, if_pos hc]
        exact ⟨rfl, rfl⟩
      · rw [if_neg hc] at h ⊢
        rw [if_neg hc]
        revert h
        cases s.ensureNext with
        | error e => exact fun _ => ⟨rfl, rfl⟩
        | ok r =>
          obtain ⟨s', n⟩ := r
          dsimp only
          rcases s'.w.dir.tryAdd (a.entry n) with ⟨d, _ | _⟩
          · exact fun _ => ⟨rfl, rfl⟩
          · exact execF_ok
    | addAttachment a =>
      dsimp only at h ⊢
      unfold rwAddAttachmentF at h ⊢
      unfold rwAddAttachment
      by_cases hc : a.check = false
      · rw [if_pos hc, if_pos hc]
        exact ⟨rfl, rfl⟩
      · rw [if_neg hc] at h ⊢
        rw [if_neg hc]
        revert h
        cases s.ensureNext with
        | error e => exact fun _ => ⟨rfl, rfl⟩
        | ok r =>
          obtain ⟨s', n⟩ := r
          dsimp only
          rcases s'.w.att.tryAdd (a.entry n) with _ | _
          · exact fun _ => ⟨rfl, rfl⟩
          · exact execF_ok
    | replaceSubBlock k a =>
      dsimp only at h ⊢
      revert h
      unfold rwReplaceSubBlockF rwReplaceSubBlock
      cases s.w.dir.tryGet k with
      | none => exact fun _ => ⟨rfl, rfl⟩
      | some e =>
        dsimp only
        cases readSegmentHeader s.disk.stream subBlockMagic e.filePosition with
        | error e => exact fun _ => ⟨rfl, rfl⟩
        | ok r =>
          dsimp only
          split
          · unfold rwReplaceSubBlockAtEndF rwReplaceSubBlockAtEnd
            cases s.ensureNext with
            | error e => exact fun _ => ⟨rfl, rfl⟩
            | ok r => exact execF_ok
          · exact execF_ok
    | replaceAttachment k a =>
      dsimp only at h ⊢
      revert h
      unfold rwReplaceAttachmentF rwReplaceAttachment
      cases s.w.att.tryGet k with
      | none => exact fun _ => ⟨rfl, rfl⟩
      | some e =>
        dsimp only
        cases readSegmentHeader s.disk.stream attMagic e.filePosition with
        | error e => exact fun _ => ⟨rfl, rfl⟩
        | ok r =>
          dsimp only
          split
          · unfold rwReplaceAttachmentAtEndF rwReplaceAttachmentAtEnd
            cases s.ensureNext with
            | error e => exact fun _ => ⟨rfl, rfl⟩
            | ok r => exact execF_ok
          · exact execF_ok
    | removeSubBlock k =>
      dsimp only at h ⊢
      revert h
      unfold rwRemoveSubBlockF rwRemoveSubBlock
      rcases s.w.dir.tryRemove k with ⟨d, _ | _⟩
      · exact fun _ => ⟨rfl, rfl⟩
      · exact execF_ok
    | removeAttachment k =>
      dsimp only at h ⊢
      revert h
      unfold rwRemoveAttachmentF rwRemoveAttachment
      rcases s.w.att.tryRemove k with ⟨d, _ | _⟩
      · exact fun _ => ⟨rfl, rfl⟩
      · exact execF_ok
    | writeMetadata m =>
      dsimp only at h ⊢
      revert h
      unfold rwWriteMetadataF rwWriteMetadata
      split
      · exact fun _ => ⟨rfl, rfl⟩
      · cases s.ensureNext with
        | error e => exact fun _ => ⟨rfl, rfl⟩
        | ok r => exact execF_ok
    | close => exact absurd rfl ho

/-! ## A call that does -/

theorem PartOf.refl (ws : List Write) : PartOf ws ws := fun w hw => ⟨w, hw, rfl, Nat.le_refl _⟩

/-- As `execF_fault`, whatever the result of the plan. -/
theorem execF_stopped {α : Type} {s : RW} {p : Plan α} {fs : List Fault} {k : RW → α → RW × Option WErr}
    (hk : ∀ s a, (k s a).2 = none) (h : (s.execF p fs k).2.1 = some .ioError) :
    ∃ ws', (s.execF p fs k).1 = ⟨s.w, apply s.disk ws'⟩ ∧ PartOf ws' p.writes := by
  unfold RW.execF at h ⊢
  cases hw : performWrites s.disk p.writes fs with
  | mk d r =>
    obtain ⟨b, fs1⟩ := r
    rw [hw] at h
    cases b with
    | false =>
      obtain ⟨ws', h1, h2⟩ := performWrites_part _ _ _ _ _ hw
      exact ⟨ws', by rw [h1], h2⟩
    | true =>
      have := performWrites_all _ _ _ _ _ hw
      subst this
      dsimp only at h ⊢
      cases hr : p.result with
      | error e => exact ⟨_, rfl, PartOf.refl _⟩
      | ok a =>
        rw [hr] at h
        dsimp only at h
        rw [hk] at h
        cases h

/-- The calls that replace something or write metadata. -/
def Rewrites : EditOp → Prop
  | .replaceSubBlock _ _ => True
  | .replaceAttachment _ _ => True
  | .writeMetadata _ => True
  | _ => False

/-- The object after a failed call that replaces something or writes metadata: unchanged, but for the remembered end of the file. -/
theorem replaceF_stopped {s : RW} {op : EditOp} {fs : List Fault} (hop : Rewrites op)
    (h : (editStepF s op fs).2.1 = some .ioError) :
    ∃ x ws', (editStepF s op fs).1 = ⟨{ s.w with next := x }, apply s.disk ws'⟩ ∧
      (x = s.w.next ∨ ∃ n d, s.ensureNext = .ok (⟨{ s.w with next := some n }, d⟩, n) ∧ x = some n) := by
  have key : ∀ {α : Type} {p : Plan α} {fs : List Fault} {k : RW → α → RW × Option WErr}, (∀ s a, (k s a).2 = none) → (s.execF p fs k).2.1 = some .ioError →
      ∃ x ws', (s.execF p fs k).1 = ⟨{ s.w with next := x }, apply s.disk ws'⟩ ∧
      (x = s.w.next ∨ ∃ n d, s.ensureNext = .ok (⟨{ s.w with next := some n }, d⟩, n) ∧ x = some n) := by
    intro α p fs k hk h
    obtain ⟨ws', h1, _⟩ := execF_stopped hk h
    exact ⟨s.w.next, ws', h1, Or.inl rfl⟩
  have key2 : ∀ {α : Type} {p : Plan α} {fs : List Fault} {k : RW → α → RW × Option WErr} {n : Nat},
      s.ensureNext = .ok (⟨{ s.w with next := some n }, s.disk⟩, n) → (∀ s a, (k s a).2 = none) →
      (RW.execF ⟨{ s.w with next := some n }, s.disk⟩ p fs k).2.1 = some .ioError →
      ∃ x ws', (RW.execF ⟨{ s.w with next := some n }, s.disk⟩ p fs k).1 = ⟨{ s.w with next := x }, apply s.disk ws'⟩ ∧
      (x = s.w.next ∨ ∃ n d, s.ensureNext = .ok (⟨{ s.w with next := some n }, d⟩, n) ∧ x = some n) := by
    intro α p fs k n hn hk h
    obtain ⟨ws', h1, _⟩ := execF_stopped hk h
    exact ⟨some n, ws', h1, Or.inr ⟨n, _, hn, rfl⟩⟩
  unfold editStepF at h ⊢
  by_cases ho : s.w.operational = false
  · rw [if_pos ho] at h
    cases h
  rw [if_neg ho] at h ⊢
  cases op with
  | replaceSubBlock k a =>
    dsimp only at h ⊢
    revert h
    unfold rwReplaceSubBlockF
    cases s.w.dir.tryGet k with
    | none => intro h; cases h
    | some e =>
      dsimp only
      cases readSegmentHeader s.disk.stream subBlockMagic e.filePosition with
      | error e => intro h; cases h
      | ok r =>
        dsimp only
        split
        · unfold rwReplaceSubBlockAtEndF
          cases hn : s.ensureNext with
          | error e =>
            intro h
            dsimp only at h
            injection h with h
            subst h
            exact ⟨s.w.next, [], rfl, Or.inl rfl⟩
          | ok r =>
            obtain ⟨s1, n⟩ := r
            have := ensureNext_shape hn
            subst this
            dsimp only
            rw [← hn]
            exact key2 hn (fun _ _ => rfl)
        · exact key (fun _ _ => rfl)
  | replaceAttachment k a =>
    dsimp only at h ⊢
    revert h
    unfold rwReplaceAttachmentF
    cases s.w.att.tryGet k with
    | none => intro h; cases h
    | some e =>
      dsimp only
      cases readSegmentHeader s.disk.stream attMagic e.filePosition with
      | error e => intro h; cases h
      | ok r =>
        dsimp only
        split
        · unfold rwReplaceAttachmentAtEndF
          cases hn : s.ensureNext with
          | error e =>
            intro h
            dsimp only at h
            injection h with h
            subst h
            exact ⟨s.w.next, [], rfl, Or.inl rfl⟩
          | ok r =>
            obtain ⟨s1, n⟩ := r
            have := ensureNext_shape hn
            subst this
            dsimp only
            rw [← hn]
            exact key2 hn (fun _ _ => rfl)
        · exact key (fun _ _ => rfl)
  | writeMetadata m =>
    dsimp only at h ⊢
    revert h
    unfold rwWriteMetadataF
    split
    · intro h; cases h
    · cases hn : s.ensureNext with
      | error e =>
        intro h
        dsimp only at h
        injection h with h
        subst h
        exact ⟨s.w.next, [], rfl, Or.inl rfl⟩
      | ok r =>
        obtain ⟨s1, n⟩ := r
        have := ensureNext_shape hn
        subst this
        dsimp only
        rw [← hn]
        exact key2 hn (fun _ _ => rfl)
  | _ => exact absurd hop id

/-! ## Bytes behind the document do not matter -/

theorem Phys.free {d d' : Disk} {hd : Header} {next : Option Nat} {last : Nat} {grown : Prop} {H : Slot → Option LSeg} {top : Nat}
    (h : Phys d hd next last grown H top) (hs : d.size ≤ d'.size) (he : ∀ i < top, d'.get i = d.get i) : Phys d' hd next last grown H top := by
  have ag : ∀ lo hi, hi ≤ top → Agree d d' lo hi := fun lo hi hh => ⟨hs, fun i _ a _ => he i (by omega)⟩
  refine ⟨⟨?_, h.heap.low, h.heap.high, h.heap.apart⟩, readHeader_agree h.header h.size (ag 0 544 h.low), by have := h.size; omega, h.low, h.next_some, ?_⟩
  · intro t g hg
    exact g.loc _ _ (ag _ _ (h.heap.high t g hg)) (h.heap.good t g hg)
  · intro hn
    obtain ⟨a, a1, a2, a3, a4⟩ := h.next_none hn
    refine ⟨a, a1.agree (ag _ _ ?_), by omega, a3, a4⟩
    rw [show (le 8 a).length = 8 from le_length ..]
    omega

theorem Ed.free {al : Alloc} {o : OpenOptions} {s : RW} {c : Content} {grown : Prop} {H : Slot → Option LSeg} {top N : Nat} (h : Ed al o s c grown H top N)
    (ht : top < 2 ^ 62) {x : Option Nat} {d : Disk} (hs : s.disk.size ≤ d.size) (he : ∀ i < top, d.get i = s.disk.get i)
    (hx : x = s.w.next ∨ ∃ n d, s.ensureNext = .ok (⟨{ s.w with next := some n }, d⟩, n) ∧ x = some n) :
    Ed al o ⟨{ s.w with next := x }, d⟩ c grown H top N := by
  refine ⟨?_, h.log.next x⟩
  rcases hx with rfl | ⟨n, d1, hn, rfl⟩
  · exact h.phys.free hs he
  · obtain ⟨n', h1, h2⟩ := ensureNext_ok h.phys ht
    rw [h1] at hn
    injection hn with hn
    injection hn with _ hn
    subst hn
    exact h2.free hs he

/-! ## The mark on the old attachment directory -/

theorem subTail_within (es : List Entry) {r : Nat × Nat} (ha : r.2 < 2 ^ 62) (hn : subNeed es ≤ r.2) (hm : (es.map entryBytes).flatten.length < 2 ^ 61) :
    WithinW r.1 (r.1 + 32 + r.2) (subTail es r).writes := by
  obtain ⟨p, a⟩ := r
  dsimp only at ha hn ⊢
  obtain ⟨mw, pos, alloc, hp, ws, e, k⟩ := writeSubDir_ok (some ⟨p, a, false⟩) (fun _ => true) 0 es (by intro s hs; cases hs; exact ha) hm
  have hpl : placed (some ⟨p, a, false⟩) 0 (subNeed es) (subNeed es) = (p, a) := by
    unfold placed
    dsimp only
    rw [if_pos hn]
  have hmk : placeMarks (some ⟨p, a, false⟩) (subNeed es) = [] := by
    unfold placeMarks
    dsimp only
    rw [if_pos hn]
  rw [writeSubDir_shape, hpl, hmk, List.nil_append] at e
  have hl : 160 + (es.map entryBytes).flatten.length ≤ a + 32 := by
    have := le_align (128 + (es.map entryBytes).flatten.length)
    unfold subNeed at hn
    omega
  rcases hp with ⟨x, h1, h2, h3, h4, h5⟩ | ⟨h1, _⟩
  · cases h1
    subst h3 h4 h5
    rw [List.nil_append] at e
    have e' := congrArg Plan.writes e
    dsimp only at e'
    rw [e']
    exact fill_within k (by rw [subDirBytes_length]; omega)
  · have := h1 ⟨p, a, false⟩ rfl
    unfold subNeed at hn
    dsimp only at this
    omega

theorem Ed.marksApart {al : Alloc} {o : OpenOptions} {s : RW} {c : Content} {H : Slot → Option LSeg} {top N : Nat} {grown : Prop}
    (h : Ed al o s c grown H top N) (hN : N < 2 ^ 31) (htop : top < 2 ^ 60) (hg : grown → ¬ AppendsSubDir s) : MarksApart s := by
  intro hm _ n d hn i hc1 hc2
  obtain ⟨n', en, hpn⟩ := ensureNext_ok h.phys (by omega)
  rw [en] at hn
  injection hn with hn
  injection hn with _ hn
  subst hn
  obtain ⟨n1, n2, n3, n4⟩ := hpn.next_some n' rfl
  have hlen := entries_bytes_le (s.w.dir.subBlks.map Prod.snd)
  have hsl := h.log.subLen
  rw [List.length_map] at hlen
  have h4 := align_lt (128 + ((s.w.dir.subBlks.map Prod.snd).map entryBytes).flatten.length)
  obtain ⟨w, hw, w1, w2⟩ := hc1
  obtain ⟨g0, hg0, p1, p2⟩ : ∃ g0, H .attDir = some g0 ∧ g0.pos ≤ w.1 ∧ w.1 + w.2.length ≤ g0.fin := by
    unfold placeMarks at hw
    split at hw
    · rename_i x hx
      split at hw
      · cases hw
      · rw [← hx] at hw
        exact mark_within h.log.attDir w hw
    · cases hw
  have hf0 := h.phys.heap.high _ g0 hg0
  obtain ⟨v, hv, v1, v2⟩ := hc2
  unfold subAt at hv
  have hnew : ∀ (_ : ¬ grown), v ∈ (subTail (s.w.dir.subBlks.map Prod.snd) (n', subNeed (s.w.dir.subBlks.map Prod.snd))).writes → False := by
    intro hgr hv
    have := n3 hgr
    have hal : subNeed (s.w.dir.subBlks.map Prod.snd) < 2 ^ 62 := by unfold subNeed; omega
    have := subTail_within (s.w.dir.subBlks.map Prod.snd) (r := (n', subNeed (s.w.dir.subBlks.map Prod.snd))) hal (Nat.le_refl _) (by omega) v hv
    dsimp only at this
    omega
  cases hsd : s.w.subDirSeg with
  | none =>
    rw [hsd] at hv
    exact hnew (fun x => hg x ⟨hm, fun i hi => by rw [hsd] at hi; cases hi⟩) hv
  | some x =>
    rw [hsd] at hv
    unfold placed at hv
    dsimp only at hv
    split at hv
    · rename_i hge
      have hs := h.log.subDir
      rw [hsd] at hs
      obtain ⟨g, hgm, q1, q2⟩ := hs.some
      have hgl := h.phys.heap.high _ g hgm
      have hgf' : g.fin = g.pos + 32 + g.alloc := rfl
      have hx2 : x.alloc < 2 ^ 62 := by omega
      have := subTail_within (s.w.dir.subBlks.map Prod.snd) (r := (x.pos, x.alloc)) hx2 hge (by omega) v hv
      have hap := h.phys.heap.apart _ _ _ _ (show Slot.attDir ≠ .subDir by intro e; cases e) hg0 hgm
      unfold LSeg.Apart at hap
      dsimp only at this
      omega
    · rename_i hlt
      exact hnew (fun y => hg y ⟨hm, fun i hi => by rw [hsd] at hi; cases hi; unfold subNeed at hlt; omega⟩) hv

/-! ## Sequences of calls -/

/-- Marking a segment as deleted, only partly. -/
theorem Phys.torn {d : Disk} {hd : Header} {next : Option Nat} {last : Nat} {grown : Prop} {H : Slot → Option LSeg} {top : Nat} {t : Slot} {g : LSeg}
    {ws : List Write} (h : Phys d hd next last grown H top) (hg : H t = some g) (hp : PartOf ws [(g.pos, deletedMagic)]) :
    Phys (apply d ws) hd next last grown (put H t none) top := by
  have hw : WithinW g.pos (g.pos + 16) ws := by
    intro w hw
    obtain ⟨v, hv, v1, v2⟩ := hp w hw
    rcases List.mem_singleton.1 hv with rfl
    have := deletedMagic_length
    dsimp only at v1 v2
    omega
  refine h.inPlace hg (hw.mono (Nat.le_refl _) (by unfold LSeg.fin; omega)) ?_ (by intro g' x; cases x)
  exact (g.hdr d (h.heap.good t g hg)).1.frame hw (Or.inr (Nat.le_refl _))

theorem Ed.removeSubBlockF {al : Alloc} {o : OpenOptions} {s : RW} {c : Content} {H : Slot → Option LSeg} {top N : Nat} {grown : Prop}
    (h : Ed al o s c grown H top N) {k : Int} {fs : List Fault} (hf : (rwRemoveSubBlockF s k fs).2.1 = some .ioError) :
    (∃ H', Ed al o (rwRemoveSubBlockF s k fs).1 (c.after (.removeSubBlock k)) grown H' top (N + 1)) ∧
      (rwRemoveSubBlockF s k fs).1.w.subDirSeg = s.w.subDirSeg ∧ (c.subs k).isSome = true := by
  unfold rwRemoveSubBlockF at hf ⊢
  cases hk : s.w.dir.tryGet k with
  | none =>
    have : s.w.dir.tryRemove k = (s.w.dir, none) := by
      unfold RWDir.tryRemove
      rw [show mapFind s.w.dir.subBlks k = none from hk]
    rw [this] at hf
    cases hf
  | some e =>
    obtain ⟨d', ed, i1, i2, i3, i4, i5⟩ := rwdir_remove h.log.dirInv hk
    rw [ed] at hf ⊢
    have hs := h.log.sub k
    rw [hk] at hs
    obtain ⟨g, v, hg, hv, hp, _⟩ := hs.some
    dsimp only at hf ⊢
    obtain ⟨ws, e1, e2⟩ := execF_stopped (fun _ _ => rfl) hf
    rw [e1]
    unfold writeDeleted at e2
    rw [Plan.write_eq, ← hp] at e2
    refine ⟨⟨put H (.sub k) none, ⟨?_, ?_⟩⟩, rfl, by rw [hv]; rfl⟩
    · exact h.phys.torn hg e2
    · have := h.log.setSub (Nat.le_succ N) i1 i2 i4 (by have := h.log.subLen; omega) (show SubSlot al o none none none from trivial)
      rw [i3, ← h.log.nextSub] at this
      exact this

theorem Ed.removeAttachmentF {al : Alloc} {o : OpenOptions} {s : RW} {c : Content} {H : Slot → Option LSeg} {top N : Nat} {grown : Prop}
    (h : Ed al o s c grown H top N) {k : Int} {fs : List Fault} (hf : (rwRemoveAttachmentF s k fs).2.1 = some .ioError) :
    (∃ H', Ed al o (rwRemoveAttachmentF s k fs).1 (c.after (.removeAttachment k)) grown H' top (N + 1)) ∧
      (rwRemoveAttachmentF s k fs).1.w.subDirSeg = s.w.subDirSeg ∧ (c.atts k).isSome = true := by
  unfold rwRemoveAttachmentF at hf ⊢
  cases hk : s.w.att.tryGet k with
  | none =>
    have : s.w.att.tryRemove k = (s.w.att, none) := by
      unfold RWAtts.tryRemove
      rw [show mapFind s.w.att.atts k = none from hk]
    rw [this] at hf
    cases hf
  | some e =>
    obtain ⟨d', ed, i1, i2, i3, i4, i5⟩ := rwatt_remove h.log.attInv hk
    rw [ed] at hf ⊢
    have hs := h.log.att k
    rw [hk] at hs
    obtain ⟨g, v, hg, hv, hp, _⟩ := hs.some
    dsimp only at hf ⊢
    obtain ⟨ws, e1, e2⟩ := execF_stopped (fun _ _ => rfl) hf
    rw [e1]
    unfold writeDeleted at e2
    rw [Plan.write_eq, ← hp] at e2
    refine ⟨⟨put H (.att k) none, ⟨?_, ?_⟩⟩, rfl, by rw [hv]; rfl⟩
    · exact h.phys.torn hg e2
    · have := h.log.setAtt (Nat.le_succ N) i1 i2 i4 (by have := h.log.attLen; omega) (show AttSlot al none none none from trivial)
      rw [i3, ← h.log.nextAtt] at this
      exact this

theorem afterCall_ok (c : Content) (op : EditOp) {r : Option WErr} (h : r ≠ some .ioError) : c.afterCall op r = if r.isNone then c.after op else c := by
  cases r with
  | none => rfl
  | some e =>
    have : e ≠ .ioError := fun x => h (by rw [x])
    unfold Content.afterCall
    cases op <;> dsimp only <;> first | rfl | (rw [if_neg this]; rfl)

theorem Ed.stepF {al : Alloc} (hal : ∀ n, al n = true) {o : OpenOptions} {s : RW} {c : Content} {H : Slot → Option LSeg} {top N : Nat} {grown : Prop}
    (h : Ed al o s c grown H top N) {op : EditOp} {fs : List Fault} (hop : EditOk op) (hg : grown → ¬ Appends s op)
    (hf : (editStepF s op fs).2.1 = some .ioError → Unharmed s op (editStepF s op fs).1 ∧ (grown → ∃ k, op = .removeSubBlock k ∨ op = .removeAttachment k))
    {b : Nat} (hb : top + editBytes op + 4096 ≤ b) (hb2 : b < 2 ^ 61) :
    ∃ H' top', Ed al o (editStepF s op fs).1 (c.afterCall op (editStepF s op fs).2.1)
      (grown ∨ (GrowsAttachment s op ∧ (editStepF s op fs).2.1 ≠ some .ioError)) H' top' (N + 1) ∧ top' ≤ b ∧
      (editStepF s op fs).1.w.subDirSeg = s.w.subDirSeg := by
  by_cases hio : (editStepF s op fs).2.1 = some .ioError
  · obtain ⟨hu, hgr⟩ := hf hio
    have hop1 : s.w.operational ≠ false := by rw [h.log.operational]; exact Bool.noConfusion
    have free : Rewrites op →
        (∃ s0 n, s.ensureNext = .ok (s0, n) ∧ ∀ i < n, (editStepF s op fs).1.disk.get i = s.disk.get i) → ¬ grown →
        ∃ H' top', Ed al o (editStepF s op fs).1 c (grown ∨ (GrowsAttachment s op ∧ (editStepF s op fs).2.1 ≠ some .ioError)) H' top' (N + 1) ∧ top' ≤ b ∧
          (editStepF s op fs).1.w.subDirSeg = s.w.subDirSeg := by
      intro hk hu hgr
      obtain ⟨x, ws, e1, e2⟩ := replaceF_stopped hk hio
      obtain ⟨s0, n, u1, u2⟩ := hu
      obtain ⟨n', en, hpn⟩ := ensureNext_ok h.phys (by omega)
      rw [en] at u1
      injection u1 with u1
      injection u1 with _ u1
      subst u1
      have hnt := (hpn.next_some n' rfl).2.2.1 hgr
      rw [e1] at u2 ⊢
      refine ⟨H, top, ?_, by omega, rfl⟩
      exact (h.free (by omega) (apply_size_le _ _) (fun i hi => u2 i (by omega)) e2).weaken Or.inl (Nat.le_succ N)
    cases op with
    | removeSubBlock k =>
      unfold editStepF at hio ⊢
      rw [if_neg hop1] at hio ⊢
      dsimp only at hio ⊢
      obtain ⟨⟨H', e1⟩, e2, _⟩ := h.removeSubBlockF hio
      rw [hio]
      exact ⟨H', top, e1.weaken Or.inl (Nat.le_refl _), by omega, e2⟩
    | removeAttachment k =>
      unfold editStepF at hio ⊢
      rw [if_neg hop1] at hio ⊢
      dsimp only at hio ⊢
      obtain ⟨⟨H', e1⟩, e2, _⟩ := h.removeAttachmentF hio
      rw [hio]
      exact ⟨H', top, e1.weaken Or.inl (Nat.le_refl _), by omega, e2⟩
    | replaceSubBlock k a =>
      have := free trivial hu (fun x => by obtain ⟨_, e | e⟩ := hgr x <;> cases e)
      rw [hio] at this ⊢
      exact this
    | replaceAttachment k a =>
      have := free trivial hu (fun x => by obtain ⟨_, e | e⟩ := hgr x <;> cases e)
      rw [hio] at this ⊢
      exact this
    | writeMetadata m =>
      have := free trivial hu (fun x => by obtain ⟨_, e | e⟩ := hgr x <;> cases e)
      rw [hio] at this ⊢
      exact this
    | addSubBlock a => exact absurd hu id
    | addAttachment a => exact absurd hu id
    | close => exact absurd hu id
  · have hcl : op ≠ .close := by rintro rfl; exact hop
    obtain ⟨e1, e2⟩ := stepF_ok hcl hio
    obtain ⟨H', top', r1, r2, r3⟩ := h.step hal hop hg hb hb2
    rw [afterCall_ok _ _ hio, e1, e2]
    exact ⟨H', top', r1.weaken (fun x => x.imp id (fun y => ⟨y, e2 ▸ hio⟩)) (Nat.le_refl _), r2, r3⟩

theorem Ed.editF {al : Alloc} (hal : ∀ n, al n = true) {o : OpenOptions} (ops : List (EditOp × List Fault)) :
    ∀ {s : RW} {c : Content} {H : Slot → Option LSeg} {top N : Nat} {grown : Prop},
    Ed al o s c grown H top N → (∀ op ∈ ops.map Prod.fst, EditOk op) → TameF grown s ops → top + ((ops.map Prod.fst).map editBytes).sum + 4096 * ops.length < 2 ^ 61 →
    ∃ H' top', Ed al o (Spec.editF s c ops).1 (Spec.editF s c ops).2 (GrownF grown s ops) H' top' (N + ops.length) ∧
      top' ≤ top + ((ops.map Prod.fst).map editBytes).sum + 4096 * ops.length ∧ (Spec.editF s c ops).1.w.subDirSeg = s.w.subDirSeg := by
  induction ops with
  | nil =>
    intro s c H top N grown h _ _ _
    exact ⟨H, top, h, by show top ≤ top + 0 + 4096 * 0; omega, rfl⟩
  | cons op ops ih =>
    obtain ⟨op, fs⟩ := op
    intro s c H top N grown h hok ht hb
    obtain ⟨t1, t2, t3⟩ := ht
    simp only [List.map_cons, List.sum_cons, List.length_cons] at hb ⊢
    obtain ⟨b, hb0⟩ : ∃ b, b = top + editBytes op + 4096 := ⟨_, rfl⟩
    obtain ⟨H1, top1, h1, h2, h3⟩ := h.stepF hal (hok op (List.mem_cons_self ..)) t1 t2 (b := b) (by omega) (by omega)
    obtain ⟨H2, top2, h4, h5, h6⟩ := ih h1 (fun x hx => hok x (List.mem_cons_of_mem _ hx)) t3 (by omega)
    refine ⟨H2, top2, ?_, by omega, h6.trans h3⟩
    rw [show N + (ops.length + 1) = N + 1 + ops.length by omega]
    exact h4

/-! ## Closing again -/

theorem retried {s t : RW} (h : Retried s t) (hm : MarksApart s) :
    (rwClose t).2 = (rwClose s).2 ∧ (rwClose t).1.disk = (rwClose s).1.disk ∧ MarksApart t := by
  induction h with
  | never => exact ⟨rfl, rfl, hm⟩
  | again _ hc ih =>
    rename_i t t' fs fs' _
    obtain ⟨i1, i2, i3⟩ := ih
    unfold editStepF at hc
    split at hc
    · cases hc
    · dsimp only at hc
      obtain ⟨j1, j2, j3⟩ := close_again hc i3
      exact ⟨j1.trans i1, j2.trans i2, j3⟩

theorem ClosesWith.again {al : Alloc} {o : OpenOptions} {s t : RW} {c : Content} {n : Nat} (h : ClosesWith al o s c n)
    (h1 : (rwClose t).2 = (rwClose s).2) (h2 : (rwClose t).1.disk = (rwClose s).1.disk) : ClosesWith al o t c n := by
  obtain ⟨w, d, doc, e, r⟩ := h
  rw [e] at h1 h2
  refine ⟨(rwClose t).1.w, d, doc, ?_, r⟩
  dsimp only at h1 h2
  rw [← h1, ← h2]

/-- Everything about the calls made on a document that is opened. -/
theorem opened_editF {al : Alloc} (hal : ∀ n, al n = true) {d : Disk} {o : OpenOptions} {doc : Doc} {c : Content} {m : Nat} {ops : List (EditOp × List Fault)}
    (info : RWInfo) (h : SoundDoc al d o doc) (hi : Initially al d.stream doc c) (hm : EndsBy d doc m)
    (ho : EditsOk (max doc.entries.length doc.attachments.length) m (ops.map Prod.fst)) :
    ∃ s, rwCreate al ⟨RWState.init, d⟩ info = (s, none) ∧ EditorShows al s c ∧
      (TameF False s ops → ∃ H top N, Ed al o (Spec.editF s c ops).1 (Spec.editF s c ops).2 (GrownF False s ops) H top N ∧ N < 2 ^ 31 ∧
        top + 2 ^ 41 ≤ sizeAfter m (ops.map Prod.fst) ∧ top < 2 ^ 60 ∧ (Spec.editF s c ops).1.w.subDirSeg ≠ none) := by
  obtain ⟨s, H, top, h1, h2, ⟨p, hp, htop⟩, h3, h4, h5, h6, h7⟩ := create_ok (N := max doc.entries.length doc.attachments.length) info h hi
    (Nat.le_max_left ..) (Nat.le_max_right ..)
  refine ⟨s, h1, h2.shows, fun ht => ?_⟩
  have hpm := hm p hp
  have hto := ho.total
  have hco := ho.count
  rw [List.length_map] at hco
  unfold sizeAfter at *
  obtain ⟨H', top', e1, e2, e3⟩ := h2.editF hal ops ho.each ht (by omega)
  exact ⟨H', top', _, e1, hco, by omega, by omega, by rw [e3]; exact h3⟩

end Verif.Czi
