import Verif.Proof.EditRun

/-! The defects of editing: what happens where `Tame` and `TameClose` do not hold. -/

namespace Verif.Czi

open Spec

attribute [local irreducible] zeros

/-- A `ReplaceAttachment` that needs a new segment does not advance the position for the next one. -/
theorem Ed.replaced_at_end {al : Alloc} {o : OpenOptions} {s : RW} {c : Content} {H : Slot → Option LSeg} {top N : Nat} {grown : Prop}
    (h : Ed al o s c grown H top N) (htop : top < 2 ^ 61) {k : Int} {a : AddAtt} (ha : a.bytes.length ≤ 2147483647)
    (happ : Appends s (.replaceAttachment k a)) :
    ∃ s1 n, editStep s (.replaceAttachment k a) = (s1, none) ∧ n < 2 ^ 62 ∧ s1.w.next = some n ∧ s1.w.operational = true ∧ AttInv s1.w.att ∧
      s1.w.att.tryGet k = some (a.entry n) := by
  obtain ⟨e, hk, hlt⟩ := happ
  have hs := h.log.att k
  rw [hk] at hs
  obtain ⟨g, v, hgk, _, hp, _, _, hread⟩ := hs.some
  have hgood := h.phys.heap.good _ g hgk
  obtain ⟨hh, hsz⟩ := g.hdr _ hgood
  have hfin := h.phys.heap.high _ g hgk
  have hfin' : g.fin = g.pos + 32 + g.alloc := rfl
  have hm := rwReadAtt_magic (hread _ hgood)
  obtain ⟨u, hu⟩ := readSegmentHeader_eq hh hsz (by omega) (hp ▸ hm)
  obtain ⟨u1, u2⟩ := u64_alloc (a := g.alloc) (by omega)
  rw [← hp, allocAt_eq hh hsz (by omega)] at hlt
  obtain ⟨n, en, hpn⟩ := ensureNext_ok h.phys (by omega)
  obtain ⟨n1, n2, n3, _⟩ := hpn.next_some n rfl
  obtain ⟨ws, ew, _, _⟩ := att_append a ha n
  obtain ⟨i1, i2, i3, i4, i5⟩ := rwatt_modify h.log.attInv hk (a.entry n)
  unfold editStep
  rw [if_neg (by rw [h.log.operational]; exact Bool.noConfusion)]
  dsimp only
  unfold rwReplaceAttachment
  rw [hk]
  dsimp only
  rw [← hp, hu]
  dsimp only
  rw [u1, if_pos hlt]
  unfold rwReplaceAttachmentAtEnd
  rw [en]
  dsimp only
  rw [ew, Plan.bind_ok]
  unfold RW.exec writeDeleted
  rw [Plan.write_eq]
  dsimp only
  exact ⟨_, n, rfl, by omega, rfl, h.log.operational, i1, by dsimp only; rw [i2 k, if_pos rfl]⟩

theorem added_over {al : Alloc} (hal : ∀ n, al n = true) {s s2 : RW} {n : Nat} {k : Int} {a b : AddAtt} (hb : b.bytes.length ≤ 2147483647)
    (hn : n < 2 ^ 62) (hnx : s.w.next = some n) (hop : s.w.operational = true) (hi : AttInv s.w.att) (hk : s.w.att.tryGet k = some (a.entry n))
    (e2 : editStep s (.addAttachment b) = (s2, none)) :
    s2.readAttachment al k = .ok (some { attachmentOf a with data := (attachmentOf b).data }) := by
  have hne : ¬ s.w.operational = false := by rw [hop]; exact Bool.noConfusion
  unfold editStep at e2
  rw [if_neg hne] at e2
  dsimp only at e2
  unfold rwAddAttachment at e2
  split at e2
  · cases e2
  · have en : s.ensureNext = .ok (s, n) := by
      unfold RW.ensureNext
      rw [hnx]
    rw [en] at e2
    dsimp only at e2
    rcases rwatt_tryAdd hi (b.entry n) with x | ⟨d', x, j1, j2, j3, _⟩
    · rw [x] at e2
      cases e2
    · rw [x] at e2
      obtain ⟨ws2, ew2, hho, _⟩ := att_append b hb n
      dsimp only at e2
      unfold RW.exec at e2
      rw [ew2] at e2
      dsimp only at e2
      have e3 := (congrArg Prod.fst e2).symm
      dsimp only at e3
      rw [e3]
      unfold RW.readAttachment
      dsimp only
      rw [if_neg hne]
      have hkn : k ≠ s.w.att.next := by
        have := hi.below _ (mapFind_key hk)
        dsimp only at this
        omega
      rw [j2 k, if_neg hkn, hk]
      dsimp only
      unfold rwReadAtt
      rw [show (a.entry n).filePosition = n from rfl, readAttachmentData_ok (hho _) (by omega) hn hal]
      rfl

/-! ## Close -/

theorem closeHeader_agree {s : RW} {w : RWState} {d : Disk} (h : rwCloseHeader s = (⟨w, d⟩, none)) (hi : Nat) : Agree s.disk d 544 hi := by
  unfold rwCloseHeader at h
  split at h
  · unfold RW.exec at h
    rw [Plan.write_eq] at h
    dsimp only at h
    injection h with h _
    injection h with _ h
    subst h
    apply apply_agree
    intro w hw
    rw [List.mem_singleton] at hw
    subst hw
    left
    dsimp only
    rw [fileHeader_length]
  · injection h with h _
    subst h
    exact Agree.refl _ _ _

/-- The zero fill of a directory of attachments that is written to its old, larger place. -/
theorem Ed.closeSlack {al : Alloc} (hal : ∀ n, al n = true) {o : OpenOptions} {s : RW} {c : Content} {H : Slot → Option LSeg} {top N : Nat} {grown : Prop}
    (h : Ed al o s c grown H top N) (hN : N < 2 ^ 31) (htop : top < 2 ^ 60) (hne : s.w.subDirSeg ≠ none ∨ s.w.dir.isModified = true)
    (hg : grown → ¬ AppendsSubDir s) (hm : s.w.att.isModified = true) {i : SegInfo} (hi : s.w.attDirSeg = some i)
    (hlt : 256 + 128 * s.w.att.atts.length < i.alloc) :
    ∃ w d, rwClose s = (⟨w, d⟩, none) ∧
      (s.w.att.atts.length = 0 → ∃ e, openDoc al d.stream o = .error e) ∧
      (0 < s.w.att.atts.length → ∃ doc, openDoc al d.stream o = .ok doc ∧ doc.attachments.length = s.w.att.atts.length - 2) := by
  obtain ⟨i1, nx, d1, g, top1, e1, k1, p1, gp, ⟨F, hF, xs, hxs⟩, t1⟩ := h.closeSubDir hal hN htop hne hg
  have hslot : DirSlot s.w.attDirSeg ((put H .subDir (some g)) .attDir) := by
    rw [put_other _ _ (by intro x; cases x)]
    exact h.log.attDir
  rw [hi] at hslot
  obtain ⟨ga, hga, gp1, gp2⟩ := hslot.some
  have hlow := p1.heap.low _ ga hga
  have hhigh := p1.heap.high _ ga hga
  have hfin : ga.fin = ga.pos + 32 + ga.alloc := rfl
  obtain ⟨n, en, hpn⟩ := ensureNext_ok (s := ⟨{ s.w with subDirSeg := some i1, next := nx }, d1⟩) p1 (by omega)
  have hlen : (s.w.att.atts.map Prod.snd).length = s.w.att.atts.length := List.length_map ..
  have hal' := h.log.attLen
  obtain ⟨mw, pos, alloc, hpl, ws, wz, ew, hcon, hz⟩ := writeAttDir_ok s.w.attDirSeg (fun _ => true) n (s.w.att.atts.map Prod.snd)
    (by intro x hx; rw [hi] at hx; cases hx; omega) (by omega)
  have hplace : mw = [] ∧ pos = ga.pos ∧ alloc = ga.alloc := by
    rcases hpl with ⟨x, q1, _, q3, q4, q5⟩ | ⟨q1, _⟩
    · rw [hi] at q1
      cases q1
      exact ⟨q3, by omega, by omega⟩
    · have := q1 i hi
      omega
  obtain ⟨rfl, rfl, rfl⟩ := hplace
  rw [List.nil_append] at ew
  have hzz : Contig (ga.pos + 128 * (s.w.att.atts.map Prod.snd).length) wz
      (zeros (zeroAmount (ga.alloc + 32 - 128 * (s.w.att.atts.map Prod.snd).length))) := by
    rcases hz with ⟨x, _⟩ | ⟨_, x⟩
    · omega
    · exact x
  have hza : 288 ≤ zeroAmount (ga.alloc + 32 - 128 * (s.w.att.atts.map Prod.snd).length) := by
    unfold zeroAmount
    split <;> omega
  have hzl := zeroAmount_le (ga.alloc + 32 - 128 * (s.w.att.atts.map Prod.snd).length)
  have hw : WithinW ga.pos ga.fin (ws ++ wz) := by
    refine WithinW.append (hcon.within.mono (Nat.le_refl _) ?_) (hzz.within.mono (by omega) ?_)
    · rw [attDirBytes_length]
      omega
    · rw [zeros_length]
      omega
  have hheap : Heap (apply d1 (ws ++ wz)) top1 (put (put H .subDir (some g)) .attDir none) := by
    refine p1.heap.put ?_ (Nat.le_refl _) (by intro x hx; cases hx)
    intro t g' ht hg'
    apply apply_agree
    intro w hw'
    have q := hw w hw'
    rcases p1.heap.apart t .attDir g' ga ht hg' hga with q2 | q2 <;> omega
  have hag0 : Agree d1 (apply d1 (ws ++ wz)) 0 544 := apply_agree (fun w hw' => by have := hw w hw'; omega)
  have hrh := readHeader_agree p1.header p1.size hag0
  have q1 : segPos (some i1) < 2 ^ 62 := by
    have := p1.heap.high .subDir g (by rw [put_self])
    unfold LSeg.fin at this
    show i1.pos < _
    omega
  have q2 : segPos s.w.metaSeg < 2 ^ 62 := segPos_lt h.phys.heap rfl h.log.metadata.dir (by omega)
  obtain ⟨nx2, e2⟩ : ∃ nx2, rwCloseAttDir ⟨{ s.w with subDirSeg := some i1, next := nx }, d1⟩ =
      (⟨{ s.w with subDirSeg := some i1, attDirSeg := some ⟨ga.pos, ga.alloc, false⟩, next := nx2 }, apply d1 (ws ++ wz)⟩, none) := by
    unfold rwCloseAttDir
    rw [if_pos hm, en]
    dsimp only
    rw [ew]
    exact ⟨_, rfl⟩
  obtain ⟨d3, hd3, e3, p3, r3, g3, s3, m3, a3⟩ := closeHeader_ok
    (s := ⟨{ s.w with subDirSeg := some i1, attDirSeg := some ⟨ga.pos, ga.alloc, false⟩, next := nx2 }, apply d1 (ws ++ wz)⟩) hheap hrh
    (Nat.le_trans p1.size hag0.1)
    (by intro x; show s.w.header.subDirPos = segPos (some i1); rw [← k1 x]; exact h.log.hdrSub)
    (by intro x; exact absurd (hm.symm.trans x) (by decide))
    (Nat.lt_trans q1 (by omega)) (Nat.lt_trans q2 (by omega)) (by show ga.pos < _; omega)
  have hag := closeHeader_agree e3 ga.fin
  dsimp only at hag
  have hsub : readSubDir al d3.stream (parseOptions o) hd3.subDirPos = .ok (s.w.dir.subBlks.map Prod.snd, xs) := by
    rw [s3]
    show readSubDir al d3.stream (parseOptions o) i1.pos = _
    rw [← gp, hF d3 (p3.good .subDir g (by rw [put_other _ _ (by intro x; cases x), put_self])), hxs]
  have hap : hd3.attDirPos = ga.pos := a3
  refine ⟨{ s.w with subDirSeg := some i1, attDirSeg := some ⟨ga.pos, ga.alloc, false⟩, next := nx2 }, d3, ?_, ?_, ?_⟩
  · unfold rwClose andThen
    rw [e1]
    dsimp only
    rw [e2]
    dsimp only
    exact e3
  · intro h0
    have hho : Holds (apply d1 (ws ++ wz)) ga.pos (zeros (zeroAmount (ga.alloc + 32 - 128 * (s.w.att.atts.map Prod.snd).length))) := by
      rw [apply_append]
      have : ga.pos + 128 * (s.w.att.atts.map Prod.snd).length = ga.pos := by omega
      rw [this] at hzz
      refine Holds.contig (z := []) (by rw [List.append_nil]; exact hzz) ?_
      intro x
      have := congrArg List.length x
      rw [zeros_length, List.length_nil] at this
      omega
    have hho3 := hho.agree (hag.mono hlow (by rw [zeros_length]; omega))
    have herr : ∀ r, readAttDir al d3.stream ga.pos ≠ .ok r := by
      intro r hr
      obtain ⟨es, x⟩ := r
      have hmag := (readAttDir_alloc hr).2.2
      have h0' : d3.get ga.pos = 0 := by
        have := hho3.2 0 (by rw [zeros_length]; omega)
        rw [Nat.add_zero] at this
        rw [this]
        unfold zeros
        rw [List.getD_eq_getElem?_getD, List.getElem?_replicate]
        split <;> rfl
      have hsz3 := hho3.1
      rw [zeros_length] at hsz3
      have hx := congrArg (fun l => l.getD 0 0) hmag
      have hl : (d3.read ga.pos 16).getD 0 0 = d3.get ga.pos := by
        unfold Disk.read
        rw [show min 16 (d3.size - ga.pos) = 16 by omega]
        rfl
      rw [hl, h0'] at hx
      exact absurd hx (by decide)
    unfold openDoc openDocWith
    rw [r3]
    simp only [bind, Except.bind]
    rw [hsub]
    dsimp only
    rw [if_pos (by omega), hap]
    cases hr : readAttDir al d3.stream ga.pos with
    | error e => exact ⟨e, rfl⟩
    | ok r => exact absurd hr (herr r)
  · intro h0
    obtain ⟨b1, _, _, b4⟩ := attDir_bytes (by omega) hcon hz d1
    have b4 := b4 (by omega)
    have hlr : ((attEntriesBytes (s.w.att.atts.map Prod.snd)).take (128 * (s.w.att.atts.map Prod.snd).length - 288) ++
        zeros (min 288 (128 * (s.w.att.atts.map Prod.snd).length))).length = 128 * (s.w.att.atts.map Prod.snd).length := by
      rw [List.length_append, List.length_take, zeros_length, attEntriesBytes_length]
      omega
    have b1 := b1.agree (hag.mono hlow (by rw [List.length_append, segHeader_length attDirMagic_length, leInt_length]; omega))
    have b4 := b4.agree (hag.mono (by omega) (by rw [hlr]; omega))
    have hsz := b4.1
    rw [hlr] at hsz
    obtain ⟨as, x, hr, r1, _⟩ := readAttDir_some b1 (by omega) hsz (by omega) hal
    have r1 := r1 (by omega)
    have hrd := b4.read0
    rw [hlr] at hrd
    rw [hrd] at r1
    refine ⟨⟨hd3, s.w.dir.subBlks.map Prod.snd, as, o⟩, ?_, ?_⟩
    · unfold openDoc openDocWith
      rw [r3]
      simp only [bind, Except.bind]
      rw [hsub]
      dsimp only
      rw [if_pos (by omega), hap, hr]
    · dsimp only
      rw [r1, attEntries_lost _ (fun e he => (h.log.attPos e he).1), hlen]

/-- Both directories need a new segment: that of the attachments starts within the one of the sub-blocks. -/
theorem Ed.closeBoth {al : Alloc} {o : OpenOptions} {s : RW} {c : Content} {H : Slot → Option LSeg} {top N : Nat} {grown : Prop}
    (h : Ed al o s c grown H top N) (hN : N < 2 ^ 31) (htop : top < 2 ^ 60) (hsd : AppendsSubDir s) (had : AppendsAttDir s) :
    ∃ w d hd, rwClose s = (⟨w, d⟩, none) ∧ readHeader d.stream = .ok hd ∧ hd.subDirPos < hd.attDirPos ∧
      hd.attDirPos < hd.subDirPos + 32 + (128 + ((s.w.dir.subBlks.map Prod.snd).map entryBytes).flatten.length) ∧ d.read hd.attDirPos 16 = attDirMagic := by
  obtain ⟨hm1, hno1⟩ := hsd
  obtain ⟨hm2, hno2⟩ := had
  obtain ⟨n, en, hpn⟩ := ensureNext_ok h.phys (by omega)
  obtain ⟨n1, n2, n3, n4⟩ := hpn.next_some n rfl
  have hlen := entries_bytes_le (s.w.dir.subBlks.map Prod.snd)
  rw [List.length_map] at hlen
  have hsl := h.log.subLen
  have hall := h.log.attLen
  have hsm : ∀ x, s.w.subDirSeg = some x → x.alloc < 2 ^ 62 := by
    intro x hx
    have := hno1 x hx
    have := align_lt (128 + ((s.w.dir.subBlks.map Prod.snd).map entryBytes).flatten.length)
    omega
  obtain ⟨mw, pos, alloc, hpl, ws, ew, hcon⟩ := writeSubDir_ok s.w.subDirSeg (fun _ => true) n (s.w.dir.subBlks.map Prod.snd) hsm (by omega)
  have h3 := le_align (128 + ((s.w.dir.subBlks.map Prod.snd).map entryBytes).flatten.length)
  have h4 := align_lt (128 + ((s.w.dir.subBlks.map Prod.snd).map entryBytes).flatten.length)
  have hplace : pos = n ∧ alloc = align (128 + ((s.w.dir.subBlks.map Prod.snd).map entryBytes).flatten.length) := by
    rcases hpl with ⟨x, q1, q2, _⟩ | ⟨_, q2, q3, _⟩
    · have := hno1 x q1
      omega
    · exact ⟨q2, q3⟩
  obtain ⟨rfl, hall2⟩ := hplace
  have hal2 : (s.w.att.atts.map Prod.snd).length = s.w.att.atts.length := List.length_map ..
  obtain ⟨mw2, pos2, alloc2, hpl2, ws2, wz, ew2, hcon2, hz⟩ := writeAttDir_ok s.w.attDirSeg (fun _ => true) (pos + alloc) (s.w.att.atts.map Prod.snd)
    (by intro x hx; have := hno2 x hx; omega) (by omega)
  have hplace2 : pos2 = pos + alloc ∧ alloc2 = 256 + (s.w.att.atts.map Prod.snd).length * 128 := by
    rcases hpl2 with ⟨x, q1, q2, _⟩ | ⟨_, q2, q3, _⟩
    · have := hno2 x q1
      omega
    · exact ⟨q2, q3⟩
  obtain ⟨rfl, hall3⟩ := hplace2
  have hwz : wz = [] := by
    rcases hz with ⟨_, x⟩ | ⟨x, _⟩
    · exact x
    · omega
  subst hwz
  have e1 : rwCloseSubDir s = (⟨{ s.w with subDirSeg := some ⟨pos, alloc, false⟩, next := some (pos + alloc) }, apply s.disk (mw ++ ws)⟩, none) := by
    unfold rwCloseSubDir
    rw [if_pos hm1, en]
    dsimp only
    rw [ew]
    unfold RW.exec
    dsimp only
    rw [if_pos rfl]
  have e2 : rwCloseAttDir ⟨{ s.w with subDirSeg := some ⟨pos, alloc, false⟩, next := some (pos + alloc) }, apply s.disk (mw ++ ws)⟩ =
      (⟨{ s.w with subDirSeg := some ⟨pos, alloc, false⟩, attDirSeg := some ⟨pos + alloc, alloc2, false⟩, next := some (pos + alloc + alloc2) },
        apply (apply s.disk (mw ++ ws)) (mw2 ++ (ws2 ++ []))⟩, none) := by
    unfold rwCloseAttDir
    rw [if_pos hm2]
    unfold RW.ensureNext
    dsimp only
    rw [ew2]
    unfold RW.exec
    dsimp only
    rw [if_pos rfl]
  have hbl := subDirBytes_length alloc (s.w.dir.subBlks.map Prod.snd)
  have hag0 : Agree s.disk (apply (apply s.disk (mw ++ ws)) (mw2 ++ (ws2 ++ []))) 0 544 := by
    have m1 : ∀ w ∈ mw, 544 ≤ w.1 := by
      intro w hw
      rcases hpl with ⟨_, _, _, q, _⟩ | ⟨_, _, _, q⟩
      · rw [q] at hw; cases hw
      · rw [q] at hw
        obtain ⟨g0, k1, k2, _⟩ := mark_within h.log.subDir w hw
        have := h.phys.heap.low _ g0 k1
        omega
    have m2 : ∀ w ∈ mw2, 544 ≤ w.1 := by
      intro w hw
      rcases hpl2 with ⟨_, _, _, q, _⟩ | ⟨_, _, _, q⟩
      · rw [q] at hw; cases hw
      · rw [q] at hw
        obtain ⟨g0, k1, k2, _⟩ := mark_within h.log.attDir w hw
        have := h.phys.heap.low _ g0 k1
        omega
    refine Agree.trans (apply_agree (fun w hw => Or.inr ?_)) (apply_agree (fun w hw => Or.inr ?_))
    · rcases List.mem_append.1 hw with hw | hw
      · exact m1 w hw
      · have := (hcon.within w hw).1
        omega
    · rw [List.append_nil] at hw
      rcases List.mem_append.1 hw with hw | hw
      · exact m2 w hw
      · have := (hcon2.within w hw).1
        omega
  have q2 : segPos s.w.metaSeg < 2 ^ 62 := segPos_lt h.phys.heap rfl h.log.metadata.dir (by omega)
  obtain ⟨d3, hd3, e3, _, r3, _, s3, _, a3⟩ := closeHeader_ok (H := fun _ => none) (top := 0)
    (s := ⟨{ s.w with subDirSeg := some ⟨pos, alloc, false⟩, attDirSeg := some ⟨pos + alloc, alloc2, false⟩, next := some (pos + alloc + alloc2) },
      apply (apply s.disk (mw ++ ws)) (mw2 ++ (ws2 ++ []))⟩)
    ⟨(fun _ _ x => by cases x), (fun _ _ x => by cases x), (fun _ _ x => by cases x), (fun _ _ _ _ _ x => by cases x)⟩
    (readHeader_agree h.phys.header h.phys.size hag0) (Nat.le_trans h.phys.size hag0.1)
    (by intro x; exact absurd (hm1.symm.trans x) (by decide))
    (by intro x; exact absurd (hm2.symm.trans x) (by decide))
    (by show pos < _; omega) (Nat.lt_trans q2 (by omega)) (by show pos + alloc < _; omega)
  have s3 : hd3.subDirPos = pos := s3
  have a3 : hd3.attDirPos = pos + alloc := a3
  refine ⟨{ s.w with subDirSeg := some ⟨pos, alloc, false⟩, attDirSeg := some ⟨pos + alloc, alloc2, false⟩, next := some (pos + alloc + alloc2) }, d3, hd3, ?_, r3, by omega, by omega, ?_⟩
  · unfold rwClose andThen
    rw [e1]
    dsimp only
    rw [e2]
    dsimp only
    exact e3
  · rw [a3]
    have hho : Holds (apply (apply s.disk (mw ++ ws)) (mw2 ++ (ws2 ++ []))) (pos + alloc) attDirMagic := by
      rw [List.append_nil, apply_append]
      have : Holds (apply (apply (apply s.disk (mw ++ ws)) mw2) ws2) (pos + alloc)
          (attDirSegBytes alloc2 (s.w.att.atts.map Prod.snd).length ++ attEntriesBytes (s.w.att.atts.map Prod.snd)) := by
        refine Holds.contig (z := []) (by rw [List.append_nil]; exact hcon2) ?_
        intro x
        have := congrArg List.length x
        rw [attDirBytes_length, List.length_nil] at this
        omega
      unfold attDirSegBytes segHeader at this
      simp only [List.append_assoc] at this
      exact this.left
    have hag := closeHeader_agree e3 (pos + alloc + 16)
    have := (hho.agree (hag.mono (by omega) (by rw [attDirMagic_length]))).read0
    rwa [attDirMagic_length] at this

end Verif.Czi
