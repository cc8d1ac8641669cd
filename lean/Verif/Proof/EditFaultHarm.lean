import Verif.Proof.EditFaultMore

/-! What failed edits leave. -/

namespace Verif.Czi

open Spec

attribute [local irreducible] zeros

/-! ## Replacing with a new segment -/

theorem performWrites_stop (tail : List Write) (j : Nat) (rest : List Fault) : ∀ (ws : List Write) (d : Disk) (k : Nat), k < ws.length →
    ∃ ws', performWrites d (ws ++ tail) (List.replicate k none ++ some j :: rest) = (apply d ws', false, rest) ∧ PartOf ws' ws := by
  intro ws
  induction ws with
  | nil => intro d k hk; exact absurd hk (Nat.not_lt_zero _)
  | cons w ws ih =>
    intro d k hk
    cases k with
    | zero =>
      refine ⟨[(w.1, w.2.take j)], rfl, ?_⟩
      intro v hv
      rcases List.mem_singleton.1 hv with rfl
      exact ⟨w, List.mem_cons_self .., rfl, by dsimp only; rw [List.length_take]; omega⟩
    | succ k =>
      obtain ⟨ws', e, hp⟩ := ih (d.write w.1 w.2) k (by rw [List.length_cons] at hk; omega)
      refine ⟨w :: ws', e, ?_⟩
      intro v hv
      rcases List.mem_cons.1 hv with rfl | hv
      · exact ⟨v, List.mem_cons_self .., rfl, Nat.le_refl _⟩
      · obtain ⟨u, hu, h1⟩ := hp v hv
        exact ⟨u, List.mem_cons_of_mem _ hu, h1⟩

theorem execF_stop {α : Type} (s : RW) {p : Plan α} {ws tail : List Write} (hp : p.writes = ws ++ tail) {k : Nat} (hk : k < ws.length) (j : Nat)
    (rest : List Fault) (f : RW → α → RW × Option WErr) :
    ∃ ws', s.execF p (List.replicate k none ++ some j :: rest) f = (⟨s.w, apply s.disk ws'⟩, some .ioError, rest) ∧ PartOf ws' ws := by
  obtain ⟨ws', e, h⟩ := performWrites_stop tail j rest ws s.disk k hk
  refine ⟨ws', ?_, h⟩
  unfold RW.execF
  rw [hp, e]

theorem PartOf.below {ws' ws : List Write} (h : PartOf ws' ws) {n m : Nat} (hw : WithinW n m ws) (d : Disk) : ∀ i < n, (apply d ws').get i = d.get i := by
  intro i hi
  refine apply_uncovered d ?_
  intro hc
  obtain ⟨w, h1, h2, h3⟩ := h.covered hc
  have := (hw w h1).1
  omega

/-- Replacing with a new segment, failing before the last write. -/
theorem Ed.replaceEnd {al : Alloc} {o : OpenOptions} {s : RW} {c : Content} {H : Slot → Option LSeg} {top N : Nat} {grown : Prop}
    (h : Ed al o s c grown H top N) (ht : top < 2 ^ 61) {op : EditOp} (hop : EditOk op) (happ : Appends s op) (hk : (∃ k a, op = .replaceSubBlock k a) ∨ (∃ k a, op = .replaceAttachment k a))
    {i j : Nat} {rest : List Fault} (hi : i + 1 < (editWrites s op).length) :
    (editStepF s op (List.replicate i none ++ some j :: rest)).2.1 = some .ioError ∧
      Unharmed s op (editStepF s op (List.replicate i none ++ some j :: rest)).1 := by
  have hop1 : s.w.operational ≠ false := by rw [h.log.operational]; exact Bool.noConfusion
  obtain ⟨n, en, hpn⟩ := ensureNext_ok h.phys (by omega)
  unfold editWrites at hi
  unfold editStepF
  rw [if_neg hop1] at hi ⊢
  rcases hk with ⟨k, a, rfl⟩ | ⟨k, a, rfl⟩
  · dsimp only at hi ⊢
    obtain ⟨e, hk, hlt⟩ := happ
    have hs := h.log.sub k
    rw [hk] at hs
    obtain ⟨g, v, hgk, _, hp, _, sb, sb', _, _, hread⟩ := hs.some
    have hgood := h.phys.heap.good _ g hgk
    obtain ⟨hh, hsz⟩ := g.hdr _ hgood
    have hfin := h.phys.heap.high _ g hgk
    have hfin' : g.fin = g.pos + 32 + g.alloc := rfl
    have hm := rwReadEntry_magic (hread _ hgood).2
    obtain ⟨u, hu⟩ := readSegmentHeader_eq hh hsz (by omega) (hp ▸ hm)
    obtain ⟨u1, u2⟩ := u64_alloc (a := g.alloc) (by omega)
    rw [← hp, allocAt_eq hh hsz (by omega)] at hlt
    obtain ⟨ws, ew, _, hw⟩ := sub_append hop.1 hop.2.2 n
    unfold replaceSubBlockWrites at hi
    unfold rwReplaceSubBlockF
    rw [hk] at hi ⊢
    dsimp only at hi ⊢
    rw [← hp, hu] at hi ⊢
    dsimp only at hi ⊢
    rw [u2, if_pos hlt, en] at hi
    rw [u2, if_pos hlt]
    unfold rwReplaceSubBlockAtEndF
    rw [en]
    dsimp only at hi ⊢
    have hwr : (do let z ← writeSubBlock n none a
                   writeDeleted g.pos
                   return z : Plan Nat).writes = ws ++ [(g.pos, deletedMagic)] := by
      rw [ew, Plan.bind_ok]
      unfold writeDeleted
      rw [Plan.write_eq, Plan.bind_ok, Plan.pure_eq]
      simp
    rw [hwr, List.length_append, List.length_singleton] at hi
    obtain ⟨ws', e1, e2⟩ := execF_stop ⟨{ s.w with next := some n }, s.disk⟩ hwr (k := i) (by omega) j rest
      (fun s z => (⟨{ s.w with dir := (s.w.dir.tryModify k (a.entry n)).1, next := some (n + z + 32) }, s.disk⟩, none))
    rw [e1]
    exact ⟨rfl, _, n, en, fun i hi => e2.below hw s.disk i hi⟩
  · dsimp only at hi ⊢
    obtain ⟨e, hk, hlt⟩ := happ
    have hs := h.log.att k
    rw [hk] at hs
    obtain ⟨g, v, hgk, _, hp, _, _, hread⟩ := hs.some
    have hgood := h.phys.heap.good _ g hgk
    obtain ⟨hh, hsz⟩ := g.hdr _ hgood
    have hfin := h.phys.heap.high _ g hgk
    have hfin' : g.fin = g.pos + 32 + g.alloc := rfl
    have hm := rwReadAtt_magic (hread _ hgood)
    obtain ⟨u, hu⟩ := readSegmentHeader_eq hh hsz (by omega) (hp ▸ hm)
    obtain ⟨u1, u2⟩ := u64_alloc (a := g.alloc) (by omega)
    rw [← hp, allocAt_eq hh hsz (by omega)] at hlt
    obtain ⟨ws, ew, _, hw⟩ := att_append a hop.1 n
    unfold replaceAttachmentWrites at hi
    unfold rwReplaceAttachmentF
    rw [hk] at hi ⊢
    dsimp only at hi ⊢
    rw [← hp, hu] at hi ⊢
    dsimp only at hi ⊢
    rw [u1, if_pos hlt, en] at hi
    rw [u1, if_pos hlt]
    unfold rwReplaceAttachmentAtEndF
    rw [en]
    dsimp only at hi ⊢
    have hwr : (do let _ ← writeAttachment n none a
                   writeDeleted g.pos : Plan Unit).writes = ws ++ [(g.pos, deletedMagic)] := by
      rw [ew, Plan.bind_ok]
      unfold writeDeleted
      rw [Plan.write_eq]
    rw [hwr, List.length_append, List.length_singleton] at hi
    obtain ⟨ws', e1, e2⟩ := execF_stop ⟨{ s.w with next := some n }, s.disk⟩ hwr (k := i) (by omega) j rest
      (fun s _ => (⟨{ s.w with att := s.w.att.tryModify k (a.entry n) }, s.disk⟩, none))
    rw [e1]
    exact ⟨rfl, _, n, en, fun i hi => e2.below hw s.disk i hi⟩

/-! ## Metadata -/

theorem writeMetadata_new {existing : Option SegInfo} {n : Nat} {m : MetaInfo} (hs : ∀ s, existing = some s → s.alloc < 2 ^ 62)
    (hm : m.xmlBytes.length + m.attBytes.length < 2 ^ 61) (h : ∀ i, existing = some i → i.alloc < align (256 + (m.xmlBytes.length + m.attBytes.length))) :
    ∃ ws r, writeMetadata existing (fun _ => true) n m = ⟨(markUnused existing (fun _ => true)).writes ++ ws, .ok r⟩ ∧ (∃ hi, WithinW n hi ws) ∧ 0 < ws.length := by
  obtain ⟨mw, pos, alloc, hpl, ws, ew, hcon⟩ := writeMetadata_ok existing (fun _ => true) n m hs hm
  have hbl := m.body_length alloc
  rcases hpl with ⟨x, e1, e2, _⟩ | ⟨e1, e2, e3, e4⟩
  · have := h x e1
    omega
  · subst e4 e2
    refine ⟨ws, _, ew, ⟨_, hcon.within⟩, ?_⟩
    cases ws with
    | nil =>
      generalize hq : m.body alloc ++ zeros (zeroAmount (alloc + 32 - (m.body alloc).length)) = q at hcon
      cases hcon
      have := congrArg List.length hq
      rw [List.length_append, List.length_nil] at this
      omega
    | cons => exact Nat.succ_pos _

/-- Writing the first metadata, failing at any write. -/
theorem Ed.metaFirst {al : Alloc} {o : OpenOptions} {s : RW} {c : Content} {H : Slot → Option LSeg} {top N : Nat} {grown : Prop}
    (h : Ed al o s c grown H top N) (ht : top < 2 ^ 61) {m : MetaInfo} (hx : m.xmlBytes.length ≤ 2147483647) (ha : m.attBytes.length ≤ 2147483647)
    (hc : m.check = true) (hn : c.metadata = none) {i j : Nat} {rest : List Fault} (hi : i < (editWrites s (.writeMetadata m)).length) :
    (editStepF s (.writeMetadata m) (List.replicate i none ++ some j :: rest)).2.1 = some .ioError ∧
      Unharmed s (.writeMetadata m) (editStepF s (.writeMetadata m) (List.replicate i none ++ some j :: rest)).1 := by
  have hop1 : s.w.operational ≠ false := by rw [h.log.operational]; exact Bool.noConfusion
  obtain ⟨n, en, hpn⟩ := ensureNext_ok h.phys (by omega)
  have hms : s.w.metaSeg = none := by
    have := h.log.metadata
    rw [hn] at this
    cases hq : s.w.metaSeg with
    | none => rfl
    | some x =>
      rw [hq] at this
      obtain ⟨_, _, _, e, _⟩ := this.some
      cases e
  obtain ⟨ws, r, ew, ⟨hi', hw⟩, _⟩ := writeMetadata_new (existing := none) (n := n) (m := m) (by intro s hs; cases hs) (by omega) (by intro s hs; cases hs)
  unfold editWrites at hi
  unfold editStepF
  rw [if_neg hop1] at hi ⊢
  dsimp only at hi ⊢
  unfold writeMetadataWrites at hi
  unfold rwWriteMetadataF
  rw [if_neg (by rw [hc]; exact Bool.noConfusion), en] at hi
  rw [if_neg (by rw [hc]; exact Bool.noConfusion), en]
  dsimp only at hi ⊢
  have hwr : (Verif.Czi.writeMetadata s.w.metaSeg (fun _ => true) n m).writes = ws ++ [] := by rw [hms, ew]; simp [markUnused]; rfl
  rw [hwr, List.append_nil] at hi
  obtain ⟨ws', e1, e2⟩ := execF_stop ⟨{ s.w with next := some n }, s.disk⟩ hwr (k := i) hi j rest
    (fun s r => (if r.1 = n then ⟨{ s.w with metaSeg := some ⟨r.1, r.2, false⟩, next := some (r.1 + r.2 + 32) }, s.disk⟩ else s, none))
  rw [e1]
  exact ⟨rfl, _, n, en, fun i hi => e2.below hw s.disk i hi⟩

theorem readMetadataData_magic {al : Alloc} {d : Disk} {pos : Nat} {a : MetaData} (h : readMetadataData al d.stream pos = .ok a) :
    d.read pos 16 = metadataMagic := by
  unfold readMetadataData at h
  obtain ⟨b, h3, h4⟩ := Except.bind_eq_ok h
  obtain ⟨hb, hs⟩ := readExact_size h3
  subst hb
  split at h4
  · cases h4
  · rename_i hm
    have := Decidable.not_not.1 hm
    unfold segMagic at this
    rw [Disk.field_read (by omega) (hs (by omega)), Nat.add_zero] at this
    exact this

/-- Writing metadata that need a new segment: if the second write fails, the old metadata are gone. -/
theorem Ed.metaLost {al : Alloc} {o : OpenOptions} {s : RW} {c : Content} {H : Slot → Option LSeg} {top N : Nat} {grown : Prop}
    (h : Ed al o s c grown H top N) (ht : top < 2 ^ 61) (hg : ¬ grown) {m : MetaInfo} (hx : m.xmlBytes.length ≤ 2147483647) (ha : m.attBytes.length ≤ 2147483647)
    (hc : m.check = true) (hn : c.metadata.isSome = true) (hz : ∀ i, s.w.metaSeg = some i → 0 < i.alloc) (happ : Appends s (.writeMetadata m)) (j : Nat) (rest : List Fault) :
    (editStepF s (.writeMetadata m) (none :: some j :: rest)).2.1 = some .ioError ∧
      ∃ e, (editStepF s (.writeMetadata m) (none :: some j :: rest)).1.readMetadata al = .error e := by
  have hop1 : s.w.operational ≠ false := by rw [h.log.operational]; exact Bool.noConfusion
  obtain ⟨n, en, hpn⟩ := ensureNext_ok h.phys (by omega)
  have hnt := (hpn.next_some n rfl).2.2.1 hg
  have hmd := h.log.metadata
  cases hms : s.w.metaSeg with
  | none =>
    rw [hms] at hmd
    rw [hmd.none.2] at hn
    cases hn
  | some x =>
    rw [hms] at hmd
    obtain ⟨g, v, hgm, _, p1, p2, _⟩ := hmd.some
    have hgl := h.phys.heap.high _ g hgm
    have hglo := h.phys.heap.low _ g hgm
    have hgf : g.fin = g.pos + 32 + g.alloc := rfl
    have hxz := hz x hms
    obtain ⟨ws, r, ew, ⟨hi', hw⟩, hlen⟩ := writeMetadata_new (existing := some x) (n := n) (m := m) (by intro s hs; cases hs; omega) (by omega)
      (by intro s hs; cases hs; exact happ x hms)
    have hmk : (markUnused (some x) (fun _ => true)).writes = [(g.pos, deletedMagic)] := by
      unfold markUnused
      dsimp only
      rw [if_pos ⟨by omega, by omega, rfl⟩]
      unfold writeDeleted
      rw [Plan.write_eq, p1]
    unfold editStepF
    rw [if_neg hop1]
    dsimp only
    unfold rwWriteMetadataF
    rw [if_neg (by rw [hc]; exact Bool.noConfusion), en]
    dsimp only
    obtain ⟨w, ws1, rfl⟩ : ∃ w ws1, ws = w :: ws1 := by
      cases ws with
      | nil => exact absurd hlen (Nat.lt_irrefl _)
      | cons w ws => exact ⟨w, ws, rfl⟩
    have hex : (RW.execF ⟨{ s.w with next := some n }, s.disk⟩ (Verif.Czi.writeMetadata s.w.metaSeg (fun _ => true) n m) (none :: some j :: rest) (fun s r =>
        (if r.1 = n then ⟨{ s.w with metaSeg := some ⟨r.1, r.2, false⟩, next := some (r.1 + r.2 + 32) }, s.disk⟩ else s, none))) =
        (⟨{ s.w with next := some n }, (s.disk.write g.pos deletedMagic).write w.1 (w.2.take j)⟩, some .ioError, rest) := by
      have ew' : Verif.Czi.writeMetadata s.w.metaSeg (fun _ => true) n m = ⟨[(g.pos, deletedMagic)] ++ w :: ws1, .ok r⟩ := by rw [hms, ew, hmk]
      unfold RW.execF
      rw [ew']
      rfl
    rw [hex]
    refine ⟨rfl, ?_⟩
    unfold RW.readMetadata
    rw [if_neg hop1]
    dsimp only
    rw [hms]
    dsimp only
    rw [← p1]
    cases hr : readMetadataData al ((s.disk.write g.pos deletedMagic).write w.1 (w.2.take j)).stream g.pos with
    | error e => exact ⟨e, rfl⟩
    | ok b =>
      exfalso
      have hmag := readMetadataData_magic hr
      have hh : Holds (s.disk.write g.pos deletedMagic) g.pos deletedMagic := Holds.write (by intro hq; have := deletedMagic_length; rw [hq, List.length_nil] at this; omega)
      have hw1 := (hw w (List.mem_cons_self ..)).1
      have hh2 : Holds (apply (s.disk.write g.pos deletedMagic) [(w.1, w.2.take j)]) g.pos deletedMagic := by
        refine hh.frame (lo := w.1) (hi := w.1 + w.2.length) ?_ (Or.inl (by rw [deletedMagic_length]; omega))
        intro v hv
        rcases List.mem_singleton.1 hv with rfl
        refine ⟨Nat.le_refl _, ?_⟩
        dsimp only
        rw [List.length_take]
        omega
      have hrd : ((s.disk.write g.pos deletedMagic).write w.1 (w.2.take j)).read g.pos 16 = deletedMagic := by
        have := hh2.read (o := 0) (n := 16) (by rw [deletedMagic_length])
        rw [Nat.add_zero] at this
        exact this.trans (by decide +kernel)
      rw [hrd] at hmag
      exact absurd hmag (by decide +kernel)

/-! ## Adding -/

theorem Ed.addSubBlockF_ghost {al : Alloc} (hal : ∀ n, al n = true) {o : OpenOptions} {s : RW} {c : Content} {H : Slot → Option LSeg} {top N : Nat} {grown : Prop}
    (h : Ed al o s c grown H top N) (ht : top < 2 ^ 61) {a : AddInfo} {fs : List Fault} (hf : (editStepF s (.addSubBlock a) fs).2.1 = some .ioError) :
    (HasM (a.entry 0) → OnLayer0 (a.entry 0) → (editStep (editStepF s (.addSubBlock a) fs).1 (.addSubBlock a)).2 = some .subBlockExists) ∧
    ∀ b, SubOk b → b.sizeData ≤ 2147483647 → (editStep (editStepF s (.addSubBlock a) fs).1 (.addSubBlock b)).2 = none →
      ((editStep (editStepF s (.addSubBlock a) fs).1 (.addSubBlock b)).1.readSubBlock al c.nextSub).map (Option.map viewRead) = .ok (some (viewAdded b)) ∧
      ((editStep (editStepF s (.addSubBlock a) fs).1 (.addSubBlock b)).1.readSubBlock al (c.nextSub + 1)).map (Option.map viewRead) = .ok (some (viewAdded b)) := by
  have hop1 : s.w.operational ≠ false := by rw [h.log.operational]; exact Bool.noConfusion
  obtain ⟨n, en, hpn⟩ := ensureNext_ok h.phys (by omega)
  obtain ⟨n1, n2, n3, _⟩ := hpn.next_some n rfl
  obtain ⟨d', x, eadd, i1, i2, i3, es, hck⟩ : ∃ d' x, s.w.dir.tryAdd (a.entry n) = (d', some s.w.dir.next) ∧ RWInv d' ∧
      (∀ j, d'.tryGet j = if j = s.w.dir.next then some (a.entry n) else s.w.dir.tryGet j) ∧ d'.next = s.w.dir.next + 1 ∧
      (editStepF s (.addSubBlock a) fs).1 = ⟨{ s.w with next := some n, dir := d' }, x⟩ ∧ a.check = true := by
    revert hf
    unfold editStepF
    rw [if_neg hop1]
    dsimp only
    unfold rwAddSubBlockF
    cases hck : a.check with
    | false => rw [if_pos rfl]; intro hf; cases hf
    | true =>
      rw [if_neg (by exact Bool.noConfusion), en]
      dsimp only
      rcases rwdir_tryAdd h.log.dirInv (a.entry n) with e | ⟨d', e, i1, i2, i3, i4, i5⟩
      · rw [e]
        intro hf
        cases hf
      · rw [e]
        intro hf
        obtain ⟨ws, e1, _⟩ := execF_stopped (fun _ _ => rfl) hf
        exact ⟨d', _, rfl, i1, i2, i3, e1, rfl⟩
  rw [es]
  have hop2 : ({ s.w with next := some n, dir := d' } : RWState).operational ≠ false := hop1
  constructor
  · intro hm hl
    unfold editStep
    rw [if_neg hop2]
    dsimp only
    unfold rwAddSubBlock
    rw [if_neg (by rw [hck]; exact Bool.noConfusion), ensureNext_known (n := n) rfl]
    dsimp only
    have : d'.tryAdd (a.entry n) = (d', none) := by
      unfold RWDir.tryAdd
      rw [if_pos]
      rw [List.any_eq_true]
      have hget := i2 s.w.dir.next
      rw [if_pos rfl] at hget
      refine ⟨_, mapFind_key hget, ?_⟩
      rw [equalCoordinate_iff]
      exact ⟨fun _ => rfl, hm, hm, rfl, hl, hl⟩
    rw [this]
  · intro b hb hd hr
    unfold editStep at hr ⊢
    rw [if_neg hop2] at hr ⊢
    dsimp only at hr ⊢
    unfold rwAddSubBlock at hr ⊢
    cases hcb : b.check with
    | false => rw [hcb, if_pos rfl] at hr; cases hr
    | true =>
      rw [hcb, if_neg (by exact Bool.noConfusion), ensureNext_known (n := n) rfl] at hr
      rw [if_neg (by exact Bool.noConfusion), ensureNext_known (n := n) rfl]
      dsimp only at hr ⊢
      rcases rwdir_tryAdd i1 (b.entry n) with e | ⟨d2, e, j1, j2, j3, j4, j5⟩
      · rw [e] at hr
        cases hr
      · rw [e]
        dsimp only
        obtain ⟨ws, ew, hh, hw⟩ := sub_append hb hcb n
        have h1 := b.usedSize_ge
        have h3 := le_align b.usedSize
        have hlb : b.usedSize ≤ 32 + (align b.usedSize - 32) := by omega
        obtain ⟨_, _, sb, sb', _, q1, q2⟩ := subSlot_new hal o hb hcb hd (pos := n) (by omega) hlb
        have hread := (q2 (apply x ws) (hh x)).2
        unfold RW.exec
        rw [ew]
        dsimp only
        have k1 : d2.tryGet c.nextSub = some (a.entry n) := by
          rw [j2, i3, h.log.nextSub, if_neg (by omega), i2, if_pos rfl]
        have k2 : d2.tryGet (c.nextSub + 1) = some (b.entry n) := by
          rw [j2, i3, h.log.nextSub, if_pos rfl]
        constructor
        · unfold RW.readSubBlock
          rw [if_neg hop1]
          dsimp only
          rw [k1]
          dsimp only
          rw [show rwReadEntry al (apply x ws).stream (a.entry n) = rwReadEntry al (apply x ws).stream (b.entry n) from rfl, hread, ← q1]
          rfl
        · unfold RW.readSubBlock
          rw [if_neg hop1]
          dsimp only
          rw [k2]
          dsimp only
          rw [hread, ← q1]
          rfl

theorem strncmpEq_self (l : List UInt8) : strncmpEq l l = true := by
  induction l with
  | nil => rfl
  | cons a l ih => simp [strncmpEq, ih]

theorem equalId_self (e f : AttEntry) (h1 : e.guid = f.guid) (h2 : e.name = f.name) (h3 : e.contentFileType = f.contentFileType) : e.equalId f = true := by
  unfold AttEntry.equalId
  rw [h1, h2, h3, strncmpEq_self, strncmpEq_self]
  simp [Guid.eq]

theorem Ed.addAttachmentF_ghost {al : Alloc} (hal : ∀ n, al n = true) {o : OpenOptions} {s : RW} {c : Content} {H : Slot → Option LSeg} {top N : Nat} {grown : Prop}
    (h : Ed al o s c grown H top N) (ht : top < 2 ^ 61) {a : AddAtt} {fs : List Fault} (hf : (editStepF s (.addAttachment a) fs).2.1 = some .ioError) :
    (editStep (editStepF s (.addAttachment a) fs).1 (.addAttachment a)).2 = some .attachmentExists ∧
    ∀ b, b.bytes.length ≤ 2147483647 → (editStep (editStepF s (.addAttachment a) fs).1 (.addAttachment b)).2 = none →
      (editStep (editStepF s (.addAttachment a) fs).1 (.addAttachment b)).1.readAttachment al c.nextAtt =
        .ok (some { attachmentOf a with data := (attachmentOf b).data }) := by
  have hop1 : s.w.operational ≠ false := by rw [h.log.operational]; exact Bool.noConfusion
  obtain ⟨n, en, hpn⟩ := ensureNext_ok h.phys (by omega)
  obtain ⟨n1, n2, n3, _⟩ := hpn.next_some n rfl
  obtain ⟨d', x, eadd, i1, i2, i3, es, hck⟩ : ∃ d' x, s.w.att.tryAdd (a.entry n) = some d' ∧ AttInv d' ∧
      (∀ j, d'.tryGet j = if j = s.w.att.next then some (a.entry n) else s.w.att.tryGet j) ∧ d'.next = s.w.att.next + 1 ∧
      (editStepF s (.addAttachment a) fs).1 = ⟨{ s.w with next := some n, att := d' }, x⟩ ∧ a.check = true := by
    revert hf
    unfold editStepF
    rw [if_neg hop1]
    dsimp only
    unfold rwAddAttachmentF
    cases hck : a.check with
    | false => rw [if_pos rfl]; intro hf; cases hf
    | true =>
      rw [if_neg (by exact Bool.noConfusion), en]
      dsimp only
      rcases rwatt_tryAdd h.log.attInv (a.entry n) with e | ⟨d', e, i1, i2, i3, i4, i5⟩
      · rw [e]
        intro hf
        cases hf
      · rw [e]
        intro hf
        obtain ⟨ws, e1, _⟩ := execF_stopped (fun _ _ => rfl) hf
        exact ⟨d', _, rfl, i1, i2, i3, e1, rfl⟩
  rw [es]
  have hop2 : ({ s.w with next := some n, att := d' } : RWState).operational ≠ false := hop1
  constructor
  · unfold editStep
    rw [if_neg hop2]
    dsimp only
    unfold rwAddAttachment
    rw [if_neg (by rw [hck]; exact Bool.noConfusion), ensureNext_known (n := n) rfl]
    dsimp only
    have : d'.tryAdd (a.entry n) = none := by
      unfold RWAtts.tryAdd
      rw [if_pos]
      rw [List.any_eq_true]
      have hget := i2 s.w.att.next
      rw [if_pos rfl] at hget
      exact ⟨_, mapFind_key hget, equalId_self _ _ rfl rfl rfl⟩
    rw [this]
  · intro b hb hr
    unfold editStep at hr ⊢
    rw [if_neg hop2] at hr ⊢
    dsimp only at hr ⊢
    unfold rwAddAttachment at hr ⊢
    cases hcb : b.check with
    | false => rw [hcb, if_pos rfl] at hr; cases hr
    | true =>
      rw [hcb, if_neg (by exact Bool.noConfusion), ensureNext_known (n := n) rfl] at hr
      rw [if_neg (by exact Bool.noConfusion), ensureNext_known (n := n) rfl]
      dsimp only at hr ⊢
      rcases rwatt_tryAdd i1 (b.entry n) with e | ⟨d2, e, j1, j2, j3, j4, j5⟩
      · rw [e] at hr
        cases hr
      · rw [e]
        dsimp only
        obtain ⟨ws, ew, hh, hw⟩ := att_append b hb n
        have h4 := align_lt (256 + b.bytes.length)
        have hread := readAttachmentData_ok (hh x) (by omega) (show n < 2 ^ 62 by omega) hal
        unfold RW.exec
        rw [ew]
        dsimp only
        have k1 : d2.tryGet c.nextAtt = some (a.entry n) := by
          rw [j2, i3, h.log.nextAtt, if_neg (by omega), i2, if_pos rfl]
        unfold RW.readAttachment
        rw [if_neg hop1]
        dsimp only
        rw [k1]
        dsimp only
        unfold rwReadAtt
        rw [show (a.entry n).filePosition = n from rfl, hread]
        rfl

end Verif.Czi
