import Verif.Proof.WriterInv

/-! Attachments, metadata, creation and closing. -/

namespace Verif.Czi

open Spec

attribute [local irreducible] zeros

/-- The allocated size of the segment of an attachment. -/
def AddAtt.allocSize (a : AddAtt) : Nat := align (256 + a.bytes.length)

theorem step_addAttachment {s : Sys} {info : WriterInfo} {segs : List Seg} {subs : List AddInfo} {atts : List AddAtt} {mt : Option MetaInfo}
    (h : Inv s info segs subs atts mt) {a : AddAtt} (ha : AttOk a) :
    (∃ e, step s (.addAttachment a) = (s, some e)) ∨
    (∃ s', step s (.addAttachment a) = (s', none) ∧
      Inv s' info (segs ++ [⟨s.w.next, a.allocSize, .att a⟩]) subs (atts ++ [a]) mt ∧ s'.w.next ≤ s.w.next + (opBytes (.addAttachment a) + 4096)) := by
  have hob : opBytes (.addAttachment a) = a.bytes.length := rfl
  have hstep : ∀ e, (∃ p ps, addAttachmentPhases a = p :: ps ∧ p s.w = ⟨[], .error e⟩) →
      step s (.addAttachment a) = (s, some e) := by
    rintro e ⟨p, ps, h1, h2⟩
    unfold step stepOp WOp.phases
    dsimp only
    rw [h1, runPhases_err h2]
    rfl
  by_cases hck : a.check = true
  case neg =>
    refine .inl ⟨.invalidArgument, hstep _ ⟨_, _, rfl, ?_⟩⟩
    beta_reduce
    rw [h.operational]
    simp [hck, Plan.throw_eq]
  by_cases htry : s.w.att.any (fun x => x.equalId (a.entry s.w.next)) = true
  case pos =>
    refine .inl ⟨.attachmentExists, hstep _ ⟨_, _, rfl, ?_⟩⟩
    beta_reduce
    rw [h.operational]
    simp [hck, tryAddAtt, htry, Plan.throw_eq]
  right
  have hl : a.bytes.length < 2 ^ 59 := ha
  have hal := align_lt (256 + a.bytes.length)
  have hle := le_align (256 + a.bytes.length)
  have hbl := a.body_length s.w.next a.allocSize
  obtain ⟨ws, e, hcg⟩ := writeAttachment_ok s.w.next none a a.allocSize (by unfold AddAtt.allocSize; omega) rfl
  have hz : zeroAmount (a.allocSize + 32 - (a.body s.w.next a.allocSize).length) = a.allocSize + 32 - (288 + a.bytes.length) := by
    rw [hbl, zeroAmount_small (by unfold AddAtt.allocSize; omega)]
  have hn : (a.body s.w.next a.allocSize ++ zeros (zeroAmount (a.allocSize + 32 - (a.body s.w.next a.allocSize).length))).length =
      a.allocSize + 32 := by
    rw [hz, List.length_append, zeros_length, hbl]
    unfold AddAtt.allocSize
    omega
  rw [hn] at e
  have hex : step s (.addAttachment a) = (⟨{ s.w with att := s.w.att ++ [a.entry s.w.next], next := s.w.next + (a.allocSize + 32) },
      apply s.disk ws⟩, none) := by
    unfold step stepOp WOp.phases addAttachmentPhases
    dsimp only
    rw [runPhases_ok (ws := []) (w := { s.w with att := s.w.att ++ [a.entry s.w.next] }),
      runPhases_ok (ws := ws) (w := { s.w with att := s.w.att ++ [a.entry s.w.next], next := s.w.next + (a.allocSize + 32) })]
    · rfl
    · dsimp only
      rw [e, Plan.bind_ok, Plan.pure_eq]
      simp
    · dsimp only
      rw [h.operational]
      simp [hck, tryAddAtt, htry, Plan.pure_eq]
  refine ⟨_, hex, ?_, by show s.w.next + (a.allocSize + 32) ≤ _; unfold AddAtt.allocSize; omega⟩
  have hbody : (⟨s.w.next, a.allocSize, .att a⟩ : Seg).body = a.body s.w.next a.allocSize := rfl
  exact {
    operational := h.operational
    header := h.header.frame hcg.within (.inl (by have := h.chain.le; simp; omega))
    chain := by
      have := h.chain.snoc ⟨s.w.next, a.allocSize, .att a⟩ rfl
      dsimp only at this ⊢
      rw [Nat.add_comm a.allocSize 32, ← Nat.add_assoc]
      exact this
    onDisk := h.onDisk.snoc h.chain rfl (by rw [hbody]; exact hcg) (Seg.body_ne_nil _)
      (by exact align_mod _)
      (by rw [hbody, hbl]; simp only [AddAtt.allocSize]; omega)
      (Seg.used_snoc (u := 256 + a.bytes.length) rfl (by simp only [AddAtt.allocSize]; omega) _)
    dir := by
      rw [List.filterMap_append]
      have e : List.filterMap Seg.subEntry [⟨s.w.next, a.allocSize, Owner.att a⟩] = [] := rfl
      rw [e, List.append_nil]
      exact h.dir
    att := by
      rw [List.filterMap_append, ← h.att]
      rfl
    subs_eq := by
      rw [List.filterMap_append, h.subs_eq]
      simp [Seg.addInfo]
    atts_eq := by
      rw [List.filterMap_append, h.atts_eq]
      rfl
    subsOk := h.subsOk
    attsOk := by
      intro x hx
      rcases List.mem_append.1 hx with hx | hx
      · exact h.attsOk x hx
      · rw [List.mem_singleton.1 hx]
        exact ha
    metaSeg := fun i hi => ⟨List.mem_append_left _ (h.metaSeg i hi).1, (h.metaSeg i hi).2⟩
    metaNone := h.metaNone
    metaOk := h.metaOk
    subDirSeg := fun i hi => ⟨List.mem_append_left _ (h.subDirSeg i hi).1, (h.subDirSeg i hi).2⟩
    attDirSeg := fun i hi => ⟨List.mem_append_left _ (h.attDirSeg i hi).1, (h.attDirSeg i hi).2⟩
    attReserved := h.attReserved }

/-- Where a segment was placed, its allocated size is sufficient. -/
theorem Placed.enough {existing : Option SegInfo} {mark : SegInfo → Bool} {newPos need own : Nat} {mw : List Write} {pos alloc : Nat}
    (h : Placed existing mark newPos need own mw pos alloc) (ho : need ≤ own) : need ≤ alloc := by
  rcases h with ⟨i, _, hn, _, _, rfl⟩ | ⟨_, _, rfl, _⟩
  · exact hn
  · exact ho

/-- Writes of a special segment lie at or beyond 544. -/
theorem Placed.lower {existing : Option SegInfo} {mark : SegInfo → Bool} {newPos need own : Nat} {mw : List Write} {pos alloc : Nat}
    (h : Placed existing mark newPos need own mw pos alloc) (hn : 544 ≤ newPos) (he : ∀ i, existing = some i → 544 ≤ i.pos) :
    544 ≤ pos ∧ ∀ w ∈ mw, 544 ≤ w.1 := by
  rcases h with ⟨i, e, _, rfl, rfl, rfl⟩ | ⟨_, rfl, rfl, rfl⟩
  · exact ⟨he i e, by intro w hw; cases hw⟩
  · refine ⟨hn, ?_⟩
    rcases markUnused_writes existing mark with h | ⟨i, e, _, h⟩
    · rw [h]; intro w hw; cases hw
    · rw [h]
      intro w hw
      rcases List.mem_singleton.1 hw with rfl
      exact he i e

theorem Holds.below {d : Disk} {c : List UInt8} {k : Nat} {ws : List Write} (h : Holds d 0 c) (hk : c.length ≤ k) (hw : ∀ w ∈ ws, k ≤ w.1) :
    Holds (apply d ws) 0 c := by
  induction ws generalizing d with
  | nil => exact h
  | cons w ws ih =>
    refine ih (h.other ?_) (fun x hx => hw x (List.mem_cons_of_mem _ hx))
    have := hw w (List.mem_cons_self ..)
    omega

theorem WithinW.lower {lo hi k : Nat} {ws : List Write} (h : WithinW lo hi ws) (hk : k ≤ lo) : ∀ w ∈ ws, k ≤ w.1 :=
  fun w hw => Nat.le_trans hk (h w hw).1

theorem filled_le {b a : Nat} (h : b ≤ 32 + a) : b + zeroAmount (a + 32 - b) ≤ 32 + a := by
  have := zeroAmount_le (a + 32 - b)
  omega

theorem step_writeMetadata {s : Sys} {info : WriterInfo} {segs : List Seg} {subs : List AddInfo} {atts : List AddAtt} {mt : Option MetaInfo}
    (h : Inv s info segs subs atts mt) {m : MetaInfo} (hm : MetaOk m) (hn : s.w.next < 2 ^ 61) :
    (∃ e, step s (.writeMetadata m) = (s, some e)) ∨
    (∃ s' segs', step s (.writeMetadata m) = (s', none) ∧
      Inv s' info segs' subs atts (some m) ∧ s'.w.next ≤ s.w.next + (opBytes (.writeMetadata m) + 4096)) := by
  have hob : opBytes (.writeMetadata m) = m.xmlBytes.length + m.attBytes.length := rfl
  by_cases hck : m.check = true
  case neg =>
    refine .inl ⟨.invalidArgument, ?_⟩
    unfold step stepOp WOp.phases writeMetadataPhases
    dsimp only
    rw [runPhases_err (ws := []) (e := .invalidArgument)]
    · rfl
    · rw [h.operational]
      simp [hck, Plan.throw_eq]
  right
  obtain ⟨hx, hxa⟩ := hm
  have hlt : ∀ i, s.w.metaSeg = some i → 544 ≤ i.pos ∧ i.alloc < 2 ^ 62 := by
    intro i hi
    have := h.chain.mem (h.metaSeg i hi).1
    dsimp only at this
    omega
  obtain ⟨mw, pos, alloc, hp, ws, e, hcg⟩ := writeMetadata_ok s.w.metaSeg markIfLive s.w.next m (fun i hi => (hlt i hi).2) (by omega)
  have hen := hp.enough (Nat.le_refl _)
  have hle := le_align (256 + (m.xmlBytes.length + m.attBytes.length))
  have hallt := align_lt (256 + (m.xmlBytes.length + m.attBytes.length))
  have hbl := m.body_length alloc
  have hwi : WithinW pos (pos + 32 + alloc) ws := by
    refine hcg.within.mono (Nat.le_refl _) ?_
    rw [List.length_append, zeros_length]
    have := filled_le (b := (m.body alloc).length) (a := alloc) (by omega)
    omega
  have hbody : (⟨pos, alloc, .metadata (some m)⟩ : Seg).body = m.body alloc := rfl
  obtain ⟨segs', hr⟩ := replaced (ow := .metadata (some m)) h.onDisk h.chain (existing := s.w.metaSeg) (mark := markIfLive)
    (by
      intro i hi
      obtain ⟨h1, h2, h3⟩ := h.metaSeg i hi
      refine ⟨.metadata mt, trivial, h1, h3, ?_⟩
      intro hmk
      simp only [markIfLive, h2, Bool.not_eq_false', Option.isNone_iff_eq_none] at hmk
      subst hmk
      rfl) hp (align_mod _) trivial hwi
    (by intro d; exact Holds.contig (by rw [hbody]; exact hcg) (Seg.body_ne_nil _)) (by rw [hbody]; omega) ⟨_, rfl, by omega⟩
  have hlow := hp.lower h.chain.le (fun i hi => (hlt i hi).1)
  refine ⟨⟨{ s.w with metaSeg := some ⟨pos, alloc, false⟩, next := if pos = s.w.next then s.w.next + (alloc + 32) else s.w.next },
    apply s.disk (mw ++ ws)⟩, segs', ?_, ?_, ?_⟩
  · unfold step stepOp WOp.phases writeMetadataPhases
    dsimp only
    rw [runPhases_ok (ws := mw ++ ws)]
    · rfl
    · rw [if_neg (by rw [h.operational]; simp), if_neg (by simp [hck]), e, Plan.bind_ok, Plan.pure_eq]
      simp
  · have hoth : ∀ (i : SegInfo) (o : Owner), (⟨i.pos, i.alloc, o⟩ : Seg) ∈ segs → (∀ x, o ≠ .metadata x) → (⟨i.pos, i.alloc, o⟩ : Seg) ∈ segs' := by
      intro i o hi ho
      refine hr.others _ hi ?_
      intro j hj hpos
      have := h.chain.eq_of_pos hi (h.metaSeg j hj).1 hpos
      injection this with _ _ h3
      exact ho _ h3
    exact {
      operational := h.operational
      header := h.header.below (k := 544) (by simp) (by
        intro w hw
        rcases List.mem_append.1 hw with hw | hw
        · exact hlow.2 w hw
        · exact hwi.lower hlow.1 w hw)
      chain := hr.chain
      onDisk := hr.onDisk
      dir := by rw [hr.filter _ Seg.subEntry_special]; exact h.dir
      att := by rw [hr.filter _ Seg.attEntry_special]; exact h.att
      subs_eq := by rw [hr.filter _ Seg.addInfo_special]; exact h.subs_eq
      atts_eq := by rw [hr.filter _ Seg.addAtt_special]; exact h.atts_eq
      subsOk := h.subsOk
      attsOk := h.attsOk
      metaSeg := by
        intro i hi
        cases hi
        exact ⟨hr.mem, rfl, by show 0 < alloc; omega⟩
      metaNone := by intro hh; cases hh
      metaOk := by intro m' hm'; cases hm'; exact ⟨hx, hxa⟩
      subDirSeg := fun i hi => ⟨hoth i _ (h.subDirSeg i hi).1 (by simp), (h.subDirSeg i hi).2⟩
      attDirSeg := fun i hi => ⟨hoth i _ (h.attDirSeg i hi).1 (by simp), (h.attDirSeg i hi).2⟩
      attReserved := h.attReserved }
  · dsimp only
    split
    · rename_i hpe
      rcases hp with ⟨i, hi, _, _, h1, h2⟩ | ⟨_, _, h2, _⟩
      · have := h.chain.mem (h.metaSeg i hi).1
        dsimp only at this
        omega
      · omega
    · omega

/-! ## Creation -/

/-- Adding a reserved segment at the end. -/
theorem reserved_onDisk {d : Disk} {segs : List Seg} {next alloc used : Nat} {z : List UInt8} {o : Owner} (hd : OnDisk d segs) (hc : Chain 544 segs next)
    (ho : (⟨next, alloc, o⟩ : Seg).body = deletedBody alloc) (h32 : alloc % 32 = 0) (hu : used ≤ alloc) :
    OnDisk (apply d [(next, segHeader deletedMagic alloc used ++ z)]) (segs ++ [⟨next, alloc, o⟩]) := by
  refine hd.snoc (g := ⟨next, alloc, o⟩) (z := le 8 used ++ z) hc rfl ?_ (Seg.body_ne_nil _) h32 ?_
    ⟨used, deletedBody alloc, z, hu, deletedBody_length _, by rw [ho]⟩
  · rw [ho]
    have : segHeader deletedMagic alloc used ++ z = deletedBody alloc ++ (le 8 used ++ z) := by
      simp [segHeader, deletedBody]
    rw [← this]
    exact Contig.single _ _
  · rw [ho, deletedBody_length]
    omega

theorem fileHeader_ne_nil (g : Guid) (a b c : Nat) : fileHeader g a b c ≠ [] := by
  intro h
  have := congrArg List.length h
  simp at this

/-- A reservation. -/
theorem InvCore.reserve {s : Sys} {info : WriterInfo} {segs : List Seg} {alloc used : Nat} {z : List UInt8} {o : Owner} {w : WState}
    (h : InvCore s info segs [] [] none) (ho : (⟨s.w.next, alloc, o⟩ : Seg).body = deletedBody alloc) (hs : o.Special) (h32 : alloc % 32 = 0) (hu : used ≤ alloc)
    (h1 : w.info = s.w.info) (h2 : w.next = s.w.next + (32 + alloc)) (h3 : w.dir = s.w.dir) (h4 : w.att = s.w.att)
    (hm : ∀ i, w.metaSeg = some i → s.w.metaSeg = some i ∨ (i = ⟨s.w.next, alloc, true⟩ ∧ o = .metadata none ∧ 0 < alloc))
    (hd : ∀ i, w.subDirSeg = some i → s.w.subDirSeg = some i ∨ (i = ⟨s.w.next, alloc, true⟩ ∧ o = .subDir none ∧ 0 < alloc))
    (ha : ∀ i, w.attDirSeg = some i → s.w.attDirSeg = some i ∨ (i = ⟨s.w.next, alloc, true⟩ ∧ o = .attDir none ∧ 0 < alloc)) :
    InvCore ⟨w, apply s.disk [(s.w.next, segHeader deletedMagic alloc used ++ z)]⟩ info (segs ++ [⟨s.w.next, alloc, o⟩]) [] [] none where
  operational := h1.trans h.operational
  header := h.header.below (k := 544) (by simp) (by
    intro w hw
    rcases List.mem_singleton.1 hw with rfl
    exact h.chain.le)
  chain := by
    have := h.chain.snoc ⟨s.w.next, alloc, o⟩ rfl
    show Chain 544 _ w.next
    rw [h2, ← Nat.add_assoc]
    exact this
  onDisk := reserved_onDisk h.onDisk h.chain ho h32 hu
  dir := by
    show w.dir.subBlks.Perm _
    rw [List.filterMap_append, h3]
    simp only [List.filterMap_cons, Seg.subEntry_special ⟨s.w.next, alloc, o⟩ hs, List.filterMap_nil, List.append_nil]
    exact h.dir
  att := by
    show w.att = _
    rw [List.filterMap_append, h4]
    simp only [List.filterMap_cons, Seg.attEntry_special ⟨s.w.next, alloc, o⟩ hs, List.filterMap_nil, List.append_nil]
    exact h.att
  subs_eq := by
    rw [List.filterMap_append]
    simp only [List.filterMap_cons, Seg.addInfo_special ⟨s.w.next, alloc, o⟩ hs, List.filterMap_nil, List.append_nil]
    exact h.subs_eq
  atts_eq := by
    rw [List.filterMap_append]
    simp only [List.filterMap_cons, Seg.addAtt_special ⟨s.w.next, alloc, o⟩ hs, List.filterMap_nil, List.append_nil]
    exact h.atts_eq
  subsOk := h.subsOk
  attsOk := h.attsOk
  metaSeg := by
    intro i hi
    rcases hm i hi with h' | ⟨rfl, rfl, hp⟩
    · exact ⟨List.mem_append_left _ (h.metaSeg i h').1, (h.metaSeg i h').2⟩
    · exact ⟨by simp, rfl, hp⟩
  metaNone := fun _ => rfl
  metaOk := h.metaOk
  subDirSeg := by
    intro i hi
    rcases hd i hi with h' | ⟨rfl, rfl, hp⟩
    · exact ⟨List.mem_append_left _ (h.subDirSeg i h').1, (h.subDirSeg i h').2⟩
    · exact ⟨by simp, rfl, hp⟩
  attDirSeg := by
    intro i hi
    rcases ha i hi with h' | ⟨rfl, rfl, hp⟩
    · exact ⟨List.mem_append_left _ (h.attDirSeg i h').1, (h.attDirSeg i h').2⟩
    · exact ⟨by simp, rfl, hp⟩

theorem step_create (dup : Bool) (d : Disk) (info : WriterInfo) (hi : InfoOk info) :
    ∃ s segs, step ⟨WState.init dup, d⟩ (.create info) = (s, none) ∧ Inv s info segs [] [] none ∧ s.w.next ≤ 2 ^ 50 ∧ s.w.dir = WriterDir.init dup := by
  -- after the header
  let w1 : WState := { WState.init dup with info := some info, next := 544 }
  let d1 := apply d [(0, fileHeader info.guid 0 0 0)]
  have H1 : InvCore ⟨w1, d1⟩ info [] [] [] none := {
    operational := rfl
    header := Holds.write (fileHeader_ne_nil _ _ _ _)
    chain := rfl
    onDisk := by intro g hg; cases hg
    dir := List.Perm.refl _
    att := rfl
    subs_eq := rfl
    atts_eq := rfl
    subsOk := by intro a ha; cases ha
    attsOk := by intro a ha; cases ha
    metaSeg := by intro i hi; cases hi
    metaNone := fun _ => rfl
    metaOk := by intro m hm; cases hm
    subDirSeg := by intro i hi; cases hi
    attDirSeg := by intro i hi; cases hi }
  -- after the metadata reservation
  have H2 : ∃ w2 ws segs, (match info.reservedMetadata with | some s => reserveMetadata s w1 | none => Pure.pure w1 : Plan WState) = ⟨ws, .ok w2⟩ ∧
      InvCore ⟨w2, apply d1 ws⟩ info segs [] [] none ∧ w2.subDirSeg = none ∧ w2.attDirSeg = none ∧ w2.next ≤ 2 ^ 41 + 10000 ∧ w2.dir = w1.dir := by
    cases hr : info.reservedMetadata with
    | none => exact ⟨w1, [], [], rfl, H1, rfl, rfl, by show 544 ≤ _; omega, rfl⟩
    | some n =>
      have hn := hi.metadata n hr
      refine ⟨_, _, _, rfl, H1.reserve (o := .metadata none) rfl trivial (align_mod _) (le_align _) rfl rfl rfl rfl ?_ ?_ ?_, rfl, rfl, ?_, rfl⟩
      · intro i hi
        cases hi
        exact .inr ⟨rfl, rfl, by have := le_align (256 + if n = 0 then 10240 else n); omega⟩
      · intro i hi; cases hi
      · intro i hi; cases hi
      · show 544 + (32 + align (256 + if n = 0 then 10240 else n)) ≤ _
        have := align_lt (256 + if n = 0 then 10240 else n)
        split at this <;> rename_i h0 <;> simp only [h0, if_true, if_false] <;> omega
  obtain ⟨w2, ws2, segs2, e2, H2, h2s, h2a, h2n, h2d⟩ := H2
  have H3 : ∃ w3 ws segs, (match info.reservedSubDir with | some s => reserveSubDir info s w2 | none => Pure.pure w2 : Plan WState) = ⟨ws, .ok w3⟩ ∧
      InvCore ⟨w3, apply (apply d1 ws2) ws⟩ info segs [] [] none ∧ w3.attDirSeg = none ∧ w3.next ≤ 2 ^ 43 ∧ w3.dir = w2.dir := by
    cases hr : info.reservedSubDir with
    | none => exact ⟨w2, [], segs2, rfl, H2, h2a, by omega, rfl⟩
    | some n =>
      have hn := hi.subDir n hr
      have hal := align_lt (128 + reserveCount info n * (32 + 20 * 40))
      have hle := le_align (128 + reserveCount info n * (32 + 20 * 40))
      refine ⟨_, _, _, rfl, H2.reserve (o := .subDir none) rfl trivial (align_mod _) (le_align _) rfl rfl rfl rfl ?_ ?_ ?_, h2a, ?_, rfl⟩
      · intro i hi; exact .inl hi
      · intro i hi
        cases hi
        exact .inr ⟨rfl, rfl, by omega⟩
      · intro i hi; exact .inl hi
      · show w2.next + (32 + align (128 + reserveCount info n * (32 + 20 * 40))) ≤ _
        omega
  obtain ⟨w3, ws3, segs3, e3, H3, h3a, h3n, h3d⟩ := H3
  have H4 : ∃ w4 ws segs, (match info.reservedAttDir with | some s => reserveAttDir s w3 | none => Pure.pure w3 : Plan WState) = ⟨ws, .ok w4⟩ ∧
      Inv ⟨w4, apply (apply (apply d1 ws2) ws3) ws⟩ info segs [] [] none ∧ w4.next ≤ 2 ^ 50 ∧ w4.dir = w3.dir := by
    cases hr : info.reservedAttDir with
    | none =>
      refine ⟨w3, [], segs3, rfl, ⟨H3, ?_⟩, by omega, rfl⟩
      rw [hr]
      show w3.attDirSeg.map _ = _
      rw [h3a]
      rfl
    | some n =>
      have hn := hi.attDir n hr
      let k := if n = 0 then 10 else n
      have hk : k < 2 ^ 31 := by dsimp only [k]; split <;> omega
      have hal : align (256 + k * 128) = 256 + 128 * k := by unfold align; omega
      refine ⟨_, _, _, rfl, ⟨H3.reserve (o := .attDir none) rfl trivial (align_mod _) (le_align _) rfl rfl rfl rfl ?_ ?_ ?_, ?_⟩, ?_, rfl⟩
      · intro i hi; exact .inl hi
      · intro i hi; exact .inl hi
      · intro i hi
        cases hi
        exact .inr ⟨rfl, rfl, by show 0 < align (256 + k * 128); omega⟩
      · rw [hr]
        show some (align (256 + k * 128)) = some (256 + 128 * k)
        rw [hal]
      · show w3.next + (32 + align (256 + k * 128)) ≤ _
        omega
  obtain ⟨w4, ws4, segs4, e4, H4, h4n, h4d⟩ := H4
  refine ⟨_, segs4, ?_, H4, h4n, by show w4.dir = _; rw [h4d, h3d, h2d]; rfl⟩
  unfold step stepOp WOp.phases createPhases
  dsimp only
  rw [runPhases_ok (ws := []) (w := { WState.init dup with info := some info }) rfl,
    runPhases_ok (ws := [(0, fileHeader info.guid 0 0 0)]) (w := w1) rfl, runPhases_ok e2, runPhases_ok e3, runPhases_ok e4]
  rfl

end Verif.Czi
