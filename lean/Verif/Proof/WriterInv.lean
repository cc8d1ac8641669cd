import Verif.Proof.Chain

/-! The invariant of the writer. -/

namespace Verif.Czi

open Spec

attribute [local irreducible] zeros

/-! ## Segments that may be reused -/

/-- Metadata and directory segments. -/
def Owner.Special : Owner → Prop
  | .sub _ => False
  | .att _ => False
  | _ => True

theorem Chain.eq_of_pos {p q : Nat} {gs : List Seg} (h : Chain p gs q) {x y : Seg} (hx : x ∈ gs) (hy : y ∈ gs) (he : x.pos = y.pos) : x = y := by
  obtain ⟨a, b, rfl⟩ := List.append_of_mem hx
  rcases List.mem_append.1 hy with hy | hy
  · have := h.beside (.inl hy)
    omega
  · rcases List.mem_cons.1 hy with rfl | hy
    · rfl
    · have := h.beside (.inr hy)
      omega

/-- Every segment starts with an identifier and its allocated size. -/
theorem Seg.body_split (g : Seg) : ∃ m r, m.length = 16 ∧ g.body = m ++ (le 8 g.alloc ++ r) := by
  unfold Seg.body
  split
  · rename_i a _
    obtain ⟨z, e⟩ := a.segBytes_split g.pos g.alloc
    have hh : ∃ r, a.head g.alloc = subBlockMagic ++ (le 8 g.alloc ++ r) := by
      simp only [AddInfo.head, segHeader, List.append_assoc]
      exact ⟨_, rfl⟩
    obtain ⟨r, hr⟩ := hh
    have hb : ∃ r', a.body g.pos g.alloc = a.head g.alloc ++ r' := by
      simp only [AddInfo.body, e, List.append_assoc]
      exact ⟨_, rfl⟩
    obtain ⟨r', hr'⟩ := hb
    refine ⟨subBlockMagic, r ++ r', by simp, ?_⟩
    rw [hr', hr]
    simp only [List.append_assoc]
  · refine ⟨attMagic, ?_, by simp, ?_⟩
    rotate_left
    · simp only [AddAtt.body, AddAtt.segBytes, segHeader, List.append_assoc]
      rfl
  · refine ⟨metadataMagic, ?_, by simp, ?_⟩
    rotate_left
    · simp only [MetaInfo.body, MetaInfo.segBytes, segHeader, List.append_assoc]
      rfl
  · refine ⟨subDirMagic, ?_, by simp, ?_⟩
    rotate_left
    · simp only [subDirBytes, segHeader, List.append_assoc]
      rfl
  · refine ⟨attDirMagic, ?_, by simp, ?_⟩
    rotate_left
    · simp only [segHeader, List.append_assoc]
      rfl
  · exact ⟨deletedMagic, [], by simp, by simp⟩

theorem Seg.body_ne_nil (g : Seg) : g.body ≠ [] := by
  obtain ⟨m, r, h1, h2⟩ := g.body_split
  rw [h2]
  intro h
  have := congrArg List.length h
  simp [h1] at this

/-- The bytes of a segment that is marked as deleted. -/
def deletedBody (alloc : Nat) : List UInt8 := deletedMagic ++ le 8 alloc

theorem deletedBody_length (alloc : Nat) : (deletedBody alloc).length = 24 := by simp [deletedBody]

/-- Marking a segment as deleted. -/
theorem Holds.delete {d : Disk} {g : Seg} (h : Holds d g.pos g.body) : Holds (apply d [(g.pos, deletedMagic)]) g.pos (deletedBody g.alloc) := by
  obtain ⟨m, r, h1, h2⟩ := g.body_split
  rw [h2] at h
  have h3 := h.right.left
  rw [h1] at h3
  refine Holds.append (Holds.write (p := g.pos) (c := deletedMagic) (by decide)) ?_
  rw [deletedMagic_length]
  exact h3.other (.inl (by simp))

/-- The result of (re)placing a special segment. -/
structure Replaced (d d' : Disk) (segs segs' : List Seg) (next next' : Nat) (existing : Option SegInfo) (new : Seg) : Prop where
  onDisk : OnDisk d' segs'
  chain : Chain 544 segs' next'
  mem : new ∈ segs'
  others : ∀ x ∈ segs, (∀ i, existing = some i → x.pos ≠ i.pos) → x ∈ segs'
  filter : ∀ {β : Type} (f : Seg → Option β), (∀ g : Seg, g.owner.Special → f g = none) → segs'.filterMap f = segs.filterMap f
  next_le : next ≤ next'

theorem replaced {d : Disk} {segs : List Seg} {next : Nat} {existing : Option SegInfo} {mark : SegInfo → Bool} {need own : Nat}
    {mw ws : List Write} {pos alloc : Nat} {ow : Owner} (hd : OnDisk d segs) (hc : Chain 544 segs next)
    (hex : ∀ i, existing = some i → ∃ o : Owner, o.Special ∧ (⟨i.pos, i.alloc, o⟩ : Seg) ∈ segs ∧ 0 < i.alloc ∧
      (mark i = false → (⟨i.pos, i.alloc, o⟩ : Seg).body = deletedBody i.alloc))
    (hp : Placed existing mark next need own mw pos alloc) (hown : own % 32 = 0)
    (how : ow.Special) (hw : WithinW pos (pos + 32 + alloc) ws)
    (hb : ∀ d, Holds (apply d ws) pos (⟨pos, alloc, ow⟩ : Seg).body) (hlen : (⟨pos, alloc, ow⟩ : Seg).body.length ≤ 32 + alloc)
    (hus : ∃ u, (⟨pos, alloc, ow⟩ : Seg).used = some u ∧ u ≤ alloc) :
    ∃ segs', Replaced d (apply d (mw ++ ws)) segs segs' next (if pos = next then next + (alloc + 32) else next) existing ⟨pos, alloc, ow⟩ := by
  obtain ⟨u, hu1, hu2⟩ := hus
  rcases hp with ⟨i, e1, hn, rfl, rfl, rfl⟩ | ⟨hbig, rfl, rfl, hmw⟩
  · obtain ⟨o, ho, hm, _, _⟩ := hex i e1
    obtain ⟨a, b, rfl⟩ := List.append_of_mem hm
    have hlt := hc.mem hm
    refine ⟨a ++ ⟨i.pos, i.alloc, ow⟩ :: b, ?_⟩
    have h32 := (hd _ hm).1
    rw [if_neg (by dsimp only at hlt; omega)]
    rw [List.nil_append]
    exact {
      onDisk := hd.replace hc hw h32 hlen (hb d) (Seg.usedOk hu1 hu2 (hb d))
      chain := hc.replace rfl rfl
      mem := by simp
      others := by
        intro x hx hne
        rcases List.mem_append.1 hx with h | h
        · simp [h]
        · rcases List.mem_cons.1 h with rfl | h
          · exact absurd rfl (hne i e1)
          · simp [h]
      filter := by
        intro β f hf
        simp only [List.filterMap_append, List.filterMap_cons, hf ⟨i.pos, i.alloc, ow⟩ how, hf ⟨i.pos, i.alloc, o⟩ ho]
      next_le := Nat.le_refl _ }
  · rw [if_pos rfl]
    -- the file after marking
    have hmark : ∃ segs1, OnDisk (apply d mw) segs1 ∧ Chain 544 segs1 pos ∧
        (∀ x ∈ segs, (∀ i, existing = some i → x.pos ≠ i.pos) → x ∈ segs1) ∧
        (∀ {β : Type} (f : Seg → Option β), (∀ g : Seg, g.owner.Special → f g = none) → segs1.filterMap f = segs.filterMap f) := by
      cases existing with
      | none =>
        have : mw = [] := hmw
        subst this
        exact ⟨segs, hd, hc, fun x hx _ => hx, fun f hf => rfl⟩
      | some i =>
        obtain ⟨o, ho, hm, hal, hdel⟩ := hex i rfl
        have hge := hc.mem hm
        obtain ⟨a, b, rfl⟩ := List.append_of_mem hm
        have h32 := (hd _ hm).1
        have hH := (hd _ hm).2.2.1
        have hU : UsedOk d ⟨i.pos, i.alloc, .dead⟩ := (hd _ hm).2.2.2
        refine ⟨a ++ ⟨i.pos, i.alloc, .dead⟩ :: b, ?_, hc.replace rfl rfl, ?_, ?_⟩
        · cases hmk : mark i with
          | true =>
            have : mw = [(i.pos, deletedMagic)] := by
              rw [hmw]
              simp only [markUnused]
              rw [if_pos ⟨hal, by dsimp only at hge; omega, hmk⟩]
              rfl
            subst this
            refine hd.replace hc ?_ h32 ?_ ?_ (hU.frame (lo := i.pos) (hi := i.pos + 16) ?_ (.inr (by dsimp only; omega)))
            · intro w hw
              rcases List.mem_singleton.1 hw with rfl
              simp
              omega
            · show (deletedBody i.alloc).length ≤ _
              rw [deletedBody_length]
              dsimp only
              omega
            · exact Holds.delete (g := ⟨i.pos, i.alloc, o⟩) hH
            · intro w hw
              rcases List.mem_singleton.1 hw with rfl
              simp
          | false =>
            have : mw = [] := by
              rw [hmw]
              simp [markUnused, hmk]
              rfl
            subst this
            refine hd.replace hc (WithinW.nil _ _) h32 ?_ ?_ hU
            · show (deletedBody i.alloc).length ≤ _
              rw [deletedBody_length]
              dsimp only
              omega
            · rw [hdel hmk] at hH
              exact hH
        · intro x hx hne
          rcases List.mem_append.1 hx with h | h
          · simp [h]
          · rcases List.mem_cons.1 h with rfl | h
            · exact absurd rfl (hne i rfl)
            · simp [h]
        · intro β f hf
          simp only [List.filterMap_append, List.filterMap_cons, hf ⟨i.pos, i.alloc, .dead⟩ trivial, hf ⟨i.pos, i.alloc, o⟩ ho]
    obtain ⟨segs1, k1, k2, k3, k4⟩ := hmark
    refine ⟨segs1 ++ [⟨pos, alloc, ow⟩], ?_⟩
    exact {
      onDisk := by
        rw [apply_append, OnDisk.append, OnDisk.cons]
        refine ⟨k1.outside k2 hw (.inl (Nat.le_refl _)), ⟨hown, hlen, hb _, Seg.usedOk hu1 hu2 (hb _)⟩, by intro g hg; cases hg⟩
      chain := by
        have := k2.snoc ⟨pos, alloc, ow⟩ rfl
        dsimp only at this
        rw [Nat.add_comm alloc 32, ← Nat.add_assoc]
        exact this
      mem := by simp
      others := fun x hx hne => List.mem_append_left _ (k3 x hx hne)
      filter := by
        intro β f hf
        rw [List.filterMap_append, k4 f hf]
        simp only [List.filterMap_cons, hf ⟨pos, alloc, ow⟩ how, List.filterMap_nil, List.append_nil]
      next_le := by omega }

/-! ## The invariant -/

def Seg.addInfo (g : Seg) : Option AddInfo := match g.owner with | .sub a => some a | _ => none
def Seg.subEntry (g : Seg) : Option Entry := match g.owner with | .sub a => some (a.entry g.pos) | _ => none
def Seg.addAtt (g : Seg) : Option AddAtt := match g.owner with | .att a => some a | _ => none
def Seg.attEntry (g : Seg) : Option AttEntry := match g.owner with | .att a => some (a.entry g.pos) | _ => none

theorem Seg.addInfo_special (g : Seg) (h : g.owner.Special) : g.addInfo = none := by
  unfold Seg.addInfo; split
  · rename_i e; rw [e] at h; exact h.elim
  · rfl
theorem Seg.subEntry_special (g : Seg) (h : g.owner.Special) : g.subEntry = none := by
  unfold Seg.subEntry; split
  · rename_i e; rw [e] at h; exact h.elim
  · rfl
theorem Seg.addAtt_special (g : Seg) (h : g.owner.Special) : g.addAtt = none := by
  unfold Seg.addAtt; split
  · rename_i e; rw [e] at h; exact h.elim
  · rfl
theorem Seg.attEntry_special (g : Seg) (h : g.owner.Special) : g.attEntry = none := by
  unfold Seg.attEntry; split
  · rename_i e; rw [e] at h; exact h.elim
  · rfl

/-- The state of a writer between `Create` and `Close` as far as the file is concerned: the segments in the file and the metadata written
last. -/
structure InvPhys (s : Sys) (info : WriterInfo) (segs : List Seg) (mt : Option MetaInfo) : Prop where
  operational : s.w.info = some info
  header : Holds s.disk 0 (fileHeader info.guid 0 0 0)
  chain : Chain 544 segs s.w.next
  onDisk : OnDisk s.disk segs
  metaSeg : ∀ i, s.w.metaSeg = some i → (⟨i.pos, i.alloc, .metadata mt⟩ : Seg) ∈ segs ∧ i.deleted = mt.isNone ∧ 0 < i.alloc
  metaNone : s.w.metaSeg = none → mt = none
  subDirSeg : ∀ i, s.w.subDirSeg = some i → (⟨i.pos, i.alloc, .subDir none⟩ : Seg) ∈ segs ∧ i.deleted = true ∧ 0 < i.alloc
  attDirSeg : ∀ i, s.w.attDirSeg = some i → (⟨i.pos, i.alloc, .attDir none⟩ : Seg) ∈ segs ∧ i.deleted = true ∧ 0 < i.alloc

/-- The state of a writer between `Create` and `Close`: the segments in the file, the sub-blocks and attachments added, the
metadata written last. -/
structure InvCore (s : Sys) (info : WriterInfo) (segs : List Seg) (subs : List AddInfo) (atts : List AddAtt) (mt : Option MetaInfo) : Prop
    extends InvPhys s info segs mt where
  dir : s.w.dir.subBlks.Perm (segs.filterMap Seg.subEntry)
  att : s.w.att = segs.filterMap Seg.attEntry
  subs_eq : segs.filterMap Seg.addInfo = subs
  atts_eq : segs.filterMap Seg.addAtt = atts
  subsOk : ∀ a ∈ subs, SubOk a ∧ a.check = true
  attsOk : ∀ a ∈ atts, AttOk a
  metaOk : ∀ m, mt = some m → MetaOk m

/-- The state of a writer between `Create` and `Close`, with the reservation made for the attachment directory. -/
structure Inv (s : Sys) (info : WriterInfo) (segs : List Seg) (subs : List AddInfo) (atts : List AddAtt) (mt : Option MetaInfo) : Prop
    extends InvCore s info segs subs atts mt where
  attReserved : s.w.attDirSeg.map SegInfo.alloc = info.reservedAttDir.map (fun n => 256 + 128 * (if n = 0 then 10 else n))

theorem align_mod (n : Nat) : align n % 32 = 0 := by unfold align; omega
theorem le_align (n : Nat) : n ≤ align n := by unfold align; omega
theorem align_lt (n : Nat) : align n < n + 32 := by unfold align; omega

theorem _root_.Verif.Spec.SubOk.writable {a : AddInfo} (h : SubOk a) (hc : a.check = true) : a.Writable where
  check := hc
  metadataSize := h.metadataSize
  attachmentSize := h.attachmentSize
  dataSize := by have := h.dataSize; omega
  metadata := payloadFails_iff h.sources.metadata.1
  data := payloadFails_iff h.sources.data.1
  attachment := payloadFails_iff h.sources.attachment.1

theorem _root_.Verif.Spec.SubOk.body_length {a : AddInfo} (h : SubOk a) (hc : a.check = true) (pos alloc : Nat) : (a.body pos alloc).length = a.usedSize := by
  obtain ⟨c1, c2, c3⟩ := AddInfo.check_sources hc
  unfold AddInfo.body
  rw [payloadContent_eq h.sources.metadata.2 c1, payloadContent_eq h.sources.data.2 c2, payloadContent_eq h.sources.attachment.2 c3]
  simp only [List.length_append, payloadOf_length, AddInfo.segBytes_length, AddInfo.usedSize]
  omega

theorem setInsert_perm {α : Type} (lt : α → α → Bool) (a : α) : ∀ (l l' : List α), setInsert lt a l = some l' → l'.Perm (a :: l) := by
  intro l
  induction l with
  | nil => intro l' h; cases h; exact List.Perm.refl _
  | cons b r ih =>
    intro l' h
    unfold setInsert at h
    split at h
    · cases hr : setInsert lt a r with
      | none => rw [hr] at h; cases h
      | some r' =>
        rw [hr] at h
        cases h
        exact ((ih r' hr).cons b).trans (List.Perm.swap a b r)
    · split at h
      · cases h; exact List.Perm.refl _
      · cases h

theorem tryAdd_perm {d : WriterDir} {e : Entry} (h : (d.tryAdd e).2 = true) : (d.tryAdd e).1.subBlks.Perm (e :: d.subBlks) := by
  unfold WriterDir.tryAdd at h ⊢
  cases hs : setInsert (entryLt d.allowDuplicates) e d.subBlks with
  | none => rw [hs] at h; cases h
  | some l => exact setInsert_perm _ _ _ _ hs

/-- The allocated size of the segment of a sub-block. -/
def AddInfo.allocSize (a : AddInfo) : Nat := align a.usedSize - 32

theorem AddInfo.usedSize_ge (a : AddInfo) : 288 ≤ a.usedSize := by
  unfold AddInfo.usedSize AddInfo.segSize
  omega

/-- Adding a sub-block: either an exception and no change at all, or success. -/
theorem step_addSubBlock {s : Sys} {info : WriterInfo} {segs : List Seg} {subs : List AddInfo} {atts : List AddAtt} {mt : Option MetaInfo}
    (h : Inv s info segs subs atts mt) {a : AddInfo} (ha : SubOk a) :
    (∃ e, step s (.addSubBlock a) = (s, some e)) ∨
    (∃ s', step s (.addSubBlock a) = (s', none) ∧
      Inv s' info (segs ++ [⟨s.w.next, a.allocSize, .sub a⟩]) (subs ++ [a]) atts mt ∧ s'.w.next ≤ s.w.next + (opBytes (.addSubBlock a) + 4096)) := by
  have hstep : ∀ e, (addSubBlockPhases a).head? = (addSubBlockPhases a).head? → (∃ p ps, addSubBlockPhases a = p :: ps ∧ p s.w = ⟨[], .error e⟩) →
      step s (.addSubBlock a) = (s, some e) := by
    rintro e - ⟨p, ps, h1, h2⟩
    unfold step stepOp WOp.phases
    dsimp only
    rw [h1, runPhases_err h2]
    rfl
  by_cases hck : a.check = true
  case neg =>
    refine .inl ⟨.invalidArgument, hstep _ rfl ⟨_, _, rfl, ?_⟩⟩
    dsimp only
    rw [h.operational]
    simp [hck, Plan.throw_eq]
  cases hco : coordErr (checkCoordinate info.dimBounds info.mBounds a.coordinate a.mIndex) with
  | some e =>
    refine .inl ⟨e, hstep _ rfl ⟨_, _, rfl, ?_⟩⟩
    dsimp only
    rw [h.operational]
    simp [hck, hco, Plan.throw_eq]
  | none =>
    cases htry : (s.w.dir.tryAdd (a.entry s.w.next)).2 with
    | false =>
      refine .inl ⟨.subBlockExists, hstep _ rfl ⟨_, _, rfl, ?_⟩⟩
      dsimp only
      rw [h.operational]
      simp [hck, hco, htry, Plan.throw_eq]
    | true =>
      right
      have hge := a.usedSize_ge
      have hul : a.usedSize < 2 ^ 60 := by
        have := ha.metadataSize; have := ha.dataSize; have := ha.attachmentSize; have := a.dimCount_le
        unfold AddInfo.usedSize AddInfo.segSize
        omega
      have hus : a.usedSize ≤ opBytes (.addSubBlock a) + 4000 := by
        have := a.dimCount_le
        unfold AddInfo.usedSize AddInfo.segSize opBytes
        dsimp only
        omega
      have hal := align_lt a.usedSize
      have hle := le_align a.usedSize
      have hbl := ha.body_length hck s.w.next a.allocSize
      obtain ⟨ws, e, hcg⟩ := writeSubBlock_ok s.w.next none a a.allocSize (ha.writable hck) (by unfold AddInfo.allocSize; omega)
        (.inl ⟨rfl, rfl⟩)
      have hz : zeroAmount (a.allocSize + 32 - (a.body s.w.next a.allocSize).length) = a.allocSize + 32 - a.usedSize := by
        rw [hbl, zeroAmount_small (by unfold AddInfo.allocSize; omega)]
      have hn : (a.body s.w.next a.allocSize ++ zeros (zeroAmount (a.allocSize + 32 - (a.body s.w.next a.allocSize).length))).length =
          a.allocSize + 32 := by
        rw [hz, List.length_append, zeros_length, hbl]
        unfold AddInfo.allocSize
        omega
      rw [hn] at e
      have hex : step s (.addSubBlock a) = (⟨{ s.w with dir := (s.w.dir.tryAdd (a.entry s.w.next)).1, next := s.w.next + (a.allocSize + 32) },
          apply s.disk ws⟩, none) := by
        unfold step stepOp WOp.phases addSubBlockPhases
        dsimp only
        rw [runPhases_ok (ws := []) (w := { s.w with dir := (s.w.dir.tryAdd (a.entry s.w.next)).1 }),
          runPhases_ok (ws := ws) (w := { s.w with dir := (s.w.dir.tryAdd (a.entry s.w.next)).1, next := s.w.next + (a.allocSize + 32) })]
        · rfl
        · dsimp only
          rw [e, Plan.bind_ok, Plan.pure_eq]
          simp
        · dsimp only
          rw [h.operational]
          simp [hck, hco, htry, Plan.pure_eq]
      refine ⟨_, hex, ?_, by show s.w.next + (a.allocSize + 32) ≤ _; unfold AddInfo.allocSize; omega⟩
      have hbody : (⟨s.w.next, a.allocSize, .sub a⟩ : Seg).body = a.body s.w.next a.allocSize := rfl
      exact {
        operational := h.operational
        header := h.header.frame hcg.within (.inl (by have := h.chain.le; simp; omega))
        chain := by
          have := h.chain.snoc ⟨s.w.next, a.allocSize, .sub a⟩ rfl
          dsimp only at this ⊢
          rw [Nat.add_comm a.allocSize 32, ← Nat.add_assoc]
          exact this
        onDisk := h.onDisk.snoc h.chain rfl (by rw [hbody]; exact hcg) (Seg.body_ne_nil _)
          (by have := align_mod a.usedSize; simp only [AddInfo.allocSize]; omega)
          (by rw [hbody, hbl]; simp only [AddInfo.allocSize]; omega)
          (Seg.used_snoc (u := a.usedSize - 32) rfl (by simp only [AddInfo.allocSize]; omega) _)
        dir := by
          rw [List.filterMap_append]
          refine (tryAdd_perm htry).trans ?_
          refine ((h.dir).cons _).trans ?_
          exact (List.perm_append_singleton _ _).symm
        att := by
          rw [List.filterMap_append, ← h.att]
          simp [Seg.attEntry]
        subs_eq := by
          rw [List.filterMap_append, h.subs_eq]
          rfl
        atts_eq := by
          rw [List.filterMap_append, h.atts_eq]
          simp [Seg.addAtt]
        subsOk := by
          intro x hx
          rcases List.mem_append.1 hx with hx | hx
          · exact h.subsOk x hx
          · rw [List.mem_singleton.1 hx]
            exact ⟨ha, hck⟩
        attsOk := h.attsOk
        metaSeg := fun i hi => ⟨List.mem_append_left _ (h.metaSeg i hi).1, (h.metaSeg i hi).2⟩
        metaNone := h.metaNone
        metaOk := h.metaOk
        subDirSeg := fun i hi => ⟨List.mem_append_left _ (h.subDirSeg i hi).1, (h.subDirSeg i hi).2⟩
        attDirSeg := fun i hi => ⟨List.mem_append_left _ (h.attDirSeg i hi).1, (h.attDirSeg i hi).2⟩
        attReserved := h.attReserved }

end Verif.Czi
