import Verif.Proof.WriterClose

/-! From the calls to the document read. -/

namespace Verif.Czi

open Spec

attribute [local irreducible] zeros

theorem subsOf_cons_sub (a : AddInfo) (ops : List WOp) : subsOf (.addSubBlock a :: ops) = a :: subsOf ops := rfl
theorem attsOf_cons_att (a : AddAtt) (ops : List WOp) : attsOf (.addAttachment a :: ops) = a :: attsOf ops := rfl

theorem lastMeta_cons (op : WOp) (ops : List WOp) (h : ∀ m, op ≠ .writeMetadata m) : lastMeta (op :: ops) = lastMeta ops := by
  unfold lastMeta
  cases op with
  | writeMetadata m => exact absurd rfl (h m)
  | _ => rfl

theorem lastMeta_cons_meta (m : MetaInfo) (ops : List WOp) : lastMeta (.writeMetadata m :: ops) = (lastMeta ops).or (some m) := by
  unfold lastMeta
  simp only [List.filterMap_cons]
  rw [List.getLast?_cons]
  cases h : (ops.filterMap _).getLast? <;> simp

/-- A bound for the bytes needed. -/
def opsSize (ops : List WOp) : Nat := (ops.map opBytes).sum + 4096 * ops.length

theorem opsSize_cons (op : WOp) (ops : List WOp) : opsSize (op :: ops) = opBytes op + 4096 + opsSize ops := by
  unfold opsSize
  rw [List.map_cons, List.sum_cons, List.length_cons]
  omega

theorem session_inv {info : WriterInfo} : ∀ (ops : List WOp) {s : Sys} {segs : List Seg} {subs : List AddInfo} {atts : List AddAtt} {mt : Option MetaInfo},
    Inv s info segs subs atts mt → (∀ op ∈ ops, OpOk op) → s.w.next + opsSize ops < 1152921504606846976 →
    ∃ segs', Inv (session s ops).1 info segs' (subs ++ subsOf (session s ops).2) (atts ++ attsOf (session s ops).2) ((lastMeta (session s ops).2).or mt) ∧
      (session s ops).1.w.next ≤ s.w.next + opsSize ops ∧ (session s ops).2.length ≤ ops.length := by
  intro ops
  induction ops with
  | nil =>
    intro s segs subs atts mt h _ _
    refine ⟨segs, ?_, by simp [session], by simp [session]⟩
    simpa [session, subsOf, attsOf, lastMeta] using h
  | cons op ops ih =>
    intro s segs subs atts mt h hops hn
    have hop := hops op (List.mem_cons_self ..)
    have hrest : ∀ o ∈ ops, OpOk o := fun o ho => hops o (List.mem_cons_of_mem _ ho)
    rw [opsSize_cons] at hn
    have hb0 : s.w.next + opsSize ops < 1152921504606846976 :=
      by omega
    have hfail : ∀ e, step s op = (s, some e) → session s (op :: ops) = session s ops := by
      intro e he
      simp [session, he]
    have hgood : ∀ s', step s op = (s', none) → session s (op :: ops) = ((session s' ops).1, op :: (session s' ops).2) := by
      intro s' he
      simp [session, he]
    have hf : ∀ e, step s op = (s, some e) → ∃ segs', Inv (session s (op :: ops)).1 info segs' (subs ++ subsOf (session s (op :: ops)).2)
        (atts ++ attsOf (session s (op :: ops)).2) ((lastMeta (session s (op :: ops)).2).or mt) ∧
        (session s (op :: ops)).1.w.next ≤ s.w.next + opsSize (op :: ops) ∧ (session s (op :: ops)).2.length ≤ (op :: ops).length := by
      intro e he
      obtain ⟨segs', k1, k2, k3⟩ := ih h hrest hb0
      rw [hfail e he]
      refine ⟨segs', k1, ?_, ?_⟩
      · rw [opsSize_cons]
        omega
      · rw [List.length_cons]
        exact Nat.le_succ_of_le k3
    cases op with
    | create i => exact hop.elim
    | close => exact hop.elim
    | addSubBlock a =>
      rcases step_addSubBlock h (a := a) hop with ⟨e, he⟩ | ⟨s', he, hi, hb⟩
      · exact hf e he
      · obtain ⟨segs', k1, k2, k3⟩ := ih hi hrest (by omega)
        rw [hgood s' he]
        refine ⟨segs', ?_, ?_, ?_⟩
        · rw [subsOf_cons_sub, lastMeta_cons _ _ (by simp)]
          rw [List.append_assoc] at k1
          exact k1
        · rw [opsSize_cons]; dsimp only; omega
        · simp only [List.length_cons]; omega
    | addAttachment a =>
      rcases step_addAttachment h (a := a) hop with ⟨e, he⟩ | ⟨s', he, hi, hb⟩
      · exact hf e he
      · obtain ⟨segs', k1, k2, k3⟩ := ih hi hrest (by omega)
        rw [hgood s' he]
        refine ⟨segs', ?_, ?_, ?_⟩
        · rw [attsOf_cons_att, lastMeta_cons _ _ (by simp)]
          rw [List.append_assoc] at k1
          exact k1
        · rw [opsSize_cons]; dsimp only; omega
        · simp only [List.length_cons]; omega
    | writeMetadata m =>
      rcases step_writeMetadata h (m := m) hop (by omega) with ⟨e, he⟩ | ⟨s', segs1, he, hi, hb⟩
      · exact hf e he
      · obtain ⟨segs', k1, k2, k3⟩ := ih hi hrest (by omega)
        rw [hgood s' he]
        refine ⟨segs', ?_, ?_, ?_⟩
        · rw [lastMeta_cons_meta]
          have : ((lastMeta (session s' ops).2).or (some m)).or mt = (lastMeta (session s' ops).2).or (some m) := by
            cases lastMeta (session s' ops).2 <;> rfl
          rw [this]
          exact k1
        · rw [opsSize_cons]; dsimp only; omega
        · simp only [List.length_cons]; omega

/-! ## Lists -/

theorem perm_map_lift {α β : Type} (f : α → β) {l m : List β} (h : l.Perm m) : ∀ P : List α, m = P.map f → ∃ P' : List α, P'.Perm P ∧ l = P'.map f := by
  induction h with
  | nil => intro P hP; exact ⟨P, List.Perm.refl _, hP⟩
  | cons x _ ih =>
    intro P hP
    cases P with
    | nil => cases hP
    | cons p P =>
      simp only [List.map_cons, List.cons.injEq] at hP
      obtain ⟨P', k1, k2⟩ := ih P hP.2
      exact ⟨p :: P', k1.cons p, by rw [List.map_cons, hP.1, k2]⟩
  | swap x y l =>
    intro P hP
    cases P with
    | nil => cases hP
    | cons p P =>
      cases P with
      | nil => simp at hP
      | cons q P =>
        simp only [List.map_cons, List.cons.injEq] at hP
        exact ⟨q :: p :: P, List.Perm.swap p q P, by simp [hP]⟩
  | trans _ _ ih1 ih2 =>
    intro P hP
    obtain ⟨P2, k1, k2⟩ := ih2 P hP
    obtain ⟨P1, k3, k4⟩ := ih1 P2 k2
    exact ⟨P1, k3.trans k1, k4⟩

theorem choose_list {α β : Type} (R : α → β → Prop) : ∀ (l : List α), (∀ a ∈ l, ∃ b, R a b) →
    ∃ m : List β, m.length = l.length ∧ ∀ i (h : i < l.length) (h' : i < m.length), R l[i] m[i] := by
  intro l
  induction l with
  | nil => intro _; exact ⟨[], rfl, by intro i h; simp at h⟩
  | cons a l ih =>
    intro h
    obtain ⟨b, hb⟩ := h a (List.mem_cons_self ..)
    obtain ⟨m, k1, k2⟩ := ih (fun x hx => h x (List.mem_cons_of_mem _ hx))
    refine ⟨b :: m, by simp [k1], ?_⟩
    intro i h1 h2
    cases i with
    | zero => exact hb
    | succ i => exact k2 i (by simpa using h1) (by simpa using h2)

/-- The sub-blocks of the segments with their positions. -/
def subPairs (segs : List Seg) : List (AddInfo × Nat) := segs.filterMap (fun g => g.addInfo.map (fun a => (a, g.pos)))
def attPairs (segs : List Seg) : List (AddAtt × Nat) := segs.filterMap (fun g => g.addAtt.map (fun a => (a, g.pos)))

theorem subPairs_fst (segs : List Seg) : (subPairs segs).map Prod.fst = segs.filterMap Seg.addInfo := by
  unfold subPairs
  rw [List.map_filterMap]
  congr 1
  funext g
  cases g.addInfo <;> rfl

theorem subPairs_entry (segs : List Seg) : (subPairs segs).map (fun p => p.1.entry p.2) = segs.filterMap Seg.subEntry := by
  unfold subPairs
  rw [List.map_filterMap]
  congr 1
  funext g
  unfold Seg.addInfo Seg.subEntry
  cases g.owner <;> rfl

theorem attPairs_fst (segs : List Seg) : (attPairs segs).map Prod.fst = segs.filterMap Seg.addAtt := by
  unfold attPairs
  rw [List.map_filterMap]
  congr 1
  funext g
  cases g.addAtt <;> rfl

theorem attPairs_entry (segs : List Seg) : (attPairs segs).map (fun p => p.1.entry p.2) = segs.filterMap Seg.attEntry := by
  unfold attPairs
  rw [List.map_filterMap]
  congr 1
  funext g
  unfold Seg.addAtt Seg.attEntry
  cases g.owner <;> rfl

theorem subPairs_mem {segs : List Seg} {p : AddInfo × Nat} (h : p ∈ subPairs segs) : ∃ al, (⟨p.2, al, .sub p.1⟩ : Seg) ∈ segs := by
  unfold subPairs at h
  rw [List.mem_filterMap] at h
  obtain ⟨g, hg, e⟩ := h
  rcases g with ⟨pos, al, o⟩
  cases o <;> simp only [Seg.addInfo, Option.map_none, Option.map_some, Option.some.injEq] at e <;> try cases e
  exact ⟨al, hg⟩

theorem attPairs_mem {segs : List Seg} {p : AddAtt × Nat} (h : p ∈ attPairs segs) : ∃ al, (⟨p.2, al, .att p.1⟩ : Seg) ∈ segs := by
  unfold attPairs at h
  rw [List.mem_filterMap] at h
  obtain ⟨g, hg, e⟩ := h
  rcases g with ⟨pos, al, o⟩
  cases o <;> simp only [Seg.addAtt, Option.map_none, Option.map_some, Option.some.injEq] at e <;> try cases e
  exact ⟨al, hg⟩

/-! ## The document -/

/-- Everything about the sub-blocks and the metadata of a document that was written. -/
structure WrittenS (d : Disk) (info : WriterInfo) (segs : List Seg) (q sp mp ap : Nat) (dir : List Entry) (att : List AttEntry)
    (subs : List AddInfo) (mt : Option MetaInfo) : Prop where
  closed : Closed d info.guid segs q sp mp ap dir att mt
  small : q < 2 ^ 61
  dirPerm : dir.Perm ((subPairs segs).map (fun p => p.1.entry p.2))
  subsEq : (subPairs segs).map Prod.fst = subs
  subsOk : ∀ a ∈ subs, SubOk a ∧ a.check = true
  metaOk : ∀ m, mt = some m → MetaOk m
  subsLen : subs.length < 2 ^ 31
  attLen : att.length < 2 ^ 31
  attBytes : att ≠ [] → Holds d (ap + 288) (attOnDisk info.reservedAttDir att)

/-- Everything about a document that was written. -/
structure Written (d : Disk) (info : WriterInfo) (segs : List Seg) (q sp mp ap : Nat) (dir : List Entry) (att : List AttEntry)
    (subs : List AddInfo) (atts : List AddAtt) (mt : Option MetaInfo) : Prop extends WrittenS d info segs q sp mp ap dir att subs mt where
  attEq : att = (attPairs segs).map (fun p => p.1.entry p.2)
  attsEq : (attPairs segs).map Prod.fst = atts
  attsOk : ∀ a ∈ atts, AttOk a
  attsLen : atts.length < 2 ^ 31

theorem filterMap_length_eq {α β γ : Type} {f : α → Option β} {g : α → Option γ} (h : ∀ a, (f a).isSome = (g a).isSome) (l : List α) :
    (l.filterMap f).length = (l.filterMap g).length := by
  induction l with
  | nil => rfl
  | cons a l ih =>
    have := h a
    cases hf : f a <;> cases hg : g a <;> simp_all

theorem filterMap_length_le' {α β : Type} (f : α → Option β) (l : List α) : (l.filterMap f).length ≤ l.length := List.length_filterMap_le f l

theorem writeDoc_bounded (dup : Bool) (d0 : Disk) (info : WriterInfo) (ops : List WOp) (hi : InfoOk info) (hops : OpsOk ops) :
    ∃ d done, writeDoc dup d0 info ops = some (d, done) ∧
      ∃ segs q sp mp ap dir att, Written d info segs q sp mp ap dir att (subsOf done) (attsOf done) (lastMeta done) ∧ q ≤ opsSize ops + 2 ^ 51 ∧
        (att ≠ [] → info.reservedAttDir = none → (⟨ap, 256 + 128 * att.length, .attDir (some att)⟩ : Seg) ∈ segs) := by
  obtain ⟨s, segs0, e1, hinv, hn, _⟩ := step_create dup d0 info hi
  have hlen := hops.count
  have htot := hops.total
  have hos : opsSize ops = (ops.map opBytes).sum + 4096 * ops.length := rfl
  obtain ⟨segs, hinv2, hn2, hl2⟩ := session_inv ops hinv hops.each (by omega)
  generalize hr : session s ops = r at *
  have hsl : (subsOf r.2).length ≤ r.2.length := List.length_filterMap_le _ _
  have hal : (attsOf r.2).length ≤ r.2.length := List.length_filterMap_le _ _
  rw [List.nil_append, List.nil_append, Option.or_none] at hinv2
  have hd1 : r.1.w.dir.subBlks.length = (subsOf r.2).length := by
    rw [hinv2.dir.length_eq, ← hinv2.subs_eq]
    refine filterMap_length_eq ?_ _
    intro g
    unfold Seg.subEntry Seg.addInfo
    cases g.owner <;> rfl
  have hd2 : r.1.w.att.length = (attsOf r.2).length := by
    rw [hinv2.att, ← hinv2.atts_eq]
    refine filterMap_length_eq ?_ _
    intro g
    unfold Seg.attEntry Seg.addAtt
    cases g.owner <;> rfl
  obtain ⟨d, segs', q, sp, mp, ap, ws, e2, hcl, ⟨hq, hqn⟩, hf, hab, _, _⟩ := step_close hinv2.toInvPhys hinv2.attReserved (by omega) (by omega) (by omega)
  refine ⟨d, r.2, ?_, segs', q, sp, mp, ap, r.1.w.dir.subBlks, r.1.w.att, ?_, by omega, fun hne => (hab hne).2⟩
  · unfold writeDoc
    simp only [e1, hr, e2]
    rfl
  · exact {
      closed := hcl
      small := hq
      dirPerm := by rw [subPairs_entry, hf _ Seg.subEntry_special]; exact hinv2.dir
      subsEq := by rw [subPairs_fst, hf _ Seg.addInfo_special]; exact hinv2.subs_eq
      attEq := by rw [attPairs_entry, hf _ Seg.attEntry_special]; exact hinv2.att
      attsEq := by rw [attPairs_fst, hf _ Seg.addAtt_special]; exact hinv2.atts_eq
      subsOk := hinv2.subsOk
      attsOk := hinv2.attsOk
      metaOk := hinv2.metaOk
      subsLen := by omega
      attsLen := by omega
      attLen := by omega
      attBytes := fun hne => (hab hne).1 }

theorem writeDoc_written (dup : Bool) (d0 : Disk) (info : WriterInfo) (ops : List WOp) (hi : InfoOk info) (hops : OpsOk ops) :
    ∃ d done, writeDoc dup d0 info ops = some (d, done) ∧
      ∃ segs q sp mp ap dir att, Written d info segs q sp mp ap dir att (subsOf done) (attsOf done) (lastMeta done) := by
  obtain ⟨d, done, e, segs, q, sp, mp, ap, dir, att, h, _⟩ := writeDoc_bounded dup d0 info ops hi hops
  exact ⟨d, done, e, segs, q, sp, mp, ap, dir, att, h⟩

theorem _root_.Verif.Spec.SubOk.entryFits {a : AddInfo} (h : SubOk a) {pos : Nat} (hp : pos < 2 ^ 64) : EntryFits (a.entry pos) where
  coordinate := h.fits.coordinate
  mIndex := by
    show IsInt32 (a.mIndex.getD intMin)
    cases hm : a.mIndex with
    | none => constructor <;> decide
    | some m => exact h.fits.mIndex m hm
  x := h.fits.x
  y := h.fits.y
  width := h.fits.logicalWidth
  height := h.fits.logicalHeight
  storedWidth := h.fits.physicalWidth
  storedHeight := h.fits.physicalHeight
  pixelType := by
    show IsInt32 (intFromPixelType a.pixelType)
    cases a.pixelType <;> constructor <;> decide
  filePosition := hp
  compression := h.fits.compression

section
variable {d : Disk} {info : WriterInfo} {segs : List Seg} {q sp mp ap : Nat} {dir : List Entry} {att : List AttEntry}
  {subs : List AddInfo} {atts : List AddAtt} {mt : Option MetaInfo}

theorem Closed.pos_lt (h : Closed d info.guid segs q sp mp ap dir att mt) (hq : q < 2 ^ 61) {g : Seg} (hg : g ∈ segs) :
    544 ≤ g.pos ∧ g.pos < 2 ^ 61 ∧ g.alloc < 2 ^ 61 := by
  have := h.chain.mem hg
  omega

theorem WrittenS.pos_lt (h : WrittenS d info segs q sp mp ap dir att subs mt) {g : Seg} (hg : g ∈ segs) : 544 ≤ g.pos ∧ g.pos < 2 ^ 61 ∧ g.alloc < 2 ^ 61 :=
  h.closed.pos_lt h.small hg

theorem Closed.positions (h : Closed d info.guid segs q sp mp ap dir att mt) (hq : q < 2 ^ 61) : sp < 2 ^ 61 ∧ mp < 2 ^ 61 ∧ ap < 2 ^ 61 := by
  refine ⟨?_, ?_, ?_⟩
  · obtain ⟨al, hs⟩ := h.subDir
    exact (h.pos_lt hq hs).2.1
  · have hm := h.metadata
    cases mt with
    | none => rw [show mp = 0 from hm]; omega
    | some m =>
      obtain ⟨al, hs⟩ := hm
      exact (h.pos_lt hq hs).2.1
  · rcases h.attDir with ⟨_, rfl⟩ | ⟨al, hs, _⟩
    · omega
    · exact (h.pos_lt hq hs).2.1

/-- The document opens, and lists the directory. -/
theorem Closed.open (h : Closed d info.guid segs q sp mp ap dir att mt) (hq : q < 2 ^ 61) (hfits : ∀ e ∈ dir, EntryFits e)
    (hsl : dir.length < 2 ^ 31) (hatl : att.length < 2 ^ 31)
    (hbytes : att ≠ [] → Holds d (ap + 288) (attOnDisk info.reservedAttDir att)) {al : Alloc} (hal : ∀ n, al n = true) (o : OpenOptions) :
    ∃ as, openDoc al d.stream o = .ok ⟨⟨1, 0, info.guid, sp, mp, ap⟩, dir, as, o⟩ ∧
      (att = [] → as = []) ∧ (att ≠ [] → as = attEntriesOf (attOnDisk info.reservedAttDir att) att.length) := by
  obtain ⟨p1, p2, p3⟩ := h.positions hq
  have hh := readHeader_ok h.header (by omega) (by omega) (by omega)
  obtain ⟨al1, hs⟩ := h.subDir
  have hhold := (h.onDisk _ hs).2.2.1
  have hps := h.pos_lt hq hs
  dsimp only at hps
  have hbl := entries_bytes_le dir
  have hd := readSubDir_ok (pos := sp) (alloc := al1) hhold hfits (by omega) (by omega) (by omega) (by omega) hal (parseOptions o)
  unfold openDoc openDocWith
  rw [hh]
  simp only [bind, Except.bind]
  rw [hd]
  dsimp only
  rcases h.attDir with ⟨h1, h2⟩ | ⟨al3, hs3, hsz⟩
  · rw [if_neg (by simp [h2])]
    exact ⟨[], rfl, fun _ => rfl, fun hne => absurd h1 hne⟩
  · have hp3 := h.pos_lt hq hs3
    dsimp only at hp3
    rw [if_pos (by omega)]
    obtain ⟨as, x, e, k1, k2⟩ := readAttDir_some (n := att.length) (h.onDisk _ hs3).2.2.1 (by omega) hsz (by dsimp only; omega) hal
    dsimp only at e k1
    rw [e]
    refine ⟨as, rfl, ?_, ?_⟩
    · intro h0
      exact k2 (by rw [h0]; rfl)
    · intro hne
      rw [k1 (List.length_pos_iff.2 hne)]
      have hb := (hbytes hne).read0
      rw [attOnDisk_length] at hb
      rw [hb]

theorem WrittenS.fits (h : WrittenS d info segs q sp mp ap dir att subs mt) : ∀ e ∈ dir, EntryFits e := by
  intro e he
  have := (h.dirPerm.mem_iff).1 he
  rw [List.mem_map] at this
  obtain ⟨p, hp, rfl⟩ := this
  obtain ⟨al2, hg⟩ := subPairs_mem hp
  have := h.pos_lt hg
  refine (h.subsOk p.1 ?_).1.entryFits (by dsimp only at this; omega)
  rw [← h.subsEq]
  exact List.mem_map_of_mem hp

theorem WrittenS.open (h : WrittenS d info segs q sp mp ap dir att subs mt) {al : Alloc} (hal : ∀ n, al n = true) (o : OpenOptions) :
    ∃ as, openDoc al d.stream o = .ok ⟨⟨1, 0, info.guid, sp, mp, ap⟩, dir, as, o⟩ ∧
      (att = [] → as = []) ∧ (att ≠ [] → as = attEntriesOf (attOnDisk info.reservedAttDir att) att.length) := by
  have hdl : dir.length = subs.length := by
    rw [h.dirPerm.length_eq, ← h.subsEq]
    simp
  exact h.closed.open h.small h.fits (by rw [hdl]; exact h.subsLen) h.attLen h.attBytes hal o

theorem viewInfo_entry (a : AddInfo) (pos : Nat) {sb : SubBlock} (h : viewRead sb = viewAdded a) :
    viewInfo (infoFromEntry (a.entry pos)) = viewInfo sb.info := by
  have hv1 : validM ((a.entry pos).mIndex) = a.mIndex.bind validM := by
    cases hm : a.mIndex <;> simp [AddInfo.entry, hm, validM, intMin]
  have e1 : viewInfo sb.info = ((viewRead sb).pixelType, (viewRead sb).compression, (viewRead sb).coordinate, (viewRead sb).mIndex,
    (viewRead sb).logicalRect, (viewRead sb).physicalSize, (viewRead sb).pyramidType) := rfl
  rw [e1, h]
  simp only [viewInfo, infoFromEntry, hv1, viewAdded]
  simp only [AddInfo.entry, pixelType_rt, pyramidType_rt]

/-- Every sub-block is delivered as given. -/
theorem WrittenS.subBlocks (h : WrittenS d info segs q sp mp ap dir att subs mt) {al : Alloc} (hal : ∀ n, al n = true) (o : OpenOptions)
    (hsz : ∀ a ∈ subs, a.sizeData ≤ 2147483647) :
    ∃ sbs : List SubBlock, sbs.length = dir.length ∧ (∀ i (h1 : i < dir.length) (h2 : i < sbs.length), readEntry al d.stream o dir[i] = .ok sbs[i]) ∧
      (sbs.map viewRead).Perm (subs.map viewAdded) ∧
      (∀ i (h1 : i < dir.length) (h2 : i < sbs.length), viewInfo (infoFromEntry dir[i]) = viewInfo sbs[i].info) := by
  obtain ⟨P', hP, he⟩ := perm_map_lift (fun p : AddInfo × Nat => p.1.entry p.2) h.dirPerm _ rfl
  have hall : ∀ p ∈ P', ∃ sb, readEntry al d.stream o (p.1.entry p.2) = .ok sb ∧ viewRead sb = viewAdded p.1 := by
    intro p hp
    have hp' := hP.mem_iff.1 hp
    obtain ⟨al2, hg⟩ := subPairs_mem hp'
    have hpl := h.pos_lt hg
    have hmem : p.1 ∈ subs := by rw [← h.subsEq]; exact List.mem_map_of_mem hp'
    obtain ⟨ok, ck⟩ := h.subsOk p.1 hmem
    have hd := hsz p.1 hmem
    exact readEntry_ok (h.closed.onDisk _ hg).2.2.1 ok.fits ok.sources ck ok.metadataSize ok.attachmentSize (by omega)
      (by dsimp only at hpl ⊢; omega) hal o
  obtain ⟨sbs, k1, k2⟩ := choose_list _ P' hall
  refine ⟨sbs, by rw [k1, he]; simp, ?_, ?_, ?_⟩
  · intro i h1 h2
    have := (k2 i (by rw [k1] at h2; exact h2) h2).1
    simp only [he, List.getElem_map]
    exact this
  · have : sbs.map viewRead = P'.map (fun p => viewAdded p.1) := by
      refine List.ext_getElem (by simp [k1]) ?_
      intro i h1 h2
      simp only [List.getElem_map]
      rw [List.length_map] at h1 h2
      exact (k2 i h2 h1).2
    rw [this, ← h.subsEq, List.map_map]
    exact hP.map _
  · intro i h1 h2
    have := (k2 i (by rw [k1] at h2; exact h2) h2).2
    simp only [he, List.getElem_map]
    exact viewInfo_entry _ _ this

/-- The metadata are delivered as given. -/
theorem WrittenS.metadata (h : WrittenS d info segs q sp mp ap dir att subs mt) {al : Alloc} (hal : ∀ n, al n = true) (o : OpenOptions) (es : List Entry)
    (as : List AttEntry) (hsz : ∀ m, mt = some m → m.xmlBytes.length < 2 ^ 31 ∧ m.attBytes.length < 2 ^ 31) :
    Doc.readMetadata al d.stream ⟨⟨1, 0, info.guid, sp, mp, ap⟩, es, as, o⟩ = (match mt with
      | none => .error .notPresent
      | some m => .ok (metaOf m)) := by
  unfold Doc.readMetadata
  have hm := h.closed.metadata
  cases mt with
  | none =>
    rw [if_pos (.inr hm)]
  | some m =>
    obtain ⟨al2, hg⟩ := hm
    have hpl := h.pos_lt hg
    dsimp only at hpl ⊢
    obtain ⟨m1, m2⟩ := hsz m rfl
    rw [if_neg (by omega)]
    exact readMetadataData_ok (h.closed.onDisk _ hg).2.2.1 m1 m2 (by dsimp only; omega) hal

end

end Verif.Czi
