import Verif.Proof.DocAtt

/-! Limits of the reader, and the segments of a finished file. -/

namespace Verif.Czi

open Spec

attribute [local irreducible] zeros

theorem i32_le (x : Int) : i32 x ≤ 2147483647 := by
  unfold i32 toSigned
  split <;> omega

theorem readPayload_limit {al : Alloc} (hal : ∀ n, al n = true) {s : Stream} {off : Nat} {n : Int} {p : Payload} (h : readPayload al s off n = .ok p) :
    p.size = n ∧ n ≤ 2147483647 := by
  unfold readPayload at h
  by_cases hn : n > 0
  · rw [if_pos ⟨hn, hal _⟩] at h
    dsimp only at h
    split at h
    · cases h
    · rename_i hi
      have := i32_le (s off n.toNat).length
      injection h with h
      subst h
      exact ⟨rfl, by omega⟩
  · rw [if_neg (by omega)] at h
    injection h with h
    subst h
    exact ⟨rfl, by omega⟩

theorem Except.bind_eq_ok {ε α β : Type} {x : Except ε α} {f : α → Except ε β} {b : β} (h : (x >>= f) = .ok b) : ∃ a, x = .ok a ∧ f a = .ok b := by
  cases x with
  | error e => cases h
  | ok a => exact ⟨a, rfl, h⟩

theorem readSubBlockData_limit {al : Alloc} (hal : ∀ n, al n = true) {s : Stream} {off : Nat} {v : SbData} (h : readSubBlockData al s off = .ok v) :
    v.data.size ≤ 2147483647 ∧ ∀ b c p sp g l, readSbHeader s off = .ok (b, c, p, sp, g, l) → v.data.size = fieldInt b 40 8 := by
  unfold readSubBlockData at h
  obtain ⟨⟨b, c, p, sp, g, l⟩, h1, h⟩ := Except.bind_eq_ok h
  dsimp only at h
  obtain ⟨m, h2, h⟩ := Except.bind_eq_ok h
  obtain ⟨dd, h3, h⟩ := Except.bind_eq_ok h
  obtain ⟨a, h4, h⟩ := Except.bind_eq_ok h
  injection h with h
  subst h
  have := readPayload_limit hal h3
  refine ⟨by dsimp only; omega, ?_⟩
  intro b' c' p' sp' g' l' e
  rw [h1] at e
  injection e with e
  injection e with e _
  subst e
  exact this.1

theorem readEntry_data {al : Alloc} {s : Stream} {o : OpenOptions} {e : Entry} {sb : SubBlock} (h : readEntry al s o e = .ok sb) :
    ∃ v, readSubBlockData al s e.filePosition = .ok v ∧ sb.data = v.data := by
  unfold readEntry at h
  obtain ⟨v, h1, h⟩ := Except.bind_eq_ok h
  have hf : ∀ {r}, readEntry.finish o e v = .ok r → r.data = v.data := by
    intro r hr
    unfold readEntry.finish at hr
    split at hr
    · split at hr
      · cases hr
      · injection hr with hr; subst hr; rfl
    · injection hr with hr; subst hr; rfl
  refine ⟨v, h1, ?_⟩
  split at h
  · split at h
    · cases h
    · cases h
    · exact hf h
  · exact hf h

theorem readAttachmentData_limit {al : Alloc} (hal : ∀ n, al n = true) {s : Stream} {off : Nat} {v : Payload} (h : readAttachmentData al s off = .ok v) :
    v.size ≤ 2147483647 := by
  unfold readAttachmentData at h
  obtain ⟨b, h1, h⟩ := Except.bind_eq_ok h
  split at h
  · cases h
  · have := readPayload_limit hal h
    omega

theorem readMetadata_limit {al : Alloc} (hal : ∀ n, al n = true) {s : Stream} {doc : Doc} {v : MetaData} (h : doc.readMetadata al s = .ok v) :
    v.xml.size ≤ 2147483647 ∧ v.attachment.size ≤ 2147483647 := by
  unfold Doc.readMetadata at h
  split at h
  · cases h
  · unfold readMetadataData at h
    obtain ⟨b, h1, h⟩ := Except.bind_eq_ok h
    split at h
    · cases h
    · obtain ⟨x, h2, h⟩ := Except.bind_eq_ok h
      obtain ⟨a, h3, h⟩ := Except.bind_eq_ok h
      injection h with h
      subst h
      have := readPayload_limit hal h2
      have := readPayload_limit hal h3
      dsimp only
      omega

section
variable {d : Disk} {info : WriterInfo} {segs : List Seg} {q sp mp ap : Nat} {dir : List Entry} {att : List AttEntry}
  {subs : List AddInfo} {atts : List AddAtt} {mt : Option MetaInfo}

/-- Data of 2 GB and more cannot be read. -/
theorem Written.large_data (h : Written d info segs q sp mp ap dir att subs atts mt) {al : Alloc} (hal : ∀ n, al n = true) (o : OpenOptions)
    {a : AddInfo} (ha : a ∈ subs) (hl : 2147483647 < a.sizeData) : ∃ i, ∃ hi : i < dir.length, ∀ r, readEntry al d.stream o dir[i] ≠ .ok r := by
  have ha' := ha
  rw [← h.subsEq, List.mem_map] at ha'
  obtain ⟨p, hp, rfl⟩ := ha'
  have hm : p.1.entry p.2 ∈ dir := (h.dirPerm.mem_iff).2 (List.mem_map_of_mem (f := fun p : AddInfo × Nat => p.1.entry p.2) hp)
  obtain ⟨i, hi, he⟩ := List.getElem_of_mem hm
  refine ⟨i, hi, ?_⟩
  rw [he]
  intro r hr
  obtain ⟨v, h1, h2⟩ := readEntry_data hr
  have hpos : (p.1.entry p.2).filePosition = p.2 := rfl
  rw [hpos] at h1
  obtain ⟨k1, k2⟩ := readSubBlockData_limit hal h1
  obtain ⟨al2, hg⟩ := subPairs_mem hp
  have hpl := h.pos_lt hg
  obtain ⟨ok, ck⟩ := h.subsOk p.1 ha
  have hh := (h.closed.onDisk _ hg).2.2.1
  have hd := ok.dataSize
  dsimp only at hpl
  obtain ⟨b, e, _, _, f3⟩ := readSbHeader_ok (d := d) (pos := p.2) (alloc := al2) (a := p.1)
    (by
      have : (⟨p.2, al2, .sub p.1⟩ : Seg).body = p.1.body p.2 al2 := rfl
      rw [this] at hh
      unfold AddInfo.body at hh
      exact hh.left.left.left) ok.fits ok.metadataSize ok.attachmentSize (by omega) (by omega)
  have := k2 _ _ _ _ _ _ e
  omega

/-! ## Segments -/

theorem Holds.fieldNat {d : Disk} {p n o k : Nat} {v : Nat} (h : Holds d (p + o) (le k v)) (hn : o + k ≤ n) (hs : p + n ≤ d.size) (hv : v < 256 ^ k) :
    fieldNat (d.read p n) o k = v := by
  have e : field (d.read p n) o k = le k v := by
    have h0 := h.read0
    rw [le_length] at h0
    rw [← h0]
    unfold field Disk.read
    have hk := h.1
    rw [le_length] at hk
    refine List.ext_getElem (by simp; omega) ?_
    intro i h1 h2
    simp [Nat.add_assoc]
  unfold Czi.fieldNat
  rw [e, unle_le, Nat.mod_eq_of_lt hv]

theorem Seg.alloc_holds {d : Disk} {g : Seg} (h : Holds d g.pos g.body) : Holds d (g.pos + 16) (le 8 g.alloc) := by
  obtain ⟨m, r, h1, h2⟩ := g.body_split
  rw [h2] at h
  have := h.right.left
  rw [h1] at this
  exact this

theorem Chain.aligned {d : Disk} {gs : List Seg} {p q : Nat} (h : Chain p gs q) (hd : OnDisk d gs) (hp : p % 32 = 0) : ∀ g ∈ gs, g.pos % 32 = 0 := by
  induction gs generalizing p with
  | nil => intro g hg; cases hg
  | cons x gs ih =>
    intro g hg
    have hx := (hd x (List.mem_cons_self ..)).1
    have h1 := h.1
    rcases List.mem_cons.1 hg with rfl | hg
    · omega
    · exact ih h.2 (fun y hy => hd y (List.mem_cons_of_mem _ hy)) (by omega) g hg

theorem Chain.pairwise {gs : List Seg} {p q : Nat} (h : Chain p gs q) : (gs.map (fun g => (g.pos, g.alloc))).Pairwise (fun a b => a.1 + 32 + a.2 ≤ b.1) := by
  induction gs generalizing p with
  | nil => exact List.Pairwise.nil
  | cons x gs ih =>
    rw [List.map_cons, List.pairwise_cons]
    refine ⟨?_, ih h.2⟩
    intro b hb
    obtain ⟨g, hg, rfl⟩ := List.mem_map.1 hb
    have := h.2.mem hg
    have := h.1
    dsimp only
    omega

theorem Seg.segmentAt {d : Disk} {g : Seg} (h : Holds d g.pos g.body) (hu : UsedOk d g) (ha : g.alloc < 2 ^ 64) :
    ∃ used, used ≤ g.alloc ∧ SegmentAt d g.pos g.alloc used := by
  obtain ⟨u, h1, h2⟩ := hu
  have hs := h2.1
  rw [le_length] at hs
  have h3 := Seg.alloc_holds h
  exact ⟨u, h1, by omega, h3.fieldNat (by omega) (by omega) (by omega), h2.fieldNat (by omega) (by omega) (by omega)⟩

theorem Written.segmented (h : Written d info segs q sp mp ap dir att subs atts mt) :
    Segmented d ((0, 512) :: segs.map (fun g => (g.pos, g.alloc))) := by
  have hal := h.closed.chain.aligned h.closed.onDisk (by decide)
  have hh := h.closed.header
  refine ⟨?_, ?_, ?_⟩
  · intro s hs
    rcases List.mem_cons.1 hs with rfl | hs
    · have hs := hh.1
      rw [fileHeader_length] at hs
      have e : ∃ r, fileHeader info.guid sp mp ap = fileMagic ++ (le 8 512 ++ (le 8 512 ++ r)) := by
        unfold fileHeader segHeader
        simp only [List.append_assoc]
        exact ⟨_, rfl⟩
      obtain ⟨r, e⟩ := e
      rw [e] at hh
      have h1 := hh.right
      rw [fileMagic_length] at h1
      have h2 := h1.right
      rw [le_length] at h2
      exact ⟨512, by omega, by omega, Holds.fieldNat (p := 0) h1.left (by omega) (by omega) (by omega),
        Holds.fieldNat (p := 0) h2.left (by omega) (by omega) (by omega)⟩
    · obtain ⟨g, hg, rfl⟩ := List.mem_map.1 hs
      obtain ⟨_, _, k3, k4⟩ := h.closed.onDisk g hg
      have := h.pos_lt hg
      exact Seg.segmentAt k3 k4 (by omega)
  · intro s hs
    rcases List.mem_cons.1 hs with rfl | hs
    · exact ⟨rfl, rfl⟩
    · obtain ⟨g, hg, rfl⟩ := List.mem_map.1 hs
      exact ⟨hal g hg, (h.closed.onDisk g hg).1⟩
  · rw [List.pairwise_cons]
    refine ⟨?_, h.closed.chain.pairwise⟩
    intro b hb
    obtain ⟨g, hg, rfl⟩ := List.mem_map.1 hb
    have := h.pos_lt hg
    dsimp only
    omega

/-- The identifier of a segment in use. -/
def Owner.id : Owner → List UInt8
  | .sub _ => subBlockMagic
  | .att _ => attMagic
  | .metadata (some _) => metadataMagic
  | .subDir (some _) => subDirMagic
  | .attDir (some _) => attDirMagic
  | _ => deletedMagic

theorem Seg.idAt {d : Disk} {g : Seg} (h : Holds d g.pos g.body) : idAt d g.pos = g.owner.id := by
  have key : ∃ r, g.body = g.owner.id ++ r := by
    obtain ⟨pos, alloc, ow⟩ := g
    cases ow with
    | sub a =>
      obtain ⟨z, e⟩ := a.segBytes_split pos alloc
      simp only [Seg.body, Owner.id, AddInfo.body, e, AddInfo.head, segHeader, List.append_assoc]
      exact ⟨_, rfl⟩
    | att a =>
      simp only [Seg.body, Owner.id, AddAtt.body, AddAtt.segBytes, segHeader, List.append_assoc]
      exact ⟨_, rfl⟩
    | metadata m =>
      cases m with
      | none => exact ⟨_, rfl⟩
      | some m =>
        simp only [Seg.body, Owner.id, MetaInfo.body, MetaInfo.segBytes, segHeader, List.append_assoc]
        exact ⟨_, rfl⟩
    | subDir m =>
      cases m with
      | none => exact ⟨_, rfl⟩
      | some m =>
        simp only [Seg.body, Owner.id, subDirBytes, segHeader, List.append_assoc]
        exact ⟨_, rfl⟩
    | attDir m =>
      cases m with
      | none => exact ⟨_, rfl⟩
      | some m =>
        simp only [Seg.body, Owner.id, segHeader, List.append_assoc]
        exact ⟨_, rfl⟩
    | dead => exact ⟨_, rfl⟩
  obtain ⟨r, e⟩ := key
  rw [e] at h
  have hl : g.owner.id.length = 16 := by
    unfold Owner.id
    split <;> simp
  have := h.left.read0
  rw [hl] at this
  exact this

end

/-! ## Lists of calls -/

theorem session_sublist (s : Sys) (ops : List WOp) : (session s ops).2.Sublist ops := by
  induction ops generalizing s with
  | nil => exact List.Sublist.refl _
  | cons op ops ih =>
    unfold session
    dsimp only
    split
    · exact (ih _).cons_cons _
    · exact (ih _).cons _

theorem writeDoc_sublist {dup : Bool} {d : Disk} {info : WriterInfo} {ops : List WOp} {r : Disk × List WOp} (h : writeDoc dup d info ops = some r) :
    r.2.Sublist ops := by
  unfold writeDoc at h
  dsimp only at h
  split at h
  · cases h
  · split at h
    · cases h
    · injection h with h
      subst h
      exact session_sublist _ _

theorem lastMeta_mem {ops : List WOp} {m : MetaInfo} (h : lastMeta ops = some m) : .writeMetadata m ∈ ops := by
  unfold lastMeta at h
  have := List.mem_of_getLast? h
  rw [List.mem_filterMap] at this
  obtain ⟨op, h1, h2⟩ := this
  cases op <;> simp only [reduceCtorEq, Option.some.injEq] at h2
  subst h2
  exact h1

theorem takeWhile_length_lt {α : Type} (p : α → Bool) {l : List α} {a : α} (h : a ∈ l) (hp : p a = false) : (l.takeWhile p).length < l.length := by
  induction l with
  | nil => cases h
  | cons x l ih =>
    rw [List.takeWhile_cons]
    rcases List.mem_cons.1 h with rfl | h
    · simp [hp]
    · split
      · simpa using ih h
      · simp

/-- Names end within 80 bytes after reading. -/
theorem attEntryOf_name {b : List UInt8} {e : AttEntry} (h : attEntryOf b = some e) : (cstr e.name.toList).length ≤ 79 := by
  unfold attEntryOf at h
  split at h
  · injection h with h
    subst h
    dsimp only
    unfold cstr
    have hm : (0 : UInt8) ∈ (vecOf 80 (field b 48 79)).toList := by
      rw [Vector.mem_toList_iff]
      refine Vector.mem_iff_getElem.2 ⟨79, by omega, ?_⟩
      unfold vecOf
      rw [Vector.getElem_ofFn, List.getD_eq_getElem?_getD, List.getElem?_eq_none]
      · rfl
      · simp [field]
    have := takeWhile_length_lt (fun x : UInt8 => decide (x ≠ 0)) hm (by simp)
    rw [Vector.length_toList] at this
    omega
  · cases h

theorem attEntriesOf_name {b : List UInt8} {n : Nat} {e : AttEntry} (h : e ∈ attEntriesOf b n) : (cstr e.name.toList).length ≤ 79 := by
  induction n generalizing b with
  | zero => cases h
  | succ n ih =>
    unfold attEntriesOf at h
    rcases List.mem_append.1 h with h | h
    · exact attEntryOf_name (Option.mem_toList.1 h)
    · exact ih h

theorem attachment_name_short {al : Alloc} {st s : Stream} {o : OpenOptions} {doc : Doc} (hd : openDoc al st o = .ok doc) {i : Nat} {r : Attachment}
    (h : doc.readAttachment al s i = .ok (some r)) : r.name.length ≤ 79 := by
  have hall : ∀ e ∈ doc.attachments, (cstr e.name.toList).length ≤ 79 := by
    unfold openDoc openDocWith at hd
    obtain ⟨hdr, _, hd⟩ := Except.bind_eq_ok hd
    obtain ⟨⟨es, x⟩, _, hd⟩ := Except.bind_eq_ok hd
    dsimp only at hd
    split at hd
    · obtain ⟨⟨as, y⟩, h3, hd⟩ := Except.bind_eq_ok hd
      injection hd with hd
      subst hd
      unfold readAttDir at h3
      obtain ⟨b, _, h3⟩ := Except.bind_eq_ok h3
      dsimp only at h3
      split at h3
      · cases h3
      · split at h3
        · obtain ⟨buf, _, h3⟩ := Except.bind_eq_ok h3
          injection h3 with h3
          injection h3 with h3 _
          subst h3
          intro e he
          exact attEntriesOf_name he
        · injection h3 with h3
          injection h3 with h3 _
          subst h3
          intro e he
          cases he
    · injection hd with hd
      subst hd
      intro e he
      cases he
  unfold Doc.readAttachment at h
  split at h
  · cases h
  · rename_i e he
    split at h
    · cases h
    · injection h with h
      injection h with h
      subst h
      exact hall e (List.mem_of_getElem? he)

end Verif.Czi
