import Verif.Proof.EditHeap
import Verif.Proof.WriterClose
import Verif.Proof.SubBlock

/-! The contents of a document under edit, as a relation between the object, the segments in use and what a user sees. -/

namespace Verif.Czi

open Spec

attribute [local irreducible] zeros

/-! ## Directories -/

theorem rwdir_modify {d : RWDir} (h : RWInv d) {k : Int} {e0 : Entry} (hk : d.tryGet k = some e0) (e : Entry) :
    RWInv (d.tryModify k e).1 ∧ (∀ j, (d.tryModify k e).1.tryGet j = if j = k then some e else d.tryGet j) ∧
    (d.tryModify k e).1.next = d.next ∧ (d.tryModify k e).1.isModified = true ∧ (d.tryModify k e).1.subBlks.length = d.subBlks.length := by
  have hk' : mapFind d.subBlks k = some e0 := hk
  unfold RWDir.tryModify
  rw [hk']
  dsimp only
  refine ⟨⟨mapSet_sorted _ h.sorted _ _, mapSet_keys _ _ _ _ h.below⟩, ?_, rfl, rfl, ?_⟩
  · intro j
    exact mapFind_set _ _ _ (by rw [hk']; rfl) j
  · simp [mapSet]

theorem rwdir_remove {d : RWDir} (h : RWInv d) {k : Int} {e0 : Entry} (hk : d.tryGet k = some e0) :
    ∃ d', d.tryRemove k = (d', some e0) ∧ RWInv d' ∧ (∀ j, d'.tryGet j = if j = k then none else d.tryGet j) ∧
    d'.next = d.next ∧ d'.isModified = true ∧ d'.subBlks.length ≤ d.subBlks.length := by
  have hk' : mapFind d.subBlks k = some e0 := hk
  unfold RWDir.tryRemove
  rw [hk']
  refine ⟨_, rfl, ⟨mapErase_sorted _ h.sorted _, ?_⟩, ?_, rfl, rfl, ?_⟩
  · intro p hp
    exact h.below p (List.mem_of_mem_filter hp)
  · intro j
    exact mapFind_erase _ _ j
  · exact List.length_filter_le _ _

theorem mapInsert_length {α : Type} (m : List (Int × α)) (k : Int) (v : α) : (mapInsert m k v).length ≤ m.length + 1 := by
  induction m with
  | nil => simp [mapInsert]
  | cons p r ih =>
    obtain ⟨k', v'⟩ := p
    unfold mapInsert
    split
    · simp
    · split <;> simp
      omega

theorem rwdir_tryAdd {d : RWDir} (h : RWInv d) (e : Entry) :
    (d.tryAdd e = (d, none)) ∨ ∃ d', d.tryAdd e = (d', some d.next) ∧ RWInv d' ∧
      (∀ j, d'.tryGet j = if j = d.next then some e else d.tryGet j) ∧ d'.next = d.next + 1 ∧ d'.isModified = true ∧
      d'.subBlks.length ≤ d.subBlks.length + 1 := by
  unfold RWDir.tryAdd
  split
  · exact Or.inl rfl
  · refine Or.inr ⟨_, rfl, rwInv_add h e, ?_, rfl, rfl, mapInsert_length _ _ _⟩
    intro j
    exact add_lookup h e j

/-- The keys of the attachments are sorted and below the next one. -/
structure AttInv (d : RWAtts) : Prop where
  sorted : KeysSorted d.atts
  below : ∀ p ∈ d.atts, p.1 < d.next

theorem attInv_add {d : RWAtts} (h : AttInv d) (e : AttEntry) : AttInv (d.add e) ∧
    ∀ j, (d.add e).tryGet j = if j = d.next then some e else d.tryGet j := by
  refine ⟨⟨mapInsert_sorted _ h.sorted _ _, ?_⟩, ?_⟩
  · intro p hp
    show p.1 < d.next + 1
    rcases mapInsert_keys _ _ _ p hp with h1 | h1
    · omega
    · have := h.below p h1; omega
  · intro j
    refine mapFind_insert _ h.sorted _ _ ?_ j
    exact mapFind_none_of_lt _ _ (fun p hp => by have := h.below p hp; omega)

theorem rwatt_modify {d : RWAtts} (h : AttInv d) {k : Int} {e0 : AttEntry} (hk : d.tryGet k = some e0) (e : AttEntry) :
    AttInv (d.tryModify k e) ∧ (∀ j, (d.tryModify k e).tryGet j = if j = k then some e else d.tryGet j) ∧
    (d.tryModify k e).next = d.next ∧ (d.tryModify k e).isModified = true ∧ (d.tryModify k e).atts.length = d.atts.length := by
  have hk' : mapFind d.atts k = some e0 := hk
  unfold RWAtts.tryModify
  rw [hk']
  dsimp only
  refine ⟨⟨mapSet_sorted _ h.sorted _ _, mapSet_keys _ _ _ _ h.below⟩, ?_, rfl, rfl, ?_⟩
  · intro j
    exact mapFind_set _ _ _ (by rw [hk']; rfl) j
  · simp [mapSet]

theorem rwatt_remove {d : RWAtts} (h : AttInv d) {k : Int} {e0 : AttEntry} (hk : d.tryGet k = some e0) :
    ∃ d', d.tryRemove k = (d', some e0) ∧ AttInv d' ∧ (∀ j, d'.tryGet j = if j = k then none else d.tryGet j) ∧
    d'.next = d.next ∧ d'.isModified = true ∧ d'.atts.length ≤ d.atts.length := by
  have hk' : mapFind d.atts k = some e0 := hk
  unfold RWAtts.tryRemove
  rw [hk']
  refine ⟨_, rfl, ⟨mapErase_sorted _ h.sorted _, ?_⟩, ?_, rfl, rfl, ?_⟩
  · intro p hp
    exact h.below p (List.mem_of_mem_filter hp)
  · intro j
    exact mapFind_erase _ _ j
  · exact List.length_filter_le _ _

theorem rwatt_tryAdd {d : RWAtts} (h : AttInv d) (e : AttEntry) :
    (d.tryAdd e = none) ∨ ∃ d', d.tryAdd e = some d' ∧ AttInv d' ∧
      (∀ j, d'.tryGet j = if j = d.next then some e else d.tryGet j) ∧ d'.next = d.next + 1 ∧ d'.isModified = true ∧
      d'.atts.length ≤ d.atts.length + 1 := by
  unfold RWAtts.tryAdd
  split
  · exact Or.inl rfl
  · exact Or.inr ⟨_, rfl, (attInv_add h e).1, (attInv_add h e).2, rfl, rfl, mapInsert_length _ _ _⟩

/-! ## Reading parts of a file -/

theorem Disk.read_length {d : Disk} {p n : Nat} (h : p + n ≤ d.size) : (d.read p n).length = n := by
  simp [Disk.read]
  omega

theorem Disk.field_read {d : Disk} {p n o k : Nat} (h : o + k ≤ n) (hs : p + n ≤ d.size) : field (d.read p n) o k = d.read (p + o) k := by
  apply List.ext_getElem
  · rw [field_length, Disk.read_length hs, Disk.read_length (by omega)]
    omega
  · intro i h1 h2
    simp only [field, Disk.read, List.getElem_take, List.getElem_drop, List.getElem_map, List.getElem_range, Nat.add_assoc]

theorem Holds.read_eq {d : Disk} {p : Nat} {c : List UInt8} (h : Holds d p c) {k : Nat} (hk : c.length = k) : d.read p k = c := by
  subst hk
  exact h.read0

theorem unleInt_of_lt {l : List UInt8} (hl : l.length = 8) (h : unle l < 2 ^ 63) : unleInt l = unle l := by
  unfold unleInt toSigned
  rw [hl, if_pos (by omega)]

/-- The allocated size of a segment as it is read. -/
theorem segAlloc_eq {d : Disk} {p n alloc : Nat} (h : Holds d (p + 16) (le 8 alloc)) (hn : 24 ≤ n) (hs : p + n ≤ d.size) (ha : alloc < 2 ^ 63) :
    segAlloc (d.read p n) = (alloc : Int) := by
  unfold segAlloc fieldInt
  rw [Disk.field_read (by omega) hs, h.read_eq (le_length ..)]
  exact unleInt_le8 ha

theorem allocAt_eq {d : Disk} {p alloc : Nat} (h : Holds d (p + 16) (le 8 alloc)) (hs : p + 32 ≤ d.size) (ha : alloc < 2 ^ 64) :
    allocAt d p = alloc := by
  unfold allocAt fieldNat
  rw [Disk.field_read (by omega) hs, h.read_eq (le_length ..)]
  exact unle8 ha

theorem readExact_disk {d : Disk} {p n : Nat} (h : p + n ≤ d.size) : readExact d.stream p n = .ok (d.read p n) := by
  unfold readExact Disk.stream
  rw [if_pos (Disk.read_length h)]

theorem readExact_size {d : Disk} {p n : Nat} {b : List UInt8} (h : readExact d.stream p n = .ok b) : b = d.read p n ∧ (0 < n → p + n ≤ d.size) := by
  unfold readExact Disk.stream at h
  dsimp only at h
  split at h
  · rename_i hl
    cases h
    refine ⟨rfl, fun hn => ?_⟩
    simp [Disk.read] at hl
    omega
  · cases h

theorem readSegmentHeader_eq {d : Disk} {p alloc : Nat} {magic : List UInt8} (h : Holds d (p + 16) (le 8 alloc)) (hs : p + 32 ≤ d.size)
    (ha : alloc < 2 ^ 63) (hm : d.read p 16 = magic) : ∃ u, readSegmentHeader d.stream magic p = .ok ((alloc : Int), u) := by
  refine ⟨segUsed (d.read p 32), ?_⟩
  unfold readSegmentHeader
  rw [readExact_disk hs]
  show (if segMagic (d.read p 32) ≠ magic then _ else _) = _
  rw [if_neg, segAlloc_eq h (by omega) hs ha]
  unfold segMagic
  rw [Disk.field_read (by omega) hs, Nat.add_zero, hm]
  exact fun h => h rfl

theorem readSegmentHeaderAny_eq {d : Disk} {p alloc : Nat} (h : Holds d (p + 16) (le 8 alloc)) (hs : p + 32 ≤ d.size)
    (ha : alloc < 2 ^ 63) : ∃ u, readSegmentHeaderAny d.stream p = .ok ((alloc : Int), u) := by
  refine ⟨segUsed (d.read p 32), ?_⟩
  unfold readSegmentHeaderAny
  rw [readExact_disk hs]
  show Except.ok (segAlloc (d.read p 32), _) = _
  rw [segAlloc_eq h (by omega) hs ha]

theorem rwReadEntry_eq (al : Alloc) (s : Stream) (e : Entry) : rwReadEntry al s e = readEntry al s ⟨true, true, true, true⟩ e := by
  unfold rwReadEntry readEntry
  cases readSubBlockData al s e.filePosition with
  | error _ => rfl
  | ok d => rfl

theorem readEntry_congr {al : Alloc} {s s' : Stream} {e : Entry} (o : OpenOptions)
    (h : readSubBlockData al s e.filePosition = readSubBlockData al s' e.filePosition) : readEntry al s o e = readEntry al s' o e := by
  unfold readEntry
  rw [h]

/-- A sub-block that can be read has the identifier of a sub-block. -/
theorem rwReadEntry_magic {al : Alloc} {d : Disk} {e : Entry} {sb : SubBlock} (h : rwReadEntry al d.stream e = .ok sb) :
    d.read e.filePosition 16 = subBlockMagic := by
  unfold rwReadEntry at h
  obtain ⟨v, h1, _⟩ := Except.bind_eq_ok h
  unfold readSubBlockData at h1
  obtain ⟨r, h2, _⟩ := Except.bind_eq_ok h1
  unfold readSbHeader at h2
  obtain ⟨b, h3, h4⟩ := Except.bind_eq_ok h2
  obtain ⟨rfl, hs⟩ := readExact_size h3
  split at h4
  · cases h4
  · rename_i hm
    have := Decidable.not_not.1 hm
    unfold segMagic at this
    rw [Disk.field_read (by omega) (hs (by omega)), Nat.add_zero] at this
    exact this

theorem rwReadAtt_magic {al : Alloc} {d : Disk} {e : AttEntry} {a : Attachment} (h : rwReadAtt al d.stream e = .ok a) :
    d.read e.filePosition 16 = attMagic := by
  unfold rwReadAtt at h
  cases h1 : readAttachmentData al d.stream e.filePosition with
  | error x => rw [h1] at h; cases h
  | ok v =>
    unfold readAttachmentData at h1
    obtain ⟨b, h3, h4⟩ := Except.bind_eq_ok h1
    obtain ⟨rfl, hs⟩ := readExact_size h3
    split at h4
    · cases h4
    · rename_i hm
      have := Decidable.not_not.1 hm
      unfold segMagic at this
      rw [Disk.field_read (by omega) (hs (by omega)), Nat.add_zero] at this
      exact this

/-! ## Segments written by the reader-writer -/

/-- A segment with given bytes. -/
def LSeg.ofBytes (pos alloc : Nat) (b : List UInt8) (hb : ∃ m r, m.length = 16 ∧ b = m ++ (le 8 alloc ++ r)) (h32 : 32 ≤ b.length)
    (hle : b.length ≤ 32 + alloc) : LSeg where
  pos := pos
  alloc := alloc
  good := fun d => Holds d pos b
  loc := fun d d' ha h => h.agree (ha.mono (Nat.le_refl _) (by omega))
  hdr := fun d h => by
    obtain ⟨m, r, hm, e⟩ := hb
    refine ⟨?_, by have := h.1; omega⟩
    rw [e] at h
    have := h.right.left
    rwa [hm] at this

theorem sub_body_split (a : AddInfo) (pos alloc : Nat) : ∃ m r, m.length = 16 ∧ a.body pos alloc = m ++ (le 8 alloc ++ r) :=
  Seg.body_split ⟨pos, alloc, .sub a⟩

theorem att_body_split (a : AddAtt) (pos alloc : Nat) : ∃ m r, m.length = 16 ∧ a.body pos alloc = m ++ (le 8 alloc ++ r) :=
  Seg.body_split ⟨pos, alloc, .att a⟩

theorem meta_body_split (m : MetaInfo) (alloc : Nat) : ∃ x r, x.length = 16 ∧ m.body alloc = x ++ (le 8 alloc ++ r) :=
  Seg.body_split ⟨0, alloc, .metadata (some m)⟩

theorem subDir_split (alloc : Nat) (es : List Entry) : ∃ x r, x.length = 16 ∧ subDirBytes alloc es = x ++ (le 8 alloc ++ r) :=
  Seg.body_split ⟨0, alloc, .subDir (some es)⟩

theorem attDir_split (alloc : Nat) (es : List AttEntry) :
    ∃ x r, x.length = 16 ∧ attDirSegBytes alloc es.length ++ attEntriesBytes es = x ++ (le 8 alloc ++ r) := by
  refine ⟨attDirMagic, le 8 (256 + es.length * 128) ++ (leInt 4 es.length ++ zeros 252 ++ attEntriesBytes es), attDirMagic_length, ?_⟩
  simp [attDirSegBytes, segHeader, List.append_assoc]

/-! ## What the slots show -/

/-- A sub-block: its directory entry, its segment and what a user sees. -/
def SubSlot (al : Alloc) (o : OpenOptions) : Option Entry → Option LSeg → Option SbView → Prop
  | none, none, none => True
  | some e, some g, some v => g.pos = e.filePosition ∧ EntryFits e ∧ ∃ sb sb', viewRead sb = v ∧ viewRead sb' = v ∧
      ∀ d, g.good d → readEntry al d.stream o e = .ok sb ∧ rwReadEntry al d.stream e = .ok sb'
  | _, _, _ => False

/-- An attachment. -/
def AttSlot (al : Alloc) : Option AttEntry → Option LSeg → Option Attachment → Prop
  | none, none, none => True
  | some e, some g, some v => g.pos = e.filePosition ∧ e.filePosition < 2 ^ 64 ∧ cstr (nameRead e.name).toList = cstr e.name.toList ∧ ∀ d, g.good d → rwReadAtt al d.stream e = .ok v
  | _, _, _ => False

/-- The metadata. -/
def MetaSlot (al : Alloc) : Option SegInfo → Option LSeg → Option MetaData → Prop
  | none, none, none => True
  | some i, some g, some v => g.pos = i.pos ∧ g.alloc = i.alloc ∧ ∀ d, g.good d → readMetadataData al d.stream i.pos = .ok v
  | _, _, _ => False

/-- A directory. -/
def DirSlot : Option SegInfo → Option LSeg → Prop
  | none, none => True
  | some i, some g => g.pos = i.pos ∧ g.alloc = i.alloc
  | _, _ => False

/-- The relation between the object, the segments in use and what a user sees. -/
structure Log (al : Alloc) (o : OpenOptions) (w : RWState) (c : Content) (H : Slot → Option LSeg) (N : Nat) : Prop where
  operational : w.operational = true
  dirInv : RWInv w.dir
  attInv : AttInv w.att
  nextSub : c.nextSub = w.dir.next
  nextAtt : c.nextAtt = w.att.next
  sub : ∀ k, SubSlot al o (w.dir.tryGet k) (H (.sub k)) (c.subs k)
  att : ∀ k, AttSlot al (w.att.tryGet k) (H (.att k)) (c.atts k)
  metadata : MetaSlot al w.metaSeg (H .metadata) c.metadata
  subDir : DirSlot w.subDirSeg (H .subDir)
  attDir : DirSlot w.attDirSeg (H .attDir)
  subDirRead : w.dir.isModified = false → (∀ g, H .subDir = some g → ∃ F : ParseOptions → Except RErr (List Entry × Int),
    (∀ d, g.good d → ∀ po, readSubDir al d.stream po g.pos = F po) ∧ ∃ x, F (parseOptions o) = .ok (w.dir.subBlks.map Prod.snd, x))
  attDirRead : w.att.isModified = false → (∀ g, H .attDir = some g → ∃ x, ∀ d, g.good d → readAttDir al d.stream g.pos = .ok (w.att.atts.map Prod.snd, x)) ∧
    (H .attDir = none → w.att.atts = [])
  hdrSub : w.header.subDirPos = segPos w.subDirSeg
  hdrAtt : w.header.attDirPos = segPos w.attDirSeg
  subLen : w.dir.subBlks.length ≤ N
  attLen : w.att.atts.length ≤ N

theorem SubSlot.some {al : Alloc} {o : OpenOptions} {e : Entry} {g : Option LSeg} {v : Option SbView} (h : SubSlot al o (some e) g v) :
    ∃ g' v', g = Option.some g' ∧ v = Option.some v' ∧ g'.pos = e.filePosition ∧ EntryFits e ∧ ∃ sb sb', viewRead sb = v' ∧ viewRead sb' = v' ∧
      ∀ d, g'.good d → readEntry al d.stream o e = .ok sb ∧ rwReadEntry al d.stream e = .ok sb' := by
  cases g with
  | none => exact absurd h (by cases v <;> exact id)
  | some g' =>
    cases v with
    | none => exact absurd h id
    | some v' => exact ⟨g', v', rfl, rfl, h⟩

theorem SubSlot.none {al : Alloc} {o : OpenOptions} {g : Option LSeg} {v : Option SbView} (h : SubSlot al o none g v) : g = Option.none ∧ v = Option.none := by
  cases g with
  | none => cases v with
    | none => exact ⟨rfl, rfl⟩
    | some _ => exact absurd h id
  | some _ => cases v <;> exact absurd h id

theorem AttSlot.some {al : Alloc} {e : AttEntry} {g : Option LSeg} {v : Option Attachment} (h : AttSlot al (some e) g v) :
    ∃ g' v', g = Option.some g' ∧ v = Option.some v' ∧ g'.pos = e.filePosition ∧ e.filePosition < 2 ^ 64 ∧ cstr (nameRead e.name).toList = cstr e.name.toList ∧
      ∀ d, g'.good d → rwReadAtt al d.stream e = .ok v' := by
  cases g with
  | none => exact absurd h (by cases v <;> exact id)
  | some g' =>
    cases v with
    | none => exact absurd h id
    | some v' => exact ⟨g', v', rfl, rfl, h⟩

theorem AttSlot.none {al : Alloc} {g : Option LSeg} {v : Option Attachment} (h : AttSlot al none g v) : g = Option.none ∧ v = Option.none := by
  cases g with
  | none => cases v with
    | none => exact ⟨rfl, rfl⟩
    | some _ => exact absurd h id
  | some _ => cases v <;> exact absurd h id

theorem MetaSlot.some {al : Alloc} {i : SegInfo} {g : Option LSeg} {v : Option MetaData} (h : MetaSlot al (some i) g v) :
    ∃ g' v', g = Option.some g' ∧ v = Option.some v' ∧ g'.pos = i.pos ∧ g'.alloc = i.alloc ∧
      ∀ d, g'.good d → readMetadataData al d.stream i.pos = .ok v' := by
  cases g with
  | none => exact absurd h (by cases v <;> exact id)
  | some g' =>
    cases v with
    | none => exact absurd h id
    | some v' => exact ⟨g', v', rfl, rfl, h⟩

theorem MetaSlot.none {al : Alloc} {g : Option LSeg} {v : Option MetaData} (h : MetaSlot al none g v) : g = Option.none ∧ v = Option.none := by
  cases g with
  | none => cases v with
    | none => exact ⟨rfl, rfl⟩
    | some _ => exact absurd h id
  | some _ => cases v <;> exact absurd h id

theorem DirSlot.some {i : SegInfo} {g : Option LSeg} (h : DirSlot (some i) g) : ∃ g', g = Option.some g' ∧ g'.pos = i.pos ∧ g'.alloc = i.alloc := by
  cases g with
  | none => exact absurd h id
  | some g' => exact ⟨g', rfl, h⟩

theorem DirSlot.none {g : Option LSeg} (h : DirSlot none g) : g = Option.none := by
  cases g with
  | none => rfl
  | some g' => exact absurd h id

/-! ## New items -/

/-- The segment of a sub-block that was written. -/
def subSeg (a : AddInfo) (pos alloc : Nat) (ha : SubOk a) (hc : a.check = true) (hl : a.usedSize ≤ 32 + alloc) : LSeg :=
  LSeg.ofBytes pos alloc (a.body pos alloc) (sub_body_split a pos alloc)
    (by rw [ha.body_length hc]; have := a.usedSize_ge; omega) (by rw [ha.body_length hc]; exact hl)

theorem subSlot_new {al : Alloc} (hal : ∀ n, al n = true) (o : OpenOptions) {a : AddInfo} {pos alloc : Nat} (ha : SubOk a) (hc : a.check = true)
    (hd : a.sizeData ≤ 2147483647) (hp : pos < 2 ^ 62) (hl : a.usedSize ≤ 32 + alloc) :
    SubSlot al o (some (a.entry pos)) (some (subSeg a pos alloc ha hc hl)) (some (viewAdded a)) := by
  have hne : a.body pos alloc ≠ [] := by
    have h1 := ha.body_length hc pos alloc
    have h2 := a.usedSize_ge
    intro h
    rw [h, List.length_nil] at h1
    omega
  have key : ∀ d, Holds d pos (a.body pos alloc) → _ := fun d h =>
    readSubBlockData_ok h ha.fits ha.sources hc ha.metadataSize ha.attachmentSize (by omega) hp hal
  have h0 : Holds (Disk.empty.write pos (a.body pos alloc)) pos (a.body pos alloc) := Holds.write hne
  obtain ⟨sb, h1, h2⟩ := readEntry_ok h0 ha.fits ha.sources hc ha.metadataSize ha.attachmentSize (by omega) hp hal o
  obtain ⟨sb', h1', h2'⟩ := readEntry_ok h0 ha.fits ha.sources hc ha.metadataSize ha.attachmentSize (by omega) hp hal ⟨true, true, true, true⟩
  refine ⟨rfl, ha.entryFits (by omega), sb, sb', h2, h2', ?_⟩
  intro d hdisk
  have e := (key d hdisk).trans (key _ h0).symm
  constructor
  · rw [readEntry_congr o (e := a.entry pos) e, h1]
  · rw [rwReadEntry_eq, readEntry_congr _ (e := a.entry pos) e, h1']

/-- The segment of an attachment that was written. -/
def attSeg (a : AddAtt) (pos alloc : Nat) (hl : 256 + a.bytes.length ≤ alloc) : LSeg :=
  LSeg.ofBytes pos alloc (a.body pos alloc) (att_body_split a pos alloc) (by rw [a.body_length]; omega) (by rw [a.body_length]; omega)

/-- A name with a terminator is not changed by setting its last byte to 0. -/
theorem cstr_nameRead_eq {n : Vector UInt8 80} (h : 0 ∈ n.toList) : cstr (nameRead n).toList = cstr n.toList := by
  rw [cstr_nameRead]
  apply List.take_of_length_le
  have h1 : (cstr n.toList).length < n.toList.length := takeWhile_length_lt _ h (by simp)
  have h2 : n.toList.length = 80 := by simp
  omega

theorem attSlot_new {al : Alloc} (hal : ∀ n, al n = true) {a : AddAtt} {pos alloc : Nat} (hd : a.bytes.length ≤ 2147483647) (hn : 0 ∈ a.name.toList)
    (hp : pos < 2 ^ 62) (hl : 256 + a.bytes.length ≤ alloc) :
    AttSlot al (some (a.entry pos)) (some (attSeg a pos alloc hl)) (some (attachmentOf a)) := by
  refine ⟨rfl, by show pos < _; omega, cstr_nameRead_eq hn, ?_⟩
  intro d hdisk
  have h := readAttachmentData_ok (show Holds d pos (a.body pos alloc) from hdisk) (by omega) hp hal
  unfold rwReadAtt
  rw [show (a.entry pos).filePosition = pos from rfl, h]
  rfl

/-- The segment of metadata that were written. -/
def metaSegOf (m : MetaInfo) (pos alloc : Nat) (hl : 256 + (m.xmlBytes.length + m.attBytes.length) ≤ alloc) : LSeg :=
  LSeg.ofBytes pos alloc (m.body alloc) (meta_body_split m alloc) (by rw [m.body_length]; omega) (by rw [m.body_length]; omega)

theorem metaSlot_new {al : Alloc} (hal : ∀ n, al n = true) {m : MetaInfo} {pos alloc : Nat} (hx : m.xmlBytes.length ≤ 2147483647)
    (ha : m.attBytes.length ≤ 2147483647) (b : Bool) (hp : pos < 2 ^ 62) (hl : 256 + (m.xmlBytes.length + m.attBytes.length) ≤ alloc) :
    MetaSlot al (some ⟨pos, alloc, b⟩) (some (metaSegOf m pos alloc hl)) (some (metaOf m)) := by
  refine ⟨rfl, rfl, ?_⟩
  intro d hdisk
  exact readMetadataData_ok (show Holds d pos (m.body alloc) from hdisk) (by omega) (by omega) hp hal

end Verif.Czi
