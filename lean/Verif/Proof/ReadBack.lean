import Verif.Proof.Segments
import Verif.Proof.SubBlock

/-! Reading back segments that are on the disk. -/

namespace Verif.Czi

open Spec

attribute [local irreducible] zeros

theorem zeros_eq (n : Nat) : zeros n = List.replicate n 0 := by unfold zeros; rfl

theorem payloadFails_iff {size : Nat} {src : Option Source} (h : NoNull size src) : ¬ payloadFails size src := by
  rintro ⟨s, h1, h2, h3⟩
  have := h s h1 h2
  simp only [Source.bytes] at h3
  omega

theorem payloadContent_eq {size : Nat} {src : Option Source} (h : ShortBy4096 size src) (hs : size > 0 → src.isSome) :
    payloadContent size src = payloadOf size src := by
  unfold payloadContent payloadOf
  by_cases hz : size = 0
  · subst hz
    cases src <;> simp
  · rw [if_neg hz]
    cases src with
    | none => exact absurd (hs (by omega)) (by simp)
    | some s =>
      have := h s rfl
      dsimp only [Source.content, Source.bytes]
      rw [zeroAmount_small (by omega), List.take_append, zeros_eq]
      congr 1
      rw [List.take_replicate]
      congr 1
      omega

theorem payloadOf_length (size : Nat) (src : Option Source) : (payloadOf size src).length = size := by
  unfold payloadOf
  cases src <;> simp

/-! ## Geometry -/

theorem geoLoop_append (a b : List DimEntry) : ∀ st, geoLoop (a ++ b) st = (geoLoop a st).bind (geoLoop b) := by
  induction a with
  | nil => intro st; rfl
  | cons d a ih =>
    intro st
    simp only [List.cons_append, geoLoop]
    show (geoStep st d).bind _ = ((geoStep st d).bind _).bind _
    cases geoStep st d with
    | error e => rfl
    | ok s => exact ih s

theorem geoLoop_dims (c : Coord) (ds : List Dim) : ∀ st,
    geoLoop (ds.map (fun d => dimOf (dimensionToChar d) ((c d).getD 0) 1 1)) st =
    .ok { st with coordinate := ds.foldl (fun a d => a.set d ((c d).getD 0)) st.coordinate } := by
  induction ds with
  | nil => intro st; rfl
  | cons d ds ih =>
    intro st
    have hs : geoStep st (dimOf (dimensionToChar d) ((c d).getD 0) 1 1) =
        .ok { st with coordinate := st.coordinate.set d ((c d).getD 0) } := by
      simp only [geoStep, dimKind_dim]
      simp [dimOf]
    simp only [List.map_cons, geoLoop]
    rw [hs]
    show geoLoop _ _ = _
    rw [ih]
    rfl

theorem geoLoop_dimListOf (c : Coord) (m : Option Int) (x y w h sw sh : Int) (m0 : Int) :
    geoLoop (dimListOf c m x y w h sw sh) (Geo.start (some m0)) =
    .ok ⟨c, some x, some y, some w, some h, some sw, some sh, some (m.getD m0)⟩ := by
  unfold dimListOf
  rw [geoLoop_append, geoLoop_append]
  simp only [geoLoop, geoStep, dimKind_X, dimKind_Y, bind, Except.bind]
  cases m with
  | none =>
    simp only [Option.map_none, Option.toList_none, geoLoop, geoLoop_dims, Geo.start, fold_set_eq]
    simp [dimOf]
  | some v =>
    simp only [Option.map_some, Option.toList_some, geoLoop, geoStep, dimKind_M, bind, Except.bind, geoLoop_dims,
      Geo.start, fold_set_eq]
    simp [dimOf]

/-! ## Sub-blocks -/

/-- The first 48 bytes of a sub-block segment. -/
def AddInfo.head (a : AddInfo) (alloc : Nat) : List UInt8 :=
  segHeader subBlockMagic alloc (a.usedSize - 32) ++ leInt 4 a.sizeMetadata ++ leInt 4 a.sizeAttachment ++ le 8 a.sizeData

/-- The directory entry in a sub-block segment. -/
def AddInfo.dv (a : AddInfo) (pos : Nat) : List UInt8 :=
  dvBytes (intFromPixelType a.pixelType) pos a.compression (byteFromPyramidType a.pyramidType) a.dims

theorem AddInfo.head_length (a : AddInfo) (alloc : Nat) : (a.head alloc).length = 48 := by
  unfold AddInfo.head
  simp only [List.length_append, leInt_length, le_length]
  rw [segHeader_length subBlockMagic_length]

theorem AddInfo.segBytes_split (a : AddInfo) (pos alloc : Nat) :
    ∃ z, a.segBytes pos alloc = a.head alloc ++ (a.dv pos ++ z) := by
  unfold AddInfo.segBytes AddInfo.head AddInfo.dv
  exact ⟨_, List.append_assoc _ _ _⟩

theorem AddInfo.head_fields (a : AddInfo) (alloc : Nat) (h1 : a.sizeMetadata ≤ 2147483647) (h2 : a.sizeAttachment ≤ 2147483647)
    (h3 : a.sizeData < 2 ^ 63) (r : List UInt8) :
    segMagic (a.head alloc ++ r) = subBlockMagic ∧ fieldInt (a.head alloc ++ r) 32 4 = a.sizeMetadata ∧
    fieldInt (a.head alloc ++ r) 36 4 = a.sizeAttachment ∧ fieldInt (a.head alloc ++ r) 40 8 = a.sizeData := by
  have hH := segHeader_length subBlockMagic_length alloc (a.usedSize - 32)
  have hm := fun r : List UInt8 => segMagic_segHeader (r := r) subBlockMagic_length alloc (a.usedSize - 32)
  unfold AddInfo.head fieldInt
  generalize segHeader subBlockMagic alloc (a.usedSize - 32) = H at *
  simp only [List.append_assoc]
  refine ⟨?_, ?_, ?_, ?_⟩
  · exact hm _
  · rw [field_mid hH (by simp), int4 (by unfold IsInt32; omega)]
  · rw [← List.append_assoc H, field_mid (by simp [hH]) (by simp), int4 (by unfold IsInt32; omega)]
  · rw [← List.append_assoc H, ← List.append_assoc (H ++ _), field_mid (by simp [hH]) (by simp), unleInt_le8 (by omega)]

theorem intFromPixelType_int32 (p : PixelType) : IsInt32 (intFromPixelType p) := by
  cases p <;> simp [intFromPixelType, IsInt32, intMin]

theorem AddInfo.dimCount_le (a : AddInfo) : a.dimCount ≤ 12 := by
  rw [← a.dims_length]
  exact dimList_length_le ..

theorem field_prefix {B : List UInt8} {n o k : Nat} (h : o + k ≤ n) : field (field B 0 n) o k = field B o k := by
  rw [field_field h, Nat.zero_add]

theorem readSbHeader_ok {d : Disk} {pos alloc : Nat} {a : AddInfo} (h : Holds d pos (a.segBytes pos alloc)) (hf : AddFits a)
    (hm : a.sizeMetadata ≤ 2147483647) (hat : a.sizeAttachment ≤ 2147483647) (hd : a.sizeData < 2 ^ 61) (hp : pos < 2 ^ 62) :
    ∃ b, readSbHeader d.stream pos = .ok (b, a.compression, intFromPixelType a.pixelType, some (byteFromPyramidType a.pyramidType),
        ⟨a.coordinate, some a.x, some a.y, some a.logicalWidth, some a.logicalHeight, some a.physicalWidth,
          some a.physicalHeight, some (a.mIndex.getD intMax)⟩, a.segSize - 32) ∧
      fieldInt b 32 4 = a.sizeMetadata ∧ fieldInt b 36 4 = a.sizeAttachment ∧ fieldInt b 40 8 = a.sizeData := by
  obtain ⟨z, hsplit⟩ := a.segBytes_split pos alloc
  have hc := a.dimCount_le
  have hdl := a.dims_length
  have hlen := a.segBytes_length pos alloc
  have hss : a.segSize = max 288 (80 + 20 * a.dimCount) := by unfold AddInfo.segSize; omega
  have r1 := h.readExact (o := 0) (n := 288) (by omega)
  rw [Nat.add_zero] at r1
  have r2 : 288 < a.segSize → readExact d.stream (pos + 288) (a.segSize - 288) = .ok (field (a.segBytes pos alloc) 288 (a.segSize - 288)) :=
    fun _ => h.readExact (by omega)
  obtain ⟨k1, k2, k3, k4⟩ := a.head_fields alloc hm hat (by omega) (a.dv pos ++ z)
  obtain ⟨f1, f2, f3, f4, f5, f6, f7⟩ := dvBytes_fields (py := byteFromPyramidType a.pyramidType) (intFromPixelType_int32 a.pixelType)
    (pos := pos) (by omega) hf.compression (dims := a.dims) (by omega) z
  have hdv : dvBytes (intFromPixelType a.pixelType) pos a.compression (byteFromPyramidType a.pyramidType) a.dims = a.dv pos := rfl
  rw [hdv] at f1 f2 f3 f4 f5 f6 f7
  have hcodes : List.Forall₂ DimCodes a.dims _ :=
    dimList_codes hf.coordinate hf.mIndex hf.x hf.y hf.logicalWidth hf.logicalHeight hf.physicalWidth hf.physicalHeight
  have hdims := dimEntries_flatten hcodes z
  have hgeo := geoLoop_dimListOf a.coordinate a.mIndex a.x a.y a.logicalWidth a.logicalHeight a.physicalWidth a.physicalHeight intMax
  have hh := a.head_length alloc
  rw [← hsplit] at k1 k2 k3 k4
  have sh (o k : Nat) : field (a.segBytes pos alloc) (48 + o) k = field (a.dv pos ++ z) o k := by
    rw [hsplit, field_right (by omega), hh, Nat.add_sub_cancel_left]
  have g1 : field (a.segBytes pos alloc) 48 2 = ascii "DV" := by have := sh 0 2; rw [f1] at this; exact this
  have g2 : fieldInt (a.segBytes pos alloc) 50 4 = intFromPixelType a.pixelType := by
    unfold fieldInt at f2 ⊢; have := sh 2 4; rw [this]; exact f2
  have g4 : fieldInt (a.segBytes pos alloc) 66 4 = a.compression := by
    unfold fieldInt at f4 ⊢; have := sh 18 4; rw [this]; exact f4
  have g6 : fieldInt (a.segBytes pos alloc) 76 4 = (a.dimCount : Int) := by
    unfold fieldInt at f6 ⊢; have := sh 28 4; rw [this, ← hdl]; exact f6
  have g5 : (a.segBytes pos alloc).getD 70 0 = byteFromPyramidType a.pyramidType := by
    rw [hsplit, getD_append_right (by omega), hh]; exact f5
  have g7 : (a.segBytes pos alloc).drop 80 = a.dims.flatten ++ z := by
    rw [hsplit, ← f7, List.drop_append, List.drop_eq_nil_of_le (by omega), hh, List.nil_append]
  generalize a.segBytes pos alloc = B at *
  have hrest : ∃ rest, readRest d.stream pos (48 + 20 * a.dimCount) = .ok rest ∧ field B 0 288 ++ rest = B := by
    unfold readRest
    by_cases hgt : 48 + 20 * a.dimCount + 32 > 288
    · have hsz : 48 + 20 * a.dimCount + 32 - 288 = a.segSize - 288 := by omega
      have hu : u64 ((pos : Int) + 288) = pos + 288 := by
        rw [show (pos : Int) + 288 = ((pos + 288 : Nat) : Int) by omega, u64_eq (by omega)]
      rw [if_pos hgt]
      dsimp only
      have hr := r2 (by omega)
      have hle := Disk.read_length_le d (pos + 288) (a.segSize - 288)
      rw [hsz, hu, if_neg (by have : (d.stream (pos + 288) (a.segSize - 288)).length ≤ a.segSize - 288 := hle
                              omega), hr]
      refine ⟨_, rfl, ?_⟩
      unfold field
      rw [List.drop_zero, List.take_of_length_le (l := B.drop 288) (by rw [List.length_drop]; omega), List.take_append_drop]
    · rw [if_neg hgt]
      refine ⟨[], rfl, ?_⟩
      rw [List.append_nil, field_self (by omega)]
  obtain ⟨rest, hr, hB⟩ := hrest
  refine ⟨field B 0 288, ?_, ?_, ?_, ?_⟩
  · unfold readSbHeader
    rw [r1]
    have e1 : segMagic (field B 0 288) = subBlockMagic := by
      unfold segMagic at k1 ⊢; rw [field_prefix (by decide)]; exact k1
    have e2 : field (field B 0 288) 48 2 = ascii "DV" := by rw [field_prefix (by decide)]; exact g1
    have e3 : fieldInt (field B 0 288) 76 4 = (a.dimCount : Int) := by
      unfold fieldInt at g6 ⊢; rw [field_prefix (by decide)]; exact g6
    have e4 : fieldInt (field B 0 288) 66 4 = a.compression := by
      unfold fieldInt at g4 ⊢; rw [field_prefix (by decide)]; exact g4
    have e5 : fieldInt (field B 0 288) 50 4 = intFromPixelType a.pixelType := by
      unfold fieldInt at g2 ⊢; rw [field_prefix (by decide)]; exact g2
    have e6 : (field B 0 288).getD 70 0 = byteFromPyramidType a.pyramidType := by
      rw [field_getD (by decide)]; exact g5
    have e7 : ((16 + 32 + (a.dimCount : Int) * 20) % (2 ^ 32 : Nat)).toNat = 48 + 20 * a.dimCount := by omega
    have e8 : max (48 + 20 * a.dimCount) 256 = a.segSize - 32 := by omega
    simp only [bind, Except.bind, e1, ne_eq, not_true, if_false, e2, if_true, e3]
    rw [if_neg (by omega), e7, hr]
    dsimp only
    rw [hB, g7, Int.toNat_natCast, ← hdl, hdims, hgeo]
    dsimp only
    rw [e4, e5, e6, hdl, e8]
  · unfold fieldInt at k2 ⊢; rw [field_prefix (by decide)]; exact k2
  · unfold fieldInt at k3 ⊢; rw [field_prefix (by decide)]; exact k3
  · unfold fieldInt at k4 ⊢; rw [field_prefix (by decide)]; exact k4

theorem readPayload_ok {d : Disk} {p : Nat} {c : List UInt8} (h : Holds d p c) (hc : c.length < 2 ^ 31) {alloc : Alloc}
    (ha : ∀ n, alloc n = true) :
    readPayload alloc d.stream p (c.length : Int) = .ok ⟨c.length, if c.length = 0 then none else some c⟩ := by
  unfold readPayload
  by_cases hz : c.length = 0
  · rw [if_neg (by omega), if_pos hz]
  · rw [if_pos ⟨by omega, ha _⟩, if_neg hz]
    dsimp only
    rw [Int.toNat_natCast]
    have hr : d.stream p c.length = c := h.read0
    rw [hr, i32_eq hc, if_neg (by simp)]

/-- A sub-block on the disk is read as it was given. -/
theorem readSubBlockData_ok {d : Disk} {pos alloc : Nat} {a : AddInfo} (h : Holds d pos (a.body pos alloc)) (hf : AddFits a) (hso : SourcesOk a)
    (hchk : a.check = true)
    (hm : a.sizeMetadata ≤ 2147483647) (hat : a.sizeAttachment ≤ 2147483647) (hd : a.sizeData < 2 ^ 31) (hp : pos < 2 ^ 62)
    {al : Alloc} (hal : ∀ n, al n = true) :
    readSubBlockData al d.stream pos = .ok ⟨a.compression, intFromPixelType a.pixelType, a.coordinate, some a.x, some a.y,
      some a.logicalWidth, some a.logicalHeight, some a.physicalWidth, some a.physicalHeight, some (a.mIndex.getD intMax),
      some (byteFromPyramidType a.pyramidType), payloadView a.sizeMetadata a.metadata, payloadView a.sizeData a.data,
      payloadView a.sizeAttachment a.attachment⟩ := by
  obtain ⟨c1, c2, c3⟩ := AddInfo.check_sources hchk
  have p1 := payloadContent_eq hso.metadata.2 c1
  have p2 := payloadContent_eq hso.data.2 c2
  have p3 := payloadContent_eq hso.attachment.2 c3
  have l1 := payloadOf_length a.sizeMetadata a.metadata
  have l2 := payloadOf_length a.sizeData a.data
  have l3 := payloadOf_length a.sizeAttachment a.attachment
  have hsl := a.segBytes_length pos alloc
  have hss : a.segSize = max 288 (80 + 20 * a.dimCount) := by unfold AddInfo.segSize; omega
  have hdc := a.dimCount_le
  unfold AddInfo.body at h
  rw [p1, p2, p3] at h
  obtain ⟨b, e, k1, k2, k3⟩ := readSbHeader_ok h.left.left.left hf hm hat (by omega) hp
  have q1 := h.left.left.right
  have q2 := h.left.right
  have q3 := h.right
  simp only [List.length_append] at q1 q2 q3
  rw [hsl] at q1 q2 q3
  rw [l1] at q2 q3
  rw [l2] at q3
  have r1 := readPayload_ok q1 (by omega) hal
  have r2 := readPayload_ok q2 (by omega) hal
  have r3 := readPayload_ok q3 (by omega) hal
  rw [l1] at r1
  rw [l2] at r2
  rw [l3] at r3
  unfold readSubBlockData
  rw [e]
  simp only [bind, Except.bind, k1, k2, k3]
  have u1 : u64 ((pos : Int) + ((a.segSize - 32 : Nat) : Int) + 32) = pos + a.segSize := by
    rw [show (pos : Int) + ((a.segSize - 32 : Nat) : Int) + 32 = ((pos + a.segSize : Nat) : Int) by omega, u64_eq (by omega)]
  have u2 : u64 ((pos : Int) + ((a.segSize - 32 : Nat) : Int) + 32 + (a.sizeMetadata : Int)) = pos + (a.segSize + a.sizeMetadata) := by
    rw [show (pos : Int) + ((a.segSize - 32 : Nat) : Int) + 32 + (a.sizeMetadata : Int) =
      ((pos + (a.segSize + a.sizeMetadata) : Nat) : Int) by omega, u64_eq (by omega)]
  have u3 : u64 ((pos : Int) + ((a.segSize - 32 : Nat) : Int) + 32 + (a.sizeMetadata : Int) + (a.sizeData : Int)) =
      pos + (a.segSize + a.sizeMetadata + a.sizeData) := by
    rw [show (pos : Int) + ((a.segSize - 32 : Nat) : Int) + 32 + (a.sizeMetadata : Int) + (a.sizeData : Int) =
      ((pos + (a.segSize + a.sizeMetadata + a.sizeData) : Nat) : Int) by omega, u64_eq (by omega)]
  rw [u1, u2, u3, r1, r2, r3]
  rfl

theorem Coord.compare_self (c : Coord) : c.compare c = 0 := by
  unfold Coord.compare
  exact (compareFrom_eq_zero _ _ _).2 (fun _ _ => rfl)

theorem discrepancy_none {a : AddInfo} {pos : Nat} {p1 p2 p3 : Payload} {sp : Option UInt8} :
    discrepancy (a.entry pos) ⟨a.compression, intFromPixelType a.pixelType, a.coordinate, some a.x, some a.y,
      some a.logicalWidth, some a.logicalHeight, some a.physicalWidth, some a.physicalHeight, some (a.mIndex.getD intMax),
      sp, p1, p2, p3⟩ = some false := by
  have hcmp := Coord.compare_self a.coordinate
  unfold discrepancy
  cases hm : a.mIndex <;>
    simp [AddInfo.entry, orUB, differs, hcmp, hm, isValidMindex]

theorem pixelType_rt (p : PixelType) : pixelTypeFromInt (intFromPixelType p) = p := by cases p <;> rfl

theorem pyramidType_rt (p : PyramidType) :
    pyramidTypeFromByte (byteFromPyramidType p) = if p = .Invalid then .None else p := by cases p <;> rfl

/-- A sub-block on the disk, with its directory entry, is delivered to the user as it was given. -/
theorem readEntry_ok {d : Disk} {pos alloc : Nat} {a : AddInfo} (h : Holds d pos (a.body pos alloc)) (hf : AddFits a) (hso : SourcesOk a)
    (hchk : a.check = true)
    (hm : a.sizeMetadata ≤ 2147483647) (hat : a.sizeAttachment ≤ 2147483647) (hd : a.sizeData < 2 ^ 31) (hp : pos < 2 ^ 62)
    {al : Alloc} (hal : ∀ n, al n = true) (o : OpenOptions) :
    ∃ sb, readEntry al d.stream o (a.entry pos) = .ok sb ∧ viewRead sb = viewAdded a := by
  have e := readSubBlockData_ok h hf hso hchk hm hat hd hp hal
  have hv1 : validM ((a.entry pos).mIndex) = a.mIndex.bind validM := by
    cases hm : a.mIndex <;> simp [AddInfo.entry, hm, validM, intMin]
  have hv2 : validM (a.mIndex.getD intMax) = a.mIndex.bind validM := by
    cases hm : a.mIndex <;> simp [validM, intMax]
  have hfin : ∃ sb, readEntry.finish o (a.entry pos) ⟨a.compression, intFromPixelType a.pixelType, a.coordinate, some a.x, some a.y,
      some a.logicalWidth, some a.logicalHeight, some a.physicalWidth, some a.physicalHeight, some (a.mIndex.getD intMax),
      some (byteFromPyramidType a.pyramidType), payloadView a.sizeMetadata a.metadata, payloadView a.sizeData a.data,
      payloadView a.sizeAttachment a.attachment⟩ = .ok sb ∧ viewRead sb = viewAdded a := by
    unfold readEntry.finish
    cases o.headerPrecedence with
    | true =>
      refine ⟨_, rfl, ?_⟩
      simp only [viewRead, viewAdded, pixelType_rt, pyramidType_rt, hv2]
    | false =>
      refine ⟨_, rfl, ?_⟩
      simp only [viewRead, viewAdded, infoFromEntry, hv1]
      simp only [AddInfo.entry, pixelType_rt, pyramidType_rt]
  unfold readEntry
  rw [show (a.entry pos).filePosition = pos from rfl, e]
  simp only [bind, Except.bind]
  cases o.ignoreDiscrepancy with
  | true => simpa using hfin
  | false =>
    rw [if_pos rfl, discrepancy_none]
    exact hfin

/-! ## Attachments -/

theorem readAttachmentData_ok {d : Disk} {pos alloc : Nat} {a : AddAtt} (h : Holds d pos (a.body pos alloc)) (hl : a.bytes.length < 2 ^ 31)
    (hp : pos < 2 ^ 62) {al : Alloc} (hal : ∀ n, al n = true) :
    readAttachmentData al d.stream pos = .ok ⟨a.bytes.length, if a.bytes.length = 0 then none else some a.bytes⟩ := by
  have hsl := a.segBytes_length pos alloc
  unfold AddAtt.body at h
  have r1 := h.left.readExact (o := 0) (n := 288) (by omega)
  rw [Nat.add_zero, field_self (by omega)] at r1
  have q := h.right
  rw [hsl] at q
  unfold readAttachmentData
  rw [r1]
  have e1 : segMagic (a.segBytes pos alloc) = attMagic := by
    unfold AddAtt.segBytes
    simp only [List.append_assoc]
    exact segMagic_segHeader attMagic_length _ _
  have e2 : fieldInt (a.segBytes pos alloc) 32 8 = (a.bytes.length : Int) := by
    unfold AddAtt.segBytes fieldInt
    simp only [List.append_assoc]
    rw [field_mid (segHeader_length attMagic_length _ _) (by simp), unleInt_le8 (by omega)]
  have u : u64 ((pos : Int) + 288) = pos + 288 := by
    rw [show (pos : Int) + 288 = ((pos + 288 : Nat) : Int) by omega, u64_eq (by omega)]
  simp only [bind, Except.bind, e1, ne_eq, not_true, if_false, e2, u]
  exact readPayload_ok q hl hal

/-- The name as delivered by the reader: the last of the 80 bytes is forced to zero. -/
def nameRead (n : Vector UInt8 80) : Vector UInt8 80 := vecOf 80 (n.toList.take 79)

/-- An attachment entry as delivered by the reader. -/
def AttEntry.read (e : AttEntry) : AttEntry := ⟨e.filePosition, e.guid, e.contentFileType, nameRead e.name⟩

theorem attEntryOf_attEntryBytes {e : AttEntry} (h : e.filePosition < 2 ^ 64) (r : List UInt8) :
    attEntryOf (attEntryBytes e.filePosition e.guid e.contentFileType e.name ++ r) = some e.read := by
  let A := ascii "A1"
  have eq : attEntryBytes e.filePosition e.guid e.contentFileType e.name ++ r =
    A ++ (zeros 10 ++ (le 8 e.filePosition ++ (zeros 4 ++ (guidBytes e.guid ++ (e.contentFileType.toList ++ (e.name.toList ++ r)))))) := by
    simp only [attEntryBytes, List.append_assoc, A]
  have hA : A.length = 2 := rfl
  rw [eq]
  have hg := guidOf_guidBytes e.guid
  have hgl := guidBytes_length e.guid
  have hcl : e.contentFileType.toList.length = 8 := by simp
  have hnl : e.name.toList.length = 80 := by simp
  have hv := vecOf_toList e.contentFileType
  unfold attEntryOf AttEntry.read nameRead
  generalize guidBytes e.guid = G at *
  generalize e.contentFileType.toList = C at *
  generalize e.name.toList = N at *
  have f0 : field (A ++ (zeros 10 ++ (le 8 e.filePosition ++ (zeros 4 ++ (G ++ (C ++ (N ++ r))))))) 0 2 = A :=
    field_mid (a := []) rfl hA
  have f1 : fieldNat (A ++ (zeros 10 ++ (le 8 e.filePosition ++ (zeros 4 ++ (G ++ (C ++ (N ++ r))))))) 12 8 = e.filePosition := by
    unfold fieldNat
    rw [← List.append_assoc A, field_mid (by simp [hA]) (by simp), unle8 h]
  have f2 : field (A ++ (zeros 10 ++ (le 8 e.filePosition ++ (zeros 4 ++ (G ++ (C ++ (N ++ r))))))) 24 16 = G := by
    rw [← List.append_assoc A, ← List.append_assoc (A ++ _), ← List.append_assoc (A ++ _ ++ _), field_mid (by simp [hA]) hgl]
  have f3 : field (A ++ (zeros 10 ++ (le 8 e.filePosition ++ (zeros 4 ++ (G ++ (C ++ (N ++ r))))))) 40 8 = C := by
    rw [← List.append_assoc A, ← List.append_assoc (A ++ _), ← List.append_assoc (A ++ _ ++ _),
      ← List.append_assoc (A ++ _ ++ _ ++ _), field_mid (by simp [hA, hgl]) hcl]
  have f4 : field (A ++ (zeros 10 ++ (le 8 e.filePosition ++ (zeros 4 ++ (G ++ (C ++ (N ++ r))))))) 48 79 = N.take 79 := by
    rw [← List.append_assoc A, ← List.append_assoc (A ++ _), ← List.append_assoc (A ++ _ ++ _),
      ← List.append_assoc (A ++ _ ++ _ ++ _), ← List.append_assoc (A ++ _ ++ _ ++ _ ++ _), field_right (by simp [hA, hgl, hcl]),
      field_left (by simp [hA, hgl, hcl, hnl])]
    simp [hA, hgl, hcl, field]
  rw [if_pos f0, f1, f2, f3, f4, hg, hv]

theorem attEntriesOf_bytes (es : List AttEntry) (h : ∀ e ∈ es, e.filePosition < 2 ^ 64) (r : List UInt8) :
    attEntriesOf (attEntriesBytes es ++ r) es.length = es.map AttEntry.read := by
  induction es with
  | nil => rfl
  | cons e es ih =>
    have e1 : attEntriesBytes (e :: es) ++ r = attEntryBytes e.filePosition e.guid e.contentFileType e.name ++ (attEntriesBytes es ++ r) := by
      simp [attEntriesBytes]
    rw [e1, List.length_cons, attEntriesOf, attEntryOf_attEntryBytes (h e (List.mem_cons_self ..)),
      List.drop_append_of_le_length (by simp), List.drop_eq_nil_of_le (by simp), List.nil_append,
      ih (fun x hx => h x (List.mem_cons_of_mem _ hx))]
    rfl

/-! ## Metadata -/

theorem readMetadataData_ok {d : Disk} {pos alloc : Nat} {m : MetaInfo} (h : Holds d pos (m.body alloc)) (hx : m.xmlBytes.length < 2 ^ 31)
    (ha : m.attBytes.length < 2 ^ 31) (hp : pos < 2 ^ 62) {al : Alloc} (hal : ∀ n, al n = true) :
    readMetadataData al d.stream pos = .ok ⟨⟨m.xmlBytes.length, if m.xmlBytes.length = 0 then none else some m.xmlBytes⟩,
      ⟨m.attBytes.length, if m.attBytes.length = 0 then none else some m.attBytes⟩⟩ := by
  have hsl := m.segBytes_length alloc
  unfold MetaInfo.body at h
  have r1 := h.left.left.readExact (o := 0) (n := 288) (by omega)
  rw [Nat.add_zero, field_self (by omega)] at r1
  have q1 := h.left.right
  have q2 := h.right
  rw [List.length_append] at q2
  rw [hsl] at q1 q2
  have e1 : segMagic (m.segBytes alloc) = metadataMagic := by
    unfold MetaInfo.segBytes
    simp only [List.append_assoc]
    exact segMagic_segHeader metadataMagic_length _ _
  have sg (n : Nat) (hn : n < 2 ^ 31) : toSigned 4 (n % 2 ^ 32) = n := by
    unfold toSigned
    rw [Nat.mod_eq_of_lt (by omega), if_pos (by omega)]
  have e2 : fieldInt (m.segBytes alloc) 32 4 = (m.xmlBytes.length : Int) := by
    unfold MetaInfo.segBytes fieldInt
    simp only [List.append_assoc]
    rw [field_mid (segHeader_length metadataMagic_length _ _) (by simp), sg _ hx, int4 (by unfold IsInt32; omega)]
  have e3 : fieldInt (m.segBytes alloc) 36 4 = (m.attBytes.length : Int) := by
    unfold MetaInfo.segBytes fieldInt
    simp only [List.append_assoc]
    rw [← List.append_assoc (segHeader _ _ _), field_mid (by rw [List.length_append, segHeader_length metadataMagic_length]; simp) (by simp),
      sg _ ha, int4 (by unfold IsInt32; omega)]
  unfold readMetadataData
  rw [r1]
  have u : u64 ((pos : Int) + 288) = pos + 288 := by
    rw [show (pos : Int) + 288 = ((pos + 288 : Nat) : Int) by omega, u64_eq (by omega)]
  have u2 : u64 ((pos : Int) + 288 + (m.xmlBytes.length : Int)) = pos + (288 + m.xmlBytes.length) := by
    rw [show (pos : Int) + 288 + (m.xmlBytes.length : Int) = ((pos + (288 + m.xmlBytes.length) : Nat) : Int) by omega, u64_eq (by omega)]
  simp only [bind, Except.bind, e1, ne_eq, not_true, if_false, e2, e3, u, u2]
  rw [readPayload_ok q1 hx hal, readPayload_ok q2 ha hal]

/-! ## Directories -/

theorem readSubDir_ok {d : Disk} {pos alloc : Nat} {es : List Entry} (h : Holds d pos (subDirBytes alloc es)) (hes : ∀ e ∈ es, EntryFits e)
    (hn : es.length < 2 ^ 31) (hl : (es.map entryBytes).flatten.length < 2 ^ 61) (hp : pos < 2 ^ 62) (hall : alloc < 2 ^ 63)
    {al : Alloc} (hal : ∀ n, al n = true) (o : ParseOptions) :
    readSubDir al d.stream o pos = .ok (es, (alloc : Int)) := by
  unfold subDirBytes at h
  generalize hF : (es.map entryBytes).flatten = F at *
  have hH := segHeader_length subDirMagic_length alloc (128 + F.length)
  have q := h.right
  have hpre : (segHeader subDirMagic alloc (128 + F.length) ++ leInt 4 es.length ++ zeros 124).length = 160 := by
    simp [hH]
  rw [hpre] at q
  have r1 := h.left.readExact (o := 0) (n := 160) (by omega)
  rw [Nat.add_zero, field_self (by omega)] at r1
  unfold readSubDir
  rw [r1]
  have e1 : segMagic (segHeader subDirMagic alloc (128 + F.length) ++ leInt 4 es.length ++ zeros 124) = subDirMagic := by
    rw [List.append_assoc]
    exact segMagic_segHeader subDirMagic_length _ _
  have e2 : fieldNat (segHeader subDirMagic alloc (128 + F.length) ++ leInt 4 es.length ++ zeros 124) 24 8 = 128 + F.length := by
    unfold fieldNat segHeader
    simp only [List.append_assoc]
    rw [← List.append_assoc subDirMagic, field_mid (by simp) (by simp), unle8 (by omega)]
  have e3 : fieldInt (segHeader subDirMagic alloc (128 + F.length) ++ leInt 4 es.length ++ zeros 124) 32 4 = (es.length : Int) := by
    unfold fieldInt
    rw [List.append_assoc, field_mid hH (by simp), int4 (by unfold IsInt32; omega)]
  have e4 : segAlloc (segHeader subDirMagic alloc (128 + F.length) ++ leInt 4 es.length ++ zeros 124) = (alloc : Int) := by
    unfold segAlloc fieldInt segHeader
    simp only [List.append_assoc]
    rw [field_mid (by simp) (by simp), unleInt_le8 hall]
  have u : u64 ((pos : Int) + 160) = pos + 160 := by
    rw [show (pos : Int) + 160 = ((pos + 160 : Nat) : Int) by omega, u64_eq (by omega)]
  simp only [bind, Except.bind, e1, ne_eq, not_true, if_false, e2, e3, e4]
  rw [if_neg (show ¬ 128 + F.length = 0 by omega), if_neg (by omega), Nat.add_sub_cancel_left, u]
  have r2 : readMalloc al d.stream (pos + 160) F.length = .ok F := by
    unfold readMalloc
    rw [if_neg (by simp [hal])]
    have := q.readExact (o := 0) (n := F.length) (by omega)
    rwa [Nat.add_zero, field_self rfl] at this
  rw [r2]
  dsimp only
  have hparse := parseEntries_all o es hes [] [] (by rw [hF]; simp; omega)
  rw [hF, List.nil_append, List.append_nil] at hparse
  rw [Int.toNat_natCast, show (0 : Nat) = ([] : List UInt8).length from rfl, hparse]

/-- The attachment directory can be read whenever the first fields of its header and enough bytes are there. -/
theorem readAttDir_some {d : Disk} {pos alloc used n : Nat} (h : Holds d pos (segHeader attDirMagic alloc used ++ leInt 4 n))
    (hn : n < 2 ^ 31) (hsz : pos + 288 + 128 * n ≤ d.size) (hp : pos < 2 ^ 62)
    {al : Alloc} (hal : ∀ n, al n = true) :
    ∃ as x, readAttDir al d.stream pos = .ok (as, x) ∧
      (0 < n → as = attEntriesOf (d.read (pos + 288) (128 * n)) n) ∧ (n = 0 → as = []) := by
  have hH := segHeader_length attDirMagic_length alloc used
  have hlen (o k : Nat) (hk : o + k ≤ d.size) : (d.read o k).length = k := by simp [Disk.read]; omega
  have hpre : field (d.read pos 288) 0 36 = segHeader attDirMagic alloc used ++ leInt 4 n := by
    have h0 := h.read0
    have hc : (segHeader attDirMagic alloc used ++ leInt 4 n).length = 36 := by simp [hH]
    rw [hc] at h0
    rw [← h0]
    have hs := h.1
    simp only [field, Disk.read, List.drop_zero, ← List.map_take, List.take_range]
    congr 2
    omega
  have k1 : segMagic (d.read pos 288) = attDirMagic := by
    unfold segMagic
    rw [← field_prefix (n := 36) (by decide), hpre]
    exact segMagic_segHeader attDirMagic_length _ _
  have k2 : fieldInt (d.read pos 288) 32 4 = (n : Int) := by
    unfold fieldInt
    rw [← field_prefix (n := 36) (by decide), hpre]
    have := field_mid (a := segHeader attDirMagic alloc used) (b := leInt 4 (n : Int)) (c := []) hH (leInt_length ..)
    rw [List.append_nil] at this
    rw [this, int4 (by unfold IsInt32; omega)]
  have r1 : readExact d.stream pos 288 = .ok (d.read pos 288) := by
    unfold readExact Disk.stream
    rw [if_pos (hlen _ _ (by omega))]
  have u : u64 ((pos : Int) + 288) = pos + 288 := by
    rw [show (pos : Int) + 288 = ((pos + 288 : Nat) : Int) by omega, u64_eq (by omega)]
  unfold readAttDir
  rw [r1]
  simp only [bind, Except.bind, k1, ne_eq, not_true, if_false, k2]
  by_cases hz : n = 0
  · subst hz
    rw [if_neg (by simp)]
    exact ⟨_, _, rfl, by simp, by simp⟩
  · rw [if_pos (by omega), u, Int.toNat_natCast, Nat.mul_comm n 128]
    have r2 : readMalloc al d.stream (pos + 288) (128 * n) = .ok (d.read (pos + 288) (128 * n)) := by
      unfold readMalloc
      rw [if_neg (by simp [hal])]
      unfold readExact Disk.stream
      rw [if_pos (hlen _ _ (by omega))]
    rw [r2]
    exact ⟨_, _, rfl, fun _ => rfl, fun h => absurd h hz⟩

theorem readAttDir_ok {d : Disk} {pos alloc used : Nat} {es : List AttEntry}
    (h : Holds d pos (segHeader attDirMagic alloc used ++ leInt 4 es.length)) (h2 : Holds d (pos + 288) (attEntriesBytes es))
    (hn : es.length < 2 ^ 31) (hes : ∀ e ∈ es, e.filePosition < 2 ^ 64) (hp : pos < 2 ^ 62)
    {al : Alloc} (hal : ∀ n, al n = true) :
    ∃ x, readAttDir al d.stream pos = .ok (es.map AttEntry.read, x) := by
  have hl := attEntriesBytes_length es
  obtain ⟨as, x, e, k1, k2⟩ := readAttDir_some h hn (by have := h2.1; omega) hp hal
  refine ⟨x, ?_⟩
  rw [e]
  by_cases hz : es.length = 0
  · have : es = [] := List.length_eq_zero_iff.1 hz
    subst this
    rw [k2 rfl]
    rfl
  · rw [k1 (by omega)]
    have hr := h2.read0
    rw [hl] at hr
    have := attEntriesOf_bytes es hes []
    rw [List.append_nil] at this
    rw [hr, this]

/-- The header is read as written. -/
theorem readHeader_ok {d : Disk} {g : Guid} {a b c : Nat} (h : Holds d 0 (fileHeader g a b c)) (ha : a < 2 ^ 64) (hb : b < 2 ^ 64)
    (hc : c < 2 ^ 64) : readHeader d.stream = .ok ⟨1, 0, g, a, b, c⟩ := by
  have r1 := h.readExact (o := 0) (n := 544) (by simp)
  rw [Nat.add_zero, field_self (by simp)] at r1
  unfold readHeader
  rw [r1]
  have e1 : segMagic (fileHeader g a b c) = fileMagic := by
    unfold fileHeader
    simp only [List.append_assoc]
    exact segMagic_segHeader fileMagic_length _ _
  simp only [bind, Except.bind, e1, if_true, headerOf_fileHeader g ha hb hc]

end Verif.Czi
