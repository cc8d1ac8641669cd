import Verif.Proof.Zeroes
import Verif.Proof.Entries

/-! What the segment-writing functions write. -/

namespace Verif.Czi

attribute [local irreducible] zeros

theorem Plan.bind_ok {α β : Type} (ws : List Write) (a : α) (f : α → Plan β) :
    (Bind.bind (⟨ws, .ok a⟩ : Plan α) f : Plan β) = ⟨ws ++ (f a).writes, (f a).result⟩ := rfl

theorem Plan.bind_error {α β : Type} (ws : List Write) (e : WErr) (f : α → Plan β) :
    (Bind.bind (⟨ws, .error e⟩ : Plan α) f : Plan β) = ⟨ws, .error e⟩ := rfl

theorem Plan.bind_eq {α β : Type} {p : Plan α} {ws : List Write} {a : α} {f : α → Plan β} {vs : List Write} {r : Except WErr β}
    (h : p = ⟨ws, .ok a⟩) (h2 : f a = ⟨vs, r⟩) : (p >>= f) = ⟨ws ++ vs, r⟩ := by
  subst h
  rw [Plan.bind_ok, h2]

theorem Plan.bind_err_eq {α β : Type} {p : Plan α} {ws : List Write} {e : WErr} {f : α → Plan β}
    (h : p = ⟨ws, .error e⟩) : (p >>= f) = ⟨ws, .error e⟩ := by
  subst h
  rfl

theorem Plan.pure_eq {α : Type} (a : α) : (Pure.pure a : Plan α) = ⟨[], .ok a⟩ := rfl

theorem Plan.write_eq (p : Nat) (l : List UInt8) : Plan.write p l = ⟨[(p, l)], .ok ()⟩ := rfl

theorem Plan.throw_eq {α : Type} (e : WErr) : (Plan.throw e : Plan α) = ⟨[], .error e⟩ := rfl

/-! ## Payloads -/

/-- The bytes written for a payload of `size` bytes, if no null pointer is delivered. -/
def Source.content (s : Source) (size : Nat) : List UInt8 :=
  s.bytes.take size ++ zeros (zeroAmount (size - s.bytes.length))

theorem zeroAmount_zero : zeroAmount 0 = 0 := zeroAmount_small (by omega)

theorem payloadLoop_spec (filePos size : Nat) (null : Bool) (hs : size < 2 ^ 63) : ∀ (chunks : List (List UInt8)) (offset : Nat), offset < size →
    ((null = true ∧ offset + chunks.flatten.length < size) →
      ∃ ws, payloadLoop filePos size null offset chunks = ⟨ws, .error .getDataCall⟩ ∧
        Contig (filePos + offset) ws chunks.flatten) ∧
    (¬(null = true ∧ offset + chunks.flatten.length < size) →
      ∃ ws, payloadLoop filePos size null offset chunks =
          ⟨ws, .ok (offset + (chunks.flatten.take (size - offset) ++
            zeros (zeroAmount (size - offset - chunks.flatten.length))).length)⟩ ∧
        Contig (filePos + offset) ws (chunks.flatten.take (size - offset) ++
            zeros (zeroAmount (size - offset - chunks.flatten.length)))) := by
  intro chunks
  induction chunks with
  | nil =>
    intro offset ho
    simp only [payloadLoop]
    cases null with
    | true =>
      simp only [List.flatten_nil, List.length_nil, Nat.add_zero, true_and]
      exact ⟨fun _ => ⟨[], rfl, Contig.nil _⟩, fun h => absurd ho h⟩
    | false =>
      simp only [Bool.false_eq_true, false_and, if_false, if_pos ho, not_false_eq_true]
      refine ⟨fun h => h.elim, fun _ => ?_⟩
      obtain ⟨ws, e, h⟩ := writeZeroes_spec (filePos + offset) (size - offset) (by omega)
      refine ⟨ws, ?_, ?_⟩
      · rw [e, Plan.bind_ok, Plan.pure_eq]
        simp
      · simpa using h
  | cons c cs ih =>
    intro offset ho
    simp only [payloadLoop]
    rw [Plan.write_eq, Plan.bind_ok]
    by_cases hge : offset + min (size - offset) c.length ≥ size
    · rw [if_pos hge, Plan.pure_eq]
      have hmin : min (size - offset) c.length = size - offset := by omega
      have htk : (c :: cs).flatten.take (size - offset) = c.take (size - offset) := by
        rw [List.flatten_cons, List.take_append_of_le_length (by omega)]
      have hz : size - offset - (c :: cs).flatten.length = 0 := by
        rw [List.flatten_cons, List.length_append]; omega
      refine ⟨fun h => ?_, fun _ => ?_⟩
      · exfalso
        rw [List.flatten_cons, List.length_append] at h
        omega
      · rw [htk, hz, zeroAmount_zero, zeros_zero, hmin]
        simp only [List.append_nil, List.length_take]
        refine ⟨[(filePos + offset, c.take (size - offset))], ?_, Contig.single _ _⟩
        rw [Nat.min_eq_left (by omega)]
    · rw [if_neg hge]
      have hmin : min (size - offset) c.length = c.length := by omega
      have htk : (c :: cs).flatten.take (size - offset) = c ++ cs.flatten.take (size - (offset + c.length)) := by
        rw [List.flatten_cons, List.take_append, List.take_of_length_le (by omega)]
        congr 2
        omega
      have hz : size - offset - (c :: cs).flatten.length = size - (offset + c.length) - cs.flatten.length := by
        rw [List.flatten_cons, List.length_append]; omega
      have hl : offset + (c :: cs).flatten.length = (offset + c.length) + cs.flatten.length := by
        rw [List.flatten_cons, List.length_append]; omega
      rw [hmin, List.take_of_length_le (Nat.le_refl _), htk, hz, hl]
      obtain ⟨h1, h2⟩ := ih (offset + c.length) (by omega)
      constructor
      · intro h
        obtain ⟨ws, e, hc⟩ := h1 h
        refine ⟨(filePos + offset, c) :: ws, by rw [e]; rfl, ?_⟩
        rw [List.flatten_cons]
        exact Contig.cons (by rw [Nat.add_assoc]; exact hc)
      · intro h
        obtain ⟨ws, e, hc⟩ := h2 h
        refine ⟨(filePos + offset, c) :: ws, ?_, ?_⟩
        · rw [e]
          simp only [List.singleton_append, List.length_append]
          congr 2
          omega
        · rw [List.append_assoc]
          exact Contig.cons (by rw [Nat.add_assoc]; exact hc)

/-- The bytes written for a payload. -/
def payloadContent (size : Nat) (src : Option Source) : List UInt8 :=
  if size = 0 then [] else match src with
    | some s => s.content size
    | none => []

/-- The callback delivers a null pointer before the announced size is reached. -/
def payloadFails (size : Nat) (src : Option Source) : Prop :=
  ∃ s, src = some s ∧ s.null = true ∧ s.bytes.length < size

theorem writePayload_ok (filePos size : Nat) (src : Option Source) (hs : size < 2 ^ 63) (h0 : size > 0 → src.isSome)
    (hf : ¬ payloadFails size src) : ∃ ws, writePayload filePos size src = ⟨ws, .ok (payloadContent size src).length⟩ ∧
      Contig filePos ws (payloadContent size src) := by
  unfold writePayload payloadContent
  by_cases hz : size = 0
  · subst hz
    exact ⟨[], rfl, Contig.nil _⟩
  · rw [if_pos (by omega), if_neg hz]
    cases src with
    | none => exact absurd (h0 (by omega)) (by simp)
    | some s =>
      have := (payloadLoop_spec filePos size s.null hs s.chunks 0 (by omega)).2
        (fun h => hf ⟨s, rfl, h.1, by simpa [Source.bytes] using h.2⟩)
      simpa [Source.content, Source.bytes] using this

theorem writePayload_fail (filePos size : Nat) (src : Option Source) (hs : size < 2 ^ 63)
    (hf : payloadFails size src) : ∃ ws, writePayload filePos size src = ⟨ws, .error .getDataCall⟩ ∧
      ∃ c, Contig filePos ws c ∧ c.length < size := by
  obtain ⟨s, rfl, h1, h2⟩ := hf
  unfold writePayload
  rw [if_pos (by omega)]
  obtain ⟨ws, e, h⟩ := (payloadLoop_spec filePos size s.null hs s.chunks 0 (by omega)).1
    ⟨h1, by simpa [Source.bytes] using h2⟩
  exact ⟨ws, e, s.chunks.flatten, by simpa using h, h2⟩

/-! ## Sub-blocks -/

theorem AddInfo.dims_length (a : AddInfo) : a.dims.length = a.dimCount := dimList_length _ _ _ _ _ _ _ _

theorem AddInfo.dims_each (a : AddInfo) : ∀ b ∈ a.dims, b.length = 20 := dimList_each _ _ _ _ _ _ _ _

theorem AddInfo.segBytes_length (a : AddInfo) (pos alloc : Nat) : (a.segBytes pos alloc).length = a.segSize := by
  unfold AddInfo.segBytes
  simp only [List.length_append, zeros_length]
  rw [segHeader_length subBlockMagic_length, leInt_length, leInt_length, le_length, dvBytes_length _ _ _ _ a.dims_each,
    a.dims_length]
  unfold AddInfo.segSize
  omega

/-- The meaningful bytes of a sub-block segment. -/
def AddInfo.body (a : AddInfo) (pos alloc : Nat) : List UInt8 :=
  a.segBytes pos alloc ++ payloadContent a.sizeMetadata a.metadata ++ payloadContent a.sizeData a.data ++
  payloadContent a.sizeAttachment a.attachment

/-- The arguments are such that the segment can be written. -/
structure AddInfo.Writable (a : AddInfo) : Prop where
  check : a.check = true
  metadataSize : a.sizeMetadata ≤ 2147483647
  attachmentSize : a.sizeAttachment ≤ 2147483647
  dataSize : a.sizeData < 2 ^ 61
  metadata : ¬ payloadFails a.sizeMetadata a.metadata
  data : ¬ payloadFails a.sizeData a.data
  attachment : ¬ payloadFails a.sizeAttachment a.attachment

theorem AddInfo.check_sources {a : AddInfo} (h : a.check = true) : (a.sizeMetadata > 0 → a.metadata.isSome) ∧
    (a.sizeData > 0 → a.data.isSome) ∧ (a.sizeAttachment > 0 → a.attachment.isSome) := by
  unfold AddInfo.check at h
  simp only [Bool.and_eq_true, Bool.not_eq_true', Bool.and_eq_false_imp, decide_eq_true_eq] at h
  obtain ⟨⟨⟨⟨h1, h2⟩, h3⟩, _⟩, _⟩ := h
  refine ⟨fun h => ?_, fun h => ?_, fun h => ?_⟩
  · have := h2 h; cases hh : a.metadata <;> simp_all
  · have := h1 h; cases hh : a.data <;> simp_all
  · have := h3 h; cases hh : a.attachment <;> simp_all

theorem writeSubBlock_ok (pos : Nat) (specified : Option Nat) (a : AddInfo) (alloc : Nat) (hw : a.Writable) (hal : alloc < 2 ^ 62)
    (hs : (specified = none ∧ alloc = align a.usedSize - 32) ∨ (specified = some alloc ∧ align a.usedSize - 32 ≤ alloc)) :
    ∃ ws, writeSubBlock pos specified a =
        ⟨ws, .ok (a.body pos alloc ++ zeros (zeroAmount (alloc + 32 - (a.body pos alloc).length))).length⟩ ∧
      Contig pos ws (a.body pos alloc ++ zeros (zeroAmount (alloc + 32 - (a.body pos alloc).length))) := by
  obtain ⟨c1, c2, c3⟩ := AddInfo.check_sources hw.check
  have hdl := hw.dataSize
  have hml := hw.metadataSize
  have hatl := hw.attachmentSize
  obtain ⟨w1, e1, k1⟩ := writePayload_ok (pos + a.segSize) a.sizeMetadata a.metadata (by omega) c1 hw.metadata
  obtain ⟨w2, e2, k2⟩ := writePayload_ok (pos + (a.segSize + (payloadContent a.sizeMetadata a.metadata).length))
    a.sizeData a.data (by omega) c2 hw.data
  obtain ⟨w3, e3, k3⟩ := writePayload_ok (pos + (a.segSize + (payloadContent a.sizeMetadata a.metadata).length +
    (payloadContent a.sizeData a.data).length)) a.sizeAttachment a.attachment (by omega) c3 hw.attachment
  have hbl : (a.body pos alloc).length = a.segSize + (payloadContent a.sizeMetadata a.metadata).length +
    (payloadContent a.sizeData a.data).length + (payloadContent a.sizeAttachment a.attachment).length := by
    simp only [AddInfo.body, List.length_append, AddInfo.segBytes_length]
  have hcontig : Contig pos ([(pos, a.segBytes pos alloc)] ++ w1 ++ w2 ++ w3) (a.body pos alloc) := by
    unfold AddInfo.body
    refine Contig.append (Contig.append (Contig.append (Contig.single _ _) ?_) ?_) ?_
    · rw [AddInfo.segBytes_length]; exact k1
    · rw [List.length_append, AddInfo.segBytes_length]; exact k2
    · rw [List.length_append, List.length_append, AddInfo.segBytes_length]; exact k3
  have hcore : ∃ ws, (do
      Plan.write pos (a.segBytes pos alloc)
      let n1 := a.segSize
      let m ← writePayload (pos + n1) a.sizeMetadata a.metadata
      let n2 := n1 + m
      let d ← writePayload (pos + n2) a.sizeData a.data
      let n3 := n2 + d
      let t ← writePayload (pos + n3) a.sizeAttachment a.attachment
      let n4 := n3 + t
      if n4 < alloc + 32 then do
        let z ← writeZeroes (pos + n4) (alloc + 32 - n4)
        return n4 + z
      else return n4 : Plan Nat) = ⟨ws, .ok (a.body pos alloc ++ zeros (zeroAmount (alloc + 32 - (a.body pos alloc).length))).length⟩ ∧
      Contig pos ws (a.body pos alloc ++ zeros (zeroAmount (alloc + 32 - (a.body pos alloc).length))) := by
    dsimp only
    rw [Plan.write_eq, Plan.bind_ok, e1, Plan.bind_ok, e2, Plan.bind_ok, e3, Plan.bind_ok]
    rw [← hbl]
    by_cases hz : (a.body pos alloc).length < alloc + 32
    · obtain ⟨wz, ez, kz⟩ := writeZeroes_spec (pos + (a.body pos alloc).length) (alloc + 32 - (a.body pos alloc).length) (by omega)
      rw [if_pos hz, ez, Plan.bind_ok, Plan.pure_eq]
      refine ⟨[(pos, a.segBytes pos alloc)] ++ w1 ++ w2 ++ w3 ++ wz, ?_, Contig.append hcontig kz⟩
      simp
    · rw [if_neg hz, Plan.pure_eq]
      have e0 : alloc + 32 - (a.body pos alloc).length = 0 := by omega
      rw [e0, zeroAmount_zero, zeros_zero]
      simp only [List.append_nil]
      refine ⟨[(pos, a.segBytes pos alloc)] ++ w1 ++ w2 ++ w3, ?_, hcontig⟩
      simp
  unfold writeSubBlock
  rw [if_neg (by omega), if_neg (by omega)]
  obtain ⟨ws, e, hc⟩ := hcore
  refine ⟨ws, ?_, hc⟩
  rcases hs with ⟨rfl, h2⟩ | ⟨rfl, h2⟩
  · dsimp only
    rw [← h2]
    exact e
  · dsimp only
    rw [if_neg (by omega)]
    exact e

/-! ## Attachments -/

theorem AddAtt.segBytes_length (a : AddAtt) (pos alloc : Nat) : (a.segBytes pos alloc).length = 288 := by
  unfold AddAtt.segBytes
  simp only [List.length_append, zeros_length, attEntryBytes_length, le_length]
  rw [segHeader_length attMagic_length]

/-- The meaningful bytes of an attachment segment. -/
def AddAtt.body (a : AddAtt) (pos alloc : Nat) : List UInt8 := a.segBytes pos alloc ++ a.bytes

theorem AddAtt.body_length (a : AddAtt) (pos alloc : Nat) : (a.body pos alloc).length = 288 + a.bytes.length := by
  rw [AddAtt.body, List.length_append, AddAtt.segBytes_length]

theorem writeAttachment_ok (pos : Nat) (specified : Option Nat) (a : AddAtt) (alloc : Nat) (hal : alloc < 2 ^ 62)
    (hs : alloc = specified.getD (align (256 + a.bytes.length))) :
    ∃ ws, writeAttachment pos specified a =
        ⟨ws, .ok (a.body pos alloc ++ zeros (zeroAmount (alloc + 32 - (a.body pos alloc).length))).length⟩ ∧
      Contig pos ws (a.body pos alloc ++ zeros (zeroAmount (alloc + 32 - (a.body pos alloc).length))) := by
  have hcontig : Contig pos [(pos, a.segBytes pos alloc), (pos + 288, a.bytes)] (a.body pos alloc) := by
    refine Contig.cons ?_
    rw [AddAtt.segBytes_length]
    exact Contig.single _ _
  unfold writeAttachment
  rw [← hs]
  dsimp only
  rw [Plan.write_eq, Plan.bind_ok, Plan.write_eq, Plan.bind_ok, ← a.body_length pos alloc]
  by_cases hz : alloc + 32 > (a.body pos alloc).length
  · obtain ⟨wz, ez, kz⟩ := writeZeroes_spec (pos + (a.body pos alloc).length) (alloc + 32 - (a.body pos alloc).length) (by omega)
    rw [if_pos hz, ez, Plan.bind_ok, Plan.pure_eq]
    exact ⟨_, by simp, Contig.append hcontig kz⟩
  · rw [if_neg hz, Plan.pure_eq]
    have e0 : alloc + 32 - (a.body pos alloc).length = 0 := by omega
    rw [e0, zeroAmount_zero, zeros_zero]
    simp only [List.append_nil]
    exact ⟨_, by simp, hcontig⟩

/-! ## Placement of segments that may reuse an existing one -/

/-- Where a segment that needs `own` bytes (reusing an existing one with at least `need` bytes) goes: position and allocated size, and
the writes for marking the existing one as deleted. -/
def Placed (existing : Option SegInfo) (mark : SegInfo → Bool) (newPos need own : Nat) (mw : List Write) (pos alloc : Nat) : Prop :=
  (∃ s, existing = some s ∧ need ≤ s.alloc ∧ mw = [] ∧ pos = s.pos ∧ alloc = s.alloc) ∨
  ((∀ s, existing = some s → s.alloc < need) ∧ pos = newPos ∧ alloc = own ∧ mw = (markUnused existing mark).writes)

theorem markUnused_eq (existing : Option SegInfo) (mark : SegInfo → Bool) :
    markUnused existing mark = ⟨(markUnused existing mark).writes, .ok ()⟩ := by
  unfold markUnused
  split
  · split <;> rfl
  · rfl

theorem markUnused_writes (existing : Option SegInfo) (mark : SegInfo → Bool) :
    (markUnused existing mark).writes = [] ∨
    ∃ s, existing = some s ∧ mark s = true ∧ (markUnused existing mark).writes = [(s.pos, deletedMagic)] := by
  cases existing with
  | none => exact .inl rfl
  | some s =>
    simp only [markUnused]
    split
    · rename_i h
      exact .inr ⟨s, rfl, h.2.2, rfl⟩
    · exact .inl rfl

theorem place_spec (existing : Option SegInfo) (mark : SegInfo → Bool) (newPos need own : Nat) :
    ∃ mw pos alloc, Placed existing mark newPos need own mw pos alloc ∧
      place existing mark newPos need own = ⟨mw, .ok (pos, alloc)⟩ := by
  unfold place
  cases existing with
  | none => exact ⟨[], newPos, own, .inr ⟨by simp, rfl, rfl, rfl⟩, rfl⟩
  | some s =>
    dsimp only
    by_cases h : s.alloc ≥ need
    · rw [if_pos h]
      exact ⟨[], s.pos, s.alloc, .inl ⟨s, rfl, h, rfl, rfl, rfl⟩, rfl⟩
    · rw [if_neg h, markUnused_eq, Plan.bind_ok]
      exact ⟨_, newPos, own, .inr ⟨by rintro _ ⟨⟩; omega, rfl, rfl, rfl⟩, by simp [Plan.pure_eq]⟩

/-! ## Metadata -/

theorem MetaInfo.segBytes_length (m : MetaInfo) (alloc : Nat) : (m.segBytes alloc).length = 288 := by
  unfold MetaInfo.segBytes
  simp only [List.length_append, zeros_length, leInt_length]
  rw [segHeader_length metadataMagic_length]

/-- The meaningful bytes of a metadata segment. -/
def MetaInfo.body (m : MetaInfo) (alloc : Nat) : List UInt8 := m.segBytes alloc ++ m.xmlBytes ++ m.attBytes

theorem MetaInfo.body_length (m : MetaInfo) (alloc : Nat) :
    (m.body alloc).length = 288 + m.xmlBytes.length + m.attBytes.length := by
  rw [MetaInfo.body, List.length_append, List.length_append, MetaInfo.segBytes_length]

theorem writeMetadata_ok (existing : Option SegInfo) (mark : SegInfo → Bool) (newPos : Nat) (m : MetaInfo)
    (hal : ∀ s, existing = some s → s.alloc < 2 ^ 62) (hm : m.xmlBytes.length + m.attBytes.length < 2 ^ 61) :
    ∃ mw pos alloc, Placed existing mark newPos (align (256 + (m.xmlBytes.length + m.attBytes.length)))
        (align (256 + (m.xmlBytes.length + m.attBytes.length))) mw pos alloc ∧
      ∃ ws, writeMetadata existing mark newPos m = ⟨mw ++ ws, .ok (pos, alloc)⟩ ∧
      Contig pos ws (m.body alloc ++ zeros (zeroAmount (alloc + 32 - (m.body alloc).length))) := by
  obtain ⟨mw, pos, alloc, hp, e⟩ := place_spec existing mark newPos (align (256 + (m.xmlBytes.length + m.attBytes.length)))
    (align (256 + (m.xmlBytes.length + m.attBytes.length)))
  have hal : alloc < 2 ^ 62 := by
    rcases hp with ⟨s, h1, _, _, _, h2⟩ | ⟨_, _, h2, _⟩
    · rw [h2]; exact hal s h1
    · rw [h2]; unfold align; omega
  refine ⟨mw, pos, alloc, hp, ?_⟩
  unfold writeMetadata
  dsimp only
  rw [e, Plan.bind_ok]
  dsimp only
  have hx : ∀ (p : Nat) (l : List UInt8), ∃ ws, writeIf p l = ⟨ws, .ok ()⟩ ∧ Contig p ws l := by
    intro p l
    unfold writeIf
    by_cases h : l.length > 0
    · rw [if_pos h]; exact ⟨_, rfl, Contig.single _ _⟩
    · rw [if_neg h]
      have : l = [] := List.length_eq_zero_iff.1 (by omega)
      subst this
      exact ⟨[], rfl, Contig.nil _⟩
  obtain ⟨w1, e1, k1⟩ := hx (pos + 288) m.xmlBytes
  obtain ⟨w2, e2, k2⟩ := hx (pos + 288 + m.xmlBytes.length) m.attBytes
  have hcontig : Contig pos ([(pos, m.segBytes alloc)] ++ w1 ++ w2) (m.body alloc) := by
    unfold MetaInfo.body
    refine Contig.append (Contig.append (Contig.single _ _) ?_) ?_
    · rw [MetaInfo.segBytes_length]; exact k1
    · rw [List.length_append, MetaInfo.segBytes_length, ← Nat.add_assoc]; exact k2
  rw [Plan.write_eq, Plan.bind_ok, e1, Plan.bind_ok, e2, Plan.bind_ok, ← m.body_length alloc]
  by_cases hz : (m.body alloc).length < alloc + 32
  · obtain ⟨wz, ez, kz⟩ := writeZeroes_spec (pos + (m.body alloc).length) (alloc + 32 - (m.body alloc).length) (by omega)
    rw [if_pos hz, ez, Plan.bind_ok, Plan.pure_eq]
    exact ⟨[(pos, m.segBytes alloc)] ++ w1 ++ w2 ++ wz, by simp, Contig.append hcontig kz⟩
  · rw [if_neg hz, Plan.pure_eq]
    have e0 : alloc + 32 - (m.body alloc).length = 0 := by omega
    rw [e0, zeroAmount_zero, zeros_zero]
    simp only [List.append_nil]
    exact ⟨[(pos, m.segBytes alloc)] ++ w1 ++ w2, by simp, hcontig⟩

/-! ## Directories -/

theorem subDirBytes_length (alloc : Nat) (es : List Entry) :
    (subDirBytes alloc es).length = 160 + (es.map entryBytes).flatten.length := by
  unfold subDirBytes
  simp only [List.length_append, zeros_length, leInt_length]
  rw [segHeader_length subDirMagic_length]

theorem writeSubDir_ok (existing : Option SegInfo) (mark : SegInfo → Bool) (newPos : Nat) (es : List Entry)
    (hal : ∀ s, existing = some s → s.alloc < 2 ^ 62) (hm : (es.map entryBytes).flatten.length < 2 ^ 61) :
    ∃ mw pos alloc, Placed existing mark newPos (align (128 + (es.map entryBytes).flatten.length))
        (align (128 + (es.map entryBytes).flatten.length)) mw pos alloc ∧
      ∃ ws, writeSubDir existing mark newPos es = ⟨mw ++ ws, .ok (pos, alloc)⟩ ∧
      Contig pos ws (subDirBytes alloc es ++ zeros (zeroAmount (alloc + 32 - (subDirBytes alloc es).length))) := by
  obtain ⟨mw, pos, alloc, hp, e⟩ := place_spec existing mark newPos (align (128 + (es.map entryBytes).flatten.length))
    (align (128 + (es.map entryBytes).flatten.length))
  have hal : alloc < 2 ^ 62 := by
    rcases hp with ⟨s, h1, _, _, _, h2⟩ | ⟨_, _, h2, _⟩
    · rw [h2]; exact hal s h1
    · rw [h2]; unfold align; omega
  refine ⟨mw, pos, alloc, hp, ?_⟩
  unfold writeSubDir
  dsimp only
  rw [e, Plan.bind_ok]
  dsimp only
  rw [Plan.write_eq, Plan.bind_ok, ← subDirBytes_length alloc es]
  by_cases hz : (subDirBytes alloc es).length < alloc + 32
  · obtain ⟨wz, ez, kz⟩ := writeZeroes_spec (pos + (subDirBytes alloc es).length) (alloc + 32 - (subDirBytes alloc es).length) (by omega)
    rw [if_pos hz, ez, Plan.bind_ok, Plan.pure_eq]
    exact ⟨[(pos, subDirBytes alloc es)] ++ wz, by simp, Contig.append (Contig.single _ _) kz⟩
  · rw [if_neg hz, Plan.pure_eq]
    have e0 : alloc + 32 - (subDirBytes alloc es).length = 0 := by omega
    rw [e0, zeroAmount_zero, zeros_zero]
    simp only [List.append_nil]
    exact ⟨[(pos, subDirBytes alloc es)], by simp, Contig.single _ _⟩

/-- The entries of an attachment directory. -/
def attEntriesBytes (es : List AttEntry) : List UInt8 :=
  (es.map (fun e => attEntryBytes e.filePosition e.guid e.contentFileType e.name)).flatten

theorem attEntriesBytes_length (es : List AttEntry) : (attEntriesBytes es).length = 128 * es.length := by
  induction es with
  | nil => rfl
  | cons e es ih =>
    simp only [attEntriesBytes, List.map_cons, List.flatten_cons, List.length_append, attEntryBytes_length,
      List.length_cons] at ih ⊢
    omega

theorem attDirSegBytes_length (alloc n : Nat) : (attDirSegBytes alloc n).length = 288 := by
  unfold attDirSegBytes
  simp only [List.length_append, zeros_length, leInt_length]
  rw [segHeader_length attDirMagic_length]

/-- The zero fill of the attachment directory begins at the wrong position, so it is described separately. -/
theorem writeAttDir_ok (existing : Option SegInfo) (mark : SegInfo → Bool) (newPos : Nat) (es : List AttEntry)
    (hal : ∀ s, existing = some s → s.alloc < 2 ^ 62) (hm : es.length < 2 ^ 50) :
    ∃ mw pos alloc, Placed existing mark newPos (256 + es.length * 128) (256 + es.length * 128) mw pos alloc ∧
      ∃ ws wz, writeAttDir existing mark newPos es = ⟨mw ++ (ws ++ wz), .ok (pos, alloc)⟩ ∧
      Contig pos ws (attDirSegBytes alloc es.length ++ attEntriesBytes es) ∧
      ((256 + es.length * 128 = alloc ∧ wz = []) ∨ (256 + es.length * 128 < alloc ∧
        Contig (pos + 128 * es.length) wz (zeros (zeroAmount (alloc + 32 - 128 * es.length))))) := by
  have halign : align (256 + es.length * 128) = 256 + es.length * 128 := by unfold align; omega
  obtain ⟨mw, pos, alloc, hp, e⟩ := place_spec existing mark newPos (256 + es.length * 128) (256 + es.length * 128)
  have hal2 : alloc < 2 ^ 62 ∧ 256 + es.length * 128 ≤ alloc := by
    rcases hp with ⟨s, h1, h3, _, _, h2⟩ | ⟨_, _, h2, _⟩
    · rw [h2]; exact ⟨hal s h1, h3⟩
    · rw [h2]; omega
  refine ⟨mw, pos, alloc, hp, ?_⟩
  unfold writeAttDir
  dsimp only
  rw [halign, e, Plan.bind_ok]
  dsimp only
  have hb : (es.map (fun e => attEntryBytes e.filePosition e.guid e.contentFileType e.name)).flatten = attEntriesBytes es := rfl
  rw [hb, attEntriesBytes_length, Plan.write_eq, Plan.bind_ok, Plan.write_eq, Plan.bind_ok]
  have hcontig : Contig pos [(pos, attDirSegBytes alloc es.length), (pos + 288, attEntriesBytes es)]
      (attDirSegBytes alloc es.length ++ attEntriesBytes es) := by
    refine Contig.cons ?_
    rw [attDirSegBytes_length]
    exact Contig.single _ _
  by_cases hz : 288 + 128 * es.length < alloc + 32
  · obtain ⟨wz, ez, kz⟩ := writeZeroes_spec (pos + 128 * es.length) (alloc + 32 - 128 * es.length) (by omega)
    rw [if_pos hz, ez, Plan.bind_ok, Plan.pure_eq]
    exact ⟨_, wz, by simp, hcontig, .inr ⟨by omega, kz⟩⟩
  · rw [if_neg hz, Plan.pure_eq]
    exact ⟨_, [], by simp, hcontig, .inl ⟨by omega, rfl⟩⟩

end Verif.Czi
