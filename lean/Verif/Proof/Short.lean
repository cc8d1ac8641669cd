import Verif.Proof.FailedAdd

/-! Callbacks that end far too early. -/

namespace Verif.Czi

open Spec

attribute [local irreducible] zeros

/-- The sizes and callbacks are such that nothing fails. -/
structure AddInfo.Runs (a : AddInfo) : Prop where
  metadataSize : a.sizeMetadata ≤ 2147483647
  attachmentSize : a.sizeAttachment ≤ 2147483647
  dataSize : a.sizeData < 2 ^ 59
  metadata : NoNull a.sizeMetadata a.metadata
  data : NoNull a.sizeData a.data
  attachment : NoNull a.sizeAttachment a.attachment

theorem AddInfo.Runs.writable {a : AddInfo} (h : a.Runs) (hc : a.check = true) : a.Writable where
  check := hc
  metadataSize := h.metadataSize
  attachmentSize := h.attachmentSize
  dataSize := by have := h.dataSize; omega
  metadata := payloadFails_iff h.metadata
  data := payloadFails_iff h.data
  attachment := payloadFails_iff h.attachment

theorem AddInfo.used_lt {a : AddInfo} (h : a.Runs) : a.usedSize < 2 ^ 60 := by
  have := h.metadataSize; have := h.dataSize; have := h.attachmentSize; have := a.dimCount_le
  unfold AddInfo.usedSize AddInfo.segSize
  omega

/-- The bytes written for a sub-block at `pos`. -/
def AddInfo.wrote (a : AddInfo) (pos : Nat) : List UInt8 :=
  a.body pos a.allocSize ++ zeros (zeroAmount (a.allocSize + 32 - (a.body pos a.allocSize).length))

theorem addPhase_cases (s : Sys) (a : AddInfo) : ∃ p : Phase, addSubBlockPhases a = [p, fun w => do
      let n ← writeSubBlock w.next none a
      return { w with next := w.next + n }] ∧
    ((∃ e, p s.w = ⟨[], .error e⟩) ∨
      (a.check = true ∧ (s.w.dir.tryAdd (a.entry s.w.next)).2 = true ∧ p s.w = ⟨[], .ok { s.w with dir := (s.w.dir.tryAdd (a.entry s.w.next)).1 }⟩)) := by
  refine ⟨_, rfl, ?_⟩
  dsimp only
  split
  · exact .inl ⟨_, rfl⟩
  · split
    · exact .inl ⟨_, rfl⟩
    · rename_i hc
      split
      · exact .inl ⟨_, rfl⟩
      · split
        · exact .inl ⟨_, rfl⟩
        · rename_i hb
          exact .inr ⟨by simpa using hc, by simpa using hb, rfl⟩

theorem step_add_result {s s' : Sys} {a : AddInfo} (ha : a.Runs) (h : step s (.addSubBlock a) = (s', none)) :
    a.check = true ∧ (s.w.dir.tryAdd (a.entry s.w.next)).2 = true ∧
    s' = ⟨{ s.w with dir := (s.w.dir.tryAdd (a.entry s.w.next)).1, next := s.w.next + (a.wrote s.w.next).length }, s.disk.write s.w.next (a.wrote s.w.next)⟩ := by
  have h2 : (runPhases (addSubBlockPhases a) s []).2.1 = none := congrArg Prod.snd h
  have h1 : (runPhases (addSubBlockPhases a) s []).1 = s' := congrArg Prod.fst h
  rw [runPhases_trace] at h1
  obtain ⟨p, hp, hcase⟩ := addPhase_cases s a
  rw [hp] at h1 h2
  obtain ⟨w1, e1, h2⟩ := runPhases_none h2
  obtain ⟨w2, e2, h2⟩ := runPhases_none h2
  rw [tracePhases_ok e1, tracePhases_ok e2] at h1
  rcases hcase with ⟨e, he⟩ | ⟨hck, htry, he⟩
  · rw [he] at e1; cases e1
  rw [he] at e1 h1
  cases e1
  refine ⟨hck, htry, ?_⟩
  have hul := a.used_lt ha
  have hal := align_lt a.usedSize
  obtain ⟨ws, e, hcg⟩ := writeSubBlock_ok s.w.next none a a.allocSize (ha.writable hck) (by unfold AddInfo.allocSize; omega) (.inl ⟨rfl, rfl⟩)
  dsimp only at e2 h1
  rw [e, Plan.bind_ok] at e2
  rw [e, Plan.bind_ok] at h1
  cases e2
  have hd : s.disk.write s.w.next (a.wrote s.w.next) = apply s.disk (ws ++ []) := by rw [List.append_nil]; exact (apply_contig hcg s.disk).symm
  rw [← h1, hd]
  simp only [tracePhases, List.nil_append, List.append_nil]
  show Sys.mk _ (apply s.disk (ws ++ [])) = _
  rw [List.append_nil]
  rfl

/-- What is missing after a callback that ended `c` bytes early. -/
theorem shortfall {c : Nat} (h : 12288 < c) : 4096 < c - zeroAmount c := by
  unfold zeroAmount
  rw [if_neg (by omega)]
  omega

theorem shortfall_big {c : Nat} (h : 32768 < c) : 12288 < c - zeroAmount c := by
  unfold zeroAmount
  rw [if_neg (by omega)]
  omega

theorem payloadContent_le (size : Nat) (src : Option Source) : (payloadContent size src).length ≤ size := by
  unfold payloadContent
  split
  · simp
  · split
    · rename_i s
      have := zeroAmount_le (size - s.bytes.length)
      simp only [Source.content, List.length_append, List.length_take, zeros_length]
      omega
    · simp

theorem payloadContent_some (size : Nat) (s : Source) :
    (payloadContent size (some s)).length = min size s.chunks.flatten.length + zeroAmount (size - s.chunks.flatten.length) := by
  unfold payloadContent
  split
  · rename_i h0
    subst h0
    rw [Nat.zero_sub, zeroAmount_zero]
    simp
  · simp only [Source.content, Source.bytes, List.length_append, List.length_take, zeros_length]

/-- The segment of a sub-block whose data end too early is too short. -/
theorem wrote_short {a : AddInfo} {src : Source} (hs : a.data = some src) (hm : src.chunks.flatten.length + 12288 < a.sizeData) (pos : Nat) :
    a.segSize ≤ (a.wrote pos).length ∧ (a.wrote pos).length < a.allocSize + 32 := by
  have hge := a.usedSize_ge
  have hle := le_align a.usedSize
  have h1 := payloadContent_le a.sizeMetadata a.metadata
  have h2 := payloadContent_some a.sizeData src
  have h3 := payloadContent_le a.sizeAttachment a.attachment
  have h4 := shortfall (c := a.sizeData - src.chunks.flatten.length) (by omega)
  have hb : (a.body pos a.allocSize).length + 4096 < a.usedSize := by
    unfold AddInfo.body AddInfo.usedSize
    simp only [List.length_append, AddInfo.segBytes_length, hs]
    omega
  have hlo : a.segSize ≤ (a.body pos a.allocSize).length := by
    unfold AddInfo.body
    simp only [List.length_append, AddInfo.segBytes_length]
    omega
  have hal : a.allocSize + 32 = align a.usedSize := by unfold AddInfo.allocSize; omega
  have h5 := zeroAmount_lt (c := a.allocSize + 32 - (a.body pos a.allocSize).length) (by omega)
  unfold AddInfo.wrote
  rw [List.length_append, zeros_length]
  omega

theorem Disk.read_of_holds {d : Disk} {p n : Nat} {c : List UInt8} (h : Holds d p c) (hl : c.length = n) : d.read p n = c := by
  rw [← hl]; exact h.read0

/-- The header of a sub-block segment. -/
theorem segmentAt_of {d : Disk} {a : AddInfo} {p alloc : Nat} (h : Holds d p (a.segBytes p alloc)) (hal : alloc < 2 ^ 64) (hu : a.usedSize < 2 ^ 64) :
    SegmentAt d p alloc (a.usedSize - 32) ∧ idAt d p = subBlockMagic := by
  obtain ⟨z, e⟩ := a.segBytes_split p alloc
  rw [e] at h
  have hh := h.left
  unfold AddInfo.head segHeader at hh
  simp only [List.append_assoc] at hh
  have m1 := hh.left
  have m2 := hh.right
  rw [subBlockMagic_length] at m2
  have m3 := m2.left
  have m4 := m2.right.left
  rw [le_length] at m4
  have hsz := m4.1
  rw [le_length] at hsz
  refine ⟨⟨by omega, Holds.fieldNat m3 (by omega) (by omega) (by omega), ?_⟩, ?_⟩
  · exact Holds.fieldNat (o := 24) (by rw [show p + 24 = p + 16 + 8 by omega]; exact m4) (by omega) (by omega) (by omega)
  · exact Disk.read_of_holds m1 subBlockMagic_length

/-- The data delivered for a sub-block that was overlaid by the next one: whatever is at their place in the file. -/
theorem overlaid_read {d : Disk} {a : AddInfo} {p alloc : Nat} {src : Source} (h : Holds d p (a.segBytes p alloc ++ payloadContent a.sizeMetadata a.metadata))
    (hs : a.data = some src) (hfit : AddFits a) (hr : a.Runs) (hm4 : ShortBy4096 a.sizeMetadata a.metadata) (hck : a.check = true) (h0 : a.sizeAttachment = 0)
    (hd : a.sizeData < 2 ^ 31) (hpos : 0 < a.sizeData) (hp : p < 2 ^ 62) (hsz : p + a.segSize + a.sizeMetadata + a.sizeData ≤ d.size)
    {al : Alloc} (hal : ∀ n, al n = true) (o : OpenOptions) :
    ∃ sb, readEntry al d.stream o (a.entry p) = .ok sb ∧ sb.data = ⟨a.sizeData, some (d.read (p + a.segSize + a.sizeMetadata) a.sizeData)⟩ := by
  obtain ⟨c1, c2, c3⟩ := AddInfo.check_sources hck
  have hXl : (d.read (p + a.segSize + a.sizeMetadata) a.sizeData).length = a.sizeData := by
    unfold Disk.read
    simp
    omega
  have hX : Holds d (p + a.segSize + a.sizeMetadata) (d.read (p + a.segSize + a.sizeMetadata) a.sizeData) := by
    refine ⟨by rw [hXl]; exact hsz, ?_⟩
    intro i hi
    rw [hXl] at hi
    unfold Disk.read
    rw [List.getD_eq_getElem?_getD, List.getElem?_map, List.getElem?_range (by omega)]
    rfl
  generalize d.read (p + a.segSize + a.sizeMetadata) a.sizeData = X at *
  let a' : AddInfo := { a with data := some ⟨[X], false⟩ }
  have hml : (payloadContent a.sizeMetadata a.metadata).length = a.sizeMetadata := by
    rw [payloadContent_eq hm4 c1, payloadOf_length]
  have hpc : payloadContent a.sizeData (some ⟨[X], false⟩) = X := by
    unfold payloadContent
    rw [if_neg (by omega)]
    simp only [Source.content, Source.bytes, List.flatten_cons, List.flatten_nil, List.append_nil, hXl, Nat.sub_self, zeroAmount_zero, zeros_zero]
    rw [List.take_of_length_le (by omega)]
  have hb : Holds d p (a'.body p alloc) := by
    have e : a'.body p alloc = (a.segBytes p alloc ++ payloadContent a.sizeMetadata a.metadata) ++ X := by
      show a.segBytes p alloc ++ payloadContent a.sizeMetadata a.metadata ++ payloadContent a.sizeData (some ⟨[X], false⟩) ++
        payloadContent a.sizeAttachment a.attachment = _
      rw [hpc]
      have : payloadContent a.sizeAttachment a.attachment = [] := by unfold payloadContent; rw [if_pos h0]
      rw [this, List.append_nil]
    rw [e]
    refine Holds.append h ?_
    rw [List.length_append, AddInfo.segBytes_length, hml, ← Nat.add_assoc]
    exact hX
  have hfit' : AddFits a' := ⟨hfit.coordinate, hfit.mIndex, hfit.x, hfit.y, hfit.logicalWidth, hfit.logicalHeight, hfit.physicalWidth, hfit.physicalHeight, hfit.compression⟩
  have hso : SourcesOk a' := by
    refine ⟨⟨hr.metadata, hm4⟩, ⟨?_, ?_⟩, ⟨hr.attachment, ?_⟩⟩
    · intro s e h; cases e; cases h
    · intro s e
      cases e
      show a.sizeData ≤ [X].flatten.length + 4096
      simp [hXl]
    · intro s _
      show a.sizeAttachment ≤ _
      omega
  have hck' : a'.check = true := by
    unfold AddInfo.check at hck ⊢
    simp only [hs] at hck
    exact hck
  obtain ⟨sb, e1, e2⟩ := readEntry_ok hb hfit' hso hck' hr.metadataSize hr.attachmentSize hd hp hal o
  refine ⟨sb, e1, ?_⟩
  have e3 : sb.data = (viewRead sb).data := rfl
  rw [e3, e2]
  show payloadView a.sizeData (some ⟨[X], false⟩) = _
  unfold payloadView payloadOf
  rw [if_neg (by omega)]
  simp only [List.flatten_cons, List.flatten_nil, List.append_nil]
  rw [List.take_append_of_le_length (by omega), List.take_of_length_le (by omega)]

end Verif.Czi
