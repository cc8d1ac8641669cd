import Verif.Proof.ReadBack
import Verif.Proof.DocAtt

/-! # C04: on-disk structures are decoded to what was encoded -/

namespace Verif.Spec

open Verif.Czi

/-- `b` has the unsigned little-endian number `v` of `n` bytes at offset `o`: byte `i` is the `i`-th digit to the base 256. -/
def HasNat (b : List UInt8) (o n v : Nat) : Prop := ∀ i, i < n → (b.getD (o + i) 0).toNat = v / 256 ^ i % 256

/-- `b` has the bytes `s` at offset `o`. -/
def HasBytes (b : List UInt8) (o : Nat) (s : List UInt8) : Prop := (b.drop o).take s.length = s

/-- The 16 bytes of a GUID: the first three numbers little-endian, then eight bytes. -/
structure HasGuid (b : List UInt8) (o : Nat) (g : Guid) : Prop where
  d1 : HasNat b o 4 g.data1.toNat
  d2 : HasNat b (o + 4) 2 g.data2.toNat
  d3 : HasNat b (o + 6) 2 g.data3.toNat
  d4 : HasBytes b (o + 8) g.data4.toList

/-- `b` has the signed (two's complement) little-endian number `v` of `n` bytes at offset `o`; division rounds down. -/
def HasInt (b : List UInt8) (o n : Nat) (v : Int) : Prop := ∀ i, i < n → ((b.getD (o + i) 0).toNat : Int) = v / 256 ^ i % 256

end Verif.Spec

namespace Verif

open Czi Spec

theorem le_getD (n v i : Nat) (h : i < n) : ((le n v).getD i 0).toNat = v / 256 ^ i % 256 := by
  induction n generalizing v i with
  | zero => omega
  | succ n ih =>
    unfold le
    cases i with
    | zero => simp
    | succ i =>
      rw [List.getD_cons_succ, ih _ _ (by omega), Nat.pow_succ', Nat.div_div_eq_div_mul]

theorem hasNat_of_field {b : List UInt8} {o n v : Nat} (h : field b o n = le n v) : HasNat b o n v := by
  intro i hi
  rw [← le_getD n v i hi, ← h]
  unfold field
  rw [List.getD_eq_getElem?_getD, List.getD_eq_getElem?_getD, List.getElem?_take_of_lt hi, List.getElem?_drop]

theorem hasBytes_of_field {b s : List UInt8} {o n : Nat} (h : field b o n = s) (hn : s.length = n) : HasBytes b o s := by
  unfold HasBytes
  rw [hn]; exact h

theorem field_sub {b : List UInt8} {o n o' n' : Nat} {s : List UInt8} (h : field b o n = s) (h' : o' + n' ≤ n) : field b (o + o') n' = field s o' n' := by
  rw [← h, field_field h']

theorem hasGuid_of_field {b : List UInt8} {o : Nat} {g : Guid} (h : field b o 16 = guidBytes g) : HasGuid b o g := by
  have e1 : field (guidBytes g) 0 4 = le 4 g.data1.toNat := by simp [guidBytes, field_left, field_self]
  have e2 : field (guidBytes g) 4 2 = le 2 g.data2.toNat := by simp [guidBytes, field_left, field_right, field_self]
  have e3 : field (guidBytes g) 6 2 = le 2 g.data3.toNat := by simp [guidBytes, field_left, field_right, field_self]
  have e4 : field (guidBytes g) 8 8 = g.data4.toList := by simp [guidBytes, field_right, field_self]
  refine ⟨hasNat_of_field ?_, hasNat_of_field ?_, hasNat_of_field ?_, hasBytes_of_field (n := 8) ?_ (by simp)⟩
  · rw [← e1, ← field_sub h (by omega), Nat.add_zero]
  · rw [← e2, ← field_sub h (by omega)]
  · rw [← e3, ← field_sub h (by omega)]
  · rw [← e4, ← field_sub h (by omega)]

/-- **C04 (GUID).** Decoding the 16 bytes of a GUID returns the GUID. -/
theorem C04_guid (g : Guid) : (guidBytes g).length = 16 ∧ guidOf (guidBytes g) = g ∧ HasGuid (guidBytes g) 0 g :=
  ⟨guidBytes_length g, guidOf_guidBytes g, hasGuid_of_field (field_self (by simp))⟩

/-- **C04 (file header).** The file header has 544 bytes, is decoded to the GUID and the three positions it was made of, and these are where the file
format puts them. -/
theorem C04_file_header (g : Guid) (sub md att : Nat) (hs : sub < 2 ^ 64) (hm : md < 2 ^ 64) (ha : att < 2 ^ 64) :
    (fileHeader g sub md att).length = 544 ∧ headerOf (fileHeader g sub md att) = ⟨1, 0, g, sub, md, att⟩ ∧
    HasBytes (fileHeader g sub md att) 0 (ascii "ZISRAWFILE") ∧
    HasNat (fileHeader g sub md att) 16 8 512 ∧ HasNat (fileHeader g sub md att) 24 8 512 ∧
    HasGuid (fileHeader g sub md att) 48 g ∧ HasGuid (fileHeader g sub md att) 64 g ∧
    HasNat (fileHeader g sub md att) 84 8 sub ∧ HasNat (fileHeader g sub md att) 92 8 md ∧ HasNat (fileHeader g sub md att) 104 8 att := by
  refine ⟨by simp, headerOf_fileHeader g hs hm ha, ?_, hasNat_of_field ?_, hasNat_of_field ?_, hasGuid_of_field ?_, hasGuid_of_field ?_, hasNat_of_field ?_,
    hasNat_of_field ?_, hasNat_of_field ?_⟩
  · have h1 : field (fileHeader g sub md att) 0 16 = fileMagic := by simp [fileHeader, segHeader, field_left, field_self]
    have h2 := field_sub (o' := 0) (n' := 10) h1 (by omega)
    have h3 : field fileMagic 0 10 = ascii "ZISRAWFILE" := by decide +kernel
    exact hasBytes_of_field (n := 10) (by rw [h3] at h2; simpa using h2) (by decide +kernel)
  all_goals simp [fileHeader, segHeader, field_left, field_right, field_self]

/-- **C04 (segment header).** The header of a segment has 32 bytes and is decoded to the identifier, the allocated and the used size it was made of. -/
theorem C04_segment_header (magic r : List UInt8) (hm : magic.length = 16) (alloc used : Nat) (ha : alloc < 2 ^ 63) (hu : used < 2 ^ 63) :
    (segHeader magic alloc used).length = 32 ∧ segMagic (segHeader magic alloc used ++ r) = magic ∧
    segAlloc (segHeader magic alloc used ++ r) = alloc ∧ segUsed (segHeader magic alloc used ++ r) = used ∧
    HasBytes (segHeader magic alloc used ++ r) 0 magic ∧ HasNat (segHeader magic alloc used ++ r) 16 8 alloc ∧
    HasNat (segHeader magic alloc used ++ r) 24 8 used := by
  have f1 : field (segHeader magic alloc used ++ r) 16 8 = le 8 alloc := by
    simp [segHeader, field_left, field_right, field_self, hm]
  have f2 : field (segHeader magic alloc used ++ r) 24 8 = le 8 used := by
    simp [segHeader, field_left, field_right, field_self, hm]
  refine ⟨segHeader_length hm _ _, segMagic_segHeader hm _ _, ?_, ?_, hasBytes_of_field (segMagic_segHeader hm _ _) hm, hasNat_of_field f1, hasNat_of_field f2⟩
  · unfold segAlloc fieldInt; rw [f1, unleInt_le8 ha]
  · unfold segUsed fieldInt; rw [f2, unleInt_le8 hu]

/-- **C04 (directory entry).** The DV entry of a sub-block has 32 bytes and 20 per dimension - X, Y, M if there is an m-index, and those of the coordinate -
and is decoded to the same entry, with all parse options. -/
theorem C04_entry (o : ParseOptions) (e : Entry) (h : EntryFits e) :
    (entryBytes e).length = 32 + 20 * (2 + (if e.mIndex = -2147483648 then 0 else 1) + e.coordinate.validDims.length) ∧
    parseEntries o (entryBytes e) 1 0 = .ok [e] := by
  have hl : (entryBytes e).length = 32 + 20 * (2 + (if e.mIndex = -2147483648 then 0 else 1) + e.coordinate.validDims.length) := by
    rw [entryBytes_length]
    unfold entryDims dimList Entry.mOpt
    by_cases hm : e.mIndex = -2147483648
    · simp [Entry.isMIndexValid, hm, intMin]
      omega
    · simp [Entry.isMIndexValid, hm, intMin]
      omega
  refine ⟨hl, ?_⟩
  have := parseEntries_all o [e] (by simpa using h) [] [] (by
    have := validDims_length_le e.coordinate
    simp only [List.map_cons, List.map_nil, List.flatten_cons, List.flatten_nil, List.append_nil, List.nil_append]
    rw [hl]
    have h1 : (if e.mIndex = -2147483648 then 0 else 1) ≤ 1 := by split <;> omega
    omega)
  simpa using this

/-- **C04 (directory).** A sequence of DV entries is decoded to the same sequence of entries, wherever it is in the buffer. -/
theorem C04_entries (o : ParseOptions) (es : List Entry) (h : ∀ e ∈ es, EntryFits e) (pre post : List UInt8)
    (hl : (pre ++ (es.map entryBytes).flatten ++ post).length < 2 ^ 63) :
    parseEntries o (pre ++ (es.map entryBytes).flatten ++ post) es.length pre.length = .ok es :=
  parseEntries_all o es h pre post hl

theorem hasInt_of_field {b : List UInt8} {o : Nat} {v : Int} (h : field b o 4 = leInt 4 v) : HasInt b o 4 v := by
  intro i hi
  have := hasNat_of_field (v := (v % (256 ^ 4 : Nat)).toNat) h i hi
  rw [this]
  have hi' : i = 0 ∨ i = 1 ∨ i = 2 ∨ i = 3 := by omega
  rcases hi' with rfl | rfl | rfl | rfl <;> omega

theorem dimBytes_fields (c : Char) (a b d : Int) (r : List UInt8) :
    field (dimBytes c a b d ++ r) 0 1 = [UInt8.ofNat c.toNat] ∧ field (dimBytes c a b d ++ r) 4 4 = leInt 4 a ∧ field (dimBytes c a b d ++ r) 8 4 = leInt 4 b ∧
    field (dimBytes c a b d ++ r) 16 4 = leInt 4 d := by
  rw [field_left (by simp), field_left (by simp), field_left (by simp), field_left (by simp)]
  have eq : dimBytes c a b d = (UInt8.ofNat c.toNat :: zeros 3) ++ leInt 4 a ++ leInt 4 b ++ zeros 4 ++ leInt 4 d := rfl
  rw [eq]
  generalize hq : UInt8.ofNat c.toNat :: zeros 3 = q
  have hl : q.length = 4 := by rw [← hq]; simp
  refine ⟨?_, ?_, ?_, ?_⟩
  · rw [field_left (by simp [hl]), field_left (by simp [hl]), field_left (by simp [hl]), field_left (by simp [hl]), ← hq]
    rfl
  all_goals simp [field_left, field_right, field_self, hl]

/-- **C04 (layout of a directory entry).** The schema, pixel type, file position, compression, pyramid type, number of dimensions and the first two dimensions
(X and Y: letter, start, size and stored size) are where the file format puts them. -/
theorem C04_entry_layout (e : Entry) :
    HasBytes (entryBytes e) 0 [68, 86] ∧ HasInt (entryBytes e) 2 4 e.pixelType ∧ HasNat (entryBytes e) 6 8 e.filePosition ∧
    HasInt (entryBytes e) 18 4 e.compression ∧ HasBytes (entryBytes e) 22 [e.pyramidType] ∧
    HasInt (entryBytes e) 28 4 (2 + (if e.mIndex = -2147483648 then 0 else 1) + e.coordinate.validDims.length : Nat) ∧
    (HasBytes (entryBytes e) 32 [88] ∧ HasInt (entryBytes e) 36 4 e.x ∧ HasInt (entryBytes e) 40 4 e.width ∧ HasInt (entryBytes e) 48 4 e.storedWidth) ∧
    (HasBytes (entryBytes e) 52 [89] ∧ HasInt (entryBytes e) 56 4 e.y ∧ HasInt (entryBytes e) 60 4 e.height ∧ HasInt (entryBytes e) 68 4 e.storedHeight) := by
  have hn : (entryDims e).length = 2 + (if e.mIndex = -2147483648 then 0 else 1) + e.coordinate.validDims.length := by
    unfold entryDims dimList Entry.mOpt
    by_cases hm : e.mIndex = -2147483648
    · simp [Entry.isMIndexValid, hm, intMin]
      omega
    · simp [Entry.isMIndexValid, hm, intMin]
      omega
  rw [← hn]
  obtain ⟨r, hr⟩ : ∃ r, (entryDims e).flatten = dimBytes 'X' e.x e.width e.storedWidth ++ (dimBytes 'Y' e.y e.height e.storedHeight ++ r) :=
    ⟨_, by unfold entryDims dimList; simp only [List.cons_append, List.nil_append, List.flatten_cons]; rfl⟩
  have eq : entryBytes e = ascii "DV" ++ leInt 4 e.pixelType ++ le 8 e.filePosition ++ zeros 4 ++ leInt 4 e.compression ++ [e.pyramidType] ++ zeros 5 ++
      leInt 4 ((entryDims e).length : Int) ++ (dimBytes 'X' e.x e.width e.storedWidth ++ (dimBytes 'Y' e.y e.height e.storedHeight ++ r)) := by
    unfold entryBytes dvBytes; rw [hr]
  have hA : (ascii "DV").length = 2 := by decide +kernel
  have hX : UInt8.ofNat 'X'.toNat = 88 := by decide
  have hY : UInt8.ofNat 'Y'.toNat = 89 := by decide
  generalize hP : ascii "DV" ++ leInt 4 e.pixelType ++ le 8 e.filePosition ++ zeros 4 ++ leInt 4 e.compression ++ [e.pyramidType] ++ zeros 5 ++
      leInt 4 ((entryDims e).length : Int) = P at eq
  have hPl : P.length = 32 := by rw [← hP]; simp [hA]
  obtain ⟨x0, x1, x2, x3⟩ := dimBytes_fields 'X' e.x e.width e.storedWidth (dimBytes 'Y' e.y e.height e.storedHeight ++ r)
  obtain ⟨y0, y1, y2, y3⟩ := dimBytes_fields 'Y' e.y e.height e.storedHeight r
  rw [hX] at x0
  rw [hY] at y0
  have fx : ∀ k n, field (entryBytes e) (32 + k) n = field (dimBytes 'X' e.x e.width e.storedWidth ++ (dimBytes 'Y' e.y e.height e.storedHeight ++ r)) k n := by
    intro k n
    rw [eq, field_right (by omega), hPl, Nat.add_sub_cancel_left]
  have fy : ∀ k n, field (entryBytes e) (52 + k) n = field (dimBytes 'Y' e.y e.height e.storedHeight ++ r) k n := by
    intro k n
    rw [show 52 + k = 32 + (20 + k) by omega, fx, field_right (by simp), dimBytes_length, Nat.add_sub_cancel_left]
  have fp : ∀ o n, o + n ≤ 32 → field (entryBytes e) o n = field P o n := by
    intro o n h
    rw [eq, field_left (by omega)]
  refine ⟨hasBytes_of_field (n := 2) ?_ rfl, hasInt_of_field ?_, hasNat_of_field ?_, hasInt_of_field ?_, hasBytes_of_field (n := 1) ?_ rfl, hasInt_of_field ?_,
    ⟨hasBytes_of_field (n := 1) ((fx 0 1).trans x0) rfl, hasInt_of_field ((fx 4 4).trans x1), hasInt_of_field ((fx 8 4).trans x2), hasInt_of_field ((fx 16 4).trans x3)⟩,
    hasBytes_of_field (n := 1) ((fy 0 1).trans y0) rfl, hasInt_of_field ((fy 4 4).trans y1), hasInt_of_field ((fy 8 4).trans y2), hasInt_of_field ((fy 16 4).trans y3)⟩
  · rw [fp _ _ (by omega), ← hP, field_left (by simp [hA]), field_left (by simp [hA]), field_left (by simp [hA]), field_left (by simp [hA]), field_left (by simp [hA]), field_left (by simp [hA]),
      field_left (by simp [hA])]
    decide +kernel
  all_goals rw [fp _ _ (by omega), ← hP]
  all_goals
    have hq : [e.pyramidType].length = 1 := rfl
    generalize [e.pyramidType] = q at hq ⊢
  all_goals simp [hq, field_left, field_right, field_self, hA]

/-- **C04 (attachment entry).** An attachment entry has 128 bytes and is decoded to the same entry if its name is terminated within its field (otherwise the last
byte of the name is replaced by 0). Position, GUID, content type and name are where the file format puts them. -/
theorem C04_attachment_entry (e : AttEntry) (h : e.filePosition < 2 ^ 64) (r : List UInt8) :
    (attEntryBytes e.filePosition e.guid e.contentFileType e.name).length = 128 ∧
    (attEntryOf (attEntryBytes e.filePosition e.guid e.contentFileType e.name ++ r) = some { e with name := e.name.set 79 0 }) ∧
    (e.name[79] = 0 → attEntryOf (attEntryBytes e.filePosition e.guid e.contentFileType e.name ++ r) = some e) ∧
    HasBytes (attEntryBytes e.filePosition e.guid e.contentFileType e.name) 0 [65, 49] ∧
    HasNat (attEntryBytes e.filePosition e.guid e.contentFileType e.name) 12 8 e.filePosition ∧
    HasGuid (attEntryBytes e.filePosition e.guid e.contentFileType e.name) 24 e.guid ∧
    HasBytes (attEntryBytes e.filePosition e.guid e.contentFileType e.name) 40 e.contentFileType.toList ∧
    HasBytes (attEntryBytes e.filePosition e.guid e.contentFileType e.name) 48 e.name.toList := by
  have hname : nameRead e.name = e.name.set 79 0 := by
    apply Vector.toList_inj.1
    rw [nameRead_toList]
    apply List.ext_getElem
    · simp
    · intro i h1 h2
      have hi : i < 80 := by simpa using h2
      by_cases h79 : i = 79
      · subst h79; simp
      · rw [List.getElem_append_left (by simp; omega)]
        simp [Ne.symm h79]
  have hA : (ascii "A1").length = 2 := by decide +kernel
  have hread : attEntryOf (attEntryBytes e.filePosition e.guid e.contentFileType e.name ++ r) = some { e with name := e.name.set 79 0 } := by
    rw [attEntryOf_attEntryBytes h, AttEntry.read, hname]
  refine ⟨by simp, hread, ?_, hasBytes_of_field (n := 2) ?_ rfl, hasNat_of_field ?_, hasGuid_of_field ?_, hasBytes_of_field (n := 8) ?_ (by simp),
    hasBytes_of_field (n := 80) ?_ (by simp)⟩
  · intro h0
    rw [hread]
    have : e.name.set 79 0 = e.name := by
      apply Vector.ext
      intro i hi
      rw [Vector.getElem_set]
      split
      · rename_i hh; subst hh; exact h0.symm
      · rfl
    rw [this]
  · unfold attEntryBytes
    rw [field_left (by simp [hA]), field_left (by simp [hA]), field_left (by simp [hA]), field_left (by simp [hA]), field_left (by simp [hA]), field_left (by simp [hA])]
    decide +kernel
  all_goals simp [attEntryBytes, field_left, field_right, field_self, hA]

/-! ## Non-vacuity -/

/-- An entry with a coordinate, an m-index and a zoomed size. -/
example : EntryFits ⟨fun d => if d = .C then some 3 else none, 7, -5, 6, 640, 480, 320, 240, 1, 4096, 6, 2⟩ := by
  refine ⟨?_, ?_, ?_, ?_, ?_, ?_, ?_, ?_, ?_, by decide, ?_⟩
  · intro d v hv
    by_cases hd : d = .C
    · simp [hd] at hv; subst hv; unfold IsInt32; omega
    · simp [hd] at hv
  all_goals (unfold IsInt32; dsimp only; omega)

example : headerOf (fileHeader ⟨1, 2, 3, vecOf 8 [4, 5, 6, 7, 8, 9, 10, 11]⟩ 544 0 (2 ^ 63)) =
    ⟨1, 0, ⟨1, 2, 3, vecOf 8 [4, 5, 6, 7, 8, 9, 10, 11]⟩, 544, 0, 2 ^ 63⟩ := (C04_file_header _ _ _ _ (by decide) (by decide) (by decide)).2.1

end Verif
