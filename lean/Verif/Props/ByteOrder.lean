import Verif.Spec.ByteOrder
import Verif.Proof.ByteOrder

/-!
# C85: documents mean the same on hosts of either byte order
-/

namespace Verif

open Verif.Czi Verif.ByteOrder Verif.ByteOrder.Spec

/-- **C85 (numbers).** The conversion of a number of two, four or eight bytes exchanges its bytes: what a big-endian host reads from memory becomes the number which the
bytes of the file stand for, and the other way round. -/
theorem C85_numbers (w : Nat) (hw : w = 2 ∨ w = 4 ∨ w = 8) (l : List UInt8) (hl : l.length = w) :
    swapNat w (hostNat l) = unle l ∧ hostBytes w (swapNat w (unle l)) = l := by
  unfold hostNat hostBytes
  refine ⟨?_, ?_⟩
  · rw [swap_unle w hw _ (by rw [List.length_reverse, hl]), List.reverse_reverse]
  · rw [swap_unle w hw _ hl]
    have := le_unle l.reverse
    rw [List.length_reverse, hl] at this
    rw [this, List.reverse_reverse]

example : swapNat 4 (hostNat [1, 2, 3, 4]) = 0x04030201 ∧ hostBytes 4 (swapNat 4 0x04030201) = [1, 2, 3, 4] := by decide +kernel

/-- **C85 (structures).** For every structure with a conversion of its own, and all values of its members: the conversion turns the memory of a host of one byte order
into the memory of a host of the other, and touches nothing after the structure. The bytes in a file are the image with the least significant byte first, so the
structure read on a big-endian host has the values which were written on a little-endian host, and the other way round. -/
theorem C85_structures (s : Struct) (items : List Item) (h : items.map Item.member = s.decl) (big : Bool) (rest : List UInt8) :
    s.conversion (image big items ++ rest) = image (!big) items ++ rest := by
  rw [structure_fields, ← h]
  exact convert_items big items (by rw [h]; exact structure_plain s) [] rest 0 rfl

example : Struct.conversion .segmentHeader (image true [.bytes (zeros 16), .num 8 512, .num 8 300] ++ [7]) =
    image false [.bytes (zeros 16), .num 8 512, .num 8 300] ++ [7] :=
  C85_structures .segmentHeader [.bytes (zeros 16), .num 8 512, .num 8 300] (by decide) true [7]

/-- **C85 (directory).** The segment of a sub-block directory prepared in the memory of a big-endian host, with any number of entries and any number of dimensions in
each, is written with the same bytes as on a little-endian host. -/
theorem C85_directory_partial (magic : List UInt8) (allocated used : Nat) (entries : List DV) (spare rest : List UInt8) (hm : magic.length = 16)
    (hs : spare.length = 124) (hn : entries.length < 2 ^ 31) (h : ∀ e ∈ entries, e.Fits) :
    convertSubDir (image true (directoryItems magic allocated used entries spare) ++ rest) =
      image false (directoryItems magic allocated used entries spare) ++ rest :=
  convert_directory magic allocated used entries spare rest hm hs hn h

/-- **C85 (directory, entries of a writer).** For all entries of a writer: the conversion gives the header followed by exactly the bytes which are written for the entries
on a little-endian host. -/
theorem C85_directory_bytes (magic : List UInt8) (allocated used : Nat) (entries : List Entry) (hm : magic.length = 16) (hn : entries.length < 2 ^ 31) :
    convertSubDir (image true (directoryItems magic allocated used (entries.map entryRec) (zeros 124))) =
      segHeader magic allocated used ++ le 4 entries.length ++ zeros 124 ++ (entries.map entryBytes).flatten := by
  have h := convert_directory magic allocated used (entries.map entryRec) (zeros 124) [] hm rfl (by rw [List.length_map]; exact hn) (by
    intro e he
    obtain ⟨x, -, rfl⟩ := List.mem_map.mp he
    exact entryRec_fits x)
  rw [List.append_nil, List.append_nil] at h
  rw [h]
  unfold directoryItems
  rw [image_append, List.length_map]
  have hf : image false ((entries.map entryRec).flatMap DV.items) = (entries.map entryBytes).flatten := by
    clear h hn
    induction entries with
    | nil => rfl
    | cons e r ih =>
      show image false ((entryRec e).items ++ (r.map entryRec).flatMap DV.items) = entryBytes e ++ (r.map entryBytes).flatten
      rw [image_append, entryRec_image, ih]
  rw [hf]
  show (magic ++ (le 8 allocated ++ (le 8 used ++ (le 4 entries.length ++ (zeros 124 ++ []))))) ++ _ = _
  unfold segHeader
  simp only [List.append_assoc, List.append_nil]

/-- **C85 (sub-block).** The segment of a sub-block, with any number of dimensions, is written with the same bytes as on a little-endian host. -/
theorem C85_subBlock_partial (magic : List UInt8) (allocated used metadata attachment data : Nat) (e : DV) (rest : List UInt8) (hm : magic.length = 16) (h : e.Fits) :
    convertSubBlock (image true (subBlockItems magic allocated used metadata attachment data e) ++ rest) =
      image false (subBlockItems magic allocated used metadata attachment data e) ++ rest :=
  convert_subBlock magic allocated used metadata attachment data e rest hm h

/-- An entry with two dimensions. -/
def exampleDV : DV := ⟨1, 1000, 0, 0, zeros 6, [⟨ascii "X" ++ zeros 3, 5, 100, 0, 50⟩, ⟨ascii "Y" ++ zeros 3, 6, 200, 0, 100⟩]⟩

example : exampleDV.Fits := by
  refine ⟨by decide, by decide, ?_⟩
  intro d hd
  simp only [exampleDV, List.mem_cons, List.not_mem_nil, or_false] at hd
  rcases hd with rfl | rfl <;> decide

example : (image true (directoryItems (zeros 16) 300 250 [exampleDV, exampleDV] (zeros 124))).length = 304 ∧
    convertSubDir (image true (directoryItems (zeros 16) 300 250 [exampleDV, exampleDV] (zeros 124))) ≠
      image true (directoryItems (zeros 16) 300 250 [exampleDV, exampleDV] (zeros 124)) := by
  decide +kernel

/-- **C85 (start coordinate; violates the property).** The start coordinate of a dimension is left as it is: with a number whose bytes are not the same in both orders, the
dimension entry of a document is not converted correctly. (The library writes zero here; other programs may not.) -/
theorem C85_startCoordinate_violated (big : Bool) (d : DimRec) (hn : d.name.length = 4) (rest : List UInt8)
    (h : (le 4 d.coordinate).reverse ≠ le 4 d.coordinate) : convert (dimFields 0 1) (image big d.items ++ rest) ≠ image (!big) d.items ++ rest := by
  have hc := convert_dim big d hn [] rest 0 rfl
  simp only [List.nil_append] at hc
  show convert ([(0 + 4, 4), (0 + 8, 4), (0 + 16, 4)] ++ []) _ ≠ _
  rw [List.append_nil, hc, dim_image]
  intro he
  have he := List.append_cancel_right he
  have he := List.append_cancel_left he
  have he := List.append_cancel_left he
  have he := List.append_cancel_left he
  have he := List.append_cancel_right he
  cases big
  · exact h he.symm
  · exact h he

example : (le 4 0x3f800000).reverse ≠ le 4 0x3f800000 := by decide +kernel

/-- **C85 (file header).** `Close` writes, for the GUID remembered and the positions of the directories, the same 544 bytes as on a little-endian host. -/
theorem C85_header (guid : Guid) (subDir metadata attDir : Nat) : updatedHeader guid subDir metadata attDir = fileHeader guid subDir metadata attDir :=
  updatedHeader_eq guid subDir metadata attDir

/-- **C85 (new document; violates the property).** A reader-writer which creates a document writes the right header, but remembers the header after its conversion: the
major version it reports is 16777216, the GUID it reports has its numbers mirrored, and this GUID is what `Close` then writes to the file. -/
theorem C85_new_document_violated (guid : Guid) (subDir metadata attDir : Nat) (h1 : subDir < 2 ^ 64) (h2 : metadata < 2 ^ 64) (h3 : attDir < 2 ^ 64) :
    (headerOf (newDocument guid).1).guid = guid ∧ (newDocument guid).2.1 = 16777216 ∧
    (headerOf (updatedHeader (newDocument guid).2.2 subDir metadata attDir)).guid = mirrored guid ∧
    ((le 4 guid.data1.toNat).reverse ≠ le 4 guid.data1.toNat → mirrored guid ≠ guid) := by
  rw [newDocument_eq, updatedHeader_eq, headerOf_fileHeader _ h1 h2 h3, headerOf_fileHeader _ (by decide) (by decide) (by decide)]
  exact ⟨rfl, rfl, rfl, mirrored_ne guid⟩

/-- **C85 (forced GUID; violates the property).** Setting the GUID of an existing document writes the right bytes, but the GUID remembered (and written again by `Close`) is
mirrored. -/
theorem C85_forced_guid_violated (guid : Guid) : guidOf (forcedGuid guid).1 = guid ∧ (forcedGuid guid).2 = mirrored guid ∧
    ((le 4 guid.data1.toNat).reverse ≠ le 4 guid.data1.toNat → (forcedGuid guid).2 ≠ guid) := by
  rw [forcedGuid_eq]
  exact ⟨guidOf_guidBytes guid, rfl, mirrored_ne guid⟩

/-- A GUID whose numbers are not the same in both orders. -/
def exampleGuid : Guid := ⟨0x01020304, 0x0506, 0x0708, vecOf 8 [9, 10, 11, 12, 13, 14, 15, 16]⟩

example : (le 4 exampleGuid.data1.toNat).reverse ≠ le 4 exampleGuid.data1.toNat ∧ (mirrored exampleGuid).data1 = 0x04030201 := by decide +kernel

/-- **C85 (pixels).** Uncompressed 16-bit pixels: every sample of the bitmap has, as the host reads it, the value which the two bytes of the file stand for; all memory
accesses are within the two bitmaps. Missing: the other pixel types, and compressed data (see the violations). -/
theorem C85_pixels_partial (p : PixelType) (n width : Nat) (hp : (p = .Gray16 ∧ n = width) ∨ (p = .Bgr48 ∧ n = 3 * width)) (src dst : Buf) (ss ds height : Nat)
    (hw : 2 * n ≤ ds) (hs : ∀ y < height, y * ss + 2 * n ≤ src.size) (hd : ∀ y < height, y * ds + 2 * n ≤ dst.size) :
    ∃ b, afterDecoding .UnCompressed p src ss dst ds width height = .ok (b, ds) ∧ b.size = dst.size ∧
      ∀ y < height, ∀ x < n, hostWord b (y * ds + 2 * x) = sample src (y * ss + 2 * x) := by
  obtain ⟨b, hb, h1, h2⟩ := convertRows_ok src ss dst ds n height hw hs hd
  refine ⟨b, ?_, h1, h2⟩
  rcases hp with ⟨rfl, rfl⟩ | ⟨rfl, rfl⟩
  · unfold afterDecoding copyConvert
    simp only [agnostic, Bool.false_eq_true, if_false, hb]
  · unfold afterDecoding copyConvert
    simp only [agnostic, Bool.false_eq_true, if_false, hb]

example : ∃ b, afterDecoding .UnCompressed .Gray16 (Buf.ofList [1, 2, 3, 4, 5, 6, 7, 8]) 4 ⟨16, fun _ => 0⟩ 8 2 2 = .ok (b, 8) ∧ hostWord b 10 = 0x0807 := by
  obtain ⟨b, h1, -, h3⟩ := C85_pixels_partial .Gray16 2 2 (.inl ⟨rfl, rfl⟩) (Buf.ofList [1, 2, 3, 4, 5, 6, 7, 8]) ⟨16, fun _ => 0⟩ 4 8 2 (by decide)
    (by intro y hy; show y * 4 + 4 ≤ 8; omega) (by intro y hy; show y * 8 + 4 ≤ 16; omega)
  exact ⟨b, h1, (h3 1 (by decide) 1 (by decide)).trans (by decide +kernel)⟩

/-- **C85 (bytes).** Uncompressed pixels of one byte per sample are passed on as they are. -/
theorem C85_bytes (p : PixelType) (hp : p = .Gray8 ∨ p = .Bgr24 ∨ p = .Bgra32) (src dst : Buf) (ss ds width height : Nat) :
    afterDecoding .UnCompressed p src ss dst ds width height = .ok (src, ss) := by
  rcases hp with rfl | rfl | rfl <;> rfl

/-- **C85 (other pixel types; violates the property).** Uncompressed pixels of every other type, for example `Gray32Float`, cannot be read at all on a big-endian host. -/
theorem C85_float_violated (p : PixelType) (hp : p ≠ .Gray8 ∧ p ≠ .Bgr24 ∧ p ≠ .Bgra32 ∧ p ≠ .Gray16 ∧ p ≠ .Bgr48) (src dst : Buf) (ss ds width height : Nat) :
    afterDecoding .UnCompressed p src ss dst ds width height = .throws := by
  obtain ⟨h1, h2, h3, h4, h5⟩ := hp
  cases p <;> first | rfl | contradiction

example : PixelType.Gray32Float ≠ .Gray8 ∧ PixelType.Gray32Float ≠ .Bgr24 ∧ PixelType.Gray32Float ≠ .Bgra32 ∧ PixelType.Gray32Float ≠ .Gray16 ∧
    PixelType.Gray32Float ≠ .Bgr48 := by decide

/-- **C85 (zstd0; violates the property).** Samples decoded from zstd0 data are not converted: every sample whose two bytes differ has a wrong value on a big-endian
host. -/
theorem C85_zstd_violated (p : PixelType) (decoded dst : Buf) (ss ds width height : Nat) :
    ∃ b, afterDecoding .Zstd0 p decoded ss dst ds width height = .ok (b, ss) ∧ ∀ i, decoded.get i ≠ decoded.get (i + 1) → hostWord b i ≠ sample decoded i :=
  ⟨decoded, rfl, fun i h => sample_ne decoded i h⟩

/-- **C85 (written pixels; violates the property).** The memory of a bitmap is written to the file as it is. A 16-bit bitmap written and read back on the same big-endian
host is different at every sample whose two bytes differ. -/
theorem C85_written_violated (src dst : Buf) (ss ds width height : Nat) (hw : 2 * width ≤ ds) (hs : ∀ y < height, y * ss + 2 * width ≤ src.size)
    (hd : ∀ y < height, y * ds + 2 * width ≤ dst.size) :
    ∃ b, afterDecoding .UnCompressed .Gray16 src ss dst ds width height = .ok (b, ds) ∧
      ∀ y < height, ∀ x < width, src.get (y * ss + 2 * x) ≠ src.get (y * ss + 2 * x + 1) → hostWord b (y * ds + 2 * x) ≠ hostWord src (y * ss + 2 * x) := by
  obtain ⟨b, h1, -, h3⟩ := C85_pixels_partial .Gray16 width width (.inl ⟨rfl, rfl⟩) src dst ss ds height hw hs hd
  refine ⟨b, h1, fun y hy x hx hne => ?_⟩
  rw [h3 y hy x hx]
  exact fun he => sample_ne src _ hne he.symm

end Verif
