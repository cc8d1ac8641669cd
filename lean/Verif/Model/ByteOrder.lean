import Verif.Model.Structs
import Verif.Model.Enum
import Verif.Model.Chunk
import Verif.Model.Mem

/-!
# Hosts with the other byte order

The code compiled for a big-endian host (`LIBCZI_ISBIGENDIANHOST`): numbers in memory have their most significant byte first. Memory is a list of bytes.
-/

namespace Verif.ByteOrder

open Verif.Czi

/-! ## Numbers -/

/-- `Utilities::ConvertInt16ToHostByteOrder`, utilities.cpp:269-293 (the branch without `endian.h`; the masks make the sign irrelevant). -/
def swap16 (v : BitVec 16) : BitVec 16 := (v &&& 0x00ff#16) <<< 8 ||| (v &&& 0xff00#16) >>> 8

/-- `Utilities::ConvertInt32ToHostByteOrder`, utilities.cpp:295-320. -/
def swap32 (v : BitVec 32) : BitVec 32 :=
  (v &&& 0xff000000#32) >>> 24 ||| (v &&& 0x00ff0000#32) >>> 8 ||| (v &&& 0x0000ff00#32) <<< 8 ||| (v &&& 0x000000ff#32) <<< 24

/-- `Utilities::ConvertInt64ToHostByteOrder`, utilities.cpp:322-354. -/
def swap64 (v : BitVec 64) : BitVec 64 :=
  (v &&& 0xff00000000000000#64) >>> 56 ||| (v &&& 0x00ff000000000000#64) >>> 40 ||| (v &&& 0x0000ff0000000000#64) >>> 24 ||| (v &&& 0x000000ff00000000#64) >>> 8 |||
  (v &&& 0x00000000ff000000#64) <<< 8 ||| (v &&& 0x0000000000ff0000#64) <<< 24 ||| (v &&& 0x000000000000ff00#64) <<< 40 ||| (v &&& 0x00000000000000ff#64) <<< 56

/-- The number in memory on a big-endian host. -/
def hostNat (l : List UInt8) : Nat := unle l.reverse

/-- The memory of a number of `n` bytes on a big-endian host. -/
def hostBytes (n v : Nat) : List UInt8 := (le n v).reverse

/-- The three conversions by width. -/
def swapNat : Nat → Nat → Nat
  | 2, v => (swap16 (BitVec.ofNat 16 v)).toNat
  | 4, v => (swap32 (BitVec.ofNat 32 v)).toNat
  | 8, v => (swap64 (BitVec.ofNat 64 v)).toNat
  | _, v => v

/-- Converting the number of `w` bytes at `off`. -/
def swapAt (b : List UInt8) (off w : Nat) : List UInt8 :=
  b.take off ++ hostBytes w (swapNat w (hostNat (field b off w))) ++ b.drop (off + w)

/-- Converting several numbers (offset and width), one after the other. -/
def convert (fields : List (Nat × Nat)) (b : List UInt8) : List UInt8 := fields.foldl (fun b f => swapAt b f.1 f.2) b

/-! ## Structures -/

/-- `Utilities::ConvertGuidToHostByteOrder`, utilities.cpp:356-364, for a GUID at `off`. -/
def guidFields (off : Nat) : List (Nat × Nat) := [(off, 4), (off + 4, 2), (off + 6, 2)]

/-- `Convert(SegmentHeader*)`, CziStructs.cpp:11-18. -/
def segHeaderFields : List (Nat × Nat) := [(16, 8), (24, 8)]

/-- `Convert(FileHeaderSegment*)`, CziStructs.cpp:106-113, with `Convert(FileHeaderSegmentData*)`, lines 20-36. -/
def fileHeaderFields : List (Nat × Nat) :=
  segHeaderFields ++ [(32, 4), (36, 4), (40, 4), (44, 4)] ++ guidFields 48 ++ guidFields 64 ++ [(80, 4), (84, 8), (92, 8), (100, 4), (104, 8)]

/-- `Convert(AttachmentEntryA1*)`, CziStructs.cpp:38-46. -/
def attEntryFields : List (Nat × Nat) := [(12, 8), (20, 4)] ++ guidFields 24

/-- `Convert(SubBlockDirectoryEntryDV*)`, CziStructs.cpp:48-58, for an entry at `off`. -/
def dvFields (off : Nat) : List (Nat × Nat) := [(off + 2, 4), (off + 6, 8), (off + 14, 4), (off + 18, 4), (off + 28, 4)]

/-- `Convert(DimensionEntryDV*, int)`, CziStructs.cpp:60-74, for `n` entries at `off`. The field `StartCoordinate` (at 12) is not converted. -/
def dimFields (off : Nat) : Nat → List (Nat × Nat)
  | 0 => []
  | n + 1 => [(off + 4, 4), (off + 8, 4), (off + 16, 4)] ++ dimFields (off + 20) n

/-- `Convert(SubBlockDirectoryEntryDE*)`, CziStructs.cpp:76-104. -/
def deFields : List (Nat × Nat) :=
  [(2, 4), (6, 4), (10, 4), (16, 4), (20, 4), (24, 4), (28, 4), (32, 4), (36, 4), (40, 4), (44, 4), (48, 4), (52, 4), (56, 4), (60, 4), (64, 4), (68, 4), (72, 4),
    (76, 4), (80, 8), (88, 4), (108, 4), (112, 4), (116, 4), (120, 4), (124, 4)]

/-- `Convert(AttachmentSegment*)`, CziStructs.cpp:115-124. -/
def attSegmentFields : List (Nat × Nat) := segHeaderFields ++ [(32, 8), (60, 8), (68, 4)] ++ guidFields 72

/-- `Convert(AttachmentDirectorySegment*)`, CziStructs.cpp:126-133, and `Convert(SubBlockDirectorySegment*)`, lines 145-152. -/
def dirSegmentFields : List (Nat × Nat) := segHeaderFields ++ [(32, 4)]

/-- `Convert(MetadataSegment*)`, CziStructs.cpp:135-143. -/
def metadataSegmentFields : List (Nat × Nat) := segHeaderFields ++ [(32, 4), (36, 4)]

/-- `Convert(SubBlockSegment*)`, CziStructs.cpp:154-163. -/
def subBlockSegmentFields : List (Nat × Nat) := segHeaderFields ++ [(32, 4), (36, 4), (40, 8)]

/-- `ConvertAndAllSubBlkEntries`, CziStructs.cpp:165-178: the segment of a sub-block before it is written. The number of dimensions is taken first. -/
def convertSubBlock (b : List UInt8) : List UInt8 :=
  let n := hostNat (field b 76 4)
  let b := convert subBlockSegmentFields b
  if field b 48 2 = ascii "DV" then convert (dimFields 80 n) (convert (dvFields 48) b) else b

/-- The loop in `ConvertAndAllSubBlkDirEntries`: `n` entries, the next one at `off`. -/
def convertEntries : Nat → Nat → List UInt8 → List UInt8
  | 0, _, b => b
  | n + 1, off, b =>
    let dims := hostNat (field b (off + 28) 4)
    convertEntries n (off + (32 + dims * 20)) (convert (dimFields (off + 32) dims) (convert (dvFields off) b))

/-- `ConvertAndAllSubBlkDirEntries`, CziStructs.cpp:180-199: the segment of a sub-block directory before it is written. The counts are not negative. -/
def convertSubDir (b : List UInt8) : List UInt8 :=
  let n := hostNat (field b 32 4)
  convertEntries n 160 (convert dirSegmentFields b)

/-! ## The file header a reader-writer remembers -/

/-- A GUID in the memory of the host. -/
def hostGuid (b : List UInt8) : Guid :=
  ⟨UInt32.ofNat (hostNat (field b 0 4)), UInt16.ofNat (hostNat (field b 4 2)), UInt16.ofNat (hostNat (field b 6 2)), vecOf 8 (field b 8 8)⟩

/-- The memory of a GUID. -/
def hostGuidBytes (g : Guid) : List UInt8 := hostBytes 4 g.data1.toNat ++ hostBytes 2 g.data2.toNat ++ hostBytes 2 g.data3.toNat ++ g.data4.toList

/-- The memory of a `FileHeaderSegment` as filled in `ReadCziStructure`, CziReaderWriter.cpp:435-452, and `UpdateFileHeader`, lines 338-351. -/
def hostFileHeader (guid : Guid) (subDir metadata attDir : Nat) : List UInt8 :=
  fileMagic ++ hostBytes 8 512 ++ hostBytes 8 512 ++ hostBytes 4 1 ++ hostBytes 4 0 ++ zeros 8 ++ hostGuidBytes guid ++ hostGuidBytes guid ++ zeros 4 ++
  hostBytes 8 subDir ++ hostBytes 8 metadata ++ zeros 4 ++ hostBytes 8 attDir ++ zeros 432

/-- `CFileHeaderSegmentData(const FileHeaderSegmentData*)`, FileHeaderSegmentData.h:33-41, on a big-endian host: major version and GUID. -/
def hostHeader (b : List UInt8) : Nat × Guid := (hostNat (field b 32 4), hostGuid (field b 64 16))

/-- Creating a new document with the reader-writer, CziReaderWriter.cpp:432-458: what is written, and the header remembered, which is taken from the memory *after*
its conversion. -/
def newDocument (guid : Guid) : List UInt8 × (Nat × Guid) :=
  let mem := convert fileHeaderFields (hostFileHeader guid 0 0 0)
  (mem, hostHeader mem)

/-- `UpdateFileHeader`, CziReaderWriter.cpp:338-355, for the GUID remembered: what is written. -/
def updatedHeader (guid : Guid) (subDir metadata attDir : Nat) : List UInt8 := convert fileHeaderFields (hostFileHeader guid subDir metadata attDir)

/-- `UpdateFileHeaderGuid`, CziReaderWriter.cpp:463-475: what is written, and the GUID returned (and remembered, lines 386-391). -/
def forcedGuid (guid : Guid) : List UInt8 × Guid :=
  let mem := convert (guidFields 0) (hostGuidBytes guid)
  (mem, hostGuid mem)

/-! ## Pixels -/

/-- The 16-bit number at `i` in the memory of a big-endian host. -/
def hostWord (b : Buf) (i : Nat) : Nat := 256 * (b.get i).toNat + (b.get (i + 1)).toNat

/-- `CopyConvertBigEndian`, BitmapOperations.cpp:391-423, one sample: read, exchange the bytes, write. -/
def convertWord (src : Buf) (s : Nat) (dst : Buf) (d : Nat) : Option Buf :=
  (src.read s).bind fun a => (src.read (s + 1)).bind fun b =>
    let v := swap16 (BitVec.ofNat 16 (256 * a.toNat + b.toNat))
    (dst.write d (UInt8.ofNat (v.toNat / 256))).bind fun dst => dst.write (d + 1) (UInt8.ofNat v.toNat)

/-- Rows of `n` samples. -/
def convertRows (src : Buf) (srcStride : Nat) (dst : Buf) (dstStride n height : Nat) : Option Buf :=
  loop height (fun y dst => loop n (fun x dst => convertWord src (y * srcStride + 2 * x) dst (y * dstStride + 2 * x)) dst) dst

/-- `CopyConvertBigEndian`, BitmapOperations.cpp:391-423. Strides are not negative; `3 * width` does not overflow. -/
def copyConvert (p : PixelType) (src : Buf) (srcStride : Nat) (dst : Buf) (dstStride width height : Nat) : Outcome Buf :=
  match p with
  | .Gray16 => match convertRows src srcStride dst dstStride width height with | some b => .ok b | none => .undefined
  | .Bgr48 => match convertRows src srcStride dst dstStride (3 * width) height with | some b => .ok b | none => .undefined
  | _ => .throws

/-- `CziUtils::IsPixelTypeEndianessAgnostic`, CziUtils.cpp:196-207. -/
def agnostic : PixelType → Bool
  | .Gray8 | .Bgr24 | .Bgra32 => true
  | _ => false

/-- What `CreateBitmapFromSubBlock` does after decoding, CreateBitmap.cpp:122-127 and 164-169 (uncompressed data; `dst` is the new bitmap of `ConvertToBigEndian`,
BitmapOperations.cpp:378-389) and lines 174-190 (other data: nothing). -/
def afterDecoding (c : CompressionMode) (p : PixelType) (decoded : Buf) (stride : Nat) (dst : Buf) (dstStride width height : Nat) : Outcome (Buf × Nat) :=
  match c with
  | .UnCompressed =>
    if agnostic p then .ok (decoded, stride)
    else match copyConvert p decoded stride dst dstStride width height with
      | .ok b => .ok (b, dstStride)
      | .throws => .throws
      | .undefined => .undefined
  | _ => .ok (decoded, stride)

end Verif.ByteOrder
