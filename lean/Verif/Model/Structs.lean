import Verif.Model.Disk
import Verif.Model.SubBlock

/-!
# The on-disk structures

Each encoder gives the bytes of the packed structure as the code fills it, each decoder the fields as the code reads
them. Spare bytes are written as zero.
-/

namespace Verif.Czi

/-- The bytes of an ASCII string. -/
def ascii (s : String) : List UInt8 := s.toList.map (fun c => UInt8.ofNat c.toNat)

/-- A segment identifier: 16 bytes, zero-padded. -/
def magic16 (s : String) : List UInt8 := ascii s ++ zeros (16 - (ascii s).length)

/-- `CCZIParse::FILEHDRMAGIC`, CziParse.cpp:17. -/
def fileMagic : List UInt8 := magic16 "ZISRAWFILE"
/-- `CCZIParse::SUBBLKDIRMAGIC`, CziParse.cpp:18. -/
def subDirMagic : List UInt8 := magic16 "ZISRAWDIRECTORY"
/-- `CCZIParse::SUBBLKMAGIC`, CziParse.cpp:19. -/
def subBlockMagic : List UInt8 := magic16 "ZISRAWSUBBLOCK"
/-- `CCZIParse::METADATASEGMENTMAGIC`, CziParse.cpp:20. -/
def metadataMagic : List UInt8 := magic16 "ZISRAWMETADATA"
/-- `CCZIParse::ATTACHMENTSDIRMAGC`, CziParse.cpp:21. -/
def attDirMagic : List UInt8 := magic16 "ZISRAWATTDIR"
/-- `CCZIParse::ATTACHMENTBLKMAGIC`, CziParse.cpp:22. -/
def attMagic : List UInt8 := magic16 "ZISRAWATTACH"
/-- `CCZIParse::DELETEDSEGMENTMAGIC`, CziParse.cpp:23. -/
def deletedMagic : List UInt8 := magic16 "DELETED"

/-- `struct SegmentHeader`, CziStructs.h:59-64: 32 bytes. -/
def segHeader (magic : List UInt8) (alloc used : Nat) : List UInt8 := magic ++ le 8 alloc ++ le 8 used

/-- The segment identifier of a segment. -/
def segMagic (b : List UInt8) : List UInt8 := field b 0 16
/-- `SegmentHeader::AllocatedSize` (int64). -/
def segAlloc (b : List UInt8) : Int := fieldInt b 16 8
/-- `SegmentHeader::UsedSize` (int64). -/
def segUsed (b : List UInt8) : Int := fieldInt b 24 8

/-- `struct GUID`, libCZI_Utilities.h:23-28: 16 bytes. -/
def guidBytes (g : Guid) : List UInt8 :=
  le 4 g.data1.toNat ++ le 2 g.data2.toNat ++ le 2 g.data3.toNat ++ g.data4.toList

/-- A vector of `n` bytes from a list (padded with zeros if too short). -/
def vecOf (n : Nat) (l : List UInt8) : Vector UInt8 n := Vector.ofFn (fun i => l.getD i.val 0)

/-- Reading a GUID. -/
def guidOf (b : List UInt8) : Guid :=
  ⟨UInt32.ofNat (fieldNat b 0 4), UInt16.ofNat (fieldNat b 4 2), UInt16.ofNat (fieldNat b 6 2), vecOf 8 (field b 8 8)⟩

/-- `struct FileHeaderSegment` (32 + 512 bytes), CziStructs.h:99-113, as filled in `CCziWriter::WriteFileHeader`, CziWriter.cpp:1118-1135, and
`CCziReaderWriter::UpdateFileHeader`, CziReaderWriter.cpp:338-355. -/
def fileHeader (guid : Guid) (subDir metadata attDir : Nat) : List UInt8 :=
  segHeader fileMagic 512 512 ++ leInt 4 1 ++ leInt 4 0 ++ zeros 8 ++ guidBytes guid ++ guidBytes guid ++ zeros 4 ++
  le 8 subDir ++ le 8 metadata ++ zeros 4 ++ le 8 attDir ++ zeros 432

/-- What the reader takes from the file header: `CFileHeaderSegmentData`, FileHeaderSegmentData.h:17-66. -/
structure Header where
  major : Int
  minor : Int
  guid : Guid
  subDirPos : Nat
  metadataPos : Nat
  attDirPos : Nat
  deriving DecidableEq

/-- `CFileHeaderSegmentData(const FileHeaderSegmentData*)`, FileHeaderSegmentData.h:33-41 (positions are reinterpreted as
unsigned). -/
def headerOf (b : List UInt8) : Header :=
  ⟨fieldInt b 32 4, fieldInt b 36 4, guidOf (field b 64 16), fieldNat b 84 8, fieldNat b 92 8, fieldNat b 104 8⟩

/-- `struct DimensionEntryDV`, CziStructs.h (20 bytes), as filled in CziWriter.cpp:286-321 and 349-384, with
`SetDimensionInDimensionEntry`, lines 389-395. `StartCoordinate` is 0.0f, four zero bytes. -/
def dimBytes (c : Char) (start size stored : Int) : List UInt8 :=
  UInt8.ofNat c.toNat :: zeros 3 ++ leInt 4 start ++ leInt 4 size ++ zeros 4 ++ leInt 4 stored

/-- The dimension entries in the order in which they are written: X, Y, M if there is an m-index, then the dimensions of the coordinate.
CziWriter.cpp:286-321 and 349-384. -/
def dimList (c : Coord) (m : Option Int) (x y w h sw sh : Int) : List (List UInt8) :=
  [dimBytes 'X' x w sw, dimBytes 'Y' y h sh] ++ (m.map (fun v => dimBytes 'M' v 1 1)).toList ++
  c.validDims.map (fun d => dimBytes (dimensionToChar d) ((c d).getD 0) 1 1)

/-- `struct SubBlockDirectoryEntryDV`, CziStructs.h:166-178, as filled in `FillSubBlockDirectoryEntryDv`, CziWriter.cpp:274-322, and
`FillSubBlockDirectoryEntryDV`, lines 336-387 (up to `DimensionCount` dimension entries). -/
def dvBytes (pixelType : Int) (pos : Nat) (compression : Int) (pyramid : UInt8) (dims : List (List UInt8)) : List UInt8 :=
  ascii "DV" ++ leInt 4 pixelType ++ le 8 pos ++ zeros 4 ++ leInt 4 compression ++ [pyramid] ++ zeros 5 ++
  leInt 4 dims.length ++ dims.flatten

/-- The m-index of an entry, if valid. -/
def Entry.mOpt (e : Entry) : Option Int := if e.isMIndexValid then some e.mIndex else none

/-- The dimension entries of a directory entry. -/
def entryDims (e : Entry) : List (List UInt8) :=
  dimList e.coordinate (Entry.mOpt e) e.x e.y e.width e.height e.storedWidth e.storedHeight

/-- A directory entry as written by `FillSubBlockDirectoryEntryDV`, CziWriter.cpp:336-387. -/
def entryBytes (e : Entry) : List UInt8 :=
  dvBytes e.pixelType e.filePosition e.compression e.pyramidType (entryDims e)

/-- `struct AttachmentEntry`, CziAttachmentsDirectory.h:20-26. `filePosition` is the 64-bit pattern. -/
structure AttEntry where
  filePosition : Nat
  guid : Guid
  contentFileType : Vector UInt8 8
  name : Vector UInt8 80
  deriving DecidableEq

/-- `struct AttachmentEntryA1` (128 bytes), CziStructs.h:190-199, as filled in CziWriter.cpp:205-211 and 750-765. -/
def attEntryBytes (pos : Nat) (guid : Guid) (cft : Vector UInt8 8) (name : Vector UInt8 80) : List UInt8 :=
  ascii "A1" ++ zeros 10 ++ le 8 pos ++ zeros 4 ++ guidBytes guid ++ cft.toList ++ name.toList

/-- `strncmp(a, b, n) == 0` for byte lists of length n: equal up to and including the first zero byte. -/
def strncmpEq : List UInt8 → List UInt8 → Bool
  | a :: as, b :: bs => a == b && (a == 0 || strncmpEq as bs)
  | _, _ => true

/-- `CompareForEquality_Id`, CziAttachmentsDirectory.cpp:11-31. -/
def AttEntry.equalId (a b : AttEntry) : Bool :=
  Guid.eq a.guid b.guid && strncmpEq a.name.toList b.name.toList &&
  strncmpEq a.contentFileType.toList b.contentFileType.toList

end Verif.Czi
