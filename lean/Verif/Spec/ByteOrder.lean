import Verif.Model.ByteOrder

/-!
# Hosts with the other byte order: specification

A structure is a list of items: numbers of a width, and bytes which are not numbers. Its memory depends on the host for the numbers only. The lists below are the
declarations in CziStructs.h, member by member.
-/

namespace Verif.ByteOrder.Spec

open Verif.Czi

/-- A member of a structure: a number with a width in bytes, or bytes. -/
inductive Item where
  | num (width value : Nat)
  | bytes (l : List UInt8)

/-- The memory of a structure: numbers with their least significant byte first, or (`big`) their most significant byte first. -/
def image (big : Bool) : List Item → List UInt8
  | [] => []
  | .num w v :: r => (if big then (le w v).reverse else le w v) ++ image big r
  | .bytes l :: r => l ++ image big r

/-- What is declared of a member: a number of this width, or an array of so many bytes. -/
inductive Member where
  | number (width : Nat)
  | array (length : Nat)
  deriving DecidableEq

/-- The member an item is a value of. -/
def Item.member : Item → Member
  | .num w _ => .number w
  | .bytes l => .array l.length

open Member

/-- `libCZI::GUID`. -/
def guidDecl : List Member := [number 4, number 2, number 2, array 8]

/-- `SegmentHeader`, CziStructs.h:59-64. -/
def segHeaderDecl : List Member := [array 16, number 8, number 8]

/-- `FileHeaderSegment`, CziStructs.h:99-113 and 321-325. -/
def fileHeaderDecl : List Member :=
  segHeaderDecl ++ [number 4, number 4, number 4, number 4] ++ guidDecl ++ guidDecl ++ [number 4, number 8, number 8, number 4, number 8, array 432]

/-- `SubBlockDirectoryEntryDE`, CziStructs.h:117-146. -/
def deDecl : List Member :=
  [array 2, number 4, number 4, number 4, array 2] ++ List.replicate 16 (number 4) ++ [number 8, number 4, array 16] ++ List.replicate 5 (number 4)

/-- `AttachmentEntryA1`, CziStructs.h:187-196. -/
def attEntryDecl : List Member := [array 2, array 10, number 8, number 4] ++ guidDecl ++ [array 8, array 80]

/-- `AttachmentSegment`, CziStructs.h:198-208 and 314-318. -/
def attSegmentDecl : List Member := segHeaderDecl ++ [number 8, array 8] ++ attEntryDecl ++ [array 112]

/-- `AttachmentDirectorySegment`, CziStructs.h:210-215. -/
def attDirDecl : List Member := segHeaderDecl ++ [number 4, array 252]

/-- `SubBlockDirectorySegment`, CziStructs.h:177-182. -/
def subDirDecl : List Member := segHeaderDecl ++ [number 4, array 124]

/-- `MetadataSegment`, CziStructs.h:239-244. -/
def metadataDecl : List Member := segHeaderDecl ++ [number 4, number 4, array 248]

/-- `SubBlockSegment` before the entry, CziStructs.h:221-233. -/
def subBlockDecl : List Member := segHeaderDecl ++ [number 4, number 4, number 8]

/-- The fixed part of `SubBlockDirectoryEntryDV`, CziStructs.h:155-175. -/
def dvDecl : List Member := [array 2, number 4, number 8, number 4, number 4, array 6, number 4]

/-- `DimensionEntryDV`, CziStructs.h:21-28. -/
def dimDecl : List Member := [array 4, number 4, number 4, number 4, number 4]

/-- The structures with a conversion of their own. -/
inductive Struct where
  | segmentHeader | fileHeader | attachmentEntry | attachment | attachmentDirectory | subBlockDirectory | metadata | subBlock | entryDV | entryDE | guid

/-- Their declarations. -/
def Struct.decl : Struct → List Member
  | .segmentHeader => segHeaderDecl
  | .fileHeader => fileHeaderDecl
  | .attachmentEntry => attEntryDecl
  | .attachment => attSegmentDecl
  | .attachmentDirectory => attDirDecl
  | .subBlockDirectory => subDirDecl
  | .metadata => metadataDecl
  | .subBlock => subBlockDecl
  | .entryDV => dvDecl
  | .entryDE => deDecl
  | .guid => guidDecl

/-- The conversion the code has for each. -/
def Struct.conversion : Struct → List UInt8 → List UInt8
  | .segmentHeader => convert segHeaderFields
  | .fileHeader => convert fileHeaderFields
  | .attachmentEntry => convert attEntryFields
  | .attachment => convert attSegmentFields
  | .attachmentDirectory => convert dirSegmentFields
  | .subBlockDirectory => convert dirSegmentFields
  | .metadata => convert metadataSegmentFields
  | .subBlock => convert subBlockSegmentFields
  | .entryDV => convert (dvFields 0)
  | .entryDE => convert deFields
  | .guid => convert (guidFields 0)

/-- A dimension of a directory entry: four characters, start, size, the bits of the start coordinate and the stored size. -/
structure DimRec where
  name : List UInt8
  start : Nat
  size : Nat
  coordinate : Nat
  stored : Nat

/-- The members of a dimension. -/
def DimRec.items (d : DimRec) : List Item := [.bytes d.name, .num 4 d.start, .num 4 d.size, .num 4 d.coordinate, .num 4 d.stored]

/-- An entry of the sub-block directory. -/
structure DV where
  pixelType : Nat
  position : Nat
  part : Nat
  compression : Nat
  spare : List UInt8
  dims : List DimRec

/-- The members of an entry. -/
def DV.items (e : DV) : List Item :=
  [.bytes (ascii "DV"), .num 4 e.pixelType, .num 8 e.position, .num 4 e.part, .num 4 e.compression, .bytes e.spare, .num 4 e.dims.length] ++ e.dims.flatMap DimRec.items

/-- An entry which fits the declaration, with all start coordinates zero as `CCziWriter` and `CCziReaderWriter` leave them (CziWriter.cpp:286-321). -/
def DV.Fits (e : DV) : Prop := e.spare.length = 6 ∧ e.dims.length < 2 ^ 31 ∧ ∀ d ∈ e.dims, d.name.length = 4 ∧ d.coordinate = 0

/-- The members of the segment of a directory. -/
def directoryItems (magic : List UInt8) (allocated used : Nat) (entries : List DV) (spare : List UInt8) : List Item :=
  [.bytes magic, .num 8 allocated, .num 8 used, .num 4 entries.length, .bytes spare] ++ entries.flatMap DV.items

/-- The members of the segment of a sub-block up to its entry. -/
def subBlockItems (magic : List UInt8) (allocated used metadata attachment data : Nat) (e : DV) : List Item :=
  [.bytes magic, .num 8 allocated, .num 8 used, .num 4 metadata, .num 4 attachment, .num 8 data] ++ e.items

/-- The dimension entry a writer makes. -/
def dimRec (c : Char) (start size stored : Int) : DimRec :=
  ⟨UInt8.ofNat c.toNat :: zeros 3, (start % (2 ^ 32 : Int)).toNat, (size % (2 ^ 32 : Int)).toNat, 0, (stored % (2 ^ 32 : Int)).toNat⟩

/-- The record for a directory entry: X, Y, M if there is an m-index, then the dimensions of the coordinate. -/
def entryRec (e : Entry) : DV :=
  { pixelType := (e.pixelType % (2 ^ 32 : Int)).toNat
    position := e.filePosition
    part := 0
    compression := (e.compression % (2 ^ 32 : Int)).toNat
    spare := e.pyramidType :: zeros 5
    dims := [dimRec 'X' e.x e.width e.storedWidth, dimRec 'Y' e.y e.height e.storedHeight] ++
      (if e.isMIndexValid then [dimRec 'M' e.mIndex 1 1] else []) ++
      e.coordinate.validDims.map (fun d => dimRec (dimensionToChar d) ((e.coordinate d).getD 0) 1 1) }

/-- A GUID whose three numbers have their bytes in the opposite order. -/
def mirrored (g : Guid) : Guid :=
  ⟨UInt32.ofNat (unle (le 4 g.data1.toNat).reverse), UInt16.ofNat (unle (le 2 g.data2.toNat).reverse), UInt16.ofNat (unle (le 2 g.data3.toNat).reverse), g.data4⟩

/-- A sample of two bytes as the format has it: least significant byte first. -/
def sample (b : Buf) (i : Nat) : Nat := (b.get i).toNat + 256 * (b.get (i + 1)).toNat

end Verif.ByteOrder.Spec
