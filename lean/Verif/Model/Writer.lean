import Verif.Model.Structs

/-!
# Writing segments (`CWriterUtils`) and the CZI writer (`CCziWriter`)

Simplification: `size_t`/`uint64_t` values are natural numbers (no overflow of 64 bits), except in `WriteZeroes`, where the
counter is decremented below zero by design. Progress notifications and logging are omitted.
-/

namespace Verif.Czi

/-! ## Payloads -/

/-- The answers of a `getData`/`getMetaData`/`getAttachment` functor (libCZI_Write.h:246-251) over the calls made: a finite
number of chunks, then either `false` (`stop`) or `true` with a null pointer (`null`). A functor that answers forever with
chunks is cut off by the writer once the announced size is reached, so it is represented by any long enough chunk list; only a functor
that delivers empty chunks forever (for which the writer does not terminate) is not represented. -/
structure Source where
  chunks : List (List UInt8)
  null : Bool

/-- The bytes offered by the functor. -/
def Source.bytes (s : Source) : List UInt8 := s.chunks.flatten

/-- The loop of `CWriterUtils::WriteZeroes`, CziWriter.cpp:473-480: `i` is the loop counter, `count` the *decremented* counter
(modulo 2^64), which also is in the loop bound. Result `none`: not ended within `fuel` iterations. -/
def zeroLoop (filePos : Nat) : Nat → Nat → Nat → Option (List Write × Nat)
  | 0, _, _ => none
  | fuel + 1, i, count =>
    if i < ((count + 4095) % 2 ^ 64) / 4096 then
      let n := min 4096 count
      (zeroLoop filePos fuel (i + 1) ((count + (2 ^ 64 - 4096)) % 2 ^ 64)).map
        (fun r => ((filePos + i * 4096, zeros n) :: r.1, n + r.2))
    else some ([], 0)

/-- `CWriterUtils::WriteZeroes`, CziWriter.cpp:469-483: returns the number of bytes written. -/
def writeZeroes (filePos count : Nat) : Plan Nat :=
  match zeroLoop filePos (count + 2) 0 (count % 2 ^ 64) with
  | some (ws, n) => ⟨ws, .ok n⟩
  | none => ⟨[], .error .diverges⟩

/-- The loop of `CWriterUtils::WriteSubBlkDataGeneric`, CziWriter.cpp:513-545. -/
def payloadLoop (filePos size : Nat) (null : Bool) : Nat → List (List UInt8) → Plan Nat
  | offset, [] =>
    if null then Plan.throw .getDataCall
    else if offset < size then do
      let n ← writeZeroes (filePos + offset) (size - offset)
      return offset + n
    else return offset
  | offset, c :: cs => do
    let n := min (size - offset) c.length
    Plan.write (filePos + offset) (c.take n)
    if offset + n ≥ size then return offset + n
    else payloadLoop filePos size null (offset + n) cs

/-- `CWriterUtils::WriteSubBlkDataGeneric`, CziWriter.cpp:507-550. `none`: an empty `std::function` (calling it throws
`bad_function_call`). -/
def writePayload (filePos size : Nat) (src : Option Source) : Plan Nat :=
  if size > 0 then
    match src with
    | some s => payloadLoop filePos size s.null 0 s.chunks
    | none => Plan.throw .logicError
  else return 0

/-! ## Sub-block segments -/

/-- `struct AddSubBlockInfo`, libCZI_Write.h:183-273. `mIndex = none` iff `mIndexValid` is false. -/
structure AddInfo where
  coordinate : Coord
  mIndex : Option Int
  x : Int
  y : Int
  logicalWidth : Int
  logicalHeight : Int
  physicalWidth : Int
  physicalHeight : Int
  pixelType : PixelType
  pyramidType : PyramidType
  compression : Int
  sizeMetadata : Nat
  sizeData : Nat
  sizeAttachment : Nat
  metadata : Option Source
  data : Option Source
  attachment : Option Source

/-- `CWriterUtils::AlignSegmentSize`, CziWriter.cpp:884-887. -/
def align (n : Nat) : Nat := (n + 31) / 32 * 32

/-- The dimension entries of a sub-block, CziWriter.cpp:286-321. -/
def AddInfo.dims (a : AddInfo) : List (List UInt8) :=
  dimList a.coordinate a.mIndex a.x a.y a.logicalWidth a.logicalHeight a.physicalWidth a.physicalHeight

/-- `CalcCountOfDimensionsEntriesInDirectoryEntryDV`, CziWriter.cpp:409-419. -/
def AddInfo.dimCount (a : AddInfo) : Nat := 2 + a.coordinate.count + (if a.mIndex.isSome then 1 else 0)

/-- `CalcSubBlockSegmentDataSize`, CziWriter.cpp:397-407 (including the segment header). -/
def AddInfo.segSize (a : AddInfo) : Nat := max (32 + 256) (32 + 16 + (32 + 20 * a.dimCount))

/-- The used size from `CalculateSegmentDataSize`, CziWriter.cpp:421-441 (including the segment header). -/
def AddInfo.usedSize (a : AddInfo) : Nat := a.segSize + a.sizeData + a.sizeMetadata + a.sizeAttachment

/-- The fixed part of a sub-block segment: `FillSubBlockSegment` to `FillSubBlockDirectoryEntryDv`, CziWriter.cpp:233-322, in a
zero-initialised structure of which `segSize` bytes are written. `alloc` is the allocated size in the header. -/
def AddInfo.segBytes (a : AddInfo) (pos alloc : Nat) : List UInt8 :=
  let b := segHeader subBlockMagic alloc (a.usedSize - 32) ++ leInt 4 a.sizeMetadata ++ leInt 4 a.sizeAttachment ++
    le 8 a.sizeData ++
    dvBytes (intFromPixelType a.pixelType) pos a.compression (byteFromPyramidType a.pyramidType) a.dims
  b ++ zeros (a.segSize - b.length)

/-- `CWriterUtils::WriteSubBlock`, CziWriter.cpp:131-190; `specified` is the specified allocated size, if any. Returns the number of bytes
written. (The branch for `sbBlkSegmentSize > sizeof(SubBlockSegment)` does the same with a heap buffer.) -/
def writeSubBlock (pos : Nat) (specified : Option Nat) (a : AddInfo) : Plan Nat := do
  -- FillSubBlockSegmentData, lines 256-264
  if a.sizeMetadata > 2147483647 then Plan.throw .invalidArgument
  if a.sizeAttachment > 2147483647 then Plan.throw .invalidArgument
  let own := align a.usedSize - 32
  let alloc ← (match specified with
    | some s => if own > s then Plan.throw .runtimeError else pure s
    | none => pure own : Plan Nat)
  Plan.write pos (a.segBytes pos alloc)
  let n1 := a.segSize
  let m ← writePayload (pos + n1) a.sizeMetadata a.metadata
  let n2 := n1 + m
  let d ← writePayload (pos + n2) a.sizeData a.data
  let n3 := n2 + d
  let t ← writePayload (pos + n3) a.sizeAttachment a.attachment
  let n4 := n3 + t
  if n4 < alloc + 32 then do
    let z ← writeZeroes (pos + n4) (alloc + 32 - n4)
    return n4 + z
  else return n4

/-- `CWriterUtils::CheckAddSubBlockArguments`, CziWriter.cpp:786-813. -/
def AddInfo.check (a : AddInfo) : Bool :=
  !(decide (a.sizeData > 0) && a.data.isNone) && !(decide (a.sizeMetadata > 0) && a.metadata.isNone) &&
  !(decide (a.sizeAttachment > 0) && a.attachment.isNone) &&
  !(decide (a.logicalWidth < 0) || decide (a.logicalHeight < 0) || decide (a.physicalWidth < 0) ||
    decide (a.physicalHeight < 0)) &&
  !(decide (a.compression = compressionModeToInt .Invalid))

/-- `CWriterUtils::SubBlkEntryFromAddSubBlockInfo`, CziWriter.cpp:830-851, with the file position set. -/
def AddInfo.entry (a : AddInfo) (pos : Nat) : Entry :=
  { coordinate := a.coordinate, mIndex := a.mIndex.getD intMin, x := a.x, y := a.y,
    width := a.logicalWidth, height := a.logicalHeight,
    storedWidth := a.physicalWidth, storedHeight := a.physicalHeight,
    pixelType := intFromPixelType a.pixelType, filePosition := pos,
    compression := a.compression, pyramidType := byteFromPyramidType a.pyramidType }

/-! ## Attachments -/

/-- `struct AddAttachmentInfo`, libCZI_Write.h:345-380. `data = none`: null pointer with `dataSize > 0`; otherwise the `dataSize`
bytes pointed to. -/
structure AddAtt where
  guid : Guid
  contentFileType : Vector UInt8 8
  name : Vector UInt8 80
  data : Option (List UInt8)

/-- The data of the attachment. -/
def AddAtt.bytes (a : AddAtt) : List UInt8 := a.data.getD []

/-- The fixed part of an attachment segment, CziWriter.cpp:194-211: 32 + 256 bytes. -/
def AddAtt.segBytes (a : AddAtt) (pos alloc : Nat) : List UInt8 :=
  segHeader attMagic alloc (256 + a.bytes.length) ++ le 8 a.bytes.length ++ zeros 8 ++
  attEntryBytes pos a.guid a.contentFileType a.name ++ zeros 112

/-- `CWriterUtils::WriteAttachment`, CziWriter.cpp:192-231. -/
def writeAttachment (pos : Nat) (specified : Option Nat) (a : AddAtt) : Plan Nat := do
  let alloc := specified.getD (align (256 + a.bytes.length))
  Plan.write pos (a.segBytes pos alloc)
  Plan.write (pos + 288) a.bytes
  let n := 288 + a.bytes.length
  if alloc + 32 > n then do
    let z ← writeZeroes (pos + n) (alloc + 32 - n)
    return n + z
  else return n

/-- `CWriterUtils::CheckAddAttachmentArguments`, CziWriter.cpp:815-821. -/
def AddAtt.check (a : AddAtt) : Bool := a.data.isSome

/-- `CWriterUtils::AttchmntEntryFromAddAttachmentInfo`, CziWriter.cpp:860-868, with the file position set. -/
def AddAtt.entry (a : AddAtt) (pos : Nat) : AttEntry := ⟨pos, a.guid, a.contentFileType, a.name⟩

/-! ## Metadata -/

/-- `struct WriteMetadataInfo`, libCZI_Write.h:389-398. `none`: null pointer with a size > 0. -/
structure MetaInfo where
  xml : Option (List UInt8)
  attachment : Option (List UInt8)

def MetaInfo.xmlBytes (m : MetaInfo) : List UInt8 := m.xml.getD []
def MetaInfo.attBytes (m : MetaInfo) : List UInt8 := m.attachment.getD []

/-- `CWriterUtils::CheckWriteMetadataArguments`, CziWriter.cpp:870-881. -/
def MetaInfo.check (m : MetaInfo) : Bool := m.xml.isSome && m.attachment.isSome

/-- What is known about a segment already written or reserved: `WrittenSegmentInfo`, CziWriter.h:330-352, if valid. -/
structure SegInfo where
  pos : Nat
  alloc : Nat
  deleted : Bool
  deriving DecidableEq

/-- `CWriterUtils::WriteDeletedSegment`, CziWriter.cpp:458-462. -/
def writeDeleted (pos : Nat) : Plan Unit := Plan.write pos deletedMagic

/-- Marking an existing segment that is not reused as deleted: CziWriter.cpp:589-596, 664-672 and 728-737 (with `existing` invalid:
position and size 0). -/
def markUnused (existing : Option SegInfo) (mark : SegInfo → Bool) : Plan Unit :=
  match existing with
  | some s => if s.alloc > 0 ∧ s.pos > 0 ∧ mark s = true then writeDeleted s.pos else return ()
  | none => return ()

/-- Reuse of an existing segment with at least `need` bytes, or a new one of `own` bytes at `newPos`, CziWriter.cpp:579-598, 654-674 and 711-739:
position and allocated size. -/
def place (existing : Option SegInfo) (mark : SegInfo → Bool) (newPos need own : Nat) : Plan (Nat × Nat) :=
  match existing with
  | some s =>
    if s.alloc ≥ need then return (s.pos, s.alloc)
    else do
      markUnused existing mark
      return (newPos, own)
  | none => return (newPos, own)

/-- A write that is only issued if there is something to write, CziWriter.cpp:603-613. -/
def writeIf (pos : Nat) (l : List UInt8) : Plan Unit := if l.length > 0 then Plan.write pos l else return ()

/-- The fixed part of a metadata segment, CziWriter.cpp:568-576 (32 + 256 bytes). -/
def MetaInfo.segBytes (m : MetaInfo) (alloc : Nat) : List UInt8 :=
  segHeader metadataMagic alloc (256 + (m.xmlBytes.length + m.attBytes.length)) ++
  leInt 4 (toSigned 4 (m.xmlBytes.length % 2 ^ 32)) ++ leInt 4 (toSigned 4 (m.attBytes.length % 2 ^ 32)) ++ zeros 248

/-- `CWriterUtils::WriteMetadata`, CziWriter.cpp:564-624: position and allocated size. -/
def writeMetadata (existing : Option SegInfo) (mark : SegInfo → Bool) (newPos : Nat) (m : MetaInfo) : Plan (Nat × Nat) := do
  let own := align (256 + (m.xmlBytes.length + m.attBytes.length))
  let (pos, alloc) ← place existing mark newPos own own
  Plan.write pos (m.segBytes alloc)
  writeIf (pos + 288) m.xmlBytes
  writeIf (pos + 288 + m.xmlBytes.length) m.attBytes
  let n := 288 + m.xmlBytes.length + m.attBytes.length
  if n < alloc + 32 then do
    let _ ← writeZeroes (pos + n) (alloc + 32 - n)
    return (pos, alloc)
  else return (pos, alloc)

/-! ## Directories -/

/-- The sub-block directory segment with its entries, CziWriter.cpp:639-660. -/
def subDirBytes (alloc : Nat) (es : List Entry) : List UInt8 :=
  segHeader subDirMagic alloc (128 + (es.map entryBytes).flatten.length) ++ leInt 4 es.length ++ zeros 124 ++
  (es.map entryBytes).flatten

/-- `CWriterUtils::WriteSubBlkDirectory`, CziWriter.cpp:626-697: position and allocated size. -/
def writeSubDir (existing : Option SegInfo) (mark : SegInfo → Bool) (newPos : Nat) (es : List Entry) : Plan (Nat × Nat) := do
  let size := (es.map entryBytes).flatten.length
  let own := align (128 + size)
  let (pos, alloc) ← place existing mark newPos own own
  Plan.write pos (subDirBytes alloc es)
  let n := 160 + size
  if n < alloc + 32 then do
    let _ ← writeZeroes (pos + n) (alloc + 32 - n)
    return (pos, alloc)
  else return (pos, alloc)

/-- The fixed part of the attachment directory segment, CziWriter.cpp:701-709: 32 + 256 bytes. -/
def attDirSegBytes (alloc : Nat) (count : Nat) : List UInt8 :=
  segHeader attDirMagic alloc (256 + count * 128) ++ leInt 4 count ++ zeros 252

/-- `CWriterUtils::WriteAttachmentDirectory`, CziWriter.cpp:699-778: position and allocated size. Lines 772-775: the zero fill starts
at the position of the segment plus the number of bytes of the *last* write, not of all writes. -/
def writeAttDir (existing : Option SegInfo) (mark : SegInfo → Bool) (newPos : Nat) (es : List AttEntry) : Plan (Nat × Nat) := do
  let used := 256 + es.length * 128
  let own := align used
  let (pos, alloc) ← place existing mark newPos used own
  Plan.write pos (attDirSegBytes alloc es.length)
  let entries := (es.map (fun e => attEntryBytes e.filePosition e.guid e.contentFileType e.name)).flatten
  Plan.write (pos + 288) entries
  let total := 288 + entries.length
  if total < alloc + 32 then do
    let _ ← writeZeroes (pos + entries.length) (alloc + 32 - entries.length)
    return (pos, alloc)
  else return (pos, alloc)

/-! ## The writer -/

/-- What `ICziWriterInfo` (libCZI_Write.h:29-83) provides. -/
structure WriterInfo where
  guid : Guid
  dimBounds : Option Bounds
  mBounds : Option (Int × Int)
  reservedMetadata : Option Nat
  reservedSubDir : Option Nat
  reservedAttDir : Option Nat

/-- `CCziWriter`, CziWriter.h:215-355. `info = none`: not operational. -/
structure WState where
  allowDuplicates : Bool
  info : Option WriterInfo
  dir : WriterDir
  att : List AttEntry
  next : Nat
  metaSeg : Option SegInfo
  subDirSeg : Option SegInfo
  attDirSeg : Option SegInfo

/-- A freshly constructed writer, CziWriter.cpp:902-905. -/
def WState.init (allowDuplicates : Bool) : WState :=
  ⟨allowDuplicates, none, WriterDir.init allowDuplicates, [], 0, none, none, none⟩

/-- Part of an operation that changes the state only at its end, after its writes. -/
abbrev Phase := WState → Plan WState

/-- `CCziWriter::ReserveMetadataSegment`, CziWriter.cpp:1369-1393. -/
def reserveMetadata (s : Nat) : Phase := fun w => do
  let s := if s = 0 then 10240 else s
  let alloc := align (256 + s)
  Plan.write w.next (segHeader deletedMagic alloc (256 + s) ++ zeros 256)
  return { w with metaSeg := some ⟨w.next, alloc, true⟩, next := w.next + (32 + alloc) }

/-- The number of sub-blocks for which to reserve, CziWriter.cpp:1397-1424 (`int` products without overflow, negative
products, impossible with positive sizes, as 0). -/
def reserveCount (info : WriterInfo) (s : Nat) : Nat :=
  if s ≠ 0 then s
  else
    let s : Int := match info.dimBounds with
      | none => 0
      | some b => b.validDims.foldl (fun s d => match b d with
          | some (_, n) => if s ≠ 0 then s * n else n
          | none => s) 0
    let s : Int := match info.mBounds with
      | none => s
      | some (lo, hi) => if s ≠ 0 then s * (hi - lo + 1) else hi - lo + 1
    if s = 0 then 10 else s.toNat

/-- `CCziWriter::ReserveSubBlockDirectory`, CziWriter.cpp:1395-1442. -/
def reserveSubDir (info : WriterInfo) (s : Nat) : Phase := fun w => do
  let s := reserveCount info s
  let alloc := align (128 + s * (32 + 20 * 40))
  Plan.write w.next (segHeader deletedMagic alloc (128 + s * (32 + 20 * 40)) ++ zeros 128)
  return { w with subDirSeg := some ⟨w.next, alloc, true⟩, next := w.next + (32 + alloc) }

/-- `CCziWriter::ReserveAttachmentDirectory`, CziWriter.cpp:1444-1466. -/
def reserveAttDir (s : Nat) : Phase := fun w => do
  let s := if s = 0 then 10 else s
  let alloc := align (256 + s * 128)
  Plan.write w.next (segHeader deletedMagic alloc (256 + s * 128) ++ zeros 256)
  return { w with attDirSeg := some ⟨w.next, alloc, true⟩, next := w.next + (32 + alloc) }

/-- `CCziWriter::Create`, CziWriter.cpp:911-956 (with a GUID given; otherwise the generated one). -/
def createPhases (info : WriterInfo) : List Phase :=
  [fun w => if w.info.isSome then Plan.throw .logicError else return { w with info := some info },
   fun w => do
    Plan.write 0 (fileHeader info.guid 0 0 0)
    return { w with next := 544 },
   fun w => match info.reservedMetadata with | some s => reserveMetadata s w | none => return w,
   fun w => match info.reservedSubDir with | some s => reserveSubDir info s w | none => return w,
   fun w => match info.reservedAttDir with | some s => reserveAttDir s w | none => return w]

/-- The error for a failed coordinate check: `ThrowIfCoordinateIsOutOfBounds`, CziWriter.cpp:1300-1314. -/
def coordErr : CoordCheck → Option WErr
  | .Ok => none
  | .OutOfBounds => some .coordinateOutOfBounds
  | .InsufficientCoordinate => some .coordinateInsufficient
  | .UnexpectedCoordinate => some .unexpectedDimension

/-- `CCziWriter::SyncAddSubBlock`, CziWriter.cpp:958-976, and `WriteSubBlock`, lines 1067-1074: the directory entry is added before the
segment is written. -/
def addSubBlockPhases (a : AddInfo) : List Phase :=
  [fun w => match w.info with
    | none => Plan.throw .logicError
    | some info =>
      if a.check = false then Plan.throw .invalidArgument
      else match coordErr (checkCoordinate info.dimBounds info.mBounds a.coordinate a.mIndex) with
        | some e => Plan.throw e
        | none =>
          let r := w.dir.tryAdd (a.entry w.next)
          if r.2 = false then Plan.throw .subBlockExists
          else return { w with dir := r.1 },
   fun w => do
    let n ← writeSubBlock w.next none a
    return { w with next := w.next + n }]

/-- `CWriterCziAttachmentsDirectory::TryAddAttachment`, CziAttachmentsDirectory.cpp:71-83. -/
def tryAddAtt (l : List AttEntry) (e : AttEntry) : Option (List AttEntry) :=
  if l.any (fun x => x.equalId e) then none else some (l ++ [e])

/-- `CCziWriter::SyncAddAttachment`, CziWriter.cpp:978-994, and `WriteAttachment`, lines 1137-1144. -/
def addAttachmentPhases (a : AddAtt) : List Phase :=
  [fun w => match w.info with
    | none => Plan.throw .logicError
    | some _ =>
      if a.check = false then Plan.throw .invalidArgument
      else match tryAddAtt w.att (a.entry w.next) with
        | none => Plan.throw .attachmentExists
        | some l => return { w with att := l },
   fun w => do
    let n ← writeAttachment w.next none a
    return { w with next := w.next + n }]

/-- The segment-reusing callers pass `markAsDeletedIfExistingSegmentIsNotUsed = !GetIsMarkedAsDeleted()`,
CziWriter.cpp:1195, 1236 and 1277. -/
def markIfLive (s : SegInfo) : Bool := !s.deleted

/-- `CCziWriter::SyncWriteMetadata`, CziWriter.cpp:996-1005, and `WriteMetadata`, lines 1272-1298. -/
def writeMetadataPhases (m : MetaInfo) : List Phase :=
  [fun w =>
    if w.info.isNone then Plan.throw .logicError
    else if m.check = false then Plan.throw .invalidArgument
    else do
      let (pos, alloc) ← writeMetadata w.metaSeg markIfLive w.next m
      return { w with metaSeg := some ⟨pos, alloc, false⟩,
                      next := if pos = w.next then w.next + (alloc + 32) else w.next }]

/-- The position of a segment to be put into the file header, CziWriter.cpp:1157-1170. -/
def livePos (s : Option SegInfo) : Nat :=
  match s with
  | some s => if s.deleted then 0 else s.pos
  | none => 0

/-- `CCziWriter::WriteSubBlkDirectory`, CziWriter.cpp:1175-1179, and `WriteCurrentSubBlkDirectory`, lines 1231-1270. -/
def closeSubDir : Phase := fun w => do
  let (pos, alloc) ← writeSubDir w.subDirSeg markIfLive w.next w.dir.subBlks
  return { w with subDirSeg := some ⟨pos, alloc, false⟩,
                  next := if pos = w.next then w.next + (alloc + 32) else w.next }

/-- `CCziWriter::WriteAttachmentDirectory`, CziWriter.cpp:1181-1188, and `WriteCurrentAttachmentsDirectory`, lines 1190-1229. -/
def closeAttDir : Phase := fun w =>
  if w.att.length > 0 then do
    let (pos, alloc) ← writeAttDir w.attDirSeg markIfLive w.next w.att
    return { w with attDirSeg := some ⟨pos, alloc, false⟩,
                    next := if pos = w.next then w.next + (alloc + 32) else w.next }
  else return w

/-- The final file header, CziWriter.cpp:1153-1172 with 1118-1135, and the reset of the writer, lines 1032-1039. -/
def closeHeader : Phase := fun w => do
  match w.info with
  | none => Plan.throw .logicError
  | some info => Plan.write 0 (fileHeader info.guid (livePos w.subDirSeg) (livePos w.metaSeg) (livePos w.attDirSeg))
  return WState.init w.allowDuplicates

/-- `CCziWriter::Close`, CziWriter.cpp:1028-1040, with `Finish`, lines 1148-1173. -/
def closePhases : List Phase :=
  [fun w => if w.info.isNone then Plan.throw .logicError else return w, closeSubDir, closeAttDir, closeHeader]

/-- The calls of `ICziWriter`. -/
inductive WOp where
  | create (info : WriterInfo)
  | addSubBlock (a : AddInfo)
  | addAttachment (a : AddAtt)
  | writeMetadata (m : MetaInfo)
  | close

def WOp.phases : WOp → List Phase
  | .create i => createPhases i
  | .addSubBlock a => addSubBlockPhases a
  | .addAttachment a => addAttachmentPhases a
  | .writeMetadata m => writeMetadataPhases m
  | .close => closePhases

/-- The state of the writer and the file. -/
structure Sys where
  w : WState
  disk : Disk

/-- Outcome of one write: `none` = written completely; `some j` = only `j` bytes got to the file and an exception is
thrown (`WriteToOutputStream`, CziWriter.cpp:1078-1109). -/
abbrev Fault := Option Nat

/-- Perform the writes of a plan with the outcomes given by `faults` (all further ones succeed): the file, whether
all succeeded, and the outcomes left. -/
def performWrites (d : Disk) : List Write → List Fault → Disk × Bool × List Fault
  | [], fs => (d, true, fs)
  | w :: ws, [] => performWrites (d.write w.1 w.2) ws []
  | w :: ws, none :: fs => performWrites (d.write w.1 w.2) ws fs
  | w :: _, some j :: fs => (d.write w.1 (w.2.take j), false, fs)

/-- Run the phases of an operation; an exception leaves the state of the last completed phase. Returns the exception,
if any. -/
def runPhases : List Phase → Sys → List Fault → Sys × Option WErr × List Fault
  | [], s, fs => (s, none, fs)
  | p :: ps, s, fs =>
    let plan := p s.w
    let (d, ok, fs) := performWrites s.disk plan.writes fs
    if ok then
      match plan.result with
      | .ok w => runPhases ps ⟨w, d⟩ fs
      | .error e => (⟨s.w, d⟩, some e, fs)
    else (⟨s.w, d⟩, some .ioError, fs)

/-- One call of the writer's API. -/
def stepOp (s : Sys) (op : WOp) (fs : List Fault) : Sys × Option WErr × List Fault := runPhases op.phases s fs

/-- One call with a stream that does not fail. -/
def step (s : Sys) (op : WOp) : Sys × Option WErr := let r := stepOp s op []; (r.1, r.2.1)

end Verif.Czi
