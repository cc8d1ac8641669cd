import Verif.Model.Writer
import Verif.Model.Parse

/-!
# The reader-writer (`CCziReaderWriter`)

The state of the object and the file it works on. Writes always succeed (`WriteToOutputStream`, CziReaderWriter.cpp:605-635, throws
otherwise; stream faults are not modelled here). File positions and sizes are `uint64_t`; values computed from sizes found in
the file wrap around (`u64`), values computed from the sizes of the data given by the caller are taken to fit.
-/

namespace Verif.Czi

/-! ## The attachment directory -/

/-- `CReaderWriterCziAttachmentsDirectory`, CziAttachmentsDirectory.h:71-97. -/
structure RWAtts where
  atts : List (Int × AttEntry)
  next : Int
  isModified : Bool

def RWAtts.init : RWAtts := ⟨[], 0, false⟩

namespace RWAtts

/-- `AddAttachment`, CziAttachmentsDirectory.cpp:106-116. -/
def add (d : RWAtts) (e : AttEntry) : RWAtts := ⟨mapInsert d.atts d.next e, d.next + 1, true⟩

/-- `TryGetAttachment`, CziAttachmentsDirectory.cpp:137-151. -/
def tryGet (d : RWAtts) (k : Int) : Option AttEntry := mapFind d.atts k

/-- `TryModifyAttachment`, CziAttachmentsDirectory.cpp:153-164. -/
def tryModify (d : RWAtts) (k : Int) (e : AttEntry) : RWAtts :=
  match mapFind d.atts k with
  | none => d
  | some _ => { d with atts := mapSet d.atts k e, isModified := true }

/-- `TryRemoveAttachment`, CziAttachmentsDirectory.cpp:166-182. -/
def tryRemove (d : RWAtts) (k : Int) : RWAtts × Option AttEntry :=
  match mapFind d.atts k with
  | none => (d, none)
  | some e => ({ d with atts := mapErase d.atts k, isModified := true }, some e)

/-- `TryAddAttachment`, CziAttachmentsDirectory.cpp:184-196. -/
def tryAdd (d : RWAtts) (e : AttEntry) : Option RWAtts :=
  if d.atts.any (fun p => p.2.equalId e) then none else some (d.add e)

end RWAtts

/-! ## The object -/

/-- `CCziReaderWriter`, CziReaderWriter.h:22-180. `operational`: there is a stream. `last`, `next`: `CNextSegment`, lines 91-136 (`next = none`: not
determined yet). The three segments: `WrittenSegmentInfo`, lines 140-160 (`none`: not valid; the members of the object are zero-initialised before
construction, as it has no user-provided constructor, so the position of an invalid one is 0). -/
structure RWState where
  operational : Bool
  header : Header
  dir : RWDir
  att : RWAtts
  last : Nat
  next : Option Nat
  metaSeg : Option SegInfo
  subDirSeg : Option SegInfo
  attDirSeg : Option SegInfo

/-- A new object. The header positions are "invalid" (FileHeaderSegmentData.h:25-35). -/
def RWState.init : RWState :=
  ⟨false, ⟨-1, -1, ⟨0, 0, 0, Vector.replicate 8 0⟩, 2 ^ 64 - 1, 2 ^ 64 - 1, 2 ^ 64 - 1⟩, RWDir.init, RWAtts.init, 0, none, none, none, none⟩

/-- The object and the file. -/
structure RW where
  w : RWState
  disk : Disk

/-- `GetFilePos` of a segment info. -/
def segPos (s : Option SegInfo) : Nat := (s.map SegInfo.pos).getD 0

/-! ## Create -/

/-- What `ICziReaderWriterInfo` (libCZI_ReadWrite.h) provides: `GetForceFileGuid` and the GUID (the given one, or the one generated if it is
the null GUID). -/
structure RWInfo where
  force : Bool
  guid : Guid

/-- A position found in the file header that counts, FileHeaderSegmentData.h:52-65. -/
def validPos (p : Nat) : Nat := if p = 2 ^ 64 - 1 then 0 else p

/-- `DetermineNextSubBlockOffset`, CziReaderWriter.cpp:477-522: the largest position of all items and of the valid positions in the header. -/
def lastPos (h : Header) (dir : RWDir) (att : RWAtts) : Nat :=
  let a := dir.subBlks.foldl (fun m p => max m p.2.filePosition) 0
  let b := att.atts.foldl (fun m p => max m p.2.filePosition) a
  max (max (max b (validPos h.subDirPos)) (validPos h.attDirPos)) (validPos h.metadataPos)

/-- Adding all entries of a directory that is read, CziReaderWriter.cpp:390-401; the modified flag is cleared afterwards. -/
def _root_.Verif.RWDir.addAll (d : RWDir) (es : List Entry) : RWDir :=
  { es.foldl (fun d e => (d.add e).1) d with isModified := false }

/-- CziReaderWriter.cpp:411-420. -/
def RWAtts.addAll (d : RWAtts) (es : List AttEntry) : RWAtts := { es.foldl RWAtts.add d with isModified := false }

/-- `UpdateFileHeaderGuid`, CziReaderWriter.cpp:463-475 (`PrimaryFileGuid` is at offset 48, `FileGuid` at offset 64). -/
def guidWrites (g : Guid) : List Write := [(48, guidBytes g), (64, guidBytes g)]

/-- `ReadCziStructure`, CziReaderWriter.cpp:357-461, the part for a file with a header: the metadata segment. Part of the object
is changed even if an exception is thrown. (Entries added by a directory that is then found to be corrupt are not represented.) -/
def rwOpenMeta (w : RWState) (d : Disk) : RWState × Option RErr :=
  if w.header.metadataPos ≠ 0 then
    match readSegmentHeader d.stream metadataMagic w.header.metadataPos with
    | .error e => (w, some e)
    | .ok (al, _) => ({ w with metaSeg := some ⟨w.header.metadataPos, u64 al, false⟩ }, none)
  else (w, none)

/-- The attachment directory, lines 406-424. -/
def rwOpenAtt (alloc : Alloc) (w : RWState) (d : Disk) : RWState × Option RErr :=
  if w.header.attDirPos ≠ 0 then
    match readAttDir alloc d.stream w.header.attDirPos with
    | .error e => (w, some e)
    | .ok (es, al) =>
      rwOpenMeta { w with att := w.att.addAll es, attDirSeg := some ⟨w.header.attDirPos, u64 al, false⟩ } d
  else rwOpenMeta w d

/-- The sub-block directory, lines 388-404. -/
def rwOpenDir (alloc : Alloc) (w : RWState) (d : Disk) : RWState × Option RErr :=
  match readSubDir alloc d.stream ParseOptions.lax w.header.subDirPos with
  | .error e => (w, some e)
  | .ok (es, al) =>
    rwOpenAtt alloc { w with dir := w.dir.addAll es, subDirSeg := some ⟨w.header.subDirPos, u64 al, false⟩ } d

/-- `Create`, CziReaderWriter.cpp:81-104, with `ReadCziStructure`, lines 357-461. A file that is too short for a file header is treated as new. -/
def rwCreate (alloc : Alloc) (s : RW) (info : RWInfo) : RW × Option RErr :=
  if s.w.operational then (s, some .logicError)
  else
    match readHeader s.disk.stream with
    | .error .notEnough =>
      let h : Header := ⟨1, 0, info.guid, 0, 0, 0⟩
      let w := { s.w with header := h }
      (⟨{ w with operational := true, last := lastPos h w.dir w.att }, apply s.disk [(0, fileHeader info.guid 0 0 0)]⟩, none)
    | .error e => (s, some e)
    | .ok h =>
      let d := if info.force then apply s.disk (guidWrites info.guid) else s.disk
      let h := if info.force then { h with guid := info.guid } else h
      match rwOpenDir alloc { s.w with header := h } d with
      | (w, some e) => (⟨w, d⟩, some e)
      | (w, none) => (⟨{ w with operational := true, last := lastPos h w.dir w.att }, d⟩, none)

/-! ## Operations -/

/-- `EnsureNextSegmentInfo`, CziReaderWriter.cpp:579-593: the position for the next segment. -/
def RW.ensureNext (s : RW) : Except WErr (RW × Nat) :=
  match s.w.next with
  | some n => .ok (s, n)
  | none =>
    match readSegmentHeaderAny s.disk.stream s.w.last with
    | .error _ => .error .readError
    | .ok (al, _) =>
      let n := u64 (al + 32 + s.w.last)
      .ok (⟨{ s.w with next := some n }, s.disk⟩, n)

/-- Performing the writes of a plan; what follows depends on its result. -/
def RW.exec {α : Type} (s : RW) (p : Plan α) (k : RW → α → RW × Option WErr) : RW × Option WErr :=
  let s' : RW := ⟨s.w, apply s.disk p.writes⟩
  match p.result with
  | .error e => (s', some e)
  | .ok a => k s' a

/-- `SyncAddSubBlock`, CziReaderWriter.cpp:115-138. -/
def rwAddSubBlock (s : RW) (a : AddInfo) : RW × Option WErr :=
  if a.check = false then (s, some .invalidArgument)
  else match s.ensureNext with
    | .error e => (s, some e)
    | .ok (s, n) =>
      match s.w.dir.tryAdd (a.entry n) with
      | (_, none) => (s, some .subBlockExists)
      | (dir, some _) =>
        RW.exec ⟨{ s.w with dir := dir }, s.disk⟩ (writeSubBlock n none a) (fun s k => (⟨{ s.w with next := some (n + k) }, s.disk⟩, none))

/-- `SyncAddAttachment`, CziReaderWriter.cpp:140-163. -/
def rwAddAttachment (s : RW) (a : AddAtt) : RW × Option WErr :=
  if a.check = false then (s, some .invalidArgument)
  else match s.ensureNext with
    | .error e => (s, some e)
    | .ok (s, n) =>
      match s.w.att.tryAdd (a.entry n) with
      | none => (s, some .attachmentExists)
      | some att =>
        RW.exec ⟨{ s.w with att := att }, s.disk⟩ (writeAttachment n none a) (fun s k => (⟨{ s.w with next := some (n + k) }, s.disk⟩, none))

/-- `ReplaceSubBlockAddNewAtEnd`, CziReaderWriter.cpp:557-577, and the advance of the next position by the size *plus* a segment header in
`ReplaceSubBlock`, lines 175-181. -/
def rwReplaceSubBlockAtEnd (s : RW) (k : Int) (old : Nat) (a : AddInfo) : RW × Option WErr :=
  match s.ensureNext with
  | .error e => (s, some e)
  | .ok (s, n) =>
    RW.exec s (do let z ← writeSubBlock n none a
                  writeDeleted old
                  return z)
      (fun s z => (⟨{ s.w with dir := (s.w.dir.tryModify k (a.entry n)).1, next := some (n + z + 32) }, s.disk⟩, none))

/-- `ReplaceSubBlockInplace`, CziReaderWriter.cpp:542-555, and lines 175-176. -/
def rwReplaceSubBlockInPlace (s : RW) (k : Int) (old size : Nat) (a : AddInfo) : RW × Option WErr :=
  RW.exec s (writeSubBlock old (some size) a) (fun s _ => (⟨{ s.w with dir := (s.w.dir.tryModify k (a.entry old)).1 }, s.disk⟩, none))

/-- `ReplaceSubBlock`, CziReaderWriter.cpp:165-182 and 524-540. The arguments are not checked. -/
def rwReplaceSubBlock (s : RW) (k : Int) (a : AddInfo) : RW × Option WErr :=
  match s.w.dir.tryGet k with
  | none => (s, some .invalidId)
  | some e =>
    match readSegmentHeader s.disk.stream subBlockMagic e.filePosition with
    | .error _ => (s, some .readError)
    | .ok (al, _) =>
      if u64 (al + 32) < a.usedSize then rwReplaceSubBlockAtEnd s k e.filePosition a
      else rwReplaceSubBlockInPlace s k e.filePosition (u64 al) a

/-- `RemoveSubBlock`, CziReaderWriter.cpp:184-198. -/
def rwRemoveSubBlock (s : RW) (k : Int) : RW × Option WErr :=
  match s.w.dir.tryRemove k with
  | (_, none) => (s, some .invalidId)
  | (dir, some e) => RW.exec ⟨{ s.w with dir := dir }, s.disk⟩ (writeDeleted e.filePosition) (fun s _ => (s, none))

/-- `ReplaceAttachmentAddNewAtEnd`, CziReaderWriter.cpp:875-898: it reports `false` for "appended" (line 897), so in `ReplaceAttachment`, lines
848-853, the next position is *not* advanced. -/
def rwReplaceAttachmentAtEnd (s : RW) (k : Int) (old : Nat) (a : AddAtt) : RW × Option WErr :=
  match s.ensureNext with
  | .error e => (s, some e)
  | .ok (s, n) =>
    RW.exec s (do let _ ← writeAttachment n none a
                  writeDeleted old)
      (fun s _ => (⟨{ s.w with att := s.w.att.tryModify k (a.entry n) }, s.disk⟩, none))

/-- `ReplaceAttachmentInplace`, CziReaderWriter.cpp:900-914. -/
def rwReplaceAttachmentInPlace (s : RW) (k : Int) (old size : Nat) (a : AddAtt) : RW × Option WErr :=
  RW.exec s (writeAttachment old (some size) a) (fun s _ => (⟨{ s.w with att := s.w.att.tryModify k (a.entry old) }, s.disk⟩, none))

/-- `ReplaceAttachment`, CziReaderWriter.cpp:837-873. The arguments are not checked (with a null pointer and a size > 0, the null pointer
would be handed to the stream; here that is as if there were no data). -/
def rwReplaceAttachment (s : RW) (k : Int) (a : AddAtt) : RW × Option WErr :=
  match s.w.att.tryGet k with
  | none => (s, some .invalidId)
  | some e =>
    match readSegmentHeader s.disk.stream attMagic e.filePosition with
    | .error _ => (s, some .readError)
    | .ok (al, _) =>
      if u64 al < 256 + a.bytes.length then rwReplaceAttachmentAtEnd s k e.filePosition a
      else rwReplaceAttachmentInPlace s k e.filePosition (u64 al) a

/-- `RemoveAttachment`, CziReaderWriter.cpp:916-930. -/
def rwRemoveAttachment (s : RW) (k : Int) : RW × Option WErr :=
  match s.w.att.tryRemove k with
  | (_, none) => (s, some .invalidId)
  | (att, some e) => RW.exec ⟨{ s.w with att := att }, s.disk⟩ (writeDeleted e.filePosition) (fun s _ => (s, none))

/-- `SyncWriteMetadata`, CziReaderWriter.cpp:200-230. -/
def rwWriteMetadata (s : RW) (m : MetaInfo) : RW × Option WErr :=
  if m.check = false then (s, some .invalidArgument)
  else match s.ensureNext with
    | .error e => (s, some e)
    | .ok (s, n) =>
      RW.exec s (writeMetadata s.w.metaSeg (fun _ => true) n m) (fun s r =>
        (if r.1 = n then ⟨{ s.w with metaSeg := some ⟨r.1, r.2, false⟩, next := some (r.1 + r.2 + 32) }, s.disk⟩ else s, none))

/-! ## Close -/

/-- `Finish`, CziReaderWriter.cpp:253-294: the sub-block directory. The next position is advanced by the allocated size only. -/
def rwCloseSubDir (s : RW) : RW × Option WErr :=
  if s.w.dir.isModified then
    match s.ensureNext with
    | .error e => (s, some e)
    | .ok (s, n) =>
      RW.exec s (writeSubDir s.w.subDirSeg (fun _ => true) n (s.w.dir.subBlks.map Prod.snd)) (fun s r =>
        (⟨{ s.w with subDirSeg := some ⟨r.1, r.2, false⟩, next := if r.1 = n then some (r.1 + r.2) else s.w.next }, s.disk⟩, none))
  else (s, none)

/-- Lines 296-328: the attachment directory. -/
def rwCloseAttDir (s : RW) : RW × Option WErr :=
  if s.w.att.isModified then
    match s.ensureNext with
    | .error e => (s, some e)
    | .ok (s, n) =>
      RW.exec s (writeAttDir s.w.attDirSeg (fun _ => true) n (s.w.att.atts.map Prod.snd)) (fun s r =>
        (⟨{ s.w with attDirSeg := some ⟨r.1, r.2, false⟩, next := if r.1 = n then some (r.1 + r.2) else s.w.next }, s.disk⟩, none))
  else (s, none)

/-- Lines 330-335 and `UpdateFileHeader`, lines 338-355. -/
def rwCloseHeader (s : RW) : RW × Option WErr :=
  if (s.w.att.isModified = true ∧ s.w.header.attDirPos ≠ segPos s.w.attDirSeg) ∨
      (s.w.dir.isModified = true ∧ s.w.header.subDirPos ≠ segPos s.w.subDirSeg) ∨
      s.w.header.metadataPos ≠ segPos s.w.metaSeg then
    RW.exec s (Plan.write 0 (fileHeader s.w.header.guid (segPos s.w.subDirSeg) (segPos s.w.metaSeg) (segPos s.w.attDirSeg)))
      (fun s _ => (s, none))
  else (s, none)

/-- Continue unless an exception was thrown. -/
def andThen (r : RW × Option WErr) (f : RW → RW × Option WErr) : RW × Option WErr :=
  match r.2 with
  | some _ => r
  | none => f r.1

/-- `Close`, CziReaderWriter.cpp:247-251, and `Finish`, lines 253-336. The object stays operational. -/
def rwClose (s : RW) : RW × Option WErr := andThen (andThen (rwCloseSubDir s) rwCloseAttDir) rwCloseHeader

/-- The calls on a reader-writer. -/
inductive EditOp where
  | addSubBlock (a : AddInfo)
  | addAttachment (a : AddAtt)
  | replaceSubBlock (key : Int) (a : AddInfo)
  | replaceAttachment (key : Int) (a : AddAtt)
  | removeSubBlock (key : Int)
  | removeAttachment (key : Int)
  | writeMetadata (m : MetaInfo)
  | close

/-- One call; `ThrowIfNotOperational`, CziReaderWriter.cpp:947-953, first. -/
def editStep (s : RW) (op : EditOp) : RW × Option WErr :=
  if s.w.operational = false then (s, some .logicError)
  else match op with
    | .addSubBlock a => rwAddSubBlock s a
    | .addAttachment a => rwAddAttachment s a
    | .replaceSubBlock k a => rwReplaceSubBlock s k a
    | .replaceAttachment k a => rwReplaceAttachment s k a
    | .removeSubBlock k => rwRemoveSubBlock s k
    | .removeAttachment k => rwRemoveAttachment s k
    | .writeMetadata m => rwWriteMetadata s m
    | .close => rwClose s

/-! ## Reading -/

/-- Reading the sub-block of a directory entry, CziReaderWriter.cpp:669-683: the information is that of the sub-block itself. -/
def rwReadEntry (alloc : Alloc) (s : Stream) (e : Entry) : Except RErr SubBlock := do
  let d ← readSubBlockData alloc s e.filePosition
  match infoFromHeader d with
  | none => .error .undefined
  | some i => .ok ⟨i, d.metadata, d.data, d.attachment⟩

/-- `ReadSubBlock`, CziReaderWriter.cpp:661-684. -/
def RW.readSubBlock (alloc : Alloc) (s : RW) (k : Int) : Except RErr (Option SubBlock) :=
  if s.w.operational = false then .error .logicError
  else match s.w.dir.tryGet k with
    | none => .ok none
    | some e => (rwReadEntry alloc s.disk.stream e).map some

/-- Reading the attachment of a directory entry, CziReaderWriter.cpp:932-945. -/
def rwReadAtt (alloc : Alloc) (s : Stream) (e : AttEntry) : Except RErr Attachment :=
  (readAttachmentData alloc s e.filePosition).map (fun d => ⟨e.guid, cstr e.contentFileType.toList, cstr e.name.toList, d⟩)

/-- `ReadAttachment`, CziReaderWriter.cpp:825-835. -/
def RW.readAttachment (alloc : Alloc) (s : RW) (k : Int) : Except RErr (Option Attachment) :=
  if s.w.operational = false then .error .logicError
  else match s.w.att.tryGet k with
    | none => .ok none
    | some e => (rwReadAtt alloc s.disk.stream e).map some

/-- `ReadMetadataSegment`, CziReaderWriter.cpp:232-245: a null pointer if there is none. -/
def RW.readMetadata (alloc : Alloc) (s : RW) : Except RErr (Option MetaData) :=
  if s.w.operational = false then .error .logicError
  else match s.w.metaSeg with
    | none => .ok none
    | some i => (readMetadataData alloc s.disk.stream i.pos).map some

end Verif.Czi
