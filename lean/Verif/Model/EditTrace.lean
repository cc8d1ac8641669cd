import Verif.Model.ReaderWriter

/-!
# The writes of the calls on a reader-writer

What a call hands to the stream, in order (`IOutputStream::Write`; each through `WriteToOutputStream`, CziReaderWriter.cpp:605-635). A process that stops
in the middle of a call has performed a prefix of these writes, the last of them possibly only partly (`Verif.Czi.cut`).
-/

namespace Verif.Czi

/-- `SyncAddSubBlock`, CziReaderWriter.cpp:115-138. -/
def addSubBlockWrites (s : RW) (a : AddInfo) : List Write :=
  if a.check = false then [] else
    match s.ensureNext with
    | .error _ => []
    | .ok (s, n) =>
      match s.w.dir.tryAdd (a.entry n) with
      | (_, none) => []
      | (_, some _) => (writeSubBlock n none a).writes

/-- `SyncAddAttachment`, CziReaderWriter.cpp:140-163. -/
def addAttachmentWrites (s : RW) (a : AddAtt) : List Write :=
  if a.check = false then [] else
    match s.ensureNext with
    | .error _ => []
    | .ok (s, n) =>
      match s.w.att.tryAdd (a.entry n) with
      | none => []
      | some _ => (writeAttachment n none a).writes

/-- `ReplaceSubBlock`, CziReaderWriter.cpp:165-182 and 524-577: in its place, or at the end of the file and then the mark on the old segment. -/
def replaceSubBlockWrites (s : RW) (k : Int) (a : AddInfo) : List Write :=
  match s.w.dir.tryGet k with
  | none => []
  | some e =>
    match readSegmentHeader s.disk.stream subBlockMagic e.filePosition with
    | .error _ => []
    | .ok (al, _) =>
      if u64 (al + 32) < a.usedSize then
        match s.ensureNext with
        | .error _ => []
        | .ok (_, n) => (do let z ← writeSubBlock n none a
                            writeDeleted e.filePosition
                            return z : Plan Nat).writes
      else (writeSubBlock e.filePosition (some (u64 al)) a).writes

/-- `ReplaceAttachment`, CziReaderWriter.cpp:837-914. -/
def replaceAttachmentWrites (s : RW) (k : Int) (a : AddAtt) : List Write :=
  match s.w.att.tryGet k with
  | none => []
  | some e =>
    match readSegmentHeader s.disk.stream attMagic e.filePosition with
    | .error _ => []
    | .ok (al, _) =>
      if u64 al < 256 + a.bytes.length then
        match s.ensureNext with
        | .error _ => []
        | .ok (_, n) => (do let _ ← writeAttachment n none a
                            writeDeleted e.filePosition : Plan Unit).writes
      else (writeAttachment e.filePosition (some (u64 al)) a).writes

/-- `RemoveSubBlock`, CziReaderWriter.cpp:184-198. -/
def removeSubBlockWrites (s : RW) (k : Int) : List Write :=
  match s.w.dir.tryRemove k with
  | (_, none) => []
  | (_, some e) => (writeDeleted e.filePosition).writes

/-- `RemoveAttachment`, CziReaderWriter.cpp:916-930. -/
def removeAttachmentWrites (s : RW) (k : Int) : List Write :=
  match s.w.att.tryRemove k with
  | (_, none) => []
  | (_, some e) => (writeDeleted e.filePosition).writes

/-- `SyncWriteMetadata`, CziReaderWriter.cpp:200-230: a segment that is too small is marked before the new one is written (CziWriter.cpp:589-596). -/
def writeMetadataWrites (s : RW) (m : MetaInfo) : List Write :=
  if m.check = false then [] else
    match s.ensureNext with
    | .error _ => []
    | .ok (s, n) => (writeMetadata s.w.metaSeg (fun _ => true) n m).writes

/-- `Finish`, CziReaderWriter.cpp:253-294: the sub-block directory. -/
def closeSubDirWrites (s : RW) : List Write :=
  if s.w.dir.isModified then
    match s.ensureNext with
    | .error _ => []
    | .ok (s, n) => (writeSubDir s.w.subDirSeg (fun _ => true) n (s.w.dir.subBlks.map Prod.snd)).writes
  else []

/-- `Finish`, CziReaderWriter.cpp:296-328: the attachment directory. -/
def closeAttDirWrites (s : RW) : List Write :=
  if s.w.att.isModified then
    match s.ensureNext with
    | .error _ => []
    | .ok (s, n) => (writeAttDir s.w.attDirSeg (fun _ => true) n (s.w.att.atts.map Prod.snd)).writes
  else []

/-- `Finish`, CziReaderWriter.cpp:330-335, and `UpdateFileHeader`, lines 338-355. -/
def closeHeaderWrites (s : RW) : List Write :=
  if (s.w.att.isModified = true ∧ s.w.header.attDirPos ≠ segPos s.w.attDirSeg) ∨
      (s.w.dir.isModified = true ∧ s.w.header.subDirPos ≠ segPos s.w.subDirSeg) ∨
      s.w.header.metadataPos ≠ segPos s.w.metaSeg then
    [(0, fileHeader s.w.header.guid (segPos s.w.subDirSeg) (segPos s.w.metaSeg) (segPos s.w.attDirSeg))]
  else []

/-- The writes of a step that is only made if the ones before did not throw an exception. -/
def writesThen (r : RW × Option WErr) (f : RW → List Write) : List Write :=
  match r.2 with
  | some _ => []
  | none => f r.1

/-- `Close`, CziReaderWriter.cpp:247-251, and `Finish`, lines 253-336. -/
def closeWrites (s : RW) : List Write :=
  closeSubDirWrites s ++ writesThen (rwCloseSubDir s) (fun s =>
    closeAttDirWrites s ++ writesThen (rwCloseAttDir s) closeHeaderWrites)

/-- The writes of one call; `ThrowIfNotOperational`, CziReaderWriter.cpp:947-953, first. -/
def editWrites (s : RW) (op : EditOp) : List Write :=
  if s.w.operational = false then []
  else match op with
    | .addSubBlock a => addSubBlockWrites s a
    | .addAttachment a => addAttachmentWrites s a
    | .replaceSubBlock k a => replaceSubBlockWrites s k a
    | .replaceAttachment k a => replaceAttachmentWrites s k a
    | .removeSubBlock k => removeSubBlockWrites s k
    | .removeAttachment k => removeAttachmentWrites s k
    | .writeMetadata m => writeMetadataWrites s m
    | .close => closeWrites s

/-- The writes of `Create` on a file with a file header: `UpdateFileHeaderGuid`, CziReaderWriter.cpp:463-475, if a new GUID is forced. -/
def openWrites (info : RWInfo) : List Write := if info.force then guidWrites info.guid else []

end Verif.Czi
