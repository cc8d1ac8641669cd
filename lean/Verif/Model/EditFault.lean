import Verif.Model.ReaderWriter

/-!
# The reader-writer on a stream that can fail

The calls of Model/ReaderWriter.lean with the outcomes of the writes given (`Fault`, Model/Writer.lean). A write that fails puts only some of its bytes
into the file and throws (`WriteToOutputStream`, CziReaderWriter.cpp:605-635); nothing is undone, so the object keeps the state it had at this point.
(`bytesWritten ≠ size`, lines 626-629, is the same.) Reading does not fail here.
-/

namespace Verif.Czi

/-- Performing the writes of a plan; what follows depends on its result. `WriteToOutputStream`, CziReaderWriter.cpp:605-635, throws if a write fails. -/
def RW.execF {α : Type} (s : RW) (p : Plan α) (fs : List Fault) (k : RW → α → RW × Option WErr) : RW × Option WErr × List Fault :=
  match performWrites s.disk p.writes fs with
  | (d, false, fs) => (⟨s.w, d⟩, some .ioError, fs)
  | (d, true, fs) =>
    match p.result with
    | .error e => (⟨s.w, d⟩, some e, fs)
    | .ok a => ((k ⟨s.w, d⟩ a).1, (k ⟨s.w, d⟩ a).2, fs)

/-- `SyncAddSubBlock`, CziReaderWriter.cpp:115-138: the directory has the entry before anything is written. -/
def rwAddSubBlockF (s : RW) (a : AddInfo) (fs : List Fault) : RW × Option WErr × List Fault :=
  if a.check = false then (s, some .invalidArgument, fs)
  else match s.ensureNext with
    | .error e => (s, some e, fs)
    | .ok (s, n) =>
      match s.w.dir.tryAdd (a.entry n) with
      | (_, none) => (s, some .subBlockExists, fs)
      | (dir, some _) =>
        RW.execF ⟨{ s.w with dir := dir }, s.disk⟩ (writeSubBlock n none a) fs (fun s k => (⟨{ s.w with next := some (n + k) }, s.disk⟩, none))

/-- `SyncAddAttachment`, CziReaderWriter.cpp:140-163: likewise. -/
def rwAddAttachmentF (s : RW) (a : AddAtt) (fs : List Fault) : RW × Option WErr × List Fault :=
  if a.check = false then (s, some .invalidArgument, fs)
  else match s.ensureNext with
    | .error e => (s, some e, fs)
    | .ok (s, n) =>
      match s.w.att.tryAdd (a.entry n) with
      | none => (s, some .attachmentExists, fs)
      | some att =>
        RW.execF ⟨{ s.w with att := att }, s.disk⟩ (writeAttachment n none a) fs (fun s k => (⟨{ s.w with next := some (n + k) }, s.disk⟩, none))

/-- `ReplaceSubBlockAddNewAtEnd`, CziReaderWriter.cpp:557-577, and lines 175-181: the directory is changed when everything is written. -/
def rwReplaceSubBlockAtEndF (s : RW) (k : Int) (old : Nat) (a : AddInfo) (fs : List Fault) : RW × Option WErr × List Fault :=
  match s.ensureNext with
  | .error e => (s, some e, fs)
  | .ok (s, n) =>
    RW.execF s (do let z ← writeSubBlock n none a
                   writeDeleted old
                   return z) fs
      (fun s z => (⟨{ s.w with dir := (s.w.dir.tryModify k (a.entry n)).1, next := some (n + z + 32) }, s.disk⟩, none))

/-- `ReplaceSubBlockInplace`, CziReaderWriter.cpp:542-555, and lines 175-176. -/
def rwReplaceSubBlockInPlaceF (s : RW) (k : Int) (old size : Nat) (a : AddInfo) (fs : List Fault) : RW × Option WErr × List Fault :=
  RW.execF s (writeSubBlock old (some size) a) fs (fun s _ => (⟨{ s.w with dir := (s.w.dir.tryModify k (a.entry old)).1 }, s.disk⟩, none))

/-- `ReplaceSubBlock`, CziReaderWriter.cpp:165-182 and 524-540. -/
def rwReplaceSubBlockF (s : RW) (k : Int) (a : AddInfo) (fs : List Fault) : RW × Option WErr × List Fault :=
  match s.w.dir.tryGet k with
  | none => (s, some .invalidId, fs)
  | some e =>
    match readSegmentHeader s.disk.stream subBlockMagic e.filePosition with
    | .error _ => (s, some .readError, fs)
    | .ok (al, _) =>
      if u64 (al + 32) < a.usedSize then rwReplaceSubBlockAtEndF s k e.filePosition a fs
      else rwReplaceSubBlockInPlaceF s k e.filePosition (u64 al) a fs

/-- `RemoveSubBlock`, CziReaderWriter.cpp:184-198: the entry is removed before anything is written. -/
def rwRemoveSubBlockF (s : RW) (k : Int) (fs : List Fault) : RW × Option WErr × List Fault :=
  match s.w.dir.tryRemove k with
  | (_, none) => (s, some .invalidId, fs)
  | (dir, some e) => RW.execF ⟨{ s.w with dir := dir }, s.disk⟩ (writeDeleted e.filePosition) fs (fun s _ => (s, none))

/-- `ReplaceAttachmentAddNewAtEnd`, CziReaderWriter.cpp:875-898, and lines 848-853. -/
def rwReplaceAttachmentAtEndF (s : RW) (k : Int) (old : Nat) (a : AddAtt) (fs : List Fault) : RW × Option WErr × List Fault :=
  match s.ensureNext with
  | .error e => (s, some e, fs)
  | .ok (s, n) =>
    RW.execF s (do let _ ← writeAttachment n none a
                   writeDeleted old) fs
      (fun s _ => (⟨{ s.w with att := s.w.att.tryModify k (a.entry n) }, s.disk⟩, none))

/-- `ReplaceAttachmentInplace`, CziReaderWriter.cpp:900-914. -/
def rwReplaceAttachmentInPlaceF (s : RW) (k : Int) (old size : Nat) (a : AddAtt) (fs : List Fault) : RW × Option WErr × List Fault :=
  RW.execF s (writeAttachment old (some size) a) fs (fun s _ => (⟨{ s.w with att := s.w.att.tryModify k (a.entry old) }, s.disk⟩, none))

/-- `ReplaceAttachment`, CziReaderWriter.cpp:837-873. -/
def rwReplaceAttachmentF (s : RW) (k : Int) (a : AddAtt) (fs : List Fault) : RW × Option WErr × List Fault :=
  match s.w.att.tryGet k with
  | none => (s, some .invalidId, fs)
  | some e =>
    match readSegmentHeader s.disk.stream attMagic e.filePosition with
    | .error _ => (s, some .readError, fs)
    | .ok (al, _) =>
      if u64 al < 256 + a.bytes.length then rwReplaceAttachmentAtEndF s k e.filePosition a fs
      else rwReplaceAttachmentInPlaceF s k e.filePosition (u64 al) a fs

/-- `RemoveAttachment`, CziReaderWriter.cpp:916-930. -/
def rwRemoveAttachmentF (s : RW) (k : Int) (fs : List Fault) : RW × Option WErr × List Fault :=
  match s.w.att.tryRemove k with
  | (_, none) => (s, some .invalidId, fs)
  | (att, some e) => RW.execF ⟨{ s.w with att := att }, s.disk⟩ (writeDeleted e.filePosition) fs (fun s _ => (s, none))

/-- `SyncWriteMetadata`, CziReaderWriter.cpp:200-230. -/
def rwWriteMetadataF (s : RW) (m : MetaInfo) (fs : List Fault) : RW × Option WErr × List Fault :=
  if m.check = false then (s, some .invalidArgument, fs)
  else match s.ensureNext with
    | .error e => (s, some e, fs)
    | .ok (s, n) =>
      RW.execF s (writeMetadata s.w.metaSeg (fun _ => true) n m) fs (fun s r =>
        (if r.1 = n then ⟨{ s.w with metaSeg := some ⟨r.1, r.2, false⟩, next := some (r.1 + r.2 + 32) }, s.disk⟩ else s, none))

/-- `Finish`, CziReaderWriter.cpp:253-294: the sub-block directory. -/
def rwCloseSubDirF (s : RW) (fs : List Fault) : RW × Option WErr × List Fault :=
  if s.w.dir.isModified then
    match s.ensureNext with
    | .error e => (s, some e, fs)
    | .ok (s, n) =>
      RW.execF s (writeSubDir s.w.subDirSeg (fun _ => true) n (s.w.dir.subBlks.map Prod.snd)) fs (fun s r =>
        (⟨{ s.w with subDirSeg := some ⟨r.1, r.2, false⟩, next := if r.1 = n then some (r.1 + r.2) else s.w.next }, s.disk⟩, none))
  else (s, none, fs)

/-- Lines 296-328: the attachment directory. -/
def rwCloseAttDirF (s : RW) (fs : List Fault) : RW × Option WErr × List Fault :=
  if s.w.att.isModified then
    match s.ensureNext with
    | .error e => (s, some e, fs)
    | .ok (s, n) =>
      RW.execF s (writeAttDir s.w.attDirSeg (fun _ => true) n (s.w.att.atts.map Prod.snd)) fs (fun s r =>
        (⟨{ s.w with attDirSeg := some ⟨r.1, r.2, false⟩, next := if r.1 = n then some (r.1 + r.2) else s.w.next }, s.disk⟩, none))
  else (s, none, fs)

/-- Lines 330-335 and `UpdateFileHeader`, lines 338-355. The header in the object is not changed. -/
def rwCloseHeaderF (s : RW) (fs : List Fault) : RW × Option WErr × List Fault :=
  if (s.w.att.isModified = true ∧ s.w.header.attDirPos ≠ segPos s.w.attDirSeg) ∨
      (s.w.dir.isModified = true ∧ s.w.header.subDirPos ≠ segPos s.w.subDirSeg) ∨
      s.w.header.metadataPos ≠ segPos s.w.metaSeg then
    RW.execF s (Plan.write 0 (fileHeader s.w.header.guid (segPos s.w.subDirSeg) (segPos s.w.metaSeg) (segPos s.w.attDirSeg))) fs
      (fun s _ => (s, none))
  else (s, none, fs)

/-- Continue unless an exception was thrown. -/
def andThenF (r : RW × Option WErr × List Fault) (f : RW → List Fault → RW × Option WErr × List Fault) : RW × Option WErr × List Fault :=
  match r.2.1 with
  | some _ => r
  | none => f r.1 r.2.2

/-- `Close`, CziReaderWriter.cpp:247-251, and `Finish`, lines 253-336. -/
def rwCloseF (s : RW) (fs : List Fault) : RW × Option WErr × List Fault :=
  andThenF (andThenF (rwCloseSubDirF s fs) rwCloseAttDirF) rwCloseHeaderF

/-- One call with the outcomes of its writes; `ThrowIfNotOperational`, CziReaderWriter.cpp:947-953, first. -/
def editStepF (s : RW) (op : EditOp) (fs : List Fault) : RW × Option WErr × List Fault :=
  if s.w.operational = false then (s, some .logicError, fs)
  else match op with
    | .addSubBlock a => rwAddSubBlockF s a fs
    | .addAttachment a => rwAddAttachmentF s a fs
    | .replaceSubBlock k a => rwReplaceSubBlockF s k a fs
    | .replaceAttachment k a => rwReplaceAttachmentF s k a fs
    | .removeSubBlock k => rwRemoveSubBlockF s k fs
    | .removeAttachment k => rwRemoveAttachmentF s k fs
    | .writeMetadata m => rwWriteMetadataF s m fs
    | .close => rwCloseF s fs

end Verif.Czi
