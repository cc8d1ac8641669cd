import Verif.Model.ReaderWriter
import Verif.Model.Attachments
import Verif.Model.Chunk
import Verif.Model.Lut

/-!
# The calls of the reader and of the reader-writer that take or present an index

The directories are those of Model/Parse.lean (reader) and Model/ReaderWriter.lean (reader-writer). Simplification: the number of entries is
below 2^31 (`(int)size()` is exact).
-/

namespace Verif.Czi

/-- `struct AttachmentInfo`, libCZI.h:403-410, as memory: `contentFileType` is an array of nine characters. -/
structure RawAttInfo where
  guid : Guid
  fileType : List UInt8
  name : List UInt8
  deriving DecidableEq

/-- `std::string::operator=(const char*)` for a character array `m`: without a zero in the array the copy runs past its end. -/
def stdString (m : List UInt8) : Outcome (List UInt8) := if (0 : UInt8) ∈ m then .ok (cstr m) else .undefined

/-- An `AttachmentInfo` filled from an entry: the eight characters of the type are copied, the ninth is `last`. CZIReader.cpp:274-277, 290-293 and 418-422,
CziReaderCommon.cpp:100-102, CziReaderWriter.cpp:806-809 and 937-942. -/
def AttEntry.rawInfo (e : AttEntry) (last : UInt8) : Outcome RawAttInfo :=
  (stdString e.name.toList).bind fun n => .ok ⟨e.guid, e.contentFileType.toList ++ [last], n⟩

/-- `if (index < (int)v.size()) { entry = v.at(index); return true; } return false;`, CziAttachmentsDirectory.cpp:58-67 and CziSubBlockDirectory.cpp:416-425:
the index is converted to `size_t` for `at`, which throws `out_of_range`. -/
def vectorTryGet {α : Type} (l : List α) (index : Int) : Outcome (Option α) :=
  if index < l.length then
    if index < 0 then .throws
    else match l[index.toNat]? with
      | some a => .ok (some a)
      | none => .throws
  else .ok none

/-- Enumerating attachments with a callback that is handed an `AttachmentInfo` with the ninth character `last`. CziAttachmentsDirectory.cpp:43-56 and 113-124. -/
def enumAtts {σ : Type} (f : σ → Int → RawAttInfo → Bool × σ) (last : Int → UInt8) : List (Int × AttEntry) → σ → Outcome σ
  | [], st => .ok st
  | (i, e) :: es, st =>
    (e.rawInfo (last i)).bind fun a => if (f st i a).1 = true then enumAtts f last es (f st i a).2 else .ok (f st i a).2

/-- `CziReaderCommon::EnumerateSubset`, CziReaderCommon.cpp:85-110. -/
def enumAttSubset {σ : Type} (type name : Option (List UInt8)) (f : σ → Int → RawAttInfo → Bool × σ) : List (Int × AttEntry) → σ → Outcome σ
  | [], st => .ok st
  | (i, e) :: es, st =>
    match attMatches type name e with
    | none => .undefined
    | some false => enumAttSubset type name f es st
    | some true => (e.rawInfo 0).bind fun a => if (f st i a).1 = true then enumAttSubset type name f es (f st i a).2 else .ok (f st i a).2

/-! ## The reader -/

/-- `CCZIReader` after `Open`: the flag `isOperational` and the document. `Close` (CZIReader.cpp:243-254) clears the flag and releases the stream; the
directories stay. -/
structure Reader where
  operational : Bool
  doc : Doc

namespace Reader

/-- `ThrowIfNotOperational`, CZIReader.cpp:447-453, before a call. -/
def guard {α : Type} (r : Reader) (k : Outcome α) : Outcome α := if r.operational = false then .throws else k

/-- `Close`, CZIReader.cpp:243-254. -/
def close (r : Reader) : Outcome Reader := r.guard (.ok { r with operational := false })

/-- `GetAttachmentCount`, CZIReader.cpp:256-260. -/
def attachmentCount (r : Reader) : Outcome Nat := r.guard (.ok r.doc.attachments.length)

/-- `TryGetAttachmentInfo`, CZIReader.cpp:262-281. -/
def attachmentInfo (r : Reader) (index : Int) : Outcome (Option RawAttInfo) :=
  r.guard ((vectorTryGet r.doc.attachments index).bind fun
    | none => .ok none
    | some e => (e.rawInfo 0).bind fun a => .ok (some a))

/-- `EnumerateAttachments`, CZIReader.cpp:283-297. -/
def enumerateAttachments {σ : Type} (r : Reader) (f : σ → Int → RawAttInfo → Bool × σ) (st : σ) : Outcome σ :=
  r.guard (enumAtts f (fun _ => 0) (indexed r.doc.attachments) st)

/-- `EnumerateSubset`, CZIReader.cpp:299-307. -/
def attachmentSubset {σ : Type} (r : Reader) (type name : Option (List UInt8)) (f : σ → Int → RawAttInfo → Bool × σ) (st : σ) : Outcome σ :=
  r.guard (enumAttSubset type name f (indexed r.doc.attachments) st)

/-- `ReadAttachment`, CZIReader.cpp:309-319 and 400-425: the information and the data. -/
def readAttachment (r : Reader) (alloc : Alloc) (s : Stream) (index : Int) : Outcome (Option (RawAttInfo × Payload)) :=
  r.guard ((vectorTryGet r.doc.attachments index).bind fun
    | none => .ok none
    | some e =>
      match readAttachmentData alloc s e.filePosition with
      | .error .undefined => .undefined
      | .error _ => .throws
      | .ok d => (e.rawInfo 0).bind fun a => .ok (some (a, d)))

/-- `TryGetSubBlockInfo`, CZIReader.cpp:221-235: the state of the reader is not checked. `ConvertToSubBlockInfo`, CziReaderCommon.cpp:112-123, is
`infoFromEntry`. -/
def subBlockInfo (r : Reader) (index : Int) : Outcome (Option SbInfo) :=
  (vectorTryGet r.doc.entries index).bind fun e => .ok (e.map infoFromEntry)

/-- `EnumerateSubBlocks`, CZIReader.cpp:168-176. -/
def enumerateSubBlocks {σ : Type} (r : Reader) (f : σ → Int → SbInfo → Bool × σ) (st : σ) : Outcome σ :=
  r.guard (.ok (enumerate (fun st i e => f st i (infoFromEntry e)) (indexed r.doc.entries) st))

/-- `EnumerateSubBlocksEx`, CZIReader.cpp:178-195: with the position in the file. -/
def enumerateSubBlocksEx {σ : Type} (r : Reader) (f : σ → Int → SbInfo × Nat → Bool × σ) (st : σ) : Outcome σ :=
  r.guard (.ok (enumerate (fun st i e =>
    f st i (⟨pixelTypeFromInt e.pixelType, e.compression, e.coordinate, e.mIndex, e.x, e.y, e.width, e.height, e.storedWidth, e.storedHeight,
      pyramidTypeFromByte e.pyramidType⟩, e.filePosition)) (indexed r.doc.entries) st))

/-- `EnumSubset`, CZIReader.cpp:197-201. -/
def subBlockSubset {σ : Type} (r : Reader) (plane : Option Coord) (roi : Option IntRect) (onlyLayer0 : Bool) (f : σ → Int → SbInfo → Bool × σ) (st : σ) :
    Outcome σ :=
  r.guard (.ok (enumSubset (indexed r.doc.entries) plane roi onlyLayer0 (fun st i e => f st i (infoFromEntry e)) st))

/-- `ReadSubBlock`, CZIReader.cpp:203-213. -/
def readSubBlock (r : Reader) (alloc : Alloc) (s : Stream) (index : Int) : Outcome (Option SubBlock) :=
  r.guard ((vectorTryGet r.doc.entries index).bind fun
    | none => .ok none
    | some e =>
      match readEntry alloc s r.doc.options e with
      | .error .undefined => .undefined
      | .error _ => .throws
      | .ok b => .ok (some b))

/-- `TransformPoint`, CZIReader.cpp:116-166: the state of the reader is not checked. `dflt` is the default frame of reference, `(ox, oy)` the corner of the
bounding box. -/
def transform (_r : Reader) (dflt : Frame) (ox oy : Int) (src : Frame) (px py : Int) (dst : Frame) : Outcome (Frame × Int × Int) :=
  match transformPoint dflt ox oy src px py dst with
  | some p => .ok p
  | none => .throws

end Reader

/-! ## The reader-writer -/

namespace RW

/-- `ThrowIfNotOperational`, CziReaderWriter.cpp:947-953, before a call. -/
def guard {α : Type} (s : RW) (k : Outcome α) : Outcome α := if s.w.operational = false then .throws else k

/-- `GetAttachmentCount`, CziReaderWriter.cpp:773-777. -/
def attachmentCount (s : RW) : Outcome Nat := s.guard (.ok s.w.att.atts.length)

/-- `TryGetAttachmentInfo`, CziReaderWriter.cpp:779-798: nine characters are copied, the ninth being the first of the name (the next member of the
structure); it is overwritten in the next line. -/
def attachmentInfo (s : RW) (key : Int) : Outcome (Option RawAttInfo) :=
  s.guard (match s.w.att.tryGet key with
    | none => .ok none
    | some e =>
      (stdString e.name.toList).bind fun n =>
        .ok (some ⟨e.guid, ((e.contentFileType.toList ++ e.name.toList).take 9).set 8 0, n⟩))

/-- `EnumerateAttachments`, CziReaderWriter.cpp:800-813: the ninth character of the type is not set, so it is whatever the memory held (`junk`). -/
def enumerateAttachments {σ : Type} (s : RW) (junk : Int → UInt8) (f : σ → Int → RawAttInfo → Bool × σ) (st : σ) : Outcome σ :=
  s.guard (enumAtts f junk s.w.att.atts st)

/-- `EnumerateSubset`, CziReaderWriter.cpp:815-823. -/
def attachmentSubset {σ : Type} (s : RW) (type name : Option (List UInt8)) (f : σ → Int → RawAttInfo → Bool × σ) (st : σ) : Outcome σ :=
  s.guard (enumAttSubset type name f s.w.att.atts st)

/-- The information that comes with the attachment from `ReadAttachment`, CziReaderWriter.cpp:825-835 and 932-945. -/
def readAttachmentInfo (s : RW) (alloc : Alloc) (key : Int) : Outcome (Option (RawAttInfo × Payload)) :=
  s.guard (match s.w.att.tryGet key with
    | none => .ok none
    | some e =>
      match readAttachmentData alloc s.disk.stream e.filePosition with
      | .error .undefined => .undefined
      | .error _ => .throws
      | .ok d => (e.rawInfo 0).bind fun a => .ok (some (a, d)))

/-- `TryGetSubBlockInfo`, CziReaderWriter.cpp:686-701. -/
def subBlockInfo (s : RW) (key : Int) : Outcome (Option SbInfo) :=
  s.guard (.ok ((s.w.dir.tryGet key).map infoFromEntry))

/-- `EnumerateSubBlocks`, CziReaderWriter.cpp:645-653. -/
def enumerateSubBlocks {σ : Type} (s : RW) (f : σ → Int → SbInfo → Bool × σ) (st : σ) : Outcome σ :=
  s.guard (.ok (enumerate (fun st i e => f st i (infoFromEntry e)) s.w.dir.subBlks st))

/-- `EnumSubset`, CziReaderWriter.cpp:655-659. -/
def subBlockSubset {σ : Type} (s : RW) (plane : Option Coord) (roi : Option IntRect) (onlyLayer0 : Bool) (f : σ → Int → SbInfo → Bool × σ) (st : σ) :
    Outcome σ :=
  s.guard (.ok (enumSubset s.w.dir.subBlks plane roi onlyLayer0 (fun st i e => f st i (infoFromEntry e)) st))

end RW

end Verif.Czi
