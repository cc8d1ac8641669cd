import Verif.Model.Lookup

/-!
# A reader object and its calls, one after the other, on streams that may fail

`CCZIReader`, CZIReader.cpp and CZIReader.h:17-73, with all of its members; Model/Lookup.lean has the calls on an opened document. The streams are numbered. What they
deliver may differ from call to call (`World`). Simplifications: during one call a stream answers the same request in the same way; the default frame of reference is
left out (C25); the calls do not overlap (C45 is about calls that do).
-/

namespace Verif.ReaderSession
open Czi

/-- What the streams deliver during a call. A stream that throws an exception delivers nothing: it becomes a `LibCZIIOException` (CziParse.cpp:30-37, 73-80 and so on). -/
abbrev World := Nat → Stream

/-- The members of `CCZIReader`, CZIReader.h:23-31; `stream` is the number of the stream. -/
structure Obj where
  operational : Bool
  header : Header
  entries : List Entry
  attachments : List AttEntry
  options : OpenOptions
  stream : Option Nat

/-- The constructor, CZIReader.cpp:36-41, with that of `CFileHeaderSegmentData`, FileHeaderSegmentData.h:25-32. -/
def Obj.new : Obj := ⟨false, ⟨-1, -1, ⟨0, 0, 0, #v[0, 0, 0, 0, 0, 0, 0, 0]⟩, 2 ^ 64 - 1, 2 ^ 64 - 1, 2 ^ 64 - 1⟩, [], [], OpenOptions.default, none⟩

/-- The document the object presents. -/
def Obj.reader (s : Obj) : Reader := ⟨s.operational, ⟨s.header, s.entries, s.attachments, s.options⟩⟩

/-- A call. -/
inductive Call where
  | open (id : Nat) (o : OpenOptions)
  | close
  | readSubBlock (i : Int)
  | readAttachment (i : Int)
  | readMetadata
  | fileHeader
  | subBlocks
  | attachments
  | attachmentInfo (i : Int)
  | subBlockInfo (i : Int)

/-- What a call returns. -/
inductive Answer where
  | done
  | subBlock (b : Option SubBlock)
  | attachment (a : Option (RawAttInfo × Payload))
  | metadata (m : MetaData)
  | header (guid : Guid) (major minor : Int)
  | subBlocks (l : List (Int × SbInfo))
  | attachments (l : List (Int × RawAttInfo))
  | attachmentInfo (a : Option RawAttInfo)
  | subBlockInfo (b : Option SbInfo)

/-- The result of a function that reads, as the outcome of a call. -/
def ofRead {α : Type} : Except RErr α → Outcome α
  | .ok a => .ok a
  | .error .undefined => .undefined
  | .error _ => .throws

/-- The callback that collects what is enumerated. -/
def collect {α : Type} (l : List (Int × α)) (i : Int) (a : α) : Bool × List (Int × α) := (true, l ++ [(i, a)])

/-- `CCZIReader::Open`, CZIReader.cpp:43-81: the members are assigned one after the other, so those assigned before an exception keep the new values. -/
def openCall (al : Alloc) (w : World) (id : Nat) (o : OpenOptions) (s : Obj) : Outcome Answer × Obj :=
  if s.operational = true then (.throws, s)
  else
    match readHeader (w id) with
    | .error e => ((ofRead (.error e)), s)
    | .ok h =>
      match readSubDir al (w id) (parseOptions o) h.subDirPos with
      | .error e => ((ofRead (.error e)), { s with header := h })
      | .ok (es, _) =>
        if h.attDirPos ≠ 0 then
          match readAttDir al (w id) h.attDirPos with
          | .error e => ((ofRead (.error e)), { s with header := h, entries := es })
          | .ok (as, _) => (.ok .done, ⟨true, h, es, as, o, some id⟩)
        else (.ok .done, ⟨true, h, es, s.attachments, o, some id⟩)

/-- The calls that only ask. `str` is the stream of the object, if there is one: the functions that read throw without one (CZIReader.cpp:333-336, 407-410 and 436-439).
`GetFileHeaderInfo`, CZIReader.cpp:83-90; `ReadMetadataSegment`, CZIReader.cpp:92-101 and 427-445; the others are in Model/Lookup.lean. -/
def ask (al : Alloc) (r : Reader) (str : Option Stream) : Call → Outcome Answer
  | .open _ _ => .throws
  | .close => .throws
  | .readSubBlock i => r.guard (match str with
    | none => .throws
    | some t => (r.readSubBlock al t i).bind fun b => .ok (.subBlock b))
  | .readAttachment i => r.guard (match str with
    | none => .throws
    | some t => (r.readAttachment al t i).bind fun b => .ok (.attachment b))
  | .readMetadata => r.guard (match str with
    | none => .throws
    | some t => (ofRead (r.doc.readMetadata al t)).bind fun m => .ok (.metadata m))
  | .fileHeader => r.guard (.ok (.header r.doc.header.guid r.doc.header.major r.doc.header.minor))
  | .subBlocks => (r.enumerateSubBlocks collect []).bind fun l => .ok (.subBlocks l)
  | .attachments => (r.enumerateAttachments collect []).bind fun l => .ok (.attachments l)
  | .attachmentInfo i => (r.attachmentInfo i).bind fun a => .ok (.attachmentInfo a)
  | .subBlockInfo i => (r.subBlockInfo i).bind fun b => .ok (.subBlockInfo b)

/-- One call on the object. `Close`: CZIReader.cpp:243-254. -/
def call (al : Alloc) (w : World) (s : Obj) : Call → Outcome Answer × Obj
  | .open id o => openCall al w id o s
  | .close => if s.operational = true then (.ok .done, { s with operational := false, stream := none }) else (.throws, s)
  | c => (ask al s.reader (s.stream.map w) c, s)

/-- The calls of a session, each with what the streams deliver meanwhile: the outcomes and the object. -/
def run (al : Alloc) : Obj → List (Call × World) → List (Call × Outcome Answer) × Obj
  | s, [] => ([], s)
  | s, (c, w) :: cs => let r := run al (call al w s c).2 cs; ((c, (call al w s c).1) :: r.1, r.2)

/-! ## Streams given to the C interface -/

/-- What the function of the caller does with a request: the value returned, the bytes stored in the buffer and the number of bytes reported (`none`: not set). -/
structure Reply where
  code : Int
  stored : List UInt8
  count : Option Nat

/-- `InputStreamWrapper::Read`, libCZIApi.cpp:668-700: `none` if an exception is thrown, otherwise what is in the buffer and the number reported, which is 2^64-1 if the function does not set
it. -/
def wrapperRead (f : Nat → Nat → Reply) (off n : Nat) : Option (List UInt8 × Nat) :=
  let r := f off n
  if r.code ≠ 0 then none else some (r.stored, r.count.getD 18446744073709551615)

/-- The stream the reader sees, if the numbers reported are right or not set: every function that reads compares the number with the size and throws an exception if they differ, so a number that was not set is
as good as no data. -/
def externalStream (f : Nat → Nat → Reply) : Stream := fun off n =>
  match wrapperRead f off n with
  | none => []
  | some (b, c) => if c = b.length then b else []

end Verif.ReaderSession
