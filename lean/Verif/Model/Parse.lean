import Verif.Model.Structs

/-!
# Reading a CZI document (`CCZIParse`, `CCZIReader`)

Undefined behaviour of the C++ code (writing beyond a buffer, using an indeterminate value, reading into a null pointer) is
the distinct outcome `RErr.undefined`. An exception thrown by the stream is represented by a stream that delivers
too little (both make the reader throw). `malloc` is an oracle `alloc : Nat → Bool` (does an allocation of that size
succeed). Offsets are 64-bit unsigned.
-/

namespace Verif.Czi

/-- Outcomes of reading other than success. -/
inductive RErr where
  /-- `LibCZICZIParseException` `NotEnoughData`, or `LibCZIIOException` -/
  | notEnough
  /-- `LibCZICZIParseException` `CorruptedData` -/
  | corrupted
  /-- `LibCZICZIParseException` `NonConformingSubBlockDimensionEntry` -/
  | nonConforming
  /-- `LibCZICZIParseException` `SubBlockDirectoryToSubBlockHeaderMismatch` -/
  | mismatch
  /-- `LibCZISegmentNotPresent` -/
  | notPresent
  /-- `std::logic_error` -/
  | logicError
  /-- undefined behaviour: no guarantee at all -/
  | undefined
  deriving DecidableEq, Repr

/-- An allocation oracle. -/
abbrev Alloc := Nat → Bool

/-- 64-bit unsigned wrap-around. -/
def u64 (n : Int) : Nat := (n % (2 ^ 64 : Nat)).toNat

/-- Conversion to a 32-bit signed integer. -/
def i32 (n : Int) : Int := toSigned 4 (n % (2 ^ 32 : Nat)).toNat

/-- `IStream::Read` into a structure of `n` bytes, with the check that everything was delivered. -/
def readExact (s : Stream) (off n : Nat) : Except RErr (List UInt8) :=
  let b := s off n
  if b.length = n then .ok b else .error .notEnough

/-- Reading into a `malloc`ed buffer of `n` bytes whose allocation is not checked for failure (CziParse.cpp:110-123 and 206-223): with a
failed allocation, delivering at least one byte writes through a null pointer. -/
def readMalloc (alloc : Alloc) (s : Stream) (off n : Nat) : Except RErr (List UInt8) :=
  if alloc n = false ∧ 0 < (s off n).length then .error .undefined else readExact s off n

/-! ## File header -/

/-- `CCZIParse::ReadFileHeaderSegmentData`, CziParse.cpp:25-59. -/
def readHeader (s : Stream) : Except RErr Header := do
  let b ← readExact s 0 544
  if segMagic b = fileMagic then .ok (headerOf b) else .error .corrupted

/-! ## Sub-block directory -/

/-- `SubblockDirectoryParseOptions`, CziParse.h:36-122. -/
structure ParseOptions where
  xyMustBePresent : Bool
  otherMustHaveSizeOne : Bool
  physicalOtherMustHaveSizeOne : Bool
  mMustHaveSizeOne : Bool
  mMustHaveSizeOneExceptForPyramid : Bool
  deriving DecidableEq

/-- The default: no flag set, CziParse.h:47. -/
def ParseOptions.lax : ParseOptions := ⟨false, false, false, false, false⟩

/-- `ICZIReader::OpenOptions` (the parts used here), libCZI.h:752-805. -/
structure OpenOptions where
  lax : Bool
  ignoreSizeM : Bool
  headerPrecedence : Bool
  ignoreDiscrepancy : Bool

/-- The default options, libCZI.h:776-795. -/
def OpenOptions.default : OpenOptions := ⟨true, false, false, false⟩

/-- `GetParseOptionsFromOpenOptions`, CZIReader.cpp:19-34, with `SetStrictParsing`, CziParse.h:115-121. -/
def parseOptions (o : OpenOptions) : ParseOptions :=
  if o.lax then ParseOptions.lax
  else if o.ignoreSizeM then ⟨true, true, true, false, true⟩
  else ⟨true, true, true, true, false⟩

/-- `CCZIParse::ToUpperCase`, CziParse.cpp:719-727. -/
def toUpper (b : UInt8) : UInt8 := if 97 ≤ b ∧ b ≤ 122 then b - 32 else b

/-- What a dimension entry is about. -/
inductive DimKind where
  | x | y | m
  | dim (d : Dim)
  deriving DecidableEq

/-- `IsXDimension`, `IsYDimension`, `IsMDimension`, CziParse.cpp:769-800, and the table of `DimensionCharToDimensionIndex`,
lines 729-767. -/
def dimKind (b : UInt8) : Option DimKind :=
  let c := toUpper b
  if c = 88 then some .x
  else if c = 89 then some .y
  else if c = 77 then some .m
  else if c = 66 then some (.dim .B)
  else if c = 67 then some (.dim .C)
  else if c = 72 then some (.dim .H)
  else if c = 73 then some (.dim .I)
  else if c = 82 then some (.dim .R)
  else if c = 83 then some (.dim .S)
  else if c = 84 then some (.dim .T)
  else if c = 86 then some (.dim .V)
  else if c = 90 then some (.dim .Z)
  else none

/-- One `DimensionEntryDV` as read: first character, start, size, stored size. -/
structure DimEntry where
  char : UInt8
  start : Int
  size : Int
  stored : Int
  deriving DecidableEq

/-- Decoding 20 bytes. -/
def dimEntryOf (b : List UInt8) : DimEntry := ⟨b.getD 0 0, fieldInt b 4 4, fieldInt b 8 4, fieldInt b 16 4⟩

/-- The first `n` dimension entries of a buffer. -/
def dimEntries (b : List UInt8) : Nat → List DimEntry
  | 0 => []
  | n + 1 => dimEntryOf b :: dimEntries (b.drop 20) n

/-- `SubBlkEntry::Invalidate`, CziSubBlockDirectory.h:47-51, plus the remaining fields set at the end of
`AddEntryToSubBlockDirectory`, CziParse.cpp:640-643. -/
def Entry.start (pixelType : Int) (pos : Nat) (compression : Int) (pyramid : UInt8) : Entry :=
  { coordinate := Coord.empty, mIndex := intMin, x := intMin, y := intMin, width := intMin, height := intMin,
    storedWidth := intMin, storedHeight := intMin, pixelType := pixelType, filePosition := pos,
    compression := compression, pyramidType := pyramid }

/-- The state of the loop in `AddEntryToSubBlockDirectory`. -/
structure DvState where
  entry : Entry
  xGiven : Bool
  yGiven : Bool
  mBad : Bool

/-- One iteration of the loop, CziParse.cpp:539-604. -/
def dvStep (o : ParseOptions) (st : DvState) (d : DimEntry) : Except RErr DvState :=
  match dimKind d.char with
  | some .x =>
    .ok { st with entry := { st.entry with x := d.start, width := d.size, storedWidth := d.stored }, xGiven := true }
  | some .y =>
    .ok { st with entry := { st.entry with y := d.start, height := d.size, storedHeight := d.stored }, yGiven := true }
  | some .m =>
    if d.size ≠ 1 then
      if o.mMustHaveSizeOne then .error .nonConforming
      else .ok { st with entry := { st.entry with mIndex := d.start }, mBad := true }
    else .ok { st with entry := { st.entry with mIndex := d.start } }
  | some (.dim k) =>
    if o.physicalOtherMustHaveSizeOne && decide (d.stored ≠ 1) then .error .nonConforming
    else if o.otherMustHaveSizeOne && decide (d.size ≠ 1) then .error .nonConforming
    else .ok { st with entry := { st.entry with coordinate := st.entry.coordinate.set k d.start } }
  | none => .error .corrupted

/-- The loop over the dimension entries. -/
def dvLoop (o : ParseOptions) : List DimEntry → DvState → Except RErr DvState
  | [], st => .ok st
  | d :: ds, st => do
    let st ← dvStep o st d
    dvLoop o ds st

/-- `AddEntryToSubBlockDirectory` for DV, CziParse.cpp:530-646. -/
def addEntryDV (o : ParseOptions) (start : Entry) (ds : List DimEntry) : Except RErr Entry := do
  let st ← dvLoop o ds ⟨start, false, false, false⟩
  if o.xyMustBePresent && (!st.xGiven || !st.yGiven) then .error .nonConforming
  else if st.mBad && o.mMustHaveSizeOneExceptForPyramid && st.entry.isLayer0 then .error .nonConforming
  else .ok st.entry

/-- The read function of `ReadSubBlockDirectory`, CziParse.cpp:127-139, for a fixed non-negative size that fits the destination: the bytes. -/
def bufRead (buf : List UInt8) (cur n : Nat) : Except RErr (List UInt8) :=
  if cur + n ≤ buf.length then .ok (field buf cur n) else .error .corrupted

/-- The read of the dimension entries (`DimensionCount * 20` as `int`, CziParse.cpp:504-506) into an array of 40 entries. A negative size
that passes the check, or one of more than 800 bytes, is undefined behaviour. -/
def bufReadDims (buf : List UInt8) (cur : Nat) (count : Int) : Except RErr (List UInt8 × Nat) :=
  let n := i32 (count * 20)
  if u64 (cur + n) ≤ buf.length then
    if n < 0 ∨ n > 800 then .error .undefined
    else .ok (field buf cur n.toNat, cur + n.toNat)
  else .error .corrupted

/-- `ParseThroughDirectoryEntries`, CziParse.cpp:491-519, with the functions passed by `ReadSubBlockDirectory`. A count of more than 40
would read beyond the array (with wrap-around of the product it may get here). -/
def parseEntries (o : ParseOptions) (buf : List UInt8) : Nat → Nat → Except RErr (List Entry)
  | 0, _ => .ok []
  | n + 1, cur => do
    let schema ← bufRead buf cur 2
    if schema = ascii "DV" then do
      let fixed ← bufRead buf (cur + 2) 30
      let count := fieldInt fixed 26 4
      let (dims, next) ← bufReadDims buf (cur + 32) count
      if count > 40 then .error .undefined
      else do
        let e ← addEntryDV o
          (Entry.start (fieldInt fixed 0 4) (fieldNat fixed 4 8) (fieldInt fixed 16 4) (fixed.getD 20 0))
          (dimEntries dims count.toNat)
        let es ← parseEntries o buf n next
        .ok (e :: es)
    else if schema = ascii "DE" then do
      let _ ← bufRead buf (cur + 2) 128
      .error .logicError
    else parseEntries o buf n (cur + 2)

/-- `CCZIParse::ReadSubBlockDirectory`, CziParse.cpp:69-159: the entries in the order in which they are added, and the allocated size of
the segment. -/
def readSubDir (alloc : Alloc) (s : Stream) (o : ParseOptions) (off : Nat) : Except RErr (List Entry × Int) := do
  let b ← readExact s off 160
  if segMagic b ≠ subDirMagic then .error .corrupted
  else
    let size := if fieldNat b 24 8 = 0 then fieldNat b 16 8 else fieldNat b 24 8
    if size < 128 then .error .corrupted
    else do
      let buf ← readMalloc alloc s (u64 (off + 160)) (size - 128)
      let es ← parseEntries o buf (fieldInt b 32 4).toNat 0
      .ok (es, segAlloc b)

/-! ## Attachment directory -/

/-- One attachment entry, CziParse.cpp:226-247: `none` if the schema is not "A1"; the last byte of the name is forced to 0. -/
def attEntryOf (b : List UInt8) : Option AttEntry :=
  if field b 0 2 = ascii "A1" then
    some ⟨fieldNat b 12 8, guidOf (field b 24 16), vecOf 8 (field b 40 8), vecOf 80 (field b 48 79)⟩
  else none

/-- The loop over the entries, CziParse.cpp:225-248. -/
def attEntriesOf (b : List UInt8) : Nat → List AttEntry
  | 0 => []
  | n + 1 => (attEntryOf b).toList ++ attEntriesOf (b.drop 128) n

/-- `CCZIParse::ReadAttachmentsDirectory`, CziParse.cpp:173-250. -/
def readAttDir (alloc : Alloc) (s : Stream) (off : Nat) : Except RErr (List AttEntry × Int) := do
  let b ← readExact s off 288
  if segMagic b ≠ attDirMagic then .error .corrupted
  else
    let count := fieldInt b 32 4
    if count > 0 then do
      let buf ← readMalloc alloc s (u64 (off + 288)) (count.toNat * 128)
      .ok (attEntriesOf buf count.toNat, segAlloc b)
    else .ok ([], segAlloc b)

/-! ## Sub-blocks -/

/-- A payload: size and the bytes (`none`: null pointer, because the size is ≤ 0 or the allocation failed). -/
structure Payload where
  size : Int
  bytes : Option (List UInt8)
  deriving DecidableEq

/-- Reading a payload of `n` bytes at `off`, CziParse.cpp:352-427: the buffer is allocated if the size is positive; with a null pointer nothing is
read. The number of bytes read, converted to `int32`, must be the size. -/
def readPayload (alloc : Alloc) (s : Stream) (off : Nat) (n : Int) : Except RErr Payload :=
  if n > 0 ∧ alloc n.toNat = true then
    let b := s off n.toNat
    if i32 b.length ≠ n then .error .notEnough else .ok ⟨n, some b⟩
  else .ok ⟨n, none⟩

/-- `CCZIParse::SubBlockData`, CziParse.h:168-184; `none` = indeterminate (never set). -/
structure SbData where
  compression : Int
  pixelType : Int
  coordinate : Coord
  x : Option Int
  y : Option Int
  w : Option Int
  h : Option Int
  pw : Option Int
  ph : Option Int
  mIndex : Option Int
  spare0 : Option UInt8
  metadata : Payload
  data : Payload
  attachment : Payload

/-- The geometry part filled by the loop over the dimensions. -/
structure Geo where
  coordinate : Coord
  x : Option Int
  y : Option Int
  w : Option Int
  h : Option Int
  pw : Option Int
  ph : Option Int
  mIndex : Option Int

/-- Nothing set but the m-index. -/
def Geo.start (m : Option Int) : Geo := ⟨Coord.empty, none, none, none, none, none, none, m⟩

/-- One iteration of the loop in `ReadSubBlock`, CziParse.cpp:327-350. -/
def geoStep (g : Geo) (d : DimEntry) : Except RErr Geo :=
  match dimKind d.char with
  | some .m => .ok { g with mIndex := some d.start }
  | some .x => .ok { g with x := some d.start, w := some d.size, pw := some d.stored }
  | some .y => .ok { g with y := some d.start, h := some d.size, ph := some d.stored }
  | some (.dim k) => .ok { g with coordinate := g.coordinate.set k d.start }
  | none => .error .corrupted

def geoLoop : List DimEntry → Geo → Except RErr Geo
  | [], g => .ok g
  | d :: ds, g => do
    let g ← geoStep g d
    geoLoop ds g

/-- The further part of the fixed structure, CziParse.cpp:300-323: `len` is the (uint32) length of the segment data. The structure has 48 + 32 + 40·20 =
880 bytes, so delivering more than 592 bytes beyond the first 288 overruns it. -/
def readRest (s : Stream) (off len : Nat) : Except RErr (List UInt8) :=
  if len + 32 > 288 then
    let n := len + 32 - 288
    if (s (u64 (off + 288)) n).length > 592 then .error .undefined
    else readExact s (u64 (off + 288)) n
  else .ok []

/-- The header part of `CCZIParse::ReadSubBlock`, CziParse.cpp:252-367: the fixed bytes, compression, pixel type, spare byte, geometry and the length of
the segment data. -/
def readSbHeader (s : Stream) (off : Nat) : Except RErr (List UInt8 × Int × Int × Option UInt8 × Geo × Nat) := do
  let b ← readExact s off 288
  if segMagic b ≠ subBlockMagic then .error .corrupted
  else if field b 48 2 = ascii "DV" then
    let count := fieldInt b 76 4
    if count > 40 then .error .corrupted
    else do
      let len := ((16 + 32 + count * 20) % (2 ^ 32 : Nat)).toNat
      let rest ← readRest s off len
      let g ← geoLoop (dimEntries ((b ++ rest).drop 80) count.toNat) (Geo.start (some intMax))
      .ok (b, fieldInt b 66 4, fieldInt b 50 4, some (b.getD 70 0), g, max len 256)
  else if field b 48 2 = ascii "DE" then
    .ok (b, fieldInt b 120 4, fieldInt b 50 4, none, Geo.start none, 256)
  else .error .corrupted

/-- `CCZIParse::ReadSubBlock`, CziParse.cpp:252-437. -/
def readSubBlockData (alloc : Alloc) (s : Stream) (off : Nat) : Except RErr SbData := do
  let (b, compression, pixelType, spare0, g, len) ← readSbHeader s off
  let ms := fieldInt b 32 4
  let as := fieldInt b 36 4
  let ds := fieldInt b 40 8
  let m ← readPayload alloc s (u64 (off + len + 32)) ms
  let d ← readPayload alloc s (u64 (off + len + 32 + ms)) ds
  let a ← readPayload alloc s (u64 (off + len + 32 + ms + ds)) as
  .ok ⟨compression, pixelType, g.coordinate, g.x, g.y, g.w, g.h, g.pw, g.ph, g.mIndex, spare0, m, d, a⟩

/-- `CCZIParse::ReadAttachment`, CziParse.cpp:439-489. -/
def readAttachmentData (alloc : Alloc) (s : Stream) (off : Nat) : Except RErr Payload := do
  let b ← readExact s off 288
  if segMagic b ≠ attMagic then .error .corrupted
  else readPayload alloc s (u64 (off + 288)) (fieldInt b 32 8)

/-- What `ReadMetadataSegment` delivers: XML and attachment. -/
structure MetaData where
  xml : Payload
  attachment : Payload
  deriving DecidableEq

/-- `CCZIParse::ReadMetadataSegment`, CziParse.cpp:648-717. -/
def readMetadataData (alloc : Alloc) (s : Stream) (off : Nat) : Except RErr MetaData := do
  let b ← readExact s off 288
  if segMagic b ≠ metadataMagic then .error .corrupted
  else do
    let x ← readPayload alloc s (u64 (off + 288)) (fieldInt b 32 4)
    let a ← readPayload alloc s (u64 (off + 288 + fieldInt b 32 4)) (fieldInt b 36 4)
    .ok ⟨x, a⟩

/-- `CCZIParse::ReadSegmentHeader` with a given magic, CziParse.cpp:839-887: the allocated and the used size. -/
def readSegmentHeader (s : Stream) (magic : List UInt8) (off : Nat) : Except RErr (Int × Int) := do
  let b ← readExact s off 32
  if segMagic b ≠ magic then .error .corrupted else .ok (segAlloc b, segUsed b)

/-- `CCZIParse::ReadSegmentHeaderAny`, CziParse.cpp:889-910. -/
def readSegmentHeaderAny (s : Stream) (off : Nat) : Except RErr (Int × Int) := do
  let b ← readExact s off 32
  .ok (segAlloc b, segUsed b)

/-! ## The reader -/

/-- An opened document: the state of `CCZIReader` after `Open`. -/
structure Doc where
  header : Header
  entries : List Entry
  attachments : List AttEntry
  options : OpenOptions

/-- `CCZIReader::Open`, CZIReader.cpp:43-81; `old` are the attachments known to the object from an earlier document (empty for a new
object): they stay if the document has no attachment directory. -/
def openDocWith (alloc : Alloc) (s : Stream) (o : OpenOptions) (old : List AttEntry) : Except RErr Doc := do
  let h ← readHeader s
  let (es, _) ← readSubDir alloc s (parseOptions o) h.subDirPos
  if h.attDirPos ≠ 0 then do
    let (as, _) ← readAttDir alloc s h.attDirPos
    .ok ⟨h, es, as, o⟩
  else .ok ⟨h, es, old, o⟩

/-- `CCZIReader::Open` with a new object. -/
def openDoc (alloc : Alloc) (s : Stream) (o : OpenOptions) : Except RErr Doc := openDocWith alloc s o []

/-- `Utils::IsValidMindex`, libCZI_Utilities.cpp. -/
def isValidMindex (m : Int) : Bool := decide (m ≠ intMax) && decide (m ≠ intMin)

/-- Comparison with a possibly indeterminate value: `none` = undefined behaviour. -/
def differs (a : Int) (b : Option Int) : Option Bool := b.map (fun v => decide (a ≠ v))

/-- `||` evaluated from left to right with possibly undefined operands. -/
def orUB (a : Option Bool) (b : Option Bool) : Option Bool :=
  match a with
  | none => none
  | some true => some true
  | some false => b

/-- The discrepancy check, CZIReader.cpp:354-365. -/
def discrepancy (e : Entry) (d : SbData) : Option Bool :=
  orUB (some (decide (e.pixelType ≠ d.pixelType))) <|
  orUB (some (decide (e.compression ≠ d.compression))) <|
  orUB (some (decide (e.coordinate.compare d.coordinate ≠ 0))) <|
  orUB (d.mIndex.map (fun m => isValidMindex e.mIndex != isValidMindex m ||
    (isValidMindex m && decide (e.mIndex ≠ m)))) <|
  orUB (differs e.x d.x) <| orUB (differs e.y d.y) <| orUB (differs e.width d.w) <| orUB (differs e.height d.h) <|
  orUB (differs e.storedWidth d.pw) (differs e.storedHeight d.ph)

/-- `SubBlockInfo`, libCZI.h, as delivered with a sub-block (`mIndex`: INT_MIN or INT_MAX = none; width and height of the physical size
are shown as signed values). -/
structure SbInfo where
  pixelType : PixelType
  compression : Int
  coordinate : Coord
  mIndex : Int
  x : Int
  y : Int
  w : Int
  h : Int
  pw : Int
  ph : Int
  pyramidType : PyramidType

/-- A sub-block as delivered to the user (`ISubBlock`). -/
structure SubBlock where
  info : SbInfo
  metadata : Payload
  data : Payload
  attachment : Payload

/-- The information taken from the directory entry, CZIReader.cpp:371-378. -/
def infoFromEntry (e : Entry) : SbInfo :=
  ⟨pixelTypeFromInt e.pixelType, e.compression, e.coordinate, e.mIndex, e.x, e.y, e.width, e.height, e.storedWidth,
   e.storedHeight, pyramidTypeFromByte e.pyramidType⟩

/-- The information taken from the sub-block header, CZIReader.cpp:382-388: copying indeterminate values is undefined behaviour. -/
def infoFromHeader (d : SbData) : Option SbInfo := do
  let m ← d.mIndex
  let x ← d.x
  let y ← d.y
  let w ← d.w
  let h ← d.h
  let pw ← d.pw
  let ph ← d.ph
  let sp ← d.spare0
  return ⟨pixelTypeFromInt d.pixelType, d.compression, d.coordinate, m, x, y, w, h, pw, ph, pyramidTypeFromByte sp⟩

/-- `CCZIReader::ReadSubBlock(entry)`, CZIReader.cpp:321-398. -/
def readEntry (alloc : Alloc) (s : Stream) (o : OpenOptions) (e : Entry) : Except RErr SubBlock := do
  let d ← readSubBlockData alloc s e.filePosition
  if o.ignoreDiscrepancy = false then
    match discrepancy e d with
    | none => .error .undefined
    | some true => .error .mismatch
    | some false => finish d
  else finish d
where
  finish (d : SbData) : Except RErr SubBlock :=
    if o.headerPrecedence then
      match infoFromHeader d with
      | none => .error .undefined
      | some i => .ok ⟨i, d.metadata, d.data, d.attachment⟩
    else .ok ⟨infoFromEntry e, d.metadata, d.data, d.attachment⟩

/-- `CCZIReader::ReadSubBlock(int index)`, CZIReader.cpp:207-217: no entry → null pointer (`none`). -/
def Doc.readSubBlock (alloc : Alloc) (s : Stream) (doc : Doc) (index : Nat) : Except RErr (Option SubBlock) :=
  match doc.entries[index]? with
  | none => .ok none
  | some e => (readEntry alloc s doc.options e).map some

/-- What the user gets as attachment: `AttachmentInfo` and the data. The strings are the bytes up to the first zero byte. -/
structure Attachment where
  guid : Guid
  contentFileType : List UInt8
  name : List UInt8
  data : Payload

/-- The C string in a byte array. -/
def cstr (l : List UInt8) : List UInt8 := l.takeWhile (· ≠ 0)

/-- `CCZIReader::ReadAttachment(int index)`, CZIReader.cpp:307-319 and 400-425. -/
def Doc.readAttachment (alloc : Alloc) (s : Stream) (doc : Doc) (index : Nat) : Except RErr (Option Attachment) :=
  match doc.attachments[index]? with
  | none => .ok none
  | some e =>
    match readAttachmentData alloc s e.filePosition with
    | .error err => .error err
    | .ok d => .ok (some ⟨e.guid, cstr e.contentFileType.toList, cstr e.name.toList, d⟩)

/-- `CCZIReader::ReadMetadataSegment`, CZIReader.cpp:92-101, with `GetIsMetadataPositionPositionValid`, FileHeaderSegmentData.h:62-65. -/
def Doc.readMetadata (alloc : Alloc) (s : Stream) (doc : Doc) : Except RErr MetaData :=
  if doc.header.metadataPos = 2 ^ 64 - 1 ∨ doc.header.metadataPos = 0 then .error .notPresent
  else readMetadataData alloc s doc.header.metadataPos

end Verif.Czi
