import Verif.Model.Writer
import Verif.Model.Parse

/-!
# Specification vocabulary for documents

Ranges of the C++ types (`int` = 32-bit, `uint64_t` = 64-bit), independent of the encoding.
-/

namespace Verif.Spec

/-- The range of `int`. -/
def IsInt32 (i : Int) : Prop := -2147483648 ≤ i ∧ i ≤ 2147483647

/-- Every value of a coordinate is an `int`. -/
def CoordInt32 (c : Coord) : Prop := ∀ d v, c d = some v → IsInt32 v

/-- Every member of a directory entry is a value of its C++ type. -/
structure EntryFits (e : Entry) : Prop where
  coordinate : CoordInt32 e.coordinate
  mIndex : IsInt32 e.mIndex
  x : IsInt32 e.x
  y : IsInt32 e.y
  width : IsInt32 e.width
  height : IsInt32 e.height
  storedWidth : IsInt32 e.storedWidth
  storedHeight : IsInt32 e.storedHeight
  pixelType : IsInt32 e.pixelType
  filePosition : e.filePosition < 2 ^ 64
  compression : IsInt32 e.compression

open Verif.Czi

/-- Every number in the description of a sub-block to be added is a value of its C++ type (`int`). -/
structure AddFits (a : AddInfo) : Prop where
  coordinate : CoordInt32 a.coordinate
  mIndex : ∀ m, a.mIndex = some m → IsInt32 m
  x : IsInt32 a.x
  y : IsInt32 a.y
  logicalWidth : IsInt32 a.logicalWidth
  logicalHeight : IsInt32 a.logicalHeight
  physicalWidth : IsInt32 a.physicalWidth
  physicalHeight : IsInt32 a.physicalHeight
  compression : IsInt32 a.compression

/-- The payload a callback contributes (libCZI_Write.h:231-251): the first `size` of the bytes it delivers, extended with zero
bytes to `size`. -/
def payloadOf (size : Nat) (src : Option Source) : List UInt8 :=
  match src with
  | some s => (s.chunks.flatten ++ List.replicate size 0).take size
  | none => List.replicate size 0

/-- The callback delivers no null pointer before the announced size is reached. -/
def NoNull (size : Nat) (src : Option Source) : Prop :=
  ∀ s, src = some s → s.null = true → size ≤ s.chunks.flatten.length

/-- At most 4096 bytes are missing when the callback ends. -/
def ShortBy4096 (size : Nat) (src : Option Source) : Prop :=
  ∀ s, src = some s → size ≤ s.chunks.flatten.length + 4096

/-- Both conditions for all three parts of a sub-block. -/
structure SourcesOk (a : AddInfo) : Prop where
  metadata : NoNull a.sizeMetadata a.metadata ∧ ShortBy4096 a.sizeMetadata a.metadata
  data : NoNull a.sizeData a.data ∧ ShortBy4096 a.sizeData a.data
  attachment : NoNull a.sizeAttachment a.attachment ∧ ShortBy4096 a.sizeAttachment a.attachment

/-- What a user sees of one part of a sub-block: its size, and its bytes unless it is empty. -/
def payloadView (size : Nat) (src : Option Source) : Payload := ⟨size, if size = 0 then none else some (payloadOf size src)⟩

/-- What a user sees of a sub-block. No m-index is shown as `none`. -/
structure SbView where
  pixelType : PixelType
  compression : Int
  coordinate : Coord
  mIndex : Option Int
  logicalRect : Int × Int × Int × Int
  physicalSize : Int × Int
  pyramidType : PyramidType
  metadata : Payload
  data : Payload
  attachment : Payload

/-- The m-index values `INT_MIN` and `INT_MAX` mean "no m-index". -/
def validM (m : Int) : Option Int := if m = -2147483648 ∨ m = 2147483647 then none else some m

/-- The view of a sub-block read from a document. -/
def viewRead (sb : SubBlock) : SbView :=
  ⟨sb.info.pixelType, sb.info.compression, sb.info.coordinate, validM sb.info.mIndex,
   (sb.info.x, sb.info.y, sb.info.w, sb.info.h), (sb.info.pw, sb.info.ph), sb.info.pyramidType, sb.metadata, sb.data,
   sb.attachment⟩

/-- The view a sub-block that was added is to have. (There is no code for an invalid pyramid type.) -/
def viewAdded (a : AddInfo) : SbView :=
  ⟨a.pixelType, a.compression, a.coordinate, a.mIndex.bind validM,
   (a.x, a.y, a.logicalWidth, a.logicalHeight), (a.physicalWidth, a.physicalHeight),
   if a.pyramidType = .Invalid then .None else a.pyramidType,
   payloadView a.sizeMetadata a.metadata, payloadView a.sizeData a.data, payloadView a.sizeAttachment a.attachment⟩

/-- The descriptive part of a sub-block, as also reported by the enumeration functions. -/
def viewInfo (i : SbInfo) : PixelType × Int × Coord × Option Int × (Int × Int × Int × Int) × (Int × Int) × PyramidType :=
  (i.pixelType, i.compression, i.coordinate, validM i.mIndex, (i.x, i.y, i.w, i.h), (i.pw, i.ph), i.pyramidType)

/-! ## Writing a document -/

/-- A sub-block whose numbers are values of their C++ types, whose callbacks deliver no null pointer and end at most 4096 bytes early, whose metadata
and attachment are smaller than 2 GB and whose data fit into a file. -/
structure SubOk (a : AddInfo) : Prop where
  fits : AddFits a
  sources : SourcesOk a
  metadataSize : a.sizeMetadata ≤ 2147483647
  dataSize : a.sizeData < 2 ^ 59
  attachmentSize : a.sizeAttachment ≤ 2147483647

/-- An attachment that fits into a file. -/
def AttOk (a : AddAtt) : Prop := a.bytes.length < 2 ^ 59

/-- Metadata that fit into a file. -/
def MetaOk (m : MetaInfo) : Prop := m.xmlBytes.length < 2 ^ 59 ∧ m.attBytes.length < 2 ^ 59

/-- The reservations fit into a file: fewer than 2^40 bytes of metadata, fewer than 2^31 entries in the directories. -/
structure InfoOk (info : WriterInfo) : Prop where
  metadata : ∀ n, info.reservedMetadata = some n → n < 2 ^ 40
  subDir : ∀ n, info.reservedSubDir = some n → reserveCount info n < 2 ^ 31
  attDir : ∀ n, info.reservedAttDir = some n → n < 2 ^ 31

/-- Calls between `Create` and `Close`. -/
def OpOk : WOp → Prop
  | .addSubBlock a => SubOk a
  | .addAttachment a => AttOk a
  | .writeMetadata m => MetaOk m
  | .create _ => False
  | .close => False

/-- The number of bytes given to a call. -/
def opBytes : WOp → Nat
  | .addSubBlock a => a.sizeMetadata + a.sizeData + a.sizeAttachment
  | .addAttachment a => a.bytes.length
  | .writeMetadata m => m.xmlBytes.length + m.attBytes.length
  | _ => 0

/-- Calls between `Create` and `Close` that fit into one file: fewer than 2^31 calls (the directories store their number of entries as
`int32_t`), fewer than 2^59 bytes in total (file positions are `int64_t`). -/
structure OpsOk (ops : List WOp) : Prop where
  each : ∀ op ∈ ops, OpOk op
  count : ops.length < 2 ^ 31
  total : (ops.map opBytes).sum < 2 ^ 59

/-- Make the calls one after the other, going on after exceptions: the final state and the calls that did not throw. -/
def session (s : Sys) : List WOp → Sys × List WOp
  | [] => (s, [])
  | op :: ops =>
    let r := step s op
    let r' := session r.1 ops
    (r'.1, if r.2.isNone then op :: r'.2 else r'.2)

/-- A whole document: `Create` on a stream with the contents `d`, the calls, `Close`: the resulting file and the calls that did not
throw; `none` if `Create` or `Close` throws. -/
def writeDoc (dup : Bool) (d : Disk) (info : WriterInfo) (ops : List WOp) : Option (Disk × List WOp) :=
  let r := step ⟨WState.init dup, d⟩ (.create info)
  if r.2.isSome then none
  else
    let r' := session r.1 ops
    let c := step r'.1 .close
    if c.2.isSome then none else some (c.1.disk, r'.2)

/-- The sub-blocks added by some calls. -/
def subsOf (ops : List WOp) : List AddInfo := ops.filterMap (fun | .addSubBlock a => some a | _ => none)

/-- The attachments added by some calls. -/
def attsOf (ops : List WOp) : List AddAtt := ops.filterMap (fun | .addAttachment a => some a | _ => none)

/-- The metadata written last. -/
def lastMeta (ops : List WOp) : Option MetaInfo :=
  (ops.filterMap (fun | .writeMetadata m => some m | _ => none)).getLast?

/-- How data of any length are presented: the size, and the bytes unless there are none. -/
def payload (b : List UInt8) : Payload := ⟨b.length, if b.length = 0 then none else some b⟩

/-- What a user should see of an attachment. -/
def attachmentOf (a : AddAtt) : Attachment := ⟨a.guid, cstr a.contentFileType.toList, cstr a.name.toList, payload a.bytes⟩

/-- What a user should see of the metadata. -/
def metaOf (m : MetaInfo) : MetaData := ⟨payload m.xmlBytes, payload m.attBytes⟩

/-! ## Segments of a file -/

/-- There is a segment header at `p` with these sizes. -/
structure SegmentAt (d : Disk) (p alloc used : Nat) : Prop where
  inside : p + 32 ≤ d.size
  alloc : fieldNat (d.read p 32) 16 8 = alloc
  used : fieldNat (d.read p 32) 24 8 = used

/-- `segs` (position, allocated size) is a list of segments of the file, aligned, large enough and without overlap. -/
structure Segmented (d : Disk) (segs : List (Nat × Nat)) : Prop where
  header : ∀ s ∈ segs, ∃ used, used ≤ s.2 ∧ SegmentAt d s.1 s.2 used
  aligned : ∀ s ∈ segs, s.1 % 32 = 0 ∧ s.2 % 32 = 0
  disjoint : segs.Pairwise (fun a b => a.1 + 32 + a.2 ≤ b.1)

/-- The segment identifier at `p`. -/
def idAt (d : Disk) (p : Nat) : List UInt8 := d.read p 16

end Verif.Spec
