import Verif.Model.AddOverloads
import Verif.Model.Parse
import Verif.Model.Text

/-!
# The C API (libCZIAPI): values that cross the interface

Handles are in `Model.CApiHandles`. Not modelled: the functions that format JSON.
-/

namespace Verif.CApi

open Verif.Czi Verif.Text

/-! ## Coordinates and bounds -/

/-- `struct CoordinateInterop` and `struct DimBoundsInterop`, misc_types.h:53-71: a bit field and an array of 9 values (for bounds two arrays, of starts
and sizes: here one array of pairs). -/
structure Packed (α : Type) where
  valid : Nat
  value : Nat → α

/-- The loop of `ConvertCoordinateInteropToDimCoordinate`, parameterhelpers.cpp:566-575: bit `i` is next, `k` values have been used. -/
def coordLoop (p : Packed Int) : List Dim → Nat → Nat → Coord → Coord
  | [], _, _, c => c
  | d :: ds, i, k, c =>
    if p.valid &&& (1 <<< i) = 0 then coordLoop p ds (i + 1) k c
    else coordLoop p ds (i + 1) (k + 1) (c.set d (p.value k))

/-- `ParameterHelpers::ConvertCoordinateInteropToDimCoordinate`, parameterhelpers.cpp:562-578. -/
def coordFromInterop (p : Packed Int) : Coord := coordLoop p Dim.all 0 0 Coord.empty

/-- The loops of `ConvertIDimCoordinateToCoordinateInterop`, parameterhelpers.cpp:585-594, and `ConvertDimBounds`, libCZIApi.cpp:35-46: bit `i` is
next, `k` values have been set. -/
def packLoop {α : Type} (f : Dim → Option α) : List Dim → Nat → Nat → Packed α → Packed α
  | [], _, _, p => p
  | d :: ds, i, k, p =>
    match f d with
    | none => packLoop f ds (i + 1) k p
    | some v => packLoop f ds (i + 1) (k + 1) ⟨p.valid ||| (1 <<< i), fun j => if j = k then v else p.value j⟩

/-- `ParameterHelpers::ConvertIDimCoordinateToCoordinateInterop`, parameterhelpers.cpp:580-597. -/
def coordToInterop (c : Coord) : Packed Int := packLoop c Dim.all 0 0 ⟨0, fun _ => 0⟩

/-- `ConvertDimBounds`, libCZIApi.cpp:31-49. -/
def boundsToInterop (b : Bounds) : Packed (Int × Int) := packLoop b Dim.all 0 0 ⟨0, fun _ => (0, 0)⟩

/-! ## Texts -/

/-- `(static_cast<unsigned char>(input[i]) & 0xC0) == 0x80`; `input[input.size()]` is the terminating zero. -/
def isContinuation (b : UInt8) : Bool := b &&& 0xC0 == 0x80

/-- The loop that avoids cutting a character, parameterhelpers.cpp:337-341. -/
def backUp (input : List UInt8) : Nat → Nat
  | 0 => 0
  | n + 1 => if isContinuation (input.getD (n + 1) 0) then backUp input n else n + 1

/-- `ParameterHelpers::CopyUtf8StringTruncate`, parameterhelpers.cpp:321-347. `none`: a byte outside of the destination is written. -/
def copyTruncate (input : List UInt8) (dst : Buf) (size : Nat) : Option (Bool × Buf) :=
  if size = 0 then some (!input.isEmpty, dst)
  else if size = 1 then (dst.write 0 0).map fun d => (!input.isEmpty, d)
  else
    let len := if input.length < size - 1 then input.length else size - 1
    let truncated := decide (len < input.length)
    let n := backUp input len
    (dst.memcpy 0 (Buf.ofList input) 0 n).bind fun d =>
    (d.write n 0).map fun d => (truncated || decide (n < len), d)

/-- `ConvertHexStringToInteger`, parameterhelpers.cpp:42-76: the loop over the remaining characters, with the value and the count of significant
digits. -/
def hexLoop : List Char → UInt32 → Nat → Option UInt32
  | [], v, _ => some v
  | c :: cs, v, n =>
    let x := hexToInt c
    if x = 255 then none
    else if v > 0 then
      if n + 1 > 7 then none else hexLoop cs (v * 16 + x.toUInt32) (n + 1)
    else hexLoop cs (v * 16 + x.toUInt32) n

/-- `ConvertHexStringToInteger`, parameterhelpers.cpp:42-76. -/
def hexString (s : List Char) : Option UInt32 := if s = [] then none else hexLoop s 0 0

/-- `[0-9A-Fa-f]{n}` at the start of a text: the rest. -/
def eatHex : Nat → List Char → Option (List Char)
  | 0, s => some s
  | n + 1, c :: s => if isHex c then eatHex n s else none
  | _ + 1, [] => none

/-- `[-]` at the start of a text: the rest. -/
def eatDash : List Char → Option (List Char)
  | '-' :: s => some s
  | _ => none

/-- The regular expression `[0-9A-Fa-f]{8}[-]([0-9A-Fa-f]{4}[-]){3}[0-9A-Fa-f]{12}` for a whole string, parameterhelpers.cpp:474-475. -/
def matchesGuid (s : List Char) : Bool :=
  ((((((((eatHex 8 s).bind eatDash).bind (eatHex 4)).bind eatDash).bind (eatHex 4)).bind eatDash).bind (eatHex 4)).bind eatDash).bind (eatHex 12)
    == some []

/-- The conversion of the `n` characters from position `i` on. -/
def guidPart (s : List Char) (i n : Nat) : Option UInt32 := hexString ((s.drop i).take n)

/-- The conversion of the parts, parameterhelpers.cpp:477-543 (the positions of the bytes of `Data4`: 519). -/
def guidParts (s : List Char) : Option Guid :=
  (guidPart s 0 8).bind fun d1 => (guidPart s 9 4).bind fun d2 => (guidPart s 14 4).bind fun d3 =>
  (guidPart s 19 2).bind fun b0 => (guidPart s 21 2).bind fun b1 => (guidPart s 24 2).bind fun b2 => (guidPart s 26 2).bind fun b3 =>
  (guidPart s 28 2).bind fun b4 => (guidPart s 30 2).bind fun b5 => (guidPart s 32 2).bind fun b6 => (guidPart s 34 2).bind fun b7 =>
  some ⟨d1, d2.toUInt16, d3.toUInt16, #v[b0.toUInt8, b1.toUInt8, b2.toUInt8, b3.toUInt8, b4.toUInt8, b5.toUInt8, b6.toUInt8, b7.toUInt8]⟩

/-- `ParameterHelpers::TryParseGuid`, parameterhelpers.cpp:461-546 (`trim` with " \t": 548-560). -/
def tryParseGuid (str : List Char) : Option Guid :=
  let s := trim str
  if s.length < 2 then none
  else
    let s := if s[0]? = some '{' ∧ s.getLast? = some '}' then (s.drop 1).dropLast else s
    if matchesGuid s then guidParts s else none

/-! ## Blocks of memory -/

/-- The part of `libCZI_SubBlockGetRawData` (libCZIApi.cpp:884-897) and `libCZI_AttachmentGetRawData` (libCZIApi.cpp:1448-1458) after the checks: the
value of `*size` and the memory `data` points to. `none`: access outside of `data`. -/
def getRawData (raw : List UInt8) (size : Nat) (data : Option Buf) : Option (Nat × Option Buf) :=
  match data with
  | none => some (raw.length, none)
  | some b => (b.memcpy 0 (Buf.ofList raw) 0 (min size raw.length)).map fun b => (raw.length, some b)

/-- `libCZI_MetadataSegmentGetMetadataAsXml`, libCZIApi.cpp:1118-1145: the memory allocated and the size reported. `none`: access outside of the
data (for a block of 0 bytes, which the library never hands out). -/
def metadataAsXml (raw : List UInt8) : Option (List UInt8 × Nat) :=
  match raw.getLast? with
  | none => none
  | some b =>
    let n := if b ≠ 0 then raw.length + 1 else raw.length
    some ((raw ++ List.replicate (n - raw.length) 0).set (n - 1) 0, raw.length)

/-- The loop of `libCZI_ReaderGetStatisticsEx`, libCZIApi.cpp:299-313: `i` entries of the array have been written. `none`: access outside of the
array, which has `len` entries. -/
def sceneLoop {α : Type} (available : Int) (len : Nat) : List α → Nat → (Nat → Option α) → Option (Nat × (Nat → Option α))
  | [], i, arr => some (i, arr)
  | s :: ss, i, arr =>
    if (i : Int) < available then
      if i < len then sceneLoop available len ss (i + 1) (fun j => if j = i then some s else arr j) else none
    else some (i, arr)

/-- `libCZI_ReaderGetStatisticsEx`, libCZIApi.cpp:287-320: number of entries written, the array, and the number of scenes reported. -/
def scenesEx {α : Type} (scenes : List α) (available : Int) (len : Nat) (arr : Nat → Option α) : Option (Nat × (Nat → Option α) × Nat) :=
  (sceneLoop available len scenes 0 arr).map fun r => (r.1, r.2, scenes.length)

/-! ## Sub-blocks -/

/-- `struct SubBlockInfoInterop`, subblock_info_interop.h:12-26. -/
structure InfoInterop where
  compression : Int
  pixelType : Int
  coordinate : Packed Int
  rect : Int × Int × Int × Int
  size : Int × Int
  mIndex : Int

/-- The values of `enum class PixelType`, libCZI_Pixels.h:25-41. -/
def pixelTypeValue (p : PixelType) : Int := match p with
  | .Invalid => 255
  | p => intFromPixelType p

/-- `CopyFromSubBlockInfoToSubBlockInfoInterop`, libCZIApi.cpp:78-97 (`IsMindexValid`: libCZI.h). -/
def infoInterop (i : SbInfo) : InfoInterop where
  compression := i.compression
  pixelType := pixelTypeValue i.pixelType
  coordinate := coordToInterop i.coordinate
  rect := (i.x, i.y, i.w, i.h)
  size := (i.pw, i.ph)
  mIndex := if i.mIndex ≠ 2147483647 ∧ i.mIndex ≠ -2147483648 then i.mIndex else -2147483648

/-- `struct AddSubBlockInfoInterop`, add_subblock_info_interop.h:12-44. `data.size` is `size_data`. -/
structure AddInterop where
  coordinate : Packed Int
  mIndexValid : Bool
  mIndex : Int
  x : Int
  y : Int
  logicalWidth : Int
  logicalHeight : Int
  physicalWidth : Int
  physicalHeight : Int
  pixelType : Int
  compression : Int
  data : Given
  stride : Nat
  metadata : Given
  attachment : Given

/-- `FillOutAddSubBlockInfoBase`, libCZIApi.cpp:1698-1716, after `Clear` (libCZI_Write.h:486-499: no pyramid type). A value that is not in the enumeration
of pixel types is treated as `Invalid`. -/
def AddInterop.base (a : AddInterop) : AddBase where
  coordinate := coordFromInterop a.coordinate
  mIndex := if a.mIndexValid then some a.mIndex else none
  x := a.x
  y := a.y
  logicalWidth := a.logicalWidth
  logicalHeight := a.logicalHeight
  physicalWidth := a.physicalWidth
  physicalHeight := a.physicalHeight
  pixelType := pixelTypeFromInt a.pixelType
  pyramidType := .None
  compression := compressionModeToInt .UnCompressed

/-- `libCZI_WriterAddSubBlock`, libCZIApi.cpp:1757-1788, with `WriterAddSubBlockUncompressed` 1719-1737 and `WriterAddSubBlockCompressed` 1739-1754:
the sub-block that is passed to the writer. -/
def AddInterop.info (a : AddInterop) : Outcome AddInfo :=
  if compressionModeFromInt a.compression = .UnCompressed then
    (AddStrided.mk a.base a.data.ptr a.stride a.metadata a.attachment).info
  else (AddMemPtr.mk a.base a.data a.metadata a.attachment).info

end Verif.CApi
