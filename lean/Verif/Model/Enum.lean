import Verif.Model.Coord
import Verif.Model.Rect

/-!
# Enumerations and their file codes, GUIDs, frames of reference
-/

namespace Verif

/-- `INT_MIN`. -/
def intMin : Int := -2147483648
/-- `INT_MAX`. -/
def intMax : Int := 2147483647

/-- `enum class PixelType`, libCZI_Pixels.h:146-160. -/
inductive PixelType where
  | Gray8 | Gray16 | Gray32Float | Bgr24 | Bgr48 | Bgr96Float | Bgra32 | Gray64ComplexFloat
  | Bgr192ComplexFloat | Gray32 | Gray64Float | Invalid
  deriving DecidableEq, Repr

/-- `CziUtils::PixelTypeFromInt`, CziUtils.cpp:12-30. -/
def pixelTypeFromInt (i : Int) : PixelType :=
  if i = 0 then .Gray8 else if i = 1 then .Gray16 else if i = 2 then .Gray32Float else if i = 3 then .Bgr24
  else if i = 4 then .Bgr48 else if i = 8 then .Bgr96Float else if i = 9 then .Bgra32
  else if i = 10 then .Gray64ComplexFloat else if i = 11 then .Bgr192ComplexFloat
  else if i = 12 then .Gray32 else if i = 13 then .Gray64Float else .Invalid

/-- `CziUtils::IntFromPixelType`, CziUtils.cpp:54-71. -/
def intFromPixelType : PixelType → Int
  | .Gray8 => 0 | .Gray16 => 1 | .Gray32Float => 2 | .Bgr24 => 3 | .Bgr48 => 4 | .Bgr96Float => 8
  | .Bgra32 => 9 | .Gray64ComplexFloat => 10 | .Bgr192ComplexFloat => 11 | .Gray32 => 12
  | .Gray64Float => 13 | .Invalid => intMin

/-- `CziUtils::GetBytesPerPel`, CziUtils.cpp:106-123 (`none` = `invalid_argument` is thrown). -/
def bytesPerPel : PixelType → Option Nat
  | .Gray8 => some 1 | .Gray16 => some 2 | .Gray32Float => some 4 | .Bgr24 => some 3 | .Bgr48 => some 6
  | .Bgr96Float => some 12 | .Bgra32 => some 4 | .Gray64ComplexFloat => some 16
  | .Bgr192ComplexFloat => some 24 | .Gray32 => some 4 | .Gray64Float => some 8 | .Invalid => none

/-- `enum class SubBlockPyramidType`, libCZI_Pixels.h:176-182. -/
inductive PyramidType where
  | Invalid | None | SingleSubBlock | MultiSubBlock
  deriving DecidableEq, Repr

/-- `CziUtils::PyramidTypeFromByte`, CziUtils.cpp:32-42. -/
def pyramidTypeFromByte (b : UInt8) : PyramidType :=
  if b = 0 then .None else if b = 1 then .SingleSubBlock else if b = 2 then .MultiSubBlock else .Invalid

/-- `CziUtils::ByteFromPyramidType`, CziUtils.cpp:44-52. -/
def byteFromPyramidType : PyramidType → UInt8
  | .SingleSubBlock => 1
  | .MultiSubBlock => 2
  | _ => 0

/-- `enum class CompressionMode`, libCZI_Pixels.h:163-171. -/
inductive CompressionMode where
  | Invalid | UnCompressed | Jpg | JpgXr | Zstd0 | Zstd1
  deriving DecidableEq, Repr

/-- `CziUtils::CompressionModeFromInt`, CziUtils.cpp:74-85. -/
def compressionModeFromInt (i : Int) : CompressionMode :=
  if i = 0 then .UnCompressed else if i = 1 then .Jpg else if i = 4 then .JpgXr else if i = 5 then .Zstd0
  else if i = 6 then .Zstd1 else .Invalid

/-- `CziUtils::CompressionModeToInt`, CziUtils.cpp:87-104. -/
def compressionModeToInt : CompressionMode → Int
  | .UnCompressed => 0 | .Jpg => 1 | .JpgXr => 4 | .Zstd0 => 5 | .Zstd1 => 6 | .Invalid => intMin

/-- `struct GUID`, libCZI_Utilities.h:23-28 (`Data4` as a list of 8 bytes). -/
structure Guid where
  data1 : UInt32
  data2 : UInt16
  data3 : UInt16
  data4 : Vector UInt8 8
  deriving DecidableEq

/-- The loop of `GUID::compare` over `Data4`, libCZI_Utilities.h:78-84. -/
def compareBytes : List UInt8 → List UInt8 → Int
  | a :: as, b :: bs => if a ≠ b then (if a < b then -1 else 1) else compareBytes as bs
  | _, _ => 0

/-- `GUID::compare`, libCZI_Utilities.h:61-87. -/
def Guid.compare (a b : Guid) : Int :=
  if a.data1 ≠ b.data1 then (if a.data1 < b.data1 then -1 else 1)
  else if a.data2 ≠ b.data2 then (if a.data2 < b.data2 then -1 else 1)
  else if a.data3 ≠ b.data3 then (if a.data3 < b.data3 then -1 else 1)
  else compareBytes a.data4.toList b.data4.toList

/-- `GUID::operator==`, libCZI_Utilities.h:34-47. -/
def Guid.eq (a b : Guid) : Bool :=
  a.data1 == b.data1 && a.data2 == b.data2 && a.data3 == b.data3 &&
  (List.range 8).all (fun i => a.data4.toList[i]? == b.data4.toList[i]?)

/-- `Utils::DimensionToChar`, libCZI_Utilities.cpp:112-127. -/
def dimensionToChar : Dim → Char
  | .Z => 'Z' | .C => 'C' | .T => 'T' | .R => 'R' | .S => 'S' | .I => 'I' | .H => 'H' | .V => 'V' | .B => 'B'

/-- `Utils::CharToDimension`, libCZI_Utilities.cpp:129-154 (`none` = `DimensionIndex::invalid`). -/
def charToDimension (c : Char) : Option Dim :=
  if c = 'z' ∨ c = 'Z' then some .Z else if c = 'c' ∨ c = 'C' then some .C
  else if c = 't' ∨ c = 'T' then some .T else if c = 'r' ∨ c = 'R' then some .R
  else if c = 's' ∨ c = 'S' then some .S else if c = 'i' ∨ c = 'I' then some .I
  else if c = 'h' ∨ c = 'H' then some .H else if c = 'v' ∨ c = 'V' then some .V
  else if c = 'b' ∨ c = 'B' then some .B else none

/-- `enum class CZIFrameOfReference`, libCZI_Pixels.h. -/
inductive Frame where
  | Invalid | Default | Raw | Pixel
  deriving DecidableEq, Repr

/-- The consolidation switches of `CCZIReader::TransformPoint`, CZIReader.cpp:118-144; `def` is the reader's
default frame of reference. `none` = `invalid_argument`. -/
def consolidateFrame (dflt : Frame) : Frame → Option Frame
  | .Raw => some .Raw
  | .Pixel => some .Pixel
  | .Default => some dflt
  | .Invalid => none

/-- `CCZIReader::Open` chooses the default frame: CZIReader.cpp:56-66 (Invalid/Default become Raw);
for the reader-writer see CziReaderWriter.cpp:963-974. -/
def chooseDefaultFrame : Frame → Frame
  | .Pixel => .Pixel
  | _ => .Raw

/-- `CCZIReader::TransformPoint`, CZIReader.cpp:116-166 (and CziReaderWriter.cpp:721-771): `(ox, oy)` is the
upper-left corner of `boundingBoxLayer0Only`. `none` = an exception is thrown. -/
def transformPoint (dflt : Frame) (ox oy : Int) (src : Frame) (px py : Int) (dst : Frame) :
    Option (Frame × Int × Int) :=
  match consolidateFrame dflt src, consolidateFrame dflt dst with
  | some s, some d =>
    if d = s then some (s, px, py)
    else if s = .Pixel ∧ d = .Raw then some (.Raw, px + ox, py + oy)
    else if s = .Raw ∧ d = .Pixel then some (.Pixel, px - ox, py - oy)
    else none
  | _, _ => none

/-- `ISubBlockRepository::TransformRectangle`, libCZI.h:656-672. -/
def transformRectangle (dflt : Frame) (ox oy : Int) (src : Frame) (r : IntRect) (dst : Frame) :
    Option (Frame × IntRect) :=
  match transformPoint dflt ox oy src r.x r.y dst, transformPoint dflt ox oy src (r.x + r.w) (r.y + r.h) dst with
  | some (_, ulx, uly), some (f, lrx, lry) => some (f, ⟨ulx, uly, lrx - ulx, lry - uly⟩)
  | _, _ => none

end Verif
