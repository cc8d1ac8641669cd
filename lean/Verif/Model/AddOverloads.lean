import Verif.Model.Writer
import Verif.Model.Mem
import Verif.Model.Chunk

/-!
# The convenience forms of adding a sub-block: contiguous memory, lines, strided bitmap

`ICziWriter::SyncAddSubBlock` (CziWriter.cpp:17-127) and the helper used by `ICziReaderWriter::SyncAddSubBlock` and
`ICziReaderWriter::ReplaceSubBlock` (CziWriter.h:23-139, CziReaderWriter.cpp:46-76). Each of them makes an `AddSubBlockInfo` with callbacks out of its
argument and passes it on.

Simplification: the bytes the callbacks point to are taken from the memory of the caller when the `AddSubBlockInfo` is made, not one by one when the
payload is written. So a call that is rejected before anything is read counts as `undefined` here if its memory is too small.
-/

namespace Verif.Czi

/-- `struct AddSubBlockInfoBase`, libCZI_Write.h:183-227. -/
structure AddBase where
  coordinate : Coord
  mIndex : Option Int
  x : Int
  y : Int
  logicalWidth : Int
  logicalHeight : Int
  physicalWidth : Int
  physicalHeight : Int
  pixelType : PixelType
  pyramidType : PyramidType
  compression : Int

/-- A pointer (`none`: null) and the number of bytes announced (`uint32_t`), e.g. `ptrSbBlkMetadata` and `sbBlkMetadataSize`, libCZI_Write.h:283-292. -/
structure Given where
  ptr : Option Buf
  size : Nat

/-- The `n` bytes at `off`; `none`: they are not all inside of the block of memory. -/
def memBytes (b : Buf) (off n : Nat) : Option (List UInt8) :=
  if off + n ≤ b.size then some ((List.range n).map fun i => b.get (off + i)) else none

/-- A callback made with `SetIfCallCountZero`, CziWriter.cpp:17-27 (and the same in CziWriter.h:26-36): everything in the first call. -/
def Given.source (g : Given) : Option Source :=
  match g.ptr with
  | none => some ⟨[], true⟩
  | some b => (memBytes b 0 g.size).map fun c => ⟨[c], false⟩

/-- A callback that delivers the lines `y`, `y + 1`, … (`n` of them) and then returns false, CziWriter.cpp:64-76, 95-107. A line is `none` if its
bytes are not inside of the memory, `some none` for a null pointer (where the writer stops). -/
def linesFrom (line : Nat → Option (Option (List UInt8))) : Nat → Nat → Option Source
  | _, 0 => some ⟨[], false⟩
  | y, n + 1 =>
    match line y with
    | none => none
    | some none => some ⟨[], true⟩
    | some (some c) => (linesFrom line (y + 1) n).map fun s => ⟨c :: s.chunks, s.null⟩

/-- The conversion of a value to `size_t`. -/
def toSizeT (i : Int) : Nat := (i % 18446744073709551616).toNat

/-- The `AddSubBlockInfo` that is passed on: the copy constructor libCZI_Write.h:240-242, and the sizes and callbacks of the data, the metadata and
the attachment. -/
def AddBase.with (b : AddBase) (sizeData : Nat) (data : Option Source) (metadata attachment : Given) : Outcome AddInfo :=
  match data, metadata.source, attachment.source with
  | some d, some m, some a => .ok {
      coordinate := b.coordinate, mIndex := b.mIndex, x := b.x, y := b.y, logicalWidth := b.logicalWidth, logicalHeight := b.logicalHeight,
      physicalWidth := b.physicalWidth, physicalHeight := b.physicalHeight, pixelType := b.pixelType, pyramidType := b.pyramidType,
      compression := b.compression, sizeMetadata := metadata.size, sizeData := sizeData, sizeAttachment := attachment.size,
      metadata := some m, data := some d, attachment := some a }
  | _, _, _ => .undefined

/-- `struct AddSubBlockInfoMemPtr`, libCZI_Write.h:275-296. -/
structure AddMemPtr where
  base : AddBase
  data : Given
  metadata : Given
  attachment : Given

/-- `ICziWriter::SyncAddSubBlock(const AddSubBlockInfoMemPtr&)`, CziWriter.cpp:29-54; the same in `AddSubBlockHelper`, CziWriter.h:38-64. -/
def AddMemPtr.info (s : AddMemPtr) : Outcome AddInfo := s.base.with s.data.size s.data.source s.metadata s.attachment

/-- `struct AddSubBlockInfoLinewiseBitmap`, libCZI_Write.h:322-344. The result of `getBitmapLine` depends on the number of the line. -/
structure AddLinewise where
  base : AddBase
  line : Nat → Option Buf
  metadata : Given
  attachment : Given

/-- The line a callback gets from `getBitmapLine`, with `n` bytes. -/
def AddLinewise.bytes (s : AddLinewise) (n y : Nat) : Option (Option (List UInt8)) :=
  match s.line y with
  | none => some none
  | some b => (memBytes b 0 n).map some

/-- `ICziWriter::SyncAddSubBlock(const AddSubBlockInfoLinewiseBitmap&)`, CziWriter.cpp:56-88. -/
def AddLinewise.info (s : AddLinewise) : Outcome AddInfo :=
  match bytesPerPel s.base.pixelType with
  | none => .throws
  | some bpp =>
    let stride := toSizeT (s.base.physicalWidth * bpp)
    s.base.with (toSizeT (s.base.physicalHeight * stride)) (linesFrom (s.bytes stride) 0 s.base.physicalHeight.toNat) s.metadata s.attachment

/-- `struct AddSubBlockInfoStridedBitmap`, libCZI_Write.h:298-320. -/
structure AddStrided where
  base : AddBase
  ptr : Option Buf
  stride : Nat
  metadata : Given
  attachment : Given

/-- The `n` bytes at `off` of the bitmap, for the callback. (With a null pointer the writer stops at the first line.) -/
def AddStrided.bytes (s : AddStrided) (off n : Nat) : Option (Option (List UInt8)) :=
  match s.ptr with
  | none => some none
  | some b => (memBytes b off n).map some

/-- `ICziWriter::SyncAddSubBlock(const AddSubBlockInfoStridedBitmap&)`, CziWriter.cpp:90-127. -/
def AddStrided.info (s : AddStrided) : Outcome AddInfo :=
  match bytesPerPel s.base.pixelType with
  | none => .throws
  | some bpp =>
    let len := toSizeT (s.base.physicalWidth * bpp)
    s.base.with (toSizeT (s.base.physicalHeight * len)) (linesFrom (fun y => s.bytes (y * s.stride) len) 0 s.base.physicalHeight.toNat)
      s.metadata s.attachment

/-- `AddSubBlockHelper::SyncAddSubBlock` for lines, CziWriter.h:66-102: the length of a line is computed as an `int`. -/
def AddLinewise.infoRW (s : AddLinewise) : Outcome AddInfo :=
  match bytesPerPel s.base.pixelType with
  | none => .throws
  | some bpp =>
    let n := s.base.physicalWidth * bpp
    if n < -2147483648 ∨ 2147483647 < n then .undefined
    else
      let stride := toSizeT n
      s.base.with (toSizeT (s.base.physicalHeight * stride)) (linesFrom (s.bytes stride) 0 s.base.physicalHeight.toNat) s.metadata s.attachment

/-- `AddSubBlockHelper::SyncAddSubBlock` for a strided bitmap, CziWriter.h:104-138: lines of `stride` bytes are passed on, and the position
`callCnt * strideBitmap` is computed as a `uint32_t`. -/
def AddStrided.infoRW (s : AddStrided) : Outcome AddInfo :=
  s.base.with (toSizeT (s.base.physicalHeight * s.stride))
    (linesFrom (fun y => s.bytes (y * s.stride % 4294967296) s.stride) 0 s.base.physicalHeight.toNat) s.metadata s.attachment

end Verif.Czi
