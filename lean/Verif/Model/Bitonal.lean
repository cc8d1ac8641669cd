import Verif.Model.Blit
import Verif.Model.Chunk

/-!
# Operations on bitonal bitmaps

Models the class `BitonalBitmapOperations` of the public interface (libCZI_Pixels.cpp) with the functions of
`BitmapOperationsBitonal.h/.cpp` it calls. A bitonal bitmap is a `Verif.Blit.Mask`: extent, stride and the memory block given by
the lock info. Exceptions (`invalid_argument`, `out_of_range`) are `throws`, accesses outside the memory block `undefined`.
-/

namespace Verif.Bitonal
open Blit Czi

/-- `minimal_stride`, libCZI_Pixels.cpp:28: computed with 32 bits. -/
def minimalStride (w : Nat) : Nat := (w + 7) % 4294967296 / 8

/-- `CheckLockInfoAndThrow`, libCZI_Pixels.cpp:16-39 (for a non-null pointer); `true` = accepted. -/
def checkLock (m : Mask) : Bool :=
  if m.w = 0 ∨ m.h = 0 then false
  else if m.stride < minimalStride m.w then false
  else if m.buf.size < m.stride * (m.h - 1) + minimalStride m.w then false
  else true

/-- The result of an operation that, once the arguments are accepted, can only access memory outside the block. -/
def orUndefined {α : Type} : Option α → Outcome α
  | none => .undefined
  | some a => .ok a

/-- The bit of column `x` in its byte: `1 << (7 - x % 8)`. -/
def columnBit (x : Nat) : UInt8 := (1 : UInt8) <<< (7 - x % 8).toUInt8

/-- `v |= bits` or `v &= ~bits`, BitmapOperationsBitonal.h:61-68 and BitmapOperationsBitonal.cpp:1023-1039. -/
def changeBits (value : Bool) (bits v : UInt8) : UInt8 := if value then v ||| bits else v &&& ~~~ bits

/-- `BitonalBitmapOperations::GetPixelValue`, libCZI_Pixels.cpp:42-46, with `GetPixelFromBitonal`,
BitmapOperationsBitonal.h:31-41. -/
def getPixelValue (m : Mask) (x y : Nat) : Outcome Bool :=
  if checkLock m = false then .throws
  else if x ≥ m.w ∨ y ≥ m.h then .throws
  else orUndefined ((m.buf.read (y * m.stride + x / 8)).map fun v => decide (v &&& columnBit x ≠ 0))

/-- `BitonalBitmapOperations::SetPixelValue`, libCZI_Pixels.cpp:48-52, with `SetPixelInBitonal`,
BitmapOperationsBitonal.h:53-69. -/
def setPixelValue (m : Mask) (x y : Nat) (value : Bool) : Outcome Mask :=
  if checkLock m = false then .throws
  else if x ≥ m.w ∨ y ≥ m.h then .throws
  else orUndefined ((m.buf.read (y * m.stride + x / 8)).bind fun v =>
    (m.buf.write (y * m.stride + x / 8) (changeBits value (columnBit x) v)).map fun b =>
      { m with buf := b })

/-- `BitmapOperationsBitonal::Set`, BitmapOperationsBitonal.cpp:1001-1010, through `SetAllPixels`, libCZI_Pixels.cpp:111-115. -/
def setAllPixels (m : Mask) (value : Bool) : Outcome Mask :=
  if checkLock m = false then .throws
  else orUndefined ((loop m.h (fun y b => b.memset (y * m.stride) (if value then 0xff else 0) (minimalStride m.w)) m.buf).map
    fun b => { m with buf := b })

/-- `SetByte`, BitmapOperationsBitonal.cpp:1014-1021. -/
def setByte (v : UInt8) (off stride w h : Nat) (b : Buf) : Option Buf :=
  loop h (fun y b => b.memset (off + y * stride) v w) b

/-- `OrByte` (`value = true`) and `AndByte` with the complement (`value = false`), BitmapOperationsBitonal.cpp:1023-1039. -/
def borderByte (value : Bool) (bits : UInt8) (off stride h : Nat) (b : Buf) : Option Buf :=
  loop h (fun y b => (b.read (off + y * stride)).bind fun v =>
    b.write (off + y * stride) (changeBits value bits v)) b

/-- `static_cast<int>` of a `uint32_t`. -/
def toInt32 (v : Nat) : Int := if v ≥ 2147483648 then (v : Int) - 4294967296 else v

/-- `(std::min)(static_cast<uint32_t>(pos + size), extent)` converted to `int`, BitmapOperationsBitonal.cpp:1046-1047. -/
def rightEdge (pos size : Int) (extent : Nat) : Int := toInt32 (min ((pos + size) % 4294967296).toNat extent)

/-- The bits of the left border, BitmapOperationsBitonal.cpp:1074-1075. -/
def leftBits (w rem : Nat) : UInt8 :=
  (if w ≥ 8 then (0xff : UInt8) else (0xff : UInt8) <<< (8 - w).toUInt8) >>> rem.toUInt8

/-- The bits of the right border, BitmapOperationsBitonal.cpp:1093. -/
def rightBits (rem : Nat) : UInt8 := (0xff : UInt8) <<< (8 - rem).toUInt8

/-- The three parts of `BitmapOperationsBitonal::Fill`, BitmapOperationsBitonal.cpp:1056-1103, for the clipped region
`[x1,x2) x [y1,y1+h)`: whole bytes, left border, right border. -/
def fillClipped (x1 x2 y1 h stride : Nat) (value : Bool) (b : Buf) : Option Buf :=
  let w := x2 - x1
  let x1RoundedUp := (x1 + 7) / 8 * 8
  (if x1RoundedUp + 8 ≤ x1 + w then
      setByte (if value then 0xff else 0) (stride * y1 + x1RoundedUp / 8) stride ((w - (x1RoundedUp - x1)) / 8) h b
    else some b).bind fun b =>
  (if x1 % 8 ≠ 0 then borderByte value (leftBits w (x1 % 8)) (x1 / 8 + y1 * stride) stride h b else some b).bind fun b =>
  if (x1 % 8 = 0 ∨ x1 / 8 < x2 / 8) ∧ x2 % 8 ≠ 0 then
    borderByte value (rightBits (x2 % 8)) (x2 / 8 + y1 * stride) stride h b
  else some b

/-- `BitmapOperationsBitonal::Fill`, BitmapOperationsBitonal.cpp:1042-1104, through `BitonalBitmapOperations::Fill`,
libCZI_Pixels.cpp:117-121. `roi.x + roi.w`, `roi.y + roi.h` and `x1 + 7` must not overflow. -/
def fill (m : Mask) (roi : IntRect) (value : Bool) : Outcome Mask :=
  if checkLock m = false then .throws
  else if roi.x + roi.w > 2147483647 ∨ roi.x + roi.w < -2147483648 ∨ roi.y + roi.h > 2147483647 ∨ roi.y + roi.h < -2147483648 then
    .undefined
  else
    let x1 := max roi.x 0
    let y1 := max roi.y 0
    let x2 := rightEdge roi.x roi.w m.w
    let y2 := rightEdge roi.y roi.h m.h
    if x2 - x1 ≤ 0 ∨ y2 - y1 ≤ 0 then .ok m
    else if x1 + 7 > 2147483647 then .undefined
    else orUndefined ((fillClipped x1.toNat x2.toNat y1.toNat (y2 - y1).toNat m.stride value m.buf).map fun b => { m with buf := b })

end Verif.Bitonal
