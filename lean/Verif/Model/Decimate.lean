import Verif.Model.Bitonal

/-!
# Decimation of bitonal bitmaps

Models `BitonalBitmapOperations::Decimate` (libCZI_Pixels.cpp:123-139) and `BitmapOperationsBitonal::BitonalDecimate`
(BitmapOperationsBitonal.cpp:23-406) on a little-endian machine. Pointers are offsets into the source or destination block;
every access is checked. Machine words are bit vectors. The eight template instances are one definition with the region size as an
argument. Sizes and strides are those an `int` can hold.
-/

namespace Verif.Bitonal
open Blit Czi

/-- The value of a 32-bit word with the given bytes in memory (little endian). -/
def leWord (b0 b1 b2 b3 : UInt8) : BitVec 32 :=
  b0.toBitVec.setWidth 32 ||| b1.toBitVec.setWidth 32 <<< 8 ||| b2.toBitVec.setWidth 32 <<< 16 |||
    b3.toBitVec.setWidth 32 <<< 24

/-- `*static_cast<const uint32_t*>(ptr)`. -/
def readDword (b : Buf) (i : Nat) : Option (BitVec 32) :=
  if i + 4 ≤ b.size then some (leWord (b.get i) (b.get (i + 1)) (b.get (i + 2)) (b.get (i + 3))) else none

/-- `bswap_dword`, BitmapOperationsBitonal.cpp:32-46. -/
def bswapDword (dw : BitVec 32) : BitVec 32 :=
  (dw &&& 0xff000000#32) >>> 24 ||| (dw &&& 0x00ff0000#32) >>> 8 ||| (dw &&& 0x0000ff00#32) <<< 8 |||
    (dw &&& 0x000000ff#32) <<< 24

/-- `bswap_word`, BitmapOperationsBitonal.cpp:48-61. -/
def bswapWord (us : BitVec 16) : BitVec 16 := (us &&& 0xff00#16) >>> 8 ||| (us &&& 0x00ff#16) <<< 8

/-- `*reinterpret_cast<uint16_t*>(ptr) = us`. -/
def writeWord (b : Buf) (i : Nat) (us : BitVec 16) : Option Buf :=
  (b.write i (UInt8.ofBitVec (us.setWidth 8))).bind fun b => b.write (i + 1) (UInt8.ofBitVec ((us >>> 8).setWidth 8))

/-- `DecimateBitonalTable`, BitmapOperationsBitonal.cpp:116-135. -/
def decimateTable : List Nat :=
  [0, 0, 1, 1, 0, 0, 1, 1, 2, 2, 3, 3, 2, 2, 3, 3,
   0, 0, 1, 1, 0, 0, 1, 1, 2, 2, 3, 3, 2, 2, 3, 3,
   4, 4, 5, 5, 4, 4, 5, 5, 6, 6, 7, 7, 6, 6, 7, 7,
   4, 4, 5, 5, 4, 4, 5, 5, 6, 6, 7, 7, 6, 6, 7, 7,
   0, 0, 1, 1, 0, 0, 1, 1, 2, 2, 3, 3, 2, 2, 3, 3,
   0, 0, 1, 1, 0, 0, 1, 1, 2, 2, 3, 3, 2, 2, 3, 3,
   4, 4, 5, 5, 4, 4, 5, 5, 6, 6, 7, 7, 6, 6, 7, 7,
   4, 4, 5, 5, 4, 4, 5, 5, 6, 6, 7, 7, 6, 6, 7, 7,
   8, 8, 9, 9, 8, 8, 9, 9, 10, 10, 11, 11, 10, 10, 11, 11,
   8, 8, 9, 9, 8, 8, 9, 9, 10, 10, 11, 11, 10, 10, 11, 11,
   12, 12, 13, 13, 12, 12, 13, 13, 14, 14, 15, 15, 14, 14, 15, 15,
   12, 12, 13, 13, 12, 12, 13, 13, 14, 14, 15, 15, 14, 14, 15, 15,
   8, 8, 9, 9, 8, 8, 9, 9, 10, 10, 11, 11, 10, 10, 11, 11,
   8, 8, 9, 9, 8, 8, 9, 9, 10, 10, 11, 11, 10, 10, 11, 11,
   12, 12, 13, 13, 12, 12, 13, 13, 14, 14, 15, 15, 14, 14, 15, 15,
   12, 12, 13, 13, 12, 12, 13, 13, 14, 14, 15, 15, 14, 14, 15, 15]

/-- `DecimateBitonalTable[static_cast<uint8_t>(v >> shift)]` as a `uint16_t`. -/
def tableAt (v : BitVec 64) (shift : Nat) : BitVec 16 :=
  BitVec.ofNat 16 (decimateTable.getD ((v >>> shift).setWidth 8).toNat 0)

/-- `DecimateHelpers<RegionSize>::Filter`, BitmapOperationsBitonal.cpp:216-262: the conjunction of the value with its shifts by
`1..RegionSize` to both sides. -/
def bitFilter : Nat → BitVec 64 → BitVec 64
  | 0, v => v
  | n + 1, v => bitFilter n v &&& (v <<< (n + 1)) &&& (v >>> (n + 1))

/-- The argument of the filter, BitmapOperationsBitonal.cpp:159. -/
def filterInput (dw : BitVec 32) (byteBefore byteAfter : BitVec 8) : BitVec 64 :=
  byteAfter.setWidth 64 ||| dw.setWidth 64 <<< 8 ||| byteBefore.setWidth 64 <<< 40

/-- `FilterDword`, BitmapOperationsBitonal.cpp:156-167. -/
def filterDword (n : Nat) (dw : BitVec 32) (byteBefore byteAfter : BitVec 8) : BitVec 16 :=
  let v := bitFilter n (filterInput dw byteBefore byteAfter)
  tableAt v 8 ||| tableAt v 16 <<< 4 ||| tableAt v 24 <<< 8 ||| tableAt v 32 <<< 12

/-- `DecimateHelpers<RegionSize>::GetDword`, BitmapOperationsBitonal.cpp:264-308; `off` is the offset of `ptrSrc`. In the general
case the pointer is advanced to the row below `ptrSrc` in every iteration. -/
def getDword (n y h : Nat) (src : Buf) (off stride : Nat) : Option (BitVec 32) :=
  match n with
  | 0 => readDword src off
  | 1 =>
    (readDword src off).bind fun dw =>
    (if y > 0 then (readDword src (off - stride)).map (dw &&& ·) else some dw).bind fun dw =>
    if y < h - 1 then (readDword src (off + stride)).map (dw &&& ·) else some dw
  | n =>
    loop (min (y + n) (h - 1) + 1 - (y - n)) (fun i dw =>
      (readDword src (if i = 0 then off - (y - (y - n)) * stride else off + stride)).map (dw &&& ·)) 0xffffffff#32

/-- `0xff >> k`, computed as an `int`. -/
def lowOnes (k : Nat) : UInt8 := UInt8.ofNat (0xff >>> k)

/-- `b |= 0xff >> k` for a byte. -/
def orLow (b : UInt8) (k : Nat) : UInt8 := b ||| lowOnes k

/-- `ReadPartial`, BitmapOperationsBitonal.cpp:329-361. -/
def readPartial (src : Buf) (off bitcount : Nat) : Option (BitVec 32) :=
  if bitcount ≤ 8 then
    (src.read off).map fun b => leWord (orLow b bitcount) 0xff 0xff 0xff
  else if bitcount ≤ 16 then
    (src.read off).bind fun b1 => (src.read (off + 1)).map fun b2 => leWord b1 (orLow b2 (bitcount - 8)) 0xff 0xff
  else if bitcount ≤ 24 then
    (src.read off).bind fun b1 => (src.read (off + 1)).bind fun b2 => (src.read (off + 2)).map fun b3 =>
      leWord b1 b2 (orLow b3 (bitcount - 16)) 0xff
  else
    (readDword src off).map fun dw => dw ||| (lowOnes (bitcount - 24)).toBitVec.setWidth 32 <<< 24

/-- `GetDwordPartial`, BitmapOperationsBitonal.cpp:310-327. -/
def getDwordPartial (n y h : Nat) (src : Buf) (off bitcount stride : Nat) : Option (BitVec 32) :=
  loop (min (y + n) (h - 1) + 1 - (y - n)) (fun i dw =>
    (readPartial src (off - (y - (y - n)) * stride + i * stride) bitcount).map (dw &&& ·)) 0xffffffff#32

/-- `GetByteAfter`, BitmapOperationsBitonal.cpp:205-214: the byte index `x` is compared with the width in pixels. -/
def getByteAfter (src : Buf) (row x w : Nat) : Option (BitVec 8) :=
  if x < w then (src.read (row + x)).map UInt8.toBitVec else some 0xff#8

/-- `DecimateLine`, BitmapOperationsBitonal.cpp:169-203: source row `y` at offset `row`, destination row at offset `rowDest`. -/
def decimateLine (n y h w stride : Nat) (src : Buf) (row rowDest : Nat) (dest : Buf) : Option Buf :=
  (loop (w / 32) (fun x (s : BitVec 8 × Buf) =>
    (getByteAfter src row (x * 4 + 4) w).bind fun byteAfter =>
    (getDword n y h src (row + x * 4) stride).bind fun le =>
    (writeWord s.2 (rowDest + 2 * x) (bswapWord (filterDword n (bswapDword le) s.1 byteAfter))).map fun b =>
      ((bswapDword le).setWidth 8, b)) (0xff#8, dest)).bind fun s =>
  if w - w / 32 * 32 > 0 then
    (getDwordPartial n y h src (row + w / 32 * 4) (w - w / 32 * 32) stride).bind fun le =>
      if w - w / 32 * 32 ≤ 16 then
        s.2.write (rowDest + 2 * (w / 32))
          (UInt8.ofBitVec ((filterDword n (bswapDword le) s.1 0xff#8 >>> 8).setWidth 8))
      else
        writeWord s.2 (rowDest + 2 * (w / 32)) (bswapWord (filterDword n (bswapDword le) s.1 0xff#8))
  else some s.2

/-- The new bitmap, `CStdBitonalBitmapData::Create(extent.w / 2, extent.h / 2)`, bitmapData.h:164-175; `init` is the
indeterminate content of the allocated memory. -/
def halfBitmap (m : Mask) (init : Nat → UInt8) : Mask :=
  { w := m.w / 2, h := m.h / 2, stride := (m.w / 2 + 7) / 8, buf := ⟨m.h / 2 * ((m.w / 2 + 7) / 8), init⟩ }

/-- `BitonalBitmapOperations::Decimate`, libCZI_Pixels.cpp:123-139, with `BitonalDecimate` and
`DecimateBitonal::Decimate`, BitmapOperationsBitonal.cpp:138-154,364-406. -/
def decimate (n : Int) (m : Mask) (init : Nat → UInt8) : Outcome Mask :=
  if checkLock m = false then .throws
  else if n < 0 ∨ n > 7 then .throws
  else orUndefined ((loop (m.h / 2) (fun y b =>
      decimateLine n.toNat (y * 2) m.h m.w m.stride m.buf (m.stride * y * 2) ((m.w / 2 + 7) / 8 * y) b)
      (halfBitmap m init).buf).map fun b => { halfBitmap m init with buf := b })

end Verif.Bitonal
