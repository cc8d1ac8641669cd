import Verif.Model.Mem
import Verif.Model.Rect

/-!
# Copying bitmaps (with clipping, conversion, bitonal mask) and tile composition

Models `CBitmapOperations::CopyWithOffset/Copy/CopySamePixelType` (BitmapOperations.cpp/.hpp),
`BitmapOperationsBitonal::CopyWithOffsetAndMask` (BitmapOperationsBitonal.cpp) and
`CSingleChannelTileCompositor`/`ComposeSingleChannelTilesMaskAware` (SingleChannelTileCompositor.cpp).

Simplifications: `int` arithmetic is unbounded (executions without overflow); strides are non-negative
(libCZI bitmaps always have a positive stride); conversions to Gray32Float (floating point) are not modelled.
The result `none` means undefined behaviour (an access outside of a buffer).
-/

namespace Verif.Blit

open Verif

/-- A bitmap in memory: what `ScopedBitmapLockerP` plus `GetWidth/GetHeight` provide (bitmapData.h:40-60). -/
structure Bitmap where
  w : Nat
  h : Nat
  stride : Nat
  buf : Buf

/-- A bitonal bitmap (bitmapData.h:205-225): 8 pixels per byte, MSB first. -/
structure Mask where
  w : Nat
  h : Nat
  stride : Nat
  buf : Buf

/-- A pixel converter `tPixelConverter::ConvertPixel` (BitmapOperations.hpp:70-330): `sb`/`db` are the bytes
per pixel by which source/destination pointers advance, `rd` the number of source bytes actually accessed,
`f` computes the `db` destination bytes from the bytes at the source pointer. -/
structure Conv where
  sb : Nat
  db : Nat
  rd : Nat
  f : (Nat → UInt8) → Nat → UInt8

/-- One call of `ConvertPixel(dest, src)`. -/
def Conv.apply (c : Conv) (dst : Buf) (d : Nat) (src : Buf) (s : Nat) : Option Buf :=
  if d + c.db ≤ dst.size ∧ s + c.rd ≤ src.size then
    some { dst with get := fun i => if d ≤ i ∧ i < d + c.db then c.f (fun k => src.get (s + k)) (i - d)
                                     else dst.get i }
  else none

/-- `CConvGray8ToGray16`, BitmapOperations.hpp:125-133 (little-endian store of a 16-bit value). -/
def convGray8ToGray16 : Conv := ⟨1, 2, 1, fun s i => if i = 0 then s 0 else 0⟩

/-- `CConvGray8ToBgr24`, BitmapOperations.hpp:105-113. -/
def convGray8ToBgr24 : Conv := ⟨1, 3, 1, fun s _ => s 0⟩

/-- `CConvGray16ToGray8`, BitmapOperations.hpp:195-203 (upper byte). -/
def convGray16ToGray8 : Conv := ⟨2, 1, 2, fun s _ => s 1⟩

/-- `CConvGray16ToBgr48`, BitmapOperations.hpp:175-183. -/
def convGray16ToBgr48 : Conv := ⟨2, 6, 2, fun s i => s (i % 2)⟩

/-- `CConvBgr24ToGray8`, BitmapOperations.hpp:71-80. -/
def convBgr24ToGray8 : Conv :=
  ⟨3, 1, 3, fun s _ => UInt8.ofNat (((s 0).toNat + (s 1).toNat + (s 2).toNat + 1) / 3)⟩

/-- `CConvBgr48ToBgr24`, BitmapOperations.hpp:241-251. -/
def convBgr48ToBgr24 : Conv := ⟨6, 3, 6, fun s i => s (2 * i + 1)⟩

/-- `CConvBgr24ToBgr48`, BitmapOperations.hpp:93-103: the *24-bit* source pixel is accessed through a
`uint16_t*`, so six bytes are read of which only three belong to the pixel. -/
def convBgr24ToBgr48 : Conv := ⟨3, 6, 6, fun s i => s i⟩

/-- `CBitmapOperations::CopySamePixelType`, BitmapOperations.hpp:20-50.
`so`/`d` are the offsets of the first pixel in the buffers. -/
def copySamePixelType (bpp : Nat) (src : Buf) (so ss : Nat) (dst : Buf) (d ds width height : Nat)
    (border : Bool) : Option Buf :=
  let n := width * bpp
  if border = false then
    loop height (fun y b => b.memcpy (d + y * ds) src (so + y * ss) n) dst
  else
    (dst.memset d 0 n).bind fun b0 =>
    -- for (int y = 1; y < height - 1; ++y)
    (loop (height - 2) (fun k b =>
      let y := k + 1
      -- bytes_to_copy - 2 * kBytesPerPel, converted to size_t: huge (out of bounds) if negative
      if n < 2 * bpp then none
      else (b.memcpy (d + y * ds + bpp) src (so + y * ss) (n - 2 * bpp)).bind fun b1 =>
        (b1.memset (d + y * ds) 0 bpp).bind fun b2 =>
        b2.memset (d + y * ds + n - bpp) 0 bpp) b0).bind fun b1 =>
    b1.memset (d + (height - 1) * ds) 0 n

/-- `CBitmapOperations::Copy` with a pixel converter, BitmapOperations.hpp:52-69. -/
def copyConv (c : Conv) (src : Buf) (so ss : Nat) (dst : Buf) (d ds width height : Nat) : Option Buf :=
  loop height (fun y b =>
    loop width (fun x b' => c.apply b' (d + y * ds + x * c.db) src (so + y * ss + x * c.sb)) b) dst

/-- What kind of copy the pixel-type dispatch selects (BitmapOperations.cpp:63-173,
BitmapOperationsBitonal.cpp:806-925): identical pixel types, or a converter. -/
inductive Kind where
  | same (bpp : Nat)
  | conv (c : Conv)

/-- Bytes per source pixel. -/
def Kind.sb : Kind → Nat
  | same b => b
  | conv c => c.sb

/-- Bytes per destination pixel. -/
def Kind.db : Kind → Nat
  | same b => b
  | conv c => c.db

/-- `CBitmapOperations::CopyWithOffset`, BitmapOperations.cpp:175-194. -/
def copyWithOffset (k : Kind) (src : Bitmap) (dst : Bitmap) (xOff yOff : Int) (border : Bool) : Option Bitmap :=
  let srcRect : IntRect := ⟨xOff, yOff, src.w, src.h⟩
  let dstRect : IntRect := ⟨0, 0, dst.w, dst.h⟩
  let i := IntRect.intersect srcRect dstRect
  if i.w = 0 ∨ i.h = 0 then some dst
  else
    let d := i.y.toNat * dst.stride + i.x.toNat * k.db
    let s := (max (-yOff) 0).toNat * src.stride + (max (-xOff) 0).toNat * k.sb
    let res := match k with
      | .same bpp => copySamePixelType bpp src.buf s src.stride dst.buf d dst.stride i.w.toNat i.h.toNat border
      | .conv c => copyConv c src.buf s src.stride dst.buf d dst.stride i.w.toNat i.h.toNat
    res.map fun b => { dst with buf := b }

/-- `GetPixelFromBitonalUnchecked`, BitmapOperationsBitonal.h:79-83. -/
def maskBitUnchecked (m : Buf) (stride x y : Nat) : Option Bool :=
  (m.read (y * stride + x / 8)).map fun v => decide (v &&& ((1 : UInt8) <<< (7 - (x % 8)).toUInt8) ≠ 0)

/-- `CopySamePixelTypeWithMask` without tile border, BitmapOperationsBitonal.cpp:653-676. -/
def copySameWithMask (bpp : Nat) (src : Buf) (so ss : Nat) (dst : Buf) (d ds width height : Nat)
    (mask : Buf) (ms mx my : Nat) : Option Buf :=
  loop height (fun y b =>
    loop width (fun x b' =>
      (maskBitUnchecked mask ms (x + mx) (y + my)).bind fun bit =>
        if bit then b'.memcpy (d + y * ds + x * bpp) src (so + y * ss + x * bpp) bpp else some b') b) dst

/-- `CopyWithMask` with a pixel converter, BitmapOperationsBitonal.cpp:702-721: the pointers `dest`/`src`
are advanced *after* the inner loop over `x`, so every pixel of a row is converted at the row start. -/
def copyConvWithMask (c : Conv) (src : Buf) (so ss : Nat) (dst : Buf) (d ds width height : Nat)
    (mask : Buf) (ms mx my : Nat) : Option Buf :=
  loop height (fun y b =>
    loop width (fun x b' =>
      (maskBitUnchecked mask ms (x + mx) (y + my)).bind fun bit =>
        if bit then c.apply b' (d + y * ds) src (so + y * ss) else some b') b) dst

/-- `BitmapOperationsBitonal::CopyWithOffsetAndMask`, BitmapOperationsBitonal.cpp:958-999
(without tile border). -/
def copyWithOffsetAndMask (k : Kind) (src : Bitmap) (dst : Bitmap) (mask : Option Mask) (xOff yOff : Int) :
    Option Bitmap :=
  match mask with
  | none => copyWithOffset k src dst xOff yOff false
  | some m =>
    let srcRect : IntRect := ⟨xOff, yOff, (min src.w m.w : Nat), (min src.h m.h : Nat)⟩
    let dstRect : IntRect := ⟨0, 0, dst.w, dst.h⟩
    let i := IntRect.intersect srcRect dstRect
    if i.w = 0 ∨ i.h = 0 then some dst
    else
      let tx := (max (-xOff) 0).toNat
      let ty := (max (-yOff) 0).toNat
      let d := i.y.toNat * dst.stride + i.x.toNat * k.db
      let s := ty * src.stride + tx * k.sb
      let res := match k with
        | .same bpp => copySameWithMask bpp src.buf s src.stride dst.buf d dst.stride i.w.toNat i.h.toNat
            m.buf m.stride tx ty
        | .conv c => copyConvWithMask c src.buf s src.stride dst.buf d dst.stride i.w.toNat i.h.toNat
            m.buf m.stride tx ty
      res.map fun b => { dst with buf := b }

/-- A tile as delivered by the `getTilesAndMask` callback (SingleChannelTileCompositor.cpp:107-135):
position in the document, bitmap and optional mask. -/
structure Tile where
  x : Int
  y : Int
  bm : Bitmap
  mask : Option Mask

/-- `CSingleChannelTileCompositor::ComposeMaskAware`, SingleChannelTileCompositor.cpp:37-72
(`drawTileBorder` off; `Compose` of lines 13-35 is the case without mask). -/
def composeMaskAware (k : Kind) (dst : Bitmap) (t : Tile) (xPos yPos : Int) : Option Bitmap :=
  copyWithOffsetAndMask k t.bm dst t.mask (t.x - xPos) (t.y - yPos)

/-- `Compositors::ComposeSingleChannelTilesMaskAware`, SingleChannelTileCompositor.cpp:105-135. The
callback (index → tile or end) is modelled by the list of tiles it delivers. -/
def composeTiles (k : Kind) (xPos yPos : Int) : List Tile → Bitmap → Option Bitmap
  | [], dst => some dst
  | t :: ts, dst => (composeMaskAware k dst t xPos yPos).bind (composeTiles k xPos yPos ts)

/-- `CSingleChannelTileAccessor::ComposeTiles`, SingleChannelTileAccessor.cpp:48-123, on the selected and
ordered sub-blocks. The visibility check is given the sub-blocks' logical rectangles. -/
def accessorComposeTiles (k : Kind) (useVisibilityCheck : Bool) (xPos yPos : Int)
    (subBlocks : List (IntRect × Bitmap × Option Mask)) (dst : Bitmap) : Option Bitmap :=
  let tileOf := fun (s : IntRect × Bitmap × Option Mask) => (⟨s.1.x, s.1.y, s.2.1, s.2.2⟩ : Tile)
  if useVisibilityCheck then
    (Coverage.checkForVisibility ⟨xPos, yPos, dst.w, dst.h⟩ subBlocks.length
      (fun i => ((subBlocks[i]?).map (·.1)).getD ⟨0, 0, -1, -1⟩)).bind fun vis =>
    composeTiles k xPos yPos (vis.filterMap fun i => (subBlocks[i]?).map tileOf) dst
  else composeTiles k xPos yPos (subBlocks.map tileOf) dst

end Verif.Blit
