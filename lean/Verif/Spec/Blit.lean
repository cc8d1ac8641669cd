import Verif.Model.Blit

/-! # What copying and composing is supposed to do, pixel by pixel -/

namespace Verif.Blit

/-- The bitmap's pixels lie inside its buffer and rows do not overlap. -/
def Bitmap.WF (b : Bitmap) (bpp : Nat) : Prop :=
  b.w * bpp ≤ b.stride ∧ (0 < b.h → (b.h - 1) * b.stride + b.w * bpp ≤ b.buf.size)

/-- A bitonal mask whose pixels lie inside its buffer. -/
def Mask.WF (m : Mask) : Prop :=
  (m.w + 7) / 8 ≤ m.stride ∧ (0 < m.h → (m.h - 1) * m.stride + (m.w + 7) / 8 ≤ m.buf.size)

/-- Byte `j` of the pixel `(x,y)`. -/
def Bitmap.byteAt (b : Bitmap) (bpp x y j : Nat) : UInt8 := b.buf.get (y * b.stride + x * bpp + j)

/-- Pixel `(x,y)` of a bitonal bitmap (most significant bit first). -/
def Mask.at (m : Mask) (x y : Nat) : Bool := (m.buf.get (y * m.stride + x / 8)).toNat.testBit (7 - x % 8)

/-- Does the tile provide a value for the document pixel `(px,py)`? It must lie in the bitmap and, if there is
a mask, in the mask with the mask bit set. -/
def Tile.paints (t : Tile) (px py : Int) : Bool :=
  decide (t.x ≤ px ∧ px < t.x + t.bm.w ∧ t.y ≤ py ∧ py < t.y + t.bm.h) &&
  match t.mask with
  | none => true
  | some m => decide (px - t.x < m.w ∧ py - t.y < m.h) && m.at (px - t.x).toNat (py - t.y).toNat

/-- The value expected after converting a source pixel given by its bytes. -/
def Kind.value : Kind → (Nat → UInt8) → Nat → UInt8
  | .same _, s, j => s j
  | .conv c, s, j => c.f s j

/-- The tile's (converted) pixel for the document pixel `(px,py)`, byte `j`. -/
def Tile.colour (t : Tile) (k : Kind) (px py : Int) (j : Nat) : UInt8 :=
  k.value (fun i => t.bm.byteAt k.sb (px - t.x).toNat (py - t.y).toNat i) j

/-- The value a composed document pixel must have: that of the last tile painting it, otherwise what the
destination contained before (the background). -/
def expected (k : Kind) (tiles : List Tile) (background : UInt8) (px py : Int) (j : Nat) : UInt8 :=
  match (tiles.filter (fun t => t.paints px py)).getLast? with
  | some t => t.colour k px py j
  | none => background

/-- A byte offset that belongs to no pixel (row padding). -/
def Bitmap.IsPadding (b : Bitmap) (bpp i : Nat) : Prop :=
  ∀ x y j, x < b.w → y < b.h → j < bpp → i ≠ y * b.stride + x * bpp + j

/-- What the code needs of a pixel kind for an unmasked copy: it does not read beyond the source pixel. -/
def Kind.NoOverread : Kind → Prop
  | .same _ => True
  | .conv c => c.rd ≤ c.sb

/-- Source and destination pixel types agree (no conversion). -/
def Kind.IsSame : Kind → Prop
  | .same _ => True
  | .conv _ => False

/-- Requirements on a tile: bitmap and mask lie in their buffers, and - if it has a mask - source and
destination pixel types agree, otherwise the converter stays within the source pixel. -/
def TileOk (k : Kind) (t : Tile) : Prop :=
  t.bm.WF k.sb ∧ match t.mask with | none => k.NoOverread | some m => k.IsSame ∧ m.WF

end Verif.Blit
