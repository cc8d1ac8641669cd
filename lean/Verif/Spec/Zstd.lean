import Verif.Model.Zstd

/-!
# What lossless compression and the size-mismatch protocol mean
-/

namespace Verif.Zstd
open Verif Verif.Blit

/-- What is assumed of the zstd library: decompression inverts compression, the size is recorded in the frame, and
a frame is never empty. -/
structure Lossless (c : Codec) : Prop where
  size : ∀ l, l ≠ [] → c.contentSize (c.compress l) = some l.length
  inverse : ∀ l, l ≠ [] → c.decompress (c.compress l) = some l
  nonempty : ∀ l, c.compress l ≠ []

/-- The bitmap is `w × h` with `n` bytes per row (not counting padding), all of them inside its memory, and byte `i` of row `y` is
`v y i`. -/
structure Shows (bm : Bitmap) (w h n : Nat) (v : Nat → Nat → UInt8) : Prop where
  width : bm.w = w
  height : bm.h = h
  inside : ∀ y i, y < h → i < n → y * bm.stride + i < bm.buf.size
  value : ∀ y i, y < h → i < n → bm.buf.get (y * bm.stride + i) = v y i

/-- The rows of a payload of consecutive rows of `n` bytes: bytes which are not there are zero. -/
def rows (l : List UInt8) (n : Nat) : Nat → Nat → UInt8 := fun y i => l.getD (y * n + i) 0

/-- The payload obtained from separated low and high bytes. -/
def interleaved (l : List UInt8) : List UInt8 :=
  (List.range l.length).map (fun k => l.getD (k / 2 + k % 2 * (l.length / 2)) 0)

/-- Compressed data that cannot be decompressed, or whose contents do not have the size given in them. -/
def Damaged (c : Codec) (d : List UInt8) : Prop := ∀ l, c.decompress d = some l → c.contentSize d ≠ some l.length

/-- A character that separates options: a semicolon or white space. -/
def IsSeparator (c : Char) : Prop := c = ';' ∨ c ∈ [' ', '\t', '\n', '\x0b', '\x0c', '\r']

/-- The option is given: it occurs somewhere, with a separator or nothing before and after it. -/
def OptionGiven (option input : List Char) : Prop :=
  ∃ before after, input = before ++ option ++ after ∧ (∀ c, before.getLast? = some c → IsSeparator c) ∧ (∀ c, after.head? = some c → IsSeparator c)

end Verif.Zstd
