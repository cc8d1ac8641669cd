import Verif.Model.Mem

/-!
# What separating low and high bytes means
-/

namespace Verif.LoHi
open Verif

/-- `out` (starting as `old`) holds the low bytes of the `w × h` words of the strided image `src`, row by row, followed by
the high bytes; everything after them is unchanged. -/
structure Unpacked (src : Buf) (w stride h : Nat) (old out : Buf) : Prop where
  size : out.size = old.size
  low : ∀ y x, y < h → x < w → out.get (y * w + x) = src.get (y * stride + 2 * x)
  high : ∀ y x, y < h → x < w → out.get (w * h + (y * w + x)) = src.get (y * stride + 2 * x + 1)
  rest : ∀ i, 2 * (w * h) ≤ i → out.get i = old.get i

/-- `out` (starting as `old`) holds, as a strided image of `w × h` words, the words whose low bytes are at the start of
`src` and whose high bytes are `half` bytes later; the padding at the end of the rows is unchanged. -/
structure Packed (src : Buf) (half w h stride : Nat) (old out : Buf) : Prop where
  size : out.size = old.size
  low : ∀ y x, y < h → x < w → out.get (y * stride + 2 * x) = src.get (y * w + x)
  high : ∀ y x, y < h → x < w → out.get (y * stride + 2 * x + 1) = src.get (half + (y * w + x))
  rest : ∀ i, (∀ y x, y < h → x < w → i ≠ y * stride + 2 * x ∧ i ≠ y * stride + 2 * x + 1) → out.get i = old.get i

end Verif.LoHi
