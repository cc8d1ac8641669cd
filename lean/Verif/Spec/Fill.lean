import Verif.Model.Fill
import Verif.Spec.Blit

/-!
# Filled bitmaps: specification
-/

namespace Verif.Spec
open Verif.Blit Verif.Fill

/-- The largest value of a channel: 8 or 16 bits. -/
def topOf (wide : Bool) : Nat := if wide then 65535 else 255

/-- The value of channel `ch` of the pixel `(x, y)`: one byte or two bytes, little endian. -/
def sample (wide : Bool) (bpp : Nat) (bm : Bitmap) (x y ch : Nat) : Nat :=
  if wide then (bm.byteAt bpp x y (2 * ch)).toNat + 256 * (bm.byteAt bpp x y (2 * ch + 1)).toNat
  else (bm.byteAt bpp x y ch).toNat

/-- `v` is the value of a channel for the component `c` of a colour: 0 for components up to 0, the largest value for components from 1,
otherwise `top * c` rounded to an integer (with the errors of `float` arithmetic); the `float` next to `k / top` gives `k`. -/
def IsChannelValue (top : Nat) (c : Fl) (v : Nat) : Prop :=
  match c with
  | .nan => False
  | .inf neg => v = if neg then 0 else top
  | .num x => v ≤ top ∧ (x ≤ 0 → v = 0) ∧ (1 ≤ x → v = top) ∧
      (0 ≤ x → x ≤ 1 → |(v : ℚ) - top * x| ≤ 1 / 2 + 2 * (top + 1) / 2 ^ 24) ∧
      ∀ k : Nat, k ≤ top → x = Flt.f32 (k / top) → v = k

/-- The component is not greater than 0. -/
def Dark : Fl → Prop
  | .num x => x ≤ 0
  | .inf neg => neg = true
  | .nan => False

/-- The component is not less than 1. -/
def Bright : Fl → Prop
  | .num x => 1 ≤ x
  | .inf neg => neg = false
  | .nan => False

/-- The components are the numbers `r`, `g`, `b` of the interval from 0 to 1. -/
def UnitColour (c : Colour) (r g b : ℚ) : Prop :=
  c = ⟨.num r, .num g, .num b⟩ ∧ (0 ≤ r ∧ r ≤ 1) ∧ (0 ≤ g ∧ g ≤ 1) ∧ (0 ≤ b ∧ b ≤ 1)

/-- `v` is the grey value of the colour: the mean of the components; three times the `float` next to `k / top` gives `k`. -/
structure IsGreyValue (top : Nat) (c : Colour) (v : Nat) : Prop where
  range : v ≤ top
  dark : Dark c.r → Dark c.g → Dark c.b → v = 0
  bright : Bright c.r → Bright c.g → Bright c.b → v = top
  mean : ∀ r g b, UnitColour c r g b → |(v : ℚ) - top * ((r + g + b) / 3)| ≤ 1 / 2 + 5 * (top + 1) / 2 ^ 24
  exact : ∀ k : Nat, k ≤ top → c = ⟨.num (Flt.f32 (k / top)), .num (Flt.f32 (k / top)), .num (Flt.f32 (k / top))⟩ → v = k

/-- `out` has the shape of `bm` and differs from it at most in the pixels, not in the bytes between the rows. -/
structure OnlyPixels (bpp : Nat) (bm out : Bitmap) : Prop where
  w : out.w = bm.w
  h : out.h = bm.h
  stride : out.stride = bm.stride
  size : out.buf.size = bm.buf.size
  padding : ∀ i, bm.IsPadding bpp i → out.buf.get i = bm.buf.get i

end Verif.Spec
