import Verif.Model.Enum

/-!
# C67: the number of bytes of a pixel
-/

namespace Verif

/-- The number of bits of a pixel, which is part of the name of the pixel type. -/
def Spec.bitsInName : PixelType → Option Nat
  | .Gray8 => some 8
  | .Gray16 => some 16
  | .Gray32 => some 32
  | .Gray32Float => some 32
  | .Gray64Float => some 64
  | .Gray64ComplexFloat => some 64
  | .Bgr24 => some 24
  | .Bgra32 => some 32
  | .Bgr48 => some 48
  | .Bgr96Float => some 96
  | .Bgr192ComplexFloat => some 192
  | .Invalid => none

/-- **C67 (size of pixels, partial).** The number of bytes that the library assumes for a pixel is that of the bits in the name of the pixel type; the invalid type is refused. Missing: one
type, see `C67_complex_size_violated`. -/
theorem C67_pixel_sizes_partial (p : PixelType) (h : p ≠ .Gray64ComplexFloat) : bytesPerPel p = (Spec.bitsInName p).map (· / 8) := by
  cases p <;> first | rfl | exact absurd rfl h

/-- **C67 (violated for Gray64ComplexFloat).** A pixel of 64 bits (of a type that the library does not otherwise support) is taken for 16 bytes: twice as many bytes per line are taken from the
memory of a bitmap as it has. -/
theorem C67_complex_size_violated : Spec.bitsInName .Gray64ComplexFloat = some (8 * 8) ∧ ∀ width : Nat, 0 < width →
    ∃ n, bytesPerPel .Gray64ComplexFloat = some n ∧ width * 8 < width * n ∧ width * n = 2 * (width * 8) :=
  ⟨rfl, fun width h => ⟨16, rfl, by omega, by omega⟩⟩

example : bytesPerPel .Bgr96Float = some 12 := C67_pixel_sizes_partial .Bgr96Float (by decide)

end Verif
