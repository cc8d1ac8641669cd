import Verif.Model.Convert

/-!
# Nearest-neighbour scaling (`BitmapOperations.hpp`, `BitmapOperations.cpp`, `BitmapOperationsBitonal.cpp`)

Values of type `double` are rational numbers, rounded after each operation (`Verif.Model.Float`). The instance of the templates for
`float` is not used by the library.
-/

namespace Verif.Scale
open Blit Flt Czi Bitonal

/-- What concerns one axis (x or y) of `NNResizeInfo2`, BitmapOperations.h:23-34: extent of the source and of the destination
bitmap, begin and extent of the source ROI, begin and extent of the destination ROI. -/
structure Axis where
  srcN : Nat
  dstN : Nat
  sp : ℚ
  sw : ℚ
  dp : ℚ
  dw : ℚ

/-- `static_cast<int>` of a `double`: undefined if the truncated value is not an `int`. -/
def castInt (q : ℚ) : Option Int := if -2147483649 < q ∧ q < 2147483648 then some (truncInt q) else none

/-- `xMin` (`yMin`), BitmapOperations.hpp:427 (425). -/
def Axis.lo (a : Axis) : ℚ := f64 (f64 (f64 (f64 (0 - a.sp) * a.dw) / a.sw) + a.dp)

/-- `xMax` (`yMax`), BitmapOperations.hpp:428 (426). -/
def Axis.hi (a : Axis) : ℚ := f64 (f64 (f64 (f64 (((a.srcN : Int) - 1 : Int) - a.sp) * a.dw) / a.sw) + a.dp)

/-- First index and number of indices of the destination that are visited, BitmapOperations.hpp:419-433. Division by zero gives
an infinity or NaN, whose conversion to `int` is undefined; a destination ROI without extent gives an unspecified source
index and is not described either. -/
def Axis.range (a : Axis) : Option (Nat × Nat) :=
  if a.sw = 0 ∨ a.dw = 0 then none
  else
    (castInt a.dp).bind fun begin =>
    (castInt (f64 (a.dp + a.dw))).bind fun last =>
    (castInt ⌈a.lo⌉).bind fun lo =>
    (castInt ⌈a.hi⌉).map fun hi =>
    let first : Int := max lo (max begin 0)
    let last : Int := min hi (min last ((a.dstN : Int) - 1))
    (first.toNat, (last - first + 1).toNat)

/-- The source position of an index of the destination, BitmapOperations.hpp:440 and 455. -/
def Axis.position (a : Axis) (x : Nat) : ℚ := f64 (f64 (f64 ((x : ℚ) - a.dp) * f64 (a.sw / a.dw)) + a.sp)

/-- The source index, BitmapOperations.hpp:441-449 and 456-464. -/
def Axis.source (a : Axis) (x : Nat) : Int :=
  if lround (a.position x) < 0 then 0
  else if lround (a.position x) ≥ a.srcN then (a.srcN : Int) - 1
  else lround (a.position x)

/-- The converter for a kind of copy: those for equal pixel types (`CConvGray8ToGray8`, ..., BitmapOperations.hpp:135-143, 185-193, 217-239 and 283-301) copy all bytes. -/
def convOf : Kind → Conv
  | .same n => ⟨n, n, n, fun s i => s i⟩
  | .conv c => c

/-- The table of `NNScale2`, BitmapOperations.hpp:476-598, and `NNScaleMaskAware2`, BitmapOperationsBitonal.cpp:511-631. -/
def scaleKind (enc : ℚ → Nat → UInt8) (ps pd : PixelType) : Option Kind :=
  if ps = .Bgra32 ∧ pd = .Bgra32 then some (.same 4) else kindOf enc ps pd

/-- The body of the loops, BitmapOperations.hpp:451-470, and with a mask BitmapOperationsBitonal.cpp:477-492. -/
def scalePixel (c : Conv) (mask : Option Mask) (src : Bitmap) (stride : Nat) (sx sy : Int) (x y : Nat) (b : Buf) : Option Buf :=
  if sx < 0 ∨ sy < 0 then none   -- the index -1 of an empty source bitmap
  else
    let convert := c.apply b (y * stride + x * c.db) src.buf (sy.toNat * src.stride + sx.toNat * c.sb)
    match mask with
    | none => convert
    | some m =>
      if sx < m.w ∧ sy < m.h then
        (maskBitUnchecked m.buf m.stride sx.toNat sy.toNat).bind fun bit => if bit then convert else some b
      else some b

/-- `InternalNNScale2`, BitmapOperations.hpp:415-473 (`mask = none`), and `InternalNNScaleMaskAware2`,
BitmapOperationsBitonal.cpp:431-495. -/
def scaleLoops (c : Conv) (mask : Option Mask) (src dst : Bitmap) (ax ay : Axis) : Option Bitmap :=
  ax.range.bind fun rx =>
  ay.range.bind fun ry =>
  (loop ry.2 (fun j b =>
    loop rx.2 (fun i b' =>
      scalePixel c mask src dst.stride (ax.source (rx.1 + i)) (ay.source (ry.1 + j)) (rx.1 + i) (ry.1 + j) b') b) dst.buf).map
    fun b => { dst with buf := b }

/-- `DblRect`. -/
structure Roi where
  x : ℚ
  y : ℚ
  w : ℚ
  h : ℚ

/-- The x-axis. -/
def xAxis (src dst : Bitmap) (sr dr : Roi) : Axis := ⟨src.w, dst.w, sr.x, sr.w, dr.x, dr.w⟩

/-- The y-axis. -/
def yAxis (src dst : Bitmap) (sr dr : Roi) : Axis := ⟨src.h, dst.h, sr.y, sr.h, dr.y, dr.h⟩

/-- `CBitmapOperations::NNResize` with ROIs, BitmapOperations.cpp:196-219 (also `Utils::NearestNeighborResize`,
libCZI_Utilities.cpp:401-429, after the destination has been filled), and `BitmapOperationsBitonal::NNResizeMaskAware`,
BitmapOperationsBitonal.cpp:922-956. -/
def nnResizeRoi (enc : ℚ → Nat → UInt8) (ps pd : PixelType) (mask : Option Mask) (src dst : Bitmap) (sr dr : Roi) : Outcome Bitmap :=
  match scaleKind enc ps pd with
  | none => .throws
  | some k => orUndefined (scaleLoops (convOf k) mask src dst (xAxis src dst sr dr) (yAxis src dst sr dr))

/-- `CBitmapOperations::NNResize`, BitmapOperations.cpp:221-250 (also `Utils::NearestNeighborResize`,
libCZI_Utilities.cpp:394-399, where `dst` is a new bitmap with unspecified contents). -/
def nnResize (enc : ℚ → Nat → UInt8) (ps pd : PixelType) (src dst : Bitmap) : Outcome Bitmap :=
  if ps ≠ pd then .throws
  else nnResizeRoi enc ps pd none src dst ⟨0, 0, src.w, src.h⟩ ⟨0, 0, dst.w, dst.h⟩

end Verif.Scale
