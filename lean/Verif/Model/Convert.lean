import Verif.Model.Blit
import Verif.Model.Bitonal
import Verif.Model.Enum
import Verif.Model.Float

/-!
# Copying between bitmaps of different pixel types

Completes `Verif.Model.Blit` with the remaining pixel converters of BitmapOperations.hpp, the selection of the converter
(BitmapOperations.cpp:63-173, and the same table in BitmapOperationsBitonal.cpp:810-925) and
`BitonalBitmapOperations::CopyAt` (libCZI_Pixels.cpp:54-109). The bytes of a `float` are given by the parameter `enc`.
-/

namespace Verif.Blit
open Verif.Czi Verif.Bitonal Verif.Flt

/-- The value of a 16-bit channel at offset `i` (little endian). -/
def le16 (s : Nat → UInt8) (i : Nat) : Nat := (s i).toNat + 256 * (s (i + 1)).toNat

/-- Byte `i` of a 16-bit value. -/
def byte16 (v i : Nat) : UInt8 := UInt8.ofNat (if i = 0 then v % 256 else v / 256 % 256)

/-- `CConvBgr24ToGray16`, BitmapOperations.hpp:82-91. -/
def convBgr24ToGray16 : Conv :=
  ⟨3, 2, 3, fun s i => byte16 ((((s 0).toNat + (s 1).toNat + (s 2).toNat + 1) / 3) % 256) i⟩

/-- `CConvGray8ToBgr48`, BitmapOperations.hpp:115-123. -/
def convGray8ToBgr48 : Conv := ⟨1, 6, 1, fun s i => if i % 2 = 0 then s 0 else 0⟩

/-- `CConvGray16ToBgr24`, BitmapOperations.hpp:165-173. -/
def convGray16ToBgr24 : Conv := ⟨2, 3, 2, fun s _ => s 1⟩

/-- `CConvBgr48ToGray16`, BitmapOperations.hpp:263-271. -/
def convBgr48ToGray16 : Conv := ⟨6, 2, 6, fun s i => byte16 ((le16 s 0 + le16 s 2 + le16 s 4) / 3) i⟩

/-- `CConvBgr48ToGray8`, BitmapOperations.hpp:273-281. -/
def convBgr48ToGray8 : Conv := ⟨6, 1, 6, fun s _ => UInt8.ofNat ((le16 s 0 + le16 s 2 + le16 s 4) / 3 / 256)⟩

/-- `CConvGray8ToGray32Float`, BitmapOperations.hpp:145-153. -/
def convGray8ToFloat (enc : ℚ → Nat → UInt8) : Conv := ⟨1, 4, 1, fun s i => enc (s 0).toNat i⟩

/-- `CConvGray16ToGray32Float`, BitmapOperations.hpp:155-163. -/
def convGray16ToFloat (enc : ℚ → Nat → UInt8) : Conv := ⟨2, 4, 2, fun s i => enc (le16 s 0) i⟩

/-- `CConvBgr24ToGray32Float`, BitmapOperations.hpp:205-215. -/
def convBgr24ToFloat (enc : ℚ → Nat → UInt8) : Conv :=
  ⟨3, 4, 3, fun s i => enc (f32 (((s 0).toNat + (s 1).toNat + (s 2).toNat : Nat) / 3)) i⟩

/-- `CConvBgr48ToGray32Float`, BitmapOperations.hpp:253-261. -/
def convBgr48ToFloat (enc : ℚ → Nat → UInt8) : Conv :=
  ⟨6, 4, 6, fun s i => enc (f32 ((le16 s 0 + le16 s 2 + le16 s 4 : Nat) / 3)) i⟩

/-- The pairs of pixel types for which there is a copy, BitmapOperations.cpp:63-173; the table of
BitmapOperationsBitonal.cpp:810-925 is the same. -/
def kindOf (enc : ℚ → Nat → UInt8) : PixelType → PixelType → Option Kind
  | .Gray8, .Gray8 => some (.same 1)
  | .Gray8, .Gray16 => some (.conv convGray8ToGray16)
  | .Gray8, .Gray32Float => some (.conv (convGray8ToFloat enc))
  | .Gray8, .Bgr24 => some (.conv convGray8ToBgr24)
  | .Gray8, .Bgr48 => some (.conv convGray8ToBgr48)
  | .Gray16, .Gray8 => some (.conv convGray16ToGray8)
  | .Gray16, .Gray16 => some (.same 2)
  | .Gray16, .Gray32Float => some (.conv (convGray16ToFloat enc))
  | .Gray16, .Bgr24 => some (.conv convGray16ToBgr24)
  | .Gray16, .Bgr48 => some (.conv convGray16ToBgr48)
  | .Gray32Float, .Gray32Float => some (.same 4)
  | .Bgr24, .Gray8 => some (.conv convBgr24ToGray8)
  | .Bgr24, .Gray16 => some (.conv convBgr24ToGray16)
  | .Bgr24, .Gray32Float => some (.conv (convBgr24ToFloat enc))
  | .Bgr24, .Bgr24 => some (.same 3)
  | .Bgr24, .Bgr48 => some (.conv convBgr24ToBgr48)
  | .Bgr48, .Gray8 => some (.conv convBgr48ToGray8)
  | .Bgr48, .Gray16 => some (.conv convBgr48ToGray16)
  | .Bgr48, .Gray32Float => some (.conv (convBgr48ToFloat enc))
  | .Bgr48, .Bgr24 => some (.conv convBgr48ToBgr24)
  | .Bgr48, .Bgr48 => some (.same 6)
  | _, _ => none

/-- The early return of `CopyWithOffset` (BitmapOperations.cpp:177-184) and `CopyWithOffsetAndMask`
(BitmapOperationsBitonal.cpp:968-979), before the pixel types are looked at. -/
def nothingToCopy (src : Bitmap) (dst : Bitmap) (mask : Option Mask) (xOff yOff : Int) : Bool :=
  let w : Nat := match mask with | none => src.w | some m => min src.w m.w
  let h : Nat := match mask with | none => src.h | some m => min src.h m.h
  let i := IntRect.intersect ⟨xOff, yOff, w, h⟩ ⟨0, 0, dst.w, dst.h⟩
  decide (i.w = 0 ∨ i.h = 0)

/-- `BitonalBitmapOperations::CopyAt`, libCZI_Pixels.cpp:54-109, for non-null bitmaps of pixel types `ps` and `pd`. -/
def copyAt (enc : ℚ → Nat → UInt8) (ps pd : PixelType) (src dst : Bitmap) (mask : Option Mask) (xOff yOff : Int) :
    Outcome Bitmap :=
  if nothingToCopy src dst mask xOff yOff then .ok dst
  else match kindOf enc ps pd with
    | none => .throws
    | some k => orUndefined (copyWithOffsetAndMask k src dst mask xOff yOff)

end Verif.Blit
