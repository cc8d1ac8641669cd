import Verif.Spec.Czi
import Verif.Model.AddOverloads
import Verif.Model.Zstd

/-!
# Specification of the convenience forms of adding a sub-block
-/

namespace Verif.Spec

open Verif.Czi

/-- The memory announced is there (a pointer is not needed for 0 bytes). -/
def Valid (g : Given) : Prop := g.size = 0 ∨ ∃ b, g.ptr = some b ∧ g.size ≤ b.size

/-- What a user sees of the memory given as metadata or attachment: its size and its bytes unless it is empty. -/
def Shown (g : Given) (p : Payload) : Prop :=
  p.size = g.size ∧ if g.size = 0 then p.bytes = none else ∃ b l, g.ptr = some b ∧ p.bytes = some l ∧ l.length = g.size ∧ ∀ i < g.size, l[i]? = some (b.get i)

/-- The descriptive part of a sub-block is as given. -/
def Described (b : AddBase) (v : SbView) : Prop :=
  v.pixelType = b.pixelType ∧ v.compression = b.compression ∧ v.coordinate = b.coordinate ∧ v.mIndex = b.mIndex.bind validM ∧
    v.logicalRect = (b.x, b.y, b.logicalWidth, b.logicalHeight) ∧ v.physicalSize = (b.physicalWidth, b.physicalHeight) ∧
    v.pyramidType = if b.pyramidType = .Invalid then .None else b.pyramidType

/-- The bitmap of an uncompressed sub-block (`ISubBlock::CreateBitmap`, with or without resolving mismatches of the size) has this size, and byte
`i` of line `y` of its pixels is `f y i`. -/
def Picture (v : SbView) (w h lineBytes : Nat) (f : Nat → Nat → UInt8) : Prop :=
  v.compression = 0 ∧ v.physicalSize = ((w : Int), (h : Int)) ∧ ∃ l, v.data.bytes = some l ∧ v.data.size = l.length ∧
    ∀ fresh mismatch, ∃ bm, Zstd.uncompressed fresh l v.pixelType w h mismatch = some (.ok bm) ∧ bm.w = w ∧ bm.h = h ∧
      ∀ y < h, ∀ i < lineBytes, bm.buf.read (y * bm.stride + i) = some (f y i)

/-- The numbers are values of their C++ types. -/
structure BaseFits (b : AddBase) : Prop where
  coordinate : CoordInt32 b.coordinate
  mIndex : ∀ m, b.mIndex = some m → IsInt32 m
  x : IsInt32 b.x
  y : IsInt32 b.y
  logicalWidth : IsInt32 b.logicalWidth
  logicalHeight : IsInt32 b.logicalHeight
  physicalWidth : IsInt32 b.physicalWidth
  physicalHeight : IsInt32 b.physicalHeight
  compression : IsInt32 b.compression

/-- An uncompressed bitmap of `w` times `h` pixels with `bpp` bytes each, smaller than 2 GB, whose numbers are values of their C++ types, with
metadata and an attachment smaller than 2 GB whose memory is there. -/
structure BitmapArgs (b : AddBase) (metadata attachment : Given) (w h bpp : Nat) : Prop where
  fits : BaseFits b
  pixel : bytesPerPel b.pixelType = some bpp
  width : b.physicalWidth = w
  height : b.physicalHeight = h
  pos : 0 < w ∧ 0 < h
  size : h * (w * bpp) ≤ 2147483647
  uncompressed : b.compression = 0
  metadata : Valid metadata ∧ metadata.size ≤ 2147483647
  attachment : Valid attachment ∧ attachment.size ≤ 2147483647

/-- A user sees this picture, and everything else as given. -/
structure Shows (b : AddBase) (metadata attachment : Given) (w h bpp : Nat) (f : Nat → Nat → UInt8) (v : SbView) : Prop where
  described : Described b v
  picture : Picture v w h (w * bpp) f
  metadata : Shown metadata v.metadata
  attachment : Shown attachment v.attachment

/-- What is made out of the arguments of a call: a sub-block that can be written and that is to be shown with this picture. -/
structure Delivers (b : AddBase) (metadata attachment : Given) (w h bpp : Nat) (f : Nat → Nat → UInt8) (a : AddInfo) : Prop where
  writable : SubOk a ∧ a.sizeData ≤ 2147483647
  shows : Shows b metadata attachment w h bpp f (viewAdded a)

end Verif.Spec
