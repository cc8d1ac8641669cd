import Verif.Spec.AddOverloads
import Verif.Spec.Text
import Verif.Model.CApi

/-!
# Specification of the values that cross the C API
-/

namespace Verif.Spec

open Verif.Czi Verif.CApi

/-- The bit of a dimension: Z is bit 0, B is bit 8. -/
def dimBit : Dim → Nat
  | .Z => 0 | .C => 1 | .T => 2 | .R => 3 | .S => 4 | .I => 5 | .H => 6 | .V => 7 | .B => 8

/-- How many dimensions before `d` have a value. -/
def rank {α : Type} (f : Dim → Option α) (d : Dim) : Nat := (Dim.all.filter fun e => decide (dimBit e < dimBit d) && (f e).isSome).length

/-- The bit field has the bits of the dimensions with values, and the array starts with their values in the order of the bits. -/
structure Represents {α : Type} (p : Packed α) (f : Dim → Option α) : Prop where
  bits : ∀ d, p.valid.testBit (dimBit d) = (f d).isSome
  values : ∀ d v, f d = some v → p.value (rank f d) = v

/-! ## Texts -/

/-- A character of a UTF-8 text: a byte that is no continuation byte (10xxxxxx), followed by continuation bytes. -/
def Utf8Char (c : List UInt8) : Prop :=
  ∃ b rest, c = b :: rest ∧ ¬(128 ≤ b.toNat ∧ b.toNat < 192) ∧ ∀ r ∈ rest, 128 ≤ r.toNat ∧ r.toNat < 192

/-- The first `k` characters. -/
def firstChars (chars : List (List UInt8)) (k : Nat) : List UInt8 := (chars.take k).flatten

/-- The buffer starts with these bytes. -/
def StartsWith (b : Buf) (l : List UInt8) : Prop := ∀ i (h : i < l.length), b.read i = some l[i]

/-- Nothing changed from byte `n` on. -/
def SameFrom (n : Nat) (b b' : Buf) : Prop := b'.size = b.size ∧ ∀ i, n ≤ i → b'.get i = b.get i

/-- The number written with these hexadecimal digits (of either case). -/
def hexNumber (cs : List Char) : Option Nat := cs.foldl (fun a c => a.bind fun n => (hexDigit c).map fun d => 16 * n + d) (some 0)

/-- The text of a GUID: groups of 8, 4, 4, 4 and 12 hexadecimal digits separated by dashes; the first three groups are the numbers `Data1`, `Data2` and
`Data3`, the digits of the last two groups are the bytes of `Data4`. -/
structure GuidText (g : Guid) (t : List Char) : Prop where
  intro ::
  parts : ∃ p1 p2 p3 p4 p5 : List Char, t = p1 ++ '-' :: (p2 ++ '-' :: (p3 ++ '-' :: (p4 ++ '-' :: p5))) ∧
    p1.length = 8 ∧ p2.length = 4 ∧ p3.length = 4 ∧ p4.length = 4 ∧ p5.length = 12 ∧
    hexNumber p1 = some g.data1.toNat ∧ hexNumber p2 = some g.data2.toNat ∧ hexNumber p3 = some g.data3.toNat ∧
    ∀ i : Fin 8, ∃ h l, (p4 ++ p5)[2 * i.val]? = some h ∧ (p4 ++ p5)[2 * i.val + 1]? = some l ∧ HexByte h l g.data4[i]

/-! ## Sub-blocks -/

/-- What is to be reported of a sub-block added through the C API. -/
structure Reported (a : AddInterop) (i : InfoInterop) : Prop where
  compression : i.compression = a.compression
  pixelType : i.pixelType = a.pixelType
  coordinate : Represents i.coordinate (coordFromInterop a.coordinate)
  rect : i.rect = (a.x, a.y, a.logicalWidth, a.logicalHeight)
  size : i.size = (a.physicalWidth, a.physicalHeight)
  mIndex : i.mIndex = if a.mIndexValid = true ∧ a.mIndex ≠ 2147483647 then a.mIndex else -2147483648

/-- The arguments of a call to add an uncompressed bitmap of `w` times `h` pixels with `bpp` bytes each, smaller than 2 GB: numbers are values of
their C++ types and the memory for metadata and attachment is there. -/
structure InteropArgs (a : AddInterop) (w h bpp : Nat) : Prop where
  coordinate : ∀ k, IsInt32 (a.coordinate.value k)
  ints : IsInt32 a.mIndex ∧ IsInt32 a.x ∧ IsInt32 a.y ∧ IsInt32 a.logicalWidth ∧ IsInt32 a.logicalHeight
  known : a.pixelType ∈ [0, 1, 2, 3, 4, 8, 9, 10, 11, 12, 13]
  pixel : bytesPerPel (pixelTypeFromInt a.pixelType) = some bpp
  width : a.physicalWidth = w
  height : a.physicalHeight = h
  pos : 0 < w ∧ 0 < h
  size : h * (w * bpp) ≤ 2147483647
  metadata : Valid a.metadata ∧ a.metadata.size ≤ 2147483647
  attachment : Valid a.attachment ∧ a.attachment.size ≤ 2147483647

end Verif.Spec
