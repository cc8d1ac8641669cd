import Verif.Model.CApiData
import Verif.Spec.CApi

/-!
# Specification of attachments, metadata and pixels that cross the C interface
-/

namespace Verif.Spec
open Verif.CApi Verif.Czi Verif.Blit

/-- The text in a field of fixed size: up to the first zero byte, or the whole field. -/
def fieldText (l : List UInt8) : List UInt8 := l.takeWhile (· ≠ 0)

/-- What the C interface says about an attachment is what was given for it: the same GUID, type and name; the name is complete, and zero-terminated. -/
structure AttReported (a : AttInterop) (r : AttInfoInterop) : Prop where
  guid : r.guid = a.guid.toList
  contentFileType : r.contentFileType = fieldText a.contentFileType.toList
  name : StartsWith r.name (fieldText a.name.toList ++ [0])
  complete : r.nameOverflow = false ∧ r.longName = none

/-- The memory that was given: its `size` bytes. -/
def GivenBytes (g : Given) (l : List UInt8) : Prop :=
  l.length = g.size ∧ (0 < g.size → ∃ b, g.ptr = some b ∧ g.size ≤ b.size ∧ ∀ i < g.size, l[i]? = some (b.get i))

/-- The memory contains the pixels of the bitmap: line `y` begins at `y * stride` and has `line` bytes; the bytes between the lines and after them are as
before. -/
structure HoldsLines (b : Bitmap) (line stride : Nat) (old new : Buf) : Prop where
  size : new.size = old.size
  pixels : ∀ y < b.h, ∀ k < line, new.get (y * stride + k) = b.buf.get (y * b.stride + k)
  rest : ∀ i, (∀ y < b.h, ¬ (y * stride ≤ i ∧ i < y * stride + line)) → new.get i = old.get i

end Verif.Spec
