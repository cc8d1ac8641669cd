import Verif.Model.Parse
import Verif.Spec.Text

/-!
# Specification vocabulary for parsing the sub-block directory

The layout of a sub-block directory and the rules on its entries, as documented, not as coded: positions and fields
of the entries in the directory's bytes, and the rules of strict parsing (libCZI.h, `OpenOptions`).
-/

namespace Verif.Spec

open Verif.Czi

/-- The letters of the dimensions, in upper or lower case. -/
def IsX (b : UInt8) : Prop := b = 88 ∨ b = 120
def IsY (b : UInt8) : Prop := b = 89 ∨ b = 121
def IsM (b : UInt8) : Prop := b = 77 ∨ b = 109
/-- B, C, H, I, R, S, T, V, Z. -/
def IsOther (b : UInt8) : Prop := b ∈ [66, 67, 72, 73, 82, 83, 84, 86, 90, 98, 99, 104, 105, 114, 115, 116, 118, 122].map UInt8.ofNat

instance (b : UInt8) : Decidable (IsX b) := inferInstanceAs (Decidable (_ ∨ _))
instance (b : UInt8) : Decidable (IsY b) := inferInstanceAs (Decidable (_ ∨ _))
instance (b : UInt8) : Decidable (IsM b) := inferInstanceAs (Decidable (_ ∨ _))
instance (b : UInt8) : Decidable (IsOther b) := inferInstanceAs (Decidable (_ ∈ _))

/-- A known dimension. -/
def KnownLetter (b : UInt8) : Prop := IsX b ∨ IsY b ∨ IsM b ∨ IsOther b

/-- The rules on the dimension entries `ds` of a directory entry; `e` is the entry as delivered. -/
structure Rules (o : ParseOptions) (ds : List DimEntry) (e : Entry) : Prop where
  /-- X and Y must be present. -/
  xy : o.xyMustBePresent = true → (∃ d ∈ ds, IsX d.char) ∧ (∃ d ∈ ds, IsY d.char)
  /-- The size of all dimensions but X, Y and M is one. -/
  other : o.otherMustHaveSizeOne = true → ∀ d ∈ ds, IsOther d.char → d.size = 1
  /-- The physical size of all dimensions but X, Y and M is one. -/
  physical : o.physicalOtherMustHaveSizeOne = true → ∀ d ∈ ds, IsOther d.char → d.stored = 1
  /-- The size of M is one. -/
  m : o.mMustHaveSizeOne = true → ∀ d ∈ ds, IsM d.char → d.size = 1
  /-- The size of M is one, or the sub-block is in a pyramid layer (its stored and logical size differ). -/
  mLayer0 : o.mMustHaveSizeOneExceptForPyramid = true →
    (∀ d ∈ ds, IsM d.char → d.size = 1) ∨ ¬ (e.width = e.storedWidth ∧ e.height = e.storedHeight)

/-- The number of dimensions given in the DV entry at `cur`. -/
def countAt (buf : List UInt8) (cur : Nat) : Int := fieldInt buf (cur + 28) 4

/-- The dimension entries of the DV entry at `cur`. -/
def dimsAt (buf : List UInt8) (cur : Nat) : List DimEntry := dimEntries (buf.drop (cur + 32)) (countAt buf cur).toNat

/-- The positions of the DV entries among `n` entries from `cur` on: an entry has 32 bytes and 20 bytes for each dimension; of an entry with an
unknown schema only the schema (2 bytes) is skipped. -/
def dvPositions (buf : List UInt8) : Nat → Nat → List Nat
  | 0, _ => []
  | n + 1, cur =>
    if field buf cur 2 = [68, 86] then cur :: dvPositions buf n (cur + 32 + 20 * (countAt buf cur).toNat)
    else dvPositions buf n (cur + 2)

/-- Every DV entry has between 0 and 40 dimensions. -/
def CountsOk (buf : List UInt8) (n cur : Nat) : Prop := ∀ p ∈ dvPositions buf n cur, 0 ≤ countAt buf p ∧ countAt buf p ≤ 40

end Verif.Spec
