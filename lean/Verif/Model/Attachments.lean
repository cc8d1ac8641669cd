import Verif.Model.Parse
import Verif.Model.SubBlock

/-!
# The attachment directory of the reader and its enumeration
-/

namespace Verif.Czi

/-- `strcmp(t, p) == 0`, where `t` is the given C string (its bytes before the terminating zero) and `m` the memory at `p` up to the end of the structure which contains it. `none` = the comparison runs
past the end of the structure. -/
def strcmpEq : List UInt8 → List UInt8 → Option Bool
  | _, [] => none
  | [], b :: _ => some (b == 0)
  | a :: as, b :: bs => if a == b then strcmpEq as bs else some false

/-- `struct AttachmentInfo`, libCZI.h:370-376: the content-file-type (8 characters and a terminating zero) and the name as strings. -/
structure AttInfo where
  guid : Guid
  contentFileType : List UInt8
  name : List UInt8
  deriving DecidableEq

/-- The conversion in CziReaderCommon.cpp:92-93 and 101-103. -/
def AttEntry.info (e : AttEntry) : AttInfo := ⟨e.guid, Czi.cstr e.contentFileType.toList, Czi.cstr e.name.toList⟩

/-- The comparison with the type, CziReaderCommon.cpp:97. -/
def attTypeMatches (type : Option (List UInt8)) (e : AttEntry) : Option Bool :=
  match type with
  | none => some true
  | some t => strcmpEq t (e.contentFileType.toList ++ e.name.toList)

/-- The comparisons in `CziReaderCommon::EnumerateSubset`, CziReaderCommon.cpp:97-99. `ae.ContentFileType` is followed in memory by `ae.Name` (CziAttachmentsDirectory.h:20-26). -/
def attMatches (type name : Option (List UInt8)) (e : AttEntry) : Option Bool :=
  match attTypeMatches type e with
  | none => none
  | some false => some false
  | some true =>
    match name with
    | none => some true
    | some n => strcmpEq n e.name.toList

/-- `CCziAttachmentsDirectory::EnumAttachments`, CziAttachmentsDirectory.cpp:43-57, with the functor of `CziReaderCommon::EnumerateSubset`, CziReaderCommon.cpp:85-110. The callback is an arbitrary state
machine; `none` = undefined behaviour. -/
def attSubset {σ : Type} (type name : Option (List UInt8)) (f : σ → Int → AttInfo → Bool × σ) : List (Int × AttEntry) → σ → Option σ
  | [], st => some st
  | (i, e) :: es, st =>
    match attMatches type name e with
    | none => none
    | some false => attSubset type name f es st
    | some true => if (f st i e.info).1 = true then attSubset type name f es (f st i e.info).2 else some (f st i e.info).2

end Verif.Czi
