import Verif.Model.Lookup
import Verif.Spec.SubBlock

/-!
# Specification of looking things up by index

What an index denotes, and what it means that an `AttachmentInfo` describes an entry of the directory: the texts in the structure, read the way C reads them,
are the texts in the fixed-size fields of the entry.
-/

namespace Verif.Spec
open Verif.Czi

/-- The memory `m` read as a C string is `t`: the text is followed by a zero. -/
def TextAt (m t : List UInt8) : Prop := (0 : UInt8) ∉ t ∧ ∃ rest, m = t ++ 0 :: rest

/-- The field `m` of fixed size holds the text `t`: it fills the field or is followed by a zero. -/
def FieldText (m t : List UInt8) : Prop := (0 : UInt8) ∉ t ∧ (m = t ∨ ∃ rest, m = t ++ 0 :: rest)

/-- The information describes the attachment. -/
def DescribesAtt (i : RawAttInfo) (e : AttEntry) : Prop :=
  i.guid = e.guid ∧ (∃ t, FieldText e.contentFileType.toList t ∧ TextAt i.fileType t) ∧ FieldText e.name.toList i.name

/-- The information has this type and this name (`none` = any). -/
def HasTypeAndName (type name : Option (List UInt8)) (i : RawAttInfo) : Prop :=
  (∀ t, type = some t → TextAt i.fileType t) ∧ (∀ n, name = some n → i.name = n)

/-- The calls made on a reader-writer, one after the other, going on after exceptions. -/
def rwCalls (s : RW) (ops : List EditOp) : RW := ops.foldl (fun s op => (editStep s op).1) s

/-- The name of the attachment handed to the call (if it is one that hands over an attachment) ends within its field. -/
def NameEnds : EditOp → Prop
  | .addAttachment a => (0 : UInt8) ∈ a.name.toList
  | .replaceAttachment _ a => (0 : UInt8) ∈ a.name.toList
  | _ => True

end Verif.Spec
