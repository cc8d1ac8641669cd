import Verif.Spec.Lookup
import Verif.Model.EditTrace

/-!
# Specification of a crash while a document is edited
-/

namespace Verif.Spec

open Verif.Czi

/-- The file that is left if the process stops during the call `op` on the reader-writer `s`: the first `k` writes of the call are complete, of the
next one only `j` bytes got to the file. -/
def leftBy (s : RW) (op : EditOp) (k j : Nat) : Disk := apply s.disk (cut (editWrites s op) k j)

/-- The document, except for its GUID if a new one was forced when it was opened for editing. -/
def reopened (info : RWInfo) (doc : Doc) : Doc :=
  { doc with header := if info.force then { doc.header with guid := info.guid } else doc.header }

/-- The call is a `WriteMetadata`. -/
def WritesMetadata : EditOp → Prop
  | .writeMetadata _ => True
  | _ => False

/-- The file cannot be opened, whatever the options. -/
def Unopenable (al : Alloc) (d : Disk) : Prop := ∀ o doc, openDoc al d.stream o ≠ .ok doc

end Verif.Spec
