import Verif.Model.SubBlockMeta
import Verif.Spec.DocInfo
import Verif.Spec.NumText

/-!
# Specification: tags in the metadata of a sub-block
-/

namespace Verif.Spec
open Xml (Node Str)

/-- The tag: the first element with the name in the first `Tags` of the first `METADATA`. -/
def IsTag (doc : Node) (name : Str) (n : Node) : Prop :=
  ∃ p, PathDenotes doc (namesPath ["METADATA".toList, "Tags".toList, name]) p ∧ doc.at p = some n

/-- There is no such tag. -/
def NoTag (doc : Node) (name : Str) : Prop := ∀ n, ¬ IsTag doc name n

end Verif.Spec
