import Verif.Model.CApiView
import Verif.Spec.ScaledView

/-! # What the options for a picture given to the C interface mean -/

namespace Verif.Spec
open Verif.Fill Verif.Viewer Verif.JsonOpt

/-- What the options of the C interface mean: without options there is no background colour, and tiles are sorted. -/
def ApiMeans (opts : Option (AccessorInterop Fl)) (o : ScaledOptions) : Prop :=
  o.scenes = none ∧
  match opts with
  | none => ¬ Coloured o.view.background ∧ o.view.sortByM = true ∧ o.view.useVisibilityCheck = false
  | some a => o.view.background = ⟨a.red, a.green, a.blue⟩ ∧ o.view.sortByM = a.sortByM ∧ o.view.useVisibilityCheck = a.useVisibilityCheck

end Verif.Spec
