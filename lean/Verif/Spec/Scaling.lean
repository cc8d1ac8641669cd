import Verif.Model.Scaling
import Verif.Spec.DocInfo
import Verif.Spec.NumText

/-!
# Specification: scaling information
-/

namespace Verif.Spec
open Xml (Node Str Axis Scaling Num)

/-- The place of the scaling information: the field of the first `Distance` with the identifier. -/
def scalingField (a : Axis) (field : String) : List Selector :=
  [.first "Metadata".toList, .first "Scaling".toList, .first "Items".toList, .having "Distance".toList [("Id".toList, [a.char])], .first field.toList]

/-- The node the steps lead to (if there is one) contains nothing but text that is not CDATA. -/
def OnlyText (doc : Node) (sels : List Selector) : Prop :=
  ∀ p n, PathDenotes doc sels p → doc.at p = some n → ∀ c ∈ n.children, ∃ v, c = .text false v

/-- The steps lead to a node that contains an element. -/
def HasElement (doc : Node) (sels : List Selector) : Prop :=
  ∃ p n c, PathDenotes doc sels p ∧ doc.at p = some n ∧ c ∈ n.children ∧ c.isElement = true

/-- A value and a unit that are given in the scaling information. -/
def Given (s : Scaling) (a : Axis) (field : String) : Prop :=
  field = "Value" ∧ (∃ x, s.scale a = .fin x) ∨ field = "DefaultUnitFormat" ∧ s.unit a ≠ []

/-- The number was read for `x`: it is finite, and the relative error is at most 6·10⁻¹⁵. -/
def NearDouble (x : ℚ) (r : Num) : Prop := ∃ y, r = .fin y ∧ |y - x| ≤ |x| * (6 / 10 ^ 15)

/-- The node that the steps lead to. -/
def NodeAt (doc : Node) (sels : List Selector) (n : Node) : Prop := ∃ p, PathDenotes doc sels p ∧ doc.at p = some n

end Verif.Spec
