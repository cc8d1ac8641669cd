import Verif.Spec.SubBlock
import Verif.Model.Layers

/-!
# What the pyramid statistics say about layers
-/

namespace Verif.Spec

/-- What `std::sort` does with the layers of a scene: the result has the same elements, and if the layers are different ones, none of them comes after one
that it goes before. -/
structure StdSort (sort : List (LayerInfo × Nat) → List (LayerInfo × Nat)) : Prop where
  perm : ∀ l, (sort l).Perm l
  sorted : ∀ l, (l.map (·.1)).Nodup → (sort l).Pairwise (fun a b => layerBefore b.1 a.1 = false)

/-- The order of the layers: full resolution first, then by increasing minification, sub-blocks that fit no layer last. -/
def LayerOrder (a b : LayerInfo) : Prop :=
  a ≠ b ∧ (a = (0, 0) ∨ b = (255, 255) ∨ (b ≠ (0, 0) ∧ a ≠ (255, 255) ∧ a.1 ^ a.2 < b.1 ^ b.2))

/-- The extents, in the document and as stored, along the longer side of the stored bitmap. -/
def longSide (e : Entry) : Int × Int :=
  if e.storedWidth > e.storedHeight then (e.width, e.storedWidth) else (e.height, e.storedHeight)

/-- The layers that the statistics can name. -/
def Regular (f n : Nat) : Prop := (f = 2 ∧ 1 ≤ n ∧ n ≤ 10) ∨ (f = 3 ∧ 1 ≤ n ∧ n ≤ 7)

/-- The sub-blocks among what happened. -/
def addedEntries : List PyrOp → List Entry
  | [] => []
  | .add e :: r => e :: addedEntries r
  | .ask :: r => addedEntries r

end Verif.Spec
